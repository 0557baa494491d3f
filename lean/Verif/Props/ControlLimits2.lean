import Verif.Props.ControlWait
/-!
# Examples and counterexamples for the results of `keymapperctl`
-/
namespace KM

/-- The client of the examples, and a connection of `keymapperctl` -/
def exHost : CtlHost := ⟨exEnv, exPortFs, "a".toList, 1⟩

/-- `keymapperctl` just connected -/
def exCtl : CtlSys := { hist := exPortOps }

/-- Current directory of the examples -/
def exAbs (f : Str) : Option Str := some f

theorem exCtl_idle : exCtl.Idle exHost := by
  refine ⟨rfl, by decide +kernel, ?_⟩
  rw [waitsFor_iff (CtlSys.client_inv _ _)]
  have : ((ctlOf exHost.socket (exCtl.client exHost).control.controls).all
      (fun x => x.toggleKey == Key.none && !x.nextKeyInfo)) = true := by decide +kernel
  intro x hx
  rw [hx] at this
  simpa using this

/-- `C65_is_pressed`, `C65_not_found`: the hypotheses are met, and the results -/
example : exCtl.Idle exHost ∧ exCtl.connected exHost = true ∧
    (∀ op ∈ [ClientOp.server (.virtualKeyState 61699 .Down)], ForeignOp exHost.socket op) ∧
    (exHost.after (exCtl.hist ++ [.server (.virtualKeyState 61699 .Down)] ++
      .control exPortFs none exHost.socket (.getState "Boss".toList) :: [])).isOpen exHost.socket = true ∧
    (exCtl.makeRequest exHost exAbs ⟨.isPressed, "Boss".toList, none⟩ .yes
      (handled [.server (.virtualKeyState 61699 .Down)] exPortFs none []) []).1 = .yes ∧
    (exCtl.makeRequest exHost exAbs ⟨.isReleased, "Boss".toList, none⟩ .yes
      (handled [.server (.virtualKeyState 61699 .Down)] exPortFs none []) []).1 = .no ∧
    (exCtl.makeRequest exHost exAbs ⟨.isPressed, "bogus".toList, none⟩ .yes (handled [] exPortFs none []) []).1 =
      .keyNotFound := by
  refine ⟨exCtl_idle, by decide +kernel, ?_, by decide +kernel⟩
  intro op ho
  simp at ho
  subst ho
  exact ⟨by simp, by simp⟩

/-- `C65_press`, `C65_inject`, `C65_timeout` -/
example :
    (exCtl.makeRequest exHost exAbs ⟨.press, "Boss".toList, none⟩ .yes (handled [] exPortFs none []) []).1 = .yes ∧
    (toServer (exHost.after (exCtl.hist ++ [.control exPortFs none 1 (.setState "Boss".toList .Down)])).out).any
      (fun | .setVirtualKeyState k st => k == 61699 && st == .Down | _ => false) = true ∧
    (exCtl.makeRequest exHost exAbs ⟨.injectOutput, "A B".toList, none⟩ .yes (handled [] exPortFs none []) []).1 = .yes ∧
    (exCtl.makeRequest exHost exAbs ⟨.injectOutput, "bogus".toList, none⟩ .yes (handled [] exPortFs none []) []).1 = .no ∧
    (exCtl.makeRequest exHost exAbs ⟨.isPressed, "Boss".toList, some 10⟩ .yes
      ([ClientOp.server (.virtualKeyState 61699 .Down)].map SysOp.client) []).1 = .timeout := by decide +kernel

/-- `C65_wait`, `C65_waited`: the key is told to be down after the client handled both messages. -/
example :
    (exCtl.makeRequest exHost exAbs ⟨.waitPressed, "Boss".toList, none⟩ .yes (handled [] exPortFs none [])
      (handled [] exPortFs none [.server (.virtualKeyState 61699 .Down)])).1 = .yes ∧
    (exCtl.makeRequest exHost exAbs ⟨.waitPressed, "Boss".toList, none⟩ .yes (handled [] exPortFs none [])
      (handled [] exPortFs none [.server (.virtualKeyState 61700 .Down)])).1 = .timeout := by decide +kernel

/-- `C65_connection_failed`: the client closes the connection. -/
example : (exCtl.makeRequest exHost exAbs ⟨.isPressed, "Boss".toList, none⟩ .yes
      (handled [] exPortFs none [.controlClosed 1]) []).1 = .connectionFailed := by decide +kernel

/-- **C65** does not hold for waiting: waiting until an unknown key is pressed succeeds at once, while asking if it is pressed
tells that it is not found. -/
theorem C65_wait_unknown_counterexample : ∃ (h : CtlHost) (abs : Str → Option Str) (s : CtlSys) (f : FileSys) (name : Str),
    s.Idle h ∧ getKeyByName name = Key.none ∧
    (s.makeRequest h abs ⟨.waitPressed, name, none⟩ .yes (handled [] f none []) (handled [] f none [])).1 = .yes ∧
    (s.makeRequest h abs ⟨.isPressed, name, none⟩ .yes (handled [] f none []) []).1 = .keyNotFound :=
  ⟨exHost, exAbs, exCtl, exPortFs, "bogus".toList, exCtl_idle, by decide +kernel⟩

/-- **C65** does not hold for waiting: when the key is pressed after its state was asked for, and before the client handled
that it waits, then waiting until it is pressed succeeds when the key is *released*, and times out when it stays
pressed. -/
theorem C65_wait_race_counterexample : ∃ (h : CtlHost) (abs : Str → Option Str) (s : CtlSys) (f : FileSys) (name : Str)
    (k : Key), s.Idle h ∧
    (s.makeRequest h abs ⟨.waitPressed, name, none⟩ .yes (handled [] f none [])
      (handled [.server (.virtualKeyState k .Down)] f none [])).1 = .timeout ∧
    (s.makeRequest h abs ⟨.waitPressed, name, none⟩ .yes (handled [] f none [])
      (handled [.server (.virtualKeyState k .Down)] f none [.server (.virtualKeyState k .Up)])).1 = .yes ∧
    toldDown k (s.makeRequest h abs ⟨.waitPressed, name, none⟩ .yes (handled [] f none [])
      (handled [.server (.virtualKeyState k .Down)] f none [.server (.virtualKeyState k .Up)])).2.hist = false :=
  ⟨exHost, exAbs, exCtl, exPortFs, "Boss".toList, 61699, exCtl_idle, by decide +kernel⟩

/-- **C65** does not hold after a timeout: the notification about the key which was waited for is taken for the answer
to a later request about another key. -/
theorem C65_late_reply_counterexample : ∃ (h : CtlHost) (abs : Str → Option Str) (s : CtlSys) (f : FileSys) (name : Str)
    (k : Key), s.Idle h ∧
    (let r := s.makeRequest h abs ⟨.waitPressed, name, some 10⟩ .yes (handled [] f none []) (handled [] f none [])
     r.1 = .timeout ∧ toldDown 61700 r.2.hist = false ∧
     (r.2.makeRequest h abs ⟨.isPressed, "Virtual4".toList, none⟩ .timeout
       ([ClientOp.server (.virtualKeyState k .Down)].map SysOp.client) []).1 = .yes) :=
  ⟨exHost, exAbs, exCtl, exPortFs, "Boss".toList, 61699, exCtl_idle, by decide +kernel⟩

/-- `C65_last_reply`: the notification about a key which is no longer waited for (it is pressed) is read together with the reply about another
key (which is not). -/
example :
    (let r := exCtl.makeRequest exHost exAbs ⟨.waitPressed, "Boss".toList, some 10⟩ .yes (handled [] exPortFs none []) (handled [] exPortFs none [])
     let ops := handled [.server (.virtualKeyState 61699 .Down)] exPortFs none []
     let t := ({ r.2 with sent := r.2.sent ++ [.getState "Virtual4".toList] } : CtlSys).run exHost ops
     r.1 = .timeout ∧ r.2.connected exHost = true ∧ t.connected exHost = true ∧
     t.pending exHost = [.keyState 61699 .Down] ++ [.keyState 61700 .Up] ∧
     (r.2.makeRequest exHost exAbs ⟨.isPressed, "Virtual4".toList, none⟩ .timeout ops []).1 = .no) := by decide +kernel

end KM
