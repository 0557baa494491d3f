import Verif.Lemmas.ClientRun
import Verif.Spec.ControlPort
/-!
# Lemmas about the control port: how a step of the client changes it
-/
namespace KM

theorem repliesTo_append (s : Nat) (a b : List CEff) : repliesTo s (a ++ b) = repliesTo s a ++ repliesTo s b := by
  simp [repliesTo]

/-- Nothing happened to the control port -/
def PortKept (c d : Client) : Prop :=
  d.control.down = c.control.down ∧ d.control.controls = c.control.controls ∧ d.control.ub = c.control.ub ∧
  ∀ s, repliesTo s d.out = repliesTo s c.out

theorem PortKept.refl (c : Client) : PortKept c c := ⟨rfl, rfl, rfl, fun _ => rfl⟩

theorem PortKept.trans {c d e : Client} (h : PortKept c d) (g : PortKept d e) : PortKept c e :=
  ⟨g.1.trans h.1, g.2.1.trans h.2.1, g.2.2.1.trans h.2.2.1, fun s => (g.2.2.2 s).trans (h.2.2.2 s)⟩

theorem Client.send_kept (c : Client) (m : ToServer) : PortKept c (c.send m) := by
  rw [Client.send]
  split
  · exact ⟨rfl, rfl, rfl, fun s => by rw [repliesTo_append]; exact List.append_nil _⟩
  · exact .refl c

theorem Client.updateActiveContexts_kept (rx : Regex) (c : Client) (upd : Option Window) :
    PortKept c (c.updateActiveContexts rx upd).1 := by
  rw [Client.updateActiveContexts_rest]; exact ⟨rfl, rfl, rfl, fun _ => rfl⟩

theorem Client.sendConfig_kept (rx : Regex) (c : Client) (upd : Option Window) :
    PortKept c (c.sendConfig rx upd).1 := by
  obtain ⟨l, h1, h2⟩ := Client.sendConfig_out rx c upd
  have hr : ∀ s, repliesTo s (c.sendConfig rx upd).1.out = repliesTo s c.out := by
    intro s
    rw [h1, repliesTo_append]
    have : repliesTo s l = [] := by
      rw [repliesTo, List.filterMap_eq_nil_iff]
      intro e he
      rcases h2 e he with h | ⟨i, h⟩ <;> rw [h]
    rw [this, List.append_nil]
  by_cases hc : c.isConnected = true
  · refine ⟨?_, ?_, ?_, hr⟩ <;> (rw [Client.sendConfig_eq rx c upd hc]; split <;> rfl)
  · rw [Client.sendConfig, if_neg hc]; exact .refl c

theorem Client.loadConfig_kept (env : ClientEnv) (fs : FileSys) (c : Client) (filename : Str) :
    PortKept c (c.loadConfig env fs filename).1 := by
  rw [Client.loadConfig_rest]; exact ⟨rfl, rfl, rfl, fun _ => rfl⟩

theorem Client.updateConfig_kept (env : ClientEnv) (fs : FileSys) (c : Client) (b : Bool) :
    PortKept c (c.updateConfig env fs b).1 := ⟨rfl, rfl, rfl, fun _ => rfl⟩

theorem Client.onSetConfigFile_kept (env : ClientEnv) (fs : FileSys) (upd : Option Window) (c : Client)
    (filename : Str) : PortKept c (c.onSetConfigFile env fs upd filename).1 := by
  rw [Client.onSetConfigFile]
  split
  · exact (Client.loadConfig_kept env fs c filename).trans (Client.sendConfig_kept _ _ _)
  · exact Client.loadConfig_kept env fs c filename

theorem Client.toggleActive_kept (rx : Regex) (c : Client) (upd : Option Window) :
    PortKept c (c.toggleActive rx upd) := by
  rw [Client.toggleActive]
  split
  · exact PortKept.trans (d := { c with active := false, activeContexts := [] }) ⟨rfl, rfl, rfl, fun _ => rfl⟩
      (Client.send_kept _ _)
  · refine PortKept.trans (d := { c with active := true }) ⟨rfl, rfl, rfl, fun _ => rfl⟩ ?_
    exact (Client.updateActiveContexts_kept _ _ _).trans (Client.send_kept _ _)

/-- The control port after a step -/
def portAfter (c : Client) : ClientOp → CPort
  | .disconnected => c.control.reset
  | .server (.virtualKeyState k st) => (c.control.onKeyState k st).1
  | .server (.nextKeyInfo k device) => (c.control.replyKeyInfo ⟨k, c.window, device⟩).1
  | .accept s => c.control.accept s
  | .controlClosed s => c.control.close s
  | .control _ _ s m =>
    if c.isOpen s then
      match m with
      | .getState name => (c.control.replyState s (c.control.virtualKey name)).1
      | .setState name _ => (c.control.replyState s (c.control.virtualKey name)).1
      | .requestToggle name => (c.control.requestToggle s (c.control.virtualKey name)).1
      | .setInstanceId id => c.control.setInstanceId s id
      | .nextKeyInfo => c.control.modControl s (fun x => { x with nextKeyInfo := true })
      | _ => c.control
    else c.control
  | _ => c.control

/-- The replies to a request -/
def requestReplies (env : ClientEnv) (c : Client) (fs : FileSys) (upd : Option Window) : CtlMsg → List CtlReply
  | .getState name => [.keyState (c.control.virtualKey name) (c.control.keyState (c.control.virtualKey name))]
  | .setState name _ => [.keyState (c.control.virtualKey name) (c.control.keyState (c.control.virtualKey name))]
  | .requestToggle name =>
    if c.control.virtualKey name = Key.none then [.keyState Key.none (c.control.keyState Key.none)] else []
  | .setInstanceId _ => [.keyState Key.none .Not]
  | .setConfigFile filename => [.keyState Key.none (resultState (c.onSetConfigFile env fs upd filename).2)]
  | .nextKeyInfo => []
  | .injectInput text => [.keyState Key.none (resultState (injectedSequence env text).isSome)]
  | .injectOutput text => [.keyState Key.none (resultState (injectedSequence env text).isSome)]

/-- The replies to a control in a step -/
def newReplies (env : ClientEnv) (c : Client) (s : Nat) : ClientOp → List CtlReply
  | .server (.virtualKeyState k st) =>
    if isVirtualKey k then
      (c.control.controls.filter (fun x => x.toggleKey = k ∧ x.socket = s)).map
        (fun _ => .keyState k ((c.control.onKeyState k st).1.keyState k))
    else []
  | .server (.nextKeyInfo k device) =>
    (c.control.controls.filter (fun x => x.nextKeyInfo ∧ x.socket = s)).map (fun _ => .keyInfo ⟨k, c.window, device⟩)
  | .control fs upd s' m => if s' = s ∧ c.isOpen s then requestReplies env c fs upd m else []
  | _ => []

theorem repliesTo_replies (s : Nat) (l : List (Nat × CtlReply)) :
    repliesTo s (l.map (fun x => CEff.control x.1 x.2)) = (l.filter (fun x => x.1 = s)).map (·.2) := by
  induction l with
  | nil => rfl
  | cons x l ih =>
    rw [List.map_cons, repliesTo, List.filterMap_cons, List.filter_cons]
    by_cases h : x.1 = s
    · simp only [h, if_true, decide_true, List.map_cons]
      rw [← ih]; rfl
    · simp only [h, if_false, decide_false, Bool.false_eq_true]
      rw [← ih]; rfl

theorem repliesTo_setControl (c : Client) (r : CPort × List (Nat × CtlReply)) (s : Nat) :
    repliesTo s (c.setControl r).out = repliesTo s c.out ++ (r.2.filter (fun x => x.1 = s)).map (·.2) := by
  rw [← repliesTo_replies, ← repliesTo_append]; rfl

/-- The step changed the control port like this -/
def PortStep (c d : Client) (p : CPort) (r : Nat → List CtlReply) : Prop :=
  d.control.down = p.down ∧ d.control.controls = p.controls ∧ d.control.ub = p.ub ∧
  ∀ s, repliesTo s d.out = repliesTo s c.out ++ r s

theorem PortKept.step {c d : Client} (h : PortKept c d) : PortStep c d c.control (fun _ => []) :=
  ⟨h.1, h.2.1, h.2.2.1, fun s => by rw [h.2.2.2 s]; simp⟩

theorem portStep_setControl (c : Client) (r : CPort × List (Nat × CtlReply)) :
    PortStep c (c.setControl r) r.1 (fun s => (r.2.filter (fun x => x.1 = s)).map (·.2)) :=
  ⟨rfl, rfl, rfl, fun s => repliesTo_setControl c r s⟩

theorem PortStep.congr {c d : Client} {p q : CPort} {r t : Nat → List CtlReply} (h : PortStep c d p r)
    (hp : p = q) (hr : ∀ s, r s = t s) : PortStep c d q t := by
  subst hp
  exact ⟨h.1, h.2.1, h.2.2.1, fun s => by rw [h.2.2.2 s, hr s]⟩

theorem repliesTo_reply (c : Client) (s' s : Nat) (k : Key) (st : KeyState) :
    repliesTo s (c.reply s' k st).out = repliesTo s c.out ++ (if s' = s then [.keyState k st] else []) := by
  show repliesTo s (c.out ++ [CEff.control s' (.keyState k st)]) = _
  rw [repliesTo_append]
  by_cases h : s' = s
  · simp [repliesTo, h]
  · simp [repliesTo, h]

/-- How a step changes the control port, and what it replies -/
theorem step_port (env : ClientEnv) (c : Client) (op : ClientOp) :
    PortStep c (c.step env op) (portAfter c op) (fun s => newReplies env c s op) := by
  cases op with
  | connect upd =>
    have h : PortKept c { c with isConnected := true, out := c.out ++ [CEff.connected] } :=
      ⟨rfl, rfl, rfl, fun s => by rw [repliesTo_append]; exact List.append_nil _⟩
    exact (h.trans (Client.sendConfig_kept _ _ _)).step
  | lost => exact PortKept.step ⟨rfl, rfl, rfl, fun _ => rfl⟩
  | disconnected => exact ⟨rfl, rfl, rfl, fun s => (List.append_nil _).symm⟩
  | autoUpdate fs upd =>
    refine PortKept.step ?_
    show PortKept c (if (c.updateConfig env fs true).2 then ((c.updateConfig env fs true).1.sendConfig env.rx upd).1
      else (c.updateConfig env fs true).1)
    split
    · exact (Client.updateConfig_kept env fs c true).trans (Client.sendConfig_kept _ _ _)
    · exact Client.updateConfig_kept env fs c true
  | updateContexts upd =>
    refine PortKept.step ?_
    show PortKept c (if (c.updateActiveContexts env.rx upd).2 then (c.updateActiveContexts env.rx upd).1.sendActiveContexts
      else (c.updateActiveContexts env.rx upd).1)
    split
    · exact (Client.updateActiveContexts_kept _ _ _).trans (Client.send_kept _ _)
    · exact Client.updateActiveContexts_kept _ _ _
  | server m =>
    cases m with
    | executeAction i =>
      refine PortKept.step ?_
      show PortKept c (c.onExecuteAction i)
      rw [Client.onExecuteAction]
      split
      · split
        · exact ⟨rfl, rfl, rfl, fun s => by rw [repliesTo_append]; exact List.append_nil _⟩
        · exact .refl c
      · exact .refl c
    | virtualKeyState k st =>
      refine (portStep_setControl c (c.control.onKeyState k st)).congr rfl ?_
      intro s
      show _ = if isVirtualKey k then _ else _
      rw [CPort.onKeyState]
      split
      · show List.map _ (List.filter _ (List.map _ (List.filter _ c.control.controls))) = _
        rw [List.filter_map, List.map_map, List.filter_filter]
        have : (fun a : Ctl => ((fun x : Nat × CtlReply => decide (x.1 = s)) ∘ fun x : Ctl =>
              (x.socket, CtlReply.keyState k (CPort.keyState
                { c.control.access k with
                  down := c.control.down.set (k - Key.first_virtual) (st == KeyState.Down) } k))) a &&
              decide (a.toggleKey = k)) = (fun x : Ctl => decide (x.toggleKey = k ∧ x.socket = s)) := by
          funext a
          simp [and_comm, Bool.decide_and]
        erw [this]
        rfl
      · rfl
    | nextKeyInfo k device =>
      have h1 : PortStep c (c.setControl ((c.control.replyKeyInfo ⟨k, c.window, device⟩).1,
          (c.control.replyKeyInfo ⟨k, c.window, device⟩).2.1)) (portAfter c (.server (.nextKeyInfo k device)))
          (fun s => newReplies env c s (.server (.nextKeyInfo k device))) := by
        refine (portStep_setControl c _).congr rfl ?_
        intro s
        show List.map _ (List.filter _ (List.map _ (List.filter _ c.control.controls))) = List.map _ _
        rw [List.filter_map, List.map_map, List.filter_filter]
        have : (fun a : Ctl => ((fun x : Nat × CtlReply => decide (x.1 = s)) ∘ fun x : Ctl =>
              (x.socket, CtlReply.keyInfo ⟨k, c.window, device⟩)) a && a.nextKeyInfo) =
            (fun x : Ctl => decide (x.nextKeyInfo = true ∧ x.socket = s)) := by
          funext a
          simp [Bool.and_comm, Bool.decide_and]
        rw [this]
        rfl
      show PortStep c (c.onNextKeyInfo k device) _ _
      rw [Client.onNextKeyInfo]
      split
      · exact h1
      · refine ⟨h1.1, h1.2.1, h1.2.2.1, fun s => ?_⟩
        rw [← h1.2.2.2 s]
        show repliesTo s (_ ++ [_]) = _
        rw [repliesTo_append]
        exact List.append_nil _
  | accept s => exact ⟨rfl, rfl, rfl, fun s => (List.append_nil _).symm⟩
  | controlClosed s => exact ⟨rfl, rfl, rfl, fun s => (List.append_nil _).symm⟩
  | toggleActive upd => exact (Client.toggleActive_kept _ _ _).step
  | reload fs upd =>
    exact ((Client.updateConfig_kept env fs c false).trans (Client.sendConfig_kept _ _ _)).step
  | requestKeyInfo => exact (Client.send_kept _ _).step
  | control fs upd s' m =>
    by_cases ho : c.isOpen s' = true
    · have hd : c.step env (.control fs upd s' m) = c.onControl env fs upd s' m := if_pos ho
      rw [hd]
      have hr : ∀ s, newReplies env c s (.control fs upd s' m) =
          if s' = s then requestReplies env c fs upd m else [] := by
        intro s
        show (if s' = s ∧ c.isOpen s then _ else _) = _
        by_cases hs : s' = s
        · subst hs; rw [if_pos ⟨rfl, ho⟩, if_pos rfl]
        · rw [if_neg (fun h => hs h.1), if_neg hs]
      have single : ∀ (s : Nat) (k : Key) (st : KeyState),
          (List.filter (fun x : Nat × CtlReply => decide (x.1 = s)) [(s', CtlReply.keyState k st)]).map (·.2) =
          if s' = s then [CtlReply.keyState k st] else [] := by
        intro s k st
        by_cases hs : s' = s <;> simp [hs]
      have inject : ∀ (text : Str) (f : KeySequence → ToServer),
          PortStep c (c.onInject env s' text f) c.control
            (fun s => if s' = s then [.keyState Key.none (resultState (injectedSequence env text).isSome)] else []) := by
        intro text f
        rw [Client.onInject]
        split
        · rename_i l hl
          have h := Client.send_kept c (f l)
          refine ⟨h.1, h.2.1, h.2.2.1, fun s => ?_⟩
          rw [repliesTo_reply, h.2.2.2 s, hl]; rfl
        · rename_i hl
          refine ⟨rfl, rfl, rfl, fun s => ?_⟩
          rw [repliesTo_reply, hl]; rfl
      cases m with
      | getState name =>
        refine (portStep_setControl c _).congr (if_pos ho).symm ?_
        intro s
        rw [hr]
        exact single s _ _
      | setState name st =>
        have h := Client.send_kept c (.setVirtualKeyState (c.control.virtualKey name) st)
        have hcon : (c.send (.setVirtualKeyState (c.control.virtualKey name) st)).control = c.control := by
          rw [Client.send]; split <;> rfl
        show PortStep c (((c.send (.setVirtualKeyState (c.control.virtualKey name) st))).setControl _) _ _
        rw [hcon]
        have h2 := portStep_setControl (c.send (.setVirtualKeyState (c.control.virtualKey name) st))
          (c.control.replyState s' (c.control.virtualKey name))
        refine PortStep.congr (p := (c.control.replyState s' (c.control.virtualKey name)).1)
          ⟨h2.1, h2.2.1, h2.2.2.1, fun s => ?_⟩ (if_pos ho).symm (t := fun s => newReplies env c s _) (fun s => rfl)
        rw [h2.2.2.2 s, h.2.2.2 s, hr]
        exact congrArg _ (single s _ _)
      | requestToggle name =>
        refine (portStep_setControl c _).congr (if_pos ho).symm ?_
        intro s
        rw [hr, requestReplies, CPort.requestToggle]
        by_cases hk : c.control.virtualKey name = Key.none
        · rw [if_neg (fun h => h hk), if_pos hk, hk]
          exact single s _ _
        · rw [if_pos hk, if_neg hk, ite_self]; rfl
      | setInstanceId id =>
        refine PortStep.congr (p := c.control.setInstanceId s' id) ⟨rfl, rfl, rfl, fun s => ?_⟩ (if_pos ho).symm
          (t := fun s => newReplies env c s _) (fun s => rfl)
        rw [hr]
        exact repliesTo_reply _ _ _ _ _
      | setConfigFile filename =>
        have h := Client.onSetConfigFile_kept env fs upd c filename
        refine PortStep.congr (p := c.control) ⟨h.1, h.2.1, h.2.2.1, fun s => ?_⟩ (if_pos ho).symm
          (t := fun s => newReplies env c s _) (fun s => rfl)
        rw [hr, ← h.2.2.2 s]
        exact repliesTo_reply _ _ _ _ _
      | nextKeyInfo =>
        have h := Client.send_kept
          { c with control := c.control.modControl s' (fun x => { x with nextKeyInfo := true }) } .requestNextKeyInfo
        refine PortStep.congr (p := c.control.modControl s' (fun x => { x with nextKeyInfo := true }))
          ⟨h.1, h.2.1, h.2.2.1, fun s => ?_⟩ (if_pos ho).symm (t := fun s => newReplies env c s _) (fun s => rfl)
        rw [hr, requestReplies, ite_self, List.append_nil]
        exact h.2.2.2 s
      | injectInput text =>
        refine (inject text .injectInput).congr (if_pos ho).symm (fun s => (hr s).symm)
      | injectOutput text =>
        refine (inject text .injectOutput).congr (if_pos ho).symm (fun s => (hr s).symm)
    · have hd : c.step env (.control fs upd s' m) = c := if_neg ho
      rw [hd]
      refine (PortKept.refl c).step.congr (if_neg ho).symm ?_
      intro s
      show [] = if s' = s ∧ c.isOpen s then _ else _
      rw [if_neg]
      rintro ⟨h1, h2⟩
      subst h1
      exact ho h2

/-! ## The names of virtual keys -/

/-- The names are those of the configuration the server was sent -/
def AliasInv (c : Client) : Prop :=
  c.isConnected = true →
    ∃ config, (serverView c.out).config = some config ∧ c.control.aliases = config.virtualKeyAliases

theorem AliasInv.same {c d : Client} (hc : AliasInv c) (hi : d.isConnected = true → c.isConnected = true)
    (hal : d.control.aliases = c.control.aliases)
    (ho : (serverView d.out).config = (serverView c.out).config) : AliasInv d := by
  intro h
  rw [ho, hal]
  exact hc (hi h)

theorem ClientInv.aliases {rx : Regex} {c : Client} (h : ClientInv rx c) : AliasInv c := by
  intro hc
  obtain ⟨h1, _, _, h2⟩ := h hc
  exact ⟨_, h1, h2⟩

theorem quiet_config (out l : List CEff) (h : ∀ e ∈ l, e.isQuiet = true) :
    (serverView (out ++ l)).config = (serverView out).config := by
  rw [serverView_append, viewFold_quiet l _ h]

theorem send_config_eq (c : Client) (m : ToServer) (hm : ∀ x, m ≠ .config x) :
    (serverView (c.send m).out).config = (serverView c.out).config := by
  rw [Client.send_out, serverView_append]
  split
  · cases m <;> first | rfl | exact absurd rfl (hm _)
  · rfl

theorem AliasInv.send {c : Client} (hc : AliasInv c) (m : ToServer) (hm : ∀ x, m ≠ .config x) :
    AliasInv (c.send m) :=
  hc.same (by rw [Client.send_connected]; exact id) (by rw [Client.send]; split <;> rfl) (send_config_eq c m hm)

theorem AliasInv.setControl {c : Client} (hc : AliasInv c) (r : CPort × List (Nat × CtlReply))
    (hr : r.1.aliases = c.control.aliases) : AliasInv (c.setControl r) :=
  hc.same id hr (quiet_config _ _ (by
    intro e he
    obtain ⟨x, _, hx⟩ := List.mem_map.mp he
    rw [← hx]; rfl))

theorem AliasInv.reply {c : Client} (hc : AliasInv c) (s : Nat) (k : Key) (st : KeyState) :
    AliasInv (c.reply s k st) :=
  hc.same id rfl (quiet_config _ _ (by simp [CEff.isQuiet]))

theorem AliasInv.sendConfig {c : Client} (hc : AliasInv c) (rx : Regex) (upd : Option Window) :
    AliasInv (c.sendConfig rx upd).1 := by
  by_cases h : c.isConnected = true
  · exact (Client.sendConfig_inv rx c upd).aliases
  · rw [Client.sendConfig, if_neg h]; exact hc

theorem AliasInv.onInject {c : Client} (hc : AliasInv c) (env : ClientEnv) (s : Nat) (text : Str)
    (f : KeySequence → ToServer) (hf : ∀ l x, f l ≠ .config x) : AliasInv (c.onInject env s text f) := by
  rw [Client.onInject]
  split
  · exact (hc.send _ (hf _)).reply _ _ _
  · exact hc.reply _ _ _

theorem AliasInv.step {c : Client} (hc : AliasInv c) (env : ClientEnv) (op : ClientOp) :
    AliasInv (c.step env op) := by
  cases op with
  | connect upd =>
    show AliasInv ((Client.sendConfig env.rx _ upd).1)
    exact (Client.sendConfig_inv _ _ _).aliases
  | lost => intro h; simp [Client.step] at h
  | disconnected => intro h; simp [Client.step] at h
  | autoUpdate fs upd =>
    show AliasInv (if (c.updateConfig env fs true).2 then ((c.updateConfig env fs true).1.sendConfig env.rx upd).1
      else (c.updateConfig env fs true).1)
    have h : AliasInv (c.updateConfig env fs true).1 := hc.same id rfl rfl
    split
    · exact h.sendConfig _ _
    · exact h
  | updateContexts upd =>
    show AliasInv (if (c.updateActiveContexts env.rx upd).2 then (c.updateActiveContexts env.rx upd).1.sendActiveContexts
      else (c.updateActiveContexts env.rx upd).1)
    have h : AliasInv (c.updateActiveContexts env.rx upd).1 := by
      rw [Client.updateActiveContexts_rest]; exact hc.same id rfl rfl
    split
    · exact h.send _ (by simp)
    · exact h
  | server m =>
    cases m with
    | executeAction i =>
      show AliasInv (c.onExecuteAction i)
      rw [Client.onExecuteAction]
      split
      · split
        · exact hc.same id rfl (quiet_config _ _ (by simp [CEff.isQuiet]))
        · exact hc
      · exact hc
    | virtualKeyState k st => exact hc.setControl _ (CPort.onKeyState_aliases _ _ _)
    | nextKeyInfo k device =>
      show AliasInv (c.onNextKeyInfo k device)
      rw [Client.onNextKeyInfo]
      have h : AliasInv (c.setControl ((c.control.replyKeyInfo ⟨k, c.window, device⟩).1,
          (c.control.replyKeyInfo ⟨k, c.window, device⟩).2.1)) := hc.setControl _ rfl
      split
      · exact h
      · exact h.same id rfl (quiet_config _ _ (by simp [CEff.isQuiet]))
  | accept s => exact hc.same id (CPort.accept_aliases _ _) rfl
  | controlClosed s => exact hc.same id rfl rfl
  | toggleActive upd =>
    show AliasInv (c.toggleActive env.rx upd)
    rw [Client.toggleActive]
    split
    · exact AliasInv.send (c := { c with active := false, activeContexts := [] }) (hc.same id rfl rfl) _ (by simp)
    · refine AliasInv.send (c := (Client.updateActiveContexts env.rx { c with active := true } upd).1) ?_ _ (by simp)
      rw [Client.updateActiveContexts_rest]; exact hc.same id rfl rfl
  | reload fs upd =>
    exact AliasInv.sendConfig (c := (c.updateConfig env fs false).1) (hc.same id rfl rfl) _ _
  | requestKeyInfo => exact hc.send _ (by simp)
  | control fs upd s m =>
    show AliasInv (if _ then c.onControl env fs upd s m else c)
    split
    · cases m with
      | getState name => exact hc.setControl _ rfl
      | setState name st =>
        exact (hc.send _ (by simp)).setControl _ rfl
      | requestToggle name => exact hc.setControl _ (CPort.requestToggle_aliases _ _ _)
      | setInstanceId id =>
        exact AliasInv.reply (c := { c with control := c.control.setInstanceId s id })
          (hc.same (fun h => h) (CPort.setInstanceId_aliases _ _ _) rfl) _ _ _
      | setConfigFile filename =>
        refine AliasInv.reply (c := (c.onSetConfigFile env fs upd filename).1) ?_ _ _ _
        have h : AliasInv (c.loadConfig env fs filename).1 := by
          rw [Client.loadConfig_rest]; exact hc.same id rfl rfl
        rw [Client.onSetConfigFile]
        split
        · exact h.sendConfig _ _
        · exact h
      | nextKeyInfo =>
        exact AliasInv.send
          (c := { c with control := c.control.modControl s (fun x => { x with nextKeyInfo := true }) })
          (hc.same id rfl rfl) _ (by simp)
      | injectInput text => exact hc.onInject env s text _ (by simp)
      | injectOutput text => exact hc.onInject env s text _ (by simp)
    · exact hc

theorem AliasInv.run {c : Client} (hc : AliasInv c) (env : ClientEnv) (ops : List ClientOp) :
    AliasInv (c.run env ops) := by
  induction ops generalizing c with
  | nil => exact hc
  | cons op ops ih => exact ih (hc.step env op)

end KM
