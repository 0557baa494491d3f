import Verif.Model.ServerLoop
/-!
# What the operations of the server are composed of

Each operation of the server is a sequence of primitive steps; properties of the pressed virtual
keys and of the effects only need to be checked for these.
-/
namespace KM

/-- An event which is sent to the device. -/
def isSent (e : KeyEvent) : Bool :=
  !(isMouseWheel e.key && e.state == .Down) && !isActionKey e.key && !isVirtualKey e.key && !(e.key == Key.timeout)

/-- A primitive step of the server -/
inductive SrvPrim : Srv → Srv → Prop
  | internal {s s' : Srv} (h1 : s'.virtualDown = s.virtualDown) (h2 : s'.out = s.out) (h3 : s'.nextKeyInfo = s.nextKeyInfo) : SrvPrim s s'
  | reply {s : Srv} (k : Key) (d : Option DeviceDesc) (h : s.nextKeyInfo = true) (hk : isDeviceKey k = true) (hb : k ≠ Key.ButtonLeft) :
      SrvPrim s { s with out := s.out ++ [.nextKeyInfo k d], nextKeyInfo := false }
  | press {s : Srv} (k : Key) (h : k ∉ s.virtualDown) : SrvPrim s { s with virtualDown := s.virtualDown ++ [k] }
  | release {s : Srv} (k : Key) (h : k ∈ s.virtualDown) : SrvPrim s { s with virtualDown := s.virtualDown.erase k }
  | clear {s : Srv} : SrvPrim s { s with virtualDown := [] }
  | announce {s : Srv} (k : Key) (st : KeyState) (h : isVirtualKey k = true) : SrvPrim s { s with out := s.out ++ [.virtualKeyState k st] }
  | action {s : Srv} (i : Nat) : SrvPrim s { s with out := s.out ++ [.action i] }
  | send {s : Srv} (e : KeyEvent) (h : isSent e = true) : SrvPrim s { s with out := s.out ++ [.sendKey e] }
  | exit {s : Srv} : SrvPrim s { s with out := s.out ++ [.exitRequested] }

/-- Primitive steps one after the other -/
inductive SrvSteps : Srv → Srv → Prop
  | refl (s : Srv) : SrvSteps s s
  | cons {a b c : Srv} (h : SrvPrim a b) (t : SrvSteps b c) : SrvSteps a c

theorem SrvSteps.trans {a b c : Srv} (h : SrvSteps a b) (t : SrvSteps b c) : SrvSteps a c := by
  induction h with
  | refl => exact t
  | cons p _ ih => exact .cons p (ih t)

theorem SrvSteps.one {a b : Srv} (h : SrvPrim a b) : SrvSteps a b := .cons h (.refl _)

theorem SrvSteps.internal {a b : Srv} (h1 : b.virtualDown = a.virtualDown) (h2 : b.out = a.out) (h3 : b.nextKeyInfo = a.nextKeyInfo) :
    SrvSteps a b := .one (.internal h1 h2 h3)

theorem SrvSteps.after {a b c : Srv} (h : SrvSteps b c) (h1 : b.virtualDown = a.virtualDown) (h2 : b.out = a.out)
    (h3 : b.nextKeyInfo = a.nextKeyInfo) : SrvSteps a c := .cons (.internal h1 h2 h3) h

theorem SrvSteps.preserves {P : Srv → Prop} (hp : ∀ a b, SrvPrim a b → P a → P b) {a b : Srv} (h : SrvSteps a b) (ha : P a) : P b := by
  induction h with
  | refl => exact ha
  | cons p _ ih => exact ih (hp _ _ p ha)

section
variable {rx : Regex} {flush : Srv → Srv} (hf : ∀ s, SrvSteps s (flush s))
include hf

theorem setActiveContexts_steps (s : Srv) (l : List Int) : SrvSteps s (s.setActiveContexts flush l) := by
  unfold Srv.setActiveContexts
  simp only []
  split
  · exact (hf _).after rfl rfl rfl
  · exact .internal rfl rfl rfl

theorem evaluateDeviceFilters_steps (s : Srv) : SrvSteps s (s.evaluateDeviceFilters rx flush) := by
  unfold Srv.evaluateDeviceFilters
  split
  · exact .refl _
  · exact (setActiveContexts_steps hf _ _).after rfl rfl rfl

theorem resetConfiguration_steps (s : Srv) (ms : MS) : SrvSteps s (s.resetConfiguration rx flush ms) := by
  unfold Srv.resetConfiguration
  have h1 : SrvSteps s (flush s.releaseAllKeys) := (hf _).after rfl rfl rfl
  refine h1.trans ?_
  have h2 : SrvSteps (flush s.releaseAllKeys) { flush s.releaseAllKeys with virtualDown := [] } := .one .clear
  exact h2.trans ((evaluateDeviceFilters_steps hf _).after rfl rfl rfl)

theorem exit_steps (s : Srv) : SrvSteps s (s.exit rx flush) :=
  (resetConfiguration_steps (rx := rx) hf s {}).trans (.one .exit)

omit hf in
theorem sendOutput_steps (s : Srv) (ev : KeyEvent) (output : KeySequence) : SrvSteps s (s.sendOutput ev output) := by
  unfold Srv.sendOutput
  split <;> exact .internal rfl rfl rfl

omit hf in
theorem noteEvent_steps (s : Srv) (ev : KeyEvent) : SrvSteps s (s.noteEvent ev) := by
  unfold Srv.noteEvent
  split <;> exact .internal rfl rfl rfl

theorem translateCore_steps (s : Srv) (ev : KeyEvent) (dev : Int) : SrvSteps s (s.translateCore rx flush ev dev) := by
  unfold Srv.translateCore
  simp only []
  refine (noteEvent_steps s ev).trans ?_
  split
  · exact (exit_steps hf _).after rfl rfl rfl
  · exact (sendOutput_steps _ _ _).after rfl rfl rfl

theorem translateTimeout_steps (s : Srv) (ev : KeyEvent) (dev : Int) : SrvSteps s (s.translateTimeout rx flush ev dev) := by
  unfold Srv.translateTimeout
  split
  · exact .refl _
  · exact translateCore_steps hf _ _ _

theorem injectElapsed_steps (s : Srv) (ev : KeyEvent) (dev : Int) : SrvSteps s (s.injectElapsed rx flush ev dev) := by
  unfold Srv.injectElapsed
  split
  · split
    · exact (translateTimeout_steps hf _ _ _).after rfl rfl rfl
    · exact .refl _
  · exact .refl _

omit hf in
theorem replyKeyInfo_steps (s : Srv) (ev : KeyEvent) (dev : Int) (h : s.repliesKeyInfo ev = true) : SrvSteps s (s.replyKeyInfo ev dev) := by
  unfold Srv.repliesKeyInfo at h
  simp only [Bool.and_eq_true] at h
  exact .one (.reply _ _ h.1.1.1 h.1.1.2 (by have := h.1.2; simpa using this))

theorem translateNoWheel_steps (s : Srv) (ev : KeyEvent) (dev : Int) : SrvSteps s (s.translateNoWheel rx flush ev dev) := by
  unfold Srv.translateNoWheel
  split
  · exact .refl _
  · split
    · next h => exact replyKeyInfo_steps s ev dev h
    · exact (injectElapsed_steps hf _ _ _).trans (translateCore_steps hf _ _ _)

theorem translateWith_steps (s : Srv) (ev : KeyEvent) (dev : Int) : SrvSteps s (s.translateWith rx flush ev dev) := by
  unfold Srv.translateWith
  split
  · exact .refl _
  · split
    · next h => exact replyKeyInfo_steps s ev dev h
    · refine (injectElapsed_steps (rx := rx) hf s ev dev).trans ?_
      simp only []
      split
      · exact (translateNoWheel_steps hf _ _ _).trans (translateCore_steps hf _ _ _)
      · exact translateCore_steps hf _ _ _

end

theorem setVirtualKeyState_steps {translate : Srv → KeyEvent → Int → Srv} (ht : ∀ s ev dev, SrvSteps s (translate s ev dev))
    (s : Srv) (k : Key) (st : KeyState) : SrvSteps s (s.setVirtualKeyState translate k st) := by
  unfold Srv.setVirtualKeyState
  simp only []
  split
  · next h =>
    simp only [Bool.and_eq_true, Bool.not_eq_true', ] at h
    have hk : k ∉ s.virtualDown := by have := h.1; intro hm; rw [List.contains_iff_mem.2 hm] at this; cases this
    have := SrvSteps.trans (.one (.press k hk)) (ht { s with virtualDown := s.virtualDown ++ [k] } ⟨k, .Down, 0⟩ anyDeviceIndex)
    split
    · next hv => exact this.trans (.one (.announce k _ hv))
    · exact this
  · split
    · next h =>
      simp only [Bool.and_eq_true] at h
      have hk : k ∈ s.virtualDown := List.contains_iff_mem.1 h.1
      have := SrvSteps.trans (.one (.release k hk)) (ht { s with virtualDown := s.virtualDown.erase k } ⟨k, .Up, 0⟩ anyDeviceIndex)
      split
      · next hv => exact this.trans (.one (.announce k _ hv))
      · exact this
    · exact .refl _

theorem translateSending_steps (rx : Regex) (s : Srv) (ev : KeyEvent) (dev : Int) : SrvSteps s (s.translateSending rx ev dev) :=
  translateWith_steps (fun s => .refl s) s ev dev

theorem toggleVirtualKey_steps (rx : Regex) (s : Srv) (k : Key) : SrvSteps s (s.toggleVirtualKey rx k) :=
  setVirtualKeyState_steps (translateSending_steps rx) s k _

/-- An event which is dropped when the buffer is flushed, with `n` virtual keys which may be toggled -/
def isDropped (n : Nat) (e : KeyEvent) : Bool :=
  (isMouseWheel e.key && e.state == .Down) || (isActionKey e.key && e.state != .Down) ||
    (isVirtualKey e.key && (e.state != .Down || n == 0))

private theorem flushItems_rec {rx : Regex} {motive : Nat → Srv → Srv × Bool → Prop}
    (nil : ∀ n s, s.sendBuf = [] → motive n s (s, true))
    (drop : ∀ n s e rest r, s.sendBuf = e :: rest → isDropped n e = true → motive n { s with sendBuf := rest } r → motive n s r)
    (action : ∀ n s e rest r, s.sendBuf = e :: rest → isActionKey e.key = true → e.state = .Down →
      motive n { s with sendBuf := rest, out := s.out ++ [.action (e.key - Key.first_action)] } r → motive n s r)
    (delay : ∀ n s e rest, s.sendBuf = e :: rest → e.key = Key.timeout → motive n s ({ s with sendBuf := rest }.scheduleFlush e.value, true))
    (sent : ∀ n s e rest r, s.sendBuf = e :: rest → isSent e = true → s.sendSucceeds = true →
      motive n ({ s with sendBuf := rest }.send e) r → motive n s r)
    (failed : ∀ n s e rest, s.sendBuf = e :: rest → isSent e = true → s.sendSucceeds = false → motive n s (s.send e, false))
    (n : Nat) (next : Option (Srv → Srv × Bool)) (hn : (n == 0) = next.isNone)
    (toggle : ∀ f s e rest, next = some f → s.sendBuf = e :: rest → isVirtualKey e.key = true → e.state = .Down →
      motive n s (f ({ s with sendBuf := rest }.toggleVirtualKey rx e.key)))
    (l : KeySequence) (s : Srv) (hl : s.sendBuf = l) : motive n s (Srv.flushItems rx next l s) := by
  induction l generalizing s with
  | nil =>
    have h := nil n s hl
    unfold Srv.flushItems
    have : ({ s with sendBuf := [] } : Srv) = s := by rw [← hl]
    rw [this]
    exact h
  | cons e rest ih =>
    unfold Srv.flushItems
    simp only []
    split
    · next h => exact drop n s e rest _ hl (by unfold isDropped; rw [h]; rfl) (ih _ rfl)
    · next hw =>
      split
      · next h =>
        by_cases hd : e.state = .Down
        · have : (e.state == KeyState.Down) = true := by rw [hd]; rfl
          rw [if_pos this]
          exact action n s e rest _ hl h hd (ih _ rfl)
        · have hd' : (e.state == KeyState.Down) = false := by simpa using hd
          rw [if_neg (by rw [hd']; exact Bool.false_ne_true)]
          refine drop n s e rest _ hl ?_ (ih _ rfl)
          unfold isDropped
          have : (e.state != KeyState.Down) = true := by simpa using hd
          rw [h, this]
          simp
      · next ha =>
        split
        · next hv =>
          split
          · next hd =>
            have hd' : e.state = .Down := by simpa using hd
            cases next with
            | none =>
              refine drop n s e rest _ hl ?_ (ih _ rfl)
              unfold isDropped
              have : (n == 0) = true := hn
              rw [hv, this]
              simp
            | some f => exact toggle f s e rest rfl hl hv hd'
          · next hd =>
            refine drop n s e rest _ hl ?_ (ih _ rfl)
            unfold isDropped
            have : (e.state != KeyState.Down) = true := by simpa using hd
            rw [hv, this]
            simp
        · next hv =>
          split
          · next ht => exact delay n s e rest hl (by simpa using ht)
          · next ht =>
            have hi : isSent e = true := by
              unfold isSent
              simp only [Bool.eq_false_iff.2 hw, Bool.eq_false_iff.2 ha, Bool.eq_false_iff.2 hv, Bool.eq_false_iff.2 ht]
              rfl
            split
            · next hs => exact sent n s e rest _ hl hi hs (ih _ rfl)
            · next hs =>
              have h := failed n s e rest hl hi (Bool.eq_false_iff.2 hs)
              have : ({ { s with sendBuf := rest }.send e with sendBuf := e :: rest } : Srv) = s.send e := by rw [← hl]; rfl
              rw [this]
              exact h

/-- Induction over the loop of `flush_send_buffer` -/
theorem flushLoop_rec {rx : Regex} {motive : Nat → Srv → Srv × Bool → Prop}
    (nil : ∀ n s, s.sendBuf = [] → motive n s (s, true))
    (drop : ∀ n s e rest r, s.sendBuf = e :: rest → isDropped n e = true → motive n { s with sendBuf := rest } r → motive n s r)
    (action : ∀ n s e rest r, s.sendBuf = e :: rest → isActionKey e.key = true → e.state = .Down →
      motive n { s with sendBuf := rest, out := s.out ++ [.action (e.key - Key.first_action)] } r → motive n s r)
    (toggle : ∀ n s e rest r, s.sendBuf = e :: rest → isVirtualKey e.key = true → e.state = .Down →
      motive n ({ s with sendBuf := rest }.toggleVirtualKey rx e.key) r → motive (n + 1) s r)
    (delay : ∀ n s e rest, s.sendBuf = e :: rest → e.key = Key.timeout → motive n s ({ s with sendBuf := rest }.scheduleFlush e.value, true))
    (sent : ∀ n s e rest r, s.sendBuf = e :: rest → isSent e = true → s.sendSucceeds = true →
      motive n ({ s with sendBuf := rest }.send e) r → motive n s r)
    (failed : ∀ n s e rest, s.sendBuf = e :: rest → isSent e = true → s.sendSucceeds = false → motive n s (s.send e, false))
    (n : Nat) (s : Srv) : motive n s (Srv.flushLoop rx n s) := by
  induction n generalizing s with
  | zero => exact flushItems_rec nil drop action delay sent failed 0 none rfl (fun f _ _ _ h => by cases h) _ s rfl
  | succ n ih =>
    refine flushItems_rec nil drop action delay sent failed (n + 1) (some (Srv.flushLoop rx n)) rfl ?_ _ s rfl
    intro f s e rest hf hl hv hd
    injection hf with hf
    subst hf
    exact toggle n s e rest _ hl hv hd (ih _)

theorem flushLoop_steps (rx : Regex) (n : Nat) (s : Srv) : SrvSteps s (Srv.flushLoop rx n s).1 := by
  refine flushLoop_rec (motive := fun _ s r => SrvSteps s r.1) ?_ ?_ ?_ ?_ ?_ ?_ ?_ n s
  · intro n s _; exact .refl _
  · intro n s e rest r _ _ ih; exact ih.after rfl rfl rfl
  · intro n s e rest r _ _ _ ih
    exact .trans (.one (.action _)) (ih.after rfl rfl rfl)
  · intro n s e rest r _ _ _ ih
    exact SrvSteps.after ((toggleVirtualKey_steps rx { s with sendBuf := rest } e.key).trans ih) rfl rfl rfl
  · intro n s e rest _ _
    unfold Srv.scheduleFlush
    split <;> exact .internal rfl rfl rfl
  · intro n s e rest r _ hi _ ih
    exact .cons (.send e hi) (ih.after rfl rfl rfl)
  · intro n s e rest _ hi _
    exact .trans (.one (.send e hi)) (.internal rfl rfl rfl)

theorem flushSendBuffer_steps (rx : Regex) (s : Srv) : SrvSteps s (s.flushSendBuffer rx).1 := by
  unfold Srv.flushSendBuffer
  split
  · exact .refl _
  · have h := flushLoop_steps rx 9 { s with sending := true, flushAt := none }
    refine SrvSteps.after (b := { s with sending := true, flushAt := none }) ?_ rfl rfl rfl
    generalize Srv.flushLoop rx 9 { s with sending := true, flushAt := none } = r at h ⊢
    exact h.trans (.internal rfl rfl rfl)

theorem flush_steps (rx : Regex) (s : Srv) : SrvSteps s (s.flush rx) := flushSendBuffer_steps rx s

theorem translateInput_steps (rx : Regex) (s : Srv) (ev : KeyEvent) (dev : Int) : SrvSteps s (s.translateInput rx ev dev) :=
  translateWith_steps (flush_steps rx) s ev dev

theorem scheduleFlush_steps (s : Srv) (d : Nat) : SrvSteps s (s.scheduleFlush d) := by
  unfold Srv.scheduleFlush
  split <;> exact .internal rfl rfl rfl

theorem injectLoop_steps (rx : Regex) (l : KeySequence) (s : Srv) : SrvSteps s (l.foldl (fun s e =>
    if (e.state == .Up || e.state == .Down) && isDeviceKey e.key then
      s.translateInput rx e noDeviceIndex else s) s) := by
  induction l generalizing s with
  | nil => exact .refl _
  | cons e l ih =>
    rw [List.foldl_cons]
    split
    · exact (translateInput_steps rx s e _).trans (ih _)
    · exact ih _

/-- A request is the only message which makes the server answer the following key. -/
theorem onMessage_steps (rx : Regex) (s : Srv) (m : Msg) :
    SrvSteps (match m with | .requestNextKeyInfo => { s with nextKeyInfo := true } | _ => s) (s.onMessage rx m) := by
  cases m with
  | configuration cfgs => exact resetConfiguration_steps (flush_steps rx) s _
  | activeContexts l => exact setActiveContexts_steps (flush_steps rx) s l
  | setVirtualKeyState k st =>
    have h := setVirtualKeyState_steps (translateInput_steps rx) s k st
    show SrvSteps s (s.onSetVirtualKeyState rx k st)
    unfold Srv.onSetVirtualKeyState
    simp only []
    split
    · exact h.trans (flush_steps rx _)
    · exact h
  | validateState f => exact .internal rfl rfl rfl
  | requestNextKeyInfo => exact .refl _
  | injectInput l => exact (injectLoop_steps rx l s).trans (scheduleFlush_steps _ _)
  | injectOutput l => exact (scheduleFlush_steps (s.sendKeySequence l) 0).after rfl rfl rfl

theorem processRead_steps (rx : Regex) (s : Srv) (r : Read) : SrvSteps s (s.processRead rx r) := by
  cases r with
  | nothing => exact .refl _
  | other => exact .refl _
  | key ev dev =>
    unfold Srv.processRead
    simp only []
    split
    · exact translateInput_steps rx s ev dev
    · exact .refl _

theorem answerTimeout_steps (rx : Regex) (s : Srv) : SrvSteps s (s.answerTimeout rx) := by
  unfold Srv.answerTimeout
  split
  · exact (translateInput_steps rx _ _ _).after rfl rfl rfl
  · exact .refl _

theorem flushWhenDue_steps (rx : Regex) (s : Srv) : SrvSteps s (s.flushWhenDue rx).1 := by
  unfold Srv.flushWhenDue
  split
  · exact flushSendBuffer_steps rx s
  · exact .refl _

theorem updateDevices_steps (rx : Regex) (s : Srv) (d : Option (List DeviceDesc)) : SrvSteps s (s.updateDevices rx d) := by
  cases d with
  | none => exact .refl _
  | some l => exact (evaluateDeviceFilters_steps (flush_steps rx) _).after rfl rfl rfl

end KM
