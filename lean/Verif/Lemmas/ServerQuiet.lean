import Verif.Spec.Server
import Verif.Lemmas.ServerSteps
import Verif.Lemmas.Frozen
/-!
# Between events the server is not about to exit
-/
namespace KM

/-- The exit sequence is not complete and the output of the stages was taken. -/
def Srv.Quiet (s : Srv) : Prop := s.ms.shouldExit = false ∧ s.ms.buf = []

theorem stageInput_single (c : Cfg) (dev : Int) (s : S) (ev : KeyEvent) : stageInput c dev true s [ev] = update c s ev dev := by
  simp [stageInput]

/-- Keys which are not on the keyboard do not advance the exit sequence. -/
theorem MS.update_shouldExit {m : MS} (hb : m.buf = []) {ev : KeyEvent} (hk : isKeyboardKey ev.key = false) (dev : Int) :
    (m.update ev dev).1.shouldExit = m.shouldExit := by
  unfold MS.update
  rw [hb]
  cases hm : m.stages with
  | nil => simp [updateGo, MS.shouldExit, hm]
  | cons p l =>
    obtain ⟨c, s⟩ := p
    have hp := update_exitPos c s ev dev
    have ha : advanceExit s.exitPos ev = s.exitPos := by unfold advanceExit; rw [hk]; rfl
    rw [ha] at hp
    simp [updateGo, MS.shouldExit, hm, stageEvent, stageInput_single, S.shouldExit, hp]

theorem MS.update_buf (m : MS) (ev : KeyEvent) (dev : Int) : (m.update ev dev).1.buf = [] := rfl

theorem MS.setActive_shouldExit {m : MS} (hb : m.buf = []) (l : List Int) :
    (m.setActiveClientContexts l).1.shouldExit = m.shouldExit := by
  unfold MS.setActiveClientContexts
  rw [hb]
  cases hm : m.stages with
  | nil => simp [setActiveGo, MS.shouldExit, hm]
  | cons p r =>
    obtain ⟨c, s⟩ := p
    have hp := congrArg Prod.fst (setActiveClientContexts_frozen c s (stageIndices l 0 c.contexts.length))
    simp only [S.frozen] at hp
    simp [setActiveGo, MS.shouldExit, hm, contextInput, S.shouldExit, hp]

theorem MS.evaluate_shouldExit (rx : Regex) (m : MS) (l : List DeviceDesc) :
    (m.evaluateDeviceFilters rx l).shouldExit = m.shouldExit := by
  unfold MS.evaluateDeviceFilters MS.shouldExit
  cases m.stages with
  | nil => rfl
  | cons p r => rfl

theorem MS.make_shouldExit (cfgs : List Cfg) : (MS.make cfgs).shouldExit = false := by
  unfold MS.make MS.shouldExit
  cases cfgs with
  | nil => rfl
  | cons p r => rfl

theorem MS.validate_shouldExit (m : MS) (f) : (m.validateState f).shouldExit = m.shouldExit ∧ (m.validateState f).buf = m.buf := by
  unfold MS.validateState MS.shouldExit
  cases h : m.stages with
  | nil => simp [h]
  | cons p r => exact ⟨rfl, rfl⟩

section
variable {rx : Regex} {flush : Srv → Srv} (hf : ∀ s, s.Quiet → (flush s).Quiet)
include hf

theorem setActiveContexts_quiet (s : Srv) (l : List Int) (hs : s.Quiet) : (s.setActiveContexts flush l).Quiet := by
  have h := MS.setActive_shouldExit hs.2 l
  rw [hs.1] at h
  unfold Srv.setActiveContexts
  simp only []
  split
  · exact hf _ ⟨h, rfl⟩
  · exact ⟨h, rfl⟩

theorem evaluateDeviceFilters_quiet (s : Srv) (hs : s.Quiet) : (s.evaluateDeviceFilters rx flush).Quiet := by
  unfold Srv.evaluateDeviceFilters
  split
  · exact hs
  · exact setActiveContexts_quiet hf _ _ ⟨(MS.evaluate_shouldExit rx s.ms s.devices).trans hs.1, hs.2⟩

theorem resetConfiguration_quiet (s : Srv) (ms : MS) (h1 : ms.shouldExit = false) (h2 : ms.buf = []) :
    (s.resetConfiguration rx flush ms).Quiet := by
  unfold Srv.resetConfiguration
  exact evaluateDeviceFilters_quiet hf _ ⟨h1, h2⟩

theorem exit_quiet (s : Srv) : (s.exit rx flush).Quiet := resetConfiguration_quiet (rx := rx) hf s {} rfl rfl

theorem translateCore_quiet (s : Srv) (ev : KeyEvent) (dev : Int) : (s.translateCore rx flush ev dev).Quiet := by
  unfold Srv.translateCore
  simp only []
  split
  · exact exit_quiet hf _
  · next h =>
    have h := Bool.eq_false_iff.2 h
    unfold Srv.sendOutput
    split <;> exact ⟨h, rfl⟩

theorem translateTimeout_quiet (s : Srv) (ev : KeyEvent) (dev : Int) (hs : s.Quiet) : (s.translateTimeout rx flush ev dev).Quiet := by
  unfold Srv.translateTimeout
  split
  · exact hs
  · exact translateCore_quiet hf _ _ _

theorem injectElapsed_quiet (s : Srv) (ev : KeyEvent) (dev : Int) (hs : s.Quiet) : (s.injectElapsed rx flush ev dev).Quiet := by
  unfold Srv.injectElapsed
  split
  · split
    · exact translateTimeout_quiet hf _ _ _ hs
    · exact hs
  · exact hs

theorem translateNoWheel_quiet (s : Srv) (ev : KeyEvent) (dev : Int) (hs : s.Quiet) : (s.translateNoWheel rx flush ev dev).Quiet := by
  unfold Srv.translateNoWheel
  split
  · exact hs
  · split
    · exact hs
    · exact translateCore_quiet hf _ _ _

theorem translateWith_quiet (s : Srv) (ev : KeyEvent) (dev : Int) (hs : s.Quiet) : (s.translateWith rx flush ev dev).Quiet := by
  unfold Srv.translateWith
  split
  · exact hs
  · split
    · exact hs
    · exact translateCore_quiet hf _ _ _

end

theorem setVirtualKeyState_quiet {translate : Srv → KeyEvent → Int → Srv} (ht : ∀ s ev dev, s.Quiet → (translate s ev dev).Quiet)
    (s : Srv) (k : Key) (st : KeyState) (hs : s.Quiet) : (s.setVirtualKeyState translate k st).Quiet := by
  unfold Srv.setVirtualKeyState
  simp only []
  split
  · have := ht { s with virtualDown := s.virtualDown ++ [k] } ⟨k, .Down, 0⟩ anyDeviceIndex hs
    split <;> exact this
  · split
    · have := ht { s with virtualDown := s.virtualDown.erase k } ⟨k, .Up, 0⟩ anyDeviceIndex hs
      split <;> exact this
    · exact hs

theorem translateSending_quiet (rx : Regex) (s : Srv) (ev : KeyEvent) (dev : Int) (hs : s.Quiet) : (s.translateSending rx ev dev).Quiet :=
  translateWith_quiet (fun _ h => h) s ev dev hs

theorem toggleVirtualKey_quiet (rx : Regex) (s : Srv) (k : Key) (hs : s.Quiet) : (s.toggleVirtualKey rx k).Quiet :=
  setVirtualKeyState_quiet (translateSending_quiet rx) s k _ hs

theorem scheduleFlush_quiet (s : Srv) (d : Nat) (hs : s.Quiet) : (s.scheduleFlush d).Quiet := by
  unfold Srv.scheduleFlush
  split <;> exact hs

theorem flushLoop_quiet (rx : Regex) (n : Nat) (s : Srv) (hs : s.Quiet) : (Srv.flushLoop rx n s).1.Quiet := by
  revert hs
  refine flushLoop_rec (motive := fun _ s r => s.Quiet → r.1.Quiet) ?_ ?_ ?_ ?_ ?_ ?_ ?_ n s
  · intro n s _ hs; exact hs
  · intro n s e rest r _ _ ih hs; exact ih hs
  · intro n s e rest r _ _ _ ih hs; exact ih hs
  · intro n s e rest r _ _ _ ih hs; exact ih (toggleVirtualKey_quiet rx _ e.key hs)
  · intro n s e rest _ _ hs; exact scheduleFlush_quiet _ _ hs
  · intro n s e rest r _ _ _ ih hs; exact ih hs
  · intro n s e rest _ _ _ hs; exact hs

theorem flushSendBuffer_quiet (rx : Regex) (s : Srv) (hs : s.Quiet) : (s.flushSendBuffer rx).1.Quiet := by
  unfold Srv.flushSendBuffer
  split
  · exact hs
  · exact flushLoop_quiet rx 9 { s with sending := true, flushAt := none } hs

theorem flush_quiet (rx : Regex) (s : Srv) (hs : s.Quiet) : (s.flush rx).Quiet := flushSendBuffer_quiet rx s hs

theorem translateInput_quiet (rx : Regex) (s : Srv) (ev : KeyEvent) (dev : Int) (hs : s.Quiet) : (s.translateInput rx ev dev).Quiet :=
  translateWith_quiet (flush_quiet rx) s ev dev hs

theorem onMessage_quiet (rx : Regex) (s : Srv) (m : Msg) (hs : s.Quiet) : (s.onMessage rx m).Quiet := by
  cases m with
  | configuration cfgs => exact resetConfiguration_quiet (flush_quiet rx) s _ (MS.make_shouldExit cfgs) rfl
  | activeContexts l => exact setActiveContexts_quiet (flush_quiet rx) s l hs
  | setVirtualKeyState k st =>
    have h := setVirtualKeyState_quiet (translateInput_quiet rx) s k st hs
    show (s.onSetVirtualKeyState rx k st).Quiet
    unfold Srv.onSetVirtualKeyState
    simp only []
    split
    · exact flush_quiet rx _ h
    · exact h
  | validateState f => exact ⟨(MS.validate_shouldExit s.ms f).1.trans hs.1, (MS.validate_shouldExit s.ms f).2.trans hs.2⟩
  | requestNextKeyInfo => exact hs
  | injectInput l =>
    show (Srv.scheduleFlush _ 0).Quiet
    apply scheduleFlush_quiet
    induction l generalizing s with
    | nil => exact hs
    | cons e l ih =>
      rw [List.foldl_cons]
      split
      · exact ih _ (translateInput_quiet rx s e _ hs)
      · exact ih _ hs
  | injectOutput l => exact scheduleFlush_quiet (s.sendKeySequence l) 0 hs

theorem foldl_onMessage_quiet (rx : Regex) (l : List Msg) (s : Srv) (hs : s.Quiet) : (l.foldl (Srv.onMessage rx) s).Quiet := by
  induction l generalizing s with
  | nil => exact hs
  | cons m l ih => exact ih _ (onMessage_quiet rx s m hs)

theorem processRead_quiet (rx : Regex) (s : Srv) (r : Read) (hs : s.Quiet) : (s.processRead rx r).Quiet := by
  cases r with
  | nothing => exact hs
  | other => exact hs
  | key ev dev =>
    unfold Srv.processRead
    simp only []
    split
    · exact translateInput_quiet rx s ev dev hs
    · exact hs

theorem answerTimeout_quiet (rx : Regex) (s : Srv) (hs : s.Quiet) : (s.answerTimeout rx).Quiet := by
  unfold Srv.answerTimeout
  split
  · exact translateInput_quiet rx _ _ _ hs
  · exact hs

theorem flushWhenDue_quiet (rx : Regex) (s : Srv) (hs : s.Quiet) : (s.flushWhenDue rx).1.Quiet := by
  unfold Srv.flushWhenDue
  split
  · exact flushSendBuffer_quiet rx s hs
  · exact hs

theorem updateDevices_quiet (rx : Regex) (s : Srv) (d : Option (List DeviceDesc)) (hs : s.Quiet) : (s.updateDevices rx d).Quiet := by
  cases d with
  | none => exact hs
  | some l => exact evaluateDeviceFilters_quiet (rx := rx) (flush_quiet rx) { s with devices := l } hs

/-- The parts of an iteration of the main loop -/
def Srv.iterStart (s : Srv) (it : Iteration) : Srv := { s with now := it.now, sendResults := it.sendResults }

def Srv.iterFlush (rx : Regex) (s : Srv) (it : Iteration) : Srv × Bool :=
  (((s.iterStart it).processRead rx it.read).answerTimeout rx).flushWhenDue rx

def Srv.iterEnd (rx : Regex) (s : Srv) (it : Iteration) : Srv :=
  it.messages.foldl (Srv.onMessage rx) (s.updateDevices rx it.devices)

/-- An iteration ends after the event was forwarded, after sending failed, or at its end. -/
theorem iterate_cases (rx : Regex) (s : Srv) (it : Iteration) :
    (s.iterate rx it).1 = s.iterStart it ∨
      ((s.iterFlush rx it).2 = false ∧ (s.iterate rx it).1 = (s.iterFlush rx it).1) ∨
      ((s.iterFlush rx it).2 = true ∧ (s.iterate rx it).1 = (s.iterFlush rx it).1.iterEnd rx it) := by
  unfold Srv.iterate Srv.iterFlush Srv.iterEnd
  simp only []
  split
  · exact Or.inl rfl
  · right
    show _ ∨ _
    unfold Srv.iterStart
    generalize Srv.flushWhenDue rx _ = r
    obtain ⟨s2, ok⟩ := r
    cases ok with
    | false => exact Or.inl ⟨rfl, rfl⟩
    | true =>
      right
      refine ⟨rfl, ?_⟩
      simp only [Bool.not_true, Bool.false_eq_true, if_false]
      split <;> rfl

theorem iterFlush_quiet (rx : Regex) (s : Srv) (it : Iteration) (hs : s.Quiet) : (s.iterFlush rx it).1.Quiet :=
  flushWhenDue_quiet rx _ (answerTimeout_quiet rx _ (processRead_quiet rx (s.iterStart it) it.read hs))

theorem srvStep_quiet (rx : Regex) (s : Srv) (op : SrvOp) (hs : s.Quiet) : (srvStep rx s op).Quiet := by
  cases op with
  | loop it =>
    show (s.iterate rx it).1.Quiet
    rcases iterate_cases rx s it with h | ⟨_, h⟩ | ⟨_, h⟩
    · rw [h]; exact hs
    · rw [h]; exact iterFlush_quiet rx s it hs
    · rw [h]; exact foldl_onMessage_quiet rx _ _ (updateDevices_quiet rx _ _ (iterFlush_quiet rx s it hs))
  | message m => exact onMessage_quiet rx s m hs
  | devices l => exact updateDevices_quiet rx s (some l) hs
  | reset => exact resetConfiguration_quiet (flush_quiet rx) s {} rfl rfl

/-- Between events the server is not about to exit. -/
theorem srvRun_quiet (rx : Regex) (s : Srv) (ops : List SrvOp) (hs : s.Quiet) : (srvRun rx s ops).Quiet := by
  induction ops generalizing s with
  | nil => exact hs
  | cons op ops ih => exact ih _ (srvStep_quiet rx s op hs)

/-- Steps of a whole history, for properties which a request does not change -/
theorem srvStep_preserves {P : Srv → Prop} (hp : ∀ a b, SrvPrim a b → P a → P b) (hr : ∀ s : Srv, P s → P { s with nextKeyInfo := true })
    (rx : Regex) (s : Srv) (op : SrvOp) (hs : P s) : P (srvStep rx s op) := by
  have hm : ∀ (s : Srv) m, P s → P (s.onMessage rx m) := by
    intro s m h
    refine SrvSteps.preserves hp (onMessage_steps rx s m) ?_
    cases m <;> first | exact h | exact hr s h
  have hl : ∀ (l : List Msg) (s : Srv), P s → P (l.foldl (Srv.onMessage rx) s) := by
    intro l
    induction l with
    | nil => intro s h; exact h
    | cons m l ih => intro s h; exact ih _ (hm s m h)
  have hi : ∀ s s' : Srv, s'.virtualDown = s.virtualDown → s'.out = s.out → s'.nextKeyInfo = s.nextKeyInfo → P s → P s' :=
    fun s s' h1 h2 h3 => hp s s' (.internal h1 h2 h3)
  cases op with
  | loop it =>
    have h0 : P (s.iterStart it) := hi s _ rfl rfl rfl hs
    have h1 : P (s.iterFlush rx it).1 :=
      SrvSteps.preserves hp ((processRead_steps rx _ it.read).trans ((answerTimeout_steps rx _).trans (flushWhenDue_steps rx _))) h0
    show P (s.iterate rx it).1
    rcases iterate_cases rx s it with h | ⟨_, h⟩ | ⟨_, h⟩
    · rw [h]; exact h0
    · rw [h]; exact h1
    · rw [h]; exact hl _ _ (SrvSteps.preserves hp (updateDevices_steps rx _ _) h1)
  | message m => exact hm s m hs
  | devices l => exact SrvSteps.preserves hp (updateDevices_steps rx s (some l)) hs
  | reset => exact SrvSteps.preserves hp (resetConfiguration_steps (flush_steps rx) s {}) hs

end KM
