import Verif.Lemmas.ServerSteps
import Verif.Lemmas.Frozen
/-!
# The configuration stays while the server works

Only a configuration message and the exit sequence replace the stages.
-/
namespace KM

/-- the mouse usage of the stages -/
def Srv.flags (s : Srv) : List Bool := s.ms.stages.map (fun p => p.1.hasMouseMappings)

/-- the exit sequence was not read by the first stage -/
def Srv.ExitFree (s : Srv) : Prop := s.ms.buf = [] ∧ s.ms.shouldExit = false

/-- the stages are kept, or the exit sequence was read -/
def Keeps (a b : Srv) : Prop :=
  (Eff.exitRequested ∈ a.out → Eff.exitRequested ∈ b.out) ∧
    (Eff.exitRequested ∈ b.out ∨ (b.flags = a.flags ∧ (a.ExitFree → b.ExitFree)))

theorem Keeps.refl (s : Srv) : Keeps s s := ⟨id, .inr ⟨rfl, id⟩⟩

theorem Keeps.trans {a b c : Srv} (h : Keeps a b) (t : Keeps b c) : Keeps a c := by
  refine ⟨fun e => t.1 (h.1 e), ?_⟩
  rcases t.2 with h' | h'
  · exact .inl h'
  · rcases h.2 with h'' | h''
    · exact .inl (t.1 h'')
    · exact .inr ⟨h'.1.trans h''.1, fun e => h'.2 (h''.2 e)⟩

theorem Keeps.same {a b : Srv} (h1 : ∃ l, b.out = a.out ++ l) (h2 : b.flags = a.flags) (h3 : a.ExitFree → b.ExitFree := by exact id) : Keeps a b := by
  obtain ⟨l, hl⟩ := h1
  exact ⟨fun e => by rw [hl]; exact List.mem_append_left _ e, .inr ⟨h2, h3⟩⟩

theorem Keeps.internal {a b : Srv} (h1 : b.out = a.out) (h2 : b.flags = a.flags) (h3 : a.ExitFree → b.ExitFree := by exact id) : Keeps a b :=
  .same ⟨[], by rw [h1, List.append_nil]⟩ h2 h3

theorem Keeps.after {a b c : Srv} (h : Keeps b c) (h1 : b.out = a.out) (h2 : b.flags = a.flags) (h3 : a.ExitFree → b.ExitFree := by exact id) : Keeps a c :=
  (Keeps.internal h1 h2 h3).trans h

theorem SrvSteps.exit_mono {a b : Srv} (h : SrvSteps a b) (he : Eff.exitRequested ∈ a.out) : Eff.exitRequested ∈ b.out := by
  refine SrvSteps.preserves (P := fun s => Eff.exitRequested ∈ s.out) ?_ h he
  intro a b h ha
  cases h with
  | internal _ h2 => rw [h2]; exact ha
  | _ => simp [ha]

theorem setActiveGo_flags (indices : List Int) (l : List (Cfg × S)) : ∀ (off : Nat) (buf : KeySequence),
    (setActiveGo indices l off buf).1.map (fun p => p.1.hasMouseMappings) = l.map (fun p => p.1.hasMouseMappings) := by
  induction l with
  | nil => intro off buf; rfl
  | cons p l ih =>
    intro off buf
    obtain ⟨c, s⟩ := p
    unfold setActiveGo
    simp only [List.map_cons, ih]

theorem updateGo_flags (ev : KeyEvent) (dev : Int) (l : List (Cfg × S)) : ∀ (first : Bool) (buf : KeySequence),
    (updateGo ev dev first l buf).1.map (fun p => p.1.hasMouseMappings) = l.map (fun p => p.1.hasMouseMappings) := by
  induction l with
  | nil => intro off buf; rfl
  | cons p l ih =>
    intro off buf
    obtain ⟨c, s⟩ := p
    unfold updateGo
    simp only [List.map_cons, ih]

section
variable {rx : Regex} {flush : Srv → Srv} (hf : ∀ s, Keeps s (flush s))
include hf

theorem setActiveContexts_keeps (s : Srv) (l : List Int) : Keeps s (s.setActiveContexts flush l) := by
  unfold Srv.setActiveContexts
  simp only []
  have h : ∀ p : MS × KeySequence, p = s.ms.setActiveClientContexts l →
      p.1.stages.map (fun p => p.1.hasMouseMappings) = s.ms.stages.map (fun p => p.1.hasMouseMappings) := by
    intro p hp
    rw [hp]
    exact setActiveGo_flags l s.ms.stages 0 s.ms.buf
  have h' : s.ExitFree → ∀ p : MS × KeySequence, p = s.ms.setActiveClientContexts l → p.1.shouldExit = false := by
    intro he p hp
    rw [hp]
    have he2 := he.2
    show MS.shouldExit ⟨(setActiveGo l s.ms.stages 0 s.ms.buf).1, l, (setActiveGo l s.ms.stages 0 s.ms.buf).2⟩ = false
    rw [he.1]
    unfold MS.shouldExit at he2 ⊢
    simp only []
    cases hs : s.ms.stages with
    | nil => rfl
    | cons p rest =>
      rw [hs] at he2
      obtain ⟨c, st⟩ := p
      have := congrArg Prod.fst (setActiveClientContexts_frozen c st (stageIndices l 0 c.contexts.length))
      show S.shouldExit (KM.setActiveClientContexts c st (stageIndices l 0 c.contexts.length)).1 = false
      unfold S.shouldExit at he2 ⊢
      have this : (KM.setActiveClientContexts c st (stageIndices l 0 c.contexts.length)).1.exitPos = st.exitPos := this
      rw [this]
      exact he2
  split
  · exact (hf _).after rfl (h _ rfl) (fun he => ⟨rfl, h' he _ rfl⟩)
  · exact .internal rfl (h _ rfl) (fun he => ⟨rfl, h' he _ rfl⟩)

theorem evaluateDeviceFilters_keeps (s : Srv) : Keeps s (s.evaluateDeviceFilters rx flush) := by
  unfold Srv.evaluateDeviceFilters
  split
  · exact .refl _
  · refine (setActiveContexts_keeps hf _ _).after rfl ?_ ?_
    · show List.map _ (List.map _ _) = _
      rw [List.map_map]
      rfl
    · intro he
      refine ⟨he.1, ?_⟩
      have he2 := he.2
      unfold MS.shouldExit at he2 ⊢
      unfold MS.evaluateDeviceFilters
      simp only []
      cases hs : s.ms.stages with
      | nil => rfl
      | cons p rest => rw [hs] at he2; exact he2

end

section
variable {rx : Regex} {flush : Srv → Srv} (hg : ∀ s, SrvSteps s (flush s))
include hg

omit hg in
theorem sendOutput_keeps (s : Srv) (ev : KeyEvent) (output : KeySequence) : Keeps s (s.sendOutput ev output) := by
  unfold Srv.sendOutput
  split <;> exact .internal rfl rfl (fun h => ⟨rfl, h.2⟩)

omit hg in
theorem noteEvent_keeps (s : Srv) (ev : KeyEvent) : Keeps s (s.noteEvent ev) := by
  unfold Srv.noteEvent
  split <;> exact .internal rfl rfl

theorem translateCore_keeps (s : Srv) (ev : KeyEvent) (dev : Int) : Keeps s (s.translateCore rx flush ev dev) := by
  unfold Srv.translateCore
  simp only []
  refine (noteEvent_keeps s ev).trans ?_
  have he := exit_steps (rx := rx) hg { s.noteEvent ev with ms := ((s.noteEvent ev).ms.update ev dev).1 }
  have h := updateGo_flags ev dev (s.noteEvent ev).ms.stages true ((s.noteEvent ev).ms.buf ++ [ev])
  split
  · exact ⟨fun e => he.exit_mono e, .inl (List.mem_append_right _ (List.mem_singleton.2 rfl))⟩
  · next hx =>
    exact (sendOutput_keeps _ _ _).after rfl h (fun _ => ⟨rfl, Bool.eq_false_iff.2 hx⟩)

theorem translateTimeout_keeps (s : Srv) (ev : KeyEvent) (dev : Int) : Keeps s (s.translateTimeout rx flush ev dev) := by
  unfold Srv.translateTimeout
  split
  · exact .refl _
  · exact translateCore_keeps hg _ _ _

theorem injectElapsed_keeps (s : Srv) (ev : KeyEvent) (dev : Int) : Keeps s (s.injectElapsed rx flush ev dev) := by
  unfold Srv.injectElapsed
  split
  · split
    · exact (translateTimeout_keeps hg _ _ _).after rfl rfl
    · exact .refl _
  · exact .refl _

omit hg in
theorem replyKeyInfo_keeps (s : Srv) (ev : KeyEvent) (dev : Int) : Keeps s (s.replyKeyInfo ev dev) := .same ⟨_, rfl⟩ rfl

theorem translateNoWheel_keeps (s : Srv) (ev : KeyEvent) (dev : Int) : Keeps s (s.translateNoWheel rx flush ev dev) := by
  unfold Srv.translateNoWheel
  split
  · exact .refl _
  · split
    · exact replyKeyInfo_keeps s ev dev
    · exact (injectElapsed_keeps hg _ _ _).trans (translateCore_keeps hg _ _ _)

theorem translateWith_keeps (s : Srv) (ev : KeyEvent) (dev : Int) : Keeps s (s.translateWith rx flush ev dev) := by
  unfold Srv.translateWith
  split
  · exact .refl _
  · split
    · exact replyKeyInfo_keeps s ev dev
    · refine (injectElapsed_keeps (rx := rx) hg s ev dev).trans ?_
      simp only []
      split
      · exact (translateNoWheel_keeps hg _ _ _).trans (translateCore_keeps hg _ _ _)
      · exact translateCore_keeps hg _ _ _

end

theorem setVirtualKeyState_keeps {translate : Srv → KeyEvent → Int → Srv} (ht : ∀ s ev dev, Keeps s (translate s ev dev))
    (s : Srv) (k : Key) (st : KeyState) : Keeps s (s.setVirtualKeyState translate k st) := by
  unfold Srv.setVirtualKeyState
  simp only []
  split
  · have := (ht { s with virtualDown := s.virtualDown ++ [k] } ⟨k, .Down, 0⟩ anyDeviceIndex).after (a := s) rfl rfl
    split
    · exact this.trans (.same ⟨_, rfl⟩ rfl)
    · exact this
  · split
    · have := (ht { s with virtualDown := s.virtualDown.erase k } ⟨k, .Up, 0⟩ anyDeviceIndex).after (a := s) rfl rfl
      split
      · exact this.trans (.same ⟨_, rfl⟩ rfl)
      · exact this
    · exact .refl _

theorem toggleVirtualKey_keeps (rx : Regex) (s : Srv) (k : Key) : Keeps s (s.toggleVirtualKey rx k) :=
  setVirtualKeyState_keeps (fun s ev dev => translateWith_keeps (fun s => .refl s) s ev dev) s k _

theorem scheduleFlush_keeps (s : Srv) (d : Nat) : Keeps s (s.scheduleFlush d) := by
  unfold Srv.scheduleFlush
  split <;> exact .internal rfl rfl

theorem flushLoop_keeps (rx : Regex) (n : Nat) (s : Srv) : Keeps s (Srv.flushLoop rx n s).1 := by
  refine flushLoop_rec (motive := fun _ s r => Keeps s r.1) ?_ ?_ ?_ ?_ ?_ ?_ ?_ n s
  · intro n s _; exact .refl _
  · intro n s e rest r _ _ ih; exact ih.after rfl rfl
  · intro n s e rest r _ _ _ ih
    exact Keeps.trans (a := s) (by exact .same ⟨_, rfl⟩ rfl) ih
  · intro n s e rest r _ _ _ ih
    exact Keeps.after ((toggleVirtualKey_keeps rx { s with sendBuf := rest } e.key).trans ih) rfl rfl
  · intro n s e rest _ _
    exact (scheduleFlush_keeps { s with sendBuf := rest } e.value).after rfl rfl
  · intro n s e rest r _ hi _ ih
    exact Keeps.trans (a := s) (by exact .same ⟨_, rfl⟩ rfl) ih
  · intro n s e rest _ hi _
    exact .same ⟨_, rfl⟩ rfl

theorem flushSendBuffer_keeps (rx : Regex) (s : Srv) : Keeps s (s.flushSendBuffer rx).1 := by
  unfold Srv.flushSendBuffer
  split
  · exact .refl _
  · have h := flushLoop_keeps rx 9 { s with sending := true, flushAt := none }
    refine Keeps.after (b := { s with sending := true, flushAt := none }) ?_ rfl rfl
    generalize Srv.flushLoop rx 9 { s with sending := true, flushAt := none } = r at h ⊢
    exact h.trans (.internal rfl rfl)

theorem flush_keeps (rx : Regex) (s : Srv) : Keeps s (s.flush rx) := flushSendBuffer_keeps rx s

theorem translateInput_keeps (rx : Regex) (s : Srv) (ev : KeyEvent) (dev : Int) : Keeps s (s.translateInput rx ev dev) :=
  translateWith_keeps (flush_steps rx) s ev dev

theorem injectLoop_keeps (rx : Regex) (l : KeySequence) (s : Srv) : Keeps s (l.foldl (fun s e =>
    if (e.state == .Up || e.state == .Down) && isDeviceKey e.key then
      s.translateInput rx e noDeviceIndex else s) s) := by
  induction l generalizing s with
  | nil => exact .refl _
  | cons e l ih =>
    rw [List.foldl_cons]
    split
    · exact (translateInput_keeps rx s e _).trans (ih _)
    · exact ih _

/-- A message other than a configuration keeps the stages. -/
theorem onMessage_keeps (rx : Regex) (s : Srv) (m : Msg) (hm : ∀ cfgs, m ≠ .configuration cfgs) : Keeps s (s.onMessage rx m) := by
  cases m with
  | configuration cfgs => exact absurd rfl (hm cfgs)
  | activeContexts l => exact setActiveContexts_keeps (flush_keeps rx) s l
  | setVirtualKeyState k st =>
    have h := setVirtualKeyState_keeps (translateInput_keeps rx) s k st
    show Keeps s (s.onSetVirtualKeyState rx k st)
    unfold Srv.onSetVirtualKeyState
    simp only []
    split
    · exact h.trans (flush_keeps rx _)
    · exact h
  | validateState f =>
    refine .internal rfl ?_ ?_
    · show List.map _ (s.ms.validateState f).stages = List.map _ s.ms.stages
      unfold MS.validateState
      split
      · next h => rw [h]; rfl
      · rfl
    · intro he
      have he2 := he.2
      have he1 := he.1
      show (s.ms.validateState f).buf = [] ∧ (s.ms.validateState f).shouldExit = false
      unfold MS.validateState
      split
      · next h =>
        refine ⟨he1, ?_⟩
        unfold MS.shouldExit at he2 ⊢
        rw [h] at he2
        exact he2
      · exact ⟨he1, he2⟩
  | requestNextKeyInfo => exact .internal rfl rfl
  | injectInput l => exact (injectLoop_keeps rx l s).trans (scheduleFlush_keeps _ _)
  | injectOutput l => exact (scheduleFlush_keeps (s.sendKeySequence l) 0).after rfl rfl

theorem processRead_keeps (rx : Regex) (s : Srv) (r : Read) : Keeps s (s.processRead rx r) := by
  cases r with
  | nothing => exact .refl _
  | other => exact .refl _
  | key ev dev =>
    unfold Srv.processRead
    simp only []
    split
    · exact translateInput_keeps rx s ev dev
    · exact .refl _

theorem answerTimeout_keeps (rx : Regex) (s : Srv) : Keeps s (s.answerTimeout rx) := by
  unfold Srv.answerTimeout
  split
  · exact (translateInput_keeps rx _ _ _).after rfl rfl
  · exact .refl _

theorem flushWhenDue_keeps (rx : Regex) (s : Srv) : Keeps s (s.flushWhenDue rx).1 := by
  unfold Srv.flushWhenDue
  split
  · exact flushSendBuffer_keeps rx s
  · exact .refl _

theorem setDeviceDescs_keeps (rx : Regex) (s : Srv) (d : List DeviceDesc) : Keeps s (s.setDeviceDescs rx d) :=
  (evaluateDeviceFilters_keeps (flush_keeps rx) _).after rfl rfl

theorem updateDevices_keeps (rx : Regex) (s : Srv) (d : Option (List DeviceDesc)) : Keeps s (s.updateDevices rx d) := by
  cases d with
  | none => exact .refl _
  | some l => exact setDeviceDescs_keeps rx s l

/-- Afterwards the stages are the given ones, or the exit sequence was read. -/
theorem resetConfiguration_keeps (rx : Regex) (s : Srv) (ms : MS) (hb : ms.buf = []) (hx : ms.shouldExit = false) :
    Eff.exitRequested ∈ (s.resetConfiguration rx (Srv.flush rx) ms).out ∨
      ((s.resetConfiguration rx (Srv.flush rx) ms).flags = ms.stages.map (fun p => p.1.hasMouseMappings) ∧
        (s.resetConfiguration rx (Srv.flush rx) ms).ExitFree) := by
  unfold Srv.resetConfiguration
  simp only []
  rcases (evaluateDeviceFilters_keeps (rx := rx) (flush_keeps rx)
    { s.releaseAllKeys.flush rx with ms := ms, virtualDown := [], flushAt := none, timeoutStart := none }).2 with h | h
  · exact .inl h
  · exact .inr ⟨h.1, h.2 ⟨hb, hx⟩⟩

end KM
