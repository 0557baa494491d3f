import Verif.Lemmas.ServerQuiet
import Verif.Spec.Flush
/-!
# While a delay in the output is not over
-/
namespace KM

/-- Nothing is output, the delay stays as it is, and output is only added behind what is waiting - unless the server exits. -/
structure DelayKept (a b : Srv) : Prop where
  exits : exitsOf a.out ≤ exitsOf b.out
  kept : exitsOf b.out = exitsOf a.out → b.out.filter Eff.isOutput = a.out.filter Eff.isOutput ∧ b.flushAt = a.flushAt ∧
    b.sending = a.sending ∧ b.now = a.now ∧ ∃ more, b.sendBuf = a.sendBuf ++ more

theorem exitsOf_append (a b : List Eff) : exitsOf (a ++ b) = exitsOf a + exitsOf b := List.countP_append

theorem SrvSteps.exits {a b : Srv} (h : SrvSteps a b) : exitsOf a.out ≤ exitsOf b.out := by
  refine SrvSteps.preserves (P := fun s => exitsOf a.out ≤ exitsOf s.out) ?_ h (Nat.le_refl _)
  intro x y hp hx
  cases hp with
  | internal h1 h2 h3 => rw [h2]; exact hx
  | press k h => exact hx
  | release k h => exact hx
  | clear => exact hx
  | _ => simp only []; rw [exitsOf_append]; exact Nat.le_trans hx (Nat.le_add_right _ _)

theorem DelayKept.trans {a b c : Srv} (h1 : DelayKept a b) (h2 : exitsOf b.out ≤ exitsOf c.out)
    (h3 : exitsOf b.out = exitsOf a.out → DelayKept b c) : DelayKept a c := by
  refine ⟨Nat.le_trans h1.exits h2, fun he => ?_⟩
  have hb : exitsOf b.out = exitsOf a.out := Nat.le_antisymm (by rw [← he]; exact h2) h1.exits
  obtain ⟨k1, k2, k3, k5, m, k4⟩ := h1.kept hb
  obtain ⟨l1, l2, l3, l5, m', l4⟩ := (h3 hb).kept (he.trans hb.symm)
  exact ⟨l1.trans k1, l2.trans k2, l3.trans k3, l5.trans k5, m ++ m', by rw [l4, k4, List.append_assoc]⟩

theorem DelayKept.same {a b : Srv} (h1 : b.out = a.out) (h2 : b.flushAt = a.flushAt) (h3 : b.sending = a.sending)
    (h5 : b.now = a.now) (more : KeySequence) (h4 : b.sendBuf = a.sendBuf ++ more) : DelayKept a b :=
  ⟨by rw [h1]; exact Nat.le_refl _, fun _ => ⟨by rw [h1], h2, h3, h5, more, h4⟩⟩

theorem DelayKept.refl (a : Srv) : DelayKept a a := .same rfl rfl rfl rfl [] (by simp)

theorem DelayKept.eff {a b : Srv} (e : Eff) (he : e.isOutput = false) (h1 : b.out = a.out ++ [e]) (h2 : b.flushAt = a.flushAt)
    (h3 : b.sending = a.sending) (h5 : b.now = a.now) (h4 : b.sendBuf = a.sendBuf) : DelayKept a b := by
  refine ⟨by rw [h1, exitsOf_append]; exact Nat.le_add_right _ _, fun _ => ⟨?_, h2, h3, h5, [], by rw [h4, List.append_nil]⟩⟩
  rw [h1, List.filter_append, List.filter_cons, he]
  simp

section
variable {rx : Regex} {flush : Srv → Srv} (hf : ∀ s, SrvSteps s (flush s))
include hf

omit hf in
theorem setActiveContexts_kept (s : Srv) (l : List Int) (hs : s.flushAt.isSome = true) :
    DelayKept s (s.setActiveContexts flush l) := by
  have hn : ¬ s.flushAt.isNone = true := by
    cases h : s.flushAt with
    | none => rw [h] at hs; cases hs
    | some t => simp
  unfold Srv.setActiveContexts
  simp only []
  split
  · next h => exact absurd h hn
  · exact .same rfl rfl rfl rfl _ rfl

omit hf in
theorem evaluateDeviceFilters_kept (s : Srv) (hs : s.flushAt.isSome = true) :
    DelayKept s (s.evaluateDeviceFilters rx flush) := by
  unfold Srv.evaluateDeviceFilters
  split
  · exact .refl _
  · have := setActiveContexts_kept (flush := flush) { s with ms := s.ms.evaluateDeviceFilters rx s.devices }
      ({ s with ms := s.ms.evaluateDeviceFilters rx s.devices } : Srv).ms.activeClient hs
    exact ⟨this.exits, this.kept⟩

theorem translateCore_kept (s : Srv) (ev : KeyEvent) (dev : Int) : DelayKept s (s.translateCore rx flush ev dev) := by
  have h1 : DelayKept s (s.noteEvent ev) := by
    unfold Srv.noteEvent
    split <;> exact .same rfl rfl rfl rfl [] (by simp)
  have h2 : SrvSteps (s.noteEvent ev) (s.translateCore rx flush ev dev) := by
    unfold Srv.translateCore
    simp only []
    split
    · exact (exit_steps hf _).after rfl rfl rfl
    · exact (sendOutput_steps _ _ _).after rfl rfl rfl
  refine h1.trans h2.exits ?_
  intro _
  unfold Srv.translateCore
  simp only []
  split
  · refine ⟨?_, fun he => ?_⟩
    · exact SrvSteps.exits ((exit_steps (rx := rx) hf _).after rfl rfl rfl)
    · exfalso
      unfold Srv.exit at he
      simp only [exitsOf_append] at he
      have := SrvSteps.exits (resetConfiguration_steps (rx := rx) hf
        { s.noteEvent ev with ms := ((s.noteEvent ev).ms.update ev dev).1 } {})
      simp only at this
      have h1 : exitsOf [Eff.exitRequested] = 1 := rfl
      omega
  · unfold Srv.sendOutput
    split
    · exact .same rfl rfl rfl rfl _ rfl
    · exact .same rfl rfl rfl rfl _ rfl

theorem injectElapsed_kept (s : Srv) (ev : KeyEvent) (dev : Int) : DelayKept s (s.injectElapsed rx flush ev dev) := by
  unfold Srv.injectElapsed
  split
  · next start _ =>
    split
    · unfold Srv.translateTimeout
      split
      · exact .same rfl rfl rfl rfl [] (by simp [Srv.cancelTimeout])
      · have := translateCore_kept (rx := rx) hf s.cancelTimeout (makeInputTimeoutEvent (s.now - start)) dev
        exact ⟨this.exits, this.kept⟩
    · exact .refl _
  · exact .refl _

theorem translateNoWheel_kept (s : Srv) (ev : KeyEvent) (dev : Int) : DelayKept s (s.translateNoWheel rx flush ev dev) := by
  unfold Srv.translateNoWheel
  split
  · exact .refl _
  · split
    · exact .eff (.nextKeyInfo _ _) rfl rfl rfl rfl rfl rfl
    · exact (injectElapsed_kept hf s ev dev).trans (SrvSteps.exits (translateCore_steps hf _ _ _))
        (fun _ => translateCore_kept hf _ _ _)

theorem translateWith_kept (s : Srv) (ev : KeyEvent) (dev : Int) : DelayKept s (s.translateWith rx flush ev dev) := by
  unfold Srv.translateWith
  split
  · exact .refl _
  · split
    · exact .eff (.nextKeyInfo _ _) rfl rfl rfl rfl rfl rfl
    · simp only []
      refine (injectElapsed_kept (rx := rx) hf s ev dev).trans ?_ (fun _ => ?_)
      · refine SrvSteps.exits ?_
        split
        · exact (translateNoWheel_steps hf _ _ _).trans (translateCore_steps hf _ _ _)
        · exact translateCore_steps hf _ _ _
      · split
        · exact (translateNoWheel_kept hf _ _ _).trans (SrvSteps.exits (translateCore_steps hf _ _ _))
            (fun _ => translateCore_kept hf _ _ _)
        · exact translateCore_kept hf _ _ _

end

theorem setVirtualKeyState_kept (rx : Regex) (s : Srv) (k : Key) (st : KeyState) :
    DelayKept s (s.setVirtualKeyState (Srv.translateInput rx) k st) := by
  have h : ∀ (v : List Key) (ev : KeyEvent),
      DelayKept s (Srv.translateInput rx { s with virtualDown := v } ev anyDeviceIndex) := by
    intro v ev
    have := translateWith_kept (rx := rx) (flush_steps rx) { s with virtualDown := v } ev anyDeviceIndex
    exact ⟨this.exits, this.kept⟩
  have ha : ∀ (x : Srv) (st : KeyState), DelayKept s x →
      DelayKept s (if isVirtualKey k then { x with out := x.out ++ [.virtualKeyState k st] } else x) := by
    intro x st hx
    split
    · exact hx.trans (by simp only [exitsOf_append]; exact Nat.le_add_right _ _)
        (fun _ => .eff (.virtualKeyState _ _) rfl rfl rfl rfl rfl rfl)
    · exact hx
  unfold Srv.setVirtualKeyState
  simp only []
  split
  · exact ha _ _ (h _ _)
  · split
    · exact ha _ _ (h _ _)
    · exact .refl _

theorem isSome_of_kept {a b : Srv} (h : DelayKept a b) (he : exitsOf b.out = exitsOf a.out) (ha : a.flushAt.isSome = true) :
    b.flushAt.isSome = true := by rw [(h.kept he).2.1]; exact ha

theorem onMessage_kept (rx : Regex) (s : Srv) (hs : s.flushAt.isSome = true) (m : Msg) (hm : m.isConfiguration = false) :
    DelayKept s (s.onMessage rx m) := by
  cases m with
  | configuration cfgs => cases hm
  | activeContexts l => exact setActiveContexts_kept s l hs
  | setVirtualKeyState k st =>
    have h1 := setVirtualKeyState_kept rx s k st
    show DelayKept s (if _ then _ else _)
    split
    · next hn =>
      refine h1.trans (SrvSteps.exits (flush_steps rx _)) (fun he => ?_)
      have := isSome_of_kept h1 he hs
      rw [Option.isNone_iff_eq_none] at hn
      rw [hn] at this
      cases this
    · exact h1
  | validateState f => exact .same rfl rfl rfl rfl [] (by simp [Srv.onMessage, Srv.onValidateState])
  | requestNextKeyInfo => exact .same rfl rfl rfl rfl [] (by simp [Srv.onMessage, Srv.onRequestNextKeyInfo])
  | injectInput l =>
    show DelayKept s (Srv.scheduleFlush _ 0)
    have h1 : DelayKept s (l.foldl (fun s e =>
        if (e.state == .Up || e.state == .Down) && isDeviceKey e.key then s.translateInput rx e noDeviceIndex else s) s) := by
      clear hs hm
      induction l generalizing s with
      | nil => exact .refl _
      | cons e l ih =>
        rw [List.foldl_cons]
        have h : DelayKept s (if (e.state == .Up || e.state == .Down) && isDeviceKey e.key then
            s.translateInput rx e noDeviceIndex else s) := by
          split
          · exact translateWith_kept (flush_steps rx) _ _ _
          · exact .refl _
        exact h.trans (ih _).exits (fun _ => ih _)
    have h2 : ∀ x : Srv, exitsOf x.out ≤ exitsOf (x.scheduleFlush 0).out := fun x => by
      unfold Srv.scheduleFlush; split <;> exact Nat.le_refl _
    refine h1.trans (h2 _) (fun he => ?_)
    have := isSome_of_kept h1 he hs
    unfold Srv.scheduleFlush
    rw [if_pos this]
    exact .refl _
  | injectOutput l =>
    show DelayKept s (Srv.scheduleFlush _ 0)
    unfold Srv.scheduleFlush
    rw [if_pos (show (s.sendKeySequence l).flushAt.isSome = true from hs)]
    exact .same rfl rfl rfl rfl l rfl

theorem onMessage_exits (rx : Regex) (s : Srv) (m : Msg) : exitsOf s.out ≤ exitsOf (s.onMessage rx m).out := by
  have h := SrvSteps.exits (onMessage_steps rx s m)
  cases m <;> exact h

theorem messages_exits (rx : Regex) (l : List Msg) : ∀ s : Srv, exitsOf s.out ≤ exitsOf (l.foldl (Srv.onMessage rx) s).out := by
  induction l with
  | nil => intro s; exact Nat.le_refl _
  | cons m l ih => intro s; exact Nat.le_trans (onMessage_exits rx s m) (ih _)

theorem messages_kept (rx : Regex) (l : List Msg) (s : Srv) (hs : s.flushAt.isSome = true)
    (hm : ∀ m ∈ l, m.isConfiguration = false) : DelayKept s (l.foldl (Srv.onMessage rx) s) := by
  induction l generalizing s with
  | nil => exact .refl _
  | cons m l ih =>
    rw [List.foldl_cons]
    have h1 := onMessage_kept rx s hs m (hm m List.mem_cons_self)
    exact h1.trans (messages_exits rx _ _) (fun he => ih _ (isSome_of_kept h1 he hs) (fun m' h' => hm m' (List.mem_cons_of_mem _ h')))

theorem updateDevices_kept (rx : Regex) (s : Srv) (d : Option (List DeviceDesc)) (hs : s.flushAt.isSome = true) :
    DelayKept s (s.updateDevices rx d) := by
  cases d with
  | none => exact .refl _
  | some l =>
    have := evaluateDeviceFilters_kept (rx := rx) (flush := Srv.flush rx) { s with devices := l } hs
    exact ⟨this.exits, this.kept⟩

theorem processRead_kept (rx : Regex) (s : Srv) (r : Read) : DelayKept s (s.processRead rx r) := by
  cases r with
  | nothing => exact .refl _
  | other => exact .refl _
  | key ev dev =>
    show DelayKept s (if _ then _ else _)
    split
    · exact translateWith_kept (flush_steps rx) _ _ _
    · exact .refl _

theorem answerTimeout_kept (rx : Regex) (s : Srv) : DelayKept s (s.answerTimeout rx) := by
  unfold Srv.answerTimeout
  split
  · have := translateWith_kept (rx := rx) (flush_steps rx) s.cancelTimeout (makeInputTimeoutEvent s.timeout) anyDeviceIndex
    exact ⟨this.exits, this.kept⟩
  · exact .refl _

/-- What was read in an iteration, before the buffer is flushed -/
theorem iterRead_kept (rx : Regex) (s : Srv) (r : Read) : DelayKept s ((s.processRead rx r).answerTimeout rx) :=
  (processRead_kept rx s r).trans (SrvSteps.exits (answerTimeout_steps rx _)) (fun _ => answerTimeout_kept rx _)

theorem srvStep_exits (rx : Regex) (s : Srv) (op : SrvOp) : exitsOf s.out ≤ exitsOf (srvStep rx s op).out := by
  cases op with
  | loop it =>
    show _ ≤ exitsOf (s.iterate rx it).1.out
    have h1 : exitsOf s.out ≤ exitsOf (s.iterFlush rx it).1.out :=
      SrvSteps.exits (((processRead_steps rx _ it.read).trans ((answerTimeout_steps rx _).trans
        (flushWhenDue_steps rx _))).after (a := s) rfl rfl rfl)
    rcases iterate_cases rx s it with h | ⟨-, h⟩ | ⟨-, h⟩
    · rw [h]; exact Nat.le_refl _
    · rw [h]; exact h1
    · rw [h]
      exact Nat.le_trans h1 (Nat.le_trans (SrvSteps.exits (updateDevices_steps rx _ _)) (messages_exits rx _ _))
  | message m => exact onMessage_exits rx s m
  | devices l => exact SrvSteps.exits (updateDevices_steps rx s (some l))
  | reset => exact SrvSteps.exits (resetConfiguration_steps (flush_steps rx) s {})

/-- While the delay is not over, an operation of the server keeps it. -/
theorem srvStep_kept (rx : Regex) (s : Srv) (t : Int) (hs : s.flushAt = some t) (op : SrvOp)
    (hk : op.keepsConfiguration = true) (hb : op.until t) (he : exitsOf (srvStep rx s op).out = exitsOf s.out) :
    (srvStep rx s op).out.filter Eff.isOutput = s.out.filter Eff.isOutput ∧ (srvStep rx s op).flushAt = some t ∧
      ∃ more, (srvStep rx s op).sendBuf = s.sendBuf ++ more := by
  have hsome : s.flushAt.isSome = true := by rw [hs]; rfl
  have fin : ∀ {b : Srv}, DelayKept s b → exitsOf b.out = exitsOf s.out →
      b.out.filter Eff.isOutput = s.out.filter Eff.isOutput ∧ b.flushAt = some t ∧ ∃ more, b.sendBuf = s.sendBuf ++ more := by
    intro b h he
    obtain ⟨h1, h2, -, -, h3⟩ := h.kept he
    exact ⟨h1, h2.trans hs, h3⟩
  cases op with
  | loop it =>
    have hm : ∀ m ∈ it.messages, m.isConfiguration = false := by
      intro m hm
      have := List.all_eq_true.1 (show it.messages.all (fun m => !m.isConfiguration) = true from hk) m hm
      simpa using this
    have hr : DelayKept (s.iterStart it) (((s.iterStart it).processRead rx it.read).answerTimeout rx) := iterRead_kept rx _ _
    have hx : exitsOf (s.iterStart it).out = exitsOf s.out := rfl
    have hfl := SrvSteps.exits (flushWhenDue_steps rx (((s.iterStart it).processRead rx it.read).answerTimeout rx))
    have hexits : exitsOf (s.iterFlush rx it).1.out = exitsOf s.out →
        (s.iterFlush rx it).1 = ((s.iterStart it).processRead rx it.read).answerTimeout rx ∧ DelayKept (s.iterStart it) (s.iterFlush rx it).1 := by
      intro he
      have he : exitsOf (Srv.flushWhenDue rx (((s.iterStart it).processRead rx it.read).answerTimeout rx)).1.out = exitsOf s.out := he
      have hn := (hr.kept (by have := hr.exits; omega))
      have hd : (((s.iterStart it).processRead rx it.read).answerTimeout rx).flushDue = false := by
        unfold Srv.flushDue
        rw [hn.2.1, hn.2.2.2.1]
        show (match s.flushAt with | some t => decide (t < it.now) | none => true) = false
        rw [hs]
        have : it.now ≤ t := hb
        simp only [decide_eq_false_iff_not]
        omega
      have : (s.iterFlush rx it).1 = ((s.iterStart it).processRead rx it.read).answerTimeout rx := by
        unfold Srv.iterFlush Srv.flushWhenDue
        rw [hd]
        rfl
      exact ⟨this, by rw [this]; exact hr⟩
    have fin2 : ∀ {b : Srv}, DelayKept (s.iterStart it) b → exitsOf b.out = exitsOf s.out →
        b.out.filter Eff.isOutput = s.out.filter Eff.isOutput ∧ b.flushAt = some t ∧ ∃ more, b.sendBuf = s.sendBuf ++ more := by
      intro b h he
      obtain ⟨h1, h2, -, -, h3⟩ := h.kept he
      exact ⟨h1, h2.trans hs, h3⟩
    replace he : exitsOf (s.iterate rx it).1.out = exitsOf s.out := he
    show (s.iterate rx it).1.out.filter Eff.isOutput = _ ∧ (s.iterate rx it).1.flushAt = _ ∧ ∃ more, (s.iterate rx it).1.sendBuf = _
    have hf0 : exitsOf s.out ≤ exitsOf (s.iterFlush rx it).1.out := Nat.le_trans hr.exits hfl
    rcases iterate_cases rx s it with h | ⟨-, h⟩ | ⟨-, h⟩
    · rw [h]; exact fin2 (.refl _) rfl
    · rw [h] at he ⊢
      exact fin2 (hexits he).2 he
    · rw [h] at he ⊢
      have hu := SrvSteps.exits (updateDevices_steps rx (s.iterFlush rx it).1 it.devices)
      have hmm := messages_exits rx it.messages ((s.iterFlush rx it).1.updateDevices rx it.devices)
      replace he : exitsOf (it.messages.foldl (Srv.onMessage rx) ((s.iterFlush rx it).1.updateDevices rx it.devices)).out = exitsOf s.out := he
      have h1 := (hexits (by omega)).2
      have h2 := updateDevices_kept rx (s.iterFlush rx it).1 it.devices (isSome_of_kept h1 (by omega) hsome)
      have h3 := h1.trans h2.exits (fun _ => h2)
      have h4 := messages_kept rx it.messages _ (isSome_of_kept h3 (by omega) hsome) hm
      exact fin2 (h3.trans h4.exits (fun _ => h4)) he
  | message m =>
    refine fin (onMessage_kept rx s hsome m ?_) he
    have : (!m.isConfiguration && true) = true := hk
    simpa using this
  | devices l => exact fin (updateDevices_kept rx s (some l) hsome) he
  | reset => cases hk

end KM
