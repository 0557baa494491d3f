import Verif.Lemmas.Held
/-!
# Triggers of the tracked output keys
-/
namespace KM

/-- each tracked key has a trigger which was there before, or the new trigger -/
def TriggersFrom (trig : Trigger) (down down' : List OutputDown) : Prop :=
  ∀ o ∈ down', o.trigger = trig ∨ ∃ x ∈ down, x.trigger = o.trigger

theorem TriggersFrom.refl {trig down} : TriggersFrom trig down down := fun o ho => Or.inr ⟨o, ho, rfl⟩

theorem TriggersFrom.trans {trig a b c} (h1 : TriggersFrom trig a b) (h2 : TriggersFrom trig b c) :
    TriggersFrom trig a c := by
  intro o ho
  rcases h2 o ho with h | ⟨x, hx, h⟩
  · exact Or.inl h
  · rcases h1 x hx with h' | ⟨y, hy, h'⟩
    · exact Or.inl (h ▸ h')
    · exact Or.inr ⟨y, hy, h'.trans h⟩

theorem TriggersFrom.modify {trig pre post} {o o' : OutputDown} (h : o'.trigger = o.trigger) :
    TriggersFrom trig (pre ++ o :: post) (pre ++ o' :: post) := by
  intro x hx
  simp only [List.mem_append, List.mem_cons] at hx
  rcases hx with hx | hx | hx
  · exact Or.inr ⟨x, by simp [hx], rfl⟩
  · exact Or.inr ⟨o, by simp, by rw [hx, h]⟩
  · exact Or.inr ⟨x, by simp [hx], rfl⟩

theorem TriggersFrom.subset {trig a b} (h : ∀ o ∈ b, o ∈ a) : TriggersFrom trig a b :=
  fun o ho => Or.inr ⟨o, h o ho, rfl⟩

theorem updateOutput_triggers (s : S) (ev trig ctx) :
    TriggersFrom trig s.down (updateOutput s ev trig ctx).down := by
  unfold updateOutput
  split
  · unfold updateOutputUp
    split
    · exact .refl
    · next o ho =>
      obtain ⟨pre, post, h1, h2, h3, h4, h5⟩ := find_split ho
      split
      · simp only [h4]; rw [h1]; exact .modify rfl
      · split
        · simp only [h4]; rw [h1]; exact .modify rfl
        · simp only []
          split
          · rw [h5, h1]; apply TriggersFrom.subset; intro o ho; simp at ho ⊢; rcases ho with ho | ho <;> simp [ho]
          · simp only [h4]; rw [h1]; exact .modify rfl
  · unfold updateOutputNot
    split
    · exact .refl
    · next o ho =>
      obtain ⟨pre, post, h1, h2, h3, h4, h5⟩ := find_split ho
      split
      · exact .refl
      · simp only [h4]; rw [h1]; exact .modify rfl
  · unfold updateOutputDown
    have hr : TriggersFrom trig s.down (reapplyLoop ev.key s.down s.buf s.reapplied).1 := by
      have := reapplyLoop_ind (P := fun _ d => TriggersFrom trig s.down d) (k := ev.key) (pre := [])
        (r := s.reapplied) (l := s.down) (b := s.buf)
        (fun b pre o post h _ _ => h.trans (.modify rfl))
        (fun b pre o post h _ _ _ => h.trans (.modify rfl)) .refl
      simpa using this
    generalize reapplyLoop ev.key s.down s.buf s.reapplied = r at *
    obtain ⟨down, buf, reapplied, returned⟩ := r
    simp only [] at *
    split
    · exact hr
    · split
      · simp only []
        split
        · refine hr.trans ?_
          intro o ho
          simp only [List.mem_append, List.mem_singleton] at ho
          rcases ho with ho | ho
          · exact Or.inr ⟨o, ho, rfl⟩
          · exact Or.inl (by rw [ho])
        · exact hr
      · next hn =>
        cases ho : down.find? (·.key == ev.key) with
        | none => simp [ho] at hn
        | some o =>
          obtain ⟨pre, post, h1, h2, h3, h4, h5⟩ := find_split ho
          simp only [h4]
          subst h1
          exact hr.trans (.modify rfl)
  all_goals exact .refl

theorem applyOutput_triggers (s : S) (out trig ctx) :
    TriggersFrom trig s.down (applyOutput s out trig ctx).down := by
  have hfold : ∀ {α : Type} (l : List α) (f : α → KeyEvent) (s : S),
      TriggersFrom trig s.down (l.foldl (fun s k => updateOutput s (f k) trig ctx) s).down := by
    intro α l f
    induction l with
    | nil => intro s; exact .refl
    | cons a l ih => intro s; exact (updateOutput_triggers _ _ _ _).trans (ih _)
  induction out generalizing s with
  | nil => exact .refl
  | cons ev rest ih =>
    unfold applyOutput
    split
    · simp only []
      refine TriggersFrom.trans ?_ (ih _)
      split
      · exact hfold _ (fun (o : OutputDown) => ⟨o.key, .Not, 0⟩) s
      · exact hfold _ (fun (k : Key) => ⟨k, ev.state, 0⟩) s
    · split
      · split
        · exact .refl
        · exact ih _
      · split
        · simp only []
          refine TriggersFrom.trans ?_ (ih _)
          split
          · exact updateOutput_triggers _ _ _ _
          · exact .refl
        · exact (updateOutput_triggers _ _ _ _).trans (ih _)

/-- none of the tracked keys is attributed to the key -/
def NotTriggeredBy (k : Key) (s : S) : Prop := ∀ o ∈ s.down, o.trigger.keyOf ≠ k

theorem NotTriggeredBy.applyOutput {k s} {trig : Trigger} (h : NotTriggeredBy k s) (ht : trig.keyOf ≠ k) (out ctx) :
    NotTriggeredBy k (applyOutput s out trig ctx) := by
  intro o ho
  rcases applyOutput_triggers s out trig ctx o ho with h1 | ⟨x, hx, h1⟩
  · rw [h1]; exact ht
  · rw [← h1]; exact h x hx

theorem NotTriggeredBy.continueOnRelease {k s} {ev : KeyEvent} (h : NotTriggeredBy k s) (ht : ev.key ≠ k) (ctx) :
    NotTriggeredBy k (continueOnRelease s ev ctx).1 := by
  unfold KM.continueOnRelease
  split
  · exact h
  · split
    · exact h
    · exact h.applyOutput (trig := .ev ev) ht _ _

theorem NotTriggeredBy.releaseTriggered {k s} (h : NotTriggeredBy k s) (j ctx) :
    NotTriggeredBy k (releaseTriggered s j ctx) :=
  fun o ho => h o (List.mem_filter.1 ho).1

theorem NotTriggeredBy.onContextActiveEvent {k s c} {ev : KeyEvent} (h : NotTriggeredBy k s) (ht : ev.key ≠ k) (i) :
    NotTriggeredBy k (onContextActiveEvent c s ev i) := by
  unfold KM.onContextActiveEvent
  split
  · exact h
  · next ctx hctx =>
    simp only []
    generalize hs1 : (if ((ctx.inputs.takeWhile (fun i => i.input.head?.map (·.key) != some Key.ContextActive)).any
      (·.input.isEmpty)) = true then { s with ub := true } else s) = s1
    have h1 : NotTriggeredBy k s1 := by
      subst hs1; split
      · exact h
      · exact h
    split
    · exact h1
    · split
      · split
        · exact h1
        · exact h1
        · exact h1.applyOutput (trig := .ev ev) ht _ _
      · exact (h1.continueOnRelease ht _).releaseTriggered _ _

theorem NotTriggeredBy.updateActiveContexts {k s c} (h : NotTriggeredBy k s) (ht : k ≠ Key.ContextActive) :
    NotTriggeredBy k (updateActiveContexts c s) := by
  have hfold : ∀ (ev : KeyEvent) (l : List Nat) (s : S), ev.key ≠ k → NotTriggeredBy k s →
      NotTriggeredBy k (l.foldl (fun s i => KM.onContextActiveEvent c s ev i) s) := by
    intro ev l
    induction l with
    | nil => intro s _ h; exact h
    | cons a l ih => intro s he h; exact ih _ he (h.onContextActiveEvent he _)
  unfold KM.updateActiveContexts
  split
  · exact h
  · exact hfold _ _ _ (Ne.symm ht) (hfold _ _ _ (Ne.symm ht) h)

theorem finishInput_release (c s) (ev : KeyEvent) (hs : ev.state = .Up) (hk : ev.key ≠ Key.ContextActive) :
    NotTriggeredBy ev.key (finishInput c s ev) := by
  have h1 : NotTriggeredBy ev.key (releaseTriggered s ev.key (-1)) := by
    intro o ho heq
    have := (List.mem_filter.1 ho).2
    simp [staysDown, heq, hk] at this
  have h2 := h1.updateActiveContexts (c := c) hk
  unfold finishInput
  simp only [hs]
  intro o ho
  refine h2 o ?_
  revert ho
  simp only [beq_self_eq_true, if_true]
  split <;> exact id

theorem update_release (c s) (ev : KeyEvent) (dev) (hs : ev.state = .Up) (hk : ev.key ≠ Key.ContextActive)
    (ht : ev.key ≠ Key.timeout) : NotTriggeredBy ev.key (update c s ev dev).1 := by
  unfold update
  simp only []
  show NotTriggeredBy ev.key (applyInput c _ ev dev)
  unfold applyInput
  simp only []
  generalize (if validInput ev = true then _ else _ : S) = s0
  have h1 : (continueOnRelease s0 ev (-1)).2 = true := by
    unfold continueOnRelease
    split
    · rfl
    · simp [hs]
  generalize continueOnRelease s0 ev (-1) = r1 at *
  obtain ⟨s1, b1⟩ := r1
  simp only [] at h1
  subst h1
  simp only []
  have h2 : (suppressTimeout s1 ev).2 = false := by
    unfold suppressTimeout
    have : (ev.key == Key.timeout) = false := by simpa using ht
    simp only [this]
    split
    · rfl
    · split
      · simp only [Bool.false_eq_true, if_false]; split <;> rfl
      · rfl
  generalize suppressTimeout s1 ev = r2 at *
  obtain ⟨s2, b2⟩ := r2
  simp only [] at h2
  subst h2
  simp only []
  have h3 : (mergeRepeat s2 ev dev).2 = false := by
    unfold mergeRepeat
    simp [hs]
  generalize mergeRepeat s2 ev dev = r3 at *
  obtain ⟨s3, b3⟩ := r3
  simp only [] at h3
  subst h3
  simp only []
  exact finishInput_release _ _ _ hs hk

end KM
