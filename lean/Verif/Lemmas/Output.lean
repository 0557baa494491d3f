import Verif.Lemmas.StageInv
/-!
# The functions writing the output of a stage
-/
namespace KM

theorem find_split {p : α → Bool} {l : List α} {o : α} (h : l.find? p = some o) :
    ∃ pre post, l = pre ++ o :: post ∧ p o = true ∧ (∀ x ∈ pre, p x = false) ∧
      (∀ f, modFirst p f l = pre ++ f o :: post) ∧ l.eraseP p = pre ++ post := by
  induction l with
  | nil => simp at h
  | cons a l ih =>
    cases hp : p a with
    | true =>
      simp only [List.find?_cons, hp, Option.some.injEq] at h
      subst h
      exact ⟨[], l, rfl, hp, by simp, by simp [modFirst, hp], by simp [hp]⟩
    | false =>
      simp only [List.find?_cons, hp] at h
      obtain ⟨pre, post, h1, h2, h3, h4, h5⟩ := ih h
      refine ⟨a :: pre, post, by simp [h1], h2, ?_, ?_, ?_⟩
      · intro x hx
        rcases List.mem_cons.1 hx with rfl | hx
        · exact hp
        · exact h3 x hx
      · intro f; simp [modFirst, hp, h4]
      · simp [hp, h5]

theorem rEraseKey_split (l : KeySequence) (k : Key) :
    ((∀ e ∈ l, e.key ≠ k) ∧ rEraseKey l k = l) ∨
    ∃ a x b, l = a ++ x :: b ∧ x.key = k ∧ (∀ e ∈ b, e.key ≠ k) ∧ rEraseKey l k = a ++ b := by
  unfold rEraseKey
  cases h : l.reverse.find? (·.key == k) with
  | none =>
    left
    have h1 : ∀ e ∈ l, e.key ≠ k := by simpa using h
    refine ⟨h1, ?_⟩
    rw [List.eraseP_of_forall_not]
    · simp
    · intro a ha; simpa using h1 a (by simpa using ha)
  | some o =>
    right
    obtain ⟨pre, post, h1, h2, h3, _, h5⟩ := find_split h
    refine ⟨post.reverse, o, pre.reverse, ?_, by simpa using h2, ?_, ?_⟩
    · have := congrArg List.reverse h1
      simpa using this
    · intro e he
      have := h3 e (by simpa using he)
      simpa using this
    · rw [h5]; simp

/-- Induction over the loop reapplying temporarily released keys. -/
theorem reapplyLoop_ind {P : KeySequence → List OutputDown → Prop} {k : Key}
    (reapply : ∀ b pre (o : OutputDown) post, P b (pre ++ o :: post) → o.temporarilyReleased = true →
      o.suppressed = false →
      P (b ++ [⟨o.key, .Down, 0⟩]) (pre ++ { o with temporarilyReleased := false } :: post))
    (undo : ∀ b pre (o : OutputDown) post, P (b ++ [⟨k, .Up, 0⟩]) (pre ++ o :: post) →
      o.temporarilyReleased = true → o.suppressed = true → o.key = k →
      P b (pre ++ { o with temporarilyReleased := false } :: post))
    {l : List OutputDown} {b : KeySequence} {r : Bool} {pre : List OutputDown} (h : P b (pre ++ l)) :
    P (reapplyLoop k l b r).2.1 (pre ++ (reapplyLoop k l b r).1) := by
  induction l generalizing b r pre with
  | nil => simpa [reapplyLoop] using h
  | cons o os ih =>
    unfold reapplyLoop
    split
    · next hc =>
      simp only [Bool.and_eq_true, Bool.not_eq_true'] at hc
      have h1 := reapply b pre o os h hc.1 hc.2
      simp only []
      split
      · exact h1
      · have h1' : P (b ++ [⟨o.key, .Down, 0⟩])
            ((pre ++ [{ o with temporarilyReleased := false }]) ++ os) := by simpa using h1
        have := ih (r := true) h1'
        simpa using this
    · next hc =>
      split
      · next hu =>
        simp only [Bool.and_eq_true, beq_iff_eq] at hu
        obtain ⟨⟨⟨h1, h2⟩, h3⟩, h4⟩ := hu
        have hs : o.suppressed = true := by
          simpa [h1] using hc
        have hb : b = b.dropLast ++ [⟨k, .Up, 0⟩] := by
          rcases List.eq_nil_or_concat b with hb | ⟨b', x, hb⟩
          · subst hb; simp at h4
          · subst hb; simp at h4; subst h4; simp
        exact undo _ _ _ _ (hb ▸ h) h1 hs h2
      · have h1 : P b ((pre ++ [o]) ++ os) := by simpa using h
        have := ih (r := r) h1
        simpa using this

/-- When the loop returned early, the key is tracked and is not temporarily released. -/
theorem reapplyLoop_returned {k : Key} {l : List OutputDown} {b : KeySequence} {r : Bool}
    (h : (reapplyLoop k l b r).2.2.2 = true) :
    ∃ o ∈ (reapplyLoop k l b r).1, o.key = k ∧ o.temporarilyReleased = false := by
  induction l generalizing b r with
  | nil => simp [reapplyLoop] at h
  | cons o os ih =>
    unfold reapplyLoop at h ⊢
    split at h
    · next hc =>
      simp only [hc, if_true] at h ⊢
      split at h
      · next hk =>
        simp only [hk, if_true]
        exact ⟨{ o with temporarilyReleased := false }, List.mem_cons_self, by simpa using hk, rfl⟩
      · next hk =>
        simp only [hk]
        obtain ⟨o', h1, h2⟩ := ih h
        exact ⟨o', by simp [h1], h2⟩
    · next hc =>
      simp only [hc]
      split at h
      · next hu =>
        simp only [hu, if_true]
        simp only [Bool.and_eq_true, beq_iff_eq] at hu
        exact ⟨{ o with temporarilyReleased := false }, List.mem_cons_self, hu.1.1.2, rfl⟩
      · next hu =>
        simp only [hu]
        obtain ⟨o', h1, h2⟩ := ih h
        exact ⟨o', by simp [h1], h2⟩

/-- A predicate on the buffer and the tracked keys which is preserved by each event is preserved
by an output sequence. -/
theorem applyOutput_of_update {Q : S → Prop}
    (hu : ∀ s ev trig ctx, Q s → Q (updateOutput s ev trig ctx))
    (hf : ∀ (s : S) l, Q s → Q { s with onRelease := l })
    (s : S) (out trig ctx) (h : Q s) : Q (applyOutput s out trig ctx) := by
  have hfold : ∀ {α : Type} (l : List α) (f : α → KeyEvent) (s : S), Q s →
      Q (l.foldl (fun s k => updateOutput s (f k) trig ctx) s) := by
    intro α l f
    induction l with
    | nil => intro s h; exact h
    | cons a l ih => intro s h; exact ih _ (hu _ _ _ _ h)
  induction out generalizing s with
  | nil => exact h
  | cons ev rest ih =>
    unfold applyOutput
    split
    · simp only []
      apply ih
      split
      · exact hfold _ (fun (o : OutputDown) => ⟨o.key, .Not, 0⟩) s h
      · exact hfold _ (fun (k : Key) => ⟨k, ev.state, 0⟩) s h
    · split
      · split
        · exact hf _ _ h
        · exact ih _ h
      · split
        · simp only []
          apply ih
          split
          · exact hu _ _ _ _ h
          · exact h
        · exact ih _ (hu _ _ _ _ h)

end KM
