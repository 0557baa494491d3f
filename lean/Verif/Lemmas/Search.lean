import Verif.Model.Util
/-!
# Sorting and binary search
-/
namespace KM

theorem lowerBound_spec (p : Nat → Bool) (first len : Nat)
    (mono : ∀ i j, first ≤ i → i ≤ j → j < first + len → p j = true → p i = true) :
    first ≤ lowerBound p first len ∧ lowerBound p first len ≤ first + len ∧
    (∀ i, first ≤ i → i < lowerBound p first len → p i = true) ∧
    (∀ i, lowerBound p first len ≤ i → i < first + len → p i = false) := by
  fun_induction lowerBound p first len with
  | case1 first => 
    refine ⟨by omega, by omega, ?_, ?_⟩
    · intro i h1 h2; omega
    · intro i h1 h2; omega
  | case2 first len h hp ih =>
    have hm := ih (fun i j h1 h2 h3 h4 => mono i j (by omega) h2 (by omega) h4)
    refine ⟨by omega, by omega, ?_, ?_⟩
    · intro i h1 h2
      by_cases hi : i ≤ first + len / 2
      · exact mono i (first + len / 2) h1 hi (by omega) hp
      · exact hm.2.2.1 i (by omega) h2
    · intro i h1 h2
      exact hm.2.2.2 i h1 (by omega)
  | case3 first len h hp ih =>
    have hm := ih (fun i j h1 h2 h3 h4 => mono i j (by omega) h2 (by omega) h4)
    refine ⟨hm.1, by omega, hm.2.2.1, ?_⟩
    intro i h1 h2
    by_cases hi : i < first + len / 2
    · exact hm.2.2.2 i h1 hi
    · cases hpi : p i with
      | false => rfl
      | true =>
        have := mono (first + len / 2) i (by omega) (by omega) h2 hpi
        exact absurd this hp

theorem sorted_insertBy {le : α → α → Bool} (total : ∀ a b, le a b = true ∨ le b a = true)
    (trans : ∀ a b c, le a b = true → le b c = true → le a c = true)
    (x : α) {l : List α} (h : l.Pairwise (fun a b => le a b = true)) :
    (insertBy le x l).Pairwise (fun a b => le a b = true) := by
  induction l with
  | nil => simp [insertBy]
  | cons y ys ih =>
    rw [List.pairwise_cons] at h
    unfold insertBy
    split
    · next hxy =>
      rw [List.pairwise_cons]
      refine ⟨?_, List.pairwise_cons.2 h⟩
      intro a ha
      rcases List.mem_cons.1 ha with rfl | ha
      · exact hxy
      · exact trans _ _ _ hxy (h.1 a ha)
    · next hxy =>
      rw [List.pairwise_cons]
      refine ⟨?_, ih h.2⟩
      intro a ha
      rcases mem_insertBy.1 ha with rfl | ha
      · exact (total _ _).resolve_right hxy
      · exact h.1 a ha

theorem sorted_sortBy {le : α → α → Bool} (total : ∀ a b, le a b = true ∨ le b a = true)
    (trans : ∀ a b c, le a b = true → le b c = true → le a c = true) (l : List α) :
    (sortBy le l).Pairwise (fun a b => le a b = true) := by
  induction l with
  | nil => simp [sortBy]
  | cons x xs ih => exact sorted_insertBy total trans x ih

end KM
