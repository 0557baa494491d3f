import Verif.Spec.Abbreviations
import Verif.Lemmas.Transparent
/-!
# The keys held while a word is typed
-/
namespace KM

theorem keysDown_append (P : List Key) (a b : KeySequence) : keysDown P (a ++ b) = keysDown (keysDown P a) b := by
  induction a generalizing P with
  | nil => rfl
  | cons e a ih => simp only [List.cons_append, keysDown]; exact ih _

theorem typed_append {P : List Key} {a b : KeySequence} : Typed P (a ++ b) ↔ Typed P a ∧ Typed (keysDown P a) b := by
  induction a generalizing P with
  | nil => simp [Typed, keysDown]
  | cons e a ih =>
    simp only [List.cons_append, Typed, keysDown]
    constructor
    · rintro (⟨h1, h2, h3, h4⟩ | ⟨h1, h2, h3⟩)
      · rw [ih] at h4
        refine ⟨Or.inl ⟨h1, h2, h3, h4.1⟩, ?_⟩
        rw [if_pos h1]; exact h4.2
      · rw [ih] at h3
        refine ⟨Or.inr ⟨h1, h2, h3.1⟩, ?_⟩
        rw [if_neg (by rw [h1]; simp)]; exact h3.2
    · rintro ⟨⟨h1, h2, h3, h4⟩ | ⟨h1, h2, h3⟩, h5⟩
      · rw [if_pos h1] at h5
        exact Or.inl ⟨h1, h2, h3, ih.2 ⟨h4, h5⟩⟩
      · rw [if_neg (by rw [h1]; simp)] at h5
        exact Or.inr ⟨h1, h2, ih.2 ⟨h3, h5⟩⟩

/-- a key which is held and not released is not pressed -/
theorem typed_notPressed {P : List Key} {p : KeySequence} (h : Typed P p) {k : Key} (hk : k ∈ P)
    (hu : ∀ e ∈ p, e.state = .Up → e.key ≠ k) : ∀ e ∈ p, e.key ≠ k := by
  induction p generalizing P with
  | nil => simp
  | cons e p ih =>
    simp only [Typed] at h
    intro x hx
    rcases h with ⟨h1, h2, h3, h4⟩ | ⟨h1, h2, h3⟩
    · simp only [List.mem_cons] at hx
      rcases hx with hx | hx
      · subst hx; intro h; exact h3 (h ▸ hk)
      · exact ih h4 (by simp [hk]) (fun e he => hu e (by simp [he])) x hx
    · have hne := hu e (by simp) h1
      simp only [List.mem_cons] at hx
      rcases hx with hx | hx
      · subst hx; exact hne
      · exact ih h3 (by simp only [ne_eq, List.mem_filter, decide_eq_true_eq]; exact ⟨hk, Ne.symm hne⟩)
          (fun e he => hu e (by simp [he])) x hx

theorem typed_state {P : List Key} {p : KeySequence} (h : Typed P p) : ∀ e ∈ p, e.state = .Down ∨ e.state = .Up := by
  induction p generalizing P with
  | nil => simp
  | cons e p ih =>
    simp only [Typed] at h
    intro x hx
    simp only [List.mem_cons] at hx
    rcases h with ⟨h1, h2, h3, h4⟩ | ⟨h1, h2, h3⟩
    · rcases hx with hx | hx
      · subst hx; exact Or.inl h1
      · exact ih h4 x hx
    · rcases hx with hx | hx
      · subst hx; exact Or.inr h1
      · exact ih h3 x hx

/-- the keys of the events are pressed or held -/
theorem typed_keys {P : List Key} {p : KeySequence} (h : Typed P p) : ∀ e ∈ p, e.key ∈ P ∨ e.key ∈ presses p := by
  induction p generalizing P with
  | nil => simp
  | cons e p ih =>
    simp only [Typed] at h
    intro x hx
    simp only [List.mem_cons] at hx
    rcases h with ⟨h1, h2, h3, h4⟩ | ⟨h1, h2, h3⟩
    · have hp : presses (e :: p) = e.key :: presses p := by unfold presses; rw [List.filter_cons, if_pos (by simp [h1])]; rfl
      rw [hp]
      rcases hx with hx | hx
      · subst hx; simp
      · rcases ih h4 x hx with h | h
        · simp only [List.mem_cons] at h; rcases h with h | h
          · simp [h]
          · exact Or.inl h
        · simp [h]
    · have hp : presses (e :: p) = presses p := by unfold presses; rw [List.filter_cons, if_neg (by simp [h1])]
      rw [hp]
      rcases hx with hx | hx
      · subst hx; exact Or.inl h2
      · rcases ih h3 x hx with h | h
        · exact Or.inl (List.mem_filter.1 h).1
        · exact Or.inr h

theorem keysDown_nodup {P : List Key} {p : KeySequence} (h : Typed P p) (hP : P.Nodup) : (keysDown P p).Nodup := by
  induction p generalizing P with
  | nil => exact hP
  | cons e p ih =>
    simp only [Typed] at h
    simp only [keysDown]
    rcases h with ⟨h1, h2, h3, h4⟩ | ⟨h1, h2, h3⟩
    · rw [if_pos h1]; exact ih h4 (List.nodup_cons.2 ⟨h3, hP⟩)
    · rw [if_neg (by rw [h1]; simp)]; exact ih h3 (hP.filter _)

theorem keysDown_mem {P : List Key} {p : KeySequence} {k : Key} (h : k ∈ keysDown P p) : k ∈ P ∨ k ∈ presses p := by
  induction p generalizing P with
  | nil => exact Or.inl h
  | cons e p ih =>
    simp only [keysDown] at h
    by_cases h1 : e.state = .Down
    · have hp : presses (e :: p) = e.key :: presses p := by unfold presses; rw [List.filter_cons, if_pos (by simp [h1])]; rfl
      rw [if_pos h1] at h
      rw [hp]
      rcases ih h with h | h
      · simp only [List.mem_cons] at h; rcases h with h | h
        · simp [h]
        · exact Or.inl h
      · simp [h]
    · have hp : presses (e :: p) = presses p := by unfold presses; rw [List.filter_cons, if_neg (by simp [h1])]
      rw [if_neg h1] at h
      rw [hp]
      rcases ih h with h | h
      · exact Or.inl (List.mem_filter.1 h).1
      · exact Or.inr h

theorem pressed_append (a b : KeySequence) : presses (a ++ b) = presses a ++ presses b := by
  unfold presses; rw [List.filter_append, List.map_append]

theorem mem_presses {p : KeySequence} {k : Key} (h : k ∈ presses p) : ∃ e ∈ p, e.key = k ∧ e.state = .Down := by
  unfold presses at h
  obtain ⟨e, h1, h2⟩ := List.mem_map.1 h
  simp only [List.mem_filter, decide_eq_true_eq] at h1
  exact ⟨e, h1.1, h2, h1.2⟩

theorem rfindKey_cons (e : KeyEvent) (l : KeySequence) (k : Key) :
    rfindKey (e :: l) k = (rfindKey l k).or (if e.key == k then some e else none) := by
  unfold rfindKey
  rw [List.reverse_cons, List.find?_append]
  congr 1
  rw [List.find?_cons]
  cases e.key == k <;> rfl

/-- the last event of a key tells whether it is held -/
theorem rfindKey_keysDown {P : List Key} {p : KeySequence} (h : Typed P p) (k : Key) :
    (k ∈ keysDown P p → (∃ e, rfindKey p k = some e ∧ e.state = .Down) ∨ (rfindKey p k = none ∧ k ∈ P)) ∧
    (k ∉ keysDown P p → (∃ e, rfindKey p k = some e ∧ e.state = .Up) ∨ (rfindKey p k = none ∧ k ∉ P)) := by
  induction p generalizing P with
  | nil => exact ⟨fun h => Or.inr ⟨rfl, h⟩, fun h => Or.inr ⟨rfl, h⟩⟩
  | cons e p ih =>
    rw [rfindKey_cons]
    simp only [keysDown]
    simp only [Typed] at h
    rcases h with ⟨h1, h2, h3, h4⟩ | ⟨h1, h2, h3⟩
    · rw [if_pos h1]
      obtain ⟨i1, i2⟩ := ih h4
      constructor
      · intro hk
        rcases i1 hk with ⟨x, hx, hs⟩ | ⟨hx, hm⟩
        · exact Or.inl ⟨x, by rw [hx]; rfl, hs⟩
        · simp only [List.mem_cons] at hm
          rw [hx]
          by_cases hek : e.key = k
          · exact Or.inl ⟨e, by rw [if_pos (beq_iff_eq.2 hek)]; rfl, h1⟩
          · refine Or.inr ⟨by rw [if_neg (by simpa using hek)]; rfl, ?_⟩
            exact hm.resolve_left (fun h => hek h.symm)
      · intro hk
        rcases i2 hk with ⟨x, hx, hs⟩ | ⟨hx, hm⟩
        · exact Or.inl ⟨x, by rw [hx]; rfl, hs⟩
        · simp only [List.mem_cons, not_or] at hm
          rw [hx]
          exact Or.inr ⟨by rw [if_neg (by simpa using Ne.symm hm.1)]; rfl, hm.2⟩
    · rw [if_neg (by rw [h1]; simp)]
      obtain ⟨i1, i2⟩ := ih h3
      constructor
      · intro hk
        rcases i1 hk with ⟨x, hx, hs⟩ | ⟨hx, hm⟩
        · exact Or.inl ⟨x, by rw [hx]; rfl, hs⟩
        · simp only [ne_eq, List.mem_filter, decide_eq_true_eq] at hm
          rw [hx]
          exact Or.inr ⟨by rw [if_neg (by simpa using Ne.symm hm.2)]; rfl, hm.1⟩
      · intro hk
        rcases i2 hk with ⟨x, hx, hs⟩ | ⟨hx, hm⟩
        · exact Or.inl ⟨x, by rw [hx]; rfl, hs⟩
        · rw [hx]
          by_cases hek : e.key = k
          · exact Or.inl ⟨e, by rw [if_pos (beq_iff_eq.2 hek)]; rfl, h1⟩
          · refine Or.inr ⟨by rw [if_neg (by simpa using hek)]; rfl, ?_⟩
            intro hkp
            apply hm
            simp only [ne_eq, List.mem_filter, decide_eq_true_eq]
            exact ⟨hkp, fun h => hek h.symm⟩

/-- the events which remain after a word was matched -/
theorem finishGo_typed {P : List Key} {p : KeySequence} (h : Typed P p) (hz : ∀ e ∈ p, e.state = .Up → e.value = 0)
    (ht : ∀ e ∈ p, e.key ≠ Key.timeout) :
    (∀ e ∈ finishGo p.length p, e.state = .DownMatched ∧ e.key ∈ presses p) ∧
    ((finishGo p.length p).map (·.key)).Nodup ∧
    ∀ k, k ∈ keysDown P p ↔ (k ∈ P ∧ ∀ e ∈ p, e.key ≠ k) ∨ k ∈ (finishGo p.length p).map (·.key) := by
  induction p generalizing P with
  | nil => simp [finishGo, keysDown]
  | cons e p ih =>
    have hz' : ∀ e ∈ p, e.state = .Up → e.value = 0 := fun e he => hz e (by simp [he])
    have ht' : ∀ e ∈ p, e.key ≠ Key.timeout := fun e he => ht e (by simp [he])
    have hto : (e.key == Key.timeout) = false := beq_eq_false_iff_ne.2 (ht e (by simp))
    simp only [Typed] at h
    rw [List.length_cons]
    simp only [keysDown, finishGo]
    rcases h with ⟨h1, h2, h3, h4⟩ | ⟨h1, h2, h3⟩
    · obtain ⟨i1, i2, i3⟩ := ih h4 hz' ht'
      have hp : presses (e :: p) = e.key :: presses p := by unfold presses; rw [List.filter_cons, if_pos (by simp [h1])]; rfl
      rw [hp]
      have hcond : (e.state == KeyState.Down || e.state == KeyState.DownMatched) = true := by rw [h1]; rfl
      rw [if_pos h1, if_pos hcond]
      by_cases hc : (e :: p).contains (⟨e.key, .Up, 0⟩ : KeyEvent) = true
      · rw [if_pos hc]
        refine ⟨fun x hx => ⟨(i1 x hx).1, by simp [(i1 x hx).2]⟩, i2, ?_⟩
        intro k
        rw [i3]
        have hup : ∃ x ∈ p, x.key = e.key := by
          rw [List.contains_eq_mem] at hc
          simp only [List.mem_cons, decide_eq_true_eq] at hc
          rcases hc with hc | hc
          · rw [← hc] at h1; simp at h1
          · exact ⟨_, hc, rfl⟩
        obtain ⟨x, hx1, hx2⟩ := hup
        constructor
        · rintro (⟨h, h'⟩ | h)
          · simp only [List.mem_cons] at h
            rcases h with h | h
            · exact absurd (by rw [hx2, h]) (h' x hx1)
            · refine Or.inl ⟨h, ?_⟩
              intro y hy
              simp only [List.mem_cons] at hy
              rcases hy with hy | hy
              · subst hy; intro hh; exact h3 (hh ▸ h)
              · exact h' y hy
          · exact Or.inr h
        · rintro (⟨h, h'⟩ | h)
          · exact Or.inl ⟨by simp [h], fun y hy => h' y (by simp [hy])⟩
          · exact Or.inr h
      · rw [if_neg hc]
        have hnu : ∀ x ∈ p, x.state = .Up → x.key ≠ e.key := by
          intro x hx hxu hxe
          apply hc
          rw [List.contains_eq_mem]
          simp only [List.mem_cons, decide_eq_true_eq]
          right
          have := hz' x hx hxu
          cases x
          simp only at hxu hxe this
          subst hxu hxe this
          exact hx
        have hnp := typed_notPressed h4 (k := e.key) (by simp) hnu
        refine ⟨?_, ?_, ?_⟩
        · intro x hx
          simp only [List.mem_cons] at hx
          rcases hx with hx | hx
          · subst hx; simp
          · exact ⟨(i1 x hx).1, by simp [(i1 x hx).2]⟩
        · rw [List.map_cons, List.nodup_cons]
          refine ⟨?_, i2⟩
          intro hm
          obtain ⟨x, hx1, hx2⟩ := List.mem_map.1 hm
          obtain ⟨y, hy1, hy2, _⟩ := mem_presses (i1 x hx1).2
          exact hnp y hy1 (hy2.trans hx2)
        · intro k
          rw [i3, List.map_cons]
          simp only [List.mem_cons]
          constructor
          · rintro (⟨h, h'⟩ | h)
            · rcases h with h | h
              · exact Or.inr (Or.inl h)
              · refine Or.inl ⟨h, ?_⟩
                rintro y (hy | hy)
                · subst hy; intro hh; exact h3 (hh ▸ h)
                · exact h' y hy
            · exact Or.inr (Or.inr h)
          · rintro (⟨h, h'⟩ | h | h)
            · exact Or.inl ⟨Or.inr h, fun y hy => h' y (Or.inr hy)⟩
            · refine Or.inl ⟨Or.inl h, ?_⟩
              rw [h]; exact hnp
            · exact Or.inr h
    · obtain ⟨i1, i2, i3⟩ := ih h3 hz' ht'
      have hp : presses (e :: p) = presses p := by unfold presses; rw [List.filter_cons, if_neg (by simp [h1])]
      rw [hp]
      have hcond : ¬ (e.state == KeyState.Down || e.state == KeyState.DownMatched) = true := by rw [h1]; decide
      rw [if_neg (show ¬ e.state = .Down by rw [h1]; simp), if_neg hcond, hto]
      simp only [Bool.false_eq_true, if_false]
      refine ⟨i1, i2, ?_⟩
      intro k
      rw [i3]
      simp only [ne_eq, List.mem_filter, decide_eq_true_eq, List.mem_cons]
      constructor
      · rintro (⟨⟨h, h''⟩, h'⟩ | h)
        · refine Or.inl ⟨h, ?_⟩
          rintro y (hy | hy)
          · subst hy; exact fun hh => h'' hh.symm
          · exact h' y hy
        · exact Or.inr h
      · rintro (⟨h, h'⟩ | h)
        · exact Or.inl ⟨⟨h, fun hh => h' e (Or.inl rfl) hh.symm⟩, fun y hy => h' y (Or.inr hy)⟩
        · exact Or.inr h

end KM
