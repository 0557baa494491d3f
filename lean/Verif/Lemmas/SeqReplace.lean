import Verif.Lemmas.ConfigInv
/-!
# Sequences in which logical keys are replaced
-/
namespace KM

/-! ## Balanced sequences -/

/-- presses and releases -/
def pressRelease (e : KeyEvent) : Bool := e.state == .Down || e.state == .Up

theorem pressCount_filter (k : Key) (l : KeySequence) : pressCount k (l.filter pressRelease) = pressCount k l := by
  unfold pressCount
  rw [List.countP_filter]
  refine List.countP_congr (fun e _ => ?_)
  simp only [pressRelease, Bool.and_eq_true, Bool.or_eq_true, beq_iff_eq]
  constructor
  · exact fun h => h.1
  · exact fun h => ⟨h, .inl h.1⟩

theorem releaseCount_filter (k : Key) (l : KeySequence) :
    releaseCount k (l.filter pressRelease) = releaseCount k l := by
  unfold releaseCount
  rw [List.countP_filter]
  refine List.countP_congr (fun e _ => ?_)
  simp only [pressRelease, Bool.and_eq_true, Bool.or_eq_true, beq_iff_eq]
  constructor
  · exact fun h => h.1
  · exact fun h => ⟨h, .inr h.1⟩

theorem prefix_filter {α : Type} (p : α → Bool) (l : List α) : ∀ a, a <+: l.filter p →
    ∃ b, b <+: l ∧ b.filter p = a := by
  induction l with
  | nil => intro a h; exact ⟨[], List.prefix_refl _, by simpa using (List.prefix_nil.1 h).symm⟩
  | cons x l ih =>
    intro a h
    cases a with
    | nil => exact ⟨[], List.nil_prefix, rfl⟩
    | cons y a =>
      by_cases hx : p x = true
      · rw [List.filter_cons_of_pos hx] at h
        obtain ⟨rfl, h'⟩ := List.cons_prefix_cons.1 h
        obtain ⟨b, hb, rfl⟩ := ih a h'
        exact ⟨y :: b, List.cons_prefix_cons.2 ⟨rfl, hb⟩, by simp [hx]⟩
      · rw [List.filter_cons_of_neg hx] at h
        obtain ⟨b, hb, hab⟩ := ih (y :: a) h
        exact ⟨x :: b, List.cons_prefix_cons.2 ⟨rfl, hb⟩, by simp [hx, hab]⟩

/-- Only presses and releases matter. -/
theorem balanced_filter (l : KeySequence) : Balanced (l.filter pressRelease) ↔ Balanced l := by
  constructor
  · intro h a ha k
    rw [← pressCount_filter, ← releaseCount_filter]
    exact h _ (ha.filter _) k
  · intro h a ha k
    obtain ⟨b, hb, rfl⟩ := prefix_filter _ _ _ ha
    rw [pressCount_filter, releaseCount_filter]
    exact h b hb k

theorem Balanced.congr {l m : KeySequence} (h : Balanced l) (hm : m.filter pressRelease = l.filter pressRelease) :
    Balanced m := by
  rw [← balanced_filter, hm, balanced_filter]; exact h

theorem replaceNotKey_filter (l : KeySequence) (b x y : Key) :
    (replaceNotKey l b x y).filter pressRelease = l.filter pressRelease := by
  unfold replaceNotKey
  induction l with
  | nil => rfl
  | cons e l ih =>
    rw [List.flatMap_cons, List.filter_append, ih]
    split
    · next h =>
      simp only [Bool.and_eq_true, beq_iff_eq] at h
      simp [pressRelease, h.1]
    · by_cases hp : pressRelease e = true <;> simp [hp]

theorem Balanced.replaceNotKey {l : KeySequence} (h : Balanced l) (b x y : Key) :
    Balanced (replaceNotKey l b x y) := h.congr (replaceNotKey_filter l b x y)

theorem pressCount_replaceKey (l : KeySequence) (b x k : Key) :
    pressCount k (replaceKey l b x) = (if k = b then 0 else pressCount k l) + (if k = x then pressCount b l else 0) := by
  unfold pressCount replaceKey
  induction l with
  | nil => simp
  | cons e l ih =>
    rw [List.map_cons, List.countP_cons, ih, List.countP_cons, List.countP_cons]
    obtain ⟨ek, es, ev⟩ := e
    by_cases hs : es = .Down
    · subst hs
      by_cases hb : ek = b
      · subst hb
        by_cases hx : k = x
        · subst hx
          by_cases hk : k = ek <;> simp [hk] <;> grind
        · by_cases hk : k = ek <;> simp [hk, hx] <;> grind
      · by_cases hk : k = b <;> by_cases hx : k = x <;> grind
    · grind

theorem releaseCount_replaceKey (l : KeySequence) (b x k : Key) :
    releaseCount k (replaceKey l b x) =
      (if k = b then 0 else releaseCount k l) + (if k = x then releaseCount b l else 0) := by
  unfold releaseCount replaceKey
  induction l with
  | nil => simp
  | cons e l ih =>
    rw [List.map_cons, List.countP_cons, ih, List.countP_cons, List.countP_cons]
    obtain ⟨ek, es, ev⟩ := e
    by_cases hs : es = .Up
    · subst hs
      by_cases hb : ek = b
      · subst hb
        by_cases hx : k = x
        · subst hx
          by_cases hk : k = ek <;> simp [hk] <;> grind
        · by_cases hk : k = ek <;> simp [hk, hx] <;> grind
      · by_cases hk : k = b <;> by_cases hx : k = x <;> grind
    · grind

theorem prefix_map {α β : Type} (f : α → β) (l : List α) : ∀ a, a <+: l.map f → ∃ b, b <+: l ∧ b.map f = a := by
  intro a h
  refine ⟨l.take a.length, List.take_prefix _ _, ?_⟩
  rw [List.map_take]
  exact (List.prefix_iff_eq_take.1 h).symm

theorem Balanced.replaceKey {l : KeySequence} (h : Balanced l) (b x : Key) : Balanced (replaceKey l b x) := by
  intro a ha k
  obtain ⟨p, hp, rfl⟩ := prefix_map _ _ _ ha
  have h1 := pressCount_replaceKey p b x k
  have h2 := releaseCount_replaceKey p b x k
  unfold KM.replaceKey at h1 h2
  rw [h1, h2]
  refine Nat.add_le_add ?_ ?_
  · split
    · exact Nat.le_refl _
    · exact h p hp k
  · split
    · exact h p hp b
    · exact Nat.le_refl _

theorem Balanced.prependNot {l : KeySequence} (h : Balanced l) (k : Key) : Balanced (prependNot k l) := by
  unfold KM.prependNot
  split
  · exact h.congr (by simp [pressRelease])
  · exact h

/-! ## Outputs -/

/-- What is known about outputs when there are `n` logical keys and `na` terminal commands -/
structure OutOk (n na : Nat) (out : KeySequence) : Prop where
  keys : ∀ e ∈ out, SourceKey n e.key ∨ e.key = Key.timeout ∨
    ((∃ j, j < na ∧ e.key = Key.first_action + j) ∧ e.state = .Down ∧ e.value = 0) ∨ e = onReleaseMarker
  events : ∀ e ∈ out, OutputEvent e
  balanced : Balanced out
  marker : out.countP (fun e => e.state == .OutputOnRelease) ≤ 1

theorem OutOk.mono {n m na ma : Nat} (h1 : n ≤ m) (h2 : na ≤ ma) {out : KeySequence} (h : OutOk n na out) :
    OutOk m ma out := by
  refine ⟨fun e he => ?_, h.events, h.balanced, h.marker⟩
  rcases h.keys e he with h | h | ⟨⟨j, hj, h⟩, h'⟩ | h
  · exact .inl (h.mono h1)
  · exact .inr (.inl h)
  · exact .inr (.inr (.inl ⟨⟨j, Nat.lt_of_lt_of_le hj h2, h⟩, h'⟩))
  · exact .inr (.inr (.inr h))

/-- the `n`-th logical key -/
structure LogicalAt (n : Nat) (l : LogicalKey) : Prop where
  both : l.both = Key.first_logical + n
  left : SourceKey n l.left
  right : SourceKey n l.right

theorem SourceKey.pred {n : Nat} {k : Key} (h : SourceKey (n + 1) k) (hk : k ≠ Key.first_logical + n) :
    SourceKey n k := by
  rcases h with h | h | h | h | ⟨h1, h2⟩
  · exact .inl h
  · exact .inr (.inl h)
  · exact .inr (.inr (.inl h))
  · exact .inr (.inr (.inr (.inl h)))
  · refine .inr (.inr (.inr (.inr ⟨h1, ?_⟩)))
    have h2 : k < Key.first_logical + n + 1 := h2
    exact Nat.lt_of_le_of_ne (Nat.le_of_lt_succ h2) hk

theorem logical_ne {n : Nat} {k : Key} (hk : k < Key.first_logical) : k ≠ Key.first_logical + n :=
  Nat.ne_of_lt (Nat.lt_of_lt_of_le hk (Nat.le_add_right _ _))

theorem action_lt {na j : Nat} (h : na ≤ 256) (hj : j < na) : Key.first_action + j < Key.first_logical := by
  have : Key.first_action + j < Key.first_action + 256 := Nat.add_lt_add_left (Nat.lt_of_lt_of_le hj h) _
  exact this

theorem replaceNotKey_mem {l : KeySequence} {b x y : Key} {e : KeyEvent} (h : e ∈ replaceNotKey l b x y) :
    (e ∈ l ∧ ¬(e.state = .Not ∧ e.key = b)) ∨ (∃ d ∈ l, d.state = .Not ∧ d.key = b ∧
      (e = ⟨x, .Not, 0⟩ ∨ e = { d with key := y })) := by
  unfold replaceNotKey at h
  obtain ⟨d, hd, he⟩ := List.mem_flatMap.1 h
  split at he
  · next hc =>
    simp only [Bool.and_eq_true, beq_iff_eq] at hc
    simp only [List.mem_cons, List.not_mem_nil, or_false] at he
    exact .inr ⟨d, hd, hc.1, hc.2, he⟩
  · next hc =>
    rw [List.mem_singleton.1 he]
    refine .inl ⟨hd, fun h => hc ?_⟩
    simp [h.1, h.2]

theorem replaceKey_mem {l : KeySequence} {b x : Key} {e : KeyEvent} (h : e ∈ replaceKey l b x) :
    (e ∈ l ∧ e.key ≠ b) ∨ ∃ d ∈ l, d.key = b ∧ e = { d with key := x } := by
  unfold replaceKey at h
  obtain ⟨d, hd, rfl⟩ := List.mem_map.1 h
  split
  · next hc => exact .inr ⟨d, hd, by simpa using hc, rfl⟩
  · next hc => exact .inl ⟨hd, by simpa using hc⟩

theorem OutOk.replaceNotKey {n na : Nat} {out : KeySequence} (h : OutOk (n + 1) na out) {l : LogicalKey}
    (hl : LogicalAt n l) : OutOk (n + 1) na (replaceNotKey out l.both l.left l.right) := by
  refine ⟨?_, ?_, h.balanced.replaceNotKey _ _ _, ?_⟩
  · intro e he
    rcases replaceNotKey_mem he with ⟨he, -⟩ | ⟨d, hd, -, -, rfl | rfl⟩
    · exact h.keys e he
    · exact .inl (hl.left.mono (Nat.le_succ _))
    · exact .inl (hl.right.mono (Nat.le_succ _))
  · intro e he
    rcases replaceNotKey_mem he with ⟨he, -⟩ | ⟨d, hd, hs, -, rfl | rfl⟩
    · exact h.events e he
    · exact .inr (.inr (.inl rfl))
    · exact .inr (.inr (.inl hs))
  · refine Nat.le_trans (Nat.le_of_eq ?_) h.marker
    unfold KM.replaceNotKey
    generalize out = o
    induction o with
    | nil => rfl
    | cons e o ih =>
      rw [List.flatMap_cons, List.countP_append, ih, List.countP_cons]
      split
      · next hc =>
        simp only [Bool.and_eq_true, beq_iff_eq] at hc
        simp [hc.1]
      · simp [Nat.add_comm]

theorem first_logical_ne_none (n : Nat) : Key.first_logical + n ≠ Key.none := by
  intro h
  have h : 62208 + n = 0 := h
  omega

theorem first_logical_ne_timeout (n : Nat) : Key.first_logical + n ≠ Key.timeout := by
  intro h
  have h : 62208 + n = 61441 := h
  omega

theorem OutOk.replaceKey {n na : Nat} {out : KeySequence} (h : OutOk (n + 1) na out) {l : LogicalKey}
    (hl : LogicalAt n l) {x : Key} (hx : SourceKey n x) :
    OutOk n na (replaceKey out l.both x) := by
  refine ⟨?_, ?_, h.balanced.replaceKey _ _, ?_⟩
  · intro e he
    rcases replaceKey_mem he with ⟨he, hk⟩ | ⟨d, hd, hk, rfl⟩
    · rcases h.keys e he with h | h
      · exact .inl (h.pred (hl.both ▸ hk))
      · exact .inr h
    · exact .inl hx
  · intro e he
    rcases replaceKey_mem he with ⟨he, hk⟩ | ⟨d, hd, hk, rfl⟩
    · exact h.events e he
    · rcases h.events d hd with h1 | h1 | h1 | h1
      · exact .inl h1
      · exact .inr (.inl h1)
      · exact .inr (.inr (.inl h1))
      · rw [h1, hl.both] at hk
        exact absurd hk.symm (first_logical_ne_none n)
  · refine Nat.le_trans (Nat.le_of_eq ?_) h.marker
    unfold KM.replaceKey
    rw [List.countP_map]
    refine List.countP_congr (fun e _ => ?_)
    simp only [Function.comp]
    split <;> rfl

theorem OutOk.prependNot {na : Nat} {out : KeySequence} (h : OutOk 0 na out) {k : Key}
    (hk : SourceKey 0 k) : OutOk 0 na (prependNot k out) := by
  have hb := h.balanced.prependNot k
  unfold KM.prependNot at hb ⊢
  split
  · next hc =>
    rw [if_pos hc] at hb
    refine ⟨?_, ?_, hb, ?_⟩
    · intro e he
      rcases List.mem_cons.1 he with rfl | he
      · exact .inl hk
      · exact h.keys e he
    · intro e he
      rcases List.mem_cons.1 he with rfl | he
      · exact .inr (.inr (.inl rfl))
      · exact h.events e he
    · rw [List.countP_cons]
      exact h.marker
  · exact h

/-! ## Inputs -/

/-- What is known about inputs when there are `n` logical keys -/
structure InOk (n : Nat) (input : KeySequence) : Prop where
  keys : ∀ e ∈ input, SourceKey n e.key ∨ e.key = Key.timeout ∨ e = noMightMatchFlag
  events : ∀ e ∈ input, InputEvent e
  flag : ∀ e ∈ input.tail, e.state ≠ .NoMightMatch
  press : (∃ e ∈ input, IsKeyPress e) ∨ input = [noMightMatchFlag]

theorem InOk.mono {n m : Nat} (h1 : n ≤ m) {input : KeySequence} (h : InOk n input) : InOk m input := by
  refine ⟨fun e he => ?_, h.events, h.flag, h.press⟩
  rcases h.keys e he with h | h
  · exact .inl (h.mono h1)
  · exact .inr h

theorem InOk.replaceNotKey {n : Nat} {input : KeySequence} (h : InOk (n + 1) input) {l : LogicalKey}
    (hl : LogicalAt n l) : InOk (n + 1) (replaceNotKey input l.both l.left l.right) := by
  have ht : ∀ e ∈ input, e.key = l.both → e.key ≠ Key.timeout := by
    intro e _ hk; rw [hk, hl.both]; exact first_logical_ne_timeout n
  refine ⟨?_, ?_, ?_, ?_⟩
  · intro e he
    rcases replaceNotKey_mem he with ⟨he, -⟩ | ⟨d, hd, -, -, rfl | rfl⟩
    · exact h.keys e he
    · exact .inl (hl.left.mono (Nat.le_succ _))
    · exact .inl (hl.right.mono (Nat.le_succ _))
  · intro e he
    rcases replaceNotKey_mem he with ⟨he, -⟩ | ⟨d, hd, hs, hk, rfl | rfl⟩
    · exact h.events e he
    · exact .inl ⟨hl.left.ne_timeout, rfl, by show KeyState.Not ∈ _; decide⟩
    · refine .inl ⟨hl.right.ne_timeout, ?_, by show d.state ∈ _; rw [hs]; decide⟩
      rcases h.events d hd with h1 | h1 | h1
      · exact h1.2.1
      · exact absurd h1.1 (ht d hd hk)
      · rw [h1] at hs; cases hs
  · cases hi : input with
    | nil => simp [KM.replaceNotKey]
    | cons a rest =>
      have hr : ∀ e ∈ KM.replaceNotKey rest l.both l.left l.right, e.state ≠ .NoMightMatch := by
        intro e he
        rcases replaceNotKey_mem he with ⟨he, -⟩ | ⟨d, hd, hs, hk, rfl | rfl⟩
        · exact h.flag e (by rw [hi]; exact he)
        · simp
        · simp [hs]
      intro e he
      have he : e ∈ (KM.replaceNotKey (a :: rest) l.both l.left l.right).tail := he
      unfold KM.replaceNotKey at he
      rw [List.flatMap_cons] at he
      split at he
      · next hc =>
        simp only [Bool.and_eq_true, beq_iff_eq] at hc
        simp only [List.cons_append, List.nil_append, List.tail_cons, List.mem_cons] at he
        rcases he with rfl | he
        · simp [hc.1]
        · exact hr e he
      · simp only [List.cons_append, List.nil_append, List.tail_cons] at he
        exact hr e he
  · rcases h.press with ⟨e, he, hp⟩ | rfl
    · left
      refine ⟨e, ?_, hp⟩
      unfold KM.replaceNotKey
      refine List.mem_flatMap.2 ⟨e, he, ?_⟩
      rw [if_neg (by simp [hp.1])]
      exact List.mem_singleton_self _
    · right
      rfl

theorem InOk.replaceKey {n : Nat} {input : KeySequence} (h : InOk (n + 1) input) {l : LogicalKey}
    (hl : LogicalAt n l) {x : Key} (hx : SourceKey n x) : InOk n (replaceKey input l.both x) := by
  have ht : ∀ e ∈ input, e.key = l.both → e.key ≠ Key.timeout := by
    intro e _ hk; rw [hk, hl.both]; exact first_logical_ne_timeout n
  refine ⟨?_, ?_, ?_, ?_⟩
  · intro e he
    rcases replaceKey_mem he with ⟨he, hk⟩ | ⟨d, hd, hk, rfl⟩
    · rcases h.keys e he with h | h
      · exact .inl (h.pred (hl.both ▸ hk))
      · exact .inr h
    · exact .inl hx
  · intro e he
    rcases replaceKey_mem he with ⟨he, hk⟩ | ⟨d, hd, hk, rfl⟩
    · exact h.events e he
    · rcases h.events d hd with h1 | h1 | h1
      · exact .inl ⟨hx.ne_timeout, h1.2⟩
      · exact absurd h1.1 (ht d hd hk)
      · rw [h1, hl.both] at hk
        exact absurd hk.symm (first_logical_ne_none n)
  · intro e he
    unfold KM.replaceKey at he
    rw [← List.map_tail] at he
    obtain ⟨d, hd, rfl⟩ := List.mem_map.1 he
    have := h.flag d hd
    split <;> exact this
  · rcases h.press with ⟨e, he, hp⟩ | rfl
    · left
      refine ⟨_, List.mem_map.2 ⟨e, he, rfl⟩, ?_⟩
      split
      · exact ⟨hp.1, hx.ne_timeout⟩
      · exact hp
    · right
      have : (noMightMatchFlag.key == l.both) = false := by
        rw [hl.both]
        exact beq_eq_false_iff_ne.2 (fun h => first_logical_ne_none n h.symm)
      show [if (noMightMatchFlag.key == l.both) = true then _ else noMightMatchFlag] = _
      rw [this]; rfl

end KM
