import Verif.Lemmas.Logical
/-!
# Modifier filters with logical keys
-/
namespace KM

theorem LogicalKeysOrdered.init {ls : List LogicalKey} {l : LogicalKey} (h : LogicalKeysOrdered (ls ++ [l])) :
    LogicalKeysOrdered ls := by
  intro i x hi
  refine h i x ?_
  rw [List.getElem?_append_left (List.getElem?_eq_some_iff.1 hi).1]; exact hi

theorem LogicalKeysOrdered.last {ls : List LogicalKey} {l : LogicalKey} (h : LogicalKeysOrdered (ls ++ [l])) :
    l.both = Key.first_logical + ls.length ∧ l.left < l.both ∧ l.right < l.both := by
  refine h ls.length l ?_
  simp

theorem LogicalKeysOrdered.distinct {ls : List LogicalKey} (h : LogicalKeysOrdered ls) : ∀ l ∈ ls, Distinct l := by
  intro l hl
  obtain ⟨i, hi⟩ := List.mem_iff_getElem?.1 hl
  obtain ⟨-, h1, h2⟩ := h i l hi
  exact ⟨Nat.ne_of_lt h1, Nat.ne_of_lt h2⟩

theorem LogicalKeysOrdered.below {ls : List LogicalKey} {l : LogicalKey} (h : LogicalKeysOrdered (ls ++ [l])) :
    ∀ x ∈ ls, x.both < l.both := by
  intro x hx
  obtain ⟨i, hi⟩ := List.mem_iff_getElem?.1 hx
  rw [(h.init i x hi).1, h.last.1]
  exact Nat.add_lt_add_left (List.getElem?_eq_some_iff.1 hi).1 _

theorem LogicalKeysOrdered.nodup {ls : List LogicalKey} (h : LogicalKeysOrdered ls) : ls.Nodup := by
  unfold List.Nodup
  rw [List.pairwise_iff_getElem]
  intro i j hi hj hij heq
  have h1 := (h i _ (List.getElem?_eq_getElem hi)).1
  have h2 := (h j _ (List.getElem?_eq_getElem hj)).1
  rw [heq, h2] at h1
  have h1 : (62208 + j : Nat) = 62208 + i := h1
  omega

theorem alternative_init {ls : List LogicalKey} {l : LogicalKey} (h : LogicalKeysOrdered (ls ++ [l])) {k k' : Key}
    (hk : k ≠ l.both) : Alternative (ls ++ [l]) k k' ↔ Alternative ls k k' := by
  have hlt : ∀ x ∈ ls, x.left ≠ l.both ∧ x.right ≠ l.both := by
    intro x hx
    have h1 := h.below x hx
    obtain ⟨i, hi⟩ := List.mem_iff_getElem?.1 hx
    obtain ⟨-, h2, h3⟩ := h.init i x hi
    exact ⟨Nat.ne_of_lt (Nat.lt_trans h2 h1), Nat.ne_of_lt (Nat.lt_trans h3 h1)⟩
  constructor
  · intro ha
    induction ha with
    | same k hn => exact .same k (fun x hx => hn x (List.mem_append_left _ hx))
    | left x k hx _ ih =>
      rcases List.mem_append.1 hx with hx | hx
      · exact .left x k hx (ih (hlt x hx).1)
      · rw [List.mem_singleton.1 hx] at hk; exact absurd rfl hk
    | right x k hx _ ih =>
      rcases List.mem_append.1 hx with hx | hx
      · exact .right x k hx (ih (hlt x hx).2)
      · rw [List.mem_singleton.1 hx] at hk; exact absurd rfl hk
  · intro ha
    induction ha with
    | same k hn =>
      refine .same k (fun x hx => ?_)
      rcases List.mem_append.1 hx with hx | hx
      · exact hn x hx
      · rw [List.mem_singleton.1 hx]; exact fun h => hk h.symm
    | left x k hx _ ih => exact .left x k (List.mem_append_left _ hx) (ih (hlt x hx).1)
    | right x k hx _ ih => exact .right x k (List.mem_append_left _ hx) (ih (hlt x hx).2)

theorem alternative_last {ls : List LogicalKey} {l : LogicalKey} (h : LogicalKeysOrdered (ls ++ [l])) {k' : Key} :
    Alternative (ls ++ [l]) l.both k' ↔ Alternative ls l.left k' ∨ Alternative ls l.right k' := by
  have h1 := h.last
  have hl : l ∈ ls ++ [l] := by simp
  have hsame : ∀ x ∈ ls ++ [l], x.both = l.both → x = l := by
    intro x hx he
    rcases List.mem_append.1 hx with hx | hx
    · exact absurd he (Nat.ne_of_lt (h.below x hx))
    · exact List.mem_singleton.1 hx
  constructor
  · intro ha
    generalize hb : l.both = b at ha
    cases ha with
    | same _ hn => exact absurd hb (hn l hl)
    | left x _ hx ha =>
      have := hsame x hx hb.symm
      subst this
      exact .inl ((alternative_init h (Nat.ne_of_lt h1.2.1)).1 ha)
    | right x _ hx ha =>
      have := hsame x hx hb.symm
      subst this
      exact .inr ((alternative_init h (Nat.ne_of_lt h1.2.2)).1 ha)
  · rintro (ha | ha)
    · exact .left l k' hl ((alternative_init h (Nat.ne_of_lt h1.2.1)).2 ha)
    · exact .right l k' hl ((alternative_init h (Nat.ne_of_lt h1.2.2)).2 ha)

theorem heldOne_init {ls : List LogicalKey} {l : LogicalKey} (h : LogicalKeysOrdered (ls ++ [l])) {seq : KeySequence}
    {k : Key} (hk : k ≠ l.both) : HeldOne (ls ++ [l]) seq k ↔ HeldOne ls seq k := by
  unfold HeldOne
  simp only [alternative_init h hk]

theorem heldOne_last {ls : List LogicalKey} {l : LogicalKey} (h : LogicalKeysOrdered (ls ++ [l])) {seq : KeySequence} :
    HeldOne (ls ++ [l]) seq l.both ↔ HeldOne ls seq l.left ∨ HeldOne ls seq l.right := by
  unfold HeldOne
  simp only [alternative_last h]
  constructor
  · rintro ⟨k', h1 | h1, h2⟩
    · exact .inl ⟨k', h1, h2⟩
    · exact .inr ⟨k', h1, h2⟩
  · rintro (⟨k', h1, h2⟩ | ⟨k', h1, h2⟩)
    · exact ⟨k', .inl h1, h2⟩
    · exact ⟨k', .inr h1, h2⟩

theorem heldOne_nil {seq : KeySequence} {k : Key} : HeldOne [] seq k ↔ ∃ e ∈ seq, e.key = k := by
  constructor
  · rintro ⟨k', ha, h⟩
    cases ha with
    | same _ _ => exact h
    | left _ _ hx _ => cases hx
    | right _ _ hx _ => cases hx
  · exact fun h => ⟨k, .same k (by simp), h⟩

theorem logicalModifiersHeld_nil {seq f : KeySequence} : LogicalModifiersHeld [] seq f ↔ ModifiersHeld seq f := by
  unfold LogicalModifiersHeld ModifiersHeld
  simp only [heldOne_nil]

/-- in the filter each event demands a key or its absence -/
def PlainFilter (f : KeySequence) : Prop := ∀ e ∈ f, e.state = .Down ∨ e.state = .Not

/-- an event of a filter is satisfied -/
def Sat (ls : List LogicalKey) (seq : KeySequence) (m : KeyEvent) : Prop := HeldOne ls seq m.key ↔ m.state ≠ .Not

theorem held_replaceNot {ls : List LogicalKey} {l : LogicalKey} (h : LogicalKeysOrdered (ls ++ [l]))
    (seq f : KeySequence) : LogicalModifiersHeld (ls ++ [l]) seq (replaceNotKey f l.both l.left l.right) ↔
      LogicalModifiersHeld (ls ++ [l]) seq f := by
  have hl := heldOne_init (seq := seq) h (Nat.ne_of_lt h.last.2.1)
  have hr := heldOne_init (seq := seq) h (Nat.ne_of_lt h.last.2.2)
  have hb := heldOne_last (seq := seq) h
  unfold LogicalModifiersHeld
  constructor
  · intro hh m hm
    by_cases hc : m.state = .Not ∧ m.key = l.both
    · have m1 : (⟨l.left, .Not, 0⟩ : KeyEvent) ∈ replaceNotKey f l.both l.left l.right := by
        unfold replaceNotKey
        refine List.mem_flatMap.2 ⟨m, hm, ?_⟩
        rw [if_pos (by simp [hc])]; simp
      have m2 : { m with key := l.right } ∈ replaceNotKey f l.both l.left l.right := by
        unfold replaceNotKey
        refine List.mem_flatMap.2 ⟨m, hm, ?_⟩
        rw [if_pos (by simp [hc])]; simp
      have h1 := hh _ m1
      have h2 := hh _ m2
      simp only [hl, hr, hc.1, ne_eq, not_true_eq_false, iff_false] at h1 h2
      rw [hc.2, hb, hc.1]
      simp [h1, h2]
    · refine hh m ?_
      unfold replaceNotKey
      refine List.mem_flatMap.2 ⟨m, hm, ?_⟩
      rw [if_neg (by simpa using hc)]; simp
  · intro hh m hm
    rcases replaceNotKey_mem hm with ⟨hm, -⟩ | ⟨d, hd, hs, hk, hm⟩
    · exact hh m hm
    · have := hh d hd
      rw [hk, hb, hs] at this
      simp only [ne_eq, not_true_eq_false, iff_false, not_or] at this
      rcases hm with rfl | rfl
      · simp [hl, this.1]
      · simp [hr, this.2, hs]

theorem held_split {ls : List LogicalKey} {l : LogicalKey} (h : LogicalKeysOrdered (ls ++ [l]))
    (seq f : KeySequence) (hnot : ∀ e ∈ f, e.key = l.both → e.state ≠ .Not) :
    LogicalModifiersHeld (ls ++ [l]) seq f ↔
      (LogicalModifiersHeld ls seq (replaceKey f l.both l.left) ∨
       LogicalModifiersHeld ls seq (replaceKey f l.both l.right)) := by
  have hb := heldOne_last (seq := seq) h
  have hone : ∀ x, LogicalModifiersHeld ls seq (replaceKey f l.both x) ↔
      ((∃ e ∈ f, e.key = l.both) → HeldOne ls seq x) ∧
      ∀ m ∈ f, m.key ≠ l.both → Sat ls seq m := by
    intro x
    constructor
    · intro hh
      constructor
      · rintro ⟨e, he, hk⟩
        have := hh { e with key := x } (List.mem_map.2 ⟨e, he, by simp [hk]⟩)
        exact this.2 (hnot e he hk)
      · intro m hm hk
        exact hh m (List.mem_map.2 ⟨m, hm, by simp [hk]⟩)
    · rintro ⟨h1, h2⟩ m hm
      rcases replaceKey_mem hm with ⟨hm, hk⟩ | ⟨d, hd, hk, rfl⟩
      · exact h2 m hm hk
      · exact ⟨fun _ => hnot d hd hk, fun _ => h1 ⟨d, hd, hk⟩⟩
  rw [hone, hone]
  have hall : LogicalModifiersHeld (ls ++ [l]) seq f ↔
      ((∃ e ∈ f, e.key = l.both) → HeldOne ls seq l.left ∨ HeldOne ls seq l.right) ∧
      ∀ m ∈ f, m.key ≠ l.both → Sat ls seq m := by
    constructor
    · intro hh
      constructor
      · rintro ⟨e, he, hk⟩
        have := hh e he
        rw [hk, hb] at this
        exact this.2 (hnot e he hk)
      · intro m hm hk
        have := hh m hm
        rw [heldOne_init h hk] at this
        exact this
    · rintro ⟨h1, h2⟩ m hm
      by_cases hk : m.key = l.both
      · rw [hk, hb]
        exact ⟨fun _ => hnot m hm hk, fun _ => h1 ⟨m, hm, hk⟩⟩
      · rw [heldOne_init h hk]
        exact h2 m hm hk
  rw [hall]
  by_cases hex : ∃ e ∈ f, e.key = l.both
  · simp only [hex, forall_const]
    constructor
    · rintro ⟨h1 | h1, h2⟩
      · exact .inl ⟨h1, h2⟩
      · exact .inr ⟨h1, h2⟩
    · rintro (⟨h1, h2⟩ | ⟨h1, h2⟩)
      · exact ⟨.inl h1, h2⟩
      · exact ⟨.inr h1, h2⟩
  · constructor
    · rintro ⟨-, h2⟩; exact .inl ⟨fun h => absurd h hex, h2⟩
    · rintro (⟨-, h2⟩ | ⟨-, h2⟩) <;> exact ⟨fun h => absurd h hex, h2⟩

/-- A pass -/
theorem held_pass {ls : List LogicalKey} {l : LogicalKey} (h : LogicalKeysOrdered (ls ++ [l]))
    (seq : KeySequence) (c : CContext) :
    LogicalModifiersHeld (ls ++ [l]) seq c.modifierFilter ↔
      ∃ d ∈ replaceLogicalKey [c] l, LogicalModifiersHeld ls seq d.modifierFilter := by
  have hd : Distinct l := h.distinct l (by simp)
  rw [← held_replaceNot h]
  have hnot : ∀ e ∈ replaceNotKey c.modifierFilter l.both l.left l.right, e.key = l.both → e.state ≠ .Not := by
    intro e he hk
    rcases replaceNotKey_mem he with ⟨-, hn⟩ | ⟨d, -, -, -, rfl | rfl⟩
    · exact fun hs => hn ⟨hs, hk⟩
    · exact absurd hk hd.1
    · exact absurd hk hd.2
  rw [held_split h _ _ hnot, replaceLogicalKey_eq]
  simp only [List.flatMap_cons, List.flatMap_nil, List.append_nil]
  have hf : (replaceInContext l c).modifierFilter = replaceNotKey c.modifierFilter l.both l.left l.right := rfl
  unfold splitModifier
  rw [hf]
  split
  · simp
  · next hc =>
    have hc : containsKey (replaceNotKey c.modifierFilter l.both l.left l.right) l.both = false := by simpa using hc
    rw [replaceKey_absent hc, replaceKey_absent hc]
    simp [hf]

/-- All passes -/
theorem held_all (ls : List LogicalKey) : LogicalKeysOrdered ls → ∀ (seq : KeySequence) (cs : List CContext),
    (∃ c ∈ cs, LogicalModifiersHeld ls seq c.modifierFilter) ↔
      ∃ d ∈ ls.reverse.foldl replaceLogicalKey cs, ModifiersHeld seq d.modifierFilter := by
  induction h : ls.length generalizing ls with
  | zero =>
    intro _ seq cs
    rw [List.eq_nil_of_length_eq_zero h]
    simp only [logicalModifiersHeld_nil, List.reverse_nil, List.foldl_nil]
  | succ n ih =>
    intro hl seq cs
    obtain ⟨init, last, rfl⟩ : ∃ init last, ls = init ++ [last] := by
      refine ⟨ls.dropLast, ls.getLast (by intro h'; rw [h'] at h; cases h), ?_⟩
      rw [List.dropLast_concat_getLast]
    have hn : init.length = n := by simpa using h
    rw [List.reverse_append, List.reverse_singleton, List.singleton_append, List.foldl_cons]
    rw [← ih init hn hl.init seq (replaceLogicalKey cs last)]
    have hsplit : ∀ d, d ∈ replaceLogicalKey cs last ↔ ∃ c ∈ cs, d ∈ replaceLogicalKey [c] last := by
      intro d
      simp [replaceLogicalKey_eq]
    constructor
    · rintro ⟨c, hc, hh⟩
      obtain ⟨d, hd, hd'⟩ := (held_pass hl seq c).1 hh
      exact ⟨d, (hsplit d).2 ⟨c, hc, hd⟩, hd'⟩
    · rintro ⟨d, hd, hh⟩
      obtain ⟨c, hc, hd⟩ := (hsplit d).1 hd
      exact ⟨c, hc, (held_pass hl seq c).2 ⟨d, hd, hh⟩⟩

/-! ## Single keys -/

theorem standFor_single {l : LogicalKey} {k : Key} {input : KeySequence} {x : Key}
    (h : ∀ e ∈ input, e.key = k ∧ e.state ≠ .Not) :
    standFor l x input = if k = l.both then input.map (fun e => { e with key := x }) else input := by
  induction input with
  | nil => simp [standFor]
  | cons e es ih =>
    obtain ⟨hk, hs⟩ := h e List.mem_cons_self
    have ih := ih (fun e he => h e (List.mem_cons_of_mem _ he))
    rw [standFor, hk]
    by_cases hb : k = l.both
    · rw [if_pos hb] at ih ⊢
      rw [if_neg hs, if_pos hb, ih]; rfl
    · rw [if_neg hb] at ih ⊢
      rw [if_neg hb, ih]

/-- Each alternative can be chosen -/
theorem choose_alternative (ls : List LogicalKey) : LogicalKeysOrdered ls → ∀ (k k' : Key), Alternative ls k k' →
    ∃ right, ∀ (input : KeySequence) (t : Target), (∀ e ∈ input, e.key = k ∧ e.state ≠ .Not) →
      (choose right ls.reverse (input, t)).1 = input.map (fun e => { e with key := k' }) := by
  induction h : ls.length generalizing ls with
  | zero =>
    intro _ k k' ha
    rw [List.eq_nil_of_length_eq_zero h] at ha ⊢
    refine ⟨fun _ => false, fun input t hi => ?_⟩
    cases ha with
    | same _ _ =>
      show input = _
      refine (List.map_id input).symm.trans (List.map_congr_left (fun e he => ?_))
      rw [← (hi e he).1]; rfl
    | left _ _ hx _ => cases hx
    | right _ _ hx _ => cases hx
  | succ n ih =>
    intro hl k k' ha
    obtain ⟨init, last, rfl⟩ : ∃ init last, ls = init ++ [last] := by
      refine ⟨ls.dropLast, ls.getLast (by intro h'; rw [h'] at h; cases h), ?_⟩
      rw [List.dropLast_concat_getLast]
    have hn : init.length = n := by simpa using h
    have hnot : last ∉ init := by
      intro hm
      exact Nat.lt_irrefl _ (hl.below last hm)
    have comb : ∀ (b : Bool) (right : LogicalKey → Bool) (m : KeySequence × Target),
        choose (fun x => if x = last then b else right x) (init ++ [last]).reverse m =
          choose right init.reverse (chooseOne last b m) := by
      intro b right m
      unfold choose
      rw [List.reverse_append, List.reverse_singleton, List.singleton_append, List.foldl_cons]
      simp only [if_true]
      refine foldl_congr' _ (fun a x hx => ?_)
      have hxl : ¬x = last := fun h => hnot (h ▸ List.mem_reverse.1 hx)
      simp only [hxl, if_false]
    by_cases hk : k = last.both
    · subst hk
      have key : ∀ (b : Bool) (x : Key), x = (if b = true then last.right else last.left) →
          Alternative init x k' → ∃ right, ∀ (input : KeySequence) (t : Target),
            (∀ e ∈ input, e.key = last.both ∧ e.state ≠ .Not) →
            (choose right (init ++ [last]).reverse (input, t)).1 = input.map (fun e => { e with key := k' }) := by
        intro b x hx ha
        obtain ⟨right, hr⟩ := ih init hn hl.init x k' ha
        refine ⟨fun y => if y = last then b else right y, fun input t hi => ?_⟩
        rw [comb]
        unfold chooseOne
        simp only
        cases input with
        | nil =>
          have : standFor last (if b = true ∧ Demands [] last.both then last.right else last.left) [] = [] := rfl
          rw [this]
          exact hr [] _ (by simp)
        | cons e es =>
          have hdem : Demands (e :: es) last.both :=
            ⟨e, List.mem_cons_self, (hi e List.mem_cons_self).1, (hi e List.mem_cons_self).2⟩
          simp only [hdem, and_true]
          rw [← hx, standFor_single hi, if_pos rfl, hr _ _ (by
            intro d hd
            obtain ⟨d', hd', rfl⟩ := List.mem_map.1 hd
            exact ⟨rfl, (hi d' hd').2⟩), List.map_map]
          rfl
      rcases (alternative_last hl).1 ha with ha | ha
      · exact key false _ rfl ha
      · exact key true _ rfl ha
    · obtain ⟨right, hr⟩ := ih init hn hl.init k k' ((alternative_init hl hk).1 ha)
      refine ⟨fun y => if y = last then false else right y, fun input t hi => ?_⟩
      rw [comb]
      unfold chooseOne
      simp only
      rw [standFor_single hi, if_neg hk]
      exact hr _ _ hi

end KM
