import Verif.Model.ParseConfig
import Verif.Lemmas.ParseInputInv
/-!
# The keys which names can denote
-/
namespace KM

/-- The range of `getKeyByName` -/
def NamedRange (k : Key) : Prop :=
  k < 0xF000 ∨ k = Key.any ∨ k = Key.ContextActive ∨
  (Key.first_virtual ≤ k ∧ k ≤ Key.first_virtual + 255) ∨
  k ∈ [Key.Shift, Key.Control, Key.Alt, Key.Meta]

theorem tryParseKeyCode_lt (n : Str) : tryParseKeyCode n < 0xF000 := by
  have h0 : Key.none < 0xF000 := by decide
  unfold tryParseKeyCode
  split
  · split
    · simp only
      split
      · split
        · next h => simp only [Bool.and_eq_true, decide_eq_true_eq] at h; exact h.2
        · exact h0
      · exact h0
    · exact h0
  · exact h0

theorem searchKeyMap_range (n : Str) (k : Key) (h : searchKeyMap keyMap n = some k) :
    k < 0xF000 ∨ k = Key.any ∨ k = Key.ContextActive := by
  have hall : keyNameTable.all (fun p => decide (p.1 < 0xF000 ∨ p.1 = Key.any ∨ p.1 = Key.ContextActive)) = true := by
    decide +kernel
  unfold searchKeyMap at h
  simp only at h
  split at h
  · next e he =>
    split at h
    · injection h with h
      have := List.mem_of_getElem? he
      unfold keyMap at this
      rw [mem_sortBy, List.mem_map] at this
      obtain ⟨p, hp, rfl⟩ := this
      rw [← h]
      exact of_decide_eq_true (List.all_eq_true.1 hall p hp)
    · cases h
  · cases h

theorem logicalKeyByName_range (n : Str) : NamedRange (logicalKeyByName n) := by
  unfold logicalKeyByName
  repeat' split
  all_goals unfold NamedRange; decide

theorem getKeyByName_range (n : Str) : NamedRange (getKeyByName n) := by
  unfold getKeyByName
  split
  · exact .inr (.inl rfl)
  · simp only
    split
    · exact .inl (tryParseKeyCode_lt n)
    · split
      · next k hk =>
        unfold virtualKeyByName at hk
        split at hk
        · cases hk
        · simp only at hk
          split at hk
          · next h =>
            injection hk with hk
            subst hk
            refine .inr (.inr (.inr (.inl ⟨Nat.le_add_right _ _, ?_⟩)))
            have : ∀ i : Int, 0 ≤ i ∧ i ≤ 255 → i.toNat ≤ 255 := by intro i h; omega
            exact Nat.add_le_add_left (this _ h) _
          · cases hk
      · split
        · exact .inl (by decide)
        · split
          · next hk =>
            rcases searchKeyMap_range _ _ hk with h | h | h
            · exact .inl h
            · exact .inr (.inl h)
            · exact .inr (.inr (.inl h))
          · exact logicalKeyByName_range _

/-- The logical keys are numbered in the order of their definition. -/
def LogicalNumbered (l : List LogicalKey) : Prop :=
  ∀ (i : Nat) (k : LogicalKey), l[i]? = some k → k.both = Key.first_logical + i

theorem nat_of_key_le {k : Key} {n : Nat} (h : k = Key.first_logical + n) : (62208 : Nat) ≤ k := by
  rw [h]; exact Nat.le_add_right _ _

theorem NamedRange.ne_timeout {k : Key} (h : NamedRange k) : k ≠ Key.timeout := by
  rintro rfl
  revert h
  unfold NamedRange
  decide

theorem CState.getKey_range {s : CState} (hl : LogicalNumbered s.logical) (n : Str) :
    NamedRange (s.getKey n) ∨
      (Key.first_logical ≤ s.getKey n ∧ s.getKey n < Key.first_logical + s.logical.length) := by
  unfold CState.getKey
  simp only
  split
  · exact .inl (getKeyByName_range n)
  · split
    · next l hm =>
      right
      obtain ⟨i, hi⟩ := List.mem_iff_getElem?.1 (List.mem_of_find?_eq_some hm)
      rw [hl i l hi]
      have : i < s.logical.length := by
        rw [List.getElem?_eq_some_iff] at hi; exact hi.1
      exact ⟨Nat.le_add_right _ _, Nat.add_lt_add_left this _⟩
    · exact .inl (.inl (by decide))

theorem CState.getKey_ne_timeout {s : CState} (hl : LogicalNumbered s.logical) (n : Str) :
    s.getKey n ≠ Key.timeout := by
  rcases s.getKey_range hl n with h | ⟨h, -⟩
  · exact h.ne_timeout
  · intro h'
    rw [h'] at h
    exact absurd h (by decide)

theorem getKeyByName_ne_timeout (n : Str) : getKeyByName n ≠ Key.timeout :=
  (getKeyByName_range n).ne_timeout

/-! ## The generic typer -/

/-- a key of a keyboard or mouse -/
def DeviceKey (k : Key) : Prop := 0 < k ∧ k < 0xF000

theorem getD_device {l : List Key} (h : ∀ k ∈ l, DeviceKey k) {i : Nat} (hi : i < l.length) :
    DeviceKey (l.getD i Key.none) := by
  rw [List.getD_eq_getElem?_getD, List.getElem?_eq_getElem hi]
  exact h _ (List.getElem_mem hi)

theorem hexDigitKeys_device (n : Nat) : ∀ k ∈ hexDigitKeys n, DeviceKey k := by
  have hall : ∀ k ∈ hexKeys, DeviceKey k := by unfold DeviceKey; decide
  fun_induction hexDigitKeys n with
  | case1 => simp
  | case2 n h ih =>
    intro k hk
    rcases List.mem_cons.1 hk with rfl | hk
    · exact getD_device hall (by show n % 16 < 16; omega)
    · exact ih k hk

theorem genericDictionary_device (c : Nat) (l : List (Key × Mods)) (h : genericDictionary c = some l) :
    ∀ e ∈ l, DeviceKey e.1 := by
  have h1 : ∀ k ∈ digitKeys, DeviceKey k := by unfold DeviceKey; decide
  have h2 : ∀ k ∈ letterKeys, DeviceKey k := by unfold DeviceKey; decide
  have l1 : digitKeys.length = 10 := by decide
  have l2 : letterKeys.length = 26 := by decide
  unfold genericDictionary at h
  split at h
  · injection h with h; subst h; intro e he; rw [List.mem_singleton.1 he]
    exact getD_device h1 (by omega)
  · split at h
    · injection h with h; subst h; intro e he; rw [List.mem_singleton.1 he]
      exact getD_device h2 (by omega)
    · split at h
      · injection h with h; subst h; intro e he; rw [List.mem_singleton.1 he]
        exact getD_device h2 (by omega)
      · repeat' split at h
        all_goals first
          | (injection h with h; subst h; intro e he; rw [List.mem_singleton.1 he]; unfold DeviceKey; decide)
          | cases h

/-- the generic typer only types with keys of a keyboard -/
theorem genericTyper_device (s : Str) (l : List TypedKey) (h : genericTyper s = some l) :
    ∀ t ∈ l, DeviceKey t.key := by
  unfold genericTyper at h
  injection h with h
  subst h
  intro t ht
  unfold typeCodepoints at ht
  simp only [List.mem_flatMap] at ht
  obtain ⟨c, -, ht⟩ := ht
  split at ht
  · next entry he =>
    obtain ⟨e, hm, rfl⟩ := List.mem_map.1 ht
    exact genericDictionary_device c entry he e hm
  · unfold hexTypeUnicode at ht
    simp only [List.mem_append, List.mem_singleton, List.mem_map, List.mem_reverse] at ht
    rcases ht with (rfl | ⟨k, hk, rfl⟩) | rfl
    · exact ⟨by decide, by decide⟩
    · exact hexDigitKeys_device c k hk
    · exact ⟨by decide, by decide⟩

theorem namesNoTimeout_generic (input add : Bool) (base : Nat) :
    NamesNoTimeout ⟨input, getKeyByName, genericTyper, add, base⟩ := by
  refine ⟨getKeyByName_ne_timeout, fun s l h t ht hk => ?_⟩
  have := genericTyper_device s l h t ht
  rw [hk] at this
  exact absurd this.2 (by decide)

end KM
