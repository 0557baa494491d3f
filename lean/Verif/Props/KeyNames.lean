import Verif.Model.KeyName
import Verif.Lemmas.Search
/-!
# Key names (C39)
-/
namespace KM

/-- the digits of a number, most significant first, in a base up to 16 (specification) -/
def digitsIn (base : Nat) (n : Nat) : Str := if n = 0 then ['0'] else go n []
where
  /-- prepend the digits -/
  go (n : Nat) (acc : Str) : Str :=
    if _h : n = 0 ∨ base ≤ 1 then acc else go (n / base) (Nat.digitChar (n % base) :: acc)
  termination_by n
  decreasing_by exact Nat.div_lt_self (by omega) (by omega)

private theorem digitVal_digitChar (d : Nat) (h : d < 16) : digitVal (Nat.digitChar d) = some d := by
  have : ∀ d : Fin 16, digitVal (Nat.digitChar d) = some d.1 := by decide
  exact this ⟨d, h⟩

private theorem parseBase_append {base : Nat} (a b : Str) (n : Nat) :
    parseBase base (a ++ b) n = (parseBase base a n).bind (parseBase base b) := by
  induction a generalizing n with
  | nil => rfl
  | cons c a ih =>
    simp only [List.cons_append, parseBase]
    split
    · split
      · exact ih _
      · rfl
    · rfl

private theorem digits_acc {base : Nat} (n : Nat) (acc : Str) :
    digitsIn.go base n acc = digitsIn.go base n [] ++ acc := by
  induction n using Nat.strongRecOn generalizing acc with
  | ind n ih =>
    unfold digitsIn.go
    split
    · rfl
    · next h =>
      rw [ih _ (Nat.div_lt_self (by omega) (by omega)), ih _ (Nat.div_lt_self (by omega) (by omega)) [_]]
      simp

private theorem parseBase_digits {base : Nat} (h1 : 1 < base) (h2 : base ≤ 16) (n : Nat) :
    parseBase base (digitsIn.go base n []) 0 = some n := by
  induction n using Nat.strongRecOn with
  | ind n ih =>
    unfold digitsIn.go
    split
    · next h => have : n = 0 := by omega
                subst this; rfl
    · next h =>
      rw [digits_acc, parseBase_append, ih _ (Nat.div_lt_self (by omega) (by omega))]
      have hlt : n % base < base := Nat.mod_lt _ (by omega)
      simp only [Option.bind_some, parseBase, digitVal_digitChar _ (Nat.lt_of_lt_of_le hlt h2), if_pos hlt]
      rw [Nat.mul_comm, Nat.div_add_mod]

/-- the first digit of a positive number -/
private theorem digits_head {base : Nat} (h1 : 1 < base) (h2 : base ≤ 16) (n : Nat) (hn : 0 < n) :
    ∃ d ds, 0 < d ∧ d < base ∧ digitsIn.go base n [] = Nat.digitChar d :: ds ∧ (base ≤ n → ds ≠ []) := by
  induction n using Nat.strongRecOn with
  | ind n ih =>
    unfold digitsIn.go
    rw [dif_neg (by omega), digits_acc]
    by_cases hd : n / base = 0
    · have hlt : n < base := by
        rcases Nat.lt_or_ge n base with h | h
        · exact h
        · have := Nat.div_pos h (by omega); omega
      refine ⟨n % base, [], ?_, Nat.mod_lt _ (by omega), ?_, by omega⟩
      · rw [Nat.mod_eq_of_lt hlt]; exact hn
      · rw [hd]; unfold digitsIn.go; simp
    · obtain ⟨d, ds, hd1, hd2, hd3, _⟩ := ih (n / base) (Nat.div_lt_self (by omega) (by omega)) (Nat.pos_of_ne_zero hd)
      exact ⟨d, ds ++ [Nat.digitChar (n % base)], hd1, hd2, by rw [hd3]; rfl, by simp⟩

private theorem digitChar_ten : ∀ d : Fin 10, isDigitC (Nat.digitChar d) = true ∧
    (0 < d.1 → (Nat.digitChar d == '0') = false) ∧ Nat.digitChar d ≠ 'A' := by decide

/-- **C39** The name of each named key is parsed as this key. -/
theorem C39_name_round_trip (k : Key) (name : Str) (h : getKeyName k = some name) : getKeyByName name = k := by
  have hall : keyNameTable.all (fun p => getKeyByName p.2.toList == p.1) = true := by decide +kernel
  unfold getKeyName at h
  rw [Option.map_eq_some_iff] at h
  obtain ⟨p, hp, rfl⟩ := h
  have h1 := List.all_eq_true.1 hall p (List.mem_of_find?_eq_some hp)
  have h2 := List.find?_some hp
  exact (beq_iff_eq.1 h1).trans (beq_iff_eq.1 h2)

/-- **C39** Different keys have different names. -/
theorem C39_names_unique (k k' : Key) (name : Str) (h : getKeyName k = some name) (h' : getKeyName k' = some name) :
    k = k' := by
  rw [← C39_name_round_trip k name h, C39_name_round_trip k' name h']

/-- **C39** `Virtual0` to `Virtual255` are the virtual keys. -/
theorem C39_virtual_keys (n : Nat) (h : n ≤ 255) :
    getKeyByName ("Virtual".toList ++ digitsIn 10 n) = Key.first_virtual + n := by
  have hall : (List.range 256).all (fun n => getKeyByName ("Virtual".toList ++ digitsIn 10 n) == Key.first_virtual + n) = true := by
    decide +kernel
  exact beq_iff_eq.1 (List.all_eq_true.1 hall n (by simp; omega))

/-- **C39** A decimal number with at least two digits below 0xF000 is the key with this code. -/
theorem C39_decimal_code (n : Nat) (h1 : 10 ≤ n) (h2 : n < 0xF000) : getKeyByName (digitsIn 10 n) = n := by
  have hp := parseBase_digits (base := 10) (by decide) (by decide) n
  obtain ⟨d, ds, hd1, hd2, hd3, hd4⟩ := digits_head (base := 10) (by decide) (by decide) n (by omega)
  have hne := hd4 h1
  have hc := digitChar_ten ⟨d, hd2⟩
  have e : digitsIn 10 n = digitsIn.go 10 n [] := by unfold digitsIn; rw [if_neg (by omega)]
  rw [hd3] at hp
  rw [e, hd3]
  cases ds with
  | nil => exact absurd rfl hne
  | cons x xs =>
    have ht : tryParseKeyCode (Nat.digitChar d :: x :: xs) = n := by
      unfold tryParseKeyCode
      simp only [hc.1, if_true, hc.2.1 hd1, Bool.false_eq_true, if_false, hp]
      have : (decide (0 < n) && decide (n < 61440)) = true := by simp; omega
      rw [if_pos this]
    have hany : (Nat.digitChar d :: x :: xs == "Any".toList) = false := by
      have : "Any".toList = ['A', 'n', 'y'] := by decide
      rw [this, List.cons_beq_cons]
      have : (Nat.digitChar d == 'A') = false := beq_eq_false_iff_ne.2 hc.2.2
      rw [this]; rfl
    unfold getKeyByName
    rw [if_neg (by rw [hany]; simp)]
    simp only [ht]
    have : (n != Key.none) = true := by
      rw [bne_iff_ne]; intro h; have : n = 0 := h; omega
    rw [if_pos this]

/-- **C39** A hexadecimal number below 0xF000 is the key with this code. -/
theorem C39_hexadecimal_code (n : Nat) (h1 : 0 < n) (h2 : n < 0xF000) :
    getKeyByName ('0' :: 'x' :: digitsIn 16 n) = n := by
  have hp := parseBase_digits (base := 16) (by decide) (by decide) n
  obtain ⟨d, ds, hd1, hd2, hd3, hd4⟩ := digits_head (base := 16) (by decide) (by decide) n h1
  have e : digitsIn 16 n = digitsIn.go 16 n [] := by unfold digitsIn; rw [if_neg (by omega)]
  rw [e]
  have hemp : (digitsIn.go 16 n []).isEmpty = false := by rw [hd3]; rfl
  have ht : tryParseKeyCode ('0' :: 'x' :: digitsIn.go 16 n []) = n := by
    unfold tryParseKeyCode
    have h0 : isDigitC '0' = true := by decide
    simp only [h0, if_true, beq_self_eq_true, Bool.true_or, hemp, Bool.false_eq_true, if_false, hp]
    have : (decide (0 < n) && decide (n < 61440)) = true := by simp; omega
    rw [if_pos this]
  unfold getKeyByName
  have hany : ('0' :: 'x' :: digitsIn.go 16 n [] == "Any".toList) = false := by
    have : "Any".toList = ['A', 'n', 'y'] := by decide
    rw [this, List.cons_beq_cons]; rfl
  rw [if_neg (by rw [hany]; simp)]
  simp only [ht]
  have : (n != Key.none) = true := by
    rw [bne_iff_ne]; intro h; have : n = 0 := h; omega
  rw [if_pos this]

private theorem logical_names : ∀ name k, logicalKeyByName name = k → k ≠ Key.none →
    name ∈ ["Shift", "Control", "Alt", "Meta", "OSLeft", "OSRight"].map String.toList := by
  intro name k h hk
  unfold logicalKeyByName at h
  repeat' split at h
  all_goals first
    | (next hh => simp only [beq_iff_eq] at hh; subst hh; decide)
    | exact absurd h.symm hk

/-- the names which are not looked up literally -/
def specialName (name : Str) : Prop :=
  (∃ c cs, name = c :: cs ∧ isDigitC c = true) ∨ "Virtual".toList <+: name ∨ "Key".toList <+: name ∨
  "Digit".toList <+: name ∨ name ∈ ["Shift", "Control", "Alt", "Meta", "OSLeft", "OSRight"].map String.toList

/-- **C39** Conversely a text which is parsed as a key is the name of this key, apart
from numbers, virtual keys, the optional prefixes `Key` and `Digit`, logical keys and the two aliases. -/
theorem C39_parsed_is_name (name : Str) (k : Key) (h : getKeyByName name = k) (hk : k ≠ Key.none)
    (hs : ¬ specialName name) : getKeyName k = some name := by
  simp only [specialName, not_or] at hs
  obtain ⟨hs1, hs2, hs3, hs4, hs5⟩ := hs
  have hpre : ∀ lit : Str, ¬ lit <+: name → removePrefix lit name = none := by
    intro lit hl
    have : ∀ (lit name : Str), ¬ lit <+: name → skipStr lit name = none := by
      intro lit
      induction lit with
      | nil => intro name h; exact absurd (List.nil_prefix) h
      | cons c lit ih =>
        intro name h
        cases name with
        | nil => rfl
        | cons x xs =>
          unfold skipStr
          split
          · next hc =>
            apply ih
            intro hp
            apply h
            rw [beq_iff_eq.1 hc, List.cons_prefix_cons]
            exact ⟨rfl, hp⟩
          · rfl
    unfold removePrefix
    rw [this lit name hl]
  have hcode : tryParseKeyCode name = Key.none := by
    unfold tryParseKeyCode
    split
    · next c d ds =>
      split
      · next hd => exact absurd ⟨c, d :: ds, rfl, hd⟩ hs1
      · rfl
    · rfl
  unfold getKeyByName at h
  split at h
  · next hany =>
    rw [beq_iff_eq] at hany
    subst hany; subst h
    decide +kernel
  · have e1 : virtualKeyByName name = .inr name := by
      unfold virtualKeyByName; rw [hpre _ hs2]
    have e2 : removeKeyPrefix name = some name := by
      unfold removeKeyPrefix; rw [hpre _ hs3, hpre _ hs4]
    have hnn : (Key.none != Key.none) = false := by decide
    simp only [hcode, hnn, Bool.false_eq_true, if_false, e1, e2] at h
    split at h
    · next k' hf =>
      subst h
      unfold searchKeyMap at hf
      simp only [] at hf
      split at hf
      · next e he =>
        split at hf
        · next hn =>
          simp only [Option.some.injEq] at hf
          subst hf
          rw [beq_iff_eq] at hn
          have hm : e ∈ keyMap := List.mem_of_getElem? he
          unfold keyMap at hm
          rw [mem_sortBy] at hm
          simp only [List.mem_map] at hm
          obtain ⟨q, hq, rfl⟩ := hm
          have hall : keyNameTable.all (fun p => getKeyName p.1 == some p.2.toList) = true := by decide +kernel
          have := List.all_eq_true.1 hall q hq
          rw [beq_iff_eq] at this
          rw [← hn]; exact this
        · simp at hf
      · simp at hf
    · exact absurd (logical_names name k h hk) hs5

-- concrete cases
example : getKeyName Key.KeyA = some "A".toList ∧ getKeyByName "A".toList = Key.KeyA ∧
    getKeyByName "KeyA".toList = Key.KeyA ∧ getKeyByName "Virtual12".toList = Key.first_virtual + 12 ∧
    digitsIn 10 120 = "120".toList ∧ getKeyByName "120".toList = 120 ∧
    digitsIn 16 0xF0 = "f0".toList ∧ getKeyByName "0xf0".toList = 240 := by
  decide +kernel

-- a name to which the converse applies
example : getKeyByName "ShiftLeft".toList = Key.ShiftLeft ∧ ¬ specialName "ShiftLeft".toList := by
  refine ⟨by decide +kernel, ?_⟩
  have h : "ShiftLeft".toList = 'S' :: "hiftLeft".toList := by decide
  rintro (⟨c, cs, h1, h2⟩ | h1 | h1 | h1 | h1)
  · rw [h] at h1
    simp only [List.cons.injEq] at h1
    rw [← h1.1] at h2
    exact absurd h2 (by decide)
  · exact absurd h1 (by decide)
  · exact absurd h1 (by decide)
  · exact absurd h1 (by decide)
  · exact absurd h1 (by decide)

end KM
