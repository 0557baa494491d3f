import Verif.Model.Match
import Verif.Spec.Match
/-!
# A held key may also be part of a following chord (C53)
-/
namespace KM

set_option linter.unusedSimpArgs false

private theorem loop_eq (m : MState) : mLoop m = match mStep m with | .inl m' => mLoop m' | .inr r => r := by
  conv => lhs; unfold mLoop
  split <;> next h => rw [h]

section
variable {a b : Key} (ha : ProperKey a) (hb : ProperKey b) (hab : a ≠ b)
include ha hb hab

/-- **C53** `A (A B)` matches when `A` is held all the time and `B` gets pressed. -/
theorem C53_held_key_in_chord :
    (matchSeq (typingExpr [a] ++ chordExpr [a, b]) [⟨a, .Down, 0⟩, ⟨b, .Down, 0⟩]).res = .matched := by
  obtain ⟨ha1, ha2, ha3⟩ := ha
  obtain ⟨hb1, hb2, hb3⟩ := hb
  have ha1 : ¬ a = 0 := ha1
  have hb1 : ¬ b = 0 := hb1
  have hba : ¬ b = a := fun h => hab h.symm
  simp only [matchSeq, mInit, typingExpr, chordExpr, List.flatMap_cons, List.flatMap_nil, List.map_cons, List.map_nil,
    List.cons_append, List.nil_append, List.isEmpty_cons, Bool.or_self, Bool.false_eq_true, if_false, List.append_nil]
  iterate 10 (rw [loop_eq]; simp [mStep, mStepMain, mStepElse, MState.dropNot, MState.se, MState.ee, MState.advE, MState.advS, MState.advSE,
    unifiable, unifiableKey, unifiableState, asyncUpDown, waitsFor, modFirst, KeyEvent.zero, List.findIdx?_cons, *])

/-- **C53** It also matches when `A` is released and pressed again in between. -/
theorem C53_released_key_in_chord :
    (matchSeq (typingExpr [a] ++ chordExpr [a, b]) [⟨a, .Down, 0⟩, ⟨a, .Up, 0⟩, ⟨a, .Down, 0⟩, ⟨b, .Down, 0⟩]).res = .matched := by
  obtain ⟨ha1, ha2, ha3⟩ := ha
  obtain ⟨hb1, hb2, hb3⟩ := hb
  have ha1 : ¬ a = 0 := ha1
  have hb1 : ¬ b = 0 := hb1
  have hba : ¬ b = a := fun h => hab h.symm
  simp only [matchSeq, mInit, typingExpr, chordExpr, List.flatMap_cons, List.flatMap_nil, List.map_cons, List.map_nil,
    List.cons_append, List.nil_append, List.isEmpty_cons, Bool.or_self, Bool.false_eq_true, if_false, List.append_nil]
  iterate 10 (rw [loop_eq]; simp [mStep, mStepMain, mStepElse, MState.dropNot, MState.se, MState.ee, MState.advE, MState.advS, MState.advSE,
    unifiable, unifiableKey, unifiableState, asyncUpDown, waitsFor, modFirst, KeyEvent.zero, List.findIdx?_cons, *])

/-- **C53** Also when `B` is pressed before `A` is pressed again. -/
theorem C53_released_key_in_chord' :
    (matchSeq (typingExpr [a] ++ chordExpr [a, b]) [⟨a, .Down, 0⟩, ⟨a, .Up, 0⟩, ⟨b, .Down, 0⟩, ⟨a, .Down, 0⟩]).res = .matched := by
  obtain ⟨ha1, ha2, ha3⟩ := ha
  obtain ⟨hb1, hb2, hb3⟩ := hb
  have ha1 : ¬ a = 0 := ha1
  have hb1 : ¬ b = 0 := hb1
  have hba : ¬ b = a := fun h => hab h.symm
  simp only [matchSeq, mInit, typingExpr, chordExpr, List.flatMap_cons, List.flatMap_nil, List.map_cons, List.map_nil,
    List.cons_append, List.nil_append, List.isEmpty_cons, Bool.or_self, Bool.false_eq_true, if_false, List.append_nil]
  iterate 11 (rw [loop_eq]; simp [mStep, mStepMain, mStepElse, MState.dropNot, MState.se, MState.ee, MState.advE, MState.advS, MState.advSE,
    unifiable, unifiableKey, unifiableState, asyncUpDown, waitsFor, modFirst, KeyEvent.zero, List.findIdx?_cons, *])

/-- **C53** It does not yet match when `A` is released and only `B` gets pressed. -/
theorem C53_released_key_missing :
    (matchSeq (typingExpr [a] ++ chordExpr [a, b]) [⟨a, .Down, 0⟩, ⟨a, .Up, 0⟩, ⟨b, .Down, 0⟩]).res = .might_match := by
  obtain ⟨ha1, ha2, ha3⟩ := ha
  obtain ⟨hb1, hb2, hb3⟩ := hb
  have ha1 : ¬ a = 0 := ha1
  have hb1 : ¬ b = 0 := hb1
  have hba : ¬ b = a := fun h => hab h.symm
  simp only [matchSeq, mInit, typingExpr, chordExpr, List.flatMap_cons, List.flatMap_nil, List.map_cons, List.map_nil,
    List.cons_append, List.nil_append, List.isEmpty_cons, Bool.or_self, Bool.false_eq_true, if_false, List.append_nil]
  iterate 7 (rw [loop_eq]; simp [mStep, mStepMain, mStepElse, MState.dropNot, MState.se, MState.ee, MState.advE, MState.advS, MState.advSE,
    unifiable, unifiableKey, unifiableState, asyncUpDown, waitsFor, modFirst, KeyEvent.zero, List.findIdx?_cons, *])
end

-- the hypotheses
example : ProperKey Key.KeyA ∧ ProperKey Key.KeyB ∧ Key.KeyA ≠ Key.KeyB := by
  refine ⟨⟨?_, ?_, ?_⟩, ⟨?_, ?_, ?_⟩, ?_⟩ <;> decide

end KM
