import Verif.Model.Key
/-!
# Timeouts (C19)
-/
namespace KM

/-- **C19** A duration is clamped to the range of the 12 bit field, for all durations whose
milliseconds fit into an `int`. -/
theorem C19_clamped (ms : Int) (h1 : -2147483648 ≤ ms) (h2 : ms ≤ 2147483647) :
    (ms ≤ 0 → durationToTimeout ms = 0) ∧ (4095 ≤ ms → durationToTimeout ms = 4095) ∧
    (0 ≤ ms → ms ≤ 4095 → (durationToTimeout ms : Int) = ms) := by
  have h : ((ms + 2147483648) % 4294967296) - 2147483648 = ms := by
    rw [Int.emod_eq_of_lt (by omega) (by omega)]; omega
  unfold durationToTimeout
  simp only [h]
  refine ⟨?_, ?_, ?_⟩ <;> intros <;> omega

/-- **C19** The converted value always fits into 12 bits, whatever the duration. -/
theorem C19_fits (ms : Int) : durationToTimeout ms < 2 ^ 12 := by
  unfold durationToTimeout
  simp only []
  omega

/-- **C19** Conversion is monotone on the durations representable as `int` milliseconds. -/
theorem C19_monotone (a b : Int) (h1 : -2147483648 ≤ a) (h2 : b ≤ 2147483647) (h : a ≤ b) :
    durationToTimeout a ≤ durationToTimeout b := by
  have ha := C19_clamped a h1 (by omega)
  have hb := C19_clamped b (by omega) h2
  by_cases a0 : a ≤ 0
  · rw [ha.1 a0]; omega
  · by_cases b1 : 4095 ≤ b
    · rw [hb.2.1 b1]; have := C19_fits a; omega
    · have := ha.2.2 (by omega) (by omega)
      have := hb.2.2 (by omega) (by omega)
      omega

/-- The sum of two timeouts, without a limit, as long as it can be represented; else the limit. -/
theorem C19_sum_saturates (a b : Nat) :
    (a + b ≤ 4095 → sumTimeouts a b = a + b) ∧ (4095 ≤ a + b → sumTimeouts a b = 4095) ∧
    sumTimeouts a b < 2 ^ 12 := by
  unfold sumTimeouts
  refine ⟨?_, ?_, ?_⟩ <;> intros <;> omega

/-- **C19** Adding is commutative. -/
theorem C19_sum_comm (a b : Nat) : sumTimeouts a b = sumTimeouts b a := by
  unfold sumTimeouts; omega

/-- **C19** Adding is associative: no duration is lost or wrapped depending on the order. -/
theorem C19_sum_assoc (a b c : Nat) : sumTimeouts (sumTimeouts a b) c = sumTimeouts a (sumTimeouts b c) := by
  unfold sumTimeouts; omega

/-- **C19** Adding is monotone. -/
theorem C19_sum_mono (a b a' b' : Nat) (h : a ≤ a') (h' : b ≤ b') : sumTimeouts a b ≤ sumTimeouts a' b' := by
  unfold sumTimeouts; omega

example : durationToTimeout (-5) = 0 ∧ durationToTimeout 200 = 200 ∧ durationToTimeout 5000 = 4095 := by decide
example : sumTimeouts 4000 200 = 4095 ∧ sumTimeouts 300 200 = 500 := by decide
-- beyond the range of `int` the conversion wraps (50 days): the condition of `C19_clamped` is needed
example : durationToTimeout 4294967296 = 0 := by decide

end KM
