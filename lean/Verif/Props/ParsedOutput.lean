import Verif.Model.ParseConfig
import Verif.Spec.Serial
import Verif.Spec.StageRun
/-!
# C03 is false for configurations which the parser accepts
-/
namespace KM

/-- The configuration
```
X >> A
Z >> C ^ !A B

[modifier="Z"]
ContextActive >> Shift{V} A !Q ^ !W
```
In the last output `A` is held over `^`, since `!Q` keeps the keys before it pressed. -/
private def heldOverConfig : Str :=
  "X >> A\nZ >> C ^ !A B\n\n[modifier=\"Z\"]\nContextActive >> Shift{V} A !Q ^ !W\n".toList

private def heldOverOps : List StageOp :=
  [.contexts [0, 1], .input ⟨Key.KeyX, .Down, 0⟩ 0, .input ⟨Key.KeyZ, .Down, 0⟩ 0,
   .input ⟨Key.KeyZ, .Up, 0⟩ 0, .input ⟨Key.KeyX, .Up, 0⟩ 0]

private def plainEnv : CEnv := ⟨genericTyper, fun _ => true, fun _ => none⟩

/-- **C03** There is a configuration which the parser accepts, such that after the press and release
of two keys, nothing is tracked, but `A` is still down on the output keyboard. -/
theorem C03_parsed_counterexample :
    ∃ text config ops k, parseConfig plainEnv text = some config ∧
      (∀ op ∈ ops, op.isRegular = true) ∧ k ≠ Key.timeout ∧
      heldAfter (stageRun (stageInit (config.contexts.map contextOf)) ops).2 k = true ∧
      (stageRun (stageInit (config.contexts.map contextOf)) ops).1.2.down = [] := by
  have h : (parseConfig plainEnv heldOverConfig).any (fun config =>
      heldAfter (stageRun (stageInit (config.contexts.map contextOf)) heldOverOps).2 Key.KeyA &&
      (stageRun (stageInit (config.contexts.map contextOf)) heldOverOps).1.2.down.isEmpty) = true := by
    decide +kernel
  rw [Option.any_eq_true] at h
  obtain ⟨config, hc, h⟩ := h
  rw [Bool.and_eq_true, List.isEmpty_iff] at h
  refine ⟨heldOverConfig, config, heldOverOps, Key.KeyA, hc, ?_, by decide, h.1, h.2⟩
  intro op hop
  simp only [heldOverOps, List.mem_cons, List.not_mem_nil, or_false] at hop
  rcases hop with h | h | h | h | h <;> subst h <;> rfl

end KM
