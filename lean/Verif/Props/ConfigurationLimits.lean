import Verif.Props.Configuration
/-!
# Property C38: the limit on terminal commands is necessary
-/
namespace KM

/-- `A>>$(a)$(a)...` with `n` terminal commands -/
private def manyCommands (n : Nat) : Str := "A>>".toList ++ (List.replicate n "$(a)".toList).flatten

/-- **C38** A configuration with 257 terminal commands is accepted, but instead of running the last one
a key is pressed: the number of the command is the one of the logical key `Shift`, which is replaced
by `ShiftLeft`. -/
theorem C38_limit_counterexample :
    ∃ text config, parseConfig plainTyperEnv text = some config ∧ config.actions.length = 257 ∧
      ∃ c ∈ config.contexts, ∃ o ∈ c.outputs, (triggered config.actions o).length = 256 ∧
        ⟨Key.ShiftLeft, .Down, 0⟩ ∈ o := by
  have h : (parseConfig plainTyperEnv (manyCommands 257)).any (fun config =>
      decide (config.actions.length = 257) && config.contexts.any (fun c => c.outputs.any (fun o =>
        decide ((triggered config.actions o).length = 256) && o.contains ⟨Key.ShiftLeft, .Down, 0⟩))) = true := by
    decide +kernel
  rw [Option.any_eq_true] at h
  obtain ⟨config, hc, h⟩ := h
  simp only [Bool.and_eq_true, decide_eq_true_eq, List.any_eq_true] at h
  obtain ⟨h1, c, h2, o, h3, h4, h5⟩ := h
  exact ⟨_, config, hc, h1, c, h2, o, h3, h4, List.contains_iff_mem.1 h5⟩

end KM
