import Verif.Lemmas.DocMapping
/-!
# The effect of mappings
-/
namespace KM

theorem block_addMapping (commands : List Str) (b : Block) (i o : KeySequence) :
    ({ b with mappings := b.mappings ++ [(i, .keys o)] } : Block).context commands =
      { b.context commands with
        inputs := (b.context commands).inputs ++ [⟨i, (b.context commands).outputs.length⟩]
        outputs := (b.context commands).outputs ++ [o] } := by
  unfold Block.context
  simp only [numberInputs_append, outputsOf_append]
  simp only [Nat.zero_add, numberInputs, outputsOf, List.filterMap_cons, List.filterMap_nil]
  rfl

theorem block_addCommand (commands : List Str) (b : Block) (i : KeySequence) (name : Str) :
    ({ b with mappings := b.mappings ++ [(i, .command name)] } : Block).context commands =
      { b.context commands with
        inputs := (b.context commands).inputs ++ [⟨i, commandNumber commands name⟩] } := by
  unfold Block.context
  simp only [numberInputs_append, outputsOf_append]
  simp only [numberInputs, outputsOf, List.filterMap_cons, List.filterMap_nil, List.append_nil]
  rfl

theorem block_addOutput (commands : List Str) (b : Block) (name : Str) (o : KeySequence) :
    ({ b with commandOutputs := b.commandOutputs ++ [(name, o)] } : Block).context commands =
      { b.context commands with
        commandOutputs := (b.context commands).commandOutputs ++ [⟨o, commandNumber commands name⟩] } := by
  unfold Block.context
  simp only [List.map_append, List.map_cons, List.map_nil]
  rfl

/-- reading `input >> output` -/
theorem map_step {env : CEnv} {s : CState} {d : Doc} (hs : DocRel s d) (hj : d.justOpened = false) {flag : Bool} {e : InExpr} {o : OutExpr}
    {t' u : Str} (hi : s.parseInput env t' = some (e.meaning env.typer flag)) (ho : OutputText env.typer (namesWith d.logical) d.enforceLower o u) :
    ∃ s', s.parseCommandAndMapping env t' u = some s' ∧ DocRel s' (d.step env.typer (.map flag e o)) := by
  rw [CState.parseCommandAndMapping, hi]
  simp only []
  rw [parseCommandName_output hs.logical hs.lower ho, parseOutput_text hs ho]
  simp only [List.isEmpty_nil, Bool.not_true, Bool.false_eq_true, if_false]
  refine ⟨_, rfl, ?_⟩
  rw [CState.addMapping, modCurrent_doc (d := d) (by exact hs.contexts)]
  refine ⟨?_, rfl, hs.commands, hs.macros, hs.logical, ?_, hs.system, hs.done, hs.lower, hs.unmapped, hs.forward, hs.other⟩
  · rw [Doc.contexts_eq]
    simp only [Doc.step, block_addMapping]
  · simp only [Doc.step]
    rw [hs.after, hj]

theorem commandNumber_new {commands : List Str} {name : Str} (h : name ∉ commands) :
    commandNumber (commands ++ [name]) name = -((commands.length : Int) + 1) := by
  unfold commandNumber
  rw [List.idxOf_append, if_neg h]
  simp

theorem Doc.Ok.context_append {d : Doc} (h : d.Ok) (x : List Str) : ∀ b ∈ d.blocks ++ [d.current],
    b.context (d.commands ++ x) = b.context d.commands :=
  fun b hb => Block.context_append x (h.used b hb) (h.outputs b hb)

/-- reading `input >> command` -/
theorem toCommand_step {env : CEnv} {s : CState} {d : Doc} (hs : DocRel s d) (hok : d.Ok) (hj : d.justOpened = false) {flag : Bool} {e : InExpr}
    {name t' u : Str} (hi : s.parseInput env t' = some (e.meaning env.typer flag)) (hu : SingleWord u name) (hk : CommandWord (namesWith d.logical) d.enforceLower name) :
    ∃ s', s.parseCommandAndMapping env t' u = some s' ∧ DocRel s' (d.step env.typer (.toCommand flag e name)) := by
  rw [CState.parseCommandAndMapping, hi]
  simp only []
  rw [parseCommandName_word hs.logical hs.lower hu hk]
  have hne : (!name.isEmpty) = true := by
    obtain ⟨sp, sp', -, h2, -⟩ := hu
    exact h2.isEmpty
  simp only [hne, if_true]
  refine ⟨_, rfl, ?_⟩
  rw [CState.addCommand, hs.commands, d.find_command]
  by_cases hm : name ∈ d.commands
  · rw [if_pos hm]
    simp only []
    rw [modCurrent_doc (d := d) (by exact hs.contexts)]
    refine ⟨?_, hs.actions, ?_, hs.macros, hs.logical, ?_, hs.system, hs.done, hs.lower, hs.unmapped, hs.forward, hs.other⟩
    · rw [Doc.contexts_eq]
      simp only [Doc.step, if_pos hm, block_addCommand]
    · simp only [Doc.step, if_pos hm, Doc.commandList]
      exact hs.commands
    · simp only [Doc.step]
      rw [hs.after, hj]
  · rw [if_neg hm]
    simp only []
    rw [modCurrent_doc (d := d) (by exact hs.contexts)]
    have hlen : d.commandList.length = d.commands.length := by simp [Doc.commandList]
    refine ⟨?_, hs.actions, ?_, hs.macros, hs.logical, ?_, hs.system, hs.done, hs.lower, hs.unmapped, hs.forward, hs.other⟩
    · rw [Doc.contexts_eq]
      simp only [Doc.step, if_neg hm, block_addCommand, commandNumber_new hm, hlen]
      rw [hok.context_append [name] d.current (by simp)]
      congr 1
      apply List.map_congr_left
      intro b hb
      exact (hok.context_append [name] b (by simp [hb])).symm
    · simp only [Doc.step, if_neg hm, Doc.commandList]
      rw [List.zipIdx_append]
      simp only [List.map_append, List.zipIdx_cons, List.zipIdx_nil, List.map_cons, List.map_nil, List.length_map, List.length_zipIdx, Nat.zero_add]
      have : decide (name ∈ d.mapped) = false := decide_eq_false (fun h => hm (hok.mapped name h))
      rw [this]
    · simp only [Doc.step]
      rw [hs.after, hj]

theorem commandNumber_inj {commands : List Str} {a b : Str} (ha : a ∈ commands) (hb : b ∈ commands)
    (h : commandNumber commands a = commandNumber commands b) : a = b := by
  unfold commandNumber at h
  have h : commands.idxOf a = commands.idxOf b := by omega
  have h1 := List.getElem_idxOf (List.idxOf_lt_length_of_mem ha)
  have h2 := List.getElem_idxOf (List.idxOf_lt_length_of_mem hb)
  rw [← h1, ← h2]
  simp only [h]

theorem modFirst_mapped {name : Str} (mapped : List Str) : ∀ (commands : List Str) (n : Nat), commands.Nodup →
    modFirst (fun c : Command => c.name == name) (fun c => { c with mapped := true })
      ((commands.zipIdx n).map (fun p => (⟨p.1, -((p.2 : Int) + 1), decide (p.1 ∈ mapped)⟩ : Command))) =
    (commands.zipIdx n).map (fun p => (⟨p.1, -((p.2 : Int) + 1), decide (p.1 ∈ mapped ++ [name])⟩ : Command)) := by
  intro commands
  induction commands with
  | nil => intro n _; rfl
  | cons a commands ih =>
    intro n hn
    rw [List.zipIdx_cons, List.map_cons, List.map_cons, modFirst]
    by_cases h : a = name
    · subst h
      simp only [beq_self_eq_true, if_true]
      have : decide (a ∈ mapped ++ [a]) = true := by simp
      rw [this]
      congr 1
      apply List.map_congr_left
      intro p hp
      have hp' : p.1 ∈ commands := by
        have := List.mem_zipIdx hp
        obtain ⟨_, _, e⟩ := this
        rw [e]
        exact List.getElem_mem _
      have hne : p.1 ≠ a := fun e => (List.nodup_cons.1 hn).1 (e ▸ hp')
      simp [hne]
    · have : (a == name) = false := by simp [h]
      simp only [this, Bool.false_eq_true, if_false]
      rw [ih (n + 1) (List.nodup_cons.1 hn).2]
      simp [h]

/-- reading `command >> output` -/
theorem command_step {env : CEnv} {s : CState} {d : Doc} (hs : DocRel s d) (hok : d.Ok) (hj : d.justOpened = false) {name : Str} {o : OutExpr}
    {u : Str} (hm : name ∈ d.commands) (hn : name ∉ d.current.commandOutputs.map (·.1)) (ho : OutputText env.typer (namesWith d.logical) d.enforceLower o u) :
    ∃ s', (match s.parseOutput env u with
      | none => none
      | some (s, output) => s.addCommandMapping name output) = some s' ∧ DocRel s' (d.step env.typer (.command name o)) := by
  rw [parseOutput_text hs ho]
  simp only []
  rw [CState.addCommandMapping]
  simp only []
  rw [hs.commands, d.find_command, if_pos hm, hs.contexts, d.contexts_eq]
  simp only [List.getLast?_concat]
  have hc : (d.current.context d.commands).commandOutputs.any (fun o => o.index == commandNumber d.commands name) = false := by
    rw [Bool.eq_false_iff]
    intro h
    rw [List.any_eq_true] at h
    obtain ⟨x, hx, hk⟩ := h
    obtain ⟨c, hc, rfl⟩ := List.mem_map.1 hx
    have := commandNumber_inj (hok.outputs d.current (by simp) c hc) hm (beq_iff_eq.1 hk)
    exact hn (List.mem_map.2 ⟨c, hc, this⟩)
  rw [hc]
  simp only [Bool.false_eq_true, if_false]
  refine ⟨_, rfl, ?_⟩
  rw [modCurrent_doc (d := d) (by exact d.contexts_eq.symm)]
  refine ⟨?_, rfl, ?_, hs.macros, hs.logical, ?_, hs.system, hs.done, hs.lower, hs.unmapped, hs.forward, hs.other⟩
  · rw [Doc.contexts_eq]
    simp only [Doc.step, block_addOutput]
  · simp only [Doc.step]
    exact modFirst_mapped d.mapped d.commands 0 hok.nodup
  · simp only [Doc.step]
    rw [hs.after, hj]

end KM
