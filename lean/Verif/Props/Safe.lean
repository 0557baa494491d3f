import Verif.Lemmas.MultiSafe
import Verif.Lemmas.ParseValues
import Verif.Props.Configuration
import Verif.Props.History
/-!
# C69: no assertion fails

`S.ub` is set whenever an assertion of `Stage.cpp` or `MatchKeySequence.cpp` fails, an element past
the end of a list is accessed, or a bit is shifted by more than the width of the type.
-/
namespace KM

/-- **C69** Whatever is done with a stage, no assertion fails; and everything it emits is a press or a
release of a key which can be output, or the request of a timeout. -/
theorem C69_stage (contexts : List Context) (hc : ContextsSafe contexts) (ops : List StageOp)
    (ho : ∀ op ∈ ops, op.isSafe contexts.length) (hv : InputsFit (inputEvents ops)) :
    (stageRun (stageInit contexts) ops).1.2.ub = false ∧ ∀ e ∈ (stageRun (stageInit contexts) ops).2, CanEmit e :=
  ⟨(StageOk.runInit hc ho hv).2.2.1.ok.ub, (StageOk.runInit hc ho hv).2.2.2⟩

/-- **C69** Whatever is done with stages in sequence, no assertion fails in any of them; and
everything they emit is a press or a release of a key which can be output, or the request of a
timeout. -/
theorem C69_stages (configs : List (List Context)) (hne : configs ≠ []) (hc : ∀ cs ∈ configs, ContextsSafe cs)
    (ops : List MSOp) (ho : ∀ op ∈ ops, op.isSafe) (hv : InputsFit (msInputs ops)) :
    (∀ p ∈ (msRun (MS.make (configs.map Cfg.make)) ops).1.stages, p.2.ub = false) ∧
    ∀ e ∈ (msRun (MS.make (configs.map Cfg.make)) ops).2, CanEmit e := by
  have h := MSOk.run ops (MSOk.init hc) (by simpa [MS.make] using hne) ho (by rw [List.nil_append]; exact hv)
  exact ⟨h.1.ub, h.2⟩

theorem sourceKey_output {k : Key} (h : SourceKey 0 k) (hk : k ≠ Key.ContextActive) : k = Key.any ∨ OutputKey k := by
  rcases h with h | h | h | h | ⟨h1, h2⟩
  · have h1 : 0 < k := h.1
    have h2 : k < 61440 := h.2
    refine Or.inr (Or.inl (Or.inl ?_))
    have h3 : (decide (0 < k) && decide (k ≤ 61439)) = true := by
      rw [Bool.and_eq_true, decide_eq_true_eq, decide_eq_true_eq]
      exact ⟨h1, Nat.le_of_lt_succ h2⟩
    unfold isDeviceKey isKeyboardKey
    rw [h3]
    cases isMouseButton k <;> cases isMouseWheel k <;> rfl
  · exact Or.inl h
  · exact absurd h hk
  · refine Or.inr (Or.inl (Or.inr (Or.inl ?_)))
    show (decide (Key.first_virtual ≤ k) && decide (k ≤ Key.last_virtual)) = true
    rw [Bool.and_eq_true, decide_eq_true_eq, decide_eq_true_eq]
    exact h
  · exact absurd (Nat.lt_of_lt_of_le h2 (Nat.le_of_eq (Nat.add_zero _))) (Nat.not_lt.mpr h1)

theorem action_output {j na : Nat} (h : na ≤ 256) (hj : j < na) : isActionKey (Key.first_action + j) = true := by
  have h1 : Key.first_action + j ≤ Key.last_action := by
    show 61952 + j ≤ 62207
    omega
  show (decide (Key.first_action ≤ Key.first_action + j) && decide (Key.first_action + j ≤ Key.last_action)) = true
  rw [Bool.and_eq_true, decide_eq_true_eq, decide_eq_true_eq]
  exact ⟨Nat.le_add_right _ _, h1⟩

theorem OutOk.canOutput {na : Nat} (hna : na ≤ 256) {o : KeySequence} (h : OutOk 0 na o) (hu : UpPlain o)
    (hk : ∀ e ∈ o, e.key ≠ Key.ContextActive) : ∀ e ∈ o, CanOutput e := by
  intro e he
  have hs : e = onReleaseMarker ∨ (e.state = .Down ∨ (e.state = .Up ∧ e.value = 0) ∨ e.state = .Not) := by
    rcases h.events e he with h1 | h1 | h1 | h1
    · exact Or.inr (Or.inl h1)
    · exact Or.inr (Or.inr (Or.inl ⟨h1, hu e he h1⟩))
    · exact Or.inr (Or.inr (Or.inr h1))
    · exact Or.inl h1
  rcases hs with hs | hs
  · exact Or.inl hs
  · rcases h.keys e he with h1 | h1 | ⟨⟨j, hj, h1⟩, -⟩ | h1
    · exact Or.inr ⟨hs, sourceKey_output h1 (hk e he)⟩
    · exact Or.inr ⟨hs, Or.inr (Or.inl (Or.inr (Or.inr (Or.inl h1))))⟩
    · exact Or.inr ⟨hs, Or.inr (Or.inr (h1 ▸ action_output hna hj))⟩
    · exact Or.inl h1

/-- **C69** The stages of a configuration which the parser accepts can be used, unless an input only
consists of `?`, an output contains `ContextActive`, or there are more than 256 terminal commands. -/
theorem C69_parsed (env : CEnv) (ht : TyperOk env) (hv : TyperPlain env) (text : Str) (config : Config)
    (h : parseConfig env text = some config) (ha : config.actions.length ≤ 256)
    (hi : ∀ c ∈ config.contexts, ∀ i ∈ c.inputs, i.input ≠ [noMightMatchFlag])
    (hk : ∀ c ∈ config.contexts, AllOutputs (fun o => ∀ e ∈ o, e.key ≠ Key.ContextActive) c)
    (stages : List (List Context)) (hs : StagesOf config.contexts stages) : ∀ st ∈ stages, ContextsSafe st := by
  intro st hst
  obtain ⟨nc, hok⟩ := parseConfig_ok ht h
  have hup := parseConfig_upPlain hv h
  refine ⟨?_, fun _ => C37_last_stops env text config h stages hs st hst⟩
  intro ctx hctx
  have : ctx ∈ stages.flatten := List.mem_flatten.2 ⟨st, hst, hctx⟩
  rw [hs.flatten] at this
  obtain ⟨c, hc, rfl⟩ := List.mem_map.1 this
  refine ⟨?_, ?_, ?_, ?_, ?_⟩
  · intro i him h0
    rcases ((hok c hc).inputs i him).1.press with ⟨e, he, -⟩ | h1
    · rw [h0] at he; cases he
    · exact hi c hc i him h1
  · rintro i him ⟨e, he, hn⟩ h0
    rcases ((hok c hc).inputs i him).1.press with ⟨f, hf, hp⟩ | h1
    · cases hin : i.input with
      | nil => rw [hin] at he; cases he
      | cons a l =>
        rw [hin] at he h0 hf
        simp only [List.head?_cons, Option.some_inj, List.tail_cons] at he h0
        subst h0; subst he
        rw [List.mem_singleton] at hf
        rw [hf] at hp
        rw [hp.1] at hn
        cases hn
    · exact hi c hc i him h1
  · intro i him h0
    rcases ((hok c hc).inputs i him).2 with ⟨h1, h2⟩ | ⟨j, -, h2⟩
    · exact h2
    · omega
  · exact fun o ho => ((hok c hc).outputs o ho).canOutput ha ((hup c hc).1 o ho) ((hk c hc).1 o ho)
  · exact fun o ho => ((hok c hc).commands o ho).1.canOutput ha ((hup c hc).2 o ho) ((hk c hc).2 o ho)


/-! ### Examples -/

private def dn (k : Key) : KeyEvent := ⟨k, .Down, 0⟩
private def up (k : Key) : KeyEvent := ⟨k, .Up, 0⟩
private def ua (k : Key) : KeyEvent := ⟨k, .UpAsync, 0⟩

/-- the context of the configuration `? A B >> X` -/
def historySample : Context :=
  { inputs := [⟨[noMightMatchFlag, dn Key.KeyA, ua Key.KeyA, dn Key.KeyB, ua Key.KeyB], 0⟩],
    outputs := [[dn Key.KeyX]] }

theorem historySample_safe : ContextsSafe [historySample] := by
  refine ⟨?_, fun _ => ⟨historySample, rfl, rfl⟩⟩
  intro ctx hctx
  rw [List.mem_singleton] at hctx
  subst hctx
  refine ⟨?_, ?_, ?_, ?_, ?_⟩
  · intro i hi; rw [historySample, List.mem_singleton] at hi; subst hi; simp
  · intro i hi _; rw [historySample, List.mem_singleton] at hi; subst hi; simp
  · intro i hi _; rw [historySample, List.mem_singleton] at hi; subst hi; decide
  · intro o ho e he
    rw [historySample, List.mem_singleton] at ho
    subst ho
    rw [List.mem_singleton] at he
    subst he
    exact Or.inr ⟨Or.inl rfl, Or.inr (Or.inl (Or.inl (by decide)))⟩
  · intro o ho; rw [historySample] at ho; cases ho

theorem plain_inputs_fit {events : KeySequence} (h : ∀ e ∈ events, e.value = 0) : InputsFit events :=
  NoValues.fit (fun e he _ _ _ => h e he)

/-- pressing `A`, `C` and `A`, `B` -/
def historyOps : List StageOp :=
  [.contexts [0], .input (dn Key.KeyA) 0, .input (up Key.KeyA) 0, .input (dn Key.KeyC) 0, .input (up Key.KeyC) 0,
   .input (dn Key.KeyA) 0, .input (up Key.KeyA) 0, .input (dn Key.KeyB) 0]

theorem historyOps_safe : (∀ op ∈ historyOps, op.isSafe 1) ∧ InputsFit (inputEvents historyOps) := by
  constructor
  · unfold historyOps
    intro op hop
    simp only [List.mem_cons, List.not_mem_nil, or_false] at hop
    rcases hop with rfl | rfl | rfl | rfl | rfl | rfl | rfl | rfl
    · exact ⟨by decide, by decide⟩
    all_goals exact ⟨by decide, Or.inl (by decide), by decide⟩
  · exact plain_inputs_fit (by decide)

example : (stageRun (stageInit [historySample]) historyOps).2 =
      [dn Key.KeyA, up Key.KeyA, dn Key.KeyC, up Key.KeyC, dn Key.KeyA, up Key.KeyA, dn Key.KeyX] ∧
    (stageRun (stageInit [historySample]) historyOps).1.2.history = [dn Key.KeyB] ∧
    (stageRun (stageInit [historySample]) historyOps).1.2.ub = false :=
  ⟨by decide +kernel, by decide +kernel, (C69_stage _ historySample_safe _ historyOps_safe.1 historyOps_safe.2).1⟩

/-- the history after these operations: `B` is held -/
example : (stageRun (stageInit [historySample]) historyOps).1.2.history.Sublist (inputEvents historyOps) ∧
    heldAfter (inputEvents historyOps) Key.KeyB = true := by
  have h := C13_history_well_formed _ historySample_safe _ historyOps_safe.1 historyOps_safe.2
  exact ⟨h.1, h.2.2 _ ⟨dn Key.KeyB, by decide +kernel, rfl⟩⟩

/-- the first `A` is dropped as `C` was pressed, the second `A` which is held is kept -/
example : (stageRun (stageInit [historySample]) (historyOps.take 6)).1.2.history = [dn Key.KeyA] ∧
    (stageRun (stageInit [historySample]) (historyOps.take 4)).1.2.history = [dn Key.KeyC] ∧
    endsPressed (stageRun (stageInit [historySample]) (historyOps.take 6 ++
      [.input (dn Key.KeyC) 0, .input (up Key.KeyC) 0, .input (dn Key.KeyB) 0])).1.2.history Key.KeyA := by
  refine ⟨by decide +kernel, by decide +kernel, ?_⟩
  refine C13_held_keys_are_kept _ historySample_safe _ _ ?_ (plain_inputs_fit (by decide)) _ (by decide)
    ⟨dn Key.KeyA, by decide +kernel, rfl⟩
  intro op hop
  rw [List.mem_append] at hop
  rcases hop with hop | hop
  · exact historyOps_safe.1 op (List.mem_of_mem_take hop)
  · simp only [List.mem_cons, List.not_mem_nil, or_false] at hop
    rcases hop with rfl | rfl | rfl
    all_goals exact ⟨by decide, Or.inl (by decide), by decide⟩

/-- two stages, of which the second only has `? A B >> X` -/
example : ∀ p ∈ (msRun (MS.make ([[historySample], [historySample]].map Cfg.make))
      [.contexts [1], .input (dn Key.KeyA) 0, .input ⟨Key.WheelUp, .Down, 120⟩ 0, .input ⟨Key.WheelUp, .Up, 120⟩ 0]).1.stages,
    p.2.ub = false := by
  refine (C69_stages [[historySample], [historySample]] (by simp) ?_ _ ?_ ?_).1
  · intro cs hcs
    simp only [List.mem_cons, List.not_mem_nil, or_false, or_self] at hcs
    subst hcs
    exact historySample_safe
  · intro op hop
    simp only [List.mem_cons, List.not_mem_nil, or_false] at hop
    rcases hop with rfl | rfl | rfl | rfl
    · exact (by decide : [(1 : Int)].Pairwise (· ≤ ·))
    all_goals exact ⟨by decide, Or.inl (by decide), by decide⟩
  · intro k _ _
    refine Or.inr ?_
    show FollowsFit (ofKey k [dn Key.KeyA, ⟨Key.WheelUp, .Down, 120⟩, ⟨Key.WheelUp, .Up, 120⟩])
    by_cases h1 : k = Key.KeyA
    · subst h1; exact trivial
    · by_cases h2 : k = Key.WheelUp
      · subst h2; exact ⟨fun _ => rfl, trivial⟩
      · rw [show ofKey k [dn Key.KeyA, ⟨Key.WheelUp, .Down, 120⟩, ⟨Key.WheelUp, .Up, 120⟩] = [] by
          rw [ofKey_cons_ne (fun h => h1 h.symm), ofKey_cons_ne (fun h => h2 h.symm), ofKey_cons_ne (fun h => h2 h.symm)]
          rfl]
        exact trivial

theorem plainTyperEnv_plain : TyperPlain plainTyperEnv := by
  intro s l h t ht
  have h : genericTyper s = some l := h
  unfold genericTyper at h
  injection h with h
  subst h
  unfold typeCodepoints at ht
  simp only [List.mem_flatMap] at ht
  obtain ⟨c, -, ht⟩ := ht
  split at ht
  · obtain ⟨e, -, rfl⟩ := List.mem_map.1 ht
    rfl
  · unfold hexTypeUnicode at ht
    simp only [List.mem_append, List.mem_singleton, List.mem_map, List.mem_reverse] at ht
    rcases ht with (rfl | ⟨k, -, rfl⟩) | rfl <;> rfl

/-- a configuration which meets the conditions of `C69_parsed` -/
example : ∃ config, parseConfig plainTyperEnv "? A B >> X\nC >> D $(foo) ^ E".toList = some config ∧
    StagesOf config.contexts [config.contexts.map contextOf] ∧ ContextsSafe (config.contexts.map contextOf) := by
  have h : (parseConfig plainTyperEnv "? A B >> X\nC >> D $(foo) ^ E".toList).any (fun config =>
      decide (config.actions.length ≤ 256) && config.contexts.all (fun c =>
        c.inputs.all (fun i => i.input != [noMightMatchFlag]) &&
        c.outputs.all (fun o => o.all (fun e => e.key != Key.ContextActive)) && c.commandOutputs.isEmpty) &&
      !config.contexts.isEmpty &&
      ([config.contexts.map contextOf].flatMap markFirst == markBegin config.contexts)) = true := by decide +kernel
  rw [Option.any_eq_true] at h
  obtain ⟨config, hc, h⟩ := h
  simp only [Bool.and_eq_true, decide_eq_true_eq, List.all_eq_true, beq_iff_eq, bne_iff_ne, ne_eq,
    List.isEmpty_iff, Bool.not_eq_true', List.isEmpty_eq_false_iff] at h
  obtain ⟨⟨⟨ha, hall⟩, hne⟩, hst⟩ := h
  have hs : StagesOf config.contexts [config.contexts.map contextOf] := by
    refine ⟨?_, hst⟩
    intro st hm
    rw [List.mem_singleton] at hm
    subst hm
    simpa using hne
  refine ⟨config, hc, hs, ?_⟩
  refine C69_parsed _ plainTyperEnv_ok plainTyperEnv_plain _ _ hc ha ?_ ?_ _ hs _ (by simp)
  · exact fun c hcm i him => (hall c hcm).1.1 i him
  · refine fun c hcm => ⟨fun o ho e he => (hall c hcm).1.2 o ho e he, fun o ho => ?_⟩
    rw [(hall c hcm).2] at ho
    cases ho

/-! ### What is not the case -/

/-- **C13** **C69** Values which do not fit: while `WheelUp` is held by injected input, the mouse wheel
is turned; then the injected key is released, pressed and released again. The history begins with a
release, so an assertion fails. -/
theorem C69_wheel_values_counterexample :
    (stageRun (stageInit [historySample])
      [.contexts [0], .input (dn Key.WheelUp) (-1), .input ⟨Key.WheelUp, .Down, 120⟩ 0,
       .input ⟨Key.WheelUp, .Up, 120⟩ 0, .input (dn Key.WheelUp) (-1), .input (up Key.WheelUp) (-1)]).1.2.ub = true := by
  decide +kernel

/-- **C13** In a stage which is not the first, turning the mouse wheel stops mappings with `?` from
matching: the previous stage outputs the release without its value, so the press is never removed. -/
theorem C13_wheel_counterexample :
    (msRun (MS.make [Cfg.make [historySample], Cfg.make [historySample]])
      ([.contexts [1]] ++ [dn Key.KeyA, up Key.KeyA, dn Key.KeyC, up Key.KeyC, dn Key.KeyA, up Key.KeyA,
        dn Key.KeyB].map (fun e => .input e 0))).2.getLast? = some (dn Key.KeyX) ∧
    (msRun (MS.make [Cfg.make [historySample], Cfg.make [historySample]])
      ([.contexts [1]] ++ [⟨Key.WheelUp, .Down, 120⟩, ⟨Key.WheelUp, .Up, 120⟩, dn Key.KeyA, up Key.KeyA, dn Key.KeyC,
        up Key.KeyC, dn Key.KeyA, up Key.KeyA, dn Key.KeyB].map (fun e => .input e 0))).2.getLast? =
      some (dn Key.KeyB) := by
  decide +kernel

/-- **C69** `ContextActive` can be output, although the parser rejects it in outputs: by a logical
key. Then an assertion fails in the following stage. -/
theorem C69_contextActive_counterexample :
    ∃ text config, parseConfig plainTyperEnv text = some config ∧
      text = "Foo = ContextActive | A\nX >> Foo\n[stage]\nY >> Z".toList ∧
      ((msRun (MS.make [Cfg.make (config.contexts.take 1 |>.map contextOf), Cfg.make (config.contexts.drop 1 |>.map contextOf)])
        [.contexts [0, 1], .input (dn Key.KeyX) 0]).1.stages.map (·.2.ub)) = [false, true] := by
  have h : (parseConfig plainTyperEnv "Foo = ContextActive | A\nX >> Foo\n[stage]\nY >> Z".toList).any (fun config =>
      ((msRun (MS.make [Cfg.make (config.contexts.take 1 |>.map contextOf), Cfg.make (config.contexts.drop 1 |>.map contextOf)])
        [.contexts [0, 1], .input (dn Key.KeyX) 0]).1.stages.map (·.2.ub)) == [false, true]) = true := by decide +kernel
  rw [Option.any_eq_true] at h
  obtain ⟨config, hc, h⟩ := h
  exact ⟨_, config, hc, rfl, eq_of_beq h⟩

end KM
