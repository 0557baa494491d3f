import Verif.Lemmas.ParsedActions
import Verif.Lemmas.ConfigCommands
import Verif.Lemmas.LogicalHeld
import Verif.Props.StageOutput
import Verif.Spec.Serial
/-!
# Properties C35 to C38 and C54: what the parser of configurations produces

The typer is a parameter; what is required of it (`TyperOk`, it only uses keys of the keyboard)
holds for the generic one.
-/
namespace KM

/-- an environment for the examples -/
def plainTyperEnv : CEnv := ⟨genericTyper, fun _ => true, fun _ => none⟩

theorem plainTyperEnv_ok : TyperOk plainTyperEnv := fun s l h => genericTyper_device s l h

/-! ## C37 -/

theorem markFirst_snd (st : List Context) : (markFirst st).map (·.2) = st := by
  cases st with
  | nil => rfl
  | cons c cs =>
    show c :: List.map (fun p : Bool × Context => p.2) (cs.map (fun c => (false, c))) = c :: cs
    rw [List.map_map]
    exact congrArg _ (List.map_id _)

theorem markBegin_snd (cs : List CContext) : (markBegin cs).map (·.2) = cs.map contextOf := by
  cases cs with
  | nil => rfl
  | cons c cs =>
    show contextOf c :: List.map (fun p : Bool × Context => p.2) (cs.map (fun c => (c.beginStage, contextOf c))) = _
    rw [List.map_map]
    rfl

theorem flatMap_markFirst_snd (stages : List (List Context)) :
    (stages.flatMap markFirst).map (·.2) = stages.flatten := by
  induction stages with
  | nil => rfl
  | cons st stages ih =>
    rw [List.flatMap_cons, List.map_append, markFirst_snd, ih, List.flatten_cons]

theorem StagesOf.flatten {cs : List CContext} {stages : List (List Context)} (h : StagesOf cs stages) :
    stages.flatten = cs.map contextOf := by
  rw [← flatMap_markFirst_snd, h.2, markBegin_snd]

/-- the flags of marked contexts -/
def markFlags (p : Bool × Context) : Bool × Bool := (p.2.fallthrough, p.1)

theorem chain_markBegin {cs : List CContext} (h : Chain (cs.map CContext.flags)) :
    Chain ((markBegin cs).map markFlags) := by
  cases cs with
  | nil => exact h
  | cons c cs =>
    have h1 : (markBegin (c :: cs)).map markFlags = (c.fallthrough, true) :: cs.map CContext.flags := by
      show _ :: List.map markFlags (cs.map (fun c => (c.beginStage, contextOf c))) = _
      rw [List.map_map]
      rfl
    rw [h1]
    cases cs with
    | nil => exact h
    | cons d cs => exact h

theorem chain_append {a b : List (Bool × Bool)} (h : Chain (a ++ b)) (hb : ∀ x, b.head? = some x → x.2 = true) :
    (∀ x, a.getLast? = some x → x.1 = false) ∧ Chain b := by
  induction a with
  | nil => exact ⟨by simp, h⟩
  | cons x a ih =>
    cases a with
    | nil =>
      cases b with
      | nil => exact ⟨by intro y hy; injection hy with hy; rw [← hy]; exact h, trivial⟩
      | cons y b =>
        refine ⟨?_, h.2⟩
        intro z hz
        injection hz with hz
        have hz : x = z := hz
        rw [← hz]
        cases hx : x.1 with
        | false => rfl
        | true =>
          have h1 : y.2 = false := h.1 hx
          have h2 := hb y rfl
          rw [h1] at h2; cases h2
    | cons y a =>
      have := ih h.2
      refine ⟨?_, this.2⟩
      intro z hz
      rw [List.getLast?_cons_cons] at hz
      exact this.1 z hz

theorem lastStops_of_chain (stages : List (List Context)) : (∀ st ∈ stages, st ≠ []) →
    Chain ((stages.flatMap markFirst).map markFlags) → ∀ st ∈ stages, LastStops st := by
  induction stages with
  | nil => intro _ _ st hst; cases hst
  | cons st stages ih =>
    intro hne h
    rw [List.flatMap_cons, List.map_append] at h
    have hb : ∀ x, ((stages.flatMap markFirst).map markFlags).head? = some x → x.2 = true := by
      intro x hx
      cases stages with
      | nil => cases hx
      | cons st' stages =>
        cases st' with
        | nil => exact absurd rfl (hne [] (by simp))
        | cons c cs =>
          rw [List.flatMap_cons] at hx
          injection hx with hx
          rw [← hx]; rfl
    obtain ⟨h1, h2⟩ := chain_append h hb
    intro t ht
    rcases List.mem_cons.1 ht with rfl | ht
    · have hn := hne t List.mem_cons_self
      have hm : ((markFirst t).map markFlags).map (·.1) = t.map (·.fallthrough) := by
        conv => rhs; rw [← markFirst_snd t]
        rw [List.map_map, List.map_map]
        rfl
      have hl := congrArg List.getLast? hm
      rw [List.getLast?_map, List.getLast?_map (l := t)] at hl
      cases hc : t.getLast? with
      | none => exact absurd (List.getLast?_eq_none_iff.1 hc) hn
      | some c =>
        rw [hc] at hl
        cases hx : ((markFirst t).map markFlags).getLast? with
        | none => rw [hx] at hl; cases hl
        | some x =>
          rw [hx] at hl
          injection hl with hl
          exact ⟨c, hc, hl.symm.trans (h1 x hx)⟩
    · exact ih (fun s hs => hne s (List.mem_cons_of_mem _ hs)) h2 t ht

/-- **C37** In each stage of a configuration which the parser accepts, the last context does not
fall through, so a context which falls through is followed by the one it falls through to. -/
theorem C37_last_stops (env : CEnv) (text : Str) (config : Config) (h : parseConfig env text = some config)
    (stages : List (List Context)) (hs : StagesOf config.contexts stages) : ∀ st ∈ stages, LastStops st := by
  refine lastStops_of_chain stages hs.1 ?_
  rw [hs.2]
  exact chain_markBegin (parseConfig_chain h)

theorem exists_fallsTo {cs : List Context} (hl : LastStops cs) {i : Nat} (hi : i < cs.length) :
    ∃ j, FallsTo cs i j := by
  induction h : cs.length - i generalizing i with
  | zero => omega
  | succ n ih =>
    cases hf : cs[i].fallthrough with
    | false =>
      exact ⟨i, Nat.le_refl _, fun m h1 h2 => absurd h1 (Nat.not_le.2 h2), cs[i], List.getElem?_eq_getElem hi, hf⟩
    | true =>
      have hi' : i + 1 < cs.length := by
        rcases Nat.lt_or_ge (i + 1) cs.length with h1 | h1
        · exact h1
        · exfalso
          obtain ⟨ctx, h2, h3⟩ := hl
          rw [List.getLast?_eq_getElem?, show cs.length - 1 = i from by omega, List.getElem?_eq_getElem hi] at h2
          injection h2 with h2
          rw [← h2, hf] at h3
          cases h3
      obtain ⟨j, h1, h2, h3⟩ := ih hi' (by omega)
      refine ⟨j, by omega, ?_, h3⟩
      intro m hm1 hm2
      rcases Nat.lt_or_ge i m with h4 | h4
      · exact h2 m h4 hm2
      · have : m = i := by omega
        subst this
        exact ⟨_, List.getElem?_eq_getElem hi, hf⟩

/-- **C37** Every context of a stage of a parsed configuration falls through to one which is in the
same stage. -/
theorem C37_falls_to (env : CEnv) (text : Str) (config : Config) (h : parseConfig env text = some config)
    (stages : List (List Context)) (hs : StagesOf config.contexts stages) (st : List Context) (hst : st ∈ stages)
    (i : Nat) (hi : i < st.length) : ∃ j, FallsTo st i j :=
  exists_fallsTo (C37_last_stops env text config h stages hs st hst) hi

-- contexts which fall through, in the second of two stages
example : ∃ config, parseConfig plainTyperEnv "A>>B\n[stage]\n[modifier=\"Shift\"]\nShift{A}>>B".toList = some config ∧
    config.actions.length ≤ 256 ∧ config.contexts.map CContext.flags =
      [(false, true), (false, true), (true, false), (false, false)] := by
  have h : (parseConfig plainTyperEnv "A>>B\n[stage]\n[modifier=\"Shift\"]\nShift{A}>>B".toList).any (fun config =>
      decide (config.actions.length ≤ 256) && config.contexts.map CContext.flags ==
      [(false, true), (false, true), (true, false), (false, false)]) = true := by decide +kernel
  rw [Option.any_eq_true] at h
  obtain ⟨config, hc, h⟩ := h
  rw [Bool.and_eq_true, decide_eq_true_eq, beq_iff_eq] at h
  exact ⟨config, hc, h.1, h.2⟩

/-! ## C35 -/

theorem sourceKey_lt {n : Nat} {k : Key} (h : SourceKey n k) : k < Key.first_logical + n := by
  have hl : Key.first_logical ≤ Key.first_logical + n := Nat.le_add_right _ _
  rcases h with ⟨-, h⟩ | h | h | ⟨-, h⟩ | ⟨-, h⟩
  · exact Nat.lt_of_lt_of_le (Nat.lt_of_lt_of_le h (by decide)) hl
  · rw [h]; exact Nat.lt_of_lt_of_le (by decide) hl
  · rw [h]; exact Nat.lt_of_lt_of_le (by decide) hl
  · exact Nat.lt_of_lt_of_le (Nat.lt_of_le_of_lt h (by decide)) hl
  · exact h

theorem StateOk.ordered {s : CState} (h : StateOk s) : LogicalKeysOrdered s.logical := by
  intro i l hi
  rw [h.numbered i l hi]
  exact ⟨rfl, sourceKey_lt (h.below i l hi).1, sourceKey_lt (h.below i l hi).2⟩

/-- **C35** No mapping, output or modifier filter of a configuration which the parser accepts
contains a logical key, provided that it has at most 256 terminal commands. -/
theorem C35_no_logical_keys (env : CEnv) (ht : TyperOk env) (text : Str) (config : Config)
    (h : parseConfig env text = some config) (ha : config.actions.length ≤ 256) :
    ∀ c ∈ config.contexts,
      (∀ i ∈ c.inputs, ∀ e ∈ i.input, e.key < Key.first_logical) ∧
      (∀ o ∈ c.outputs, ∀ e ∈ o, e.key < Key.first_logical) ∧
      (∀ o ∈ c.commandOutputs, ∀ e ∈ o.output, e.key < Key.first_logical) ∧
      (∀ e ∈ c.modifierFilter, e.key < Key.first_logical) := by
  obtain ⟨nc, hok⟩ := parseConfig_ok ht h
  have hout : ∀ o, OutOk 0 config.actions.length o → ∀ e ∈ o, e.key < Key.first_logical := by
    intro o ho e he
    rcases ho.keys e he with h | h | ⟨⟨j, hj, h⟩, -⟩ | h
    · exact sourceKey_lt h
    · rw [h]; decide
    · rw [h]; exact action_lt ha hj
    · rw [h]; decide
  intro c hc
  refine ⟨?_, fun o ho => hout o ((hok c hc).outputs o ho), fun o ho => hout o.output ((hok c hc).commands o ho).1,
    fun e he => sourceKey_lt ((hok c hc).modifier e he).1⟩
  intro i hi e he
  rcases ((hok c hc).inputs i hi).1.keys e he with h | h | h
  · exact sourceKey_lt h
  · rw [h]; decide
  · rw [h]; decide

/-- **C35** What the replacement of the logical keys makes of a context: contexts which only consist
of filters and fall through to the last one, in which each mapping occurs with each combination of
alternatives of the logical keys which it demands, and nothing else. -/
theorem C35_all_combinations (ls : List LogicalKey) (hl : LogicalKeysOrdered ls) (c : CContext)
    (hc : OutputsExist c) :
    ∃ init last, ls.reverse.foldl replaceLogicalKey [c] = init ++ [last] ∧
      (∀ d ∈ init, d.fallthrough = true ∧ d.inputs = [] ∧ d.outputs = [] ∧ d.commandOutputs = []) ∧
      last.fallthrough = c.fallthrough ∧
      ∀ m', m' ∈ last.mappings ↔ ∃ m ∈ c.mappings, ∃ right, m' = choose right ls.reverse m := by
  obtain ⟨init, last, h1, h2, h3, -, -, h4⟩ := expandAll ls.reverse
    (fun l h => hl.distinct l (List.mem_reverse.1 h)) (List.pairwise_reverse.2 (hl.nodup.imp Ne.symm)) c hc
  exact ⟨init, last, h1, fun d hd => ⟨(h2 d hd).1, (h2 d hd).2, (h2 d hd).3, (h2 d hd).4⟩, h3, h4⟩

/-- **C35** For a mapping whose input consists of one key only, each of the alternatives of the key
has a mapping. -/
theorem C35_alternatives (ls : List LogicalKey) (hl : LogicalKeysOrdered ls) (c : CContext)
    (hc : OutputsExist c) (input : KeySequence) (t : Target) (hm : (input, t) ∈ c.mappings)
    (k k' : Key) (hk : ∀ e ∈ input, e.key = k ∧ e.state ≠ .Not) (ha : Alternative ls k k') :
    ∃ d ∈ ls.reverse.foldl replaceLogicalKey [c],
      ∃ t', (input.map (fun e => { e with key := k' }), t') ∈ d.mappings := by
  obtain ⟨init, last, h1, -, -, h4⟩ := C35_all_combinations ls hl c hc
  obtain ⟨right, hr⟩ := choose_alternative ls hl k k' ha
  refine ⟨last, by rw [h1]; simp, (choose right ls.reverse (input, t)).2, ?_⟩
  refine (h4 _).2 ⟨_, hm, right, ?_⟩
  rw [← hr input t hk]

/-- the logical keys of the examples: `Shift` and a user defined one for `Shift` and `CapsLock` -/
private def exLogical : List LogicalKey :=
  [⟨[], Key.first_logical, Key.ShiftLeft, Key.ShiftRight⟩,
   ⟨[], Key.first_logical + 1, Key.first_logical, Key.CapsLock⟩]

private theorem exLogical_ordered : LogicalKeysOrdered exLogical := by
  intro i l hi
  match i, hi with
  | 0, hi => injection hi with hi; rw [← hi]; exact ⟨rfl, by decide, by decide⟩
  | 1, hi => injection hi with hi; rw [← hi]; exact ⟨rfl, by decide, by decide⟩

-- a mapping for the second one is there for all three keys
example : ∃ c : CContext, OutputsExist c ∧
    ([⟨Key.first_logical + 1, .Down, 0⟩, ⟨Key.first_logical + 1, .UpAsync, 0⟩], .output []) ∈ c.mappings ∧
    Alternative exLogical (Key.first_logical + 1) Key.ShiftRight ∧
    Alternative exLogical (Key.first_logical + 1) Key.CapsLock := by
  refine ⟨⟨{}, {}, {}, {}, {}, [], [⟨[⟨Key.first_logical + 1, .Down, 0⟩, ⟨Key.first_logical + 1, .UpAsync, 0⟩], 0⟩],
    [[]], [], true, false, false, false⟩, ?_, by decide, ?_, ?_⟩
  · intro i hi _
    rw [List.mem_singleton.1 hi]
    decide
  · exact .left exLogical[1] _ (by decide) (.right exLogical[0] _ (by decide) (.same _ (by decide)))
  · exact .right exLogical[1] _ (by decide) (.same _ (by decide))

/-- **C35** The logical keys which the parser passes to the replacement are numbered from the first
one on, and their alternatives are keys defined before. Contexts are replaced one by one. -/
theorem C35_applies (env : CEnv) (text : Str) (s : CState)
    (h : CState.parseFile env 10 CState.init text = some s) :
    LogicalKeysOrdered s.logical ∧
    ∀ cs, s.logical.reverse.foldl replaceLogicalKey cs =
      cs.flatMap (fun c => s.logical.reverse.foldl replaceLogicalKey [c]) := by
  have hs := parseFile_steps _ h
  have hok : StateOk s := hs.inv (P := StateOk) (fun _ _ hst h => h.step hst) StateOk.init
  exact ⟨hok.ordered, replaceAll_flatMap _⟩

/-! ## C36 -/

/-- **C36** Each mapping of a parsed configuration refers to an output of its context or has the
number of a command; a context has at most one output for a command. -/
theorem C36_references (env : CEnv) (ht : TyperOk env) (text : Str) (config : Config)
    (h : parseConfig env text = some config) :
    ∀ c ∈ config.contexts,
      (∀ i ∈ c.inputs, 0 ≤ i.outputIndex → ∃ o, c.outputs[i.outputIndex.toNat]? = some o) ∧
      (∀ a ∈ c.commandOutputs, ∀ b ∈ c.commandOutputs, a.index = b.index → a = b) ∧
      (∀ a ∈ c.commandOutputs, a.index < 0) := by
  obtain ⟨nc, hok⟩ := parseConfig_ok ht h
  intro c hc
  refine ⟨?_, ?_, ?_⟩
  · intro i hi h0
    rcases ((hok c hc).inputs i hi).2 with ⟨h1, h2⟩ | ⟨j, -, h2⟩
    · exact ⟨_, List.getElem?_eq_getElem (by omega)⟩
    · omega
  · intro a ha b hb hab
    have hn := (hok c hc).nodup
    obtain ⟨i, hi, rfl⟩ := List.mem_iff_getElem.1 ha
    obtain ⟨j, hj, rfl⟩ := List.mem_iff_getElem.1 hb
    have := (List.getElem_inj (xs := c.commandOutputs.map (·.index)) (i := i) (j := j) (h₀ := by simpa using hi)
      (h₁ := by simpa using hj) hn).1 (by simpa using hab)
    subst this
    rfl
  · intro a ha
    obtain ⟨-, j, -, h1⟩ := (hok c hc).commands a ha
    omega

/-- **C36** Each command which an input is mapped to has an output in some context, unless unmapped
commands are allowed or some contexts are for other systems. -/
theorem C36_commands_mapped (env : CEnv) (ht : TyperOk env) (text : Str) (config : Config)
    (h : parseConfig env text = some config) (s : CState)
    (hs : CState.parseFile env 10 CState.init text = some s) (hu : s.allowUnmapped = false)
    (hsys : ∀ c ∈ s.cfg.contexts, c.systemFilterMatched = true) :
    ∀ c ∈ config.contexts, ∀ i ∈ c.inputs, i.outputIndex < 0 →
      ∃ d ∈ config.contexts, ∃ o ∈ d.commandOutputs, o.index = i.outputIndex := by
  have hst := parseFile_steps _ hs
  have hcfg : config.contexts = s.finishContexts ∧ ∀ c ∈ s.commands, c.mapped = true := by
    unfold parseConfig at h
    rw [hs] at h
    simp only at h
    split at h
    · cases h
    · next hm =>
      injection h with h
      subst h
      refine ⟨rfl, fun c hc => ?_⟩
      simp only [hu, Bool.not_false, Bool.true_and, List.any_eq_true, not_exists, not_and] at hm
      simpa using hm c hc
  obtain ⟨hc1, hm⟩ := hcfg
  have hok := finishContexts_ok ht hst
  have hcom := finishContexts_commands hst hsys
  have hso : StateOk s := hst.inv (P := StateOk) (fun _ _ hst h => h.step hst) StateOk.init
  rw [hc1]
  intro c hc i hi h0
  rcases ((hok c hc).inputs i hi).2 with ⟨h1, -⟩ | ⟨j, hj, h1⟩
  · omega
  · have hcj := hso.commands j _ (List.getElem?_eq_getElem hj)
    have hmem := List.getElem_mem hj
    obtain ⟨d, hd, hx⟩ := hcom _ hmem (hm _ hmem)
    obtain ⟨o, ho, hoi⟩ := List.mem_map.1 hx
    exact ⟨d, hd, o, ho, by rw [hoi, hcj, h1]⟩

-- the hypotheses hold for a configuration with a command
example : ∃ config s, parseConfig plainTyperEnv "A>>f\nf>>B".toList = some config ∧
    CState.parseFile plainTyperEnv 10 CState.init "A>>f\nf>>B".toList = some s ∧
    s.allowUnmapped = false ∧ (∀ c ∈ s.cfg.contexts, c.systemFilterMatched = true) ∧
    ∃ c ∈ config.contexts, ∃ i ∈ c.inputs, i.outputIndex < 0 := by
  have h1 : (CState.parseFile plainTyperEnv 10 CState.init "A>>f\nf>>B".toList).any (fun s =>
      s.allowUnmapped == false && s.cfg.contexts.all (·.systemFilterMatched) &&
      (parseConfig plainTyperEnv "A>>f\nf>>B".toList).any (fun config =>
        config.contexts.any (fun c => c.inputs.any (fun i => decide (i.outputIndex < 0))))) = true := by decide +kernel
  simp only [Option.any_eq_true, Bool.and_eq_true, beq_iff_eq, List.all_eq_true, List.any_eq_true,
    decide_eq_true_eq] at h1
  obtain ⟨s, hs, ⟨h2, h3⟩, config, hc, h4⟩ := h1
  exact ⟨config, s, hc, hs, h2, h3, h4⟩

/-- **C36** The condition on contexts for other systems is necessary: a command which is only mapped
in such a context is accepted, although it has no output. -/
theorem C36_other_system_counterexample :
    ∃ text config, parseConfig plainTyperEnv text = some config ∧
      ∃ c ∈ config.contexts, ∃ i ∈ c.inputs, i.outputIndex < 0 ∧
        ∀ d ∈ config.contexts, d.commandOutputs = [] := by
  have h : (parseConfig plainTyperEnv "A>>f\n[system=\"Windows\"]\nf>>B".toList).any (fun config =>
      config.contexts.any (fun c => c.inputs.any (fun i => decide (i.outputIndex < 0) &&
        config.contexts.all (fun d => d.commandOutputs.isEmpty)))) = true := by decide +kernel
  simp only [Option.any_eq_true, Bool.and_eq_true, List.all_eq_true, List.any_eq_true,
    decide_eq_true_eq, List.isEmpty_iff] at h
  obtain ⟨config, hc, c, h1, i, h2, h3, h4⟩ := h
  exact ⟨_, config, hc, c, h1, i, h2, h3, h4⟩

/-! ## C38 -/

theorem triggered_eq (actions : List Str) (o : KeySequence) :
    triggered actions o = (actionKeys o).map (fun i => actions[i]?) := by
  induction o with
  | nil => rfl
  | cons e o ih =>
    have h1 : triggered actions (e :: o) = triggered actions [e] ++ triggered actions o := by
      unfold triggered effectsOf
      rw [List.flatMap_cons, List.filterMap_append]
      simp
    have h2 : actionKeys (e :: o) = actionKeys [e] ++ actionKeys o := actionKeys_append [e] o
    rw [h1, h2, List.map_append, ih]
    congr 1
    unfold triggered effectsOf actionKeys actionOf
    rw [List.flatMap_singleton]
    unfold effectOf
    by_cases hk : 0xF200 ≤ e.key ∧ e.key ≤ 0xF2FF
    · rw [if_pos hk]
      by_cases hs : e.state = .Down
      · rw [if_pos hs]
        simp [hk.1, hk.2, hs]
      · rw [if_neg hs]
        simp [hs]
    · rw [if_neg hk]
      have : ¬(0xF200 ≤ e.key ∧ e.key ≤ 0xF2FF ∧ e.state = .Down) := fun h => hk ⟨h.1, h.2.1⟩
      simp only [List.filterMap_cons, this, if_false, List.filterMap_nil, List.map_nil]
      split
      · rfl
      · rfl

theorem ActionsOf.triggered {actions : List Str} {o : KeySequence} (h : ActionsOf actions o) :
    ∃ acts : List Str,
      (acts = [] ∨ ∃ (penv : PEnv) (text : Str) (l : KeySequence),
        penv.isInput = false ∧ parseSequence penv text = some (l, acts)) ∧
      KM.triggered actions o = acts.map some := by
  obtain ⟨acts, h1, base, h2, h3⟩ := h
  refine ⟨acts, h1, ?_⟩
  rw [triggered_eq, h2, List.map_map]
  refine List.ext_getElem? (fun n => ?_)
  rw [List.getElem?_map, List.getElem?_map]
  rcases Nat.lt_or_ge n acts.length with hn | hn
  · rw [List.getElem?_range hn, List.getElem?_eq_getElem hn]
    show some (actions[base + n]?) = _
    rw [h3 n hn, List.getElem?_eq_getElem hn]
    rfl
  · rw [List.getElem?_eq_none (by simpa using hn), List.getElem?_eq_none hn]
    rfl

/-- **C38** Sending an output expression runs exactly its terminal commands, in order, each once:
the list of all commands of the configuration contains the ones of the expressions before, then
these, and then the ones of the expressions after it. -/
theorem C38_expression (env : PEnv) (hi : env.isInput = false) (hs : KeySource env NoAction) (text : Str)
    (l : KeySequence) (acts before after : List Str) (h : parseSequence env text = some (l, acts))
    (hb : before.length = env.actionBase) (hl : before.length + acts.length ≤ 256) :
    triggered (before ++ acts ++ after) l = acts.map some := by
  have h1 := parseOutput_actions hi hs h (by omega)
  rw [triggered_eq, h1, List.map_map]
  refine List.ext_getElem? (fun n => ?_)
  rw [List.getElem?_map, List.getElem?_map]
  rcases Nat.lt_or_ge n acts.length with hn | hn
  · rw [List.getElem?_range hn, List.getElem?_eq_getElem hn]
    show some ((before ++ acts ++ after)[env.actionBase + n]?) = _
    rw [← hb, List.append_assoc, List.getElem?_append_right (Nat.le_add_right _ _), Nat.add_sub_cancel_left,
      List.getElem?_append_left hn, List.getElem?_eq_getElem hn]
    rfl
  · rw [List.getElem?_eq_none (by simpa using hn), List.getElem?_eq_none hn]
    rfl

-- two commands, with one of another expression before
example : KeySource { isInput := false, getKey := fun _ => Key.KeyA, typer := genericTyper, actionBase := 1 } NoAction ∧
    ∃ l, parseSequence { isInput := false, getKey := fun _ => Key.KeyA, typer := genericTyper, actionBase := 1 }
      "$(a b) A $(c)".toList = some (l, ["a b".toList, "c".toList]) := by
  refine ⟨⟨fun n _ => .inl (by show (30 : Nat) < _; decide), fun s l h t ht =>
    .inl (Nat.lt_of_lt_of_le (genericTyper_device s l h t ht).2 (by decide)), ?_, .inl (by decide), .inl (by decide)⟩,
    [⟨Key.first_action + 1, .Down, 0⟩, ⟨Key.KeyA, .Down, 0⟩, ⟨Key.KeyA, .Up, 0⟩, ⟨Key.first_action + 2, .Down, 0⟩],
    by decide +kernel⟩
  intro k hk
  rcases hk with rfl | rfl | rfl | rfl
  · exact .inr (by decide)
  · exact .inl (by decide)
  · exact .inl (by decide)
  · exact .inr (by decide)

/-- **C38** Each output of a parsed configuration with at most 256 terminal commands runs exactly the
terminal commands of the expression which it was parsed from. (The outputs of forwarded modifiers
run none.) -/
theorem C38_commands_identified (env : CEnv) (ht : TyperOk env) (text : Str) (config : Config)
    (h : parseConfig env text = some config) (hl : config.actions.length ≤ 256) (c : CContext)
    (hc : c ∈ config.contexts) (o : KeySequence)
    (ho : o ∈ c.outputs ∨ ∃ co ∈ c.commandOutputs, co.output = o) :
    ∃ acts : List Str,
      (acts = [] ∨ ∃ (penv : PEnv) (text : Str) (l : KeySequence),
        penv.isInput = false ∧ parseSequence penv text = some (l, acts)) ∧
      triggered config.actions o = acts.map some := by
  have h1 := parseConfig_actions ht h hl c hc
  rcases ho with ho | ⟨co, ho, rfl⟩
  · exact (h1.1 o ho).triggered
  · exact (h1.2 co ho).triggered

example : ∃ config, parseConfig plainTyperEnv "A>>$(a)\nB>>$(b)".toList = some config ∧
    config.actions = ["a".toList, "b".toList] := by
  have h : (parseConfig plainTyperEnv "A>>$(a)\nB>>$(b)".toList).any
      (fun c => c.actions == ["a".toList, "b".toList]) = true := by decide +kernel
  rw [Option.any_eq_true] at h
  obtain ⟨c, hc, h⟩ := h
  exact ⟨c, hc, eq_of_beq h⟩

/-! ## C54 -/

/-- the device filters are the same -/
theorem SameFilters.hasDeviceFilter {c d : CContext} (h : SameFilters c d) :
    (contextOf d).hasDeviceFilter = (contextOf c).hasDeviceFilter := by
  unfold Context.hasDeviceFilter contextOf
  rw [h.device, h.deviceId]

/-- A context as part of a stage, with its matching devices -/
def stageContext (bits : BitVec 64) (c : CContext) : Context := { contextOf c with matchingDeviceBits := bits }

/-- **C54** A context whose modifier filter contains logical keys: it is activated by its own
filters exactly when the client activated it, the device filter matches, and the modifiers are held,
where of a logical key one of the alternatives has to be held (or none when it is marked with `!`).
The filter must not be inverted as a whole. -/
theorem C54_modifier_filter (ls : List LogicalKey) (hl : LogicalKeysOrdered ls) (c : CContext)
    (hf : c.fallthrough = false) (hi : c.invertModifierFilter = false) (hc : OutputsExist c)
    (before after : List Context) (bits : BitVec 64)
    (hd : (contextOf c).hasDeviceFilter = true → bits ≠ 0)
    (seq : KeySequence) (client : List Nat) :
    let group := (ls.reverse.foldl replaceLogicalKey [c]).map (stageContext bits)
    let cs := before ++ group ++ after
    let j := before.length + (group.length - 1)
    (∀ i, before.length ≤ i → i ≤ j → i ∈ client) →
    (ActivatedWithin cs seq client before.length j ↔ LogicalModifiersHeld ls seq c.modifierFilter) := by
  intro group cs j hclient
  obtain ⟨init, last, h1, h2, h3, -⟩ := C35_all_combinations ls hl c hc
  have hsame := sameFilters_all ls.reverse c
  have hheld := held_all ls hl seq [c]
  simp only [List.mem_singleton, exists_eq_left] at hheld
  rw [hheld]
  have hg : group = init.map (stageContext bits) ++ [stageContext bits last] := by
    show List.map _ _ = _
    rw [h1, List.map_append, List.map_singleton]
  have hlen : group.length = init.length + 1 := by rw [hg]; simp
  have hj : j = before.length + init.length := by show _ + (_ - 1) = _; rw [hlen]; rfl
  have hget : ∀ m, m < group.length → cs[before.length + m]? = group[m]? := by
    intro m hm
    show (before ++ group ++ after)[_]? = _
    rw [List.append_assoc, List.getElem?_append_right (Nat.le_add_right _ _), Nat.add_sub_cancel_left,
      List.getElem?_append_left hm]
  have hgm : ∀ m, group[m]? = ((ls.reverse.foldl replaceLogicalKey [c])[m]?).map (stageContext bits) :=
    fun m => List.getElem?_map
  have hmatch : ∀ d ∈ ls.reverse.foldl replaceLogicalKey [c],
      (FiltersMatch seq (stageContext bits d) ↔ ModifiersHeld seq d.modifierFilter) := by
    intro d hd'
    have hs := hsame d hd'
    show ((ModifiersHeld seq d.modifierFilter ↔ d.invertModifierFilter = false) ∧
      ((contextOf d).hasDeviceFilter = true → bits ≠ 0)) ↔ _
    rw [hs.invert, hi, hs.hasDeviceFilter]
    simp only [iff_true]
    exact ⟨fun h => h.1, fun h => ⟨h, hd⟩⟩
  have hfalls : ∀ m, m ≤ init.length → FallsTo cs (before.length + m) j := by
    intro m hm
    refine ⟨by omega, ?_, ?_⟩
    · intro x hx1 hx2
      obtain ⟨y, rfl⟩ : ∃ y, x = before.length + y := ⟨x - before.length, by omega⟩
      have hy : y < init.length := by omega
      have hmem := h2 _ (List.getElem_mem hy)
      refine ⟨stageContext bits init[y], ?_, hmem.1⟩
      rw [hget y (by omega), hg, List.getElem?_append_left (by simpa using hy), List.getElem?_map,
        List.getElem?_eq_getElem hy]
      rfl
    · refine ⟨stageContext bits last, ?_, ?_⟩
      · rw [hj, hget _ (by omega), hg, List.getElem?_append_right (by simp)]
        simp
      · show last.fallthrough = false
        rw [h3, hf]
  constructor
  · rintro ⟨i, -, hi1, hi2, ctx, hctx, hfm, -⟩
    obtain ⟨m, rfl⟩ : ∃ m, i = before.length + m := ⟨i - before.length, by omega⟩
    have hm : m < group.length := by omega
    rw [hget m hm, hgm] at hctx
    cases hd' : (ls.reverse.foldl replaceLogicalKey [c])[m]? with
    | none => rw [hd'] at hctx; cases hctx
    | some d =>
      rw [hd'] at hctx
      injection hctx with hctx
      have hmem := List.mem_of_getElem? hd'
      refine ⟨d, hmem, (hmatch d hmem).1 ?_⟩
      rw [hctx]; exact hfm
  · rintro ⟨d, hd', hm'⟩
    obtain ⟨m, hm⟩ := List.mem_iff_getElem?.1 hd'
    have hlt : m < group.length := by
      have := (List.getElem?_eq_some_iff.1 hm).1
      show m < (List.map _ _).length
      rw [List.length_map]; exact this
    refine ⟨before.length + m, hclient _ (Nat.le_add_right _ _) (by omega), Nat.le_add_right _ _, by omega,
      stageContext bits d, ?_, (hmatch d hd').2 hm', hfalls m (by omega)⟩
    rw [hget m hlt, hgm, hm]
    rfl

-- with the second one in the filter, held means that one of three keys is
example : ∃ c : CContext, c.fallthrough = false ∧ c.invertModifierFilter = false ∧ OutputsExist c ∧
    LogicalModifiersHeld exLogical [⟨Key.ShiftRight, .DownMatched, 0⟩] c.modifierFilter ∧
    ¬LogicalModifiersHeld exLogical [⟨Key.KeyA, .DownMatched, 0⟩] c.modifierFilter ∧
    (exLogical.reverse.foldl replaceLogicalKey [c]).length = 3 := by
  have h0 : ∀ l ∈ exLogical, l.both ≠ Key.ShiftRight := by decide
  refine ⟨⟨{}, {}, {}, {}, {}, [⟨Key.first_logical + 1, .Down, 0⟩], [], [], [], true, false, false, false⟩,
    rfl, rfl, (fun i hi => by cases hi), ?_, ?_, by decide +kernel⟩
  · intro m hm
    rw [List.mem_singleton.1 hm]
    refine ⟨fun _ => by decide, fun _ => ⟨Key.ShiftRight, ?_, _, List.mem_singleton.2 rfl, rfl⟩⟩
    exact .left exLogical[1] _ (by decide) (.right exLogical[0] _ (by decide) (.same _ h0))
  · intro h
    obtain ⟨k, ha, e, he, hk⟩ := (h _ (List.mem_singleton.2 rfl)).2 (by decide)
    rw [List.mem_singleton.1 he] at hk
    subst hk
    have key : ∀ k, Alternative exLogical k Key.KeyA → k = Key.KeyA := by
      intro k ha
      generalize hA : Key.KeyA = a at ha
      induction ha with
      | same k h => rfl
      | left l k hl ha ih =>
        exfalso
        have := ih hA
        revert hl this; subst hA
        unfold exLogical
        intro hl this
        simp only [List.mem_cons, List.not_mem_nil, or_false] at hl
        rcases hl with rfl | rfl <;> exact absurd this (by decide)
      | right l k hl ha ih =>
        exfalso
        have := ih hA
        revert hl this; subst hA
        unfold exLogical
        intro hl this
        simp only [List.mem_cons, List.not_mem_nil, or_false] at hl
        rcases hl with rfl | rfl <;> exact absurd this (by decide)
    exact absurd (key _ ha) (by decide)

/-- **C54** The condition that the filter is not inverted is necessary: with `modifier != "Shift"` a
mapping is also active while one of the `Shift` keys is held. -/
theorem C54_inverted_counterexample :
    ∃ text config ops, parseConfig plainTyperEnv text = some config ∧
      text = "[modifier!=\"Shift\"]\nA>>B".toList ∧
      ops = [.contexts [0, 1], .input ⟨Key.ShiftLeft, .Down, 0⟩ 0, .input ⟨Key.KeyA, .Down, 0⟩ 0] ∧
      (stageRun (stageInit (config.contexts.map contextOf)) ops).2 =
        [⟨Key.ShiftLeft, .Down, 0⟩, ⟨Key.KeyB, .Down, 0⟩] := by
  have h : (parseConfig plainTyperEnv "[modifier!=\"Shift\"]\nA>>B".toList).any (fun config =>
      (stageRun (stageInit (config.contexts.map contextOf))
        [.contexts [0, 1], .input ⟨Key.ShiftLeft, .Down, 0⟩ 0, .input ⟨Key.KeyA, .Down, 0⟩ 0]).2 ==
        [⟨Key.ShiftLeft, .Down, 0⟩, ⟨Key.KeyB, .Down, 0⟩]) = true := by decide +kernel
  rw [Option.any_eq_true] at h
  obtain ⟨config, hc, h⟩ := h
  exact ⟨_, config, _, hc, rfl, rfl, eq_of_beq h⟩

/-! ## C03 for parsed configurations -/

/-- **C03** For each stage of a configuration which the parser accepts: a key which is down on the output keyboard is tracked,
unless one of the outputs holds this very key (or `Any`) over `^`. (For such a key it is false, see `C03_parsed_counterexample`.) -/
theorem C03_parsed (env : CEnv) (ht : TyperOk env) (text : Str) (config : Config)
    (h : parseConfig env text = some config) (stages : List (List Context))
    (hs : StagesOf config.contexts stages) (st : List Context) (hst : st ∈ stages)
    (ops : List StageOp) (hops : ∀ op ∈ ops, op.isRegular = true) (k : Key) (hk : k ≠ Key.timeout)
    (hh : ∀ j, j = k ∨ j = Key.any →
      ∀ c ∈ config.contexts, (∀ o ∈ c.outputs, ¬HeldOver j o) ∧ ∀ o ∈ c.commandOutputs, ¬HeldOver j o.output)
    (hd : heldAfter (stageRun (stageInit st) ops).2 k = true) :
    ∃ o ∈ (stageRun (stageInit st) ops).1.2.down, o.key = k ∧ o.temporarilyReleased = false := by
  obtain ⟨nc, hok⟩ := parseConfig_ok ht h
  refine C03_no_stuck_key st ops hops k hk ?_ hd
  have hmem : ∀ ctx ∈ st, ∃ c ∈ config.contexts, ctx = contextOf c := by
    intro ctx hctx
    have : ctx ∈ stages.flatten := List.mem_flatten.2 ⟨st, hst, hctx⟩
    rw [hs.flatten] at this
    obtain ⟨c, hc, rfl⟩ := List.mem_map.1 this
    exact ⟨c, hc, rfl⟩
  intro ctx hctx
  obtain ⟨c, hc, rfl⟩ := hmem ctx hctx
  exact ⟨fun o ho => C33_releases_own k o ((hok c hc).outputs o ho).balanced ((hh k (.inl rfl) c hc).1 o ho) ((hh _ (.inr rfl) c hc).1 o ho),
    fun o ho => C33_releases_own k o.output ((hok c hc).commands o ho).1.balanced ((hh k (.inl rfl) c hc).2 o ho) ((hh _ (.inr rfl) c hc).2 o ho)⟩

/-! ## C29 for parsed configurations -/

theorem modCurrent_grab (s : CState) (f : CContext → CContext) :
    (s.modCurrent f).cfg.grabDeviceFilters = s.cfg.grabDeviceFilters := by
  unfold CState.modCurrent
  split <;> rfl

theorem grab_step {env : CEnv} {s t : CState} (h : CStep env s t)
    (hs : ∀ f ∈ s.cfg.grabDeviceFilters, FilterOk f.toFilter) : ∀ f ∈ t.cfg.grabDeviceFilters, FilterOk f.toFilter := by
  cases h with
  | mapping s1 tin tout input output he hin hout =>
    obtain ⟨acts, -, rfl, -⟩ := parseOutput_state hout
    unfold CState.addMapping
    rw [modCurrent_grab]
    exact hs
  | command tin input name he hin hn hk =>
    unfold CState.addCommand
    split
    · rw [modCurrent_grab]; exact hs
    · rw [modCurrent_grab]; exact hs
  | commandMapping s1 _ tout name output he hout hm =>
    obtain ⟨acts, -, rfl, -⟩ := parseOutput_state hout
    obtain ⟨command, ctx, -, -, -, rfl⟩ := addCommandMapping_state hm
    show ∀ f ∈ (CState.modCurrent _ _).cfg.grabDeviceFilters, _
    rw [modCurrent_grab]
    exact hs
  | unmapped _ tout output hu hout =>
    obtain ⟨acts, -, rfl, -⟩ := parseOutput_state hout
    exact hs
  | context c hc => exact hs
  | logical name left right h1 h2 => exact hs
  | other _ hsame =>
    intro f hf
    rcases hsame.grab f hf with h1 | h1
    · exact hs f h1
    · exact h1

/-- **C29** The filters of a parsed configuration contain a regular expression exactly when their
string looks like one, so the server, which decides this by the string, gets the same filters. -/
theorem C29_parsed_filters (env : CEnv) (ht : TyperOk env) (text : Str) (config : Config)
    (h : parseConfig env text = some config) :
    (∀ f ∈ config.grabDeviceFilters, f.toFilter.isRegex = isRegexStr f.toFilter.string) ∧
    ∀ c ∈ config.contexts, c.deviceFilter.isRegex = isRegexStr c.deviceFilter.string ∧
      c.deviceIdFilter.isRegex = isRegexStr c.deviceIdFilter.string := by
  obtain ⟨nc, hok⟩ := parseConfig_ok ht h
  obtain ⟨s, hs, -, -, hg, -⟩ := parseConfig_state h
  refine ⟨?_, fun c hc => ⟨(hok c hc).filters.deviceFilter, (hok c hc).filters.deviceIdFilter⟩⟩
  rw [hg]
  exact hs.inv (P := fun s => ∀ f ∈ s.cfg.grabDeviceFilters, FilterOk f.toFilter)
    (fun _ _ hst h => grab_step hst h) (by intro f hf; cases hf)

example : ∃ config, parseConfig plainTyperEnv "@grab-device /a/\n[device=\"b\"]\nA>>B".toList = some config ∧
    config.grabDeviceFilters.map (·.toFilter.isRegex) = [true] ∧
    config.contexts.map (fun c => (c.deviceFilter.string, c.deviceFilter.isRegex)) = [("b".toList, false)] := by
  have h : (parseConfig plainTyperEnv "@grab-device /a/\n[device=\"b\"]\nA>>B".toList).any (fun config =>
      config.grabDeviceFilters.map (·.toFilter.isRegex) == [true] &&
      config.contexts.map (fun c => (c.deviceFilter.string, c.deviceFilter.isRegex)) == [("b".toList, false)]) = true := by
    decide +kernel
  rw [Option.any_eq_true] at h
  obtain ⟨config, hc, h⟩ := h
  rw [Bool.and_eq_true, beq_iff_eq, beq_iff_eq] at h
  exact ⟨config, hc, h.1, h.2⟩

end KM
