import Verif.Lemmas.TimedRun
import Verif.Model.ParseConfig
/-!
# Keys which are held or tapped

**C80** What the mappings `A >> X`, `A{500ms} >> X` and `A{!500ms} >> X` do.
-/
namespace KM

theorem timedCfg_make {tcs : List (List TimedMapping)} (hv : ∀ tc ∈ tcs, ∀ m ∈ tc, m.Valid) : TimedCfg tcs (Cfg.make (tcs.map timedContext)) := by
  have hmap : ∀ l : List (List TimedMapping), (l.map timedContext).map (fun c => { c with commandOutputs := sortCommandOutputs c.commandOutputs }) =
      l.map timedContext := by
    intro l
    rw [List.map_map]
    rfl
  refine ⟨hmap tcs, ?_, hv⟩
  show ctxsHaveNoMightMatch ((tcs.map timedContext).map _) = false
  rw [hmap]
  unfold ctxsHaveNoMightMatch
  rw [List.any_eq_false]
  intro ctx hc
  obtain ⟨tc, _, h2⟩ := List.mem_map.1 hc
  subst h2
  rw [Bool.not_eq_true, List.any_eq_false]
  intro m hm
  unfold timedContext at hm
  obtain ⟨p, _, h4⟩ := List.mem_map.1 hm
  rw [← h4]
  show ¬ isNoMightMatch p.1.input = true
  unfold TimedMapping.input
  split <;> simp [isNoMightMatch]

theorem timed_step {tcs : List (List TimedMapping)} {c : Cfg} (h : TimedCfg tcs c) {st : TimedState} {s : S} (hi : TimedInv tcs st s) {op : StageOp}
    (ha : st.accepts tcs op) : ∃ s', stageStep (c, s) op = ((c, s'), (st.step tcs op).2) ∧ TimedInv tcs (st.step tcs op).1 s' := by
  cases op with
  | contexts l =>
    obtain ⟨hw, hl1, hl2⟩ := ha
    obtain ⟨h1, h2⟩ := step_contexts h hi hw ⟨hl1, hl2⟩
    refine ⟨(setActiveClientContexts c s l).1, ?_, h1⟩
    show ((c, (setActiveClientContexts c s l).1), (setActiveClientContexts c s l).2) = _
    rw [h2]; rfl
  | devices rx ds => exact ha.elim
  | validate f => exact ha.elim
  | input ev dev =>
    have hout : ∀ r : TimedState × KeySequence, TimedInv tcs r.1 (update c s ev dev).1 ∧ (update c s ev dev).2 = r.2 →
        (st.step tcs (.input ev dev)) = r →
        ∃ s', stageStep (c, s) (.input ev dev) = ((c, s'), (st.step tcs (.input ev dev)).2) ∧ TimedInv tcs (st.step tcs (.input ev dev)).1 s' := by
      intro r h1 h2
      refine ⟨(update c s ev dev).1, ?_, by rw [h2]; exact h1.1⟩
      show ((c, (update c s ev dev).1), (update c s ev dev).2) = _
      rw [h1.2, h2]
    obtain ⟨hd, ha⟩ := ha
    cases hw : st.waiting with
    | idle =>
      simp only [hw] at ha
      rcases ha with ⟨k, rfl, h1, h2, h3⟩ | ⟨k, h1, rfl⟩
      · refine hout _ (step_press h hi hw hd h1 h2 h3) ?_
        unfold TimedState.step
        simp only [hw, if_true]
      · refine hout _ (step_release h hi hw hd h1) ?_
        unfold TimedState.step
        simp only [hw, reduceCtorEq, if_false]
    | answer k =>
      simp only [hw] at ha
      obtain ⟨v, rfl⟩ := ha
      refine hout _ (step_elapse h hi hw hd v) ?_
      unfold TimedState.step
      simp only [hw]
    | undecided k v =>
      simp only [hw] at ha
      rcases ha with ⟨x, rfl, h1, h2, h3⟩ | ⟨x, h1, rfl⟩
      · refine hout _ (step_interrupted h hi hw hd h1 h2 h3) ?_
        unfold TimedState.step
        simp only [hw, if_true]
      · by_cases hxk : x = k
        · subst hxk
          refine hout _ (step_tapped h hi hw hd) ?_
          unfold TimedState.step
          simp only [hw, reduceCtorEq, if_false, if_true]
        · refine hout _ (step_interruptedUp h hi hw hd h1 hxk) ?_
          unfold TimedState.step
          simp only [hw, reduceCtorEq, if_false, hxk]

theorem timed_run {tcs : List (List TimedMapping)} {c : Cfg} (h : TimedCfg tcs c) (ops : List StageOp) {st : TimedState} {s : S} (hi : TimedInv tcs st s)
    (ha : st.acceptsAll tcs ops) : stageOutputs (c, s) ops = st.outputs tcs ops := by
  induction ops generalizing st s with
  | nil => rfl
  | cons op ops ih =>
    obtain ⟨s', h1, h2⟩ := timed_step h hi ha.1
    rw [stageOutputs, h1, TimedState.outputs, ih h2 ha.2]

theorem timed_init (tcs : List (List TimedMapping)) : TimedInv tcs {} {} :=
  ⟨⟨List.Pairwise.nil, fun _ h => (by cases h)⟩, List.nodup_nil, fun _ h => (by cases h),
    ⟨[], none, fun _ h => (by cases h), rfl, ⟨rfl, rfl, rfl, rfl, rfl, rfl, rfl, rfl, fun _ h => (by cases h), rfl, rfl, fun _ h => (by cases h)⟩,
      fun _ h => (by cases h)⟩⟩

/-- **C80** Holding and tapping keys: for a configuration the mappings of which are for keys which are pressed, held for some time or released within
some time, and for each history of presses and releases of keys, of elapsed times (which are input, when they were asked for) and
of changes of the active contexts, the output for each of the events is exactly the one of the specification. When a key is pressed the first mapping
for it decides: either the output is immediate, or it is asked how much time passes until the next event. Then the first mapping which fits
is applied (or the key itself is output), where a mapping for a tap also requires that the next event is the release of the key, otherwise it is the first
other mapping which fits. What a mapping pressed is released with its key. -/
theorem C80_held_and_tapped (tcs : List (List TimedMapping)) (hv : ∀ tc ∈ tcs, ∀ m ∈ tc, m.Valid) (ops : List StageOp)
    (ha : TimedState.acceptsAll tcs {} ops) : stageOutputs (stageInit (tcs.map timedContext)) ops = TimedState.outputs tcs {} ops :=
  timed_run (timedCfg_make hv) ops (timed_init tcs) ha

/-! ### keys with two functions -/

/-- the keys which a sequence leaves pressed, released in reverse order -/
def releasesAfter (k : Key) (out : KeySequence) : KeySequence := (pressAll [] k out).reverse.map (fun o => ⟨o.1, .Up, 0⟩)

theorem pressAll_cause {k : Key} (out : KeySequence) : ∀ o ∈ pressAll [] k out, o.2 = k := by
  intro o ho
  rcases pressAll_causes out o ho with h | h
  · cases h
  · exact h

theorem release_all {l : List (Key × Key)} {k : Key} (h : ∀ o ∈ l, o.2 = k) : l.filter (fun o => o.2 == k) = l := by
  rw [List.filter_eq_self]
  intro o ho
  simpa using h o ho

theorem find_filter {α : Type} (l : List α) (p q : α → Bool) : l.find? (fun a => p a && q a) = (l.filter p).find? q := by
  induction l with
  | nil => rfl
  | cons a l ih => 
    rw [List.find?_cons, List.filter_cons]
    cases hp : p a with
    | true => simp only [Bool.true_and, if_true, List.find?_cons]; rw [ih]
    | false => simp only [Bool.false_and, Bool.false_eq_true, if_false]; exact ih

/-- **C80** A key with two functions, like `A{!200ms} >> X` followed by `A >> Y`: when it is tapped, then `X` is output as soon as it is released. Otherwise `Y` is
output, as soon as the time has passed or as soon as another key is pressed, and `Y` is held until the key is released. -/
theorem C80_two_functions (tcs : List (List TimedMapping)) (hv : ∀ tc ∈ tcs, ∀ m ∈ tc, m.Valid) (l : List Nat) (hl : l.Pairwise (· < ·)) (hlt : ∀ i ∈ l, i < tcs.length)
    (k : Key) (hk : isDeviceKey k = true) (t : Nat) (X Y : KeySequence)
    (hms : (mappingsInUse tcs l).filter (fun m => m.key == k) = [⟨k, .tap t, X⟩, ⟨k, .press, Y⟩]) (v : Nat) (dev : Int) (hd : ValidDevice dev) :
    (v < t → stageOutputs (stageInit (tcs.map timedContext)) [.contexts l, .input ⟨k, .Down, 0⟩ dev, .input ⟨Key.timeout, .Up, v⟩ dev, .input ⟨k, .Up, 0⟩ dev] =
      [[], [⟨Key.timeout, .NotTimeout_cancel_on_up_down, t⟩], [], X ++ releasesAfter k X]) ∧
    (t ≤ v → stageOutputs (stageInit (tcs.map timedContext)) [.contexts l, .input ⟨k, .Down, 0⟩ dev, .input ⟨Key.timeout, .Up, v⟩ dev, .input ⟨k, .Up, 0⟩ dev] =
      [[], [⟨Key.timeout, .NotTimeout_cancel_on_up_down, t⟩], Y, releasesAfter k Y]) ∧
    (v < t → ∀ x, isDeviceKey x = true → x ≠ k → (∀ m ∈ mappingsInUse tcs l, m.key ≠ x) → stageOutputs (stageInit (tcs.map timedContext))
      [.contexts l, .input ⟨k, .Down, 0⟩ dev, .input ⟨Key.timeout, .Up, v⟩ dev, .input ⟨x, .Down, 0⟩ dev] =
      [[], [⟨Key.timeout, .NotTimeout_cancel_on_up_down, t⟩], [], Y ++ [⟨x, .Down, 0⟩]]) := by
  have hf0 : (mappingsInUse tcs l).find? (fun m => m.key == k) = some ⟨k, .tap t, X⟩ := by
    have := find_filter (mappingsInUse tcs l) (fun m => m.key == k) (fun _ => true)
    simp only [Bool.and_true] at this
    rw [this, hms]; rfl
  have hf1 : v < t → (mappingsInUse tcs l).find? (fun m => m.key == k && m.fits v) = some ⟨k, .tap t, X⟩ := by
    intro h
    rw [find_filter, hms]
    simp [TimedMapping.fits, h]
  have hf2 : t ≤ v → (mappingsInUse tcs l).find? (fun m => m.key == k && m.fits v) = some ⟨k, .press, Y⟩ := by
    intro h
    rw [find_filter, hms]
    have : ¬ v < t := by omega
    simp [TimedMapping.fits, this]
  have hf3 : (mappingsInUse tcs l).find? (fun m => m.key == k && (m.fits v && !m.isTap)) = some ⟨k, .press, Y⟩ := by
    rw [find_filter, hms]
    simp [TimedMapping.fits, TimedMapping.isTap]
  have htt : (⟨k, .tap t, X⟩ : TimedMapping).isTap = true := rfl
  have hrel : ∀ o : KeySequence, (pressAll [] k o).filter (fun p => p.2 == k) = pressAll [] k o := fun o => release_all (pressAll_cause o)
  refine ⟨fun h => ?_, fun h => ?_, fun h x hx hxk hxm => ?_⟩
  · rw [C80_held_and_tapped tcs hv]
    · simp [TimedState.outputs, TimedState.step, TimedState.press, hf0, TimedMapping.asks, TimedState.elapse, hf1 h, TimedMapping.isTap, TimedState.tapped,
        TimedState.replace, TimedState.put, TimedState.release, hrel, releasesAfter]
    · refine ⟨⟨rfl, hl, hlt⟩, ⟨hd, Or.inl ⟨k, rfl, hk, by simp [TimedState.step], by simp [TimedState.step]⟩⟩, ⟨hd, ?_⟩, ⟨hd, ?_⟩, trivial⟩
      · simp [TimedState.step, TimedState.press, hf0, TimedMapping.asks]
      · simp [TimedState.step, TimedState.press, hf0, TimedMapping.asks, TimedState.elapse, hf1 h, TimedMapping.isTap]
  · rw [C80_held_and_tapped tcs hv]
    · simp [TimedState.outputs, TimedState.step, TimedState.press, hf0, TimedMapping.asks, TimedState.elapse, hf2 h, TimedMapping.isTap,
        TimedState.replace, TimedState.put, TimedState.release, hrel, releasesAfter]
    · refine ⟨⟨rfl, hl, hlt⟩, ⟨hd, Or.inl ⟨k, rfl, hk, by simp [TimedState.step], by simp [TimedState.step]⟩⟩, ⟨hd, ?_⟩, ⟨hd, ?_⟩, trivial⟩
      · simp [TimedState.step, TimedState.press, hf0, TimedMapping.asks]
      · simp [TimedState.step, TimedState.press, hf0, TimedMapping.asks, TimedState.elapse, hf2 h, TimedMapping.isTap, TimedState.replace, TimedState.put]
  · have hfx : (mappingsInUse tcs l).find? (fun m => m.key == x) = none := by
      rw [List.find?_eq_none]
      intro m hm
      simpa using hxm m hm
    have hun : isTimed (mappingsInUse tcs l) x = false := by
      unfold isTimed
      rw [List.any_eq_false]
      intro m hm
      simp [hxm m hm]
    rw [C80_held_and_tapped tcs hv]
    · simp [TimedState.outputs, TimedState.step, TimedState.press, hf0, TimedMapping.asks, TimedState.elapse, hf1 h, htt, TimedState.interrupted,
        TimedState.replace, TimedState.put, hf3, hfx]
    · refine ⟨⟨rfl, hl, hlt⟩, ⟨hd, Or.inl ⟨k, rfl, hk, by simp [TimedState.step], by simp [TimedState.step]⟩⟩, ⟨hd, ?_⟩, ⟨hd, ?_⟩, trivial⟩
      · simp [TimedState.step, TimedState.press, hf0, TimedMapping.asks]
      · simp [TimedState.step, TimedState.press, hf0, TimedMapping.asks, TimedState.elapse, hf1 h, TimedMapping.isTap, hun, hx, hxk]

/-! ### examples -/

section TimedExample

/-- the mappings `A{!200ms} >> X`, `A >> Y`, `B{500ms} >> Z`, `C >> V` -/
private def sampleMappings : List (List TimedMapping) :=
  [[⟨Key.KeyA, .tap 200, [⟨Key.KeyX, .Down, 0⟩]⟩, ⟨Key.KeyA, .press, [⟨Key.KeyY, .Down, 0⟩]⟩, ⟨Key.KeyB, .hold 500, [⟨Key.KeyZ, .Down, 0⟩]⟩,
    ⟨Key.KeyC, .press, [⟨Key.KeyV, .Down, 0⟩]⟩]]

private theorem sample_valid : ∀ tc ∈ sampleMappings, ∀ m ∈ tc, m.Valid := by
  intro tc htc m hm
  simp only [sampleMappings, List.mem_singleton] at htc
  subst htc
  simp only [List.mem_cons, List.not_mem_nil, or_false] at hm
  rcases hm with rfl | rfl | rfl | rfl <;> refine ⟨by decide, ?_⟩ <;> intro e he <;> rw [List.mem_singleton] at he <;> rw [he] <;> exact ⟨rfl, by decide, by decide⟩

/-- These are what the parser makes of the configuration. -/
example : (parseConfig { typer := genericTyper, validRegex := fun _ => true, files := fun _ => none }
      "A{!200ms} >> X\nA >> Y\nB{500ms} >> Z\nC >> V".toList).map (fun c => c.contexts.map (fun x => (x.inputs, x.outputs))) =
    some (sampleMappings.map (fun tc => ((timedContext tc).inputs, (timedContext tc).outputs))) := by decide +kernel

/-- While `C` is held, `A` is pressed, and `C` is released before `A`: that is no tap. Then `A` is tapped, and `B` is held for some time. -/
private def sampleOps : List StageOp :=
  [.contexts [0], .input ⟨Key.KeyC, .Down, 0⟩ 0, .input ⟨Key.KeyA, .Down, 0⟩ 0, .input ⟨Key.timeout, .Up, 100⟩ 0, .input ⟨Key.KeyC, .Up, 0⟩ 0, .input ⟨Key.KeyA, .Up, 0⟩ 0,
    .input ⟨Key.KeyA, .Down, 0⟩ 0, .input ⟨Key.timeout, .Up, 199⟩ 0, .input ⟨Key.KeyA, .Up, 0⟩ 0,
    .input ⟨Key.KeyB, .Down, 0⟩ 0, .input ⟨Key.timeout, .Up, 500⟩ 0, .input ⟨Key.KeyD, .Down, 0⟩ 0, .input ⟨Key.KeyB, .Up, 0⟩ 0]

private theorem sample_accepted : TimedState.acceptsAll sampleMappings {} sampleOps := by
  have h1 : ValidDevice 0 := by unfold ValidDevice; decide
  refine ⟨⟨rfl, by simp, by simp [sampleMappings]⟩, ⟨h1, Or.inl ⟨Key.KeyC, rfl, by decide, by decide, by decide⟩⟩,
    ⟨h1, Or.inl ⟨Key.KeyA, rfl, by decide, by decide, by decide⟩⟩, ⟨h1, ⟨100, rfl⟩⟩, ⟨h1, Or.inr ⟨Key.KeyC, by decide, rfl⟩⟩, ⟨h1, Or.inr ⟨Key.KeyA, by decide, rfl⟩⟩,
    ⟨h1, Or.inl ⟨Key.KeyA, rfl, by decide, by decide, by decide⟩⟩, ⟨h1, ⟨199, rfl⟩⟩, ⟨h1, Or.inr ⟨Key.KeyA, by decide, rfl⟩⟩,
    ⟨h1, Or.inl ⟨Key.KeyB, rfl, by decide, by decide, by decide⟩⟩, ⟨h1, ⟨500, rfl⟩⟩, ⟨h1, Or.inl ⟨Key.KeyD, rfl, by decide, by decide, by decide⟩⟩,
    ⟨h1, Or.inr ⟨Key.KeyB, by decide, rfl⟩⟩, trivial⟩

example : stageOutputs (stageInit (sampleMappings.map timedContext)) sampleOps =
    [[], [⟨Key.KeyV, .Down, 0⟩], [⟨Key.timeout, .NotTimeout_cancel_on_up_down, 200⟩], [], [⟨Key.KeyY, .Down, 0⟩, ⟨Key.KeyV, .Up, 0⟩], [⟨Key.KeyY, .Up, 0⟩],
      [⟨Key.timeout, .NotTimeout_cancel_on_up_down, 200⟩], [], [⟨Key.KeyX, .Down, 0⟩, ⟨Key.KeyX, .Up, 0⟩],
      [⟨Key.timeout, .Up, 500⟩], [⟨Key.KeyZ, .Down, 0⟩], [⟨Key.KeyD, .Down, 0⟩], [⟨Key.KeyZ, .Up, 0⟩]] :=
  (C80_held_and_tapped sampleMappings sample_valid sampleOps sample_accepted).trans (by decide +kernel)

end TimedExample

/-- the mappings `A{500ms} >> X`, `B{1000ms} >> Y` -/
private def twoHolds : List (List TimedMapping) := [[⟨Key.KeyA, .hold 500, [⟨Key.KeyX, .Down, 0⟩]⟩, ⟨Key.KeyB, .hold 1000, [⟨Key.KeyY, .Down, 0⟩]⟩]]

/-- The restriction that a key with mappings depending on time is not pressed while another one is held, is necessary: `A` was not held long enough when `C` was pressed,
so it was output as it is. But when `B` is held for 700 milliseconds, then not only `B`, also the output `X` of the mapping of `A` is output. -/
theorem C80_two_held_counterexample :
    stageOutputs (stageInit (twoHolds.map timedContext)) [.contexts [0], .input ⟨Key.KeyA, .Down, 0⟩ 0, .input ⟨Key.timeout, .Up, 100⟩ 0, .input ⟨Key.KeyC, .Down, 0⟩ 0,
      .input ⟨Key.KeyB, .Down, 0⟩ 0, .input ⟨Key.timeout, .Up, 700⟩ 0] =
    [[], [⟨Key.timeout, .Up, 500⟩], [⟨Key.KeyA, .Down, 0⟩], [⟨Key.KeyC, .Down, 0⟩], [⟨Key.timeout, .Up, 1000⟩], [⟨Key.KeyB, .Down, 0⟩, ⟨Key.KeyX, .Down, 0⟩]] := by
  decide +kernel

end KM
