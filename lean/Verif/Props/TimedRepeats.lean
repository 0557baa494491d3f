import Verif.Lemmas.TimedRepeat
import Verif.Props.Timed
/-!
# A key which is held is repeated

**C80** What the repeats of a key do, the mapping of which requires that it is held for some time.
-/
namespace KM

theorem timed_after {tcs : List (List TimedMapping)} {c : Cfg} (h : TimedCfg tcs c) (ops : List StageOp) {st : TimedState} {s : S} (hi : TimedInv tcs st s)
    (ha : st.acceptsAll tcs ops) : ∃ s', TimedInv tcs (st.after tcs ops) s' ∧
      ∀ rest, stageOutputs (c, s) (ops ++ rest) = st.outputs tcs ops ++ stageOutputs (c, s') rest := by
  induction ops generalizing st s with
  | nil => exact ⟨s, hi, fun _ => rfl⟩
  | cons op ops ih =>
    obtain ⟨s1, h1, h2⟩ := timed_step h hi ha.1
    obtain ⟨s', h3, h4⟩ := ih h2 ha.2
    refine ⟨s', h3, fun rest => ?_⟩
    rw [List.cons_append, stageOutputs, h1, TimedState.outputs, h4]
    rfl

/-- **C80** A key is held which has a mapping like `A{500ms} >> X`, and the keyboard repeats it: after any history which ends with all keys released, when the
time passed, then the mapping is applied. For each further repeat it is asked again how much time passes until the next event. Whenever it is the time
of the mapping, then its output is repeated. When it is less (because another event came first, as the release of the key), then nothing is output: no other mapping
of the key is applied, also when it requires less time, and the key itself is not output either. What was pressed stays pressed, and whatever follows is output exactly as after the
press of the key alone. -/
theorem C80_repeats (tcs : List (List TimedMapping)) (hv : ∀ tc ∈ tcs, ∀ m ∈ tc, m.Valid) (pre rest : List StageOp) (ha : TimedState.acceptsAll tcs {} pre)
    (st : TimedState) (hst : st = TimedState.after tcs {} pre) (hidle : st.waiting = .idle) (hheld : st.held = [])
    (k : Key) (hk : isDeviceKey k = true) (t : Nat) (out : KeySequence)
    (hm : (mappingsInUse tcs st.current).find? (fun m => m.key == k) = some ⟨k, .hold t, out⟩)
    (htap : ∀ m ∈ mappingsInUse tcs st.current, m.key = k → m.isTap = false) (v : Nat) (hvt : t ≤ v) (ws : List Nat) (dev : Int) (hd : ValidDevice dev)
    (hrest : TimedState.acceptsAll tcs { st with held := [k], outs := pressAll st.outs k out } rest) :
    stageOutputs (stageInit (tcs.map timedContext)) (pre ++ ([.input ⟨k, .Down, 0⟩ dev, .input ⟨Key.timeout, .Up, v⟩ dev] ++ (repeats k dev ws ++ rest))) =
      TimedState.outputs tcs {} pre ++ ([[⟨Key.timeout, .Up, t⟩], out] ++ (repeated t out ws ++
        TimedState.outputs tcs { st with held := [k], outs := pressAll st.outs k out } rest)) := by
  have hcfg := timedCfg_make hv
  obtain ⟨s1, h1, h2⟩ := timed_after hcfg pre (timed_init tcs) ha
  rw [← hst] at h1
  obtain ⟨s2, h3, h4⟩ := held_repeats hcfg h1 hidle hheld hd hk hm htap hvt ws
  have h5 := timed_run hcfg rest h3 hrest
  rw [show stageInit (tcs.map timedContext) = (Cfg.make (tcs.map timedContext), {}) from rfl, h2]
  show _ ++ stageOutputs _ (.input ⟨k, .Down, 0⟩ dev :: .input ⟨Key.timeout, .Up, v⟩ dev :: (repeats k dev ws ++ rest)) = _
  rw [h4, h5]
  rfl

/-- the mappings `A{2000ms} >> X`, `A{1000ms} >> Y`, `A >> Z` -/
private def switchMappings : List (List TimedMapping) :=
  [[⟨Key.KeyA, .hold 2000, [⟨Key.KeyX, .Down, 0⟩]⟩, ⟨Key.KeyA, .hold 1000, [⟨Key.KeyY, .Down, 0⟩]⟩, ⟨Key.KeyA, .press, [⟨Key.KeyZ, .Down, 0⟩]⟩]]

/-- `A` is held for 2 seconds, repeated for 2 seconds, for 1.5 seconds, and released -/
example : stageOutputs (stageInit (switchMappings.map timedContext))
    ([.contexts [0]] ++ ([.input ⟨Key.KeyA, .Down, 0⟩ 0, .input ⟨Key.timeout, .Up, 2000⟩ 0] ++ (repeats Key.KeyA 0 [2000, 1500] ++ [.input ⟨Key.KeyA, .Up, 0⟩ 0]))) =
    [[], [⟨Key.timeout, .Up, 2000⟩], [⟨Key.KeyX, .Down, 0⟩], [⟨Key.timeout, .Up, 2000⟩], [⟨Key.KeyX, .Down, 0⟩], [⟨Key.timeout, .Up, 2000⟩], [],
      [⟨Key.KeyX, .Up, 0⟩]] :=
  (C80_repeats switchMappings (by
      intro tc htc m hm
      simp only [switchMappings, List.mem_singleton] at htc
      subst htc
      simp only [List.mem_cons, List.not_mem_nil, or_false] at hm
      rcases hm with rfl | rfl | rfl <;> refine ⟨by decide, ?_⟩ <;> intro e he <;> rw [List.mem_singleton] at he <;> rw [he] <;> exact ⟨rfl, by decide, by decide⟩)
    [.contexts [0]] [.input ⟨Key.KeyA, .Up, 0⟩ 0] ⟨⟨rfl, by simp, by simp [switchMappings]⟩, trivial⟩ _ rfl rfl rfl Key.KeyA (by decide) 2000 [⟨Key.KeyX, .Down, 0⟩]
    (by decide +kernel) (by decide +kernel) 2000 (Nat.le_refl _) [2000, 1500] 0 (by unfold ValidDevice; decide)
    ⟨⟨by unfold ValidDevice; decide, Or.inr ⟨Key.KeyA, by decide, rfl⟩⟩, trivial⟩).trans (by decide +kernel)

end KM
