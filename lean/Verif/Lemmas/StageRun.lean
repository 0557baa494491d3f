import Verif.Spec.StageRun
import Verif.Lemmas.StageInv
/-!
# Invariants of histories of a stage
-/
namespace KM

/-- `Q` extended by what was emitted before the current operation -/
structure HistInv (G : KeySequence → Prop) (Q : KeySequence → S → Prop) : Prop where
  stage : ∀ c T, (∀ out, c.HasOutput out → G out) → StageInv c G (Q T)
  emit : ∀ T (s : S), Q T s → Q (T ++ s.buf) { s with buf := [] }

theorem hasOutput_evaluate {c : Cfg} {rx ds out} (h : (c.evaluateDeviceFilters rx ds).HasOutput out) :
    c.HasOutput out := by
  obtain ⟨ctx, hctx, h⟩ := h
  simp only [Cfg.evaluateDeviceFilters, List.mem_map] at hctx
  obtain ⟨ctx', hc', rfl⟩ := hctx
  exact ⟨ctx', hc', h⟩

theorem hasOutput_make {cs : List Context} {out} (h : (Cfg.make cs).HasOutput out) :
    ∃ ctx ∈ cs, out ∈ ctx.outputs ∨ ∃ o ∈ ctx.commandOutputs, o.output = out := by
  obtain ⟨ctx, hctx, h⟩ := h
  simp only [Cfg.make, List.mem_map] at hctx
  obtain ⟨ctx', hc', rfl⟩ := hctx
  refine ⟨ctx', hc', ?_⟩
  rcases h with h | ⟨o, ho, h⟩
  · exact Or.inl h
  · simp only [sortCommandOutputs, mem_sortBy] at ho
    exact Or.inr ⟨o, ho, h⟩

theorem stageStep_cfg (st : Cfg × S) (op : StageOp) :
    (stageStep st op).1.1 = st.1 ∨ ∃ rx ds, (stageStep st op).1.1 = st.1.evaluateDeviceFilters rx ds := by
  cases op with
  | devices rx ds => exact Or.inr ⟨rx, ds, rfl⟩
  | _ => exact Or.inl rfl

theorem stageStep_hasOutput {st : Cfg × S} {op : StageOp} {out}
    (h : (stageStep st op).1.1.HasOutput out) : st.1.HasOutput out := by
  rcases stageStep_cfg st op with h' | ⟨rx, ds, h'⟩
  · rw [h'] at h; exact h
  · rw [h'] at h; exact hasOutput_evaluate h

theorem HistInv.step {G Q} (H : HistInv G Q) {st : Cfg × S} {op : StageOp} {T}
    (hG : ∀ out, st.1.HasOutput out → G out)
    (hv : ∀ f, op = .validate f → ∀ T (s : S), Q T s → Q T (validateState s f))
    (hq : Q T st.2) (hb : st.2.buf = []) :
    Q (T ++ (stageStep st op).2) (stageStep st op).1.2 ∧ (stageStep st op).1.2.buf = [] := by
  cases op with
  | input ev dev =>
    refine ⟨?_, rfl⟩
    have h := (H.stage st.1 T hG).update (ev := ev) (dev := dev) hq
    exact H.emit _ _ h
  | contexts l =>
    refine ⟨?_, rfl⟩
    have h := (H.stage st.1 T hG).setActiveClientContexts l hq
    exact H.emit _ _ h
  | devices rx ds => exact ⟨by simpa [stageStep] using hq, hb⟩
  | validate f => exact ⟨by simpa [stageStep] using hv f rfl T st.2 hq, hb⟩

theorem HistInv.run {G Q} (H : HistInv G Q) {ops : List StageOp}
    (hv : ∀ f, StageOp.validate f ∈ ops → ∀ T (s : S), Q T s → Q T (validateState s f))
    {st : Cfg × S} {T} (hG : ∀ out, st.1.HasOutput out → G out)
    (hq : Q T st.2) (hb : st.2.buf = []) :
    Q (T ++ (stageRun st ops).2) (stageRun st ops).1.2 ∧ (stageRun st ops).1.2.buf = [] := by
  induction ops generalizing st T with
  | nil => exact ⟨by simpa [stageRun] using hq, hb⟩
  | cons op ops ih =>
    have h := H.step (op := op) hG (fun f hf => hv f (by simp [hf])) hq hb
    have := ih (fun f hf => hv f (by simp [hf])) (st := (stageStep st op).1)
      (fun out ho => hG out (stageStep_hasOutput ho)) h.1 h.2
    simpa [stageRun] using this

end KM
