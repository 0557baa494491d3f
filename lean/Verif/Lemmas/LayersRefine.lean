import Verif.Lemmas.Layers
/-!
# Virtual keys with a specification of the mappings

When a stage does what a specification of its mappings says, then virtual keys can be understood with the specification instead of the stage.
-/
namespace KM

/-- a specification of the mappings, which outputs something that is described -/
structure Refinement {τ : Type} (step : τ → StageOp → τ × KeySequence) (allowed : StageOp → Prop) (R : Cfg × S → τ → Prop) : Prop where
  run : ∀ p t op, R p t → allowed op → R (stageStep p op).1 (step t op).1 ∧ (stageStep p op).2 = (step t op).2 ∧
    (∀ e ∈ (step t op).2, Immediate e) ∧ (step t op).2.countP toggles ≤ 9
  virtual : ∀ p t v st, isVirtualKey v = true → st = .Down ∨ st = .Up → R p t → allowed (.input ⟨v, st, 0⟩ anyDeviceIndex) ∧
    ∀ e ∈ (step t (.input ⟨v, st, 0⟩ anyDeviceIndex)).2, isVirtualKey e.key = false

/-- the operations which are allowed -/
def LayerOp.allowed (allowed : StageOp → Prop) : LayerOp → Prop
  | .keys op => allowed op
  | .set v _ => isVirtualKey v = true

/-- the stage and its specification, with the same virtual keys on -/
structure SameLayers {τ : Type} (R : Cfg × S → τ → Prop) (l : Layers (Cfg × S)) (l' : Layers τ) : Prop where
  inv : R l.keys l'.keys
  on : l.on = l'.on

section
variable {τ : Type} {step : τ → StageOp → τ × KeySequence} {allowed : StageOp → Prop} {R : Cfg × S → τ → Prop} (hR : Refinement step allowed R)
include hR

theorem toggle_same {l : Layers (Cfg × S)} {l' : Layers τ} (h : SameLayers R l l') {v : Key} (hv : isVirtualKey v = true) :
    SameLayers R (l.toggle stageStep v).1 (l'.toggle step v).1 ∧ (l.toggle stageStep v).2 = (l'.toggle step v).2 ∧
      l.toggled v = l'.toggled v ∧ (∀ e ∈ (l'.toggle step v).2, Immediate e ∧ isVirtualKey e.key = false) := by
  have htg : l.toggled v = l'.toggled v := by unfold Layers.toggled; rw [h.on]
  have hst : l'.toggled v = .Down ∨ l'.toggled v = .Up := by
    unfold Layers.toggled
    split
    · exact .inr rfl
    · exact .inl rfl
  obtain ⟨h0, h4⟩ := hR.virtual l.keys l'.keys v (l'.toggled v) hv hst h.inv
  obtain ⟨h1, h2, h3, _⟩ := hR.run l.keys l'.keys _ h.inv h0
  refine ⟨⟨?_, ?_⟩, ?_, htg, fun e he => ⟨h3 e he, h4 e he⟩⟩
  · show R (stageStep l.keys (.input ⟨v, l.toggled v, 0⟩ anyDeviceIndex)).1 (step l'.keys (.input ⟨v, l'.toggled v, 0⟩ anyDeviceIndex)).1
    rw [htg]; exact h1
  · show (if v ∈ l.on then l.on.erase v else l.on ++ [v]) = (if v ∈ l'.on then l'.on.erase v else l'.on ++ [v])
    rw [h.on]
  · show (stageStep l.keys (.input ⟨v, l.toggled v, 0⟩ anyDeviceIndex)).2 = (step l'.keys (.input ⟨v, l'.toggled v, 0⟩ anyDeviceIndex)).2
    rw [htg]; exact h2

theorem output_same (q : KeySequence) : ∀ {l : Layers (Cfg × S)} {l' : Layers τ}, SameLayers R l l' →
    SameLayers R (l.output stageStep q).1 (l'.output step q).1 ∧ (l.output stageStep q).2 = (l'.output step q).2 ∧
      (∀ e ∈ (l'.output step q).2.2, Immediate e ∧ isVirtualKey e.key = false) := by
  induction q with
  | nil => intro l l' h; exact ⟨h, rfl, by intro e he; cases he⟩
  | cons e q ih =>
    intro l l' h
    by_cases hv : isVirtualKey e.key = true
    · by_cases hd : e.state = .Down
      · rw [Layers.output_toggle stageStep l q hv hd, Layers.output_toggle step l' q hv hd]
        obtain ⟨h1, h2, h3, h4⟩ := toggle_same hR h hv
        obtain ⟨h5, h6, h7⟩ := ih h1
        refine ⟨h5, ?_, ?_⟩
        · simp only [h2, h3, h6]
        · intro d hd
          rcases List.mem_append.1 hd with hd | hd
          · exact h4 d hd
          · exact h7 d hd
      · rw [Layers.output_skip stageStep l q hv hd, Layers.output_skip step l' q hv hd]; exact ih h
    · have hv : isVirtualKey e.key = false := by simpa using hv
      rw [Layers.output_one stageStep l q hv, Layers.output_one step l' q hv]
      obtain ⟨h5, h6, h7⟩ := ih h
      exact ⟨h5, by simp only [h6], h7⟩

theorem step_same {l : Layers (Cfg × S)} {l' : Layers τ} (h : SameLayers R l l') {op : LayerOp} (hop : op.allowed allowed) :
    (l.begin stageStep op).1.Describes stageStep (l.begin stageStep op).2.1 ∧
      SameLayers R (l.step stageStep op).1 (l'.step step op).1 ∧ (l.step stageStep op).2 = (l'.step step op).2 := by
  have hbegin : SameLayers R (l.begin stageStep op).1 (l'.begin step op).1 ∧ (l.begin stageStep op).2 = (l'.begin step op).2 ∧
      (∀ e ∈ (l'.begin step op).2.1, Immediate e) ∧ (l'.begin step op).2.1.countP toggles ≤ 9 := by
    cases op with
    | set v st =>
      have hv : isVirtualKey v = true := hop
      obtain ⟨h1, h2, h3, h4⟩ := toggle_same hR h hv
      have hch : l.changes v st ↔ l'.changes v st := by unfold Layers.changes; rw [h.on]
      unfold Layers.begin
      simp only []
      by_cases hc : l'.changes v st
      · rw [if_pos hc, if_pos (hch.2 hc)]
        refine ⟨h1, by simp only [h2, h3], fun e he => (h4 e he).1, ?_⟩
        simp only []
        rw [List.countP_eq_zero.2]
        · exact Nat.zero_le _
        · intro e he
          simp [toggles, (h4 e he).2]
      · rw [if_neg hc, if_neg (fun h => hc (hch.1 h))]
        exact ⟨h, rfl, (by intro e he; cases he), Nat.zero_le _⟩
    | keys o =>
      obtain ⟨h1, h2, h3, h4⟩ := hR.run l.keys l'.keys o h.inv hop
      exact ⟨⟨h1, h.on⟩, by simp only [Layers.begin]; rw [h2], h3, h4⟩
  obtain ⟨h1, h2, h3, h4⟩ := hbegin
  have hq : (l.begin stageStep op).2.1 = (l'.begin step op).2.1 := by rw [h2]
  obtain ⟨h5, h6, h7⟩ := output_same hR (l'.begin step op).2.1 h1
  refine ⟨⟨by rw [hq]; exact h3, by rw [hq]; exact h4, by rw [hq, h6]; exact h7⟩, ?_, ?_⟩
  · show SameLayers R ((l.begin stageStep op).1.output stageStep (l.begin stageStep op).2.1).1 _
    rw [hq]; exact h5
  · unfold Layers.step Layers.process
    simp only [h2, h6]

theorem run_same (ops : List LayerOp) (hops : ∀ op ∈ ops, op.allowed allowed) : ∀ {l : Layers (Cfg × S)} {l' : Layers τ}, SameLayers R l l' →
    l.DescribesAll stageStep ops ∧ (l.run stageStep ops).2 = (l'.run step ops).2 := by
  induction ops with
  | nil => intro l l' _; exact ⟨trivial, rfl⟩
  | cons op ops ih =>
    intro l l' h
    obtain ⟨h1, h2, h3⟩ := step_same hR h (hops op (by simp))
    obtain ⟨h4, h5⟩ := ih (fun o ho => hops o (List.mem_cons_of_mem _ ho)) h2
    exact ⟨⟨h1, h4⟩, by simp only [Layers.run, h3, h5]⟩

end

end KM
