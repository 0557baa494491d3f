import Verif.Spec.Context
import Verif.Spec.StageRun
import Verif.Lemmas.Search
/-!
# Lemmas about contexts
-/
namespace KM

theorem fallthroughGo_iff (l : List Context) (i j : Nat) :
    fallthroughGo l i = some j ↔
      i ≤ j ∧ (∀ m, m < j - i → ∃ ctx, l[m]? = some ctx ∧ ctx.fallthrough = true) ∧
        ∃ ctx, l[j - i]? = some ctx ∧ ctx.fallthrough = false := by
  induction l generalizing i with
  | nil => simp [fallthroughGo]
  | cons c cs ih =>
    unfold fallthroughGo
    by_cases hf : c.fallthrough = true
    · simp only [hf, if_true, ih]
      constructor
      · rintro ⟨h1, h2, h3⟩
        refine ⟨by omega, ?_, ?_⟩
        · intro m hm
          cases m with
          | zero => exact ⟨c, by simp, hf⟩
          | succ m => simpa using h2 m (by omega)
        · have : j - i = (j - (i + 1)) + 1 := by omega
          rw [this]; simpa using h3
      · rintro ⟨h1, h2, ctx, h3, h4⟩
        have hij : i ≠ j := by
          rintro rfl
          simp at h3; subst h3; simp [hf] at h4
        refine ⟨by omega, ?_, ctx, ?_, h4⟩
        · intro m hm
          have := h2 (m + 1) (by omega)
          simpa using this
        · have : j - i = (j - (i + 1)) + 1 := by omega
          rw [this] at h3; simpa using h3
    · simp only [hf]
      constructor
      · intro h; simp at h; subst h
        exact ⟨by omega, by intro m hm; omega, c, by simp, by simpa using hf⟩
      · rintro ⟨h1, h2, ctx, h3, h4⟩
        by_cases hij : i = j
        · simp [hij]
        · obtain ⟨ctx', h5, h6⟩ := h2 0 (by omega)
          simp at h5; subst h5; exact absurd h6 hf

theorem fallthroughContext_iff (cs : List Context) (i j : Nat) :
    fallthroughContext cs i = some j ↔ FallsTo cs i j := by
  unfold fallthroughContext FallsTo
  rw [fallthroughGo_iff]
  constructor
  · rintro ⟨h1, h2, h3⟩
    refine ⟨h1, ?_, ?_⟩
    · intro m hm1 hm2
      have := h2 (m - i) (by omega)
      rw [List.getElem?_drop] at this
      rwa [show i + (m - i) = m by omega] at this
    · rw [List.getElem?_drop, show i + (j - i) = j by omega] at h3
      exact h3
  · rintro ⟨h1, h2, h3⟩
    refine ⟨h1, ?_, ?_⟩
    · intro m hm
      rw [List.getElem?_drop]
      exact h2 (i + m) (by omega) (by omega)
    · rw [List.getElem?_drop, show i + (j - i) = j by omega]
      exact h3

theorem FallsTo.functional {cs i j j'} (h : FallsTo cs i j) (h' : FallsTo cs i j') : j = j' := by
  rw [← fallthroughContext_iff] at h h'
  rw [h] at h'; simpa using h'

theorem FallsTo.mono {cs i i' j j'} (h : FallsTo cs i j) (h' : FallsTo cs i' j') (hi : i ≤ i') : j ≤ j' := by
  apply Nat.le_of_not_lt
  intro hlt
  obtain ⟨ctx, h1, h2⟩ := h.2.1 j' (by have := h'.1; omega) hlt
  obtain ⟨ctx', h3, h4⟩ := h'.2.2
  rw [h1] at h3; simp at h3; subst h3; simp [h2] at h4

/-- the configuration of a stage has the contexts it was constructed from, with sorted commands -/
structure CfgOf (contexts : List Context) (c : Cfg) : Prop where
  length : c.contexts.length = contexts.length
  get : ∀ i : Nat, ∀ ctx, contexts[i]? = some ctx → ∃ ctx', c.contexts[i]? = some ctx' ∧
    ctx'.fallthrough = ctx.fallthrough ∧ ctx'.inputs = ctx.inputs ∧ ctx'.outputs = ctx.outputs ∧
    ctx'.modifierFilter = ctx.modifierFilter ∧ ctx'.invertModifierFilter = ctx.invertModifierFilter ∧
    ctx'.deviceFilter = ctx.deviceFilter ∧ ctx'.deviceIdFilter = ctx.deviceIdFilter ∧
    ctx'.commandOutputs = sortCommandOutputs ctx.commandOutputs

theorem cfgOf_make (contexts : List Context) : CfgOf contexts (Cfg.make contexts) := by
  refine ⟨by simp [Cfg.make], ?_⟩
  intro i ctx h
  refine ⟨{ ctx with commandOutputs := sortCommandOutputs ctx.commandOutputs }, ?_, rfl, rfl, rfl, rfl, rfl, rfl, rfl, rfl⟩
  simp [Cfg.make, h]

theorem CfgOf.evaluate {contexts c} (h : CfgOf contexts c) (rx ds) :
    CfgOf contexts (c.evaluateDeviceFilters rx ds) := by
  refine ⟨by simp [Cfg.evaluateDeviceFilters, h.length], ?_⟩
  intro i ctx hc
  obtain ⟨ctx', h1, h2⟩ := h.get i ctx hc
  refine ⟨{ ctx' with matchingDeviceBits :=
      if ctx'.hasDeviceFilter then deviceBits rx ctx' ds 0 1 else allDeviceBits }, ?_, h2⟩
  simp [Cfg.evaluateDeviceFilters, h1]

theorem CfgOf.step {contexts} {st : Cfg × S} (h : CfgOf contexts st.1) (op) : CfgOf contexts (stageStep st op).1.1 := by
  cases op with
  | devices rx ds => exact h.evaluate rx ds
  | _ => exact h

theorem CfgOf.run {contexts} {st : Cfg × S} (h : CfgOf contexts st.1) (ops) : CfgOf contexts (stageRun st ops).1.1 := by
  induction ops generalizing st with
  | nil => exact h
  | cons op ops ih => exact ih (h.step op)

theorem CfgOf.fallsTo {contexts c} (h : CfgOf contexts c) (i j : Nat) :
    FallsTo c.contexts i j ↔ FallsTo contexts i j := by
  have get' : ∀ i : Nat, ∀ ctx', c.contexts[i]? = some ctx' → ∃ ctx, contexts[i]? = some ctx ∧ ctx'.fallthrough = ctx.fallthrough := by
    intro i ctx' hc
    have hlt : i < contexts.length := by
      rw [← h.length]; exact (List.getElem?_eq_some_iff.1 hc).1
    obtain ⟨ctx'', h1, h2, _⟩ := h.get i contexts[i] (List.getElem?_eq_getElem hlt)
    rw [hc] at h1; simp at h1; subst h1
    exact ⟨_, List.getElem?_eq_getElem hlt, h2⟩
  unfold FallsTo
  constructor
  · rintro ⟨h1, h2, ctx, h3, h4⟩
    refine ⟨h1, ?_, ?_⟩
    · intro m hm1 hm2
      obtain ⟨ctx, h5, h6⟩ := h2 m hm1 hm2
      obtain ⟨ctx', h7, h8⟩ := get' m ctx h5
      exact ⟨ctx', h7, h8 ▸ h6⟩
    · obtain ⟨ctx', h7, h8⟩ := get' _ ctx h3
      exact ⟨ctx', h7, h8 ▸ h4⟩
  · rintro ⟨h1, h2, ctx, h3, h4⟩
    refine ⟨h1, ?_, ?_⟩
    · intro m hm1 hm2
      obtain ⟨ctx, h5, h6⟩ := h2 m hm1 hm2
      obtain ⟨ctx', h7, h8, _⟩ := h.get m ctx h5
      exact ⟨ctx', h7, h8.trans h6⟩
    · obtain ⟨ctx', h7, h8, _⟩ := h.get _ ctx h3
      exact ⟨ctx', h7, h8.trans h4⟩

/-! ### looking up a command -/

theorem sortCommandOutputs_sorted (cs : List CommandOutput) :
    (sortCommandOutputs cs).Pairwise (fun a b => b.index ≤ a.index) := by
  have := sorted_sortBy (le := fun (a b : CommandOutput) => decide (b.index ≤ a.index))
    (fun a b => by simp only [decide_eq_true_eq]; omega)
    (fun a b c => by simp only [decide_eq_true_eq]; omega) cs
  simpa [sortCommandOutputs] using this

theorem searchCommand_spec (cs : List CommandOutput) (hs : cs.Pairwise (fun a b => b.index ≤ a.index)) (idx : Int) :
    (∀ pos out, searchCommand cs idx = some (pos, out) → cs[pos]? = some ⟨out, idx⟩) ∧
    (searchCommand cs idx = none → ∀ a ∈ cs, a.index ≠ idx) := by
  have hsr : cs.reverse.Pairwise (fun a b => a.index ≤ b.index) := by
    rw [List.pairwise_reverse]; exact hs
  unfold searchCommand
  simp only []
  generalize hp : commandBefore cs.reverse idx = p
  have hmono : ∀ i j, 0 ≤ i → i ≤ j → j < 0 + cs.reverse.length → p j = true → p i = true := by
    intro i j _ hij hj hpj
    subst hp
    have hj' : j < cs.reverse.length := by omega
    have hi' : i < cs.reverse.length := by omega
    simp only [commandBefore, List.getElem?_eq_getElem hj', List.getElem?_eq_getElem hi', decide_eq_true_eq] at hpj ⊢
    rcases Nat.lt_or_eq_of_le hij with h | h
    · have := (List.pairwise_iff_getElem.1 hsr) i j hi' hj' h
      omega
    · subst h; exact hpj
  obtain ⟨_, hle, hbefore, hafter⟩ := lowerBound_spec p 0 cs.reverse.length hmono
  generalize lowerBound p 0 cs.reverse.length = k at *
  constructor
  · intro pos out h
    split at h
    · next a ha =>
      split at h
      · next hi =>
        simp only [Option.some.injEq, Prod.mk.injEq] at h
        obtain ⟨rfl, rfl⟩ := h
        have hk := (List.getElem?_eq_some_iff.1 ha).1
        rw [List.getElem?_reverse (by simpa using hk)] at ha
        rw [ha]
        simp only [beq_iff_eq] at hi
        subst hi
        rfl
      · simp at h
    · simp at h
  · intro h a ha hidx
    have ha' : a ∈ cs.reverse := by simpa using ha
    obtain ⟨n, hn, hna⟩ := List.getElem_of_mem ha'
    have hpn : p n = false := by
      subst hp; simp [commandBefore, List.getElem?_eq_getElem hn, hna, hidx]
    have hkn : k ≤ n := by
      apply Nat.le_of_not_lt
      intro hlt
      have := hbefore n (by omega) hlt
      rw [hpn] at this; simp at this
    have hklt : k < cs.reverse.length := by omega
    have hpk := hafter k (Nat.le_refl _) (by omega)
    rw [List.getElem?_eq_getElem hklt] at h
    simp only [] at h
    split at h
    · simp at h
    · next hne =>
      have h1 : ¬ (cs.reverse[k].index < idx) := by
        subst hp
        simpa [commandBefore, List.getElem?_eq_getElem hklt] using hpk
      have h2 : cs.reverse[k].index ≤ cs.reverse[n].index := by
        rcases Nat.lt_or_eq_of_le hkn with h | h
        · exact (List.pairwise_iff_getElem.1 hsr) k n hklt hn h
        · subst h; exact Int.le_refl _
      rw [hna, hidx] at h2
      simp only [beq_iff_eq] at hne
      omega

end KM
