import Verif.Lemmas.RemapMatch
import Verif.Lemmas.Context
/-!
# Which mapping replaces a key
-/
namespace KM

/-- a context as a stage keeps it -/
def Context.sorted (c : Context) : Context := { c with commandOutputs := sortCommandOutputs c.commandOutputs }

theorem targetOf_iff (cs : List Context) (i j : Nat) : targetOf cs i = some j ↔ FallsTo cs i j := by
  unfold targetOf FallsTo
  rw [List.find?_eq_some_iff_getElem]
  constructor
  · rintro ⟨h1, n, hn, h2, h3⟩
    simp only [List.getElem_range] at h2
    subst h2
    simp only [Bool.and_eq_true, decide_eq_true_eq, Option.any_eq_true, Bool.not_eq_true'] at h1
    obtain ⟨h1, ctx, h4, h5⟩ := h1
    refine ⟨h1, ?_, ctx, h4, h5⟩
    intro m hm1 hm2
    have := h3 m hm2
    simp only [List.getElem_range, hm1, decide_true, Bool.true_and, Bool.not_eq_true', Option.any_eq_false] at this
    have hlt : m < cs.length := by simp at hn; omega
    refine ⟨cs[m], List.getElem?_eq_getElem hlt, ?_⟩
    have := this _ (List.getElem?_eq_getElem hlt)
    simpa using this
  · rintro ⟨h1, h2, ctx, h3, h4⟩
    have hlt : j < cs.length := (List.getElem?_eq_some_iff.1 h3).1
    refine ⟨by simp [h1, h3, h4], j, by simpa using hlt, by simp, ?_⟩
    intro m hm
    simp only [List.getElem_range]
    by_cases him : i ≤ m
    · obtain ⟨c, h5, h6⟩ := h2 m him hm
      simp [him, h5, h6]
    · simp [him]

theorem eq_of_sorted_mem {a b : List Nat} (ha : a.Pairwise (· < ·)) (hb : b.Pairwise (· < ·)) (h : ∀ x, x ∈ a ↔ x ∈ b) : a = b := by
  induction a generalizing b with
  | nil =>
    cases b with
    | nil => rfl
    | cons y b => exact absurd ((h y).2 (by simp)) (by simp)
  | cons x a ih =>
    cases b with
    | nil => exact absurd ((h x).1 (by simp)) (by simp)
    | cons y b =>
      rw [List.pairwise_cons] at ha hb
      have hxy : x = y := by
        have h1 := (h x).1 (by simp)
        have h2 := (h y).2 (by simp)
        simp only [List.mem_cons] at h1 h2
        rcases h1 with h1 | h1
        · exact h1
        · rcases h2 with h2 | h2
          · exact h2.symm
          · have := ha.1 y h2; have := hb.1 x h1; omega
      subst hxy
      congr 1
      apply ih ha.2 hb.2
      intro z
      have := h z
      simp only [List.mem_cons] at this
      constructor
      · intro hz
        rcases this.1 (Or.inr hz) with h1 | h1
        · subst h1; have := ha.1 z hz; omega
        · exact h1
      · intro hz
        rcases this.2 (Or.inr hz) with h1 | h1
        · subst h1; have := hb.1 z hz; omega
        · exact h1

theorem sorted_fallsTo (cs : List Context) (i j : Nat) : FallsTo (cs.map Context.sorted) i j ↔ FallsTo cs i j := by
  unfold FallsTo
  have : ∀ (m : Nat) (b : Bool), (∃ ctx : Context, (cs.map Context.sorted)[m]? = some ctx ∧ ctx.fallthrough = b) ↔ (∃ ctx : Context, cs[m]? = some ctx ∧ ctx.fallthrough = b) := by
    intro m b
    rw [List.getElem?_map]
    constructor
    · rintro ⟨ctx, h1, h2⟩
      obtain ⟨c, h3, h4⟩ := Option.map_eq_some_iff.1 h1
      subst h4
      exact ⟨c, h3, h2⟩
    · rintro ⟨ctx, h1, h2⟩
      exact ⟨ctx.sorted, by rw [h1]; rfl, h2⟩
  simp only [this]

theorem modifiersMatch_iff (ctx : Context) (seq : KeySequence) :
    modifiersMatch ctx (seq.map (·.key)) = ((matchModifierFilter seq ctx.modifierFilter) ^^ ctx.invertModifierFilter) := by
  have : ctx.modifierFilter.all (fun m => (seq.map (·.key)).contains m.key == (m.state != .Not)) = matchModifierFilter seq ctx.modifierFilter := by
    unfold matchModifierFilter
    congr 1
    funext m
    congr 1
    unfold findKey
    rw [Bool.eq_iff_iff]
    simp only [List.contains_eq_mem, List.mem_map, decide_eq_true_eq, List.find?_isSome, beq_iff_eq]
  unfold modifiersMatch
  rw [this]

/-- the active contexts of the stage are the contexts in use -/
theorem computeActive_inUse {cs : List Context} {seq : KeySequence} {client : List Nat}
    (hf : ∀ i < cs.length, ∃ j, FallsTo cs i j) (hs : client.Pairwise (· ≤ ·)) (hc : ∀ i ∈ client, i < cs.length) :
    computeActive (cs.map Context.sorted) seq client [] = some (contextsInUse cs client (seq.map (·.key))) := by
  obtain ⟨r, h1, h2, h3⟩ := computeActive_spec (cs := cs.map Context.sorted) (seq := seq) client [] hs
    (by
      intro i hi
      obtain ⟨j, hj⟩ := hf i (hc i hi)
      exact ⟨j, (sorted_fallsTo cs i j).2 hj⟩) (by simp) (by simp)
  rw [h1]
  congr 1
  apply eq_of_sorted_mem h2
  · exact List.Pairwise.sublist List.filter_sublist List.pairwise_lt_range
  · intro j
    rw [h3]
    unfold contextsInUse IsActive
    simp only [List.not_mem_nil, false_or, List.mem_filter, List.mem_range, List.any_eq_true, Bool.and_eq_true, beq_iff_eq,
      targetOf_iff, Option.any_eq_true]
    have hfm : ∀ ctx : Context, FiltersMatch seq ctx.sorted ↔ modifiersMatch ctx (seq.map (·.key)) = true ∧ someDevice ctx = true := by
      intro ctx
      rw [modifiersMatch_iff, ← filtersMatch_iff]
      simp only [Context.sorted, Bool.and_eq_true, someDevice, Context.hasDeviceFilter]
    constructor
    · rintro ⟨i, hi, ctx, h4, h5, h6⟩
      rw [List.getElem?_map] at h4
      obtain ⟨c, h7, h8⟩ := Option.map_eq_some_iff.1 h4
      subst h8
      rw [sorted_fallsTo] at h6
      obtain ⟨ctx, h9, _⟩ := h6.2.2
      refine ⟨(List.getElem?_eq_some_iff.1 h9).1, i, hi, h6, c, h7, (hfm c).1 h5⟩
    · rintro ⟨_, i, hi, h6, c, h7, h8⟩
      refine ⟨i, hi, c.sorted, by rw [List.getElem?_map, h7]; rfl, (hfm c).2 h8, (sorted_fallsTo cs i j).2 h6⟩

theorem inUse_stops {cs : List Context} {client held} {j : Nat} (h : j ∈ contextsInUse cs client held) :
    ∃ ctx, cs[j]? = some ctx ∧ ctx.fallthrough = false := by
  unfold contextsInUse at h
  simp only [List.mem_filter, List.any_eq_true, Bool.and_eq_true, beq_iff_eq, targetOf_iff] at h
  obtain ⟨_, i, _, h1, _⟩ := h
  exact h1.2.2

/-! ### commands -/

theorem find?_unique {l : List CommandOutput} (hu : ∀ a ∈ l, ∀ b ∈ l, a.index = b.index → a = b) {a : CommandOutput} (ha : a ∈ l) :
    l.find? (fun o => o.index == a.index) = some a := by
  induction l with
  | nil => simp at ha
  | cons b l ih =>
    rw [List.find?_cons]
    by_cases hb : b.index = a.index
    · have := hu b (by simp) a ha hb
      subst this
      simp
    · have : (b.index == a.index) = false := beq_eq_false_iff_ne.2 hb
      rw [this]
      simp only [List.mem_cons] at ha
      rcases ha with ha | ha
      · subst ha; simp at hb
      · exact ih (fun a ha b hb => hu a (by simp [ha]) b (by simp [hb])) ha

theorem searchCommand_find {l : List CommandOutput} (hu : ∀ a ∈ l, ∀ b ∈ l, a.index = b.index → a = b) (idx : Int) :
    (searchCommand (sortCommandOutputs l) idx).map (·.2) = (l.find? (fun o => o.index == idx)).map (·.output) := by
  obtain ⟨h1, h2⟩ := searchCommand_spec (sortCommandOutputs l) (sortCommandOutputs_sorted l) idx
  have hmem : ∀ a, a ∈ sortCommandOutputs l ↔ a ∈ l := fun a => mem_sortBy
  cases hs : searchCommand (sortCommandOutputs l) idx with
  | none =>
    have := h2 hs
    have hf : l.find? (fun o => o.index == idx) = none := by
      rw [List.find?_eq_none]
      intro a ha
      simpa using this a ((hmem a).2 ha)
    rw [hf]; rfl
  | some p =>
    obtain ⟨pos, out⟩ := p
    have ha := (hmem _).1 (List.mem_of_getElem? (h1 pos out hs))
    have := find?_unique hu ha
    simp only at this
    rw [this]; rfl

theorem fallthrough_self {cs : List Context} {j : Nat} (h : ∃ ctx, cs[j]? = some ctx ∧ ctx.fallthrough = false) :
    fallthroughContext (cs.map Context.sorted) j = some j := by
  rw [fallthroughContext_iff, sorted_fallsTo]
  exact ⟨Nat.le_refl _, by intro m h1 h2; omega, h⟩

theorem findCommandOutput_eq {cs : List Context} (hu : CommandsUnique cs) (idx : Int) (l : List Nat)
    (hl : ∀ j ∈ l, ∃ ctx, cs[j]? = some ctx ∧ ctx.fallthrough = false) :
    (findCommandOutput (cs.map Context.sorted) idx l).1.map (·.2) = l.findSome? (fun j => (cs[j]?).bind (fun ctx =>
      (ctx.commandOutputs.find? (fun o => o.index == idx)).map (·.output))) := by
  induction l with
  | nil => rfl
  | cons j l ih =>
    have ih := ih (fun j hj => hl j (by simp [hj]))
    obtain ⟨ctx, h1, h2⟩ := hl j (by simp)
    rw [findCommandOutput, fallthrough_self ⟨ctx, h1, h2⟩]
    simp only [List.getElem?_map, h1, Option.map_some, List.findSome?_cons, Option.bind_some]
    have := searchCommand_find (hu ctx (List.mem_of_getElem? h1)) idx
    rw [← this]
    show Option.map _ (match searchCommand (sortCommandOutputs ctx.commandOutputs) idx with
      | some (pos, out) => (some ((⟨j, true, pos⟩ : OutRef), out), false)
      | none => findCommandOutput (cs.map Context.sorted) idx l).1 = _
    cases searchCommand (sortCommandOutputs ctx.commandOutputs) idx with
    | none => simp only [Option.map_none]; exact ih
    | some p => rfl

theorem findOutput_eq {cs : List Context} (hu : CommandsUnique cs) {inUse : List Nat}
    (hl : ∀ j ∈ inUse, ∃ ctx, cs[j]? = some ctx ∧ ctx.fallthrough = false) (ci : Nat) (ctx : Context) (m : Input) :
    (findOutput (cs.map Context.sorted) inUse ci ctx.sorted m.outputIndex).1.map (·.2) = mappingOutput cs inUse ctx m := by
  unfold findOutput mappingOutput
  split
  · show Option.map _ (match ctx.outputs[m.outputIndex.toNat]? with
      | some out => (some ((⟨ci, false, m.outputIndex.toNat⟩ : OutRef), out), false)
      | none => (none, true)).1 = _
    cases ctx.outputs[m.outputIndex.toNat]? <;> rfl
  · exact findCommandOutput_eq hu _ _ (fun j hj => hl j (by simpa using hj))

/-! ### candidates -/

theorem acceptsDevice_eq (ctx : Context) (dev : Int) : deviceMatchesFilter ctx.sorted dev = acceptsDevice ctx dev := by
  unfold deviceMatchesFilter acceptsDevice
  simp only [beq_iff_eq, Context.sorted, BitVec.getLsbD_ushiftRight, Nat.add_zero, allDeviceBits]

theorem findSome?_flatMap_eq {f : α → List β} {g : β → Option γ} (l : List α) :
    (l.flatMap f).findSome? g = l.findSome? (fun a => (f a).findSome? g) := by
  induction l with
  | nil => rfl
  | cons a l ih =>
    rw [List.flatMap_cons, List.findSome?_append, List.findSome?_cons, ih]
    cases (f a).findSome? g <;> rfl

/-- what a candidate outputs for a key -/
def candidateOutput (c : Cfg) (active : List Nat) (k : Key) (x : Nat × Context × Input) : Option KeySequence :=
  if x.2.2.input = singleKey k then (findOutput c.contexts active x.1 x.2.1 x.2.2.outputIndex).1.map (·.2) else none

theorem findSome?_congr' {f g : α → Option β} {l : List α} (h : ∀ a ∈ l, f a = g a) : l.findSome? f = l.findSome? g := by
  induction l with
  | nil => rfl
  | cons a l ih => rw [List.findSome?_cons, List.findSome?_cons, h a (by simp), ih (fun a ha => h a (by simp [ha]))]

theorem candidates_output {c : Cfg} {cs : List Context} (hc : c.contexts = cs.map Context.sorted) (hu : CommandsUnique cs)
    {inUse : List Nat} (hl : ∀ j ∈ inUse, ∃ ctx, cs[j]? = some ctx ∧ ctx.fallthrough = false) (dev : Int) (k : Key) :
    (candidates c.contexts inUse dev).findSome? (candidateOutput c inUse k) = replacementFor cs inUse dev k := by
  unfold candidates replacementFor
  rw [findSome?_flatMap_eq]
  apply findSome?_congr'
  intro j _
  rw [hc, List.getElem?_map]
  cases hj : cs[j]? with
  | none => rfl
  | some ctx =>
    simp only [Option.map_some, Option.bind_some, acceptsDevice_eq]
    split
    · rw [List.findSome?_map]
      apply findSome?_congr'
      intro m _
      unfold candidateOutput
      simp only [Function.comp]
      rw [hc, findOutput_eq hu hl j ctx m]
    · rfl

theorem deviceBits_sorted (rx : Regex) (ctx : Context) (ds : List DeviceDesc) (b b' : BitVec 64) :
    deviceBits rx ctx.sorted ds b b' = deviceBits rx ctx ds b b' := by
  induction ds generalizing b b' with
  | nil => rfl
  | cons d ds ih => unfold deviceBits; simp only [ih]; rfl

theorem evaluate_sorted (rx : Regex) (c : Cfg) (cs : List Context) (hc : c.contexts = cs.map Context.sorted) (ds : List DeviceDesc) :
    (c.evaluateDeviceFilters rx ds).contexts = (Cfg.evaluateDeviceFilters rx { contexts := cs } ds).contexts.map Context.sorted := by
  unfold Cfg.evaluateDeviceFilters
  simp only [hc, List.map_map]
  apply List.map_congr_left
  intro ctx _
  simp only [Function.comp, deviceBits_sorted]
  rfl

end KM
