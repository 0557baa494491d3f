import Verif.Props.Lookup
/-!
# Device filters (C12) and filters of grabbed devices (C42)
-/
namespace KM

/-- A filter accepts a text: it is empty, a regular expression found in the text, or the text itself;
or it is inverted and this is not so. -/
def FilterAccepts (rx : Regex) (f : Filter) (text : Str) : Prop :=
  (f.string = [] ∨ (f.isRegex = true ∧ rx f.string text = true) ∨ (f.isRegex = false ∧ text = f.string)) ↔
    f.invert = false

/-- A device is accepted by the name and the id filter of a context. -/
def DeviceMatches (rx : Regex) (ctx : Context) (d : DeviceDesc) : Prop :=
  FilterAccepts rx ctx.deviceFilter d.name ∧ FilterAccepts rx ctx.deviceIdFilter d.id

theorem matchesUninverted_iff (rx : Regex) (f : Filter) (text : Str) :
    f.matchesUninverted rx text false = true ↔
      (f.string = [] ∨ (f.isRegex = true ∧ rx f.string text = true) ∨ (f.isRegex = false ∧ text = f.string)) := by
  unfold Filter.matchesUninverted
  cases h1 : f.string with
  | nil => simp
  | cons c cs => cases h2 : f.isRegex <;> simp

theorem filterMatches_iff (rx : Regex) (f : Filter) (text : Str) :
    f.matches rx text false = true ↔ FilterAccepts rx f text := by
  unfold Filter.matches FilterAccepts
  rw [← matchesUninverted_iff]
  cases f.matchesUninverted rx text false <;> cases f.invert <;> simp

private theorem deviceBits_getLsbD (rx : Regex) (c : Context) (ds : List DeviceDesc) (k : Nat) (bits : BitVec 64) (n : Nat)
    (hn : n < 64) :
    (deviceBits rx c ds bits (1#64 <<< k)).getLsbD n = true ↔
      bits.getLsbD n = true ∨ (k ≤ n ∧ ∃ d, ds[n - k]? = some d ∧ DeviceMatches rx c d) := by
  induction ds generalizing k bits with
  | nil => simp [deviceBits]
  | cons d ds ih =>
    unfold deviceBits
    simp only []
    have hshift : (1#64 <<< k) <<< 1 = 1#64 <<< (k + 1) := by rw [BitVec.shiftLeft_add]
    rw [hshift, ih]
    have hd : (c.deviceFilter.matches rx d.name false && c.deviceIdFilter.matches rx d.id false) = true ↔
        DeviceMatches rx c d := by
      rw [Bool.and_eq_true, filterMatches_iff, filterMatches_iff]; rfl
    have hbit : (1#64 <<< k).getLsbD n = true ↔ n = k := by
      rw [BitVec.getLsbD_shiftLeft]
      simp only [BitVec.getLsbD_one, Bool.and_eq_true, decide_eq_true_eq, Bool.not_eq_true', decide_eq_false_iff_not]
      omega
    have hrest : (k ≤ n ∧ ∃ d', (d :: ds)[n - k]? = some d' ∧ DeviceMatches rx c d') ↔
        (n = k ∧ DeviceMatches rx c d) ∨ (k + 1 ≤ n ∧ ∃ d', ds[n - (k + 1)]? = some d' ∧ DeviceMatches rx c d') := by
      by_cases hk : n = k
      · subst hk
        simp; omega
      · by_cases hk2 : k + 1 ≤ n
        · have : n - k = (n - (k + 1)) + 1 := by omega
          rw [this, List.getElem?_cons_succ]
          simp [hk, hk2]; omega
        · have : ¬ k ≤ n := by omega
          simp [hk, hk2, this]
    rw [hrest]
    split
    · next h =>
      rw [hd] at h
      rw [BitVec.getLsbD_or, Bool.or_eq_true, hbit]
      simp only [h, and_true]
      exact or_assoc
    · next h =>
      rw [hd] at h
      simp [h]

/-- The context with this number after the device filters were evaluated. -/
private theorem evaluated (rx : Regex) (c : Cfg) (ds : List DeviceDesc) (i : Nat) (ctx : Context)
    (h : (c.evaluateDeviceFilters rx ds).contexts[i]? = some ctx) :
    ∃ ctx0, c.contexts[i]? = some ctx0 ∧ ctx = { ctx0 with matchingDeviceBits :=
          (if ctx0.hasDeviceFilter then deviceBits rx ctx0 ds 0 1 else allDeviceBits) } := by
  simp only [Cfg.evaluateDeviceFilters, List.getElem?_map, Option.map_eq_some_iff] at h
  obtain ⟨ctx0, h1, h2⟩ := h
  exact ⟨ctx0, h1, h2.symm⟩

/-- **C12** After evaluating the device filters, for all lists of devices: a context with a device
filter accepts events of device number `n` exactly if it is the number of a device matching its
filters; one without a device filter accepts all devices. (Device numbers from 64 on cannot be
represented; see `C12_device_64`.) -/
theorem C12_accepts_matching_devices (rx : Regex) (c : Cfg) (ds : List DeviceDesc) (i : Nat) (ctx : Context)
    (h : (c.evaluateDeviceFilters rx ds).contexts[i]? = some ctx) (n : Nat) (hn : n < 64) :
    AcceptsDevice ctx n ↔
      (ctx.hasDeviceFilter = true → ∃ d, ds[n]? = some d ∧ DeviceMatches rx ctx d) := by
  obtain ⟨ctx0, h1, rfl⟩ := evaluated rx c ds i ctx h
  unfold AcceptsDevice
  have e1 : ¬ ((n : Int) = anyDeviceIndex) := by unfold anyDeviceIndex; omega
  have e2 : ¬ ((n : Int) = noDeviceIndex) := by unfold noDeviceIndex; omega
  have e3 : (0 : Int) ≤ n := by omega
  simp only [e1, e2, e3, false_or, false_and, true_and, Int.toNat_natCast]
  cases hf : ctx0.hasDeviceFilter with
  | false =>
    have : ∀ b, Context.hasDeviceFilter { ctx0 with matchingDeviceBits := b } = false := fun b => hf
    simp only [this]
    simp [allBits n hn]
  | true =>
    have : ∀ b, Context.hasDeviceFilter { ctx0 with matchingDeviceBits := b } = true := fun b => hf
    simp only [this, if_true, true_implies]
    have := deviceBits_getLsbD rx ctx0 ds 0 0 n hn
    have e : (deviceBits rx ctx0 ds 0 1).getLsbD n = true ↔ ∃ d, ds[n]? = some d ∧ DeviceMatches rx ctx0 d := by
      simpa using this
    exact e

/-- **C12** Events which do not belong to a device are only accepted by contexts which accept
each of the first 64 devices. -/
theorem C12_no_device (rx : Regex) (c : Cfg) (ds : List DeviceDesc) (i : Nat) (ctx : Context)
    (h : (c.evaluateDeviceFilters rx ds).contexts[i]? = some ctx) :
    AcceptsDevice ctx noDeviceIndex ↔
      (ctx.hasDeviceFilter = true → ∀ n < 64, ∃ d, ds[n]? = some d ∧ DeviceMatches rx ctx d) := by
  have hacc : AcceptsDevice ctx noDeviceIndex ↔ ∀ n : Nat, n < 64 → AcceptsDevice ctx n := by
    unfold AcceptsDevice
    constructor
    · rintro (h | ⟨_, h⟩ | ⟨h, _⟩) n hn
      · simp [noDeviceIndex, anyDeviceIndex] at h
      · exact Or.inr (Or.inr ⟨by omega, by simpa using h n hn⟩)
      · simp [noDeviceIndex] at h
    · intro h
      refine Or.inr (Or.inl ⟨rfl, ?_⟩)
      intro n hn
      rcases h n hn with h | ⟨h, _⟩ | ⟨_, h⟩
      · unfold anyDeviceIndex at h; omega
      · unfold noDeviceIndex at h; omega
      · simpa using h
  rw [hacc]
  constructor
  · intro h' hf n hn
    exact (C12_accepts_matching_devices rx c ds i ctx h n hn).1 (h' n hn) hf
  · intro h' n hn
    exact (C12_accepts_matching_devices rx c ds i ctx h n hn).2 (fun hf => h' hf n hn)

/-- **C12** In a stage: a mapping of a context with a device filter is only used for an event of
device number `n` when this device matches the filters (as evaluated last). -/
theorem C12_mapping_of_matching_device (contexts : List Context) (hl : LastStops contexts) (ops ops' : List StageOp)
    (rx : Regex) (ds : List DeviceDesc)
    (hops : ∀ op ∈ ops ++ .devices rx ds :: ops', op.isValid contexts.length)
    (hops' : ∀ op ∈ ops', op.isInput = true)
    (first : Bool) (sequence : KeySequence) (n : Nat) (hn : n < 64) (isKeyUp : Bool)
    {s' ref out input ci} :
    let st := (stageRun (stageInit contexts) (ops ++ .devices rx ds :: ops')).1
    matchInput st.1 st.2 first sequence n isKeyUp = (s', .matched ref out input ci) →
    ∃ ctx, contexts[ci]? = some ctx ∧ (ctx.hasDeviceFilter = true → ∃ d, ds[n]? = some d ∧ DeviceMatches rx ctx d) := by
  intro st hm
  have h8 := C08_first_mapping_decides contexts hl _ hops first sequence n (by omega) isKeyUp
  simp only [show (stageRun (stageInit contexts) (ops ++ .devices rx ds :: ops')).1 = st from rfl] at h8
  rw [hm] at h8
  obtain ⟨k, j, ctx, m, h1, h2, h3, _⟩ := h8
  have happ : ∀ (a b : List StageOp) (st : Cfg × S), (stageRun st (a ++ b)).1 = (stageRun (stageRun st a).1 b).1 := by
    intro a b
    induction a with
    | nil => intro st; rfl
    | cons op a ih => intro st; exact ih _
  have hcfg : ∀ (ops' : List StageOp) (st : Cfg × S), (∀ op ∈ ops', op.isInput = true) → (stageRun st ops').1.1 = st.1 := by
    intro ops'
    induction ops' with
    | nil => intro st _; rfl
    | cons op ops' ih =>
      intro st h
      show (stageRun (stageStep st op).1 ops').1.1 = _
      rw [ih _ (fun o ho => h o (by simp [ho]))]
      have := h op (by simp)
      cases op with
      | input ev dev => rfl
      | contexts l => rfl
      | devices rx ds => simp [StageOp.isInput] at this
      | validate f => simp [StageOp.isInput] at this
  have hst : st.1 = (stageRun (stageInit contexts) ops).1.1.evaluateDeviceFilters rx ds := by
    show (stageRun (stageInit contexts) (ops ++ .devices rx ds :: ops')).1.1 = _
    rw [happ]
    show (stageRun (stageStep _ (.devices rx ds)).1 ops').1.1 = _
    rw [hcfg _ _ hops']
    rfl
  have hof : CfgOf contexts st.1 := (cfgOf_make contexts).run _
  have hlt : ci < contexts.length := hof.length ▸ (List.getElem?_eq_some_iff.1 h2).1
  obtain ⟨ctx', g1, g⟩ := hof.get ci contexts[ci] (List.getElem?_eq_getElem hlt)
  rw [h2] at g1
  simp only [Option.some.injEq] at g1
  subst g1
  refine ⟨contexts[ci], List.getElem?_eq_getElem hlt, ?_⟩
  have := (C12_accepts_matching_devices rx _ ds ci ctx (hst ▸ h2) n hn).1 h3
  unfold Context.hasDeviceFilter DeviceMatches at *
  rw [g.2.2.2.2.2.1, g.2.2.2.2.2.2.1] at this
  exact this

/-- **C12** The limit: the 65th device is not represented in the 64 device bits; even when it
matches, the context does not accept it (in C++ the shift is undefined). -/
theorem C12_device_64 : ∃ (rx : Regex) (c : Cfg) (ds : List DeviceDesc) (ctx : Context) (d : DeviceDesc),
    (c.evaluateDeviceFilters rx ds).contexts[0]? = some ctx ∧ ctx.hasDeviceFilter = true ∧
    ds[64]? = some d ∧ DeviceMatches rx ctx d ∧ deviceMatchesFilter ctx 64 = false := by
  refine ⟨fun _ _ => false, { contexts := [{ deviceFilter := { string := ['a'] } }] },
    List.replicate 65 ⟨['a'], []⟩, _, ⟨['a'], []⟩, rfl, rfl, rfl, ?_, ?_⟩
  · unfold DeviceMatches FilterAccepts; simp
  · decide +kernel

/-! ### C42 -/

/-- A grab filter applies to a device: its text (compared with the name or the id) is empty, found
as regular expression, or equal. -/
def GrabApplies (rx : Regex) (name id : Str) (f : GrabDeviceFilter) : Prop :=
  f.string = [] ∨ (f.isRegex = true ∧ rx f.string (if f.byId then id else name) = true) ∨
    (f.isRegex = false ∧ (if f.byId then id else name) = f.string)

/-- **C42** The last filter which applies to a device decides whether it is grabbed. -/
theorem C42_last_filter_decides (rx : Regex) (before after : List GrabDeviceFilter) (f : GrabDeviceFilter)
    (name id : Str) (grab : Bool) (hf : GrabApplies rx name id f)
    (ha : ∀ g ∈ after, ¬ GrabApplies rx name id g) :
    evaluateGrabFilters rx (before ++ f :: after) name id grab = !f.invert := by
  have hnone : ∀ (l : List GrabDeviceFilter) (b : Bool), (∀ g ∈ l, ¬ GrabApplies rx name id g) →
      evaluateGrabFilters rx l name id b = b := by
    intro l
    induction l with
    | nil => intro b _; rfl
    | cons g l ih =>
      intro b h
      have hg : ¬ (g.toFilter.matchesUninverted rx (if g.byId then id else name) false = true) := by
        rw [matchesUninverted_iff]; exact h g (by simp)
      show evaluateGrabFilters rx l name id (if _ then _ else _) = b
      rw [if_neg hg]
      exact ih b (fun g' hg' => h g' (by simp [hg']))
  have happ : evaluateGrabFilters rx (before ++ f :: after) name id grab =
      evaluateGrabFilters rx (f :: after) name id (evaluateGrabFilters rx before name id grab) := by
    simp [evaluateGrabFilters, List.foldl_append]
  rw [happ]
  show evaluateGrabFilters rx after name id (if _ then _ else _) = _
  rw [if_pos ((matchesUninverted_iff _ _ _).2 hf), hnone after _ ha]

/-- **C42** Without an applicable filter the default decides. -/
theorem C42_default (rx : Regex) (filters : List GrabDeviceFilter) (name id : Str) (grab : Bool)
    (h : ∀ g ∈ filters, ¬ GrabApplies rx name id g) :
    evaluateGrabFilters rx filters name id grab = grab := by
  induction filters generalizing grab with
  | nil => rfl
  | cons g l ih =>
    have hg : ¬ (g.toFilter.matchesUninverted rx (if g.byId then id else name) false = true) := by
      rw [matchesUninverted_iff]; exact h g (by simp)
    show evaluateGrabFilters rx l name id (if _ then _ else _) = grab
    rw [if_neg hg]
    exact ih grab (fun g' hg' => h g' (by simp [hg']))

/-! ### Concrete cases -/

private def devs : List DeviceDesc := [⟨['a'], ['1']⟩, ⟨['b'], ['2']⟩]
private def cfg : Cfg := { contexts := [{ deviceFilter := { string := ['b'] } }, {}, { deviceFilter := { string := ['b'], invert := true } }] }
private def noRx : Regex := fun _ _ => false

example : (cfg.evaluateDeviceFilters noRx devs).contexts.map (·.matchingDeviceBits) = [2, allDeviceBits, 1] := by
  decide +kernel

example : ∃ ctx, (cfg.evaluateDeviceFilters noRx devs).contexts[0]? = some ctx ∧ AcceptsDevice ctx 1 ∧ ¬ AcceptsDevice ctx 0 := by
  refine ⟨_, rfl, ?_, ?_⟩
  · refine Or.inr (Or.inr ⟨by decide, ?_⟩); decide +kernel
  · unfold AcceptsDevice; rintro (h | ⟨h, _⟩ | ⟨_, h⟩)
    · simp [anyDeviceIndex] at h
    · simp [noDeviceIndex] at h
    · revert h; decide +kernel

-- grab everything named `b` but not the id `2`
private def grabs : List GrabDeviceFilter :=
  [{ string := ['b'] }, { string := ['2'], byId := true, invert := true }, { string := ['x'] }]

example : evaluateGrabFilters noRx grabs ['b'] ['2'] true = false ∧
    evaluateGrabFilters noRx grabs ['b'] ['3'] false = true ∧
    evaluateGrabFilters noRx grabs ['a'] ['3'] false = false := by decide +kernel

example : GrabApplies noRx ['b'] ['2'] { string := ['2'], byId := true, invert := true } ∧
    ¬ GrabApplies noRx ['b'] ['2'] { string := ['x'] } := by
  unfold GrabApplies; simp

end KM
