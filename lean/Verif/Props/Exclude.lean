import Verif.Lemmas.Exclude
import Verif.Spec.Abbreviations
import Verif.Lemmas.Held
import Verif.Lemmas.Frozen
import Verif.Props.Transparent
/-!
# C91: excluding an application from any mapping
-/
namespace KM

/-- contexts without filters for devices accept all devices -/
private def BitsKept (c : Cfg) : Prop := ∀ ctx ∈ c.contexts, ctx.hasDeviceFilter = false → ctx.matchingDeviceBits = allDeviceBits

private theorem BitsKept.evaluate {c : Cfg} (rx ds) : BitsKept (c.evaluateDeviceFilters rx ds) := by
  intro ctx hctx hn
  obtain ⟨ctx', _, he⟩ := List.mem_map.1 hctx
  subst he
  have hn : ctx'.hasDeviceFilter = false := hn
  show (if ctx'.hasDeviceFilter = true then _ else allDeviceBits) = _
  rw [hn]; rfl

private theorem BitsKept.step {st : Cfg × S} (h : BitsKept st.1) (op) : BitsKept (stageStep st op).1.1 := by
  cases op with
  | devices rx ds => exact .evaluate rx ds
  | _ => exact h

private theorem BitsKept.run {st : Cfg × S} (h : BitsKept st.1) (ops) : BitsKept (stageRun st ops).1.1 := by
  induction ops generalizing st with
  | nil => exact h
  | cons op ops ih => exact ih (h.step op)

private theorem bitsKept_make {contexts : List Context} (h : ∀ ctx ∈ contexts, ctx.matchingDeviceBits = allDeviceBits) : BitsKept (Cfg.make contexts) := by
  intro ctx hctx _
  obtain ⟨ctx', h1, he⟩ := List.mem_map.1 hctx
  subst he
  exact h ctx' h1

private theorem buf_step {st : Cfg × S} (h : st.2.buf = []) (op) : (stageStep st op).1.2.buf = [] := by
  cases op with
  | devices rx ds => exact h
  | input ev dev => rfl
  | contexts l => rfl
  | validate f =>
    show (validateState st.2 f).buf = []
    unfold validateState
    exact h

private theorem buf_run {st : Cfg × S} (h : st.2.buf = []) (ops) : (stageRun st ops).1.2.buf = [] := by
  induction ops generalizing st with
  | nil => exact h
  | cons op ops ih => exact ih (buf_step h op)

private theorem computeActive_head {cs : List Context} (seq : KeySequence) (l : List Nat) (h : ∀ i ∈ l, ∃ ctx j, cs[i]? = some ctx ∧ fallthroughContext cs i = some j)
    (j : Nat) (acc : List Nat) : ∃ r, computeActive cs seq l (j :: acc) = some (j :: r) := by
  induction l generalizing acc with
  | nil => exact ⟨acc, rfl⟩
  | cons i l ih =>
    obtain ⟨ctx, j', h1, h2⟩ := h i (by simp)
    have ih := ih (fun x hx => h x (by simp [hx]))
    unfold computeActive
    rw [h1, h2]
    simp only []
    split
    · split
      · exact ih acc
      · exact ih (acc ++ [j'])
    · exact ih acc

private theorem firstExcludes {contexts : List Context} {c : Cfg} (hcfg : CfgOf contexts c) (hbits : BitsKept c) (hlast : LastStops contexts) {l : List Nat}
    (h : ExcludedBy contexts l) : ∃ j, FirstExcludes c l j := by
  obtain ⟨i, is, hl, ⟨ctx, hi, hm1, hm2, hm3⟩, j, ctxj, hf, hj, hex⟩ := h.first
  have hdev : ∀ a b : Context, a.deviceFilter = b.deviceFilter → a.deviceIdFilter = b.deviceIdFilter → a.hasDeviceFilter = b.hasDeviceFilter := by
    intro a b h1 h2; unfold Context.hasDeviceFilter; rw [h1, h2]
  refine ⟨j, ?_, ?_⟩
  · intro seq
    obtain ⟨ctx', hi', _, _, _, e1, e2, e3, e4, _⟩ := hcfg.get i ctx hi
    have hfi : fallthroughContext c.contexts i = some j := (fallthroughContext_iff _ _ _).2 ((hcfg.fallsTo i j).2 hf)
    rw [hl]
    unfold computeActive
    rw [hi', hfi]
    simp only []
    rw [e1, e2, hdev ctx' ctx e3 e4, hm1, hm2, hm3]
    rw [if_pos (by simp [matchModifierFilter])]
    apply computeActive_head
    intro x hx
    have hlt := h.inRange x (by rw [hl]; simp [hx])
    obtain ⟨j', hj'⟩ := fallsTo_exists hlast hlt
    obtain ⟨ctx'', hx', _⟩ := hcfg.get x contexts[x] (List.getElem?_eq_getElem hlt)
    exact ⟨ctx'', j', hx', (fallthroughContext_iff _ _ _).2 ((hcfg.fallsTo x j').2 hj')⟩
  · obtain ⟨ctx', hj', _, e1, e2, _, _, e3, e4, _⟩ := hcfg.get j ctxj hj
    have hnd : ctx'.hasDeviceFilter = false := (hdev ctx' ctxj e3 e4).trans hex.devices
    refine ⟨ctx', hj', ⟨?_, hnd⟩, hbits ctx' (List.mem_of_getElem? hj') hnd⟩
    rw [e1, e2]; exact hex.first

private theorem heldAfter_concat' (a : KeySequence) (e : KeyEvent) (k : Key) :
    heldAfter (a ++ [e]) k = heldStep k (heldAfter a k) e := by
  rw [heldAfter_append]; rfl

private theorem pressFold_fst' (ops : List StageOp) (a : KeySequence × Int) :
    (ops.foldl pressStep a).1 = a.1 ++ inputEvents ops := by
  induction ops generalizing a with
  | nil => simp [inputEvents]
  | cons op ops ih => rw [List.foldl_cons, ih]; cases op <;> simp [pressStep, inputEvents]

private theorem pressDevice_concat' (past : List StageOp) (op : StageOp) :
    pressDevice (past ++ [op]) = (pressStep (inputEvents past, pressDevice past) op).2 := by
  unfold pressDevice
  rw [List.foldl_append]
  have h := pressFold_fst' past ([], noDeviceIndex)
  simp only [List.nil_append] at h
  rw [← h]; rfl

/-- the invariant, after the operations `past` -/
private structure Exclusion (contexts : List Context) (past : List StageOp) (st : Cfg × S) : Prop where
  cfg : CfgOf contexts st.1
  bits : BitsKept st.1
  inv : EInv st.1 st.2
  client : ExcludedBy contexts st.2.activeClient
  held : ∀ k, k ∈ st.2.seq.map (·.key) ↔ heldAfter (inputEvents past) k = true
  dev : pressDevice past ≠ noDeviceIndex → st.2.lastPressed = pressDevice past

private theorem ordinary {contexts c} (h : CfgOf contexts c) (ho : ∀ ctx ∈ contexts, ∀ m ∈ ctx.inputs, OrdinaryMapping m.input) :
    ∀ ctx ∈ c.contexts, ∀ m ∈ ctx.inputs, OrdinaryMapping m.input := by
  intro ctx' hc m hm
  obtain ⟨j, hlt', hj⟩ := List.mem_iff_getElem.1 hc
  have hlt : j < contexts.length := by rw [← h.length]; exact hlt'
  obtain ⟨ctx'', h1, _, h2, _⟩ := h.get j contexts[j] (List.getElem?_eq_getElem hlt)
  rw [List.getElem?_eq_getElem hlt', hj] at h1
  simp only [Option.some.injEq] at h1; subst h1
  exact ho contexts[j] (List.getElem_mem hlt) m (h2 ▸ hm)

private theorem setActive_excluded {c : Cfg} (hc : ∀ ctx ∈ c.contexts, ∀ m ∈ ctx.inputs, OrdinaryMapping m.input) {s : S} (ho : s.onRelease = []) (hb : s.buf = [])
    {l : List Nat} (hl : ∃ j, FirstExcludes c l j) : ∃ a b, setActiveClientContexts c s l = ({ s with activeClient := l, active := a, ub := b }, []) := by
  obtain ⟨j, hj⟩ := hl
  unfold setActiveClientContexts
  simp only []
  generalize hq : (if (decide (l.Pairwise (· ≤ ·)) && l.all (fun i => decide (i < c.contexts.length))) = true
    then s else { s with ub := true }) = s1
  have hs1 : ∃ b, s1 = { s with ub := b } := by
    rw [← hq]; split
    · exact ⟨s.ub, rfl⟩
    · exact ⟨true, rfl⟩
  obtain ⟨b, hs1⟩ := hs1
  subst hs1
  obtain ⟨r, b', he⟩ := updateActive_excluded hc { s with ub := b, activeClient := l } hj
  rw [he]
  refine ⟨j :: r, b', ?_⟩
  unfold cancelInactiveOnRelease
  simp only [ho, hb, List.filter_nil]

private theorem Exclusion.step {contexts past st} (hcfg : ExcludableConfig contexts) (h : Exclusion contexts past st) {op : StageOp}
    (hop : op.WhileExcluded contexts) : Exclusion contexts (past ++ [op]) (stageStep st op).1 := by
  have hc := ordinary h.cfg hcfg.ordinary
  cases op with
  | input ev dev =>
    obtain ⟨hk, hst, hd1, hd2⟩ := hop
    have hcl : (stageStep st (.input ev dev)).1.2.activeClient = st.2.activeClient := update_activeClient st.1 st.2 ev dev
    rcases hst with hd | hd
    · obtain ⟨h1, h2, _, h4⟩ := excluded_press hc h.inv hd hk hd1 hd2
      refine ⟨h.cfg, h.bits, h1, by rw [hcl]; exact h.client, ?_, ?_⟩
      · intro k
        rw [inputEvents_append]
        refine (h2 k).trans ?_
        rw [h.held]
        show _ ↔ heldAfter (inputEvents past ++ [ev]) k = true
        rw [heldAfter_concat']
        unfold heldStep
        by_cases hke : ev.key = k
        · simp [hke, hd]
        · have : ¬ k = ev.key := fun h => hke h.symm
          simp [hke, this]
      · rw [pressDevice_concat']
        unfold pressStep
        simp only [hd, true_and]
        intro hne
        refine h4.trans ?_
        simp only [h.held, Bool.not_eq_true]
        split
        · rfl
        · next hx =>
          rw [if_neg hx] at hne
          exact h.dev hne
    · obtain ⟨h1, h2, _, h4⟩ := excluded_release hc h.inv dev hd hk
      refine ⟨h.cfg, h.bits, h1, by rw [hcl]; exact h.client, ?_, ?_⟩
      · intro k
        rw [inputEvents_append]
        refine (h2 k).trans ?_
        rw [h.held]
        show _ ↔ heldAfter (inputEvents past ++ [ev]) k = true
        rw [heldAfter_concat']
        unfold heldStep
        by_cases hke : ev.key = k
        · simp [hke, hd]
        · have : ¬ k = ev.key := fun h => hke h.symm
          simp [hke, this]
      · rw [pressDevice_concat']
        unfold pressStep
        simp only [hd]
        intro hne
        refine h4.trans ?_
        simp only [reduceCtorEq, false_and, if_false] at hne ⊢
        exact h.dev hne
  | contexts l =>
    have hfe := firstExcludes h.cfg h.bits hcfg.last hop
    obtain ⟨r, b, hs⟩ := setActive_excluded hc h.inv.onRel h.inv.buf hfe
    have hst : (stageStep st (.contexts l)).1 = (st.1, { st.2 with activeClient := l, active := r, ub := b }) := by
      show (st.1, (setActiveClientContexts st.1 st.2 l).1) = _
      rw [hs]
    rw [hst]
    refine ⟨h.cfg, h.bits, ?_, hop, ?_, ?_⟩
    · have hi := h.inv
      exact ⟨hfe, hi.might, hi.timeout, hi.onRel, hi.buf, hi.reapplied, hi.seq, hi.nodup, hi.down, hi.keys⟩
    · rw [inputEvents_append]; simpa [inputEvents] using h.held
    · rw [pressDevice_concat']; exact h.dev
  | devices rx ds =>
    have hcf := h.cfg.evaluate rx ds
    refine ⟨hcf, .evaluate rx ds, ?_, h.client, ?_, ?_⟩
    · have hi := h.inv
      exact ⟨firstExcludes hcf (.evaluate rx ds) hcfg.last h.client, hi.might, hi.timeout, hi.onRel, hi.buf, hi.reapplied, hi.seq, hi.nodup, hi.down, hi.keys⟩
    · rw [inputEvents_append]
      intro k
      refine (h.held k).trans ?_
      simp [inputEvents]
    · rw [pressDevice_concat']; exact h.dev
  | validate f => exact hop.elim

private theorem Exclusion.run {contexts past st} (hcfg : ExcludableConfig contexts) (h : Exclusion contexts past st) (ops : List StageOp)
    (hops : ∀ op ∈ ops, op.WhileExcluded contexts) : Exclusion contexts (past ++ ops) (stageRun st ops).1 := by
  induction ops generalizing past st with
  | nil => rw [List.append_nil]; exact h
  | cons op ops ih =>
    have := ih (h.step hcfg (hops op (by simp))) (fun o ho => hops o (by simp [ho]))
    simpa [stageRun] using this

private theorem clear_fields {s : S} (h : s.isClear = true) : s.down = [] ∧ s.onRelease = [] ∧ s.seq = [] ∧ s.might = false ∧ s.timeout = none := by
  unfold S.isClear at h
  simp only [Bool.and_eq_true, List.isEmpty_iff, Bool.not_eq_true', Option.isNone_iff_eq_none] at h
  exact ⟨h.1.1.1.1.1.1, h.1.1.1.1.1.2, h.1.1.1.1.2, h.1.2, h.2⟩

/-- the beginning: the window gets the focus while nothing is held -/
private theorem Exclusion.begin {contexts before l} (hcfg : ExcludableConfig contexts) (hclear : (stageRun (stageInit contexts) before).1.2.isClear = true)
    (hl : ExcludedBy contexts l) :
    Exclusion contexts [] (stageStep (stageRun (stageInit contexts) before).1 (.contexts l)).1 ∧
      (stageStep (stageRun (stageInit contexts) before).1 (.contexts l)).2 = [] := by
  have hcf : CfgOf contexts (stageRun (stageInit contexts) before).1.1 := CfgOf.run (st := stageInit contexts) (cfgOf_make contexts) before
  have hbits : BitsKept (stageRun (stageInit contexts) before).1.1 := BitsKept.run (st := stageInit contexts) (bitsKept_make hcfg.bits) before
  have hbuf : (stageRun (stageInit contexts) before).1.2.buf = [] := buf_run (st := stageInit contexts) rfl before
  generalize (stageRun (stageInit contexts) before).1 = st at *
  obtain ⟨h1, h2, h3, h4, h5⟩ := clear_fields hclear
  have hfe := firstExcludes hcf hbits hcfg.last hl
  obtain ⟨r, b, hs⟩ := setActive_excluded (ordinary hcf hcfg.ordinary) h2 hbuf hfe
  have hst : stageStep st (.contexts l) = ((st.1, { st.2 with activeClient := l, active := r, ub := b }), []) := by
    show ((st.1, (setActiveClientContexts st.1 st.2 l).1), (setActiveClientContexts st.1 st.2 l).2) = _
    rw [hs]
  rw [hst]
  refine ⟨⟨hcf, hbits, ⟨hfe, h4, h5, h2, hbuf, fun _ => h1, ?_, ?_, ?_, ?_⟩, hl, ?_, fun hn => absurd rfl hn⟩, rfl⟩
  · simp [h3]
  · simp [h3]
  · simp only [h1]; exact ⟨by simp, by simp⟩
  · simp [h1, h3]
  · intro k; simp [h3, inputEvents, heldAfter]

/-- **C91**: while an application is excluded, a key which is pressed is output as that key, and its release as its release, whatever is mapped in other contexts. The repetition of a press
is output, unless another device than the last one used repeats it (then it may be ignored). -/
theorem C91_excluded (contexts : List Context) (hcfg : ExcludableConfig contexts) (before : List StageOp)
    (hclear : (stageRun (stageInit contexts) before).1.2.isClear = true) (l : List Nat) (hl : ExcludedBy contexts l)
    (during : List StageOp) (hduring : ∀ op ∈ during, op.WhileExcluded contexts)
    (ev : KeyEvent) (dev : Int) (hev : (StageOp.input ev dev).WhileExcluded contexts) :
    let out := (stageStep (stageRun (stageInit contexts) (before ++ .contexts l :: during)).1 (.input ev dev)).2
    let held := heldAfter (inputEvents during) ev.key
    (ev.state = .Down → held = false → out = [⟨ev.key, .Down, 0⟩]) ∧
    (ev.state = .Down → held = true → out = [⟨ev.key, .Down, 0⟩] ∨ out = []) ∧
    (ev.state = .Down → held = true → dev = noDeviceIndex ∨ dev = pressDevice during → out = [⟨ev.key, .Down, 0⟩]) ∧
    (ev.state = .Up → held = true → out = [⟨ev.key, .Up, 0⟩]) ∧
    (ev.state = .Up → held = false → out = []) := by
  intro out held
  have h := (Exclusion.begin hcfg hclear hl).1.run hcfg during hduring
  simp only [List.nil_append] at h
  have hrun : (stageRun (stageInit contexts) (before ++ .contexts l :: during)).1 =
      (stageRun (stageStep (stageRun (stageInit contexts) before).1 (.contexts l)).1 during).1 := by
    rw [stageRun_append]; rfl
  rw [← hrun] at h
  have hc := ordinary h.cfg hcfg.ordinary
  have hheld := h.held ev.key
  obtain ⟨hk, _, hd1, hd2⟩ := hev
  have hdn : ev.state = .Down → out = if ev.key ∈ (stageRun (stageInit contexts) (before ++ .contexts l :: during)).1.2.seq.map (·.key) ∧
      swallowed (stageRun (stageInit contexts) (before ++ .contexts l :: during)).1.2 dev then [] else [⟨ev.key, .Down, 0⟩] :=
    fun hd => (excluded_press hc h.inv hd hk hd1 hd2).2.2.1
  have hup : ev.state = .Up → out = if ev.key ∈ (stageRun (stageInit contexts) (before ++ .contexts l :: during)).1.2.seq.map (·.key)
      then [⟨ev.key, .Up, 0⟩] else [] :=
    fun hd => (excluded_release hc h.inv dev hd hk).2.2.1
  simp only [hheld] at hdn hup
  refine ⟨?_, ?_, ?_, ?_, ?_⟩
  · intro hd hh; rw [hdn hd, if_neg]; rintro ⟨h1, _⟩; exact absurd (hh.symm.trans h1) (by simp)
  · intro hd _; rw [hdn hd]
    split
    · exact Or.inr rfl
    · exact Or.inl rfl
  · intro hd hh hdev
    rw [hdn hd, if_neg]
    rintro ⟨_, h1, h2, _⟩
    rcases hdev with h3 | h3
    · exact h1 h3
    · exact h2 (h3.trans (h.dev (h3 ▸ h1)).symm)
  · intro hd hh; rw [hup hd, if_pos hh]
  · intro hd hh; rw [hup hd, if_neg]; intro h1; exact absurd (hh.symm.trans h1) (by simp)

/-- **C91**: that the focus changes to an excluded application (while nothing is held), or from one to another, and that devices are connected does not output anything. -/
theorem C91_switching_is_silent (contexts : List Context) (hcfg : ExcludableConfig contexts) (before : List StageOp)
    (hclear : (stageRun (stageInit contexts) before).1.2.isClear = true) (l : List Nat) (hl : ExcludedBy contexts l)
    (during : List StageOp) (hduring : ∀ op ∈ during, op.WhileExcluded contexts) :
    (stageStep (stageRun (stageInit contexts) before).1 (.contexts l)).2 = [] ∧
    ∀ op : StageOp, op.WhileExcluded contexts → (∀ ev dev, op ≠ .input ev dev) →
      (stageStep (stageRun (stageInit contexts) (before ++ .contexts l :: during)).1 op).2 = [] := by
  have hb := Exclusion.begin hcfg hclear hl
  refine ⟨hb.2, ?_⟩
  intro op hop hni
  have h := hb.1.run hcfg during hduring
  simp only [List.nil_append] at h
  have hrun : (stageRun (stageInit contexts) (before ++ .contexts l :: during)).1 =
      (stageRun (stageStep (stageRun (stageInit contexts) before).1 (.contexts l)).1 during).1 := by
    rw [stageRun_append]; rfl
  rw [← hrun] at h
  generalize (stageRun (stageInit contexts) (before ++ .contexts l :: during)).1 = st at *
  cases op with
  | input ev dev => exact absurd rfl (hni ev dev)
  | devices rx ds => rfl
  | validate f => rfl
  | contexts l =>
    obtain ⟨r, b, hs⟩ := setActive_excluded (ordinary h.cfg hcfg.ordinary) h.inv.onRel h.inv.buf (firstExcludes h.cfg h.bits hcfg.last hop)
    show (setActiveClientContexts st.1 st.2 l).2 = []
    rw [hs]

private theorem erase_iff {held : List Key} (hn : held.Nodup) (ev : KeyEvent) (k : Key) (hp : (ev.state = .Down ∧ ev.key ∉ held) ∨ (ev.state = .Up ∧ ev.key ∈ held)) :
    (heldKeys held ev).Nodup ∧ (k ∈ heldKeys held ev ↔ heldStep k (decide (k ∈ held)) ev = true) := by
  unfold heldKeys heldStep
  rcases hp with ⟨hd, hk⟩ | ⟨hd, hk⟩
  · refine ⟨?_, ?_⟩
    · rw [if_pos hd, List.nodup_append]
      refine ⟨hn, by simp, ?_⟩
      intro a ha b hb hab
      simp only [List.mem_singleton] at hb
      subst hb; subst hab; exact hk ha
    · rw [if_pos hd]
      by_cases hke : ev.key = k
      · simp [hke, hd]
      · have : ¬ k = ev.key := fun h => hke h.symm
        simp [hke, this]
  · have hnd : ¬ ev.state = .Down := by rw [hd]; simp
    refine ⟨?_, ?_⟩
    · rw [if_neg hnd]; exact hn.erase _
    · rw [if_neg hnd, hn.mem_erase_iff]
      by_cases hke : ev.key = k
      · simp [hke, hd]
      · have : ¬ k = ev.key := fun h => hke h.symm
        simp [hke, this]

/-- **C91**: altogether: what is typed while an application is excluded is output exactly as it is typed. -/
theorem C91_output_is_input (contexts : List Context) (hcfg : ExcludableConfig contexts) (before : List StageOp)
    (hclear : (stageRun (stageInit contexts) before).1.2.isClear = true) (l : List Nat) (hl : ExcludedBy contexts l)
    (during : List StageOp) (hduring : ∀ op ∈ during, op.WhileExcluded contexts) (hpr : pressedAndReleased [] (inputEvents during)) :
    (stageOutputs (stageRun (stageInit contexts) (before ++ [.contexts l])).1 during).flatten =
      (inputEvents during).map (fun ev => ⟨ev.key, ev.state, 0⟩) := by
  suffices H : ∀ (rest past : List StageOp) (held : List Key), (∀ op ∈ past, op.WhileExcluded contexts) → (∀ op ∈ rest, op.WhileExcluded contexts) →
      held.Nodup → (∀ k, k ∈ held ↔ heldAfter (inputEvents past) k = true) → pressedAndReleased held (inputEvents rest) →
      (stageOutputs (stageRun (stageInit contexts) (before ++ .contexts l :: past)).1 rest).flatten = (inputEvents rest).map (fun ev => ⟨ev.key, ev.state, 0⟩) by
    exact H during [] [] (by simp) hduring (by simp) (by simp [inputEvents, heldAfter]) hpr
  intro rest
  induction rest with
  | nil => intros; rfl
  | cons op rest ih =>
    intro past held hpast hrest hn hh hp
    have hop := hrest op (by simp)
    have hnext : (stageStep (stageRun (stageInit contexts) (before ++ .contexts l :: past)).1 op).1 =
        (stageRun (stageInit contexts) (before ++ .contexts l :: (past ++ [op]))).1 := by
      have : before ++ StageOp.contexts l :: (past ++ [op]) = (before ++ .contexts l :: past) ++ [op] := by simp
      rw [this, stageRun_append (stageInit contexts) (before ++ .contexts l :: past) [op]]; rfl
    have hpast' : ∀ o ∈ past ++ [op], o.WhileExcluded contexts := by
      intro o ho
      simp only [List.mem_append, List.mem_singleton] at ho
      rcases ho with ho | ho
      · exact hpast o ho
      · rw [ho]; exact hop
    rw [stageOutputs, List.flatten_cons, hnext]
    have hsil := (C91_switching_is_silent contexts hcfg before hclear l hl past hpast).2 op hop
    cases op with
    | input ev dev =>
      obtain ⟨hp1, hp2⟩ := hp
      have hex := C91_excluded contexts hcfg before hclear l hl past hpast ev dev hop
      simp only at hex
      have hkk : decide (ev.key ∈ held) = heldAfter (inputEvents past) ev.key := by
        have := hh ev.key
        cases hq : heldAfter (inputEvents past) ev.key with
        | false => simpa [hq] using this
        | true => simpa [hq] using this
      have hout : (stageStep (stageRun (stageInit contexts) (before ++ .contexts l :: past)).1 (.input ev dev)).2 = [⟨ev.key, ev.state, 0⟩] := by
        rcases hp1 with ⟨hd, hk⟩ | ⟨hd, hk⟩
        · rw [hd]; exact hex.1 hd (by rw [← hkk]; simpa using hk)
        · rw [hd]; exact hex.2.2.2.1 hd (by rw [← hkk]; simpa using hk)
      rw [hout, ih (past ++ [StageOp.input ev dev]) (heldKeys held ev) hpast' (fun o ho => hrest o (by simp [ho])) (erase_iff hn ev ev.key hp1).1 ?_ hp2]
      · rfl
      · intro k
        rw [(erase_iff hn ev k hp1).2, inputEvents_append]
        show _ ↔ heldAfter (inputEvents past ++ [ev]) k = true
        rw [heldAfter_concat']
        have : decide (k ∈ held) = heldAfter (inputEvents past) k := by
          have := hh k
          cases hq : heldAfter (inputEvents past) k with
          | false => simpa [hq] using this
          | true => simpa [hq] using this
        rw [this]
    | contexts l' =>
      rw [hsil (by intros; simp), ih (past ++ [StageOp.contexts l']) held hpast' (fun o ho => hrest o (by simp [ho])) hn (by rw [inputEvents_append]; simpa [inputEvents] using hh) hp]
      rfl
    | devices rx ds =>
      rw [hsil (by intros; simp), ih (past ++ [StageOp.devices rx ds]) held hpast' (fun o ho => hrest o (by simp [ho])) hn (by rw [inputEvents_append]; simpa [inputEvents] using hh) hp]
      rfl
    | validate f => exact hop.elim

/-! ### Examples -/

namespace ExcludeExample

/-- `[title="Remote Desktop"] Any >> Any` -/
def excluded : Context := { inputs := [⟨singleKey Key.any, 0⟩], outputs := [[⟨Key.any, .Down, 0⟩]] }

/-- `[default] A >> X`, `B{C} >> X`, `(D E) >> X`, `!F G >> X` -/
def default : Context :=
  { inputs := [⟨singleKey Key.KeyA, 0⟩,
      ⟨[⟨Key.KeyB, .Down, 0⟩, ⟨Key.KeyC, .Down, 0⟩, ⟨Key.KeyC, .UpAsync, 0⟩, ⟨Key.KeyB, .UpAsync, 0⟩], 0⟩,
      ⟨[⟨Key.KeyD, .DownAsync, 0⟩, ⟨Key.KeyE, .DownAsync, 0⟩, ⟨Key.KeyD, .Down, 0⟩, ⟨Key.KeyE, .Down, 0⟩, ⟨Key.KeyD, .UpAsync, 0⟩, ⟨Key.KeyE, .UpAsync, 0⟩], 0⟩,
      ⟨[⟨Key.KeyF, .Not, 0⟩, ⟨Key.KeyG, .Down, 0⟩, ⟨Key.KeyG, .UpAsync, 0⟩], 0⟩]
    outputs := [[⟨Key.KeyX, .Down, 0⟩]] }

private theorem states_of {input : KeySequence} (h : input.all (fun e => e.state == .Down || e.state == .Up || e.state == .DownAsync || e.state == .UpAsync || e.state == .Not) = true) :
    ∀ e ∈ input, e.state = .Down ∨ e.state = .Up ∨ e.state = .DownAsync ∨ e.state = .UpAsync ∨ e.state = .Not := by
  intro e he
  have := List.all_eq_true.1 h e he
  simpa [or_assoc] using this

private theorem groups_of {input : KeySequence} (h : input.all (fun e => e.state != .DownAsync || (e.key != Key.any && e.key != Key.timeout)) = true) :
    ∀ e ∈ input, e.state = .DownAsync → e.key ≠ Key.any ∧ e.key ≠ Key.timeout := by
  intro e he hd
  have := List.all_eq_true.1 h e he
  simpa [hd] using this

/-- decides `releases` -/
private def releasesOk : KeySequence → KeySequence → Bool
  | _, [] => true
  | before, e :: rest => (!(e.state == .Up || e.state == .UpAsync) || before.any (fun d => d.key == e.key && d.state == .Down)) && releasesOk (before ++ [e]) rest

private theorem releases_of (input before : KeySequence) (h : releasesOk before input = true) :
    ∀ a e b, input = a ++ e :: b → e.state = .Up ∨ e.state = .UpAsync → ∃ d ∈ before ++ a, d.key = e.key ∧ d.state = .Down := by
  induction input generalizing before with
  | nil => intro a e b h; simp at h
  | cons x input ih =>
    intro a e b hab hst
    simp only [releasesOk, Bool.and_eq_true] at h
    cases a with
    | nil =>
      simp only [List.nil_append, List.cons.injEq] at hab
      obtain ⟨h1, _⟩ := hab
      subst h1
      have h := h.1
      simp only [Bool.or_eq_true, Bool.not_eq_true', Bool.or_eq_false_iff, beq_eq_false_iff_ne, ne_eq, List.any_eq_true, Bool.and_eq_true, beq_iff_eq] at h
      rcases h with h | ⟨d, h1, h2, h3⟩
      · rcases hst with hst | hst
        · exact absurd hst h.1
        · exact absurd hst h.2
      · exact ⟨d, by simp [h1], h2, h3⟩
    | cons y a =>
      simp only [List.cons_append, List.cons.injEq] at hab
      obtain ⟨h1, h2⟩ := hab
      subst h1
      obtain ⟨d, hd, h3⟩ := ih (before ++ [x]) h.2 a e b h2 hst
      exact ⟨d, by simpa using hd, h3⟩

theorem config : ExcludableConfig [excluded, default] := by
  refine ⟨?_, ⟨default, rfl, rfl⟩, ?_⟩
  · intro ctx hctx m hm
    refine ⟨?_, states_of ?_, ?_, groups_of ?_, releases_of m.input [] ?_⟩ <;>
      (revert m; revert ctx; decide +kernel)
  · intro ctx hctx
    simp only [List.mem_cons, List.not_mem_nil, or_false] at hctx
    rcases hctx with h | h <;> (subst h; rfl)

theorem excludes : ExcludedBy [excluded, default] [0, 1] := by
  refine ⟨by decide, by decide, 0, [1], rfl, ⟨excluded, rfl, rfl, rfl, rfl⟩, 0, excluded, ⟨Nat.le_refl _, fun m h1 h2 => by omega, excluded, rfl, rfl⟩, rfl, ?_⟩
  exact ⟨⟨_, [], rfl, rfl, by decide, rfl⟩, rfl⟩

/-- `A` is typed in another window, then the excluded window gets the focus, and all keys of the mappings are typed -/
def typed : List StageOp := [.input ⟨Key.KeyA, .Down, 0⟩ 0, .input ⟨Key.KeyB, .Down, 0⟩ 0, .input ⟨Key.KeyC, .Down, 0⟩ 0, .input ⟨Key.KeyA, .Up, 0⟩ 0,
  .input ⟨Key.KeyD, .Down, 0⟩ 0, .contexts [0, 1], .input ⟨Key.KeyE, .Down, 0⟩ 0, .input ⟨Key.KeyG, .Down, 0⟩ 0, .input ⟨Key.KeyC, .Up, 0⟩ 0]

theorem clear : (stageRun (stageInit [excluded, default]) [.contexts [1], .input ⟨Key.KeyA, .Down, 0⟩ 0, .input ⟨Key.KeyA, .Up, 0⟩ 0]).1.2.isClear = true := by
  decide +kernel

theorem typed_ok : ∀ op ∈ typed, op.WhileExcluded [excluded, default] := by
  intro op hop
  simp only [typed, List.mem_cons, List.not_mem_nil, or_false] at hop
  rcases hop with h | h | h | h | h | h | h | h | h <;> subst h
  all_goals first
    | exact excludes
    | exact ⟨rfl, by decide, by decide, by decide⟩

example : (stageOutputs (stageRun (stageInit [excluded, default]) ([.contexts [1], .input ⟨Key.KeyA, .Down, 0⟩ 0, .input ⟨Key.KeyA, .Up, 0⟩ 0] ++ [.contexts [0, 1]])).1
    typed).flatten = (inputEvents typed).map (fun ev => ⟨ev.key, ev.state, 0⟩) :=
  C91_output_is_input _ config _ clear _ excludes typed typed_ok (by
    simp only [typed, inputEvents, pressedAndReleased, heldKeys]
    decide)

/-- in the other window the mappings apply -/
example : stageOutputs (stageInit [excluded, default]) [.contexts [1], .input ⟨Key.KeyA, .Down, 0⟩ 0, .input ⟨Key.KeyA, .Up, 0⟩ 0] =
    [[], [⟨Key.KeyX, .Down, 0⟩], [⟨Key.KeyX, .Up, 0⟩]] := by decide +kernel

/-- `? A !A >> X` -/
def noMight : Context := { inputs := [⟨[⟨Key.none, .NoMightMatch, 0⟩, ⟨Key.KeyA, .Down, 0⟩, ⟨Key.KeyA, .Up, 0⟩], 0⟩], outputs := [[⟨Key.KeyX, .Down, 0⟩]] }

/-- `!A B !A >> X` -/
def notThenUp : Context :=
  { inputs := [⟨[⟨Key.KeyA, .Not, 0⟩, ⟨Key.KeyB, .Down, 0⟩, ⟨Key.KeyA, .Up, 0⟩, ⟨Key.KeyB, .UpAsync, 0⟩], 0⟩], outputs := [[⟨Key.KeyX, .Down, 0⟩]] }

/-- `ButtonLeft >> X` -/
def button : Context := { inputs := [⟨singleKey Key.ButtonLeft, 0⟩], outputs := [[⟨Key.KeyX, .Down, 0⟩]] }

end ExcludeExample

/-- **C91**: the restrictions are needed: the application is not excluded from a mapping which begins with `?` and ends with a release, since `Any` does not match the release. -/
theorem C91_noMight_counterexample :
    stageOutputs (stageInit [ExcludeExample.excluded, ExcludeExample.noMight]) [.contexts [0, 1], .input ⟨Key.KeyA, .Down, 0⟩ 0, .input ⟨Key.KeyA, .Up, 0⟩ 0] =
      [[], [⟨Key.KeyA, .Down, 0⟩], [⟨Key.KeyX, .Down, 0⟩, ⟨Key.KeyX, .Up, 0⟩, ⟨Key.KeyA, .Up, 0⟩]] := by decide +kernel

/-- **C91**: nor from a mapping of the release of a key which it does not press. -/
theorem C91_release_counterexample :
    stageOutputs (stageInit [ExcludeExample.excluded, ExcludeExample.notThenUp])
        [.contexts [0, 1], .input ⟨Key.KeyA, .Down, 0⟩ 0, .input ⟨Key.KeyB, .Down, 0⟩ 0, .input ⟨Key.KeyA, .Up, 0⟩ 0] =
      [[], [⟨Key.KeyA, .Down, 0⟩], [⟨Key.KeyB, .Down, 0⟩], [⟨Key.KeyX, .Down, 0⟩, ⟨Key.KeyX, .Up, 0⟩, ⟨Key.KeyA, .Up, 0⟩]] := by decide +kernel

/-- **C91**: nor from mappings of mouse buttons, which `Any` does not match. -/
theorem C91_button_counterexample :
    stageOutputs (stageInit [ExcludeExample.excluded, ExcludeExample.button]) [.contexts [0, 1], .input ⟨Key.ButtonLeft, .Down, 0⟩ 0] =
      [[], [⟨Key.KeyX, .Down, 0⟩]] := by decide +kernel

end KM
