import Verif.Lemmas.Active
/-!
# Active contexts (C09, C10, C11)
-/
namespace KM

/-! ### C11 -/

theorem CfgOf.lastStops {contexts c} (h : CfgOf contexts c) (hl : LastStops contexts) : LastStops c.contexts := by
  obtain ⟨ctx, h1, h2⟩ := hl
  rw [List.getLast?_eq_getElem?] at h1
  obtain ⟨ctx', h3, h4, _⟩ := h.get _ ctx h1
  refine ⟨ctx', ?_, h4.trans h2⟩
  rw [List.getLast?_eq_getElem?, h.length]; exact h3

structure ActiveInv (contexts : List Context) (st : Cfg × S) : Prop where
  cfg : CfgOf contexts st.1
  client : st.2.activeClient.Pairwise (· ≤ ·) ∧ ∀ i ∈ st.2.activeClient, i < contexts.length
  sorted : st.2.active.Pairwise (· < ·)
  stops : ∀ j ∈ st.2.active, ∃ ctx, contexts[j]? = some ctx ∧ ctx.fallthrough = false
  seq : ∀ e ∈ st.2.seq, e.state = .UpMatched → e.key = Key.timeout

theorem eventInv_upMatched : EventInv (fun e => e.state = .UpMatched → e.key = Key.timeout) where
  matched := by intro e _ _ h; simp at h
  timeout := by intro e h _ _; exact h

private theorem ActiveFor.stops {contexts c seq client active} (hc : CfgOf contexts c)
    (h : ActiveFor c.contexts seq client active) :
    ∀ j ∈ active, ∃ ctx, contexts[j]? = some ctx ∧ ctx.fallthrough = false := by
  intro j hj
  obtain ⟨i, _, ctx, _, _, hf⟩ := (h.2 j).1 hj
  exact ((hc.fallsTo i j).1 hf).2.2

theorem ActiveInv.step {contexts} (hl : LastStops contexts) {st : Cfg × S}
    (h : ActiveInv contexts st) {op} (hop : op.isValid contexts.length) :
    ActiveInv contexts (stageStep st op).1 := by
  have hcfg := h.cfg.step op
  have hls := h.cfg.lastStops hl
  have hlen := h.cfg.length
  cases op with
  | input ev dev =>
    have hcl : (update st.1 st.2 ev dev).1.activeClient = st.2.activeClient := update_activeClient _ _ _ _
    have hseq : ∀ e ∈ (update st.1 st.2 ev dev).1.seq, e.state = .UpMatched → e.key = Key.timeout :=
      eventInv_upMatched.update h.seq (by
        intro hs; rcases hop with h | h <;> simp [h] at hs)
    have hact := applyInput_active st.1 { st.2 with exitPos := advanceExit st.2.exitPos ev } ev dev
    rcases hact with ⟨ha, hq⟩ | ⟨s0, ha, hq, _⟩
    · refine ⟨hcfg, ?_, ?_, ?_, hseq⟩
      · show (update st.1 st.2 ev dev).1.activeClient.Pairwise _ ∧ _
        rw [show (stageStep st (.input ev dev)).1.2.activeClient = _ from hcl, hcl]; exact h.client
      · show (applyInput st.1 _ ev dev).active.Pairwise _
        rw [ha]; exact h.sorted
      · show ∀ j ∈ (applyInput st.1 _ ev dev).active, _
        rw [ha]; exact h.stops
    · obtain ⟨r, hr, hfor⟩ := computeActive_activeFor (seq := s0.seq) hls h.client.1 (by rw [hlen]; exact h.client.2)
      have ha := ha r hr
      refine ⟨hcfg, ?_, ?_, ?_, hseq⟩
      · show (update st.1 st.2 ev dev).1.activeClient.Pairwise _ ∧ _
        rw [show (stageStep st (.input ev dev)).1.2.activeClient = _ from hcl, hcl]; exact h.client
      · show (applyInput st.1 _ ev dev).active.Pairwise _
        rw [ha]; exact hfor.1
      · show ∀ j ∈ (applyInput st.1 _ ev dev).active, _
        rw [ha]; exact hfor.stops h.cfg
  | contexts l =>
    obtain ⟨r, hr, hfor⟩ := computeActive_activeFor (seq := st.2.seq) hls hop.1 (by rw [hlen]; exact hop.2)
    have ha := setActiveClientContexts_active st.1 st.2 l hr
    refine ⟨hcfg, ?_, ?_, ?_, ?_⟩
    · have : (stageStep st (.contexts l)).1.2.activeClient = l :=
        congrArg Prod.snd (setActiveClientContexts_frozen st.1 st.2 l)
      rw [this]; exact hop
    · show (setActiveClientContexts st.1 st.2 l).1.active.Pairwise _
      rw [ha]; exact hfor.1
    · show ∀ j ∈ (setActiveClientContexts st.1 st.2 l).1.active, _
      rw [ha]; exact hfor.stops h.cfg
    · show ∀ e ∈ (setActiveClientContexts st.1 st.2 l).1.seq, _
      rw [setActiveClientContexts_seq]; exact h.seq
  | devices rx ds => exact ⟨hcfg, h.client, h.sorted, h.stops, h.seq⟩
  | validate f =>
    exact ⟨hcfg, h.client, h.sorted, h.stops, fun e he => h.seq e (List.mem_filter.1 he |>.1)⟩

theorem ActiveInv.run {contexts} (hl : LastStops contexts) {st : Cfg × S}
    (h : ActiveInv contexts st) {ops : List StageOp} (hops : ∀ op ∈ ops, op.isValid contexts.length) :
    ActiveInv contexts (stageRun st ops).1 := by
  induction ops generalizing st with
  | nil => exact h
  | cons op ops ih => exact ih (h.step hl (hops op (by simp))) (fun o ho => hops o (by simp [ho]))

theorem activeInv_init (contexts) : ActiveInv contexts (stageInit contexts) :=
  ⟨cfgOf_make contexts, by simp [stageInit], by simp [stageInit], by simp [stageInit], by simp [stageInit]⟩

/-- **C11** In all histories the active contexts are strictly increasing, valid, and none of them
falls through. -/
theorem C11_active_contexts_valid (contexts : List Context) (hl : LastStops contexts) (ops : List StageOp)
    (hops : ∀ op ∈ ops, op.isValid contexts.length) :
    (stageRun (stageInit contexts) ops).1.2.active.Pairwise (· < ·) ∧
    ∀ j ∈ (stageRun (stageInit contexts) ops).1.2.active,
      ∃ ctx, contexts[j]? = some ctx ∧ ctx.fallthrough = false :=
  have h := (activeInv_init contexts).run hl hops
  ⟨h.sorted, h.stops⟩

/-- dropping handled timeouts from the pending sequence does not change which contexts are active -/
private theorem isActive_dropWhile {cs : List Context} {seq client}
    (hs : ∀ e ∈ seq, e.state = .UpMatched → e.key = Key.timeout)
    (hm : ∀ ctx ∈ cs, ∀ m ∈ ctx.modifierFilter, m.key ≠ Key.timeout) (j : Nat) :
    IsActive cs (seq.dropWhile (fun e => e.state == KeyState.UpMatched)) client j ↔ IsActive cs seq client j := by
  unfold IsActive
  refine exists_congr fun i => and_congr_right fun hi => exists_congr fun ctx => ?_
  refine and_congr_right fun hctx => and_congr_left fun _ => ?_
  unfold FiltersMatch
  refine and_congr_left fun _ => ?_
  have : ModifiersHeld (seq.dropWhile (fun e => e.state == KeyState.UpMatched)) ctx.modifierFilter ↔
      ModifiersHeld seq ctx.modifierFilter := by
    unfold ModifiersHeld
    refine forall_congr' fun m => forall_congr' fun hmem => ?_
    have hne := hm ctx (List.mem_of_getElem? hctx) m hmem
    have : (∃ e ∈ seq.dropWhile (fun e => e.state == KeyState.UpMatched), e.key = m.key) ↔ ∃ e ∈ seq, e.key = m.key := by
      constructor
      · rintro ⟨e, he, h⟩; exact ⟨e, (List.dropWhile_sublist _).mem he, h⟩
      · rintro ⟨e, he, h⟩
        refine ⟨e, ?_, h⟩
        clear hm
        induction seq with
        | nil => exact he
        | cons a l ih =>
          rw [List.dropWhile_cons]
          split
          · next ha =>
            rcases List.mem_cons.1 he with rfl | he
            · exact absurd (h ▸ hs e (by simp) (by simpa using ha)) hne
            · exact ih (fun e he => hs e (by simp [he])) he
          · exact he
    rw [this]
  rw [this]

/-- **C11** While no devices change (and `validate_state` is not called), after the client set the
active contexts, a context is active exactly if some context set by the client, whose filters match
the pending and held keys, falls through to it. -/
theorem C11_active_exactly (contexts : List Context) (hl : LastStops contexts) (ops ops' : List StageOp)
    (l : List Nat) (hops : ∀ op ∈ ops ++ StageOp.contexts l :: ops', op.isValid contexts.length)
    (hops' : ∀ op ∈ ops', op.isInput = true)
    (hm : ∀ ctx ∈ contexts, ∀ m ∈ ctx.modifierFilter, m.key ≠ Key.timeout) (j : Nat) :
    let st := (stageRun (stageInit contexts) (ops ++ StageOp.contexts l :: ops')).1
    j ∈ st.2.active ↔ IsActive st.1.contexts st.2.seq st.2.activeClient j := by
  have key : ∀ (ops' : List StageOp) (st : Cfg × S), ActiveInv contexts st →
      (∀ op ∈ ops', op.isInput = true) → (∀ op ∈ ops', op.isValid contexts.length) →
      (∀ j, j ∈ st.2.active ↔ IsActive st.1.contexts st.2.seq st.2.activeClient j) →
      ∀ j, j ∈ (stageRun st ops').1.2.active ↔
        IsActive (stageRun st ops').1.1.contexts (stageRun st ops').1.2.seq (stageRun st ops').1.2.activeClient j := by
    intro ops'
    induction ops' with
    | nil => intro st _ _ _ h; exact h
    | cons op ops' ih =>
      intro st hinv hi hv h
      have hinv' := hinv.step hl (hv op (by simp))
      refine ih _ hinv' (fun o ho => hi o (by simp [ho])) (fun o ho => hv o (by simp [ho])) ?_
      have hop := hi op (by simp)
      have hval := hv op (by simp)
      have hls := hinv.cfg.lastStops hl
      have hlen := hinv.cfg.length
      cases op with
      | input ev dev =>
        have hcl : (update st.1 st.2 ev dev).1.activeClient = st.2.activeClient := update_activeClient _ _ _ _
        have hact := applyInput_active st.1 { st.2 with exitPos := advanceExit st.2.exitPos ev } ev dev
        show ∀ j, j ∈ (applyInput st.1 { st.2 with exitPos := advanceExit st.2.exitPos ev } ev dev).active ↔
          IsActive st.1.contexts (applyInput st.1 { st.2 with exitPos := advanceExit st.2.exitPos ev } ev dev).seq
            (update st.1 st.2 ev dev).1.activeClient j
        rw [hcl]
        rcases hact with ⟨ha, hq⟩ | ⟨s0, ha, hq, hP⟩
        · rw [ha, hq]; exact h
        · obtain ⟨r, hr, hfor⟩ := computeActive_activeFor (seq := s0.seq) hls hinv.client.1
            (by rw [hlen]; exact hinv.client.2)
          rw [ha r hr, hq]
          intro j
          rw [hfor.2 j, isActive_dropWhile]
          · exact hP _ eventInv_upMatched (by intro hs; rcases hval with h | h <;> simp [h] at hs) hinv.seq
          · intro ctx' hctx'
            obtain ⟨i, hi', hget⟩ := List.getElem_of_mem hctx'
            obtain ⟨ctx'', h1, _, _, _, h2, _⟩ := hinv.cfg.get i contexts[i]
              (List.getElem?_eq_getElem (hlen ▸ hi'))
            rw [List.getElem?_eq_getElem hi', hget] at h1
            simp only [Option.some.injEq] at h1
            subst h1
            rw [h2]
            exact hm _ (List.getElem_mem _)
      | contexts l =>
        obtain ⟨r, hr, hfor⟩ := computeActive_activeFor (seq := st.2.seq) hls hval.1 (by rw [hlen]; exact hval.2)
        have ha := setActiveClientContexts_active st.1 st.2 l hr
        have hcl : (setActiveClientContexts st.1 st.2 l).1.activeClient = l :=
          congrArg Prod.snd (setActiveClientContexts_frozen st.1 st.2 l)
        show ∀ j, j ∈ (setActiveClientContexts st.1 st.2 l).1.active ↔
          IsActive st.1.contexts (setActiveClientContexts st.1 st.2 l).1.seq
            (setActiveClientContexts st.1 st.2 l).1.activeClient j
        rw [ha, setActiveClientContexts_seq, hcl]
        exact hfor.2
      | devices rx ds => simp [StageOp.isInput] at hop
      | validate f => simp [StageOp.isInput] at hop
  have happ : ∀ (a b : List StageOp) (st : Cfg × S), (stageRun st (a ++ b)).1 = (stageRun (stageRun st a).1 b).1 := by
    intro a b
    induction a with
    | nil => intro st; rfl
    | cons op a ih => intro st; exact ih _
  intro st
  have hinv := (activeInv_init contexts).run hl (ops := ops) (fun o ho => hops o (by simp [ho]))
  have hst : st = (stageRun (stageStep (stageRun (stageInit contexts) ops).1 (.contexts l)).1 ops').1 := by
    show (stageRun (stageInit contexts) (ops ++ StageOp.contexts l :: ops')).1 = _
    rw [happ]; rfl
  generalize (stageRun (stageInit contexts) ops).1 = st0 at *
  rw [hst]
  have hval : (StageOp.contexts l).isValid contexts.length := hops _ (by simp)
  have hinv' := hinv.step hl hval
  refine key ops' _ hinv' hops' (fun o ho => hops o (by simp [ho])) ?_ j
  obtain ⟨r, hr, hfor⟩ := computeActive_activeFor (seq := st0.2.seq) (hinv.cfg.lastStops hl) hval.1
    (by rw [hinv.cfg.length]; exact hval.2)
  have ha := setActiveClientContexts_active st0.1 st0.2 l hr
  have hcl : (setActiveClientContexts st0.1 st0.2 l).1.activeClient = l :=
    congrArg Prod.snd (setActiveClientContexts_frozen st0.1 st0.2 l)
  show ∀ j, j ∈ (setActiveClientContexts st0.1 st0.2 l).1.active ↔
    IsActive st0.1.contexts (setActiveClientContexts st0.1 st0.2 l).1.seq
      (setActiveClientContexts st0.1 st0.2 l).1.activeClient j
  rw [ha, setActiveClientContexts_seq, hcl]
  exact hfor.2

/-! ### C10 -/

/-- What a context switch to the contexts `C` has to do: release the outputs of the contexts which
are no longer active, in order, and then trigger the outputs of the ones which became active. -/
def switchContexts (c : Cfg) (s : S) (C : List Nat) : S :=
  let released := s.active.filter (fun i => i ∉ C)
  let triggered := C.filter (fun i => i ∉ s.active)
  let s := { s with active := C }
  let s := released.foldl (fun s i => onContextActiveEvent c s ⟨Key.ContextActive, .Up, 0⟩ i) s
  triggered.foldl (fun s i => onContextActiveEvent c s ⟨Key.ContextActive, .Down, 0⟩ i) s

private theorem switchContexts_same {c : Cfg} {s : S} {C : List Nat} (h1 : s.active.filter (fun i => decide (i ∉ C)) = [])
    (h2 : C.filter (fun i => decide (i ∉ s.active)) = []) : switchContexts c s C = { s with active := C } := by
  unfold switchContexts
  simp only [h1, h2, List.foldl_nil]

private theorem updateActiveContexts_eq (c : Cfg) (s : S) (C : List Nat) (hp : s.active.Pairwise (· < ·))
    (hc : C.Pairwise (· < ·)) (h : computeActive c.contexts s.seq s.activeClient [] = some C) :
    updateActiveContexts c s = switchContexts c s C := by
  unfold updateActiveContexts switchContexts
  rw [h]
  simp only []
  rw [mergeContexts_spec _ _ hp hc]
  simp

/-- **C10** Setting the active contexts, in any state reached by a valid history: exactly the contexts
which were active and are not any more (in increasing order) are deactivated, then exactly the
contexts which were not active before are activated, each once. -/
theorem C10_context_switch (contexts : List Context) (hl : LastStops contexts) (ops : List StageOp)
    (hops : ∀ op ∈ ops, op.isValid contexts.length) (l : List Nat)
    (hv : (StageOp.contexts l).isValid contexts.length) :
    let st := (stageRun (stageInit contexts) ops).1
    ∃ C, C.Pairwise (· < ·) ∧ (∀ j, j ∈ C ↔ IsActive st.1.contexts st.2.seq l j) ∧
      setActiveClientContexts st.1 st.2 l =
        let s := cancelInactiveOnRelease st.1 (switchContexts st.1 { st.2 with activeClient := l } C)
        ({ s with buf := [] }, s.buf) := by
  intro st
  have hinv : ActiveInv contexts st := (activeInv_init contexts).run hl hops
  obtain ⟨r, hr, hfor⟩ := computeActive_activeFor (seq := st.2.seq) (hinv.cfg.lastStops hl) hv.1
    (by rw [hinv.cfg.length]; exact hv.2)
  refine ⟨r, hfor.1, hfor.2, ?_⟩
  unfold setActiveClientContexts
  have hok : (decide (l.Pairwise (· ≤ ·)) && l.all (fun i => decide (i < st.1.contexts.length))) = true := by
    simp only [Bool.and_eq_true, decide_eq_true_eq, List.all_eq_true]
    exact ⟨hv.1, fun i hi => by rw [hinv.cfg.length]; exact hv.2 i hi⟩
  simp only [hok, if_true]
  rw [updateActiveContexts_eq _ _ r]
  · exact hinv.sorted
  · exact hfor.1
  · exact hr

/-- **C10** Setting the contexts which are already set neither outputs anything nor changes what is
held (except that pending on-release outputs of inactive contexts are dropped). -/
theorem C10_same_contexts (contexts : List Context) (hl : LastStops contexts) (ops : List StageOp)
    (hops : ∀ op ∈ ops, op.isValid contexts.length) (l : List Nat)
    (hv : (StageOp.contexts l).isValid contexts.length) :
    let st := (stageRun (stageInit contexts) (ops ++ [.contexts l])).1
    (setActiveClientContexts st.1 st.2 l).2 = [] ∧
    (setActiveClientContexts st.1 st.2 l).1.down = st.2.down ∧
    (setActiveClientContexts st.1 st.2 l).1.active = st.2.active := by
  have hops' : ∀ op ∈ ops ++ [.contexts l], op.isValid contexts.length := by
    intro op hop
    rcases List.mem_append.1 hop with h | h
    · exact hops op h
    · simp only [List.mem_singleton] at h; subst h; exact hv
  obtain ⟨C, hC, hiff, heq⟩ := C10_context_switch contexts hl (ops ++ [.contexts l]) hops' l hv
  intro st
  have hinv : ActiveInv contexts st := (activeInv_init contexts).run hl hops'
  have happ : st = (stageStep (stageRun (stageInit contexts) ops).1 (.contexts l)).1 := by
    have : ∀ (a : List StageOp) (st : Cfg × S), (stageRun st (a ++ [.contexts l])).1 = (stageStep (stageRun st a).1 (.contexts l)).1 := by
      intro a
      induction a with
      | nil => intro st; rfl
      | cons op a ih => intro st; exact ih _
    exact this ops _
  have hinv0 := (activeInv_init contexts).run hl hops
  have hbuf : st.2.buf = [] := by rw [happ]; rfl
  generalize (stageRun (stageInit contexts) ops).1 = st0 at *
  obtain ⟨r, hr, hfor⟩ := computeActive_activeFor (seq := st0.2.seq) (hinv0.cfg.lastStops hl) hv.1
    (by rw [hinv0.cfg.length]; exact hv.2)
  have hact : st.2.active = r := by rw [happ]; exact setActiveClientContexts_active st0.1 st0.2 l hr
  have hseq : st.2.seq = st0.2.seq := by rw [happ]; exact setActiveClientContexts_seq st0.1 st0.2 l
  have hcfg : st.1 = st0.1 := by rw [happ]; rfl
  have hCr : ∀ j, j ∈ C ↔ j ∈ r := by
    intro j
    rw [hiff, hfor.2 j]
    show IsActive st.1.contexts st.2.seq l j ↔ _
    rw [hcfg, hseq]
  have e1 : st.2.active.filter (fun i => decide (i ∉ C)) = [] := by
    rw [List.filter_eq_nil_iff]
    intro a ha
    rw [hact, ← hCr] at ha
    simpa using ha
  have e2 : C.filter (fun i => decide (i ∉ st.2.active)) = [] := by
    rw [List.filter_eq_nil_iff]
    intro a ha
    rw [hCr, ← hact] at ha
    simpa using ha
  have e3 : switchContexts st.1 { st.2 with activeClient := l } C = { st.2 with activeClient := l, active := C } :=
    switchContexts_same e1 e2
  have heq : setActiveClientContexts st.1 st.2 l = _ := heq
  rw [show (stageRun (stageInit contexts) (ops ++ [.contexts l])).1 = st from rfl, e3] at heq
  rw [heq]
  refine ⟨hbuf, rfl, ?_⟩
  show C = st.2.active
  rw [hact]
  apply List.Perm.eq_of_pairwise (le := fun a b => a < b) _ hC hfor.1
  · exact (List.perm_ext_iff_of_nodup (hC.imp (fun h => Nat.ne_of_lt h)) (hfor.1.imp (fun h => Nat.ne_of_lt h))).2 hCr
  · intro a b _ _ h1 h2; omega

/-! ### C09 -/

private theorem mapsCommand_iff {contexts c} (h : CfgOf contexts c) (i : Nat) (idx : Int) (out : KeySequence) :
    MapsCommand c.contexts i idx out ↔ MapsCommand contexts i idx out := by
  unfold MapsCommand
  constructor
  · rintro ⟨j, ctx, h1, h2, h3⟩
    rw [h.fallsTo] at h1
    obtain ⟨ctx', h4, h5⟩ := h1.2.2
    obtain ⟨ctx'', h6, _, _, _, _, _, _, _, h7⟩ := h.get j ctx' h4
    rw [h2] at h6
    simp only [Option.some.injEq] at h6
    subst h6
    refine ⟨j, ctx', h1, h4, ?_⟩
    rw [h7, sortCommandOutputs, mem_sortBy] at h3
    exact h3
  · rintro ⟨j, ctx, h1, h2, h3⟩
    obtain ⟨ctx'', h6, _, _, _, _, _, _, _, h7⟩ := h.get j ctx h2
    refine ⟨j, ctx'', (h.fallsTo i j).2 h1, h6, ?_⟩
    rw [h7, sortCommandOutputs, mem_sortBy]
    exact h3

theorem findCommandOutput_spec {contexts c} (h : CfgOf contexts c) (idx : Int) (rev : List Nat)
    (hv : ∀ i ∈ rev, ∃ j, FallsTo contexts i j) :
    (∃ ref out before i after, findCommandOutput c.contexts idx rev = (some (ref, out), false) ∧
      rev = before ++ i :: after ∧ MapsCommand contexts i idx out ∧ ∀ j ∈ before, ∀ o, ¬ MapsCommand contexts j idx o) ∨
    (findCommandOutput c.contexts idx rev = (none, false) ∧ ∀ j ∈ rev, ∀ o, ¬ MapsCommand contexts j idx o) := by
  induction rev with
  | nil => right; exact ⟨rfl, by simp⟩
  | cons i is ih =>
    obtain ⟨j, hj⟩ := hv i (by simp)
    unfold findCommandOutput
    rw [(fallthroughContext_iff _ i j).2 ((h.fallsTo i j).2 hj)]
    obtain ⟨ctx, h1, h2⟩ := hj.2.2
    obtain ⟨ctx', h3, _, _, _, _, _, _, _, h4⟩ := h.get j ctx h1
    simp only [h3]
    have hs := searchCommand_spec ctx'.commandOutputs (h4 ▸ sortCommandOutputs_sorted _) idx
    cases hr : searchCommand ctx'.commandOutputs idx with
    | some r =>
      obtain ⟨pos, out⟩ := r
      left
      have := List.mem_of_getElem? (hs.1 pos out hr)
      rw [h4, sortCommandOutputs, mem_sortBy] at this
      exact ⟨_, out, [], i, is, rfl, rfl, ⟨j, ctx, hj, h1, this⟩, by simp⟩
    | none =>
      have hno : ∀ o, ¬ MapsCommand contexts i idx o := by
        rintro o ⟨j', ctx'', h5, h6, h7⟩
        have := h5.functional hj
        subst this
        rw [h1] at h6
        simp only [Option.some.injEq] at h6
        subst h6
        refine hs.2 hr ⟨o, idx⟩ ?_ rfl
        rw [h4, sortCommandOutputs, mem_sortBy]; exact h7
      rcases ih (fun i hi => hv i (by simp [hi])) with ⟨ref, out, before, k, after, h5, h6, h7, h8⟩ | ⟨h5, h6⟩
      · left
        refine ⟨ref, out, i :: before, k, after, h5, by rw [h6]; rfl, h7, ?_⟩
        intro j hj
        rcases List.mem_cons.1 hj with rfl | hj
        · exact hno
        · exact h8 j hj
      · right
        refine ⟨h5, ?_⟩
        intro j hj
        rcases List.mem_cons.1 hj with rfl | hj
        · exact hno
        · exact h6 j hj

/-- The output of the last active context is unique. -/
theorem LastMapped.unique {cs active idx out out'} (hu : CommandsUnique cs) (h : LastMapped cs active idx out)
    (h' : LastMapped cs active idx out') : out = out' := by
  obtain ⟨b, i, a, h1, h2, h3⟩ := h
  obtain ⟨b', i', a', h1', h2', h3'⟩ := h'
  have hii : i = i' := by
    rw [h1] at h1'
    rcases List.append_eq_append_iff.1 h1' with ⟨x, hx1, hx2⟩ | ⟨x, hx1, hx2⟩
    · cases x with
      | nil => simp at hx2; exact hx2.1
      | cons y ys =>
        simp only [List.cons_append, List.cons.injEq] at hx2
        obtain ⟨rfl, rfl⟩ := hx2
        exact absurd h2' (h3 i' (by simp) _)
    · cases x with
      | nil => simp at hx2; exact hx2.1.symm
      | cons y ys =>
        simp only [List.cons_append, List.cons.injEq] at hx2
        obtain ⟨rfl, rfl⟩ := hx2
        exact absurd h2 (h3' i (by simp) _)
  subst hii
  obtain ⟨j, ctx, h4, h5, h6⟩ := h2
  obtain ⟨j', ctx', h4', h5', h6'⟩ := h2'
  have := h4.functional h4'
  subst this
  rw [h5] at h5'
  simp only [Option.some.injEq] at h5'
  subst h5'
  have := hu ctx (List.mem_of_getElem? h5) _ h6 _ h6' rfl
  exact congrArg CommandOutput.output this

/-- **C09** The output looked up for a command is the one of the last active context (in which, or in
the context it falls through to) it is mapped, for any configuration, any history which changed the
configuration's tables, and any list of active contexts. There is none exactly if no active
context maps the command. -/
theorem C09_last_context_overrides (contexts : List Context) (hu : CommandsUnique contexts)
    (ops : List StageOp) (active : List Nat) (hv : ∀ i ∈ active, ∃ j, FallsTo contexts i j)
    (ci : Nat) (ctx : Context) (idx : Int) (hidx : idx < 0) :
    let cs := (stageRun (stageInit contexts) ops).1.1.contexts
    (∀ out, (∃ ref, findOutput cs active ci ctx idx = (some (ref, out), false)) ↔ LastMapped contexts active idx out) ∧
    (findOutput cs active ci ctx idx = (none, false) ↔ ∀ i ∈ active, ∀ out, ¬ MapsCommand contexts i idx out) := by
  intro cs
  have hc : CfgOf contexts (stageRun (stageInit contexts) ops).1.1 := (cfgOf_make contexts).run ops
  unfold findOutput
  rw [if_neg (by omega)]
  have hspec := findCommandOutput_spec hc idx active.reverse (by simpa using hv)
  rcases hspec with ⟨ref, out, before, i, after, h1, h2, h3, h4⟩ | ⟨h1, h2⟩
  · have hlast : LastMapped contexts active idx out := by
      refine ⟨after.reverse, i, before.reverse, ?_, h3, ?_⟩
      · have := congrArg List.reverse h2
        simpa using this
      · intro j hj; exact h4 j (by simpa using hj)
    constructor
    · intro out'
      constructor
      · rintro ⟨ref', h⟩
        rw [show findCommandOutput cs idx active.reverse = _ from h1] at h
        simp only [Prod.mk.injEq, Option.some.injEq] at h
        obtain ⟨⟨_, rfl⟩, _⟩ := h
        exact hlast
      · intro h
        have := hlast.unique hu h
        subst this
        exact ⟨ref, h1⟩
    · constructor
      · intro h
        rw [show findCommandOutput cs idx active.reverse = _ from h1] at h
        simp at h
      · intro h
        refine absurd h3 (h i ?_ out)
        have : i ∈ active.reverse := by rw [h2]; simp
        simpa using this
  · have h2' : ∀ i ∈ active, ∀ out, ¬ MapsCommand contexts i idx out := fun i hi => h2 i (by simpa using hi)
    constructor
    · intro out'
      constructor
      · rintro ⟨ref', h⟩
        rw [show findCommandOutput cs idx active.reverse = _ from h1] at h
        simp at h
      · rintro ⟨b, i, a, h, h', _⟩
        exact absurd h' (h2' i (by simp [h]) _)
    · exact ⟨fun _ => h2', fun _ => h1⟩

/-! ### Concrete cases -/

private def out (k : Key) : KeySequence := [⟨k, .Down, 0⟩]

/-- `cmd` (-1) and `other` (-2): mapped in context 0; `cmd` is overridden in 3, which is reached
from 2 by falling through; context 1 requires `Shift`, context 4 only maps `other` -/
private def sample : List Context :=
  [{ inputs := [⟨[⟨Key.KeyA, .Down, 0⟩], -1⟩], commandOutputs := [⟨out Key.KeyX, -1⟩, ⟨out Key.KeyY, -2⟩] },
   { modifierFilter := [⟨Key.ShiftLeft, .Down, 0⟩], commandOutputs := [⟨out Key.KeyW, -1⟩] },
   { fallthrough := true, modifierFilter := [⟨Key.ShiftLeft, .Not, 0⟩] },
   { commandOutputs := [⟨out Key.KeyZ, -1⟩] },
   { commandOutputs := [⟨out Key.KeyV, -2⟩] }]

private def sampleOps : List StageOp :=
  [.contexts [0, 1, 2, 4], .input ⟨Key.KeyB, .Down, 0⟩ 0]

-- the hypotheses of C11, C10 and C09 hold
example : LastStops sample ∧ (∀ op ∈ sampleOps, op.isValid sample.length) := by
  refine ⟨⟨_, rfl, rfl⟩, ?_⟩
  intro op hop
  simp only [sampleOps, List.mem_cons, List.not_mem_nil, or_false] at hop
  rcases hop with rfl | rfl
  · simp [StageOp.isValid, sample]
  · exact Or.inl rfl

-- context 2 falls through to 3, context 1 is not active
example : (stageRun (stageInit sample) sampleOps).1.2.active = [0, 3, 4] := by decide +kernel

-- pressing `Shift` activates context 1 and deactivates the one which demands that it is not held
example : (stageRun (stageInit sample) (sampleOps ++ [.input ⟨Key.ShiftLeft, .Down, 0⟩ 0])).1.2.active =
    [0, 1, 4] := by decide +kernel

example : CommandsUnique sample ∧ LastMapped sample [0, 1, 2, 4] (-1) (out Key.KeyZ) := by
  constructor
  · unfold CommandsUnique; decide +kernel
  · refine ⟨[0, 1], 2, [4], rfl, ⟨3, _, ⟨by decide, ?_, _, rfl, rfl⟩, rfl, by simp⟩, ?_⟩
    · intro m h1 h2
      have : m = 2 := by omega
      subst this
      exact ⟨_, rfl, rfl⟩
    · intro j hj o
      simp only [List.mem_singleton] at hj
      subst hj
      rintro ⟨k, ctx, h1, h2, h3⟩
      have hk : k < sample.length := (List.getElem?_eq_some_iff.1 h2).1
      have h4 : k = 4 := by
        have := h1.1
        simp only [sample, List.length_cons, List.length_nil] at hk
        omega
      subst h4
      simp only [sample, List.getElem?_cons_succ, List.getElem?_cons_zero, Option.some.injEq] at h2
      subst h2
      simp at h3

-- the overridden command
example : (findOutput (Cfg.make sample).contexts [0, 1, 2, 4] 0 {} (-1)).1.map (·.2) = some (out Key.KeyZ) := by
  decide +kernel

end KM
