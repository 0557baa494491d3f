import Verif.Lemmas.LayersRefine
import Verif.Props.TimedClock
/-!
# C92: virtual keys switch layers of mappings
-/
namespace KM

theorem keyOps_append (a b : List LayerOp) : keyOps (a ++ b) = keyOps a ++ keyOps b := by simp [keyOps]

/-- a stage sees the virtual keys as keys which are no strokes -/
theorem output_history (q : KeySequence) : ∀ (l : Layers (Cfg × S)),
    ∃ ops', (l.output stageStep q).1.keys = (stageRun l.keys ops').1 ∧ strokes ops' = [] := by
  induction q with
  | nil => intro l; exact ⟨[], rfl, rfl⟩
  | cons e q ih =>
    intro l
    by_cases hv : isVirtualKey e.key = true
    · by_cases hd : e.state = .Down
      · rw [Layers.output_toggle stageStep l q hv hd]
        obtain ⟨ops', h1, h2⟩ := ih (l.toggle stageStep e.key).1
        refine ⟨.input ⟨e.key, l.toggled e.key, 0⟩ anyDeviceIndex :: ops', h1, ?_⟩
        rw [strokes, if_neg (by rw [(virtual_noWheel hv).2.2]; decide), h2]
      · rw [Layers.output_skip stageStep l q hv hd]; exact ih l
    · have hv : isVirtualKey e.key = false := by simpa using hv
      rw [Layers.output_one stageStep l q hv]
      exact ih l

theorem run_history (ops : List LayerOp) (hs : ∀ v st, .set v st ∈ ops → isVirtualKey v = true) : ∀ (l : Layers (Cfg × S)),
    ∃ ops', (l.run stageStep ops).1.keys = (stageRun l.keys ops').1 ∧ strokes ops' = strokes (keyOps ops) := by
  induction ops with
  | nil => intro l; exact ⟨[], rfl, rfl⟩
  | cons op ops ih =>
    intro l
    have hbegin : ∃ ops0, (l.begin stageStep op).1.keys = (stageRun l.keys ops0).1 ∧ strokes ops0 = strokes (keyOps [op]) := by
      cases op with
      | keys o => exact ⟨[o], rfl, rfl⟩
      | set v st =>
        unfold Layers.begin
        simp only []
        split
        · refine ⟨[.input ⟨v, l.toggled v, 0⟩ anyDeviceIndex], rfl, ?_⟩
          rw [strokes, if_neg (by rw [(virtual_noWheel (hs v st (by simp))).2.2]; decide)]
          rfl
        · exact ⟨[], rfl, rfl⟩
    obtain ⟨o0, h1, h2⟩ := hbegin
    obtain ⟨o1, h3, h4⟩ := output_history (l.begin stageStep op).2.1 (l.begin stageStep op).1
    obtain ⟨o2, h5, h6⟩ := ih (fun v st h => hs v st (List.mem_cons_of_mem _ h)) (l.step stageStep op).1
    refine ⟨o0 ++ (o1 ++ o2), ?_, ?_⟩
    · show ((l.step stageStep op).1.run stageStep ops).1.keys = _
      rw [h5, stageRun_append, stageRun_append]
      show (stageRun ((l.begin stageStep op).1.output stageStep (l.begin stageStep op).2.1).1.keys o2).1 = _
      rw [h3, h1]
    · rw [strokes_append, strokes_append, h2, h4, h6, List.nil_append, ← strokes_append, ← keyOps_append]
      rfl

/-- the exit sequence is not typed -/
theorem NoExit.layers {ops : List LayerOp} (h : NoExit (keyOps ops)) (hs : ∀ v st, .set v st ∈ ops → isVirtualKey v = true) (ctxs : List Context)
    {ops' : List LayerOp} (hp : ops' <+: ops) : ((⟨stageInit ctxs, []⟩ : Layers (Cfg × S)).run stageStep ops').1.keys.2.shouldExit = false := by
  obtain ⟨t, rfl⟩ := hp
  obtain ⟨o, h1, h2⟩ := run_history ops' (fun v st h => hs v st (List.mem_append_left _ h)) ⟨stageInit ctxs, []⟩
  rw [h1, ← Bool.not_eq_true]
  intro hx
  obtain ⟨before, last, h3, h4⟩ := C07_exit_only_then ctxs o hx
  exact h before last (strokes (keyOps t)) (by rw [keyOps_append, strokes_append, ← h2, h3]) h4

theorem layered_virtual {n : Nat} {ms : List Msg} {its : List Iteration} {b : Bool}
    (hm : ∀ m ∈ ms, (∃ l, m = .activeContexts l) ∨ ∃ v st, m = .setVirtualKeyState v st ∧ isVirtualKey v = true) (hi : ∀ it ∈ its, it.Layered b) :
    ∀ v st, .set v st ∈ ms.flatMap (Msg.layerOps n) ++ its.flatMap (Iteration.layerOps n) → isVirtualKey v = true := by
  intro v st h
  have hone : ∀ m : Msg, ((∃ l, m = .activeContexts l) ∨ ∃ v st, m = .setVirtualKeyState v st ∧ isVirtualKey v = true) →
      .set v st ∈ m.layerOps n → isVirtualKey v = true := by
    rintro m (⟨l, rfl⟩ | ⟨v', st', rfl, hv⟩) h
    · simp [Msg.layerOps, Msg.stageOps] at h
    · simp only [Msg.layerOps, List.mem_singleton, LayerOp.set.injEq] at h
      rw [h.1]; exact hv
  rcases List.mem_append.1 h with h | h
  · obtain ⟨m, h1, h2⟩ := List.mem_flatMap.1 h
    exact hone m (hm m h1) h2
  · obtain ⟨it, h1, h2⟩ := List.mem_flatMap.1 h
    unfold Iteration.layerOps at h2
    split at h2
    · cases h2
    · rcases List.mem_append.1 h2 with h2 | h2
      · simp at h2
      · obtain ⟨m, h3, h4⟩ := List.mem_flatMap.1 h2
        exact hone m ((hi it h1).messages m h3) h4

/-- **C92 (virtual keys).** The client sends a configuration of one stage. Whatever the mappings are, the server executes what they output: keys are sent to the virtual device, terminal commands are
executed, and when a virtual key is pressed, it is switched on or off, which the mappings get to see like a key which is pressed or released; the outputs of this come last. Virtual keys can also be set by clients.
The outputs are to be without delays, at most nine virtual keys are switched at once and switching does not switch others. -/
theorem C92_virtual_keys (rx : Regex) (ctxs : List Context) (hf : (Cfg.make ctxs).hasDeviceFilter = false) (ms : List Msg)
    (hm : ∀ m ∈ ms, (∃ l, m = .activeContexts l) ∨ ∃ v st, m = .setVirtualKeyState v st ∧ isVirtualKey v = true)
    (ds : List DeviceDesc) (its : List Iteration) (hi : ∀ it ∈ its, it.Layered true) {ops : List LayerOp}
    (hops : ops = ms.flatMap (Msg.layerOps ctxs.length) ++ its.flatMap (Iteration.layerOps ctxs.length))
    (hd : (⟨stageInit ctxs, []⟩ : Layers (Cfg × S)).DescribesAll stageStep ops) (hexit : NoExit (keyOps ops)) :
    (({} : Srv).connection rx (.configuration [Cfg.make ctxs] :: ms) ds its).out =
      ((⟨stageInit ctxs, []⟩ : Layers (Cfg × S)).run stageStep ops).2 := by
  subst hops
  have hlen : (Cfg.make ctxs).contexts.length = ctxs.length := by simp [Cfg.make]
  obtain ⟨srv, h1, h2, h3⟩ := first_configuration rx ctxs
  have hvd : srv.virtualDown = [] := by rw [← h1, first_configuration_eq]
  have hx := fun ops' hp => hexit.layers (layered_virtual hm hi) ctxs (ops' := ops') hp
  have hr : Rests srv (⟨stageInit ctxs, []⟩ : Layers (Cfg × S)) :=
    ⟨⟨h2.flushAt, h2.timeout, h2.info, h2.stageBuf, h2.stages, h2.results, hvd⟩, h2.buf, h2.sending, rfl⟩
  rw [Layers.describesAll_append] at hd
  obtain ⟨h4, h5⟩ := messages_layers rx ctxs.length ms hm srv ⟨stageInit ctxs, []⟩ hlen hr hd.1
  have hcfg := run_cfg (⟨stageInit ctxs, []⟩ : Layers (Cfg × S)) (ms.flatMap (Msg.layerOps ctxs.length)) (by
    intro op hop
    obtain ⟨m, _, hm⟩ := List.mem_flatMap.1 hop
    exact layerOps_noDevices _ m op hm)
  have hcfg : ((⟨stageInit ctxs, []⟩ : Layers (Cfg × S)).run stageStep (ms.flatMap (Msg.layerOps ctxs.length))).1.keys.1 = Cfg.make ctxs := hcfg
  obtain ⟨srv1, hsrv1⟩ : ∃ srv1, srv1 = ms.foldl (Srv.onMessage rx) srv := ⟨_, rfl⟩
  rw [← hsrv1] at h4 h5
  have hdev : srv1.setDeviceDescs rx ds = { srv1 with devices := ds } := by
    unfold Srv.setDeviceDescs Srv.evaluateDeviceFilters
    rw [if_pos (by simp [MS.hasDeviceFilters, h4.stages, hcfg, hf])]
  have := mainLoop_layers rx ctxs.length its { srv1 with devices := ds } _ (by rw [hcfg]; exact hlen) (by rw [hcfg, hf]; exact hi)
    ⟨⟨h4.flushAt, h4.timeout, h4.info, h4.stageBuf, h4.stages, h4.results, h4.virtualDown⟩, h4.buf, h4.sending, h4.exit⟩ hd.2 (by
      rintro ops' ⟨t, ht⟩
      have := hx (ms.flatMap (Msg.layerOps ctxs.length) ++ ops') ⟨t, by rw [← ht, List.append_assoc]⟩
      rw [Layers.run_append] at this
      exact this)
  unfold Srv.connection
  rw [List.foldl_cons, h1, ← hsrv1, hdev, this, Layers.run_append]
  show srv1.out ++ _ = _
  rw [h5, h3, List.nil_append]

/-- `A B >> Virtual1 X`, `Virtual1 >> Y`: typing A and B switches Virtual1 on, its mapping comes last; a client then switches it off. -/
example (rx : Regex) :
    let input : KeySequence := [⟨Key.KeyA, .Down, 0⟩, ⟨Key.KeyA, .UpAsync, 0⟩, ⟨Key.KeyB, .Down, 0⟩, ⟨Key.KeyB, .UpAsync, 0⟩]
    let ctxs : List Context := [{ inputs := [⟨input, 0⟩, ⟨singleKey 61697, 1⟩], outputs := [[⟨61697, .Down, 0⟩, ⟨61697, .Up, 0⟩, ⟨Key.KeyX, .Down, 0⟩], [⟨Key.KeyY, .Down, 0⟩]] }]
    (({} : Srv).connection rx [.configuration [Cfg.make ctxs], .activeContexts [0]] [] [
      { now := 0, read := .key ⟨Key.KeyA, .Down, 0⟩ 0 }, { now := 1, read := .key ⟨Key.KeyB, .Down, 0⟩ 0 }, { now := 2, read := .key ⟨Key.KeyB, .Up, 0⟩ 0 },
      { now := 3, messages := [.setVirtualKeyState 61697 .Up] }]).out =
    [.virtualKeyState 61697 .Down, .sendKey ⟨Key.KeyX, .Down, 0⟩, .sendKey ⟨Key.KeyY, .Down, 0⟩, .sendKey ⟨Key.KeyX, .Up, 0⟩,
      .virtualKeyState 61697 .Up, .sendKey ⟨Key.KeyY, .Up, 0⟩] := by
  intro input ctxs
  rw [C92_virtual_keys rx ctxs (by decide +kernel) [.activeContexts [0]] (by simp) [] _ ?_ rfl (by decide +kernel) ?_]
  · decide +kernel
  · intro it h
    simp only [List.mem_cons, List.not_mem_nil, or_false] at h
    rcases h with rfl | rfl | rfl | rfl
    all_goals refine ⟨?_, rfl, .inl rfl, ?_, rfl⟩
    all_goals first
      | (intro m hm; cases hm; done)
      | (intro m hm; rw [List.mem_singleton] at hm; subst hm; exact .inr ⟨_, _, rfl, by decide⟩)
      | (intro ev dev h; cases h; done)
      | (intro ev dev h; cases h; unfold KM.Ordinary; decide)
  · exact noExit_two (a := Key.KeyA) (b := Key.KeyB) (by decide +kernel)

/-! ### mappings which replace keys -/

/-- what is known about the state of the specification -/
structure RemapLayers (contexts : List Context) (r : Remapper) : Prop where
  ctxs : r.contexts = contexts
  outs : ∀ o ∈ r.outs, o.1 ≠ Key.timeout ∧ (isVirtualKey o.2 = true → isVirtualKey o.1 = false)

theorem pressAll_mem {outs : List (Key × Key)} {k : Key} {q : KeySequence} : ∀ o ∈ pressAll outs k q, o ∈ outs ∨ (o.2 = k ∧ ∃ e ∈ q, e.key = o.1) := by
  unfold pressAll
  induction q generalizing outs with
  | nil => intro o ho; exact .inl ho
  | cons e q ih =>
    intro o ho
    rw [List.foldl_cons] at ho
    rcases ih o ho with h | ⟨h1, d, h2, h3⟩
    · split at h
      · exact .inl h
      · rcases List.mem_append.1 h with h | h
        · exact .inl h
        · rw [List.mem_singleton] at h
          subst h
          exact .inr ⟨rfl, e, by simp, rfl⟩
    · exact .inr ⟨h1, d, List.mem_cons_of_mem _ h2, h3⟩

/-- an output of the mappings -/
theorem replacement_mem {cs : List Context} {inUse : List Nat} {dev : Int} {k : Key} {o : KeySequence} (h : replacementFor cs inUse dev k = some o) :
    ∃ ctx ∈ cs, ∃ m ∈ ctx.inputs, m.input = singleKey k ∧ mappingOutput cs inUse ctx m = some o := by
  unfold replacementFor at h
  obtain ⟨j, _, h⟩ := List.exists_of_findSome?_eq_some h
  cases hc : cs[j]? with
  | none => rw [hc] at h; cases h
  | some ctx =>
    rw [hc] at h
    simp only [Option.bind_some] at h
    split at h
    · obtain ⟨m, h1, h2⟩ := List.exists_of_findSome?_eq_some h
      split at h2
      · next h3 => exact ⟨ctx, List.mem_of_getElem? hc, m, h1, h3, h2⟩
      · cases h2
    · cases h

theorem commandOutput_mem {cs : List Context} {inUse : List Nat} {idx : Int} {o : KeySequence} (h : commandOutput cs inUse idx = some o) :
    ∃ ctx ∈ cs, ∃ c ∈ ctx.commandOutputs, c.output = o := by
  unfold commandOutput at h
  obtain ⟨j, _, h⟩ := List.exists_of_findSome?_eq_some h
  cases hc : cs[j]? with
  | none => rw [hc] at h; cases h
  | some ctx =>
    rw [hc] at h
    simp only [Option.bind_some, Option.map_eq_some_iff] at h
    obtain ⟨c, h1, h2⟩ := h
    exact ⟨ctx, List.mem_of_getElem? hc, c, List.mem_of_find?_eq_some h1, h2⟩

theorem toggles_may (o : KeySequence) : o.countP toggles ≤ o.countP mayToggle := by
  apply List.countP_mono_left
  intro e _ h
  unfold toggles at h
  unfold mayToggle
  rw [Bool.and_eq_true] at h
  rw [h.1, h.2]; rfl

/-- the outputs of the mappings are described -/
theorem replacement_fits {cs : List Context} (hr : ∀ ctx ∈ cs, ctx.OnlyReplaces) (hl : ∀ ctx ∈ cs, ctx.Layered) {inUse : List Nat} {dev : Int} {k : Key}
    {o : KeySequence} (h : replacementFor cs inUse dev k = some o) :
    (∀ e ∈ o, Immediate e) ∧ o.countP toggles ≤ 9 ∧ (isVirtualKey k = true → ∀ e ∈ o, isVirtualKey e.key = false) := by
  obtain ⟨ctx, h1, m, h2, h3, h4⟩ := replacement_mem h
  have hor : (∃ c ∈ cs, o ∈ c.outputs) ∨ ∃ c ∈ cs, ∃ x ∈ c.commandOutputs, x.output = o := by
    unfold mappingOutput at h4
    split at h4
    · exact .inl ⟨ctx, h1, List.mem_of_getElem? h4⟩
    · exact .inr (commandOutput_mem h4)
  have hp : OnlyPresses o ∧ (∀ e ∈ o, isMouseWheel e.key = false) ∧ o.countP toggles ≤ 9 := by
    rcases hor with ⟨c, h5, h6⟩ | ⟨c, h5, x, h6, rfl⟩
    · have := (hl c h5).outputs o h6
      exact ⟨(hr c h5).outputs o h6, fun e he => (this.1 e he).1, Nat.le_trans (toggles_may o) this.2⟩
    · have := (hl c h5).commands x h6
      exact ⟨(hr c h5).commands x h6, fun e he => (this.1 e he).1, Nat.le_trans (toggles_may x.output) this.2⟩
  refine ⟨fun e he => ⟨(hp.1 e he).2.2, fun hw => absurd (hp.2.1 e he) (by rw [hw]; decide)⟩, hp.2.2, ?_⟩
  intro hv
  obtain ⟨h5, h6⟩ := (hl ctx h1).virtual m h2 k hv (by rw [h3]; rfl)
  unfold mappingOutput at h4
  rw [if_pos h5] at h4
  exact h6 o h4

theorem device_same (r : Remapper) (ev : KeyEvent) (dev : Int) : (r.device ev dev).contexts = r.contexts ∧ (r.device ev dev).outs = r.outs ∧
    (r.device ev dev).held = r.held ∧ (r.device ev dev).client = r.client := by
  unfold Remapper.device
  repeat' split
  all_goals exact ⟨rfl, rfl, rfl, rfl⟩

/-- a step of the mappings -/
theorem remap_input {cs : List Context} (hr : ∀ ctx ∈ cs, ctx.OnlyReplaces) (hl : ∀ ctx ∈ cs, ctx.Layered) {r : Remapper}
    (h : RemapLayers cs r) (ev : KeyEvent) (dev : Int) (hk : isVirtualKey ev.key = true ∨ Ordinary ev.key) :
    RemapLayers cs (r.step (.input ev dev)).1 ∧ (∀ e ∈ (r.step (.input ev dev)).2, Immediate e) ∧ (r.step (.input ev dev)).2.countP toggles ≤ 9 ∧
      (isVirtualKey ev.key = true → ∀ e ∈ (r.step (.input ev dev)).2, isVirtualKey e.key = false) := by
  obtain ⟨d1, d2, d3, d4⟩ := device_same r ev dev
  have hc : r.contexts = cs := h.ctxs
  have ho : ∀ o ∈ r.outs, o.1 ≠ Key.timeout ∧ (isVirtualKey o.2 = true → isVirtualKey o.1 = false) := h.outs
  unfold Remapper.step
  simp only []
  by_cases hd : ev.state = .Down
  · rw [if_pos hd]
    by_cases hig : r.ignores ev dev = true
    · rw [if_pos hig]
      exact ⟨⟨hc, ho⟩, (by intro e he; cases he), Nat.zero_le _, (by intro _ e he; cases he)⟩
    · rw [if_neg hig]
      obtain ⟨out, hout⟩ : ∃ out, out = ((r.device ev dev).press ev dev).2 := ⟨_, rfl⟩
      have hfit : (∀ e ∈ out, Immediate e) ∧ out.countP toggles ≤ 9 ∧ (isVirtualKey ev.key = true → ∀ e ∈ out, isVirtualKey e.key = false) := by
        rw [hout]
        unfold Remapper.press
        simp only [d1, hc]
        cases hrep : replacementFor cs (contextsInUse cs (r.device ev dev).client ((r.device ev dev).held.erase ev.key ++ [ev.key])) dev ev.key with
        | some o => exact replacement_fits hr hl hrep
        | none =>
          simp only []
          rcases hk with hk | hk
          · rw [if_pos hk]
            exact ⟨(by intro e he; cases he), Nat.zero_le _, (by intro _ e he; cases he)⟩
          · have hs := ordinary_sendable hk
            rw [if_neg (by rw [hs.2.1]; decide)]
            refine ⟨?_, ?_, ?_⟩
            · intro e he
              rw [List.mem_singleton] at he
              subst he; exact ⟨hs.1, hs.2.2.2⟩
            · rw [List.countP_cons, List.countP_nil]; split <;> omega
            · intro hv; rw [hs.2.1] at hv; cases hv
      have houts : ((r.device ev dev).press ev dev).1.outs = pressAll r.outs ev.key out := by rw [hout, ← d2]; rfl
      rw [← hout]
      refine ⟨⟨?_, ?_⟩, hfit⟩
      · show (r.device ev dev).contexts = cs
        rw [d1, hc]
      · show ∀ o ∈ ((r.device ev dev).press ev dev).1.outs, _
        rw [houts]
        intro o hmem
        rcases pressAll_mem o hmem with hm | ⟨h1, e, h2, h3⟩
        · exact ho o hm
        · rw [← h3]
          refine ⟨(hfit.1 e h2).1, ?_⟩
          intro hv
          rw [h1] at hv
          exact hfit.2.2 hv e h2
  · rw [if_neg hd]
    have hup : ∀ e ∈ ((r.device ev dev).release ev.key).2, ∃ o ∈ r.outs, o.2 = ev.key ∧ e = ⟨o.1, .Up, 0⟩ := by
      intro e he
      have he : e ∈ ((r.device ev dev).outs.filter (fun o => o.2 == ev.key)).reverse.map (fun o => ⟨o.1, .Up, 0⟩) := he
      obtain ⟨o, h1, rfl⟩ := List.mem_map.1 he
      rw [List.mem_reverse, List.mem_filter, d2] at h1
      exact ⟨o, h1.1, by simpa using h1.2, rfl⟩
    refine ⟨⟨?_, ?_⟩, ?_, ?_, ?_⟩
    · show (r.device ev dev).contexts = cs
      rw [d1, hc]
    · intro o hmem
      have hmem : o ∈ (r.device ev dev).outs.filter (fun o => o.2 != ev.key) := hmem
      rw [d2] at hmem
      exact ho o (List.mem_filter.1 hmem).1
    · intro e he
      obtain ⟨o, h1, h2, rfl⟩ := hup e he
      exact ⟨(ho o h1).1, fun _ h => by cases h⟩
    · rw [List.countP_eq_zero.2]
      · exact Nat.zero_le _
      · intro e he
        obtain ⟨o, h1, h2, rfl⟩ := hup e he
        simp [toggles]
    · intro hv e he
      obtain ⟨o, h1, h2, rfl⟩ := hup e he
      exact (ho o h1).2 (by rw [h2]; exact hv)

theorem virtual_replaceable {v : Key} (h : isVirtualKey v = true) : Replaceable v := by
  refine ⟨?_, ?_, ?_, ?_⟩ <;> (rintro rfl; exact absurd h (by decide))

theorem ordinary_replaceable {k : Key} (h : Ordinary k) : Replaceable k := by
  refine ⟨?_, ?_, ?_, ?_⟩ <;> (rintro rfl; exact absurd h.1 (by decide))

/-- the operations, and the events of virtual keys -/
def remapAllowed (n : Nat) (op : StageOp) : Prop :=
  (LayerOp.keys op).isLayer n ∨ ∃ v st, op = .input ⟨v, st, 0⟩ anyDeviceIndex ∧ isVirtualKey v = true ∧ (st = .Down ∨ st = .Up)

theorem remap_refines {cs : List Context} (hr : ∀ ctx ∈ cs, ctx.OnlyReplaces) (hl : ∀ ctx ∈ cs, ctx.Layered) :
    Refinement Remapper.step (remapAllowed cs.length) (fun p r => RInv p.1 p.2 r ∧ RemapLayers cs r) := by
  refine ⟨?_, ?_⟩
  · intro p r op ⟨h, hf⟩ hop
    have hlen : r.contexts.length = cs.length := by rw [hf.ctxs]
    cases op with
    | input ev dev =>
      have hk : isVirtualKey ev.key = true ∨ Ordinary ev.key := by
        rcases hop with hop | ⟨v, st, hop, hv, _⟩
        · exact .inr hop.2.1
        · cases hop; exact .inl hv
      have hop : StageOp.isRemap r.contexts.length (.input ev dev) := by
        rcases hop with ⟨hst, hk, hd1, hd2⟩ | ⟨v, st, hop, hv, hst⟩
        · exact ⟨hst, ordinary_replaceable hk, hd1, hd2⟩
        · cases hop; exact ⟨hst, virtual_replaceable hv, by decide, by decide⟩
      obtain ⟨h1, h2, h3, _⟩ := remap_input hr hl hf ev dev hk
      have hstep := h.step hop
      exact ⟨⟨hstep.1, h1⟩, hstep.2, h2, h3⟩
    | contexts idx =>
      rcases hop with hop | ⟨v, st, hop, _⟩
      · have hstep := h.step (op := .contexts idx) (by rw [hlen]; exact hop)
        exact ⟨⟨hstep.1, hf.ctxs, hf.outs⟩, hstep.2, (by intro e he; cases he), Nat.zero_le _⟩
      · cases hop
    | devices _ _ =>
      rcases hop with hop | ⟨v, st, hop, _⟩
      · exact hop.elim
      · cases hop
    | validate _ =>
      rcases hop with hop | ⟨v, st, hop, _⟩
      · exact hop.elim
      · cases hop
  · intro p r v st hv hst ⟨_, hf⟩
    refine ⟨.inr ⟨v, st, rfl, hv, hst⟩, ?_⟩
    exact (remap_input hr hl hf ⟨v, st, 0⟩ anyDeviceIndex (.inl hv)).2.2.2 hv

/-- **C92 (layers).** When the mappings replace keys by keys, virtual keys and terminal commands, in contexts which can have a virtual key as modifier, then what the server does is what the specification says:
the keys are replaced by the mappings of the first context which is in use, contexts with a virtual key as modifier are in use while it is on, pressing a key which is mapped to a virtual key switches it on or off, and
a client can set it. -/
theorem C92_layers (rx : Regex) (ctxs : List Context) (hr : ∀ ctx ∈ ctxs, ctx.OnlyReplaces) (hl : ∀ ctx ∈ ctxs, ctx.Layered) (hu : CommandsUnique ctxs)
    (hs : LastStops ctxs) (hf : (Cfg.make ctxs).hasDeviceFilter = false) (ms : List Msg)
    (hm : ∀ m ∈ ms, (∃ l, m = .activeContexts l) ∨ ∃ v st, m = .setVirtualKeyState v st ∧ isVirtualKey v = true)
    (ds : List DeviceDesc) (its : List Iteration) (hi : ∀ it ∈ its, it.Layered true) {ops : List LayerOp}
    (hops : ops = ms.flatMap (Msg.layerOps ctxs.length) ++ its.flatMap (Iteration.layerOps ctxs.length))
    (ho : ∀ op ∈ ops, op.isLayer ctxs.length) (hexit : NoExit (keyOps ops)) :
    (({} : Srv).connection rx (.configuration [Cfg.make ctxs] :: ms) ds its).out =
      ((⟨{ contexts := ctxs }, []⟩ : Layers Remapper).run Remapper.step ops).2 := by
  obtain ⟨h1, h2⟩ := run_same (remap_refines hr hl) ops (by
    intro op hop
    cases op with
    | keys o => exact .inl (ho _ hop)
    | set v st => exact ho _ hop) (l := ⟨stageInit ctxs, []⟩) (l' := ⟨{ contexts := ctxs }, []⟩)
    ⟨⟨rinv_init ctxs hr hu (.inr hs), rfl, by intro o ho; cases ho⟩, rfl⟩
  rw [← h2]
  exact C92_virtual_keys rx ctxs hf ms hm ds its hi hops h1 hexit

/-! ### two layers -/

theorem accepts_all {ctx : Context} (h : ctx.matchingDeviceBits = BitVec.allOnes 64) {dev : Int} (h1 : -2 ≤ dev) (h2 : dev < 64) : acceptsDevice ctx dev = true := by
  unfold acceptsDevice
  rw [h]
  split
  · rfl
  · next h3 =>
    split
    · rfl
    · next h4 =>
      rw [BitVec.getLsbD_allOnes]
      simp only [anyDeviceIndex, noDeviceIndex] at h3 h4
      simp only [decide_eq_true_eq]
      omega

theorem pairs_lookup (cs : List Context) (inUse : List Nat) (ctx : Context) (pairs : List (Key × Key)) (hi : ctx.inputs = (replaceContext pairs).inputs)
    (ho : ctx.outputs = (replaceContext pairs).outputs) (k : Key) :
    ctx.inputs.findSome? (fun m => if m.input = singleKey k then mappingOutput cs inUse ctx m else none) = (pairs.lookup k).map (fun b => [⟨b, .Down, 0⟩]) := by
  have := findSome_pairs pairs 0 ctx.outputs (by intro i; rw [ho]; simp [replaceContext]) k cs inUse ctx rfl
  rw [hi]
  exact this

theorem layer_inUse {v t : Key} {layer base : List (Key × Key)} {held : List Key} :
    contextsInUse (layerContexts v t layer base) [0, 1] held = if v ∈ held then [0, 1] else [1] := by
  have h0 : targetOf (layerContexts v t layer base) 0 = some 0 := rfl
  have h1 : targetOf (layerContexts v t layer base) 1 = some 1 := rfl
  have m0 : modifiersMatch { replaceContext layer with modifierFilter := [⟨v, .Down, 0⟩] } held = decide (v ∈ held) := by
    by_cases h : v ∈ held <;> simp [modifiersMatch, replaceContext, h]
  have m1 : modifiersMatch (replaceContext ((t, v) :: base)) held = true := rfl
  have d0 : someDevice { replaceContext layer with modifierFilter := [⟨v, .Down, 0⟩] } = true := rfl
  have d1 : someDevice (replaceContext ((t, v) :: base)) = true := rfl
  have r2 : List.range 2 = [0, 1] := rfl
  unfold contextsInUse
  rw [show (layerContexts v t layer base).length = 2 from rfl, r2]
  simp only [List.filter_cons, List.any_cons, List.any_nil, h0, h1, List.filter_nil]
  have g0 : (layerContexts v t layer base)[0]? = some { replaceContext layer with modifierFilter := [⟨v, .Down, 0⟩] } := rfl
  have g1 : (layerContexts v t layer base)[1]? = some (replaceContext ((t, v) :: base)) := rfl
  rw [g0, g1]
  simp only [Option.any_some, m0, m1, d0, d1]
  by_cases h : v ∈ held <;> simp [h]

theorem layer_replacement {v t : Key} {layer base : List (Key × Key)} (inUse0 : Bool) {dev : Int} (h1 : -2 ≤ dev) (h2 : dev < 64) (k : Key) :
    replacementFor (layerContexts v t layer base) (if inUse0 then [0, 1] else [1]) dev k =
      ((if inUse0 then layer.lookup k else none).or (((t, v) :: base).lookup k)).map (fun b => [⟨b, .Down, 0⟩]) := by
  have g0 : (layerContexts v t layer base)[0]? = some { replaceContext layer with modifierFilter := [⟨v, .Down, 0⟩] } := rfl
  have g1 : (layerContexts v t layer base)[1]? = some (replaceContext ((t, v) :: base)) := rfl
  have e0 := fun inUse => pairs_lookup (layerContexts v t layer base) inUse { replaceContext layer with modifierFilter := [⟨v, .Down, 0⟩] } layer rfl rfl k
  have e1 := fun inUse => pairs_lookup (layerContexts v t layer base) inUse (replaceContext ((t, v) :: base)) ((t, v) :: base) rfl rfl k
  have a0 : acceptsDevice { replaceContext layer with modifierFilter := [⟨v, .Down, 0⟩] } dev = true := accepts_all rfl h1 h2
  have a1 : acceptsDevice (replaceContext ((t, v) :: base)) dev = true := accepts_all rfl h1 h2
  unfold replacementFor
  cases inUse0 with
  | true =>
    rw [if_pos rfl, List.findSome?_cons, List.findSome?_cons, List.findSome?_nil, g0, g1]
    simp only [Option.bind_some, a0, a1, if_true, e0, e1]
    cases layer.lookup k with
    | some b => rfl
    | none => cases ((t, v) :: base).lookup k <;> rfl
  | false =>
    rw [if_neg (by decide), List.findSome?_cons, List.findSome?_nil, g1]
    simp only [Option.bind_some, a1, if_true, e1, Bool.false_eq_true, if_false]
    cases ((t, v) :: base).lookup k <;> rfl

/-- between two taps -/
structure BetweenTaps (v t : Key) (layer base : List (Key × Key)) (on : Bool) (l : Layers Remapper) : Prop where
  ctxs : l.keys.contexts = layerContexts v t layer base
  client : l.keys.client = [0, 1]
  held : l.keys.held = if on then [v] else []
  outs : l.keys.outs = []
  on : l.on = if on then [v] else []

section
variable {v t : Key} {layer base : List (Key × Key)} (hv : isVirtualKey v = true) (ht : Ordinary t)
  (hlayer : ∀ p ∈ layer, Ordinary p.1 ∧ Ordinary p.2) (hbase : ∀ p ∈ base, Ordinary p.1 ∧ Ordinary p.2)

theorem press_layer {r : Remapper} {on : Bool} (hc : r.contexts = layerContexts v t layer base) (hcl : r.client = [0, 1])
    {k : Key} (hk : k ∉ r.held) (hon : (v ∈ r.held ++ [k]) ↔ on = true) {dev : Int} (h1 : -2 ≤ dev) (h2 : dev < 64) {out : KeySequence}
    (hout : out = match ((if on then layer.lookup k else none).or (((t, v) :: base).lookup k)).map (fun b => [⟨b, .Down, 0⟩]) with
      | some o => o
      | none => if isVirtualKey k then [] else [⟨k, .Down, 0⟩]) :
    (r.step (.input ⟨k, .Down, 0⟩ dev)).2 = out ∧ (r.step (.input ⟨k, .Down, 0⟩ dev)).1.contexts = r.contexts ∧
      (r.step (.input ⟨k, .Down, 0⟩ dev)).1.client = r.client ∧ (r.step (.input ⟨k, .Down, 0⟩ dev)).1.held = r.held ++ [k] ∧
      (r.step (.input ⟨k, .Down, 0⟩ dev)).1.outs = pressAll r.outs k out := by
  obtain ⟨d1, d2, d3, d4⟩ := device_same r ⟨k, .Down, 0⟩ dev
  have hig : r.ignores ⟨k, .Down, 0⟩ dev = false := by
    simp [Remapper.ignores, hk]
  have hstep : r.step (.input ⟨k, .Down, 0⟩ dev) = (r.device ⟨k, .Down, 0⟩ dev).press ⟨k, .Down, 0⟩ dev := by
    simp only [Remapper.step, if_true, hig, Bool.false_eq_true, if_false]
  have herase : r.held.erase k = r.held := List.erase_of_not_mem hk
  have ho : ((r.device ⟨k, .Down, 0⟩ dev).press ⟨k, .Down, 0⟩ dev).2 = out := by
    unfold Remapper.press
    simp only [d1, d3, d4, hc, hcl, herase, layer_inUse]
    rw [show (if v ∈ r.held ++ [k] then [0, 1] else [1]) = (if on = true then [0, 1] else [1]) by simp only [hon],
      layer_replacement on h1 h2 k, hout]
    rfl
  rw [hstep]
  refine ⟨ho, d1, d4, ?_, ?_⟩
  · show (r.device ⟨k, .Down, 0⟩ dev).held.erase k ++ [k] = _
    rw [d3, herase]
  · show pressAll (r.device ⟨k, .Down, 0⟩ dev).outs k ((r.device ⟨k, .Down, 0⟩ dev).press ⟨k, .Down, 0⟩ dev).2 = _
    rw [d2, ho]

theorem release_layer (r : Remapper) (k : Key) (dev : Int) :
    (r.step (.input ⟨k, .Up, 0⟩ dev)).2 = (r.outs.filter (fun o => o.2 == k)).reverse.map (fun o => ⟨o.1, .Up, 0⟩) ∧
      (r.step (.input ⟨k, .Up, 0⟩ dev)).1.contexts = r.contexts ∧ (r.step (.input ⟨k, .Up, 0⟩ dev)).1.client = r.client ∧
      (r.step (.input ⟨k, .Up, 0⟩ dev)).1.held = r.held.erase k ∧ (r.step (.input ⟨k, .Up, 0⟩ dev)).1.outs = r.outs.filter (fun o => o.2 != k) := by
  obtain ⟨d1, d2, d3, d4⟩ := device_same r ⟨k, .Up, 0⟩ dev
  have hstep : r.step (.input ⟨k, .Up, 0⟩ dev) = (r.device ⟨k, .Up, 0⟩ dev).release k := by
    simp only [Remapper.step, reduceCtorEq, if_false]
  rw [hstep]
  unfold Remapper.release
  simp only [d1, d2, d3, d4, and_self]

include hv ht hlayer hbase in
theorem tap_layer (hnot : layer.lookup t = none) {on : Bool} {l : Layers Remapper} (h : BetweenTaps v t layer base on l) {k : Key} (hk : Ordinary k)
    {dev : Int} (h1 : -2 ≤ dev) (h2 : dev < 64) (ks : List Key) :
    ∃ on' l' eff, l.run Remapper.step [.keys (.input ⟨k, .Down, 0⟩ dev), .keys (.input ⟨k, .Up, 0⟩ dev)] = (l', eff) ∧
      BetweenTaps v t layer base on' l' ∧ layerTaps v t layer base on (k :: ks) = eff ++ layerTaps v t layer base on' ks := by
  have hvo : ¬ Ordinary v := by
    intro h
    rw [(ordinary_sendable (e := ⟨v, .Down, 0⟩) h).2.1] at hv
    cases hv
  have hkv : k ≠ v := by rintro rfl; exact hvo hk
  have htv : t ≠ v := by rintro rfl; exact hvo ht
  have hlk : ∀ {pairs : List (Key × Key)}, (∀ p ∈ pairs, Ordinary p.1 ∧ Ordinary p.2) → pairs.lookup v = none := by
    intro pairs hp
    rw [List.lookup_eq_none_iff]
    intro p hp'
    rw [bne_iff_ne]
    intro e
    exact hvo (by rw [e]; exact (hp p hp').1)
  have hkn : k ∉ l.keys.held := by
    rw [h.held]
    cases on with
    | true => simpa using hkv
    | false => simp
  have hvm : (v ∈ l.keys.held ++ [k]) ↔ on = true := by
    rw [h.held]
    cases on with
    | true => simp
    | false => simpa using Ne.symm hkv
  obtain ⟨p1, p2, p3, p4, p5⟩ := press_layer (on := on) h.ctxs h.client hkn hvm h1 h2 rfl
  obtain ⟨r1, hr1⟩ : ∃ r1, r1 = (l.keys.step (.input ⟨k, .Down, 0⟩ dev)).1 := ⟨_, rfl⟩
  rw [← hr1] at p2 p3 p4 p5
  rw [h.ctxs] at p2
  rw [h.client] at p3
  rw [h.held] at p4
  rw [h.outs] at p5
  have hkvirt : isVirtualKey k = false := (ordinary_sendable (e := ⟨k, .Down, 0⟩) hk).2.1
  by_cases hkt : k = t
  · subst hkt
    -- the key which switches the layer
    have hout : (match ((if on then layer.lookup k else none).or (((k, v) :: base).lookup k)).map (fun b => ([⟨b, .Down, 0⟩] : KeySequence)) with
        | some o => o
        | none => if isVirtualKey k then [] else [⟨k, .Down, 0⟩]) = [⟨v, .Down, 0⟩] := by
      have e1 : ((k, v) :: base).lookup k = some v := by simp
      rw [e1, hnot]
      cases on <;> rfl
    rw [hout] at p1 p5
    have p5 : r1.outs = [(v, k)] := p5
    have e1 : l.step Remapper.step (.keys (.input ⟨k, .Down, 0⟩ dev)) =
        ((Layers.toggle Remapper.step ⟨r1, l.on⟩ v).1,
          .virtualKeyState v (if on then .Up else .Down) :: (Layers.toggle Remapper.step ⟨r1, l.on⟩ v).2.flatMap delivered) := by
      have hb : l.begin Remapper.step (.keys (.input ⟨k, .Down, 0⟩ dev)) = (⟨r1, l.on⟩, [⟨v, .Down, 0⟩], []) := by
        unfold Layers.begin
        simp only [p1, ← hr1]
      unfold Layers.step
      rw [hb]
      simp only [Layers.process]
      rw [Layers.output_toggle Remapper.step ⟨r1, l.on⟩ [] hv rfl]
      have htg : (⟨r1, l.on⟩ : Layers Remapper).toggled v = if on then .Up else .Down := by
        unfold Layers.toggled
        simp only [h.on]
        cases on <;> simp
      simp [Layers.output, htg]
    cases hon : on with
    | false =>
      subst hon
      -- switched on
      have hst : (⟨r1, l.on⟩ : Layers Remapper).toggle Remapper.step v = (⟨(r1.step (.input ⟨v, .Down, 0⟩ anyDeviceIndex)).1, [v]⟩, (r1.step (.input ⟨v, .Down, 0⟩ anyDeviceIndex)).2) := by
        have hon : l.on = [] := h.on
        simp [Layers.toggle, Layers.toggled, hon]
      have hheld : r1.held = [k] := p4
      obtain ⟨q1, q2, q3, q4, q5⟩ := press_layer (on := true) p2 p3 (k := v) (dev := anyDeviceIndex) (by rw [hheld]; simpa using Ne.symm hkv) (by simp) (by decide) (by decide) rfl
      have hout2 : (match ((if true = true then layer.lookup v else none).or (((k, v) :: base).lookup v)).map (fun b => ([⟨b, .Down, 0⟩] : KeySequence)) with
          | some o => o
          | none => if isVirtualKey v then [] else [⟨v, .Down, 0⟩]) = [] := by
        have e2 : ((k, v) :: base).lookup v = none := by
          rw [List.lookup_cons, beq_eq_false_iff_ne.2 (Ne.symm hkv)]
          exact hlk hbase
        rw [e2, hlk hlayer, hv]
        rfl
      rw [hout2] at q1 q5
      obtain ⟨r2, hr2⟩ : ∃ r2, r2 = (r1.step (.input ⟨v, .Down, 0⟩ anyDeviceIndex)).1 := ⟨_, rfl⟩
      rw [← hr2] at q2 q3 q4 q5 hst
      rw [q1] at hst
      rw [hst] at e1
      have q5 : r2.outs = [(v, k)] := by rw [q5, p5]; rfl
      rw [hheld] at q4
      obtain ⟨u1, u2, u3, u4, u5⟩ := release_layer r2 k dev
      rw [q5] at u1 u5
      have u1 : (r2.step (.input ⟨k, .Up, 0⟩ dev)).2 = [⟨v, .Up, 0⟩] := by rw [u1]; simp
      have e2 : (⟨r2, [v]⟩ : Layers Remapper).step Remapper.step (.keys (.input ⟨k, .Up, 0⟩ dev)) = (⟨(r2.step (.input ⟨k, .Up, 0⟩ dev)).1, [v]⟩, []) := by
        unfold Layers.step Layers.begin Layers.process
        simp only [u1]
        rw [Layers.output_skip _ _ _ hv (by simp)]
        rfl
      refine ⟨true, ⟨(r2.step (.input ⟨k, .Up, 0⟩ dev)).1, [v]⟩, [.virtualKeyState v .Down], ?_, ⟨?_, ?_, ?_, ?_, rfl⟩, ?_⟩
      · simp only [Layers.run, e1, e2]
        rfl
      · exact u2.trans (q2.trans p2)
      · exact u3.trans (q3.trans p3)
      · show (r2.step (.input ⟨k, .Up, 0⟩ dev)).1.held = [v]
        rw [u4, q4]; simp
      · show (r2.step (.input ⟨k, .Up, 0⟩ dev)).1.outs = []
        rw [u5]; simp
      · rw [layerTaps, if_pos rfl]; rfl
    | true =>
      subst hon
      -- switched off
      have hst : (⟨r1, l.on⟩ : Layers Remapper).toggle Remapper.step v = (⟨(r1.step (.input ⟨v, .Up, 0⟩ anyDeviceIndex)).1, []⟩, (r1.step (.input ⟨v, .Up, 0⟩ anyDeviceIndex)).2) := by
        have hon : l.on = [v] := h.on
        simp [Layers.toggle, Layers.toggled, hon]
      have hheld : r1.held = [v, k] := p4
      obtain ⟨q1, q2, q3, q4, q5⟩ := release_layer r1 v anyDeviceIndex
      obtain ⟨r2, hr2⟩ : ∃ r2, r2 = (r1.step (.input ⟨v, .Up, 0⟩ anyDeviceIndex)).1 := ⟨_, rfl⟩
      rw [← hr2] at q2 q3 q4 q5 hst
      have hkv' : (k == v) = false := beq_eq_false_iff_ne.2 hkv
      rw [p5] at q1 q5
      have q1 : (r1.step (.input ⟨v, .Up, 0⟩ anyDeviceIndex)).2 = [] := by rw [q1]; simp [hkv']
      have q5 : r2.outs = [(v, k)] := by rw [q5]; simp [hkv]
      have q4 : r2.held = [k] := by rw [q4, hheld]; simp
      rw [q1] at hst
      rw [hst] at e1
      obtain ⟨u1, u2, u3, u4, u5⟩ := release_layer r2 k dev
      rw [q5] at u1 u5
      have u1 : (r2.step (.input ⟨k, .Up, 0⟩ dev)).2 = [⟨v, .Up, 0⟩] := by rw [u1]; simp
      have e2 : (⟨r2, []⟩ : Layers Remapper).step Remapper.step (.keys (.input ⟨k, .Up, 0⟩ dev)) = (⟨(r2.step (.input ⟨k, .Up, 0⟩ dev)).1, []⟩, []) := by
        unfold Layers.step Layers.begin Layers.process
        simp only [u1]
        rw [Layers.output_skip _ _ _ hv (by simp)]
        rfl
      refine ⟨false, ⟨(r2.step (.input ⟨k, .Up, 0⟩ dev)).1, []⟩, [.virtualKeyState v .Up], ?_, ⟨?_, ?_, ?_, ?_, rfl⟩, ?_⟩
      · simp only [Layers.run, e1, e2]
        rfl
      · exact u2.trans (q2.trans p2)
      · exact u3.trans (q3.trans p3)
      · show (r2.step (.input ⟨k, .Up, 0⟩ dev)).1.held = []
        rw [u4, q4]; simp
      · show (r2.step (.input ⟨k, .Up, 0⟩ dev)).1.outs = []
        rw [u5]; simp
      · rw [layerTaps, if_pos rfl]; rfl
  · -- another key
    obtain ⟨b, hb⟩ : ∃ b, b = layerKey layer base on k := ⟨_, rfl⟩
    have hbo : Ordinary b := by
      rw [hb]
      unfold layerKey
      have hrb := replacedBy_ordinary hbase hk
      cases on with
      | false => exact hrb
      | true =>
        rw [if_pos rfl]
        cases hl : layer.lookup k with
        | none => exact hrb
        | some c =>
          rw [List.lookup_eq_some_iff] at hl
          obtain ⟨l1, l2, rfl, _⟩ := hl
          exact (hlayer (k, c) (by simp)).2
    have hout : (match ((if on then layer.lookup k else none).or (((t, v) :: base).lookup k)).map (fun b => ([⟨b, .Down, 0⟩] : KeySequence)) with
        | some o => o
        | none => if isVirtualKey k then [] else [⟨k, .Down, 0⟩]) = [⟨b, .Down, 0⟩] := by
      have e1 : ((t, v) :: base).lookup k = base.lookup k := by
        rw [List.lookup_cons, beq_eq_false_iff_ne.2 hkt]
      rw [e1, hkvirt, hb]
      unfold layerKey replacedBy
      cases on with
      | false => cases base.lookup k <;> rfl
      | true => cases layer.lookup k <;> cases base.lookup k <;> rfl
    rw [hout] at p1 p5
    have p5 : r1.outs = [(b, k)] := p5
    have hbv : isVirtualKey b = false ∧ isActionKey b = false := by
      have := ordinary_sendable (e := ⟨b, .Down, 0⟩) hbo
      exact ⟨this.2.1, this.2.2.1⟩
    have hdel : ∀ st, delivered ⟨b, st, 0⟩ = [.sendKey ⟨b, st, 0⟩] := by
      intro st
      unfold delivered
      rw [if_neg (by simp [hbv.2])]
    have e1 : l.step Remapper.step (.keys (.input ⟨k, .Down, 0⟩ dev)) = (⟨r1, l.on⟩, [.sendKey ⟨b, .Down, 0⟩]) := by
      have hbg : l.begin Remapper.step (.keys (.input ⟨k, .Down, 0⟩ dev)) = (⟨r1, l.on⟩, [⟨b, .Down, 0⟩], []) := by
        unfold Layers.begin
        simp only [p1, ← hr1]
      unfold Layers.step
      rw [hbg]
      simp only [Layers.process]
      rw [Layers.output_one Remapper.step ⟨r1, l.on⟩ [] hbv.1]
      simp [Layers.output, hdel]
    obtain ⟨u1, u2, u3, u4, u5⟩ := release_layer r1 k dev
    rw [p5] at u1 u5
    have u1 : (r1.step (.input ⟨k, .Up, 0⟩ dev)).2 = [⟨b, .Up, 0⟩] := by rw [u1]; simp
    have e2 : (⟨r1, l.on⟩ : Layers Remapper).step Remapper.step (.keys (.input ⟨k, .Up, 0⟩ dev)) =
        (⟨(r1.step (.input ⟨k, .Up, 0⟩ dev)).1, l.on⟩, [.sendKey ⟨b, .Up, 0⟩]) := by
      unfold Layers.step Layers.begin Layers.process
      simp only [u1]
      rw [Layers.output_one _ _ _ hbv.1]
      simp [Layers.output, hdel]
    refine ⟨on, ⟨(r1.step (.input ⟨k, .Up, 0⟩ dev)).1, l.on⟩, [.sendKey ⟨b, .Down, 0⟩, .sendKey ⟨b, .Up, 0⟩], ?_, ⟨?_, ?_, ?_, ?_, h.on⟩, ?_⟩
    · simp only [Layers.run, e1, e2]
      rfl
    · exact u2.trans p2
    · exact u3.trans p3
    · show (r1.step (.input ⟨k, .Up, 0⟩ dev)).1.held = _
      rw [u4, p4]
      cases on with
      | false => simp
      | true =>
        have : (v == k) = false := beq_eq_false_iff_ne.2 (Ne.symm hkv)
        simp [this]
    · show (r1.step (.input ⟨k, .Up, 0⟩ dev)).1.outs = []
      rw [u5]; simp
    · rw [layerTaps, if_neg hkt, ← hb]; rfl

include hv ht hlayer hbase in
theorem taps_layer (hnot : layer.lookup t = none) (taps : List (Key × Int)) (htaps : ∀ p ∈ taps, Ordinary p.1 ∧ -2 ≤ p.2 ∧ p.2 < 64) :
    ∀ {on : Bool} {l : Layers Remapper}, BetweenTaps v t layer base on l →
    (l.run Remapper.step ((taps.flatMap tapKey).map (fun p => .keys (.input p.1 p.2)))).2 = layerTaps v t layer base on (taps.map (·.1)) := by
  induction taps with
  | nil => intro on l _; rfl
  | cons p taps ih =>
    intro on l h
    obtain ⟨k, dev⟩ := p
    obtain ⟨hk, h1, h2⟩ := htaps (k, dev) (by simp)
    obtain ⟨on', l', eff, e1, e2, e3⟩ := tap_layer hv ht hlayer hbase hnot h hk h1 h2 (taps.map (·.1))
    rw [List.flatMap_cons, List.map_append, Layers.run_append]
    show ((l.run Remapper.step [.keys (.input ⟨k, .Down, 0⟩ dev), .keys (.input ⟨k, .Up, 0⟩ dev)]).2 ++
      ((l.run Remapper.step [.keys (.input ⟨k, .Down, 0⟩ dev), .keys (.input ⟨k, .Up, 0⟩ dev)]).1.run Remapper.step _).2) = _
    rw [e1]
    simp only []
    rw [ih (fun q hq => htaps q (List.mem_cons_of_mem _ hq)) e2, List.map_cons, e3]

end

/-- keys which are released before the next one is pressed do not terminate the server -/
theorem noExit_taps (first : List StageOp) (hf : strokes first = []) (taps : List (Key × Int)) :
    NoExit (first ++ (taps.flatMap tapKey).map (fun p => .input p.1 p.2)) := by
  rintro before last after hs ⟨a, b, c, rfl⟩
  rw [strokes_append, hf, List.nil_append] at hs
  -- no two presses in a row
  have hno : ∀ (taps : List (Key × Int)) (pre : List (Key × KeyState)) (x y : Key × KeyState) (post : List (Key × KeyState)),
      strokes ((taps.flatMap tapKey).map (fun p => .input p.1 p.2)) = pre ++ x :: y :: post → x.2 = .Down → y.2 = .Down → False := by
    intro taps
    induction taps with
    | nil => intro pre x y post h; simp [strokes] at h
    | cons p taps ih =>
      intro pre x y post h hx hy
      rw [List.flatMap_cons, List.map_append, strokes_append] at h
      have hp : strokes ((tapKey p).map (fun p => .input p.1 p.2)) = if isKeyboardKey p.1 then [(p.1, .Down), (p.1, .Up)] else [] := by
        simp only [tapKey, List.map_cons, List.map_nil, strokes]
        split <;> rfl
      rw [hp] at h
      split at h
      · cases pre with
        | nil =>
          simp only [List.cons_append, List.nil_append, List.cons.injEq] at h
          rw [← h.2.1] at hy
          cases hy
        | cons z pre =>
          cases pre with
          | nil =>
            simp only [List.cons_append, List.nil_append, List.cons.injEq] at h
            rw [← h.2.1] at hx
            cases hx
          | cons w pre =>
            simp only [List.cons_append, List.nil_append, List.cons.injEq] at h
            exact ih pre x y post h.2.2 hx hy
      · rw [List.nil_append] at h
        exact ih pre x y post h hx hy
  refine hno taps (before ++ List.replicate a (Key.ShiftLeft, .Down)) (Key.ShiftLeft, .Down) (Key.Escape, .Down)
    (List.replicate b (Key.Escape, .Down) ++ List.replicate (c + 1) (Key.KeyK, .Down) ++ after) ?_ rfl rfl
  rw [hs, List.replicate_succ' (n := a), List.replicate_succ (n := b)]
  simp

/-- only keys are read -/
theorem layerOps_reads (n : Nat) (its : List Iteration) (h : ∀ it ∈ its, it.messages = []) {l : List (KeyEvent × Int)} (hread : keysRead its = l) :
    its.flatMap (Iteration.layerOps n) = l.map (fun p => .keys (.input p.1 p.2)) := by
  rw [← hread]
  clear hread
  induction its with
  | nil => rfl
  | cons it its ih =>
    have h1 := h it (by simp)
    rw [List.flatMap_cons, ih (fun x hx => h x (by simp [hx]))]
    unfold keysRead Iteration.layerOps
    rw [h1, List.filterMap_cons]
    cases it.read <;> simp [Read.stageOps]

theorem keyOps_contexts (c : List Nat) (l : List (KeyEvent × Int)) :
    keyOps (.keys (.contexts c) :: l.map (fun p => .keys (.input p.1 p.2))) = [.contexts c] ++ l.map (fun p => .input p.1 p.2) := by
  unfold keyOps
  rw [List.filterMap_cons, List.filterMap_map]
  simp only [List.singleton_append, List.cons.injEq, true_and]
  induction l with
  | nil => rfl
  | cons q l ih => rw [List.filterMap_cons, List.map_cons, ← ih]; rfl

/-- **C92 (two layers).** With `[modifier="V"] A >> X ... [default] T >> V, A >> Y ...` the key `T` switches between two layers: while the layer is on, a key is replaced by its mapping there, if there is one, otherwise by the one of the
default context; keys without mapping remain what they are. `T` itself outputs nothing. All keys may be typed, any number of times, on any devices. -/
theorem C92_two_layers (rx : Regex) {v t : Key} {layer base : List (Key × Key)} (hv : isVirtualKey v = true) (ht : Ordinary t)
    (hlayer : ∀ p ∈ layer, Ordinary p.1 ∧ Ordinary p.2) (hbase : ∀ p ∈ base, Ordinary p.1 ∧ Ordinary p.2) (hnot : layer.lookup t = none)
    (ds : List DeviceDesc) (its : List Iteration) (hi : ∀ it ∈ its, it.Layered true ∧ it.messages = []) (taps : List (Key × Int))
    (htaps : ∀ p ∈ taps, Ordinary p.1 ∧ -2 ≤ p.2 ∧ p.2 < 64) (hread : keysRead its = taps.flatMap tapKey) :
    (({} : Srv).connection rx [.configuration [Cfg.make (layerContexts v t layer base)], .activeContexts [0, 1]] ds its).out =
      layerTaps v t layer base false (taps.map (·.1)) := by
  have hops := layerOps_reads 2 its (fun it h => (hi it h).2) hread
  have hout : ∀ {pairs : List (Key × Key)}, (∀ p ∈ pairs, Ordinary p.1 ∧ (Ordinary p.2 ∨ isVirtualKey p.2 = true)) →
      ∀ o ∈ (replaceContext pairs).outputs, OnlyPresses o ∧ (∀ e ∈ o, isMouseWheel e.key = false ∧ (e.state = .Up → isVirtualKey e.key = false)) ∧ o.countP mayToggle ≤ 9 := by
    intro pairs hp o ho
    obtain ⟨p, h1, rfl⟩ := List.mem_map.1 ho
    have hp2 : p.2 ≠ Key.any ∧ p.2 ≠ Key.timeout ∧ isMouseWheel p.2 = false := by
      rcases (hp p h1).2 with h | h
      · have := ordinary_replaceable h
        exact ⟨this.2.1, this.2.2.1, h.2⟩
      · have := virtual_replaceable h
        exact ⟨this.2.1, this.2.2.1, (virtual_noWheel h).1⟩
    refine ⟨?_, ?_, ?_⟩
    · intro e he
      rw [List.mem_singleton] at he
      subst he
      exact ⟨rfl, hp2.1, hp2.2.1⟩
    · intro e he
      rw [List.mem_singleton] at he
      subst he
      exact ⟨hp2.2.2, by intro h; cases h⟩
    · rw [List.countP_cons, List.countP_nil]; split <;> omega
  have hin : ∀ {pairs : List (Key × Key)}, (∀ p ∈ pairs, Ordinary p.1 ∧ (Ordinary p.2 ∨ isVirtualKey p.2 = true)) →
      ∀ m ∈ (replaceContext pairs).inputs, ∃ k, Ordinary k ∧ m.input = singleKey k := by
    intro pairs hp m hm
    obtain ⟨⟨p, n⟩, h1, rfl⟩ := List.mem_map.1 hm
    have hz := List.mem_zipIdx h1
    exact ⟨p.1, (hp p (by rw [hz.2.2]; exact List.getElem_mem _)).1, rfl⟩
  have hgood : ∀ {pairs : List (Key × Key)}, (∀ p ∈ pairs, Ordinary p.1 ∧ (Ordinary p.2 ∨ isVirtualKey p.2 = true)) →
      ∀ ctx : Context, ctx.inputs = (replaceContext pairs).inputs → ctx.outputs = (replaceContext pairs).outputs → ctx.commandOutputs = [] →
        ctx.OnlyReplaces ∧ ctx.Layered := by
    intro pairs hp ctx h1 h2 h3
    refine ⟨⟨?_, ?_, ?_⟩, ⟨?_, ?_, ?_⟩⟩
    · intro m hm
      rw [h1] at hm
      obtain ⟨k, h4, h5⟩ := hin hp m hm
      exact ⟨k, ordinary_replaceable h4, h5⟩
    · intro o ho; rw [h2] at ho; exact (hout hp o ho).1
    · rw [h3]; intro o ho; cases ho
    · intro o ho; rw [h2] at ho; exact (hout hp o ho).2
    · rw [h3]; intro o ho; cases ho
    · intro m hm w hw hmw
      rw [h1] at hm
      obtain ⟨k, h4, h5⟩ := hin hp m hm
      rw [h5] at hmw
      have : k = w := by
        exact Option.some.inj hmw
      subst this
      rw [(ordinary_sendable (e := ⟨k, .Down, 0⟩) h4).2.1] at hw
      cases hw
  have hctx : ∀ ctx ∈ layerContexts v t layer base, ctx.OnlyReplaces ∧ ctx.Layered ∧ ctx.commandOutputs = [] := by
    intro ctx hc
    simp only [layerContexts, List.mem_cons, List.not_mem_nil, or_false] at hc
    rcases hc with rfl | rfl
    · obtain ⟨h1, h2⟩ := hgood (pairs := layer) (fun p hp => ⟨(hlayer p hp).1, .inl (hlayer p hp).2⟩) { replaceContext layer with modifierFilter := [⟨v, .Down, 0⟩] } rfl rfl rfl
      exact ⟨h1, h2, rfl⟩
    · obtain ⟨h1, h2⟩ := hgood (pairs := (t, v) :: base) (by
        intro p hp
        rcases List.mem_cons.1 hp with rfl | hp
        · exact ⟨ht, .inr hv⟩
        · exact ⟨(hbase p hp).1, .inl (hbase p hp).2⟩) (replaceContext ((t, v) :: base)) rfl rfl rfl
      exact ⟨h1, h2, rfl⟩
  have hmsg : [Msg.activeContexts [0, 1]].flatMap (Msg.layerOps 2) = [.keys (.contexts [0, 1])] := rfl
  have hall : ∀ op ∈ LayerOp.keys (.contexts [0, 1]) :: (taps.flatMap tapKey).map (fun p => LayerOp.keys (.input p.1 p.2)), op.isLayer 2 := by
    intro op hop
    rcases List.mem_cons.1 hop with rfl | hop
    · exact ⟨by simp, by simp⟩
    · obtain ⟨q, h1, rfl⟩ := List.mem_map.1 hop
      obtain ⟨p, h2, h3⟩ := List.mem_flatMap.1 h1
      obtain ⟨h4, h5, h6⟩ := htaps p h2
      simp only [tapKey, List.mem_cons, List.not_mem_nil, or_false] at h3
      rcases h3 with rfl | rfl
      · exact ⟨.inl rfl, h4, h5, h6⟩
      · exact ⟨.inr rfl, h4, h5, h6⟩
  rw [C92_layers rx (layerContexts v t layer base) (fun ctx h => (hctx ctx h).1) (fun ctx h => (hctx ctx h).2.1)
    (by intro ctx h; rw [(hctx ctx h).2.2]; intro a ha; cases ha) ⟨_, rfl, rfl⟩ rfl [.activeContexts [0, 1]] (by simp) ds its (fun it h => (hi it h).1)
    (ops := .keys (.contexts [0, 1]) :: (taps.flatMap tapKey).map (fun p => .keys (.input p.1 p.2))) (by
      show _ = [Msg.activeContexts [0, 1]].flatMap (Msg.layerOps 2) ++ its.flatMap (Iteration.layerOps 2)
      rw [hmsg, hops]; rfl) hall (by
      have := noExit_taps [.contexts [0, 1]] rfl taps
      have e := keyOps_contexts [0, 1] (taps.flatMap tapKey)
      rw [e]; exact this)]
  show ([] ++ ((⟨{ contexts := layerContexts v t layer base, client := [0, 1] }, []⟩ : Layers Remapper).run Remapper.step _).2) = _
  rw [List.nil_append]
  exact taps_layer hv ht hlayer hbase hnot taps htaps ⟨rfl, rfl, rfl, rfl, rfl⟩

/-- `[modifier="Virtual1"] J >> ArrowDown [default] ScrollLock >> Virtual1, A >> B`: J, A, then on, J, A, then off, J. -/
example (rx : Regex) (ds : List DeviceDesc) :
    let taps : List (Key × Int) := [(Key.KeyJ, 0), (Key.KeyA, 1), (Key.ScrollLock, 0), (Key.KeyJ, 1), (Key.KeyA, 0), (Key.ScrollLock, 1), (Key.KeyJ, 0)]
    (({} : Srv).connection rx [.configuration [Cfg.make (layerContexts 61697 Key.ScrollLock [(Key.KeyJ, Key.ArrowDown)] [(Key.KeyA, Key.KeyB)])],
      .activeContexts [0, 1]] ds ((taps.flatMap tapKey).map (fun p => { now := 0, read := .key p.1 p.2 }))).out =
    [.sendKey ⟨Key.KeyJ, .Down, 0⟩, .sendKey ⟨Key.KeyJ, .Up, 0⟩, .sendKey ⟨Key.KeyB, .Down, 0⟩, .sendKey ⟨Key.KeyB, .Up, 0⟩,
      .virtualKeyState 61697 .Down, .sendKey ⟨Key.ArrowDown, .Down, 0⟩, .sendKey ⟨Key.ArrowDown, .Up, 0⟩, .sendKey ⟨Key.KeyB, .Down, 0⟩, .sendKey ⟨Key.KeyB, .Up, 0⟩,
      .virtualKeyState 61697 .Up, .sendKey ⟨Key.KeyJ, .Down, 0⟩, .sendKey ⟨Key.KeyJ, .Up, 0⟩] := by
  intro taps
  have ho : ∀ p ∈ taps.flatMap tapKey, Ordinary p.1.key := by
    unfold Ordinary; decide +kernel
  rw [C92_two_layers rx (v := 61697) (t := Key.ScrollLock) (layer := [(Key.KeyJ, Key.ArrowDown)]) (base := [(Key.KeyA, Key.KeyB)]) (by decide)
    (by unfold Ordinary; decide) (by unfold Ordinary; decide) (by unfold Ordinary; decide) (by decide) ds _ ?_ taps ?_ ?_]
  · decide +kernel
  · intro it hit
    obtain ⟨p, h1, rfl⟩ := List.mem_map.1 hit
    refine ⟨⟨?_, rfl, .inl rfl, ?_, rfl⟩, rfl⟩
    · intro ev dev h
      cases h
      exact ho p h1
    · intro m hm; cases hm
  · unfold Ordinary; decide +kernel
  · decide +kernel

/-- A terminal command which is executed when a key is pressed, while Virtual2 is on, which a client sets. -/
example (rx : Regex) (ds : List DeviceDesc) :
    let ctxs : List Context := [{ inputs := [⟨singleKey Key.F1, 0⟩], outputs := [[⟨Key.first_action, .Down, 0⟩]], modifierFilter := [⟨61698, .Down, 0⟩] }]
    (({} : Srv).connection rx [.configuration [Cfg.make ctxs], .activeContexts [0]] ds [
      { now := 0, read := .key ⟨Key.F1, .Down, 0⟩ 0 }, { now := 0, read := .key ⟨Key.F1, .Up, 0⟩ 0, messages := [.setVirtualKeyState 61698 .Down, .setVirtualKeyState 61698 .Down] },
      { now := 0, read := .key ⟨Key.F1, .Down, 0⟩ 0 }, { now := 0, read := .key ⟨Key.F1, .Up, 0⟩ 0 }]).out =
    [.sendKey ⟨Key.F1, .Down, 0⟩, .sendKey ⟨Key.F1, .Up, 0⟩, .virtualKeyState 61698 .Down, .action 0] := by
  intro ctxs
  rw [C92_layers rx ctxs ?_ ?_ ?_ ⟨_, rfl, rfl⟩ (by decide +kernel) [.activeContexts [0]] (by simp) ds _ ?_ rfl ?_ ?_]
  · decide +kernel
  · intro ctx hc
    simp only [ctxs, List.mem_singleton] at hc
    subst hc
    refine ⟨?_, by unfold OnlyPresses; decide, by simp⟩
    intro m hm
    simp only [List.mem_singleton] at hm
    subst hm
    exact ⟨Key.F1, by unfold Replaceable; decide, rfl⟩
  · intro ctx hc
    simp only [ctxs, List.mem_singleton] at hc
    subst hc
    refine ⟨by decide, by simp, ?_⟩
    intro m hm v hv h
    simp only [List.mem_singleton] at hm
    subst hm
    rw [← Option.some.inj (show some Key.F1 = some v from h)] at hv
    exact absurd hv (by decide)
  · intro ctx hc
    simp only [ctxs, List.mem_singleton] at hc
    subst hc
    intro a ha; cases ha
  · intro it h
    simp only [List.mem_cons, List.not_mem_nil, or_false] at h
    rcases h with rfl | rfl | rfl | rfl
    all_goals refine ⟨?_, rfl, .inl rfl, ?_, rfl⟩
    all_goals first
      | (intro m hm; cases hm; done)
      | (intro m hm
         simp only [List.mem_cons, List.not_mem_nil, or_false, or_self] at hm
         subst hm; exact .inr ⟨_, _, rfl, by decide⟩)
      | (intro ev dev h; cases h; unfold KM.Ordinary; decide)
  · intro op hop
    simp only [List.flatMap_cons, List.flatMap_nil, Msg.layerOps, Msg.stageOps, Iteration.layerOps, Read.stageOps, reduceCtorEq, if_false, List.map_cons, List.map_nil,
      List.nil_append, List.append_nil, List.cons_append, List.mem_cons, List.not_mem_nil, or_false] at hop
    rcases hop with rfl | rfl | rfl | rfl | rfl | rfl | rfl
    · exact ⟨by decide +kernel, by decide +kernel⟩
    all_goals first
      | exact ⟨by decide, by unfold Ordinary; decide, by decide, by decide⟩
      | exact (by decide : isVirtualKey 61698 = true)
  · exact noExit_two (a := Key.F1) (b := Key.F1) (by decide +kernel)

end KM
