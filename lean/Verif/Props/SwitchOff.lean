import Verif.Lemmas.SwitchOff
import Verif.Props.ReleaseOutput
/-!
# C93: switching virtual keys on and off
-/
namespace KM

theorem noExit_prefix {a b : List StageOp} (h : NoExit (a ++ b)) : NoExit a := by
  intro before last after he
  exact h before last (after ++ strokes b) (by rw [strokes_append, he]; simp)

theorem onHeld_init (tapped : List Key) (ctxs : List Context) : OnHeld tapped ctxs ⟨{ contexts := ctxs }, []⟩ := by
  refine ⟨⟨rfl, .inl rfl, ?_, ?_⟩, List.nodup_nil, List.nodup_nil, fun v _ => Iff.rfl, ?_⟩
  all_goals intro h hh; cases hh

/-- **C93 (the client knows).** Whatever is pressed and set: the state of a virtual key which the client was told last is the one which decides about the mappings: the key is one of those which are held. -/
theorem C93_client_knows (rx : Regex) (ctxs : List Context) {tapped : List Key} (hr : ∀ ctx ∈ ctxs, ctx.OnlyCombines) (hl : ∀ ctx ∈ ctxs, ctx.Switches tapped) (hu : CommandsUnique ctxs)
    (hs : LastStops ctxs) (hfw : ForwardsFirst ctxs) (hf : (Cfg.make ctxs).hasDeviceFilter = false) (ms : List Msg)
    (hm : ∀ m ∈ ms, (∃ l, m = .activeContexts l) ∨ ∃ v st, m = .setVirtualKeyState v st ∧ isVirtualKey v = true)
    (ds : List DeviceDesc) (its : List Iteration) (hi : ∀ it ∈ its, it.Layered true) {ops : List LayerOp}
    (hops : ops = ms.flatMap (Msg.layerOps ctxs.length) ++ its.flatMap (Iteration.layerOps ctxs.length))
    (ho : ∀ op ∈ ops, op.isShortcut ctxs.length) (hexit : NoExit (keyOps ops)) {v : Key} (hv : isVirtualKey v = true) :
    lastTold v (({} : Srv).connection rx (.configuration [Cfg.make ctxs] :: ms) ds its).out = true ↔
      v ∈ ((⟨{ contexts := ctxs }, []⟩ : Layers Combiner).run Combiner.step ops).1.keys.held := by
  rw [C92_shortcuts rx ctxs hr hl hu hs hfw hf ms hm ds its hi hops ho hexit]
  have h1 := (run_on Combiner.step v hv ops (l := (⟨{ contexts := ctxs }, []⟩ : Layers Combiner)) List.nodup_nil).2
  have h2 := run_onHeld hr hl ops ho (onHeld_init tapped ctxs)
  have h3 : lastTold v ((⟨{ contexts := ctxs }, []⟩ : Layers Combiner).run Combiner.step ops).2 = _ := h1
  rw [h3, decide_eq_true_iff]
  exact h2.same v hv

/-- **C93 (an output switches virtual keys).** After any such history, when a key is pressed whose mapping outputs `out` (up to `^`): each virtual key is then on or off as the output says, starting from the state which the client was told last; each
time it is output it is toggled, `!V` toggles it when it was on before. -/
theorem C93_switched (rx : Regex) (ctxs : List Context) {tapped : List Key} (hr : ∀ ctx ∈ ctxs, ctx.OnlyCombines) (hl : ∀ ctx ∈ ctxs, ctx.Switches tapped) (hu : CommandsUnique ctxs)
    (hs : LastStops ctxs) (hfw : ForwardsFirst ctxs) (hf : (Cfg.make ctxs).hasDeviceFilter = false) (ms : List Msg)
    (hm : ∀ m ∈ ms, (∃ l, m = .activeContexts l) ∨ ∃ v st, m = .setVirtualKeyState v st ∧ isVirtualKey v = true)
    (ds : List DeviceDesc) (its : List Iteration) (it : Iteration) (hi : ∀ i ∈ its ++ [it], i.Layered true) {k : Key} {dev : Int}
    (hread : it.read = .key ⟨k, .Down, 0⟩ dev) (hmsg : it.messages = []) {ops : List LayerOp}
    (hops : ops = ms.flatMap (Msg.layerOps ctxs.length) ++ its.flatMap (Iteration.layerOps ctxs.length)) (ho : ∀ op ∈ ops, op.isShortcut ctxs.length)
    (hdev : ValidDevice dev) (hexit : NoExit (keyOps ops ++ [.input ⟨k, .Down, 0⟩ dev])) {out : KeySequence} :
    let r := ((⟨{ contexts := ctxs }, []⟩ : Layers Combiner).run Combiner.step ops).1.keys
    k ∉ r.held → r.meaning dev k = some (.output out) → ∀ v, isVirtualKey v = true →
    lastTold v (({} : Srv).connection rx (.configuration [Cfg.make ctxs] :: ms) ds (its ++ [it])).out =
      switchedBy v (lastTold v (({} : Srv).connection rx (.configuration [Cfg.make ctxs] :: ms) ds its).out) (onPress out) := by
  intro r hk hmean v hv
  have hord : Ordinary k := (hi it (by simp)).read _ _ hread
  obtain ⟨op, hop⟩ : ∃ op, op = LayerOp.keys (.input ⟨k, .Down, 0⟩ dev) := ⟨_, rfl⟩
  have hlast : Iteration.layerOps ctxs.length it = [op] := by
    unfold Iteration.layerOps
    rw [hread, hmsg, hop]
    simp [Read.stageOps]
  have hops2 : ops ++ [op] = ms.flatMap (Msg.layerOps ctxs.length) ++ (its ++ [it]).flatMap (Iteration.layerOps ctxs.length) := by
    rw [List.flatMap_append, List.flatMap_cons, List.flatMap_nil, hlast, hops]
    simp
  have hko : keyOps (ops ++ [op]) = keyOps ops ++ [.input ⟨k, .Down, 0⟩ dev] := by
    unfold keyOps
    rw [List.filterMap_append, hop]
    rfl
  have ho2 : ∀ o ∈ ops ++ [op], o.isShortcut ctxs.length := by
    intro o h
    rcases List.mem_append.1 h with h | h
    · exact ho o h
    · rw [List.mem_singleton] at h
      subst h
      rw [hop]
      exact ⟨⟨.inl rfl, hord, hdev.1, hdev.2⟩, ⟨.inl rfl, ordinary_replaceable hord, hdev.1, hdev.2⟩, rfl⟩
  rw [C92_shortcuts rx ctxs hr hl hu hs hfw hf ms hm ds its (fun i h => hi i (by simp [h])) hops ho (noExit_prefix hexit),
    C92_shortcuts rx ctxs hr hl hu hs hfw hf ms hm ds (its ++ [it]) hi hops2 ho2 (by rw [hko]; exact hexit)]
  have t1 : lastTold v ((⟨{ contexts := ctxs }, []⟩ : Layers Combiner).run Combiner.step ops).2 = _ :=
    (run_on Combiner.step v hv ops (l := (⟨{ contexts := ctxs }, []⟩ : Layers Combiner)) List.nodup_nil).2
  have t2 : lastTold v ((⟨{ contexts := ctxs }, []⟩ : Layers Combiner).run Combiner.step (ops ++ [op])).2 = _ :=
    (run_on Combiner.step v hv (ops ++ [op]) (l := (⟨{ contexts := ctxs }, []⟩ : Layers Combiner)) List.nodup_nil).2
  have h2 := run_onHeld hr hl ops ho (onHeld_init tapped ctxs)
  rw [t1, t2, Layers.run_append, ← press_switched hr hl h2 hord hk hmean hv, ← hop]
  rfl

/-- **C93 (at the release).** And when a key is released for which something is still to be output (the part after `^`): each virtual key is then on or off as that part says. -/
theorem C93_released (rx : Regex) (ctxs : List Context) {tapped : List Key} (hr : ∀ ctx ∈ ctxs, ctx.OnlyCombines) (hl : ∀ ctx ∈ ctxs, ctx.Switches tapped) (hu : CommandsUnique ctxs)
    (hs : LastStops ctxs) (hfw : ForwardsFirst ctxs) (hf : (Cfg.make ctxs).hasDeviceFilter = false) (ms : List Msg)
    (hm : ∀ m ∈ ms, (∃ l, m = .activeContexts l) ∨ ∃ v st, m = .setVirtualKeyState v st ∧ isVirtualKey v = true)
    (ds : List DeviceDesc) (its : List Iteration) (it : Iteration) (hi : ∀ i ∈ its ++ [it], i.Layered true) {k : Key} {dev : Int}
    (hread : it.read = .key ⟨k, .Up, 0⟩ dev) (hmsg : it.messages = []) {ops : List LayerOp}
    (hops : ops = ms.flatMap (Msg.layerOps ctxs.length) ++ its.flatMap (Iteration.layerOps ctxs.length)) (ho : ∀ op ∈ ops, op.isShortcut ctxs.length)
    (hdev : ValidDevice dev) (hexit : NoExit (keyOps ops ++ [.input ⟨k, .Up, 0⟩ dev])) {p : Pending} :
    let r := ((⟨{ contexts := ctxs }, []⟩ : Layers Combiner).run Combiner.step ops).1.keys
    r.pending.find? (fun p => p.key == k) = some p → ∀ v, isVirtualKey v = true →
    lastTold v (({} : Srv).connection rx (.configuration [Cfg.make ctxs] :: ms) ds (its ++ [it])).out =
      switchedBy v (lastTold v (({} : Srv).connection rx (.configuration [Cfg.make ctxs] :: ms) ds its).out) (p.out.filter (fun e => e.state != .OutputOnRelease)) := by
  intro r hp v hv
  have hord : Ordinary k := (hi it (by simp)).read _ _ hread
  obtain ⟨op, hop⟩ : ∃ op, op = LayerOp.keys (.input ⟨k, .Up, 0⟩ dev) := ⟨_, rfl⟩
  have hlast : Iteration.layerOps ctxs.length it = [op] := by
    unfold Iteration.layerOps
    rw [hread, hmsg, hop]
    simp [Read.stageOps]
  have hops2 : ops ++ [op] = ms.flatMap (Msg.layerOps ctxs.length) ++ (its ++ [it]).flatMap (Iteration.layerOps ctxs.length) := by
    rw [List.flatMap_append, List.flatMap_cons, List.flatMap_nil, hlast, hops]
    simp
  have hko : keyOps (ops ++ [op]) = keyOps ops ++ [.input ⟨k, .Up, 0⟩ dev] := by
    unfold keyOps
    rw [List.filterMap_append, hop]
    rfl
  have ho2 : ∀ o ∈ ops ++ [op], o.isShortcut ctxs.length := by
    intro o h
    rcases List.mem_append.1 h with h | h
    · exact ho o h
    · rw [List.mem_singleton] at h
      subst h
      rw [hop]
      exact ⟨⟨.inr rfl, hord, hdev.1, hdev.2⟩, ⟨.inr rfl, ordinary_replaceable hord, hdev.1, hdev.2⟩, rfl⟩
  rw [C92_shortcuts rx ctxs hr hl hu hs hfw hf ms hm ds its (fun i h => hi i (by simp [h])) hops ho (noExit_prefix hexit),
    C92_shortcuts rx ctxs hr hl hu hs hfw hf ms hm ds (its ++ [it]) hi hops2 ho2 (by rw [hko]; exact hexit)]
  have t1 : lastTold v ((⟨{ contexts := ctxs }, []⟩ : Layers Combiner).run Combiner.step ops).2 = _ :=
    (run_on Combiner.step v hv ops (l := (⟨{ contexts := ctxs }, []⟩ : Layers Combiner)) List.nodup_nil).2
  have t2 : lastTold v ((⟨{ contexts := ctxs }, []⟩ : Layers Combiner).run Combiner.step (ops ++ [op])).2 = _ :=
    (run_on Combiner.step v hv (ops ++ [op]) (l := (⟨{ contexts := ctxs }, []⟩ : Layers Combiner)) List.nodup_nil).2
  have h2 := run_onHeld hr hl ops ho (onHeld_init tapped ctxs)
  rw [t1, t2, Layers.run_append, ← release_switched h2 hp hv, ← hop]
  rfl

theorem Layers.run_concat {σ : Type} (step : σ → StageOp → σ × KeySequence) (l : Layers σ) (a b : List LayerOp) : (l.run step (a ++ b)).1 = ((l.run step a).1.run step b).1 := by
  rw [Layers.run_append]

/-- **C93 (while a key is held).** After any such history a key is pressed whose mapping outputs `out`, with a `^` in it; then other keys are pressed and released, virtual keys are set, and in the end the key is released. Each virtual key
is on or off as the part before the `^` says, when the key is pressed, and as the part after it says, when it is released. -/
theorem C93_held (rx : Regex) (ctxs : List Context) {tapped : List Key} (hr : ∀ ctx ∈ ctxs, ctx.OnlyCombines) (hl : ∀ ctx ∈ ctxs, ctx.Switches tapped) (hu : CommandsUnique ctxs)
    (hs : LastStops ctxs) (hfw : ForwardsFirst ctxs) (hf : (Cfg.make ctxs).hasDeviceFilter = false) (ms : List Msg)
    (hm : ∀ m ∈ ms, (∃ l, m = .activeContexts l) ∨ ∃ v st, m = .setVirtualKeyState v st ∧ isVirtualKey v = true)
    (ds : List DeviceDesc) (its mid : List Iteration) (press release : Iteration) (hi : ∀ i ∈ its ++ press :: (mid ++ [release]), i.Layered true) {k : Key} {dev dev' : Int}
    (hpress : press.read = .key ⟨k, .Down, 0⟩ dev) (hpm : press.messages = []) (hrelease : release.read = .key ⟨k, .Up, 0⟩ dev') (hrm : release.messages = [])
    {ops midOps : List LayerOp} (hops : ops = ms.flatMap (Msg.layerOps ctxs.length) ++ its.flatMap (Iteration.layerOps ctxs.length)) (ho : ∀ op ∈ ops, op.isShortcut ctxs.length)
    (hmid : midOps = mid.flatMap (Iteration.layerOps ctxs.length)) (hmo : ∀ op ∈ midOps, op.isShortcut ctxs.length ∧ op.keeps k)
    (hdev : ValidDevice dev) (hdev' : ValidDevice dev')
    (hexit : NoExit (keyOps ops ++ .input ⟨k, .Down, 0⟩ dev :: (keyOps midOps ++ [.input ⟨k, .Up, 0⟩ dev']))) {out rest : KeySequence} (hrest : onReleasePart out = some rest) :
    let r := ((⟨{ contexts := ctxs }, []⟩ : Layers Combiner).run Combiner.step ops).1.keys
    let told := fun (v : Key) (its : List Iteration) => lastTold v (({} : Srv).connection rx (.configuration [Cfg.make ctxs] :: ms) ds its).out
    k ∉ r.held → r.meaning dev k = some (.output out) → ∀ v, isVirtualKey v = true →
    told v (its ++ [press]) = switchedBy v (told v its) (onPress out) ∧
    told v (its ++ press :: (mid ++ [release])) = switchedBy v (told v (its ++ press :: mid)) (rest.filter (fun e => e.state != .OutputOnRelease)) := by
  intro r told hk hmean v hv
  have hord : Ordinary k := (hi press (by simp)).read _ _ hpress
  have hkv : isVirtualKey k = false := (ordinary_sendable (e := ⟨k, .Down, 0⟩) hord).2.1
  obtain ⟨op, hop⟩ : ∃ op, op = LayerOp.keys (.input ⟨k, .Down, 0⟩ dev) := ⟨_, rfl⟩
  have hlast : Iteration.layerOps ctxs.length press = [op] := by
    unfold Iteration.layerOps
    rw [hpress, hpm, hop]
    simp [Read.stageOps]
  have hopS : op.isShortcut ctxs.length := by
    rw [hop]
    exact ⟨⟨.inl rfl, hord, hdev.1, hdev.2⟩, ⟨.inl rfl, ordinary_replaceable hord, hdev.1, hdev.2⟩, rfl⟩
  have hops2 : ops ++ op :: midOps = ms.flatMap (Msg.layerOps ctxs.length) ++ (its ++ press :: mid).flatMap (Iteration.layerOps ctxs.length) := by
    rw [List.flatMap_append, List.flatMap_cons, hlast, hops, hmid]
    simp
  have ho2 : ∀ o ∈ ops ++ op :: midOps, o.isShortcut ctxs.length := by
    intro o h
    rcases List.mem_append.1 h with h | h
    · exact ho o h
    · rcases List.mem_cons.1 h with rfl | h
      · exact hopS
      · exact (hmo o h).1
  have hko : keyOps (ops ++ op :: midOps) ++ [.input ⟨k, .Up, 0⟩ dev'] = keyOps ops ++ .input ⟨k, .Down, 0⟩ dev :: (keyOps midOps ++ [.input ⟨k, .Up, 0⟩ dev']) := by
    unfold keyOps
    rw [List.filterMap_append, hop]
    simp
  -- what is left to be output
  have h2 := run_onHeld hr hl ops ho (onHeld_init tapped ctxs)
  have hpk : ∀ p ∈ r.pending, p.key ≠ k := fun p hp h' => hk (h' ▸ h2.pendingHeld p hp)
  obtain ⟨d1, d2, d3, d4, d5⟩ := r.device_same ⟨k, .Down, 0⟩ dev
  have hig : r.ignores ⟨k, .Down, 0⟩ dev = false := by
    unfold Combiner.ignores
    have : r.pending.any (fun p => p.key == k) = false := by
      rw [List.any_eq_false]
      intro p hp
      simpa using hpk p hp
    rw [this]
    simp [hk]
  have hm0 := hmean
  unfold Combiner.meaning at hm0
  obtain ⟨j, hj⟩ := decidedIn_some hm0
  have hfor : (r.device ⟨k, .Down, 0⟩ dev).pendingFor ⟨k, .Down, 0⟩ dev = [⟨k, rest, j⟩] := by
    unfold Combiner.pendingFor
    have hmm : (r.device ⟨k, .Down, 0⟩ dev).meaning dev k = some (.output out) := by
      rw [← hmean]
      unfold Combiner.meaning
      rw [d1, d3, d4]
    simp only [hmm, hrest, d1, d3, d4, hj]
  have hstep : r.step (.input ⟨k, .Down, 0⟩ dev) = (r.device ⟨k, .Down, 0⟩ dev).press ⟨k, .Down, 0⟩ dev := by
    simp only [Combiner.step, if_true, hig, Bool.false_eq_true, if_false]
  have hpend : (r.step (.input ⟨k, .Down, 0⟩ dev)).1.pending.find? (fun p => p.key == k) = some ⟨k, rest, j⟩ := by
    rw [hstep]
    show ((r.device ⟨k, .Down, 0⟩ dev).pending ++ (r.device ⟨k, .Down, 0⟩ dev).pendingFor ⟨k, .Down, 0⟩ dev).find? _ = _
    rw [d5, hfor]
    exact find_pending hpk _ rfl
  have hkept : ((⟨{ contexts := ctxs }, []⟩ : Layers Combiner).run Combiner.step (ops ++ op :: midOps)).1.keys.pending.find? (fun p => p.key == k) = some ⟨k, rest, j⟩ := by
    rw [Layers.run_concat]
    refine run_kept hkv midOps hmo ?_
    refine output_kept hkv _ ?_
    rw [hop]
    exact hpend
  constructor
  · refine C93_switched rx ctxs hr hl hu hs hfw hf ms hm ds its press (fun i h => hi i ?_) hpress hpm hops ho hdev ?_ hk hmean v hv
    · rcases List.mem_append.1 h with h | h
      · exact List.mem_append.2 (.inl h)
      · rw [List.mem_singleton] at h; simp [h]
    · refine noExit_prefix (b := keyOps midOps ++ [.input ⟨k, .Up, 0⟩ dev']) ?_
      rw [List.append_assoc]
      exact hexit
  · have := C93_released rx ctxs hr hl hu hs hfw hf ms hm ds (its ++ press :: mid) release (by
      intro i h
      refine hi i ?_
      rw [List.append_assoc] at h
      exact h) hrelease hrm hops2 ho2 hdev' (by rw [hko]; exact hexit) hkept v hv
    rw [List.append_assoc] at this
    exact this

/-- **C93 (a layer while a key is held).** With `K >> V ^ V` the virtual key is toggled when the key is pressed, and when it is released; no other virtual key changes. So when it was off, and nothing else switches it, then it is on as long as the key is held. -/
theorem C93_momentary (rx : Regex) (ctxs : List Context) {tapped : List Key} (hr : ∀ ctx ∈ ctxs, ctx.OnlyCombines) (hl : ∀ ctx ∈ ctxs, ctx.Switches tapped) (hu : CommandsUnique ctxs)
    (hs : LastStops ctxs) (hfw : ForwardsFirst ctxs) (hf : (Cfg.make ctxs).hasDeviceFilter = false) (ms : List Msg)
    (hm : ∀ m ∈ ms, (∃ l, m = .activeContexts l) ∨ ∃ v st, m = .setVirtualKeyState v st ∧ isVirtualKey v = true)
    (ds : List DeviceDesc) (its mid : List Iteration) (press release : Iteration) (hi : ∀ i ∈ its ++ press :: (mid ++ [release]), i.Layered true) {k : Key} {dev dev' : Int}
    (hpress : press.read = .key ⟨k, .Down, 0⟩ dev) (hpm : press.messages = []) (hrelease : release.read = .key ⟨k, .Up, 0⟩ dev') (hrm : release.messages = [])
    {ops midOps : List LayerOp} (hops : ops = ms.flatMap (Msg.layerOps ctxs.length) ++ its.flatMap (Iteration.layerOps ctxs.length)) (ho : ∀ op ∈ ops, op.isShortcut ctxs.length)
    (hmid : midOps = mid.flatMap (Iteration.layerOps ctxs.length)) (hmo : ∀ op ∈ midOps, op.isShortcut ctxs.length ∧ op.keeps k)
    (hdev : ValidDevice dev) (hdev' : ValidDevice dev')
    (hexit : NoExit (keyOps ops ++ .input ⟨k, .Down, 0⟩ dev :: (keyOps midOps ++ [.input ⟨k, .Up, 0⟩ dev']))) {v : Key} :
    let r := ((⟨{ contexts := ctxs }, []⟩ : Layers Combiner).run Combiner.step ops).1.keys
    let told := fun (v : Key) (its : List Iteration) => lastTold v (({} : Srv).connection rx (.configuration [Cfg.make ctxs] :: ms) ds its).out
    k ∉ r.held → r.meaning dev k = some (.output (typing [v] ++ ⟨0, .OutputOnRelease, 0⟩ :: typing [v])) → ∀ w, isVirtualKey w = true →
    told w (its ++ [press]) = (if w = v then !told w its else told w its) ∧
    told w (its ++ press :: (mid ++ [release])) = (if w = v then !told w (its ++ press :: mid) else told w (its ++ press :: mid)) := by
  intro r told hk hmean w hw
  have hsw : ∀ b, switchedBy w b (typing [v]) = if w = v then !b else b := by
    intro b
    by_cases h : w = v
    · subst h; simp [switchedBy, typing]
    · have h' : ¬ v = w := fun h' => h h'.symm
      simp [switchedBy, typing, h, h']
  have hft : (typing [v]).filter (fun e => e.state != .OutputOnRelease) = typing [v] := by simp [typing]
  have hp := onPress_typing [v] [v] (mark := ⟨0, .OutputOnRelease, 0⟩) rfl
  have := C93_held rx ctxs hr hl hu hs hfw hf ms hm ds its mid press release hi hpress hpm hrelease hrm hops ho hmid hmo hdev hdev' hexit hp.2 hk hmean w hw
  rw [hp.1, hft, hsw, hsw] at this
  exact this

/-! ### what outputs say -/

/-- **C93 (off).** `!V` switches the virtual key off, wherever it is in an output which does not mention it otherwise. -/
theorem C93_off {v : Key} (on : Bool) {a b : KeySequence} (ha : ∀ e ∈ a, e.key ≠ v) (hb : ∀ e ∈ b, e.key ≠ v) :
    switchedBy v on (a ++ [⟨v, .Not, 0⟩] ++ b) = false := by
  have hskip : ∀ (l : KeySequence), (∀ e ∈ l, e.key ≠ v) → ∀ c : Bool,
      l.foldl (fun b e => if e.key = v ∧ (e.state = .Down ∨ (e.state = .Not ∧ on = true)) then !b else b) c = c := by
    intro l
    induction l with
    | nil => intro _ c; rfl
    | cons e l ih =>
      intro h c
      have h1 : ¬ (e.key = v ∧ (e.state = .Down ∨ (e.state = .Not ∧ on = true))) := fun h' => h e (by simp) h'.1
      rw [List.foldl_cons, if_neg h1]
      exact ih (fun x hx => h x (List.mem_cons_of_mem _ hx)) c
  unfold switchedBy
  rw [List.foldl_append, List.foldl_append, hskip a ha, List.foldl_cons, List.foldl_nil, hskip b hb]
  cases on <;> simp

/-- **C93 (on).** `!V V` switches it on. -/
theorem C93_on {v : Key} (on : Bool) {a b c : KeySequence} (ha : ∀ e ∈ a, e.key ≠ v) (hb : ∀ e ∈ b, e.key ≠ v) (hc : ∀ e ∈ c, e.key ≠ v) :
    switchedBy v on (a ++ [⟨v, .Not, 0⟩] ++ b ++ [⟨v, .Down, 0⟩] ++ c) = true := by
  have hskip : ∀ (l : KeySequence), (∀ e ∈ l, e.key ≠ v) → ∀ c : Bool,
      l.foldl (fun b e => if e.key = v ∧ (e.state = .Down ∨ (e.state = .Not ∧ on = true)) then !b else b) c = c := by
    intro l
    induction l with
    | nil => intro _ c; rfl
    | cons e l ih =>
      intro h c
      have h1 : ¬ (e.key = v ∧ (e.state = .Down ∨ (e.state = .Not ∧ on = true))) := fun h' => h e (by simp) h'.1
      rw [List.foldl_cons, if_neg h1]
      exact ih (fun x hx => h x (List.mem_cons_of_mem _ hx)) c
  unfold switchedBy
  rw [List.foldl_append, List.foldl_append, List.foldl_append, List.foldl_append, hskip a ha, List.foldl_cons, List.foldl_nil, hskip b hb,
    List.foldl_cons, List.foldl_nil, hskip c hc]
  cases on <;> simp

/-- an output which does not mention it leaves it as it is; one which outputs it toggles it -/
example : switchedBy 61697 true [⟨Key.KeyA, .Down, 0⟩, ⟨61698, .Down, 0⟩] = true ∧ switchedBy 61697 true [⟨61697, .Down, 0⟩] = false ∧
    switchedBy 61697 false [⟨61697, .Down, 0⟩] = true := by decide

/-- **C93 (disagreement).** `!V` does not switch off a key which the same output switched on before, and when it is there twice, then the second one switches it on again: `!V` refers to the state before the output. -/
theorem C93_not_counterexample : switchedBy 61697 false [⟨61697, .Down, 0⟩, ⟨61697, .Not, 0⟩] = true ∧
    switchedBy 61697 true [⟨61697, .Not, 0⟩, ⟨61697, .Not, 0⟩] = true := by decide

namespace SwitchOffExample

/-- `A >> Virtual1`, `B >> !Virtual1`, `C >> !Virtual1 Virtual1`, `Virtual1{D} >> E` -/
private def sampleContext : Context where
  inputs := [⟨singleKey Key.KeyA, 0⟩, ⟨singleKey Key.KeyB, 1⟩, ⟨singleKey Key.KeyC, 2⟩, ⟨whileHeld 61697 Key.KeyD, 3⟩]
  outputs := [[⟨61697, .Down, 0⟩], [⟨61697, .Not, 0⟩], [⟨61697, .Not, 0⟩, ⟨61697, .Down, 0⟩], [⟨Key.KeyE, .Down, 0⟩]]

example : (parseConfig { typer := genericTyper, validRegex := fun _ => true, files := fun _ => none }
      "A >> Virtual1\nB >> !Virtual1\nC >> !Virtual1 Virtual1\nVirtual1{D} >> E".toList).map
        (fun c => c.contexts.map (fun x => (x.inputs, x.outputs))) = some [(sampleContext.inputs, sampleContext.outputs)] := by decide +kernel

private def typed (k : Key) : List Iteration := [{ now := 0, read := .key ⟨k, .Down, 0⟩ 0 }, { now := 0, read := .key ⟨k, .Up, 0⟩ 1 }]

private theorem sample_combines : sampleContext.OnlyCombines := by
  have hr : Replaceable 61697 ∧ Replaceable Key.KeyA ∧ Replaceable Key.KeyB ∧ Replaceable Key.KeyC ∧ Replaceable Key.KeyD := by unfold Replaceable; decide
  have hone : ∀ {k : Key}, Replaceable k → IsCombination (singleKey k) := by
    intro k hk
    exact ⟨[], [k], [k], rfl, by simp, by simp, by simp, by simp only [List.mem_singleton, forall_eq]; exact ⟨hk, by simp⟩, by simp⟩
  refine ⟨?_, ?_, by simp [sampleContext]⟩
  · intro m hm
    simp only [sampleContext, List.mem_cons, List.not_mem_nil, or_false] at hm
    rcases hm with rfl | rfl | rfl | rfl
    · exact hone hr.2.1
    · exact hone hr.2.2.1
    · exact hone hr.2.2.2.1
    · refine ⟨[], [61697, Key.KeyD], [Key.KeyD, 61697], rfl, by decide, by decide, by decide, ?_, by simp⟩
      simp only [List.mem_cons, List.not_mem_nil, or_false, forall_eq_or_imp, forall_eq]
      exact ⟨⟨hr.1, by simp⟩, hr.2.2.2.2, by simp⟩
  · intro o ho
    simp only [sampleContext, List.mem_cons, List.not_mem_nil, or_false] at ho
    rcases ho with rfl | rfl | rfl | rfl <;> exact ⟨by decide, by decide⟩

private theorem sample_layered : sampleContext.Layered := by
  refine ⟨by decide, by simp [sampleContext], ?_⟩
  intro m hm v hv h
  simp only [sampleContext, List.mem_cons, List.not_mem_nil, or_false] at hm
  rcases hm with rfl | rfl | rfl | rfl
  · rw [← Option.some.inj (show some Key.KeyA = some v from h)] at hv; exact absurd hv (by decide)
  · rw [← Option.some.inj (show some Key.KeyB = some v from h)] at hv; exact absurd hv (by decide)
  · rw [← Option.some.inj (show some Key.KeyC = some v from h)] at hv; exact absurd hv (by decide)
  · rw [← Option.some.inj (show some Key.KeyD = some v from h)] at hv; exact absurd hv (by decide)

private theorem sample_forwards : ForwardsFirst [sampleContext] := by
  refine ⟨sampleContext, [], [], sampleContext.inputs, rfl, rfl, rfl, rfl, rfl, rfl, rfl, by simp, ?_⟩
  intro c hc m hm k hk hkv
  rw [List.mem_singleton] at hc
  subst hc
  simp only [sampleContext, List.mem_cons, List.not_mem_nil, or_false] at hm
  rcases hm with rfl | rfl | rfl | rfl
  · cases (show k ∈ ([] : List Key) from hk)
  · cases (show k ∈ ([] : List Key) from hk)
  · cases (show k ∈ ([] : List Key) from hk)
  · have hk : k ∈ [61697] := hk
    rw [List.mem_singleton] at hk
    subst hk
    exact absurd hkv (by decide)

/-- A switches Virtual1 on, D is replaced by E, then B switches it off; when B is pressed once more, then it remains off. -/
example (rx : Regex) (ds : List DeviceDesc) :
    let its := typed Key.KeyA ++ typed Key.KeyD
    let start := [Msg.configuration [Cfg.make [sampleContext]], .activeContexts [0]]
    lastTold 61697 (({} : Srv).connection rx start ds its).out = true ∧
    lastTold 61697 (({} : Srv).connection rx start ds (its ++ [{ now := 0, read := .key ⟨Key.KeyB, .Down, 0⟩ 0 }])).out = false := by
  intro its start
  have hord : Ordinary Key.KeyA ∧ Ordinary Key.KeyB ∧ Ordinary Key.KeyD := by unfold Ordinary; decide
  have hlay : ∀ i ∈ its ++ [{ now := 0, read := .key ⟨Key.KeyB, .Down, 0⟩ 0 }], i.Layered true := by
    intro i hi
    simp only [its, typed, List.mem_append, List.mem_cons, List.not_mem_nil, or_false] at hi
    rcases hi with ((rfl | rfl) | (rfl | rfl)) | rfl
    all_goals refine ⟨?_, rfl, .inl rfl, (by intro m hm; cases hm), rfl⟩
    all_goals intro ev d h; cases h
    · exact hord.1
    · exact hord.1
    · exact hord.2.2
    · exact hord.2.2
    · exact hord.2.1
  have hshort : ∀ op ∈ LayerOp.keys (.contexts [0]) :: its.flatMap (Iteration.layerOps 1), op.isShortcut 1 := by
    intro op hop
    simp only [its, typed, List.cons_append, List.nil_append, List.flatMap_cons, List.flatMap_nil, Iteration.layerOps, Read.stageOps, reduceCtorEq, if_false, List.map_cons,
      List.map_nil, List.append_nil, List.mem_cons, List.not_mem_nil, or_false] at hop
    rcases hop with rfl | rfl | rfl | rfl | rfl
    · exact ⟨⟨by simp, by simp⟩, ⟨by simp, by simp⟩, by simp⟩
    · exact ⟨⟨.inl rfl, hord.1, by decide, by decide⟩, ⟨.inl rfl, ordinary_replaceable hord.1, by decide, by decide⟩, rfl⟩
    · exact ⟨⟨.inr rfl, hord.1, by decide, by decide⟩, ⟨.inr rfl, ordinary_replaceable hord.1, by decide, by decide⟩, rfl⟩
    · exact ⟨⟨.inl rfl, hord.2.2, by decide, by decide⟩, ⟨.inl rfl, ordinary_replaceable hord.2.2, by decide, by decide⟩, rfl⟩
    · exact ⟨⟨.inr rfl, hord.2.2, by decide, by decide⟩, ⟨.inr rfl, ordinary_replaceable hord.2.2, by decide, by decide⟩, rfl⟩
  have hexit : NoExit (keyOps (LayerOp.keys (.contexts [0]) :: its.flatMap (Iteration.layerOps 1)) ++ [.input ⟨Key.KeyB, .Down, 0⟩ 0]) := by
    intro before last after he hl
    obtain ⟨a, b, c, rfl⟩ := hl
    have : (Key.ShiftLeft, KeyState.Down) ∈ strokes (keyOps (LayerOp.keys (.contexts [0]) :: its.flatMap (Iteration.layerOps 1)) ++ [.input ⟨Key.KeyB, .Down, 0⟩ 0]) := by
      rw [he]
      simp
    exact absurd this (by decide +kernel)
  have hu : CommandsUnique [sampleContext] := by intro ctx h; rw [List.mem_singleton] at h; subst h; intro a ha; cases ha
  constructor
  · rw [C93_client_knows rx [sampleContext] (by simpa using sample_combines) (by simpa using sample_layered.switches) hu ⟨_, rfl, rfl⟩ sample_forwards (by decide +kernel)
      [.activeContexts [0]] (by simp) ds its (fun i h => hlay i (by simp [h])) (ops := .keys (.contexts [0]) :: its.flatMap (Iteration.layerOps 1)) rfl hshort (noExit_prefix hexit) (by decide)]
    decide +kernel
  · exact (C93_switched rx [sampleContext] (by simpa using sample_combines) (by simpa using sample_layered.switches) hu ⟨_, rfl, rfl⟩ sample_forwards (by decide +kernel)
      [.activeContexts [0]] (by simp) ds its _ hlay rfl rfl (ops := .keys (.contexts [0]) :: its.flatMap (Iteration.layerOps 1)) rfl hshort
      (by unfold ValidDevice; decide) hexit (out := [⟨61697, .Not, 0⟩]) (by decide +kernel) (by decide +kernel) 61697 (by decide)).trans
      (C93_off (a := []) (b := []) _ (by simp) (by simp))

/-- `A >> Virtual1 ^ Virtual1`, `Virtual1{D} >> E` -/
private def momentaryContext : Context where
  inputs := [⟨singleKey Key.KeyA, 0⟩, ⟨whileHeld 61697 Key.KeyD, 1⟩]
  outputs := [typing [61697] ++ ⟨0, .OutputOnRelease, 0⟩ :: typing [61697], [⟨Key.KeyE, .Down, 0⟩]]

example : (parseConfig { typer := genericTyper, validRegex := fun _ => true, files := fun _ => none } "A >> Virtual1 ^ Virtual1\nVirtual1{D} >> E".toList).map
    (fun c => c.contexts.map (fun x => (x.inputs, x.outputs))) = some [(momentaryContext.inputs, momentaryContext.outputs)] := by decide +kernel

private theorem momentary_combines : momentaryContext.OnlyCombines := by
  have hr : Replaceable 61697 ∧ Replaceable Key.KeyA ∧ Replaceable Key.KeyD := by unfold Replaceable; decide
  refine ⟨?_, ?_, by simp [momentaryContext]⟩
  · intro m hm
    simp only [momentaryContext, List.mem_cons, List.not_mem_nil, or_false] at hm
    rcases hm with rfl | rfl
    · exact ⟨[], [Key.KeyA], [Key.KeyA], rfl, by simp, by simp, by simp, by simp only [List.mem_singleton, forall_eq]; exact ⟨hr.2.1, by simp⟩, by simp⟩
    · refine ⟨[], [61697, Key.KeyD], [Key.KeyD, 61697], rfl, by decide, by decide, by decide, ?_, by simp⟩
      simp only [List.mem_cons, List.not_mem_nil, or_false, forall_eq_or_imp, forall_eq]
      exact ⟨⟨hr.1, by simp⟩, hr.2.2, by simp⟩
  · intro o ho
    simp only [momentaryContext, List.mem_cons, List.not_mem_nil, or_false] at ho
    rcases ho with rfl | rfl <;> exact ⟨by decide, by decide⟩

private theorem momentary_switches : momentaryContext.Switches [61697] := by
  refine ⟨by decide, by simp [momentaryContext], ?_⟩
  intro m hm v hv h
  simp only [momentaryContext, List.mem_cons, List.not_mem_nil, or_false] at hm
  rcases hm with rfl | rfl
  · rw [← Option.some.inj (show some Key.KeyA = some v from h)] at hv; exact absurd hv (by decide)
  · rw [← Option.some.inj (show some Key.KeyD = some v from h)] at hv; exact absurd hv (by decide)

private theorem momentary_forwards : ForwardsFirst [momentaryContext] := by
  refine ⟨momentaryContext, [], [], momentaryContext.inputs, rfl, rfl, rfl, rfl, rfl, rfl, rfl, by simp, ?_⟩
  intro c hc m hm k hk hkv
  rw [List.mem_singleton] at hc
  subst hc
  simp only [momentaryContext, List.mem_cons, List.not_mem_nil, or_false] at hm
  rcases hm with rfl | rfl
  · cases (show k ∈ ([] : List Key) from hk)
  · have hk : k ∈ [61697] := hk
    rw [List.mem_singleton] at hk
    subst hk
    exact absurd hkv (by decide)

/-- Virtual1 is on while A is held (D is typed meanwhile), and off afterwards. -/
example (rx : Regex) (ds : List DeviceDesc) :
    let press : Iteration := { now := 0, read := .key ⟨Key.KeyA, .Down, 0⟩ 0 }
    let release : Iteration := { now := 0, read := .key ⟨Key.KeyA, .Up, 0⟩ 0 }
    let told := fun its => lastTold 61697 (({} : Srv).connection rx [.configuration [Cfg.make [momentaryContext]], .activeContexts [0]] ds its).out
    told [press] = true ∧ told (press :: typed Key.KeyD) = true ∧ told (press :: (typed Key.KeyD ++ [release])) = false := by
  intro press release told
  have hord : Ordinary Key.KeyA ∧ Ordinary Key.KeyD := by unfold Ordinary; decide
  have hlay : ∀ i ∈ press :: (typed Key.KeyD ++ [release]), i.Layered true := by
    intro i hi
    simp only [press, release, typed, List.mem_append, List.mem_cons, List.not_mem_nil, or_false] at hi
    rcases hi with rfl | (rfl | rfl) | rfl
    all_goals refine ⟨?_, rfl, .inl rfl, (by intro m hm; cases hm), rfl⟩
    all_goals intro ev d h; cases h
    · exact hord.1
    · exact hord.2
    · exact hord.2
    · exact hord.1
  have h0 : (LayerOp.keys (.contexts [0])).isShortcut 1 := ⟨⟨by simp, by simp⟩, ⟨by simp, by simp⟩, by simp⟩
  have hmid : ∀ op ∈ (typed Key.KeyD).flatMap (Iteration.layerOps 1), op.isShortcut 1 ∧ op.keeps Key.KeyA := by
    intro op hop
    simp only [typed, List.flatMap_cons, List.flatMap_nil, Iteration.layerOps, Read.stageOps, reduceCtorEq, if_false, List.map_cons,
      List.map_nil, List.append_nil, List.cons_append, List.nil_append, List.mem_cons, List.not_mem_nil, or_false] at hop
    rcases hop with rfl | rfl
    · exact ⟨⟨⟨.inl rfl, hord.2, by decide, by decide⟩, ⟨.inl rfl, ordinary_replaceable hord.2, by decide, by decide⟩, rfl⟩, fun h => absurd h (by decide)⟩
    · exact ⟨⟨⟨.inr rfl, hord.2, by decide, by decide⟩, ⟨.inr rfl, ordinary_replaceable hord.2, by decide, by decide⟩, rfl⟩, fun h => absurd h (by decide)⟩
  have hexit : NoExit (keyOps [LayerOp.keys (.contexts [0])] ++ .input ⟨Key.KeyA, .Down, 0⟩ 0 ::
      (keyOps ((typed Key.KeyD).flatMap (Iteration.layerOps 1)) ++ [.input ⟨Key.KeyA, .Up, 0⟩ 0])) := by
    intro before last after he hl
    obtain ⟨a, b, c, rfl⟩ := hl
    have : (Key.ShiftLeft, KeyState.Down) ∈ strokes (keyOps [LayerOp.keys (.contexts [0])] ++ .input ⟨Key.KeyA, .Down, 0⟩ 0 ::
        (keyOps ((typed Key.KeyD).flatMap (Iteration.layerOps 1)) ++ [.input ⟨Key.KeyA, .Up, 0⟩ 0])) := by
      rw [he]
      simp
    exact absurd this (by decide +kernel)
  have hu : CommandsUnique [momentaryContext] := by intro ctx h; rw [List.mem_singleton] at h; subst h; intro a ha; cases ha
  have hmom := C93_momentary rx [momentaryContext] (by simpa using momentary_combines) (by simpa using momentary_switches) hu ⟨_, rfl, rfl⟩ momentary_forwards (by decide +kernel)
    [.activeContexts [0]] (by simp) ds [] (typed Key.KeyD) press release hlay rfl rfl rfl rfl (ops := [.keys (.contexts [0])]) rfl
    (by intro op h; rw [List.mem_singleton] at h; rw [h]; exact h0) rfl hmid (by unfold ValidDevice; decide) (by unfold ValidDevice; decide) hexit
    (v := 61697) (by decide +kernel) (by decide +kernel) 61697 (by decide)
  have h1 : told [] = false := by
    have hn : ¬ told [] = true := by
      rw [C93_client_knows rx [momentaryContext] (by simpa using momentary_combines) (by simpa using momentary_switches) hu ⟨_, rfl, rfl⟩ momentary_forwards (by decide +kernel)
        [.activeContexts [0]] (by simp) ds [] (by simp) (ops := [.keys (.contexts [0])]) rfl (by intro op h; rw [List.mem_singleton] at h; rw [h]; exact h0) (noExit_prefix hexit) (by decide)]
      decide +kernel
    simpa using hn
  have h2 : told (press :: typed Key.KeyD) = true := by
    rw [C93_client_knows rx [momentaryContext] (by simpa using momentary_combines) (by simpa using momentary_switches) hu ⟨_, rfl, rfl⟩ momentary_forwards (by decide +kernel)
      [.activeContexts [0]] (by simp) ds (press :: typed Key.KeyD) (fun i h => hlay i (by
        rcases List.mem_cons.1 h with rfl | h
        · simp
        · simp [h])) (ops := .keys (.contexts [0]) :: .keys (.input ⟨Key.KeyA, .Down, 0⟩ 0) :: (typed Key.KeyD).flatMap (Iteration.layerOps 1)) rfl (by
        intro op h
        rcases List.mem_cons.1 h with rfl | h
        · exact h0
        · rcases List.mem_cons.1 h with rfl | h
          · exact ⟨⟨.inl rfl, hord.1, by decide, by decide⟩, ⟨.inl rfl, ordinary_replaceable hord.1, by decide, by decide⟩, rfl⟩
          · exact (hmid op h).1) (noExit_prefix (b := [.input ⟨Key.KeyA, .Up, 0⟩ 0]) hexit) (by decide)]
    decide +kernel
  refine ⟨?_, h2, ?_⟩
  · have e : told [press] = !told [] := hmom.1
    rw [e, h1]; rfl
  · have e : told (press :: (typed Key.KeyD ++ [release])) = !told (press :: typed Key.KeyD) := hmom.2
    rw [e, h2]; rfl

/-- `@forward-modifiers ControlLeft`, `A >> Virtual1`, `ControlLeft{X} >> !ControlLeft Y`, `B >> Virtual1 Z` -/
private def releaseContext : Context where
  inputs := [⟨singleKey Key.ControlLeft, 3⟩, ⟨singleKey Key.KeyA, 0⟩, ⟨whileHeld Key.ControlLeft Key.KeyX, 1⟩, ⟨singleKey Key.KeyB, 2⟩]
  outputs := [[⟨61697, .Down, 0⟩], [⟨Key.ControlLeft, .Not, 0⟩, ⟨Key.KeyY, .Down, 0⟩],
    [⟨61697, .Down, 0⟩, ⟨61697, .Up, 0⟩, ⟨Key.KeyZ, .Down, 0⟩, ⟨Key.KeyZ, .Up, 0⟩], [⟨Key.ControlLeft, .Down, 0⟩]]

example : (parseConfig { typer := genericTyper, validRegex := fun _ => true, files := fun _ => none }
      "@forward-modifiers ControlLeft\nA >> Virtual1\nControlLeft{X} >> !ControlLeft Y\nB >> Virtual1 Z".toList).map
        (fun c => c.contexts.map (fun x => (x.inputs, x.outputs))) = some [(releaseContext.inputs, releaseContext.outputs)] := by decide +kernel

private def sampleRead (k : Key) (st : KeyState) : Iteration := { now := 0, read := .key ⟨k, st, 0⟩ 0 }

end SwitchOffExample

open SwitchOffExample in
/-- **C93 (disagreement).** `B >> Virtual1 Z` usually toggles Virtual1, but not while another key is held which toggled it and a modifier was lifted: the key is toggled twice, since it counts as lifted when the output releases it, and as
pressed again before Z is pressed. That is why in the theorems each virtual key is either always released by the outputs which press it, or never. -/
theorem C93_release_counterexample (rx : Regex) :
    let its := [sampleRead Key.ControlLeft .Down, sampleRead Key.KeyA .Down, sampleRead Key.KeyX .Down, sampleRead Key.KeyX .Up]
    let start := [Msg.configuration [Cfg.make [releaseContext]], .activeContexts [0]]
    lastTold 61697 (({} : Srv).connection rx start [] its).out = true ∧
    (({} : Srv).connection rx start [] (its ++ [sampleRead Key.KeyB .Down])).out = (({} : Srv).connection rx start [] its).out ++
      [.sendKey ⟨Key.ControlLeft, .Down, 0⟩, .virtualKeyState 61697 .Up, .virtualKeyState 61697 .Down, .sendKey ⟨Key.KeyZ, .Down, 0⟩, .sendKey ⟨Key.KeyZ, .Up, 0⟩] ∧
    switchedBy 61697 true [⟨61697, .Down, 0⟩, ⟨61697, .Up, 0⟩, ⟨Key.KeyZ, .Down, 0⟩, ⟨Key.KeyZ, .Up, 0⟩] = false := by
  intro its start
  have hord : Ordinary Key.ControlLeft ∧ Ordinary Key.KeyA ∧ Ordinary Key.KeyX ∧ Ordinary Key.KeyB := by unfold Ordinary; decide
  have hlay : ∀ i ∈ its ++ [sampleRead Key.KeyB .Down], i.Layered true := by
    intro i hi
    simp only [its, sampleRead, List.mem_append, List.mem_cons, List.not_mem_nil, or_false] at hi
    rcases hi with (rfl | rfl | rfl | rfl) | rfl
    all_goals refine ⟨?_, rfl, .inl rfl, (by intro m hm; cases hm), rfl⟩
    all_goals intro ev d h; cases h
    · exact hord.1
    · exact hord.2.1
    · exact hord.2.2.1
    · exact hord.2.2.1
    · exact hord.2.2.2
  have hexit : NoExit (keyOps (LayerOp.keys (.contexts [0]) :: its.flatMap (Iteration.layerOps 1)) ++ [.input ⟨Key.KeyB, .Down, 0⟩ 0]) := by
    intro before last after he hl
    obtain ⟨a, b, c, rfl⟩ := hl
    have : (Key.ShiftLeft, KeyState.Down) ∈ strokes (keyOps (LayerOp.keys (.contexts [0]) :: its.flatMap (Iteration.layerOps 1)) ++ [.input ⟨Key.KeyB, .Down, 0⟩ 0]) := by
      rw [he]
      simp
    exact absurd this (by decide +kernel)
  rw [C92_virtual_keys rx [releaseContext] (by decide +kernel) [.activeContexts [0]] (by simp) [] its (fun i h => hlay i (by simp [h])) rfl (by decide +kernel) (noExit_prefix hexit),
    C92_virtual_keys rx [releaseContext] (by decide +kernel) [.activeContexts [0]] (by simp) [] (its ++ [sampleRead Key.KeyB .Down]) hlay rfl (by decide +kernel) hexit]
  decide +kernel

end KM
