import Verif.Lemmas.Reload
import Verif.Props.Focus
/-!
# C97: the configuration is replaced while keys are typed
-/
namespace KM

/-- the key which is input -/
def ReloadOp.keys : ReloadOp → List StageOp
  | .stages (.input ev dev) => [.input ev dev]
  | _ => []

/-- the new configurations are made of contexts, and are not empty -/
def ReloadOp.Made : ReloadOp → Prop
  | .stages _ => True
  | .configure cfgs => ∃ stages : List (List Context), stages ≠ [] ∧ cfgs = stages.map Cfg.make

theorem NoExit.suffix {a b : List StageOp} (h : NoExit (a ++ b)) : NoExit b := by
  intro x y z e
  exact h (strokes a ++ x) y z (by rw [strokes_append, e]; simp only [List.append_assoc])

theorem reload_exit (ops : List ReloadOp) (hm : ∀ op ∈ ops, op.Made) : ∀ (st : List (Cfg × S)) (ctxs : List Context) (hist : List StageOp),
    st.head? = some (stageRun (stageInit ctxs) hist).1 → NoExit (hist ++ ops.flatMap ReloadOp.keys) →
    ((reloadRun st ops).1.head?.map (fun p => p.2.shouldExit)).getD false = false := by
  induction ops with
  | nil =>
    intro st ctxs hist h hno
    rw [reloadRun]
    simp only [h, Option.map_some, Option.getD_some]
    rw [List.flatMap_nil, List.append_nil] at hno
    exact hno.run ctxs (List.prefix_refl _)
  | cons op ops ih =>
    intro st ctxs hist h hno
    rw [reloadRun]
    simp only []
    have hm' : ∀ op ∈ ops, op.Made := fun x hx => hm x (List.mem_cons_of_mem _ hx)
    cases op with
    | configure cfgs =>
      obtain ⟨stages, hne, rfl⟩ := hm _ (List.mem_cons_self ..)
      cases stages with
      | nil => exact absurd rfl hne
      | cons c cs => exact ih hm' _ c [] rfl hno.suffix
    | stages op =>
      cases st with
      | nil => cases h
      | cons s rest =>
        injection h with h
        subst h
        have h1 := stagesRun_first [op] (stageRun (stageInit ctxs) hist).1 rest
        refine ih hm' _ ctxs (hist ++ [op.first (stageRun (stageInit ctxs) hist).1.1.contexts.length]) ?_ ?_
        · rw [stageRun_append]
          exact h1
        · intro x y z e
          refine hno x y z ?_
          rw [← e]
          simp only [strokes_append, List.flatMap_cons, List.append_assoc]
          cases op <;> rfl

theorem reload_stays {stages : List (List Context)} (hne : stages ≠ []) {ops : List ReloadOp} (hm : ∀ op ∈ ops, op.Made)
    (hno : NoExit (ops.flatMap ReloadOp.keys)) : ReloadStays (stages.map stageInit) ops := by
  rintro ops' ⟨t, rfl⟩
  cases stages with
  | nil => exact absurd rfl hne
  | cons c cs =>
    refine reload_exit ops' (fun op h => hm op (List.mem_append_left _ h)) _ c [] rfl ?_
    rw [List.flatMap_append] at hno
    intro x y z e
    exact hno x y (z ++ strokes (t.flatMap ReloadOp.keys)) (by rw [strokes_append, ← List.append_assoc, ← e]; rfl)

theorem reload_keys_messages (ms : List Msg) : (ms.flatMap Msg.reloadOps).flatMap ReloadOp.keys = [] := by
  induction ms with
  | nil => rfl
  | cons m ms ih =>
    rw [List.flatMap_cons, List.flatMap_append, ih, List.append_nil]
    cases m <;> rfl

theorem reload_keys_its (its : List Iteration) :
    (its.flatMap Iteration.reloadOps).flatMap ReloadOp.keys = (keysRead its).map (fun p => .input p.1 p.2) := by
  induction its with
  | nil => rfl
  | cons it its ih =>
    rw [List.flatMap_cons, List.flatMap_append, ih]
    unfold keysRead Iteration.reloadOps
    cases hr : it.read with
    | other => simp [hr]
    | nothing => rw [if_neg (by simp), List.flatMap_append, reload_keys_messages]; simp [hr, Read.stagesOps]
    | key ev dev => rw [if_neg (by simp), List.flatMap_append, reload_keys_messages]; simp [hr, Read.stagesOps, ReloadOp.keys]

theorem Msg.Reloads.made {m : Msg} (h : m.Reloads) : ∀ op ∈ m.reloadOps, op.Made := by
  intro op hop
  rcases h with ⟨l, rfl⟩ | ⟨ss, h1, _, rfl⟩
  · rw [List.mem_singleton.1 hop]; trivial
  · rw [List.mem_singleton.1 hop]; exact ⟨ss, h1, rfl⟩

/-- **C97 (what is output).** While the server reads keys it is sent changes of the active contexts and any number of new configurations, at any times. Then it
outputs on the virtual device exactly what the stages output; whenever they are replaced, it releases the keys which are held down, and what is typed
afterwards is mapped by the new stages, as if the server had been started with them. -/
theorem C97_connection (rx : Regex) {stages : List (List Context)} (hne : stages ≠ [])
    (hf : ∀ st ∈ stages, ∀ ctx ∈ st, ctx.hasDeviceFilter = false) (ms : List Msg) (hm : ∀ m ∈ ms, m.Reloads)
    (ds : List DeviceDesc) (its : List Iteration) (hi : ∀ it ∈ its, it.Reloads)
    {ops : List ReloadOp} (hops : ops = ms.flatMap Msg.reloadOps ++ its.flatMap Iteration.reloadOps)
    (hout : OnlyKeys (reloadRun (stages.map stageInit) ops).2) (hexit : NoExit ((keysRead its).map (fun p => .input p.1 p.2))) :
    (({} : Srv).connection rx (.configuration (stages.map Cfg.make) :: ms) ds its).out =
      (lastOutputs (reloadRun (stages.map stageInit) ops).2).map Eff.sendKey := by
  have hx : ReloadStays (stages.map stageInit) ops := by
    refine reload_stays hne ?_ ?_
    · intro op hop
      rw [hops] at hop
      rcases List.mem_append.1 hop with hop | hop
      · obtain ⟨m, h1, h2⟩ := List.mem_flatMap.1 hop
        exact (hm m h1).made op h2
      · obtain ⟨it, h1, h2⟩ := List.mem_flatMap.1 hop
        unfold Iteration.reloadOps at h2
        split at h2
        · cases h2
        · rcases List.mem_append.1 h2 with h2 | h2
          · obtain ⟨o, _, rfl⟩ := List.mem_map.1 h2
            trivial
          · obtain ⟨m, h3, h4⟩ := List.mem_flatMap.1 h2
            exact ((hi it h1).messages m h3).made op h4
    · rw [hops, List.flatMap_append, reload_keys_messages, reload_keys_its]
      exact hexit
  have h00 : stages.map stageInit = (stages.map Cfg.make).map (fun c => (c, ({} : S))) := by rw [List.map_map]; rfl
  have hfs : NoDeviceFilters (stages.map stageInit) := by rw [h00]; exact noDeviceFilters_make hf
  have hfirst : ({} : Srv).onMessage rx (.configuration (stages.map Cfg.make)) = { ms := MS.make (stages.map Cfg.make) } := by
    unfold Srv.onMessage Srv.onConfiguration Srv.resetConfiguration
    have h1 : Srv.flush rx (({} : Srv).releaseAllKeys) = {} := by
      have := flush_sendable rx (({} : Srv).releaseAllKeys) (by intro e he; cases he) rfl rfl
      unfold Srv.flush
      rw [this]
      rfl
    simp only [h1]
    unfold Srv.evaluateDeviceFilters
    rw [if_pos (by simp)]
  have h0 : AroundAll { ms := MS.make (stages.map Cfg.make) } (stages.map stageInit) := by
    refine ⟨⟨rfl, rfl, rfl, rfl, rfl, rfl⟩, ?_, ?_, rfl⟩
    · intro e; exact hne (List.map_eq_nil_iff.1 e)
    · simp [MS.make, stageInit]
  rw [hops] at hout hx ⊢
  rw [reloadRun_append] at hout
  obtain ⟨h1, hnf, h2⟩ := messages_reload rx ms hm _ _ h0 hfs hout.left
  have hrest := hout.right
  have hxr := hx.right
  rw [reloadRun_append, lastOutputs_append]
  unfold Srv.connection
  rw [List.foldl_cons, hfirst]
  generalize ms.foldl (Srv.onMessage rx) { ms := MS.make (stages.map Cfg.make) } = srv1 at h1 h2 ⊢
  generalize reloadRun (stages.map stageInit) (ms.flatMap Msg.reloadOps) = r at h1 h2 hnf hrest hxr ⊢
  have hdev : srv1.setDeviceDescs rx ds = { srv1 with devices := ds } := by
    unfold Srv.setDeviceDescs Srv.evaluateDeviceFilters
    have hd : srv1.ms.hasDeviceFilters = false := by
      unfold MS.hasDeviceFilters
      rw [h1.stages, List.any_eq_false]
      intro st hst
      rw [hnf st hst]
      exact Bool.false_ne_true
    rw [if_pos (by simp [hd])]
  have h3 : AroundAll { srv1 with devices := ds } r.1 :=
    ⟨⟨h1.buf, h1.flushAt, h1.timeout, h1.sending, h1.info, h1.stageBuf⟩, h1.nonempty, h1.stages, h1.results⟩
  rw [hdev, mainLoop_reload rx its hi _ r.1 h3 hnf hrest hxr]
  show srv1.out ++ _ = _
  rw [h2, List.map_append]
  rfl

/-! ### nothing remains held down -/

theorem stagesInput_last (dev : Int) (stages : List (Cfg × S)) : ∀ (evs : KeySequence) (st : Cfg × S), stages.getLast? = some st →
    ∃ ops : List StageOp, (∀ op ∈ ops, op.isRegular = true) ∧ (stagesInput dev stages evs).1.getLast? = some (stageRun st ops).1 ∧
      (stagesInput dev stages evs).2.getLastD [] = (stageRun st ops).2 := by
  induction stages with
  | nil => intro evs st h; cases h
  | cons s rest ih =>
    intro evs st h
    cases rest with
    | nil =>
      simp only [List.getLast?_singleton, Option.some.injEq] at h
      subst h
      refine ⟨evs.map (fun e => .input e dev), ?_, rfl, rfl⟩
      intro op hop
      obtain ⟨e, _, rfl⟩ := List.mem_map.1 hop
      rfl
    | cons t rest =>
      rw [List.getLast?_cons_cons] at h
      obtain ⟨ops, h1, h2, h3⟩ := ih (stageRun s (evs.map (fun e => .input e dev))).2 st h
      refine ⟨ops, h1, ?_, ?_⟩
      · rw [← h2]
        simp only [stagesInput, List.getLast?_cons_cons]
      · rw [← h3]
        simp only [stagesInput, List.getLastD_eq_getLast?, List.getLast?_cons_cons]

theorem stagesContexts_last (l : List Int) (stages : List (Cfg × S)) : ∀ (off : Nat) (evs : KeySequence) (st : Cfg × S), stages.getLast? = some st →
    ∃ ops : List StageOp, (∀ op ∈ ops, op.isRegular = true) ∧ (stagesContexts l off stages evs).1.getLast? = some (stageRun st ops).1 ∧
      (stagesContexts l off stages evs).2.getLastD [] = (stageRun st ops).2 := by
  induction stages with
  | nil => intro off evs st h; cases h
  | cons s rest ih =>
    intro off evs st h
    cases rest with
    | nil =>
      simp only [List.getLast?_singleton, Option.some.injEq] at h
      subst h
      refine ⟨evs.map (fun e => .input e noDeviceIndex) ++ [.contexts (ownContexts l off s.1.contexts.length)], ?_, rfl, rfl⟩
      intro op hop
      rcases List.mem_append.1 hop with hop | hop
      · obtain ⟨e, _, rfl⟩ := List.mem_map.1 hop
        rfl
      · rw [List.mem_singleton.1 hop]; rfl
    | cons t rest =>
      rw [List.getLast?_cons_cons] at h
      obtain ⟨ops, h1, h2, h3⟩ := ih (off + s.1.contexts.length)
        (stageRun s (evs.map (fun e => .input e noDeviceIndex) ++ [.contexts (ownContexts l off s.1.contexts.length)])).2 st h
      refine ⟨ops, h1, ?_, ?_⟩
      · rw [← h2]
        simp only [stagesContexts, List.getLast?_cons_cons]
      · rw [← h3]
        simp only [stagesContexts, List.getLastD_eq_getLast?, List.getLast?_cons_cons]

theorem stagesStep_last (stages : List (Cfg × S)) (op : StagesOp) {st : Cfg × S} (h : stages.getLast? = some st) :
    ∃ ops : List StageOp, (∀ op ∈ ops, op.isRegular = true) ∧ (stagesStep stages op).1.getLast? = some (stageRun st ops).1 ∧
      (stagesStep stages op).2.getLastD [] = (stageRun st ops).2 := by
  cases op with
  | input ev dev => exact stagesInput_last dev stages [ev] st h
  | contexts l => exact stagesContexts_last l stages 0 [] st h

/-- the last stage with everything it output since it was configured -/
def LastHistory (k : Key) (stages : List (Cfg × S)) (out : KeySequence) : Prop :=
  ∃ (ctxs : List Context) (hist : List StageOp) (before : KeySequence), OutputsReleaseOwn ctxs k ∧ (∀ op ∈ hist, op.isRegular = true) ∧
    stages.getLast? = some (stageRun (stageInit ctxs) hist).1 ∧ out = before ++ (stageRun (stageInit ctxs) hist).2 ∧ heldAfter before k = false

theorem heldAfter_append_false {a b : KeySequence} {k : Key} (h : heldAfter a k = false) : heldAfter (a ++ b) k = heldAfter b k := by
  unfold heldAfter at h ⊢
  rw [List.foldl_append, h]

theorem held_released (k : Key) (l : List Key) : ∀ held : Bool, (k ∈ l ∨ held = false) →
    (l.map (fun k => (⟨k, .Up, 0⟩ : KeyEvent))).foldl (heldStep k) held = false := by
  induction l with
  | nil => intro held h; exact h.elim (fun h => by cases h) id
  | cons a l ih =>
    intro held h
    rw [List.map_cons, List.foldl_cons]
    apply ih
    by_cases e : a = k
    · right
      unfold heldStep
      rw [if_pos e, if_neg (by simp), if_pos rfl]
    · rcases h with h | h
      · rcases List.mem_cons.1 h with h | h
        · exact absurd h.symm e
        · exact .inl h
      · right
        unfold heldStep
        rw [if_neg e]; exact h

theorem LastHistory.released {k : Key} (hk : isDeviceKey k = true) {stages : List (Cfg × S)} {out : KeySequence} (h : LastHistory k stages out) :
    heldAfter (out ++ (heldOutput stages).map (fun k => (⟨k, .Up, 0⟩ : KeyEvent))) k = false := by
  obtain ⟨ctxs, hist, before, h1, h2, h3, rfl, h5⟩ := h
  unfold heldAfter
  rw [List.foldl_append]
  apply held_released
  cases hh : List.foldl (heldStep k) false (before ++ (stageRun (stageInit ctxs) hist).2) with
  | false => exact .inr rfl
  | true =>
    left
    have hh' : heldAfter (before ++ (stageRun (stageInit ctxs) hist).2) k = true := hh
    rw [heldAfter_append_false h5] at hh'
    obtain ⟨o, ho, hok, _⟩ := C03_no_stuck_key ctxs hist h2 k (by intro e; rw [e] at hk; exact absurd hk (by decide)) h1 hh'
    unfold heldOutput
    rw [h3]
    exact List.mem_filter.2 ⟨List.mem_map.2 ⟨o, ho, hok⟩, hk⟩

/-- the new configurations only release keys which they pressed -/
def ReloadOp.ReleasesOwn (k : Key) : ReloadOp → Prop
  | .stages _ => True
  | .configure cfgs => ∃ (stages : List (List Context)) (last : List Context), cfgs = stages.map Cfg.make ∧ stages.getLast? = some last ∧ OutputsReleaseOwn last k

theorem LastHistory.run {k : Key} (hk : isDeviceKey k = true) (ops : List ReloadOp) (ho : ∀ op ∈ ops, op.ReleasesOwn k) :
    ∀ (stages : List (Cfg × S)) (out : KeySequence), LastHistory k stages out →
    LastHistory k (reloadRun stages ops).1 (out ++ lastOutputs (reloadRun stages ops).2) := by
  induction ops with
  | nil => intro stages out h; rw [reloadRun]; simp only [lastOutputs, List.flatMap_nil, List.append_nil]; exact h
  | cons op ops ih =>
    intro stages out h
    rw [reloadRun]
    simp only [lastOutputs, List.flatMap_cons, ← List.append_assoc]
    refine ih (fun x hx => ho x (List.mem_cons_of_mem _ hx)) _ _ ?_
    cases op with
    | configure cfgs =>
      obtain ⟨ss, last, rfl, h2, h3⟩ := ho _ (List.mem_cons_self ..)
      refine ⟨last, [], _, h3, (by intro op h; cases h), ?_, (List.append_nil _).symm, h.released hk⟩
      simp only [reloadStep, List.getLast?_map, h2, Option.map_some]
      rfl
    | stages op =>
      obtain ⟨ctxs, hist, before, h1, h2, h3, rfl, h5⟩ := h
      obtain ⟨os, g1, g2, g3⟩ := stagesStep_last stages op h3
      refine ⟨ctxs, hist ++ os, before, h1, ?_, ?_, ?_, h5⟩
      · intro op hop
        rcases List.mem_append.1 hop with hop | hop
        · exact h2 op hop
        · exact g1 op hop
      · rw [stageRun_append]; exact g2
      · rw [stageRun_append, List.append_assoc]
        simp only [reloadStep, g3]

/-- **C97 (nothing is stuck).** However often the configuration was replaced, and whatever was typed: directly after it is replaced no key of a keyboard or mouse is
held down on the virtual device, on which everything which was output is replayed (as in C03, except for keys which an output of the last stages releases without having pressed them). -/
theorem C97_nothing_held {stages : List (List Context)} {last : List Context} (hlast : stages.getLast? = some last) {k : Key} (hk : isDeviceKey k = true)
    (hown : OutputsReleaseOwn last k) (before : List ReloadOp) (ho : ∀ op ∈ before, op.ReleasesOwn k) (cfgs : List Cfg) :
    heldAfter (lastOutputs (reloadRun (stages.map stageInit) (before ++ [.configure cfgs])).2) k = false := by
  have h := LastHistory.run hk before ho (stages.map stageInit) [] ⟨last, [], [], hown, (by intro op h; cases h), (by
    rw [List.getLast?_map, hlast]; rfl), rfl, rfl⟩
  rw [List.nil_append] at h
  have := h.released hk
  rw [reloadRun_append, lastOutputs_append]
  simpa [lastOutputs, reloadRun, reloadStep] using this

/-! ### from the client -/

/-- the client reads the file again because it was modified: it sends the new configuration and the contexts which match then -/
theorem update_sends {env : ClientEnv} {config config' : Config} {f : KnownFocus} {c : Client} (h : FollowsFocus config env.rx f c) (hon : f.on = true) {fs' : FileSys}
    (hr : readConfigFile env fs' c.file.filename = some config') (ht : latestModifyTime fs' c.file.filename config.includes ≠ c.file.modifyTime) (upd : Option Window) :
    (c.step env (.autoUpdate fs' upd)).out = c.out ++ [.server (.config config'),
      .server (.activeContexts ((matchingContexts env.rx config' (upd.getD f.window)).map Int.ofNat))] := by
  obtain ⟨h1, h2, h3, h4, h5⟩ := h
  have hu : c.file.update env fs' true = ({ c.file with modifyTime := latestModifyTime fs' c.file.filename config.includes, config := config' }, true) := by
    unfold ConfigFile.update
    rw [h2, hr]
    simp only [Bool.true_and, beq_iff_eq, if_neg ht]
  simp only [Client.step, Client.updateConfig, hu, if_true, Client.sendConfig, h1, Client.send, Client.configSent, h3, hon]
  cases upd with
  | some w =>
    simp only [Client.updateActiveContexts, Bool.not_true, Bool.false_eq_true, if_false, (refresh_contexts env.rx _).1, Client.sendActiveContexts, Client.send, if_true,
      Option.getD_some, List.append_assoc]
    rfl
  | none =>
    simp only [Client.updateActiveContexts, Bool.not_true, Bool.false_eq_true, if_false, (refresh_contexts env.rx _).1, Client.sendActiveContexts, Client.send, if_true,
      Option.getD_none, List.append_assoc, List.isEmpty_nil, h4]
    rfl

/-- the file after it was loaded -/
theorem start_file {env : ClientEnv} {fs : FileSys} {filename : Str} {config : Config} (hn : filename ≠ []) (ht : fs.mtime filename ≠ -1)
    (hr : readConfigFile env fs filename = some config) :
    (Client.start env fs filename).file = { filename := filename, modifyTime := latestModifyTime fs filename [], config := config } := by
  have hl : ConfigFile.load env fs filename =
      ({ filename := filename, modifyTime := latestModifyTime fs filename [], config := config }, true) := by
    unfold ConfigFile.load ConfigFile.update
    have ht' : (latestModifyTime fs filename [] == -1) = false := by
      simp only [latestModifyTime, List.foldl_nil, ite_self]
      simpa using ht
    simp only [hr, Bool.true_and]
    rw [if_neg (by rw [ht']; decide)]
  unfold Client.start Client.loadConfig
  rw [if_neg (by intro h; exact hn h.symm)]
  simp only [List.find?_nil, Client.loadNew, hl]
  rfl

theorem connect_file (env : ClientEnv) (c : Client) (upd : Option Window) : (c.run env [.connect upd]).file = c.file := by
  simp only [Client.run, List.foldl_cons, List.foldl_nil, Client.step, Client.sendConfig, if_true, Client.send, Client.configSent,
    Client.updateActiveContexts, Client.sendActiveContexts, Client.refreshContexts]
  repeat (first | rfl | split)

/-- what the server receives when the file is modified -/
theorem received_reload (env : ClientEnv) (fs fs' : FileSys) (filename : Str) (upd upd' : Option Window) {config config' : Config} (hn : filename ≠ [])
    (ht : fs.mtime filename ≠ -1) (hr : readConfigFile env fs filename = some config) (hfit : FitsConfig config)
    (hsize : (ToServer.config config).body.length < 2 ^ 32) {stages : List (List Context)} (hst : StagesOf config.contexts stages)
    (hmod : latestModifyTime fs' filename config.includes ≠ latestModifyTime fs filename [])
    (hr' : readConfigFile env fs' filename = some config') (hfit' : FitsConfig config')
    (hsize' : (ToServer.config config').body.length < 2 ^ 32) {stages' : List (List Context)} (hst' : StagesOf config'.contexts stages')
    {chunks : List Bytes} (hchunks : chunks.flatten = sentBytes ((Client.start env fs filename).run env [.connect upd, .autoUpdate fs' upd']).out)
    (isDown : Key → Bool) :
    receivedMessages isDown chunks = [.configuration (stages.map Cfg.make), .activeContexts ((matchingContexts env.rx config (upd.getD {})).map Int.ofNat),
      .configuration (stages'.map Cfg.make), .activeContexts ((matchingContexts env.rx config' (upd'.getD (upd.getD {}))).map Int.ofNat)] := by
  obtain ⟨h1, h2, h3, h4⟩ := start_config hn ht hr
  have hfile := start_file hn ht hr
  obtain ⟨hf, hout⟩ := connect_follows (env := env) h2 h3 h4 upd
  have hcf := connect_file env (Client.start env fs filename) upd
  rw [hfile] at hcf
  rw [h1] at hf hout
  have hrun : (Client.start env fs filename).run env [.connect upd, .autoUpdate fs' upd'] =
      ((Client.start env fs filename).run env [.connect upd]).step env (.autoUpdate fs' upd') := rfl
  rw [hrun, update_sends hf rfl (by rw [hcf]; exact hr') (by rw [hcf]; exact hmod) upd', hout] at hchunks
  have hbytes : chunks.flatten = [ToServer.config config, .activeContexts ((matchingContexts env.rx config (upd.getD {})).map Int.ofNat),
      .config config', .activeContexts ((matchingContexts env.rx config' (upd'.getD (upd.getD {}))).map Int.ofNat)].flatMap (fun m => frame m.body) := by
    rw [hchunks]
    simp [sentBytes]
  obtain ⟨rs, h5, h6⟩ := C30_conversation (by
      intro m hm
      simp only [List.mem_cons, List.not_mem_nil, or_false] at hm
      rcases hm with rfl | rfl | rfl | rfl
      · exact ⟨hfit, hsize⟩
      · exact contexts_fit env.rx hsize { window := upd.getD {} }
      · exact ⟨hfit', hsize'⟩
      · exact contexts_fit env.rx hsize' { window := upd'.getD (upd.getD {}) }) hbytes
  unfold receivedMessages
  rw [h6]
  match rs, h5 with
  | [r1, r2, r3, r4], ⟨⟨s1, hs1, e1⟩, e2, ⟨s3, hs3, e3⟩, e4, _⟩ =>
    have := C29_stages_determined hs1 hst
    subst this
    have := C29_stages_determined hs3 hst'
    subst this
    rw [e1, show r2 = _ from e2, e3, show r4 = _ from e4]
    rfl

/-- does the operation input a key -/
def ReloadOp.isKey : ReloadOp → Bool
  | .stages (.input _ _) => true
  | _ => false

theorem keys_of_input {l : List ReloadOp} (h : ∀ op ∈ l, op.isKey = true) : ∃ ks : List (KeyEvent × Int),
    l = (ks.map (fun p => StagesOp.input p.1 p.2)).map .stages ∧ l.flatMap ReloadOp.keys = ks.map (fun p => .input p.1 p.2) := by
  induction l with
  | nil => exact ⟨[], rfl, rfl⟩
  | cons op l ih =>
    obtain ⟨ks, h1, h2⟩ := ih (fun x hx => h x (List.mem_cons_of_mem _ hx))
    have h0 := h op (List.mem_cons_self ..)
    match op, h0 with
    | .stages (.input ev dev), _ =>
      refine ⟨(ev, dev) :: ks, ?_, ?_⟩
      · rw [h1]; rfl
      · rw [List.flatMap_cons, h2]; rfl

theorem notKey_messages (ms : List Msg) : (ms.flatMap Msg.reloadOps).filter (fun op => !op.isKey) = ms.flatMap Msg.reloadOps := by
  rw [List.filter_eq_self]
  intro op hop
  obtain ⟨m, _, h⟩ := List.mem_flatMap.1 hop
  cases m <;> simp only [Msg.reloadOps, List.mem_singleton, List.not_mem_nil] at h
  all_goals rw [h]; rfl

theorem notKey_its (its : List Iteration) (h : ∀ it ∈ its, it.read = .other → it.messages = []) :
    (its.flatMap Iteration.reloadOps).filter (fun op => !op.isKey) = (its.flatMap (fun it => it.messages)).flatMap Msg.reloadOps := by
  induction its with
  | nil => rfl
  | cons it its ih =>
    rw [List.flatMap_cons, List.filter_append, ih (fun x hx => h x (List.mem_cons_of_mem _ hx)), List.flatMap_cons, List.flatMap_append]
    congr 1
    unfold Iteration.reloadOps
    cases hr : it.read with
    | other => rw [h it (List.mem_cons_self ..) hr]; rfl
    | nothing => rw [if_neg (by simp), List.filter_append, notKey_messages]; rfl
    | key ev dev => rw [if_neg (by simp), List.filter_append, notKey_messages]; rfl

theorem notKey_nil {l : List ReloadOp} (h : l.filter (fun op => !op.isKey) = []) : ∀ op ∈ l, op.isKey = true := by
  intro op hop
  have := List.filter_eq_nil_iff.1 h op hop
  simpa using this

theorem first_other {l1 l2 r1 r2 : List ReloadOp} {x y : ReloadOp} (h1 : ∀ op ∈ l1, op.isKey = true) (h2 : ∀ op ∈ l2, op.isKey = true)
    (hx : x.isKey = false) (hy : y.isKey = false) (h : l1 ++ x :: r1 = l2 ++ y :: r2) : l1 = l2 := by
  induction l1 generalizing l2 with
  | nil =>
    cases l2 with
    | nil => rfl
    | cons b l2 =>
      injection h with e _
      rw [e, h2 b (List.mem_cons_self ..)] at hx
      cases hx
  | cons a l1 ih =>
    cases l2 with
    | nil =>
      injection h with e _
      rw [← e, h1 a (List.mem_cons_self ..)] at hy
      cases hy
    | cons b l2 =>
      injection h with e h
      rw [e, ih (fun o ho => h1 o (List.mem_cons_of_mem _ ho)) (fun o ho => h2 o (List.mem_cons_of_mem _ ho)) h]

/-- the moment at which the configuration is replaced -/
theorem configured_when {its : List Iteration} (hother : ∀ it ∈ its, it.read = .other → it.messages = []) {cfgs : List Cfg} {a : List Int}
    (harrive : its.flatMap (fun it => it.messages) = [.configuration cfgs, .activeContexts a]) {l1 r1 : List ReloadOp}
    (hl1 : its.flatMap Iteration.reloadOps = l1 ++ .configure cfgs :: r1) {ks1 : List (KeyEvent × Int)}
    (hks1 : l1 = (ks1.map (fun p => StagesOp.input p.1 p.2)).map .stages) (its1 : List Iteration) (it : Iteration) (its2 : List Iteration)
    (hits : its = its1 ++ it :: its2) (hm : ∃ cfgs, Msg.configuration cfgs ∈ it.messages) : ks1 = keysRead (its1 ++ [it]) := by
  obtain ⟨cfgs', hm⟩ := hm
  subst hits
  rw [List.flatMap_append, List.flatMap_cons] at harrive
  have hnone : its1.flatMap (fun it => it.messages) = [] := by
    cases hms : its1.flatMap (fun it => it.messages) with
    | nil => rfl
    | cons m ms =>
      rw [hms, List.cons_append] at harrive
      injection harrive with _ harrive
      have : Msg.configuration cfgs' ∈ ms ++ (it.messages ++ its2.flatMap (fun it => it.messages)) :=
        List.mem_append_right _ (List.mem_append_left _ hm)
      rw [harrive, List.mem_singleton] at this
      cases this
  obtain ⟨ms, hms⟩ : ∃ ms, it.messages = .configuration cfgs :: ms := by
    rw [hnone, List.nil_append] at harrive
    cases hms : it.messages with
    | nil => rw [hms] at hm; cases hm
    | cons m ms =>
      rw [hms, List.cons_append] at harrive
      injection harrive with e _
      exact ⟨ms, by rw [e]⟩
  have hread : it.read ≠ .other := by
    intro e
    rw [hother it (by simp) e] at hms
    cases hms
  obtain ⟨it0, hit0⟩ : ∃ it0 : Iteration, it0 = { it with messages := [] } := ⟨_, rfl⟩
  have hops0 : it.reloadOps = it0.reloadOps ++ .configure cfgs :: ms.flatMap Msg.reloadOps := by
    rw [hit0]
    unfold Iteration.reloadOps
    simp only [if_neg hread, hms, List.flatMap_cons, List.flatMap_nil, List.append_nil]
    rfl
  have hnot : ((its1 ++ [it0]).flatMap Iteration.reloadOps).filter (fun op => !op.isKey) = [] := by
    rw [notKey_its _ (by
      intro x hx
      rcases List.mem_append.1 hx with hx | hx
      · exact hother x (List.mem_append_left _ hx)
      · rw [List.mem_singleton.1 hx, hit0]; intro _; rfl), List.flatMap_append, hnone]
    rw [hit0]; rfl
  rw [List.flatMap_append, List.flatMap_cons, hops0] at hl1
  have hsplit : (its1 ++ [it0]).flatMap Iteration.reloadOps ++ .configure cfgs :: (ms.flatMap Msg.reloadOps ++ its2.flatMap Iteration.reloadOps) =
      l1 ++ .configure cfgs :: r1 := by
    rw [← hl1]
    simp only [List.flatMap_append, List.flatMap_cons, List.flatMap_nil, List.append_nil, List.append_assoc, List.cons_append]
  have hl := first_other (notKey_nil hnot) (by
    intro op hop
    rw [hks1] at hop
    obtain ⟨o, ho, rfl⟩ := List.mem_map.1 hop
    obtain ⟨p, _, rfl⟩ := List.mem_map.1 ho
    rfl) rfl rfl hsplit
  have hk := reload_keys_its (its1 ++ [it0])
  have hk1 : l1.flatMap ReloadOp.keys = ks1.map (fun p => .input p.1 p.2) := by
    rw [hks1, List.map_map]
    clear hks1 hk hl hsplit hl1
    induction ks1 with
    | nil => rfl
    | cons p ks ih => rw [List.map_cons, List.flatMap_cons, ih]; rfl
  rw [hl, hk1] at hk
  have : ks1 = keysRead (its1 ++ [it0]) := by
    refine (List.map_inj_right ?_).1 hk
    rintro ⟨a, b⟩ ⟨c, d⟩ e
    injection e with e1 e2
    exact Prod.ext e1 e2
  rw [this, hit0]
  simp only [keysRead, List.filterMap_append, List.filterMap_cons, List.filterMap_nil]

/-- the moment at which the contexts of the new configuration are activated -/
theorem activated_when {its : List Iteration} (hother : ∀ it ∈ its, it.read = .other → it.messages = []) {cfgs : List Cfg} {a : List Int}
    (harrive : its.flatMap (fun it => it.messages) = [.configuration cfgs, .activeContexts a]) {l r : List ReloadOp}
    (hl : its.flatMap Iteration.reloadOps = l ++ .stages (.contexts a) :: r) {ks : List (KeyEvent × Int)}
    (hks : r = (ks.map (fun p => StagesOp.input p.1 p.2)).map .stages) (its1 : List Iteration) (it : Iteration) (its2 : List Iteration)
    (hits : its = its1 ++ it :: its2) (hm : ∃ l, Msg.activeContexts l ∈ it.messages) : ks = keysRead its2 := by
  obtain ⟨a', hm⟩ := hm
  subst hits
  rw [List.flatMap_append, List.flatMap_cons] at harrive
  have hread : it.read ≠ .other := by
    intro e
    rw [hother it (by simp) e] at hm
    cases hm
  -- the contexts are the last message
  obtain ⟨hnone, ms, hms⟩ : its2.flatMap (fun it => it.messages) = [] ∧ ∃ ms, it.messages = ms ++ [.activeContexts a] := by
    obtain ⟨pre, post, hsplit⟩ := List.append_of_mem hm
    rw [hsplit] at harrive
    have h2 : its1.flatMap (fun it => it.messages) ++ pre ++ .activeContexts a' :: (post ++ its2.flatMap (fun it => it.messages)) =
        [.configuration cfgs] ++ .activeContexts a :: [] := by
      rw [show ([Msg.configuration cfgs] ++ .activeContexts a :: []) = [.configuration cfgs, .activeContexts a] from rfl, ← harrive]
      simp only [List.append_assoc, List.cons_append]
    generalize its1.flatMap (fun it => it.messages) ++ pre = x at h2
    rcases x with - | ⟨x1, - | ⟨x2, x⟩⟩
    · injection h2 with e _; cases e
    · injection h2 with _ h2
      injection h2 with e h2
      injection e with e
      obtain ⟨h3, h4⟩ := List.append_eq_nil_iff.1 h2
      refine ⟨h4, pre, ?_⟩
      rw [hsplit, h3, e]
    · injection h2 with _ h2
      injection h2 with _ h2
      cases x <;> cases h2
  have hnot : (its2.flatMap Iteration.reloadOps).filter (fun op => !op.isKey) = [] := by
    rw [notKey_its _ (fun x hx => hother x (List.mem_append_right _ (List.mem_cons_of_mem _ hx))), hnone]
    rfl
  have hops : (its1 ++ it :: its2).flatMap Iteration.reloadOps =
      (its1.flatMap Iteration.reloadOps ++ (it.read.stagesOps.map .stages ++ ms.flatMap Msg.reloadOps)) ++
        .stages (.contexts a) :: its2.flatMap Iteration.reloadOps := by
    have : it.reloadOps = it.read.stagesOps.map .stages ++ (ms.flatMap Msg.reloadOps ++ [.stages (.contexts a)]) := by
      unfold Iteration.reloadOps
      rw [if_neg hread, hms, List.flatMap_append]
      rfl
    rw [List.flatMap_append, List.flatMap_cons, this]
    simp only [List.append_assoc, List.cons_append, List.nil_append]
  rw [hops] at hl
  have hrev := congrArg List.reverse hl
  simp only [List.reverse_append, List.reverse_cons, List.append_assoc, List.singleton_append] at hrev
  have hr := first_other (by intro op hop; exact notKey_nil hnot op (List.mem_reverse.1 hop)) (by
    intro op hop
    have hop := List.mem_reverse.1 hop
    rw [hks] at hop
    obtain ⟨o, ho, rfl⟩ := List.mem_map.1 hop
    obtain ⟨p, _, rfl⟩ := List.mem_map.1 ho
    rfl) rfl rfl hrev
  have hr := List.reverse_inj.1 hr
  have hk := reload_keys_its its2
  have hk1 : r.flatMap ReloadOp.keys = ks.map (fun p => .input p.1 p.2) := by
    rw [hks, List.map_map]
    clear hks hk hr hrev hl
    induction ks with
    | nil => rfl
    | cons p ks ih => rw [List.map_cons, List.flatMap_cons, ih]; rfl
  rw [hr, hk1] at hk
  refine (List.map_inj_right ?_).1 hk
  rintro ⟨a, b⟩ ⟨c, d⟩ e
  injection e with e1 e2
  exact Prod.ext e1 e2

/-- **C97 (from the file).** The client has read a configuration, connects and sends it. Then, while keys are typed, the file is modified, and the client reads and sends the new one. In
whatever pieces and whenever that arrives at the server: everything which is typed up to the iteration of the loop in which the configuration arrives is mapped by the old configuration, with the contexts active which matched the focused window; then all keys which are held
down on the virtual device are released, so that none remains held down; and everything which is typed from then on is mapped by the new configuration as if the server had just been
started with it (with the contexts active which match the focused window as soon as this arrived too). -/
theorem C97_reload (env : ClientEnv) (fs fs' : FileSys) (filename : Str) (upd upd' : Option Window) {config config' : Config} (hn : filename ≠ [])
    (ht : fs.mtime filename ≠ -1) (hr : readConfigFile env fs filename = some config) (hfit : FitsConfig config)
    (hsize : (ToServer.config config).body.length < 2 ^ 32) {stages : List (List Context)} (hst : StagesOf config.contexts stages)
    (hdev : ∀ st ∈ stages, ∀ ctx ∈ st, ctx.hasDeviceFilter = false)
    (hmod : latestModifyTime fs' filename config.includes ≠ latestModifyTime fs filename [])
    (hr' : readConfigFile env fs' filename = some config') (hfit' : FitsConfig config')
    (hsize' : (ToServer.config config').body.length < 2 ^ 32) {stages' : List (List Context)} (hst' : StagesOf config'.contexts stages') (hne' : stages' ≠ [])
    (hdev' : ∀ st ∈ stages', ∀ ctx ∈ st, ctx.hasDeviceFilter = false)
    {chunks : List Bytes} (hchunks : chunks.flatten = sentBytes ((Client.start env fs filename).run env [.connect upd, .autoUpdate fs' upd']).out)
    (rx : Regex) (isDown : Key → Bool) (ds : List DeviceDesc) {first : List Msg} (hfirst : first.length = 2) (its : List Iteration)
    (harrive : first ++ its.flatMap (fun it => it.messages) = receivedMessages isDown chunks)
    (hi : ∀ it ∈ its, (∀ ev dev, it.read = .key ev dev → KM.Ordinary ev.key) ∧ it.sendResults = [] ∧ it.regrab = false ∧ (it.read = .other → it.messages = []))
    {last : List Context} (hlast : stages.getLast? = some last)
    {old : List (KeyEvent × Int) → List StagesOp}
    (hold : ∀ ks, old ks = .contexts ((matchingContexts env.rx config (upd.getD {})).map Int.ofNat) :: ks.map (fun p => .input p.1 p.2))
    {new : List (KeyEvent × Int) → List (KeyEvent × Int) → List StagesOp}
    (hnew : ∀ ks ks', new ks ks' = ks.map (fun p => .input p.1 p.2) ++
      .contexts ((matchingContexts env.rx config' (upd'.getD (upd.getD {}))).map Int.ofNat) :: ks'.map (fun p => .input p.1 p.2))
    (hout : ∀ ks1 ks2 ks3, keysRead its = ks1 ++ ks2 ++ ks3 → OnlyKeys (stagesRun (stages.map stageInit) (old ks1)).2 ∧
      OnlyKeys (stagesRun (stages'.map stageInit) (new ks2 ks3)).2)
    (hexit : NoExit ((keysRead its).map (fun p => .input p.1 p.2))) :
    ∃ (ks1 ks2 ks3 : List (KeyEvent × Int)) (released : List Key), keysRead its = ks1 ++ ks2 ++ ks3 ∧
      (∀ its1 it its2, its = its1 ++ it :: its2 → (∃ cfgs, Msg.configuration cfgs ∈ it.messages) → ks1 = keysRead (its1 ++ [it])) ∧
      (∀ its1 it its2, its = its1 ++ it :: its2 → (∃ l, Msg.activeContexts l ∈ it.messages) → ks3 = keysRead its2) ∧
      released = heldOutput (stagesRun (stages.map stageInit) (old ks1)).1 ∧
      (({} : Srv).connection rx first ds its).out = (lastOutputs (stagesRun (stages.map stageInit) (old ks1)).2 ++
        released.map (fun k => (⟨k, .Up, 0⟩ : KeyEvent)) ++ lastOutputs (stagesRun (stages'.map stageInit) (new ks2 ks3)).2).map Eff.sendKey ∧
      ∀ k, isDeviceKey k = true → OutputsReleaseOwn last k →
        heldAfter (lastOutputs (stagesRun (stages.map stageInit) (old ks1)).2 ++ released.map (fun k => (⟨k, .Up, 0⟩ : KeyEvent))) k = false := by
  have hne : stages ≠ [] := by intro e; rw [e] at hlast; cases hlast
  rw [received_reload env fs fs' filename upd upd' hn ht hr hfit hsize hst hmod hr' hfit' hsize' hst' hchunks isDown] at harrive
  match first, hfirst with
  | [m1, m2], _ =>
    simp only [List.cons_append, List.nil_append] at harrive
    injection harrive with e1 harrive
    injection harrive with e2 harrive
    subst e1; subst e2
    have hfilter := notKey_its its (fun it h => (hi it h).2.2.2)
    rw [harrive] at hfilter
    simp only [List.flatMap_cons, Msg.reloadOps, List.flatMap_nil, List.append_nil, List.singleton_append] at hfilter
    obtain ⟨l1, r1, hl1, hk1, _, hfilter⟩ := List.filter_eq_cons_iff.1 hfilter
    obtain ⟨l2, r2, rfl, hk2, _, hfilter⟩ := List.filter_eq_cons_iff.1 hfilter
    obtain ⟨ks1, hks1, hs1⟩ := keys_of_input (l := l1) (fun op h => by have := hk1 op h; simpa using this)
    obtain ⟨ks2, hks2, hs2⟩ := keys_of_input (l := l2) (fun op h => by have := hk2 op h; simpa using this)
    obtain ⟨ks3, hks3, hs3⟩ := keys_of_input (notKey_nil hfilter)
    have hkeys : keysRead its = ks1 ++ ks2 ++ ks3 := by
      have h := reload_keys_its its
      rw [hl1] at h
      simp only [List.flatMap_append, List.flatMap_cons, hs1, hs2, hs3, ReloadOp.keys, List.nil_append] at h
      rw [← List.map_append, ← List.map_append] at h
      rw [List.append_assoc]
      refine (List.map_inj_right ?_).1 h.symm
      rintro ⟨a, b⟩ ⟨c, d⟩ e
      injection e with e1 e2
      exact Prod.ext e1 e2
    obtain ⟨ho1, ho2⟩ := hout ks1 ks2 ks3 hkeys
    have hops : [Msg.activeContexts ((matchingContexts env.rx config (upd.getD {})).map Int.ofNat)].flatMap Msg.reloadOps ++ its.flatMap Iteration.reloadOps =
        (old ks1).map .stages ++ (.configure (stages'.map Cfg.make) :: (new ks2 ks3).map .stages) := by
      rw [hl1, hks1, hks2, hks3, hold, hnew]
      simp only [List.map_append, List.map_cons, List.flatMap_cons, List.flatMap_nil, Msg.reloadOps, List.append_nil, List.cons_append, List.nil_append]
    have hinit : (stages'.map Cfg.make).map (fun c => (c, ({} : S))) = stages'.map stageInit := by rw [List.map_map]; rfl
    have hrun : reloadRun (stages.map stageInit) ((old ks1).map .stages ++ (.configure (stages'.map Cfg.make) :: (new ks2 ks3).map .stages)) =
        ((stagesRun (stages'.map stageInit) (new ks2 ks3)).1, (stagesRun (stages.map stageInit) (old ks1)).2 ++
          [(heldOutput (stagesRun (stages.map stageInit) (old ks1)).1).map (fun k => ⟨k, .Up, 0⟩)] ::
          (stagesRun (stages'.map stageInit) (new ks2 ks3)).2) := by
      rw [reloadRun_append, reloadRun_stages, reloadRun]
      simp only [reloadStep, hinit, reloadRun_stages]
    refine ⟨ks1, ks2, ks3, heldOutput (stagesRun (stages.map stageInit) (old ks1)).1, hkeys, ?_, ?_, rfl, ?_, ?_⟩
    · exact configured_when (fun it h => (hi it h).2.2.2) harrive hl1 hks1
    · exact activated_when (l := l1 ++ .configure (stages'.map Cfg.make) :: l2) (fun it h => (hi it h).2.2.2) harrive (by
        rw [hl1, List.append_assoc, List.cons_append]) hks3
    · have hc := C97_connection rx hne hdev [Msg.activeContexts ((matchingContexts env.rx config (upd.getD {})).map Int.ofNat)]
        (by intro m hm; rw [List.mem_singleton.1 hm]; exact .inl ⟨_, rfl⟩) ds its (by
          intro it hit
          obtain ⟨g1, g2, g3, g4⟩ := hi it hit
          refine ⟨g1, g2, ?_, g3⟩
          intro m hm
          have : m ∈ its.flatMap (fun it => it.messages) := List.mem_flatMap.2 ⟨it, hit, hm⟩
          rw [harrive] at this
          simp only [List.mem_cons, List.not_mem_nil, or_false] at this
          rcases this with rfl | rfl
          · exact .inr ⟨stages', hne', hdev', rfl⟩
          · exact .inl ⟨_, rfl⟩) hops.symm (by
          rw [hrun]
          intro os hos
          rcases List.mem_append.1 hos with hos | hos
          · exact ho1 os hos
          · rcases List.mem_cons.1 hos with rfl | hos
            · intro o ho e he
              rw [List.mem_singleton.1 ho] at he
              exact heldOutput_sendable _ e he
            · exact ho2 os hos) hexit
      rw [hc, hrun]
      simp only [lastOutputs, List.flatMap_append, List.flatMap_cons, List.getLastD_cons, List.getLastD_nil, List.append_assoc]
    · intro k hk hown
      have := C97_nothing_held hlast hk hown ((old ks1).map .stages) (by
        intro op hop
        obtain ⟨o, _, rfl⟩ := List.mem_map.1 hop
        trivial) (stages'.map Cfg.make)
      rw [reloadRun_append, reloadRun_stages, lastOutputs_append] at this
      simpa [lastOutputs, reloadRun, reloadStep] using this

/-! ### an example: `A >> B` becomes `A >> C` while A is held -/

def reEnv : ClientEnv := ⟨genericTyper, fun _ => true, fun _ _ => false⟩
def reFiles (time : Int) (b : Char) : FileSys :=
  { mtime := fun _ => time, content := fun f => if f = ['c'] then some ("A >> ".toList ++ [b]) else none, resolve := fun _ f => f, noName := rfl }

set_option synthInstance.maxSize 1000 in
theorem reRead1 : (readConfigFile reEnv (reFiles 1 'B') ['c']).map (fun c => (markBegin c.contexts, c.grabDeviceFilters, c.serverDirectives, c.includes,
    matchingContexts reEnv.rx c {})) = some ([[replaceContext [(Key.KeyA, Key.KeyB)]]].flatMap markFirst, [], [], [], [0]) := by decide +kernel

set_option synthInstance.maxSize 1000 in
theorem reRead2 : (readConfigFile reEnv (reFiles 2 'C') ['c']).map (fun c => (markBegin c.contexts, c.grabDeviceFilters, c.serverDirectives, c.includes,
    matchingContexts reEnv.rx c {})) = some ([[replaceContext [(Key.KeyA, Key.KeyC)]]].flatMap markFirst, [], [], [], [0]) := by decide +kernel

theorem re_config {config : Config} {pairs : List (Key × Key)} (h1 : markBegin config.contexts = [[replaceContext pairs]].flatMap markFirst)
    (hg : config.grabDeviceFilters = []) (hd : config.serverDirectives = []) (hl : pairs.length = 1) (hp : ∀ p ∈ pairs, Ordinary p.1 ∧ Ordinary p.2) :
    FitsConfig config ∧ (ToServer.config config).body.length < 2 ^ 32 ∧ StagesOf config.contexts [[replaceContext pairs]] := by
  have hst : StagesOf config.contexts [[replaceContext pairs]] := by
    refine ⟨?_, h1.symm⟩
    intro st hst
    rw [List.mem_singleton.1 hst]; simp
  have hcs : ∃ c1, config.contexts = [c1] ∧ contextOf c1 = replaceContext pairs := by
    simp only [List.flatMap_cons, List.flatMap_nil, markFirst, List.append_nil, List.map_nil] at h1
    generalize config.contexts = cs at h1 ⊢
    rcases cs with - | ⟨c1, - | ⟨c2, l⟩⟩
    · cases h1
    · simp only [markBegin, List.map_nil, List.cons.injEq, Prod.mk.injEq] at h1
      exact ⟨c1, rfl, h1.1.2⟩
    · simp [markBegin] at h1
  obtain ⟨c1, hcs, hc1⟩ := hcs
  refine ⟨⟨?_, ?_, ?_⟩, ?_, hst⟩
  · rw [hg]; exact ⟨by decide, by intro f hf; cases hf⟩
  · rw [hcs]
    refine ⟨by simp, ?_⟩
    intro c hc
    rw [List.mem_singleton.1 hc]
    exact fits_pair hc1 (by rw [hl]; decide) hp
  · rw [hd]; exact ⟨by decide, by intro f hf; cases hf⟩
  · simp only [ToServer.body, hg, hd, hcs, wrList, wrType, wrU32, List.length_append, leBytes_length, List.flatMap_nil, List.length_nil,
      List.flatMap_cons, length_pair hc1, hl]
    decide

def reTyped : List Iteration :=
  [{ now := 1, read := .key ⟨Key.KeyA, .Down, 0⟩ 0 },
    { now := 2, messages := [.configuration [Cfg.make [replaceContext [(Key.KeyA, Key.KeyC)]]], .activeContexts [0]] },
    { now := 3, read := .key ⟨Key.KeyA, .Up, 0⟩ 0 }, { now := 4, read := .key ⟨Key.KeyA, .Down, 0⟩ 0 }]

theorem re_split {l a b c : List (KeyEvent × Int)} {n : Nat} (h : l = a ++ b ++ c) (hn : l.length = n) :
    ∃ i < n + 1, ∃ j < n + 1, a = l.take i ∧ b = (l.drop i).take j ∧ c = l.drop (i + j) := by
  have hlen : a.length + b.length + c.length = n := by rw [← hn, h]; simp only [List.length_append]
  refine ⟨a.length, by omega, b.length, by omega, ?_, ?_, ?_⟩
  · rw [h, List.append_assoc, List.take_left' rfl]
  · rw [h, List.append_assoc, List.drop_left' rfl, List.take_left' rfl]
  · rw [h, ← List.length_append, List.drop_left' rfl]

def reOnly (outs : List (List KeySequence)) : Bool :=
  outs.all (·.all (·.all (fun e => !(e.key == Key.timeout) && !isVirtualKey e.key && !isActionKey e.key && !isMouseWheel e.key)))

theorem re_only {outs : List (List KeySequence)} (h : reOnly outs = true) : OnlyKeys outs := by
  intro os hos o ho e he
  have h := List.all_eq_true.1 (List.all_eq_true.1 (List.all_eq_true.1 h os hos) o ho) e he
  simp only [Bool.and_eq_true, Bool.not_eq_true', beq_eq_false_iff_ne] at h
  exact ⟨h.1.1.1, h.1.1.2, h.1.2, fun hw => by rw [h.2] at hw; cases hw⟩

theorem re_old : ∀ i < 3 + 1, reOnly (stagesRun ([[replaceContext [(Key.KeyA, Key.KeyB)]]].map stageInit)
    (.contexts ([0].map Int.ofNat) :: ((keysRead reTyped).take i).map (fun p => .input p.1 p.2))).2 = true := by decide +kernel

theorem re_new : ∀ i < 3 + 1, ∀ j < 3 + 1, reOnly (stagesRun ([[replaceContext [(Key.KeyA, Key.KeyC)]]].map stageInit)
    ((((keysRead reTyped).drop i).take j).map (fun p => .input p.1 p.2) ++
      .contexts ([0].map Int.ofNat) :: ((keysRead reTyped).drop (i + j)).map (fun p => .input p.1 p.2))).2 = true := by decide +kernel

theorem re_iteration {it : Iteration} (hit : it ∈ reTyped) : (∀ ev dev, it.read = .key ev dev → Ordinary ev.key) ∧ it.sendResults = [] ∧ it.regrab = false ∧
    (it.read = .other → it.messages = []) := by
  simp only [reTyped, List.mem_cons, List.not_mem_nil, or_false] at hit
  rcases hit with rfl | rfl | rfl | rfl
  all_goals
    refine ⟨?_, rfl, rfl, (by intro h; cases h)⟩
    intro ev dev h
    first
      | (injection h with h1 h2; subst h1; unfold Ordinary; decide)
      | cases h

theorem re_exit : NoExit ((keysRead reTyped).map (fun p => .input p.1 p.2)) := by
  rintro before last after h ⟨a, b, c, rfl⟩
  have h2 : (Key.Escape, KeyState.Down) ∈ strokes ((keysRead reTyped).map (fun p => .input p.1 p.2)) := by
    rw [h]; simp
  exact absurd h2 (by decide)

/-- B is released when the new configuration arrives; after A was released too it is replaced by C. -/
example (rx : Regex) : (({} : Srv).connection rx [.configuration [Cfg.make [replaceContext [(Key.KeyA, Key.KeyB)]]], .activeContexts [0]] [] reTyped).out =
    [.sendKey ⟨Key.KeyB, .Down, 0⟩, .sendKey ⟨Key.KeyB, .Up, 0⟩, .sendKey ⟨Key.KeyC, .Down, 0⟩] := by
  refine (C97_connection rx (stages := [[replaceContext [(Key.KeyA, Key.KeyB)]]]) (by simp) (by
      intro st hst ctx hctx
      rw [List.mem_singleton.1 hst] at hctx
      rw [List.mem_singleton.1 hctx]; rfl) [.activeContexts [0]] (by intro m hm; rw [List.mem_singleton.1 hm]; exact .inl ⟨_, rfl⟩) [] reTyped ?_ rfl ?_ re_exit).trans ?_
  · intro it hit
    obtain ⟨h1, h2, h3, _⟩ := re_iteration hit
    refine ⟨h1, h2, ?_, h3⟩
    intro m hm
    have : m ∈ reTyped.flatMap (fun it => it.messages) := List.mem_flatMap.2 ⟨it, hit, hm⟩
    simp only [reTyped, List.flatMap_cons, List.flatMap_nil, List.nil_append, List.append_nil, List.mem_cons, List.not_mem_nil, or_false] at this
    rcases this with rfl | rfl
    · refine .inr ⟨[[replaceContext [(Key.KeyA, Key.KeyC)]]], by simp, ?_, rfl⟩
      intro st hst ctx hctx
      rw [List.mem_singleton.1 hst] at hctx
      rw [List.mem_singleton.1 hctx]; rfl
    · exact .inl ⟨_, rfl⟩
  · unfold OnlyKeys Sendable; decide +kernel
  · decide +kernel

/-- The same from the file `A >> B`, which becomes `A >> C` while A is held. -/
example (rx : Regex) : (({} : Srv).connection rx [.configuration [Cfg.make [replaceContext [(Key.KeyA, Key.KeyB)]]], .activeContexts [0]] [] reTyped).out =
    [.sendKey ⟨Key.KeyB, .Down, 0⟩, .sendKey ⟨Key.KeyB, .Up, 0⟩, .sendKey ⟨Key.KeyC, .Down, 0⟩] := by
  obtain ⟨config, hr, hc⟩ := Option.map_eq_some_iff.1 reRead1
  obtain ⟨config', hr', hc'⟩ := Option.map_eq_some_iff.1 reRead2
  simp only [Prod.mk.injEq] at hc hc'
  obtain ⟨h1, hg, hd, hin, hw⟩ := hc
  obtain ⟨h1', hg', hd', hin', hw'⟩ := hc'
  obtain ⟨hfit, hsize, hst⟩ := re_config h1 hg hd rfl (by
    intro p hp
    rw [List.mem_singleton.1 hp]
    exact ⟨by unfold Ordinary; decide, by unfold Ordinary; decide⟩)
  obtain ⟨hfit', hsize', hst'⟩ := re_config h1' hg' hd' rfl (by
    intro p hp
    rw [List.mem_singleton.1 hp]
    exact ⟨by unfold Ordinary; decide, by unfold Ordinary; decide⟩)
  have hfl : ∀ bytes : Bytes, [bytes].flatten = bytes := by intro bytes; simp
  have hmod : latestModifyTime (reFiles 2 'C') ['c'] config.includes ≠ latestModifyTime (reFiles 1 'B') ['c'] [] := by rw [hin]; decide
  have hdev : ∀ pairs : List (Key × Key), ∀ st ∈ [[replaceContext pairs]], ∀ ctx ∈ st, ctx.hasDeviceFilter = false := by
    intro pairs st hst ctx hctx
    rw [List.mem_singleton.1 hst] at hctx
    rw [List.mem_singleton.1 hctx]; rfl
  have hrec := received_reload reEnv (reFiles 1 'B') (reFiles 2 'C') ['c'] none none (by decide) (by decide) hr hfit hsize hst hmod hr' hfit' hsize' hst' (hfl _)
    (fun _ => false)
  have hwnone : matchingContexts reEnv.rx config ((none : Option Window).getD {}) = [0] := hw
  have hwnone' : matchingContexts reEnv.rx config' ((none : Option Window).getD ((none : Option Window).getD {})) = [0] := hw'
  rw [hwnone, hwnone'] at hrec
  obtain ⟨ks1, ks2, ks3, released, g1, g2, g5, g3, g4, _⟩ := C97_reload reEnv (reFiles 1 'B') (reFiles 2 'C') ['c'] none none (by decide) (by decide) hr hfit hsize hst
    (hdev _) hmod hr' hfit' hsize' hst' (by simp) (hdev _) (hfl _) rx (fun _ => false) []
    (first := [.configuration [Cfg.make [replaceContext [(Key.KeyA, Key.KeyB)]]], .activeContexts [0]]) rfl reTyped (by rw [hrec]; rfl) (fun it hit => re_iteration hit) rfl (fun _ => rfl) (fun _ _ => rfl) (by
      intro ks1 ks2 ks3 h
      obtain ⟨i, hi, j, hj, rfl, rfl, rfl⟩ := re_split h (n := 3) rfl
      rw [hwnone, hwnone']
      exact ⟨re_only (re_old i hi), re_only (re_new i hi j hj)⟩) re_exit
  have hk1 := g2 [{ now := 1, read := .key ⟨Key.KeyA, .Down, 0⟩ 0 }] _ _ rfl ⟨_, List.mem_cons_self ..⟩
  have hk3 := g5 [{ now := 1, read := .key ⟨Key.KeyA, .Down, 0⟩ 0 }] _ _ rfl ⟨_, List.mem_cons_of_mem _ (List.mem_cons_self ..)⟩
  have hk2 : ks2 = [] := by
    have := congrArg List.length g1
    rw [hk1, hk3] at this
    simp only [List.length_append] at this
    exact List.eq_nil_of_length_eq_zero (Nat.add_left_cancel (Nat.add_right_cancel this.symm))
  subst hk1
  subst hk2
  subst hk3
  subst g3
  rw [g4, hwnone, hwnone']
  decide +kernel

end KM
