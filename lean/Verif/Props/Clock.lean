import Verif.Lemmas.ServerClock
import Verif.Props.EndToEnd
/-!
# Time

**C81** The server measures the time a stage asks for.
-/
namespace KM

/-! ### the server -/

/-- a connection -/
theorem connection_clocked (rx : Regex) (ctxs : List Context) (hf : (Cfg.make ctxs).hasDeviceFilter = false) (ms : List Msg)
    (hm : ∀ m ∈ ms, ∃ l, m = .activeContexts l) (ds : List DeviceDesc) (its : List Iteration) (hi : ∀ it ∈ its, it.Ordinary true)
    (ht : ((⟨stageInit ctxs, none, .zero, []⟩ : Clocked (Cfg × S)).apply stageStep (ms.flatMap (Msg.stageOps ctxs.length))).1.Timely stageStep ctxs.length its)
    {r : Clocked (Cfg × S) × KeySequence}
    (hr : r = (⟨stageInit ctxs, none, .zero, []⟩ : Clocked (Cfg × S)).session stageStep ctxs.length (ms.flatMap (Msg.stageOps ctxs.length)) its)
    (hout : ∀ e ∈ r.2, Sendable e) (hx : NeverExits (stageInit ctxs) r.1.log) :
    (({} : Srv).connection rx (.configuration [Cfg.make ctxs] :: ms) ds its).out = r.2.map Eff.sendKey := by
  have hlen : (Cfg.make ctxs).contexts.length = ctxs.length := by simp [Cfg.make]
  obtain ⟨c0, hc0⟩ : ∃ c0, c0 = (⟨stageInit ctxs, none, .zero, []⟩ : Clocked (Cfg × S)) := ⟨_, rfl⟩
  have hn0 : c0.state.1.contexts.length = ctxs.length := by rw [hc0]; exact hlen
  rw [← hc0] at hr ht
  obtain ⟨a, ha⟩ : ∃ a, a = c0.apply stageStep (ms.flatMap (Msg.stageOps ctxs.length)) := ⟨_, rfl⟩
  have hr' : r = ((a.1.run stageStep ctxs.length its).1, a.2 ++ (a.1.run stageStep ctxs.length its).2) := by rw [hr, ha]; rfl
  rw [← ha] at ht
  rw [hr'] at hout hx ⊢
  have hdef : ({} : Srv).onMessage rx (.configuration [Cfg.make ctxs]) = { ms := MS.make [Cfg.make ctxs] } := by
    unfold Srv.onMessage Srv.onConfiguration Srv.resetConfiguration
    have h1 : Srv.flush rx (({} : Srv).releaseAllKeys) = {} := by
      have := flush_sendable rx (({} : Srv).releaseAllKeys) (by intro e he; cases he) rfl rfl
      unfold Srv.flush
      rw [this]
      rfl
    simp only [h1]
    unfold Srv.evaluateDeviceFilters
    rw [if_pos (by simp)]
  have hsrv : Clocking { ms := MS.make [Cfg.make ctxs] } 0 c0 [] := by
    rw [hc0]
    exact ⟨rfl, rfl, rfl, rfl, rfl, rfl, rfl, rfl, rfl, fun _ _ h => (by cases h)⟩
  obtain ⟨h1, h2⟩ := messages_clocked rx ctxs.length ms hm _ 0 c0 hn0 hsrv (by
    rw [← ha]; exact fun e he => hout e (List.mem_append_left _ he))
  rw [← ha] at h1 h2
  have hacfg : a.1.state.1 = Cfg.make ctxs := by
    rw [ha, apply_cfg, hc0]; rfl
  obtain ⟨srv1, hsrv1⟩ : ∃ srv1, srv1 = ms.foldl (Srv.onMessage rx) { ms := MS.make [Cfg.make ctxs] } := ⟨_, rfl⟩
  rw [← hsrv1] at h1 h2
  have hd : srv1.setDeviceDescs rx ds = { srv1 with devices := ds } := by
    unfold Srv.setDeviceDescs Srv.evaluateDeviceFilters
    rw [if_pos (by rw [h1.ms]; simp [MS.hasDeviceFilters, hacfg, hf])]
  have h3 : Clocking { srv1 with devices := ds } 0 a.1 [] :=
    ⟨h1.buf, h1.flushAt, h1.sending, h1.info, h1.ms, h1.results, h1.now, h1.last, h1.start, h1.timeout⟩
  have hfol : a.1.Follows (stageInit ctxs) := by
    rw [ha]
    refine Clocked.Follows.apply _ ?_
    rw [hc0]; rfl
  have h4 := mainLoop_clocked rx ctxs.length its _ 0 a.1 h3 (by rw [hacfg]; exact hlen) (by rw [hacfg, hf]; exact hi) ht
    (fun e he => hout e (List.mem_append_right _ he)) hfol hx
  unfold Srv.connection
  rw [List.foldl_cons, hdef, ← hsrv1, hd, h4]
  show srv1.out ++ _ = _
  rw [h2]
  simp

/-- The client has read a configuration of one stage without device filters, connects and sends it; it arrives in some pieces -/
structure SentConfig (env : ClientEnv) (fs : FileSys) (filename : Str) (upd : Option Window) (config : Config) (chunks : List Bytes) : Prop where
  name : filename ≠ []
  time : fs.mtime filename ≠ -1
  read : readConfigFile env fs filename = some config
  fits : FitsConfig config
  size : (ToServer.config config).body.length < 2 ^ 32
  contexts : config.contexts ≠ []
  oneStage : ∀ ctx ∈ config.contexts.tail, ctx.beginStage = false
  noFilters : ∀ ctx ∈ config.contexts, (contextOf ctx).hasDeviceFilter = false
  sent : chunks.flatten = sentBytes ((Client.start env fs filename).run env [.connect upd]).out

/-- **C81** The client has read a configuration of one stage, connects and sends it, in whatever pieces it arrives. Then the server outputs on the virtual device exactly what a stage of
the contexts of the configuration outputs, where each time the stage asks how much time passes, the server measures it and inputs it into the stage: either
before the next key (repeats of the same key are ignored meanwhile, and a release only matters when the request says so), or when the time is over, whichever is first. The stage
is only to output keys apart from such requests, there are no device filters, and the keys which terminate the server are not typed. -/
theorem C81_measures_time {env : ClientEnv} {fs : FileSys} {filename : Str} {upd : Option Window} {config : Config} {chunks : List Bytes}
    (h : SentConfig env fs filename upd config chunks)
    (rx : Regex) (isDown : Key → Bool) (ds : List DeviceDesc) (its : List Iteration) (hi : ∀ it ∈ its, it.Ordinary true)
    {stage : Clocked (Cfg × S)} (hstage : stage = { state := stageInit (config.contexts.map contextOf) })
    {first : List StageOp} (hfirst : first = [.contexts (matchingContexts env.rx config (upd.getD {}))])
    (htime : (stage.apply stageStep first).1.Timely stageStep config.contexts.length its)
    {log : List StageOp} (hlog : log = (stage.session stageStep config.contexts.length first its).1.log)
    {out : KeySequence} (hout : out = (stage.session stageStep config.contexts.length first its).2)
    (hsend : ∀ e ∈ out, Sendable e) (hexit : NoExit log) :
    (({} : Srv).connection rx (receivedMessages isDown chunks) ds its).out = out.map Eff.sendKey := by
  have hrec := received_single env fs filename upd h.name h.time h.read h.fits h.size h.contexts h.oneStage h.sent isDown
  have hfe : first = [Msg.activeContexts ((matchingContexts env.rx config (upd.getD {})).map Int.ofNat)].flatMap
      (Msg.stageOps (config.contexts.map contextOf).length) := by
    rw [hfirst, List.length_map, List.flatMap_cons, List.flatMap_nil, List.append_nil, matching_ops]
  have hlen : config.contexts.length = (config.contexts.map contextOf).length := (List.length_map _).symm
  rw [hrec]
  rw [hlen] at htime hlog hout
  subst hstage
  rw [hfe] at htime hlog hout
  rw [connection_clocked rx _ (noFilters_make h.noFilters) _ (by simp) ds its hi htime rfl (by rw [← hout]; exact hsend) (by
    rw [← hlog]
    exact fun ops hp => hexit.run _ hp), ← hout]

end KM
