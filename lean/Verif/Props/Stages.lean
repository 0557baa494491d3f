import Verif.Lemmas.Stages
import Verif.Lemmas.StagesDoc
import Verif.Props.EndToEnd
/-!
# C95: several stages, from the configuration file to the virtual device
-/
namespace KM

/-- what the server receives when the client connects -/
theorem received_stages (env : ClientEnv) (fs : FileSys) (filename : Str) (upd : Option Window) {config : Config} (hn : filename ≠ [])
    (ht : fs.mtime filename ≠ -1) (hr : readConfigFile env fs filename = some config) (hfit : FitsConfig config)
    (hsize : (ToServer.config config).body.length < 2 ^ 32) {stages : List (List Context)} (hst : StagesOf config.contexts stages) {chunks : List Bytes}
    (hchunks : chunks.flatten = sentBytes ((Client.start env fs filename).run env [.connect upd]).out) (isDown : Key → Bool) :
    receivedMessages isDown chunks = [.configuration (stages.map Cfg.make),
      .activeContexts ((matchingContexts env.rx config (upd.getD {})).map Int.ofNat)] := by
  obtain ⟨h1, h2, h3, h4⟩ := start_config hn ht hr
  rw [connect_sends h2 h3 h4, h1] at hchunks
  have hlt := Nat.lt_of_le_of_lt config_length hsize
  have hml : (matchingContexts env.rx config (upd.getD {})).length ≤ config.contexts.length := by
    unfold matchingContexts
    exact Nat.le_trans (List.length_filter_le _ _) (by simp)
  have hactive : (ToServer.activeContexts ((matchingContexts env.rx config (upd.getD {})).map Int.ofNat)).FitsMsg ∧
      (ToServer.activeContexts ((matchingContexts env.rx config (upd.getD {})).map Int.ofNat)).body.length < 2 ^ 32 := by
    refine ⟨⟨by rw [List.length_map]; omega, ?_⟩, ?_⟩
    · intro i hi
      obtain ⟨j, hj, rfl⟩ := List.mem_map.1 hi
      unfold matchingContexts at hj
      have := (List.mem_filter.1 hj).1
      rw [List.mem_range] at this
      constructor <;> simp only [Int.ofNat_eq_natCast] <;> omega
    · simp only [ToServer.body, wrList, wrType, wrU32, List.length_append, leBytes_length]
      rw [length_flatMap_const (k := 4) _ (by intro a _; simp [wrI32, leBytes_length]), List.length_map]
      omega
  obtain ⟨rs, h5, h6⟩ := C30_conversation (ms := [ToServer.config config,
    .activeContexts ((matchingContexts env.rx config (upd.getD {})).map Int.ofNat)]) (by
      intro m hm
      simp only [List.mem_cons, List.not_mem_nil, or_false] at hm
      rcases hm with rfl | rfl
      · exact ⟨hfit, hsize⟩
      · exact hactive) hchunks
  unfold receivedMessages
  rw [h6]
  match rs, h5 with
  | [r1, r2], ⟨⟨stages', hst', e1⟩, e2, _⟩ =>
    have := C29_stages_determined hst' hst
    subst this
    rw [e1, show r2 = _ from e2]
    rfl

theorem noFilter_stage {ctxs : List Context} (h : ∀ ctx ∈ ctxs, ctx.hasDeviceFilter = false) : (Cfg.make ctxs).hasDeviceFilter = false := by
  show (ctxs.map (fun c => { c with commandOutputs := sortCommandOutputs c.commandOutputs })).any (fun c => c.hasDeviceFilter) = false
  rw [List.any_map, List.any_eq_false]
  intro ctx hc
  simpa [Context.hasDeviceFilter] using h ctx hc

theorem first_strokes (n : Nat) (ops : List StagesOp) (evs : List (KeyEvent × Int))
    (h : ops.filterMap (fun op => match op with | .input ev dev => some (ev, dev) | .contexts _ => none) = evs) :
    strokes (ops.map (StagesOp.first n)) = strokes (evs.map (fun p => .input p.1 p.2)) := by
  subst h
  induction ops with
  | nil => rfl
  | cons op ops ih =>
    cases op with
    | input ev dev =>
      simp only [List.map_cons, List.filterMap_cons, StagesOp.first, strokes, ih]
    | contexts l =>
      simp only [List.map_cons, List.filterMap_cons, StagesOp.first, strokes, ih]

theorem stagesOps_keys (its : List Iteration) (hi : ∀ it ∈ its, it.Ordinary true) :
    (its.flatMap Iteration.stagesOps).filterMap (fun op => match op with | .input ev dev => some (ev, dev) | .contexts _ => none) = keysRead its := by
  have hmsg : ∀ ms : List Msg, (ms.flatMap Msg.stagesOps).filterMap (fun op => match op with | .input ev dev => some (ev, dev) | .contexts _ => none) =
      ([] : List (KeyEvent × Int)) := by
    intro ms
    induction ms with
    | nil => rfl
    | cons m ms ih =>
      rw [List.flatMap_cons, List.filterMap_append, ih, List.append_nil]
      cases m <;> rfl
  induction its with
  | nil => rfl
  | cons it its ih =>
    rw [List.flatMap_cons, List.filterMap_append, ih (fun x hx => hi x (List.mem_cons_of_mem _ hx))]
    unfold keysRead Iteration.stagesOps
    rw [List.filterMap_cons]
    cases hr : it.read with
    | other => simp
    | nothing => rw [if_neg (by simp), List.filterMap_append, hmsg]; rfl
    | key ev dev => rw [if_neg (by simp), List.filterMap_append, hmsg]; rfl

/-- a connection: what the last stage outputs is sent -/
theorem connection_stages (rx : Regex) {stages : List (List Context)} (hne : stages ≠ [])
    (hf : ∀ st ∈ stages, ∀ ctx ∈ st, ctx.hasDeviceFilter = false) (ms : List Msg)
    (hm : ∀ m ∈ ms, ∃ l, m = .activeContexts l) (ds : List DeviceDesc) (its : List Iteration) (hi : ∀ it ∈ its, it.Ordinary true)
    (hout : OnlyKeys (stagesRun (stages.map stageInit) (ms.flatMap Msg.stagesOps ++ its.flatMap Iteration.stagesOps)).2)
    (hx : StaysIn (stages.map stageInit) (ms.flatMap Msg.stagesOps ++ its.flatMap Iteration.stagesOps)) :
    (({} : Srv).connection rx (.configuration (stages.map Cfg.make) :: ms) ds its).out =
      (lastOutputs (stagesRun (stages.map stageInit) (ms.flatMap Msg.stagesOps ++ its.flatMap Iteration.stagesOps)).2).map Eff.sendKey := by
  have hfirst : ({} : Srv).onMessage rx (.configuration (stages.map Cfg.make)) = { ms := MS.make (stages.map Cfg.make) } := by
    unfold Srv.onMessage Srv.onConfiguration Srv.resetConfiguration
    have h1 : Srv.flush rx (({} : Srv).releaseAllKeys) = {} := by
      have := flush_sendable rx (({} : Srv).releaseAllKeys) (by intro e he; cases he) rfl rfl
      unfold Srv.flush
      rw [this]
      rfl
    simp only [h1]
    unfold Srv.evaluateDeviceFilters
    rw [if_pos (by simp)]
  have h0 : AroundAll { ms := MS.make (stages.map Cfg.make) } (stages.map stageInit) := by
    refine ⟨⟨rfl, rfl, rfl, rfl, rfl, rfl⟩, ?_, ?_, rfl⟩
    · intro e; exact hne (List.map_eq_nil_iff.1 e)
    · simp [MS.make, stageInit]
  have hfs : ∀ st ∈ stages.map stageInit, st.1.hasDeviceFilter = false := by
    intro st hst
    obtain ⟨ctxs, hc, rfl⟩ := List.mem_map.1 hst
    exact noFilter_stage (hf ctxs hc)
  rw [stagesRun_append] at hout
  obtain ⟨h1, h2⟩ := messages_stages rx ms hm _ _ h0 hout.left
  have hcf := stagesRun_cfgs (ms.flatMap Msg.stagesOps) (stages.map stageInit)
  have hrest := hout.right
  have hxr := hx.right
  rw [stagesRun_append, lastOutputs_append]
  unfold Srv.connection
  rw [List.foldl_cons, hfirst]
  generalize ms.foldl (Srv.onMessage rx) { ms := MS.make (stages.map Cfg.make) } = srv1 at h1 h2 ⊢
  generalize stagesRun (stages.map stageInit) (ms.flatMap Msg.stagesOps) = r at h1 h2 hcf hrest hxr ⊢
  have hnf : ∀ st ∈ r.1, st.1.hasDeviceFilter = false := by
    intro st hst
    have : st.1 ∈ (stages.map stageInit).map (·.1) := by rw [← hcf]; exact List.mem_map.2 ⟨st, hst, rfl⟩
    obtain ⟨st', hst', e⟩ := List.mem_map.1 this
    rw [← e]; exact hfs st' hst'
  have hdev : srv1.setDeviceDescs rx ds = { srv1 with devices := ds } := by
    unfold Srv.setDeviceDescs Srv.evaluateDeviceFilters
    have hd : srv1.ms.hasDeviceFilters = false := by
      unfold MS.hasDeviceFilters
      rw [h1.stages, List.any_eq_false]
      intro st hst
      rw [hnf st hst]
      exact Bool.false_ne_true
    rw [if_pos (by simp [hd])]
  have h3 : AroundAll { srv1 with devices := ds } r.1 :=
    ⟨⟨h1.buf, h1.flushAt, h1.timeout, h1.sending, h1.info, h1.stageBuf⟩, h1.nonempty, h1.stages, h1.results⟩
  rw [hdev, mainLoop_stages rx its hi _ r.1 h3 hnf hrest hxr]
  show srv1.out ++ _ = _
  rw [h2, List.map_append]
  rfl

/-- **C95 (pipeline).** When the client has read a configuration of any number of stages, connects and sends it, in whatever pieces it
arrives, then the server outputs on the virtual device exactly what the last stage outputs, when every stage gets what the stage in front of it
outputs, and in every stage the contexts are active whose filters match the focused window. The stages are thereby only to output keys (no
virtual keys, delays and terminal commands), there are no device filters, and the keys which terminate the server are not typed. -/
theorem C95_pipeline (env : ClientEnv) (fs : FileSys) (filename : Str) (upd : Option Window) {config : Config} (hn : filename ≠ [])
    (ht : fs.mtime filename ≠ -1) (hr : readConfigFile env fs filename = some config) (hfit : FitsConfig config)
    (hsize : (ToServer.config config).body.length < 2 ^ 32) {stages : List (List Context)} (hst : StagesOf config.contexts stages) (hne : stages ≠ [])
    (hdev : ∀ st ∈ stages, ∀ ctx ∈ st, ctx.hasDeviceFilter = false) {chunks : List Bytes}
    (hchunks : chunks.flatten = sentBytes ((Client.start env fs filename).run env [.connect upd]).out)
    (rx : Regex) (isDown : Key → Bool) (ds : List DeviceDesc) (its : List Iteration) (hi : ∀ it ∈ its, it.Ordinary true)
    {ops : List StagesOp} (hops : ops = .contexts ((matchingContexts env.rx config (upd.getD {})).map Int.ofNat) :: its.flatMap Iteration.stagesOps)
    (hout : OnlyKeys (stagesRun (stages.map stageInit) ops).2) (hexit : NoExit ((keysRead its).map (fun p => .input p.1 p.2))) :
    (({} : Srv).connection rx (receivedMessages isDown chunks) ds its).out =
      (lastOutputs (stagesRun (stages.map stageInit) ops).2).map Eff.sendKey := by
  have hrec := received_stages env fs filename upd hn ht hr hfit hsize hst hchunks isDown
  have hopsEq : ops = [Msg.activeContexts ((matchingContexts env.rx config (upd.getD {})).map Int.ofNat)].flatMap
      Msg.stagesOps ++ its.flatMap Iteration.stagesOps := hops
  have hx : StaysIn (stages.map stageInit) ops := by
    intro ops' hp
    cases stages with
    | nil => exact absurd rfl hne
    | cons ctxs rest =>
      rw [List.map_cons, stagesRun_first]
      have hs := first_strokes (stageInit ctxs).1.contexts.length ops (keysRead its) (by rw [hops]; exact stagesOps_keys its hi)
      have hno : NoExit (ops.map (StagesOp.first (stageInit ctxs).1.contexts.length)) := by
        intro a b c h
        rw [hs] at h
        exact hexit a b c h
      obtain ⟨t, rfl⟩ := hp
      exact hno.run ctxs (by rw [List.map_append]; exact List.prefix_append _ _)
  rw [hrec]
  rw [hopsEq] at hout hx ⊢
  exact connection_stages rx hne hdev _ (by simp) ds its hi hout hx

/-! ### exchanging keys in every stage -/

theorem Exchanging.inj {pairs : List (Key × Key)} (h : Exchanging pairs) {a b : Key} (hab : replacedBy pairs a = replacedBy pairs b) : a = b := by
  by_cases ha : Ordinary a
  · by_cases hb : Ordinary b
    · exact h.different a b ha hb hab
    · rw [replacedBy_other h.ordinary hb] at hab
      exact absurd (hab ▸ replacedBy_ordinary h.ordinary ha) hb
  · by_cases hb : Ordinary b
    · rw [replacedBy_other h.ordinary ha] at hab
      exact absurd (hab ▸ replacedBy_ordinary h.ordinary hb) ha
    · rwa [replacedBy_other h.ordinary ha, replacedBy_other h.ordinary hb] at hab

/-- the key is replaced in an event -/
def replaceEvent (pairs : List (Key × Key)) (p : KeyEvent × Int) : KeyEvent × Int := ({ p.1 with key := replacedBy pairs p.1.key }, p.2)

/-- keys which are typed -/
structure TypedKeys (evs : List (KeyEvent × Int)) : Prop where
  events : ∀ p ∈ evs, Ordinary p.1.key ∧ p.1.value = 0 ∧ -2 ≤ p.2 ∧ p.2 < 64
  order : pressedAndReleased [] (evs.map (·.1))

theorem map_erase_inj {f : Key → Key} (hf : ∀ a b, f a = f b → a = b) (l : List Key) (k : Key) : (l.erase k).map f = (l.map f).erase (f k) := by
  induction l with
  | nil => rfl
  | cons a l ih =>
    rw [List.map_cons, List.erase_cons, List.erase_cons]
    by_cases h : a = k
    · subst h; rw [if_pos (beq_self_eq_true _), if_pos (beq_self_eq_true _)]
    · rw [if_neg (by rw [beq_iff_eq]; exact h), if_neg (by rw [beq_iff_eq]; exact fun e => h (hf _ _ e)), List.map_cons, ih]

theorem pressed_map {f : Key → Key} (hf : ∀ a b, f a = f b → a = b) (evs : KeySequence) : ∀ held, pressedAndReleased held evs →
    pressedAndReleased (held.map f) (evs.map (fun e => { e with key := f e.key })) := by
  have hm : ∀ (k : Key) (l : List Key), f k ∈ l.map f → k ∈ l := by
    intro k l h
    obtain ⟨a, ha, e⟩ := List.mem_map.1 h
    rw [← hf _ _ e]; exact ha
  induction evs with
  | nil => intro _ _; trivial
  | cons ev evs ih =>
    rintro held ⟨h1, h2⟩
    refine ⟨h1.imp (fun h => ⟨h.1, fun h' => h.2 (hm _ _ h')⟩) (fun h => ⟨h.1, List.mem_map.2 ⟨_, h.2, rfl⟩⟩), ?_⟩
    have := ih _ h2
    have he : heldKeys (held.map f) { ev with key := f ev.key } = (heldKeys held ev).map f := by
      unfold heldKeys
      by_cases hd : ev.state = .Down
      · rw [if_pos hd, if_pos hd, List.map_append]; rfl
      · rw [if_neg hd, if_neg hd, map_erase_inj hf]
    rw [he]
    exact this

theorem TypedKeys.replaced {pairs : List (Key × Key)} (hp : Exchanging pairs) {evs : List (KeyEvent × Int)} (h : TypedKeys evs) :
    TypedKeys (evs.map (replaceEvent pairs)) := by
  refine ⟨?_, ?_⟩
  · intro p hpm
    obtain ⟨q, hq, rfl⟩ := List.mem_map.1 hpm
    obtain ⟨h1, h2⟩ := h.events q hq
    exact ⟨replacedBy_ordinary hp.ordinary h1, h2⟩
  · have := pressed_map (fun a b => hp.inj) _ _ h.order
    rw [List.map_map] at this ⊢
    exact this

theorem pressed_prefix (a b : KeySequence) : ∀ held, pressedAndReleased held (a ++ b) → pressedAndReleased held a := by
  induction a with
  | nil => intro _ _; trivial
  | cons e a ih => rintro held ⟨h1, h2⟩; exact ⟨h1, ih _ h2⟩

theorem TypedKeys.before {a b : List (KeyEvent × Int)} (h : TypedKeys (a ++ b)) : TypedKeys a :=
  ⟨fun p hp => h.events p (List.mem_append_left _ hp), by have := h.order; rw [List.map_append] at this; exact pressed_prefix _ _ _ this⟩

/-- the stage after these were typed -/
def exchanged (pairs : List (Key × Key)) (evs : List (KeyEvent × Int)) : Cfg × S :=
  (stageRun (stageInit [replaceContext pairs]) (.contexts [0] :: evs.map (fun p => .input p.1 p.2))).1

theorem exchanged_out {pairs : List (Key × Key)} (hp : Exchanging pairs) {evs : List (KeyEvent × Int)} (h : TypedKeys evs) :
    (stageRun (stageInit [replaceContext pairs]) (.contexts [0] :: evs.map (fun p => .input p.1 p.2))).2 = (evs.map (replaceEvent pairs)).map (·.1) := by
  have hrepl : ∀ k, Ordinary k → Replaceable k := by
    intro k hk
    refine ⟨?_, ?_, ?_, ?_⟩ <;> (rintro rfl; exact absurd hk.1 (by decide))
  rw [C70_exchange pairs (fun p h => ⟨hrepl _ (hp.ordinary p h).1, (hrepl _ (hp.ordinary p h).2).2.1, (hrepl _ (hp.ordinary p h).2).2.2.1⟩)
    (fun a b _ _ h => hp.inj h) evs (fun p hpm => ⟨hrepl _ (h.events p hpm).1, (ordinary_sendable (h.events p hpm).1).2.1, (h.events p hpm).2⟩) h.order,
    List.map_map]
  rfl

theorem exchanged_step {pairs : List (Key × Key)} (hp : Exchanging pairs) {evs : List (KeyEvent × Int)} {p : KeyEvent × Int} (h : TypedKeys (evs ++ [p])) :
    stageRun (exchanged pairs evs) [.input p.1 p.2] = (exchanged pairs (evs ++ [p]), [(replaceEvent pairs p).1]) := by
  have h1 := exchanged_out hp h.before
  have h2 := exchanged_out hp h
  unfold exchanged
  rw [List.map_append, ← List.cons_append, stageRun_append] at h2 ⊢
  rw [List.map_append, List.map_append, h1] at h2
  have h3 := List.append_cancel_left h2
  exact Prod.ext rfl h3

/-- the stages after these were typed -/
def allExchanged : List (List (Key × Key)) → List (KeyEvent × Int) → List (Cfg × S)
  | [], _ => []
  | pairs :: rest, evs => exchanged pairs evs :: allExchanged rest (evs.map (replaceEvent pairs))

/-- the key by which a key is replaced in all stages, one after the other -/
def replacedByAll (pairss : List (List (Key × Key))) (k : Key) : Key := pairss.foldl (fun k pairs => replacedBy pairs k) k

theorem allExchanged_input (pairss : List (List (Key × Key))) (hp : ∀ pairs ∈ pairss, Exchanging pairs) : ∀ (evs : List (KeyEvent × Int)) (p : KeyEvent × Int),
    TypedKeys (evs ++ [p]) →
    (stagesInput p.2 (allExchanged pairss evs) [p.1]).1 = allExchanged pairss (evs ++ [p]) ∧
    (∀ o ∈ (stagesInput p.2 (allExchanged pairss evs) [p.1]).2, ∀ e ∈ o, Sendable e) ∧
    (stagesInput p.2 (allExchanged pairss evs) [p.1]).2.getLastD [p.1] = [{ p.1 with key := replacedByAll pairss p.1.key }] := by
  induction pairss with
  | nil => intro evs p _; exact ⟨rfl, (by intro o ho; cases ho), rfl⟩
  | cons pairs rest ih =>
    intro evs p h
    have hp1 := hp pairs (List.mem_cons_self ..)
    have h1 : stageRun (exchanged pairs evs) ([p.1].map (fun e => .input e p.2)) = _ := exchanged_step hp1 h
    have h2 := h.replaced hp1
    rw [List.map_append] at h2
    obtain ⟨i1, i2, i3⟩ := ih (fun q hq => hp q (List.mem_cons_of_mem _ hq)) _ (replaceEvent pairs p) h2
    rw [allExchanged, stagesInput, h1]
    simp only []
    refine ⟨?_, ?_, ?_⟩
    · rw [allExchanged, List.map_append]
      exact congrArg _ i1
    · intro o ho
      rcases List.mem_cons.1 ho with rfl | ho
      · intro e he
        rw [List.mem_singleton.1 he]
        exact ordinary_sendable (replacedBy_ordinary hp1.ordinary (h.events p (by simp)).1)
      · exact i2 o ho
    · rw [List.getLastD_cons]
      exact i3

theorem allExchanged_run (pairss : List (List (Key × Key))) (hne : pairss ≠ []) (hp : ∀ pairs ∈ pairss, Exchanging pairs) (evs : List (KeyEvent × Int)) :
    ∀ (before : List (KeyEvent × Int)), TypedKeys (before ++ evs) →
    OnlyKeys (stagesRun (allExchanged pairss before) (evs.map (fun p => .input p.1 p.2))).2 ∧
    lastOutputs (stagesRun (allExchanged pairss before) (evs.map (fun p => .input p.1 p.2))).2 =
      evs.map (fun p => { p.1 with key := replacedByAll pairss p.1.key }) := by
  induction evs with
  | nil => intro _ _; exact ⟨(by intro o ho; cases ho), rfl⟩
  | cons p evs ih =>
    intro before h
    have h' : TypedKeys (before ++ [p] ++ evs) := by rw [List.append_assoc]; exact h
    obtain ⟨i1, i2, i3⟩ := allExchanged_input pairss hp before p h'.before
    obtain ⟨j1, j2⟩ := ih _ h'
    rw [List.map_cons, stagesRun]
    simp only [stagesStep]
    rw [i1]
    refine ⟨?_, ?_⟩
    · intro o ho
      rcases List.mem_cons.1 ho with rfl | ho
      · exact i2
      · exact j1 o ho
    · rw [lastOutputs, List.flatMap_cons, List.map_cons]
      have hl : (stagesInput p.2 (allExchanged pairss before) [p.1]).2.getLastD [] = [{ p.1 with key := replacedByAll pairss p.1.key }] := by
        rw [← i3]
        cases hq : (stagesInput p.2 (allExchanged pairss before) [p.1]).2 with
        | nil =>
          cases pairss with
          | nil => exact absurd rfl hne
          | cons a l => rw [allExchanged, stagesInput] at hq; cases hq
        | cons a l => rw [List.getLastD_cons, List.getLastD_cons]
      rw [hl, ← j2]
      rfl

theorem own_single (n m off : Nat) (h : off < n) (hm : m = n) : ownContexts ((List.range m).map Int.ofNat) off 1 = [0] := by
  subst hm
  have : ∀ l : List Nat, l.Nodup → off ∈ l → ownContexts (l.map Int.ofNat) off 1 = [0] := by
    intro l
    induction l with
    | nil => intro _ h; cases h
    | cons a l ih =>
      intro hn hm
      obtain ⟨hn1, hn2⟩ := List.nodup_cons.1 hn
      unfold ownContexts at ih ⊢
      rw [List.map_cons, List.filter_cons]
      by_cases ha : a = off
      · subst ha
        rw [if_pos (by simp only [Bool.and_eq_true, decide_eq_true_eq, Int.ofNat_eq_natCast]; omega), List.map_cons]
        have hnil : (l.map Int.ofNat).filter (fun i => decide ((a : Int) ≤ i) && decide (i < (a : Int) + ((1 : Nat) : Int))) = [] := by
          rw [List.filter_eq_nil_iff]
          intro i hi
          obtain ⟨b, hb, rfl⟩ := List.mem_map.1 hi
          simp only [Bool.and_eq_true, decide_eq_true_eq, Int.ofNat_eq_natCast]
          rintro ⟨h1, h2⟩
          have : b = a := by omega
          exact hn1 (this ▸ hb)
        rw [hnil]
        simp
      · rw [if_neg (by simp only [Bool.and_eq_true, decide_eq_true_eq, Int.ofNat_eq_natCast]; omega)]
        exact ih hn2 ((List.mem_cons.1 hm).resolve_left (fun e => ha e.symm))
  exact this _ List.nodup_range (List.mem_range.2 h)

/-- all contexts are activated: nothing is output -/
theorem allExchanged_init (pairss : List (List (Key × Key))) (hp : ∀ pairs ∈ pairss, Exchanging pairs) (n : Nat) : ∀ (off : Nat), off + pairss.length = n →
    (stagesContexts ((List.range n).map Int.ofNat) off (pairss.map (fun pairs => stageInit [replaceContext pairs])) []).1 = allExchanged pairss [] ∧
    (∀ o ∈ (stagesContexts ((List.range n).map Int.ofNat) off (pairss.map (fun pairs => stageInit [replaceContext pairs])) []).2, o = []) := by
  induction pairss with
  | nil => intro _ _; exact ⟨rfl, by intro o ho; cases ho⟩
  | cons pairs rest ih =>
    intro off h
    rw [List.length_cons] at h
    have hown := own_single n n off (by omega) rfl
    have h1 := exchanged_out (hp pairs (List.mem_cons_self ..)) (evs := []) ⟨(by intro p hp; cases hp), trivial⟩
    have h1' : stageRun (stageInit [replaceContext pairs]) [.contexts [0]] = (exchanged pairs [], []) := Prod.ext rfl h1
    have hlen : (stageInit [replaceContext pairs]).1.contexts.length = 1 := rfl
    obtain ⟨i1, i2⟩ := ih (fun q hq => hp q (List.mem_cons_of_mem _ hq)) (off + 1) (by omega)
    rw [List.map_cons, stagesContexts, hlen, hown, List.map_nil, List.nil_append, h1']
    simp only []
    rw [i1]
    refine ⟨rfl, ?_⟩
    intro o ho
    rcases List.mem_cons.1 ho with rfl | ho
    · rfl
    · exact i2 o ho

theorem stagesOps_typed (its : List Iteration) (h : ∀ it ∈ its, it.messages = []) :
    its.flatMap Iteration.stagesOps = (keysRead its).map (fun p => .input p.1 p.2) := by
  induction its with
  | nil => rfl
  | cons it its ih =>
    have h1 := h it (by simp)
    rw [List.flatMap_cons, ih (fun x hx => h x (by simp [hx]))]
    unfold keysRead Iteration.stagesOps
    rw [h1, List.filterMap_cons]
    cases it.read <;> simp [Read.stagesOps]

/-- **C95 (exchanging keys).** A configuration has any number of stages, which exchange keys each (no two keys are replaced with the same one), and
are not restricted to other windows. Then everything which is typed appears on the virtual device, event by event and in order, with each key replaced by
the first stage, the result replaced by the second stage, and so on. -/
theorem C95_exchange (env : ClientEnv) (fs : FileSys) (filename : Str) (upd : Option Window) {config : Config} (hn : filename ≠ [])
    (ht : fs.mtime filename ≠ -1) (hr : readConfigFile env fs filename = some config) (hfit : FitsConfig config)
    (hsize : (ToServer.config config).body.length < 2 ^ 32) {pairss : List (List (Key × Key))} (hne : pairss ≠ [])
    (hst : StagesOf config.contexts (pairss.map (fun pairs => [replaceContext pairs]))) (hp : ∀ pairs ∈ pairss, Exchanging pairs)
    (hw : matchingContexts env.rx config (upd.getD {}) = List.range pairss.length) {chunks : List Bytes}
    (hchunks : chunks.flatten = sentBytes ((Client.start env fs filename).run env [.connect upd]).out)
    (rx : Regex) (isDown : Key → Bool) (ds : List DeviceDesc) (its : List Iteration)
    (hi : ∀ it ∈ its, it.Ordinary true ∧ it.messages = [])
    (hev : ∀ p ∈ keysRead its, p.1.value = 0 ∧ -2 ≤ p.2 ∧ p.2 < 64)
    (hpr : pressedAndReleased [] ((keysRead its).map (·.1)))
    (hexit : NoExit ((keysRead its).map (fun p => .input p.1 p.2))) :
    (({} : Srv).connection rx (receivedMessages isDown chunks) ds its).out =
      (keysRead its).map (fun p => .sendKey { p.1 with key := pairss.foldl (fun k pairs => replacedBy pairs k) p.1.key }) := by
  have hord : ∀ p ∈ keysRead its, Ordinary p.1.key := by
    intro p hp
    obtain ⟨it, hit, he⟩ := List.mem_filterMap.1 hp
    cases hread : it.read with
    | key ev dev =>
      rw [hread] at he
      simp only [Option.some.injEq] at he
      subst he
      exact (hi it hit).1.read ev dev hread
    | _ => rw [hread] at he; cases he
  have htyped : TypedKeys ([] ++ keysRead its) := ⟨fun p hp => ⟨hord p hp, hev p hp⟩, hpr⟩
  obtain ⟨j1, j2⟩ := allExchanged_run pairss hne hp (keysRead its) [] htyped
  obtain ⟨i1, i2⟩ := allExchanged_init pairss hp pairss.length 0 (by omega)
  have hrun : stagesRun ((pairss.map (fun pairs => [replaceContext pairs])).map stageInit)
      (.contexts ((List.range pairss.length).map Int.ofNat) :: (keysRead its).map (fun p => .input p.1 p.2)) =
      ((stagesRun (allExchanged pairss []) ((keysRead its).map (fun p => .input p.1 p.2))).1,
        (stagesContexts ((List.range pairss.length).map Int.ofNat) 0 (pairss.map (fun pairs => stageInit [replaceContext pairs])) []).2 ::
          (stagesRun (allExchanged pairss []) ((keysRead its).map (fun p => .input p.1 p.2))).2) := by
    rw [stagesRun, List.map_map]
    simp only [stagesStep]
    rw [← i1]
    rfl
  have hlast : (stagesContexts ((List.range pairss.length).map Int.ofNat) 0 (pairss.map (fun pairs => stageInit [replaceContext pairs])) []).2.getLastD [] = [] := by
    rw [List.getLastD_eq_getLast?]
    cases hl : (stagesContexts ((List.range pairss.length).map Int.ofNat) 0 (pairss.map (fun pairs => stageInit [replaceContext pairs])) []).2.getLast? with
    | none => rfl
    | some o => exact i2 o (List.mem_of_getLast? hl)
  rw [C95_pipeline env fs filename upd hn ht hr hfit hsize hst (by intro e; exact hne (List.map_eq_nil_iff.1 e)) (by
      intro st hst ctx hctx
      obtain ⟨pairs, -, rfl⟩ := List.mem_map.1 hst
      rw [List.mem_singleton.1 hctx]
      rfl) hchunks rx isDown ds its (fun it hit => (hi it hit).1)
      (ops := .contexts ((List.range pairss.length).map Int.ofNat) :: (keysRead its).map (fun p => .input p.1 p.2))
      (by rw [hw, stagesOps_typed its (fun it hit => (hi it hit).2)]) (by
        rw [hrun]
        intro os hos
        rcases List.mem_cons.1 hos with rfl | hos
        · intro o ho e he
          rw [i2 o ho] at he
          cases he
        · exact j1 os hos) hexit, hrun]
  rw [lastOutputs, List.flatMap_cons, hlast, List.nil_append]
  show (lastOutputs _).map Eff.sendKey = _
  rw [j2, List.map_map]
  rfl

/-! ### from the file -/

theorem remainingPairs_mem {pss : List (List (Key × Key))} {ps : List (Key × Key)} (h : ps ∈ remainingPairs pss) : ps ∈ pss := by
  unfold remainingPairs at h
  split at h
  · exact List.mem_cons_of_mem _ h
  · exact h

theorem remainingPairs_replace (pss : List (List (Key × Key))) (k : Key) :
    (remainingPairs pss).foldl (fun k pairs => replacedBy pairs k) k = pss.foldl (fun k pairs => replacedBy pairs k) k := by
  unfold remainingPairs
  split
  · rfl
  · rfl

theorem remainingPairs_some {pss : List (List (Key × Key))} (h : pss ≠ []) : remainingPairs pss ≠ [] := by
  unfold remainingPairs
  split
  · simp
  · exact h

theorem remainingPairs_sum (pss : List (List (Key × Key))) :
    ((remainingPairs pss).map (fun ps => ps.length + 2)).sum ≤ (pss.map (fun ps => ps.length + 2)).sum := by
  unfold remainingPairs
  split
  · simp
  · exact Nat.le_refl _

/-- contexts which replace keys, one in each stage -/
structure PairStages (pss : List (List (Key × Key))) (ctxs : List CContext) : Prop where
  length : ctxs.length = pss.length
  contexts : ∀ i ps ctx, pss[i]? = some ps → ctxs[i]? = some ctx → PairContext ps ctx ∧ (0 < i → ctx.beginStage = true)

theorem PairStages.stages {pss : List (List (Key × Key))} {ctxs : List CContext} (h : PairStages pss ctxs) :
    StagesOf ctxs (pss.map (fun ps => [replaceContext ps])) := by
  refine ⟨?_, ?_⟩
  · intro st hst
    obtain ⟨p, -, rfl⟩ := List.mem_map.1 hst
    simp
  · have h1 : (pss.map (fun ps => [replaceContext ps])).flatMap markFirst = pss.map (fun ps => (true, replaceContext ps)) := by
      clear h
      induction pss with
      | nil => rfl
      | cons ps pss ih => rw [List.map_cons, List.flatMap_cons, ih]; rfl
    rw [h1]
    have h2 : markBegin ctxs = ctxs.mapIdx (fun i c => (decide (i = 0) || c.beginStage, contextOf c)) := by
      cases ctxs with
      | nil => rfl
      | cons c cs =>
        rw [markBegin, List.mapIdx_cons]
        congr 1
        apply List.ext_getElem?
        intro i
        rw [List.getElem?_map, List.getElem?_mapIdx]
        cases cs[i]? <;> simp
    rw [h2]
    apply List.ext_getElem?
    intro i
    rw [List.getElem?_map, List.getElem?_mapIdx]
    cases hp : pss[i]? with
    | none =>
      have : ctxs[i]? = none := by
        rw [List.getElem?_eq_none_iff] at hp ⊢
        rw [h.length]; exact hp
      rw [this]; rfl
    | some ps =>
      have hi : i < ctxs.length := by rw [h.length]; exact (List.getElem?_eq_some_iff.1 hp).1
      have hc := List.getElem?_eq_getElem hi
      obtain ⟨h3, h4⟩ := h.contexts i ps _ hp hc
      rw [hc]
      simp only [Option.map_some, h3.context]
      congr 2
      cases i with
      | zero => rfl
      | succ i => rw [h4 (Nat.succ_pos i)]; rfl

theorem PairStages.mem {pss : List (List (Key × Key))} {ctxs : List CContext} (h : PairStages pss ctxs) {ctx : CContext} (hc : ctx ∈ ctxs) :
    ∃ ps ∈ pss, PairContext ps ctx := by
  obtain ⟨i, hi, rfl⟩ := List.mem_iff_getElem.1 hc
  have hi' : i < pss.length := by rw [← h.length]; exact hi
  exact ⟨pss[i], List.getElem_mem _, (h.contexts i _ _ (List.getElem?_eq_getElem hi') (List.getElem?_eq_getElem hi)).1⟩

theorem PairStages.bytes {pss : List (List (Key × Key))} : ∀ {ctxs : List CContext}, PairStages pss ctxs →
    (ctxs.flatMap wrContext).length ≤ 24 * (pss.map (fun ps => ps.length + 2)).sum := by
  induction pss with
  | nil =>
    intro ctxs h
    have := List.length_eq_zero_iff.1 h.length
    subst this
    exact Nat.le_refl _
  | cons ps pss ih =>
    intro ctxs h
    cases ctxs with
    | nil => have := h.length; simp at this
    | cons c cs =>
      have h1 := (h.contexts 0 ps c rfl rfl).1
      have h2 : (cs.flatMap wrContext).length ≤ _ := ih ⟨by have := h.length; simp at this; exact this, fun i ps' ctx hp hc =>
        ⟨(h.contexts (i + 1) ps' ctx hp hc).1, fun _ => (h.contexts (i + 1) ps' ctx hp hc).2 (Nat.succ_pos i)⟩⟩
      rw [List.flatMap_cons, List.length_append, length_pair h1.context, List.map_cons, List.sum_cons]
      omega

theorem length_le_sum {pss : List (List (Key × Key))} {ps : List (Key × Key)} (h : ps ∈ pss) : ps.length + 2 ≤ (pss.map (fun ps => ps.length + 2)).sum := by
  induction pss with
  | nil => cases h
  | cons q pss ih =>
    rw [List.map_cons, List.sum_cons]
    rcases List.mem_cons.1 h with rfl | h
    · omega
    · have := ih h; omega

theorem count_le_sum (pss : List (List (Key × Key))) : 2 * pss.length ≤ (pss.map (fun ps => ps.length + 2)).sum := by
  induction pss with
  | nil => simp
  | cons q pss ih => rw [List.map_cons, List.sum_cons, List.length_cons]; omega

/-- **C95 (from the file).** A configuration file with lines `A >> B` (empty lines and comments), which is divided by lines `[stage]` into any number of
stages each of which exchanges keys, is read by the client, which sends it to the server. Then everything which is typed on the grabbed keyboards appears on
the virtual device, event by event and in order, with each key replaced by the first stage, the result replaced by the second stage, and so on. -/
theorem C95_file (env : ClientEnv) (fs : FileSys) (filename : Str) (upd : Option Window) {lines : List Str} {text : Str}
    {pairss : List (List (Key × Key))} (hn : filename ≠ []) (hfile : fs.content filename = some text) (ht : fs.mtime filename ≠ -1)
    (htext : FileText lines text) (hne : lines ≠ []) (hlines : SectionLines pairss lines) (hp : ∀ pairs ∈ pairss, Exchanging pairs)
    (hsize : (pairss.map (fun pairs => pairs.length + 2)).sum < 2 ^ 24)
    {chunks : List Bytes} (hchunks : chunks.flatten = sentBytes ((Client.start env fs filename).run env [.connect upd]).out)
    (rx : Regex) (isDown : Key → Bool) (ds : List DeviceDesc) (its : List Iteration)
    (hi : ∀ it ∈ its, it.Ordinary true ∧ it.messages = [])
    (hev : ∀ p ∈ keysRead its, p.1.value = 0 ∧ -2 ≤ p.2 ∧ p.2 < 64)
    (hpr : pressedAndReleased [] ((keysRead its).map (·.1)))
    (hexit : NoExit ((keysRead its).map (fun p => .input p.1 p.2))) :
    (({} : Srv).connection rx (receivedMessages isDown chunks) ds its).out =
      (keysRead its).map (fun p => .sendKey { p.1 with key := pairss.foldl (fun k pairs => replacedBy pairs k) p.1.key }) := by
  obtain ⟨bs, last, hdoc, hbs⟩ := sectionLines_doc
    (env := { typer := env.typer, validRegex := env.validRegex, files := fun name => fs.content (fs.resolve filename name) })
    hlines (fun ps hps => (hp ps hps).ordinary) []
  rw [List.nil_append] at hbs
  obtain ⟨ctxs, hres, hc1, hc2⟩ := stagesDoc_result hbs
  have hps : PairStages (remainingPairs pairss) ctxs := ⟨hc1, hc2⟩
  have hpr' : ∀ ps ∈ remainingPairs pairss, Exchanging ps := fun ps h => hp ps (remainingPairs_mem h)
  have hplain : (stagesDoc bs last).Plain := by
    have key_lt : ∀ k, Ordinary k → k < Key.first_logical := by
      intro k hk
      exact Nat.lt_of_le_of_lt (ordinary_bound hk) (by decide)
    intro c hc'
    rw [hres] at hc'
    obtain ⟨pairs, hpm, hctx⟩ := hps.mem hc'
    have hk := (hpr' pairs hpm).ordinary
    have hc := hctx.context
    have h1 : c.inputs = _ := congrArg Context.inputs hc
    have h2 : c.outputs = _ := congrArg Context.outputs hc
    have h3 : c.commandOutputs = _ := congrArg Context.commandOutputs hc
    have h6 : c.modifierFilter = _ := congrArg Context.modifierFilter hc
    rw [h1, h2, h3, h6]
    refine ⟨?_, ?_, (by intro o ho; cases ho), (by intro e he; cases he)⟩
    · intro i hi
      obtain ⟨⟨p, n⟩, hp, rfl⟩ := List.mem_map.1 hi
      have hz := List.mem_zipIdx hp
      have hpm : p ∈ pairs := by rw [hz.2.2]; exact List.getElem_mem _
      intro e he
      simp only [singleKey, List.mem_cons, List.not_mem_nil, or_false] at he
      rcases he with rfl | rfl <;> exact key_lt _ (hk p hpm).1
    · intro o ho
      obtain ⟨p, hp, rfl⟩ := List.mem_map.1 ho
      intro e he
      rw [List.mem_singleton.1 he]
      exact key_lt _ (hk p hp).2
  obtain ⟨config, hpc, hcs, -, -, hg, hd, -⟩ := C74_configuration _ hne hdoc htext (.inr (by intro n h; cases h)) rfl hplain
  rw [show (stagesDoc bs last).grab = [] from rfl] at hg
  rw [show (stagesDoc bs last).server = [] from rfl] at hd
  rw [hres] at hcs
  have hr : readConfigFile env fs filename = some config := by
    unfold readConfigFile
    rw [hfile]; exact hpc
  have hsum := remainingPairs_sum pairss
  have hfit : FitsConfig config := by
    refine ⟨?_, ?_, ?_⟩
    · rw [hg]; exact ⟨by decide, by intro f hf; cases hf⟩
    · rw [hcs]
      refine ⟨?_, ?_⟩
      · have := count_le_sum (remainingPairs pairss)
        rw [hps.length]
        omega
      · intro c hc'
        obtain ⟨pairs, hpm, hctx⟩ := hps.mem hc'
        have := length_le_sum hpm
        exact fits_pair hctx.context (by omega) (hpr' pairs hpm).ordinary
    · rw [hd]; exact ⟨by decide, by intro f hf; cases hf⟩
  have hbody : (ToServer.config config).body.length < 2 ^ 32 := by
    have := hps.bytes
    simp only [ToServer.body, hg, hd, hcs, wrList, wrType, wrU32, List.length_append, leBytes_length, List.flatMap_nil, List.length_nil]
    omega
  have hmatch : matchingContexts env.rx config (upd.getD {}) = List.range (remainingPairs pairss).length := by
    unfold matchingContexts
    rw [hcs, hps.length, List.filter_eq_self]
    intro i hi
    have hi' : i < ctxs.length := by rw [hps.length]; exact List.mem_range.1 hi
    rw [List.getElem?_eq_getElem hi']
    obtain ⟨pairs, hpm, hctx⟩ := hps.mem (List.getElem_mem hi')
    simp [CContext.matches, hctx.window, Filter.matches, Filter.matchesUninverted]
  have hnep : pairss ≠ [] := by
    rintro rfl
    simp at hbs
  rw [C95_exchange env fs filename upd hn ht hr hfit hbody (remainingPairs_some hnep) (by rw [hcs]; exact hps.stages) hpr' hmatch hchunks rx isDown
    ds its hi hev hpr hexit]
  simp only [remainingPairs_replace]

/-! ### an example: A and B are exchanged, then B and C -/

private def stEnv : ClientEnv := ⟨genericTyper, fun _ => true, fun _ _ => false⟩
private def stText : Str := "A >> B\nB >> A\n\n[stage]\nB >> C\nC >> B".toList
private def stFiles : FileSys :=
  { mtime := fun _ => 1, content := fun f => if f = ['c'] then some stText else none, resolve := fun _ f => f, noName := rfl }
private def stPairs : List (List (Key × Key)) := [[(Key.KeyA, Key.KeyB), (Key.KeyB, Key.KeyA)], [(Key.KeyB, Key.KeyC), (Key.KeyC, Key.KeyB)]]

private theorem stRead : (readConfigFile stEnv stFiles ['c']).map (fun c => (markBegin c.contexts, c.grabDeviceFilters, c.serverDirectives,
    matchingContexts stEnv.rx c {})) =
    some ((stPairs.map (fun pairs => [replaceContext pairs])).flatMap markFirst, [], [], [0, 1]) := by decide +kernel

private theorem stExchanging {x y : Key} (hxy : x ≠ y) (hx : Ordinary x) (hy : Ordinary y) : Exchanging [(x, y), (y, x)] := by
  refine ⟨?_, ?_⟩
  · intro p hp
    simp only [List.mem_cons, List.not_mem_nil, or_false] at hp
    rcases hp with rfl | rfl
    · exact ⟨hx, hy⟩
    · exact ⟨hy, hx⟩
  · intro a b _ _ h
    have hs : ∀ k : Key, replacedBy [(x, y), (y, x)] k = if k = x then y else if k = y then x else k := by
      intro k
      unfold replacedBy
      rw [List.lookup_cons, List.lookup_cons, List.lookup_nil]
      by_cases h1 : k = x
      · rw [if_pos h1, h1, beq_self_eq_true]; rfl
      · rw [if_neg h1, beq_eq_false_iff_ne.2 h1]
        by_cases h2 : k = y
        · rw [if_pos h2, h2, beq_self_eq_true]; rfl
        · rw [if_neg h2, beq_eq_false_iff_ne.2 h2]; rfl
    rw [hs, hs] at h
    grind

private def stTyped : List Iteration :=
  [{ now := 1, read := .key ⟨Key.KeyA, .Down, 0⟩ 0 }, { now := 2, read := .key ⟨Key.KeyB, .Down, 0⟩ 0 },
    { now := 3, read := .key ⟨Key.KeyA, .Up, 0⟩ 0 }, { now := 4 }, { now := 5, read := .key ⟨Key.KeyC, .Down, 0⟩ 0 }]

/-- A becomes B in the first stage, which becomes C in the second one; B becomes A, C becomes B. The configuration arrives in pieces of one byte. -/
example (rx : Regex) : (({} : Srv).connection rx (receivedMessages (fun _ => false)
        ((sentBytes ((Client.start stEnv stFiles ['c']).run stEnv [.connect none]).out).map (fun b => [b])))
      [{ name := ['k'], id := [] }] stTyped).out =
      [.sendKey ⟨Key.KeyC, .Down, 0⟩, .sendKey ⟨Key.KeyA, .Down, 0⟩, .sendKey ⟨Key.KeyC, .Up, 0⟩, .sendKey ⟨Key.KeyB, .Down, 0⟩] := by
  obtain ⟨config, hr, hc⟩ := Option.map_eq_some_iff.1 stRead
  simp only [Prod.mk.injEq] at hc
  obtain ⟨h1, hg, hd, hw⟩ := hc
  have hp : ∀ pairs ∈ stPairs, Exchanging pairs := by
    intro pairs hp
    simp only [stPairs, List.mem_cons, List.not_mem_nil, or_false] at hp
    rcases hp with rfl | rfl
    · exact stExchanging (by decide) (by unfold Ordinary; decide) (by unfold Ordinary; decide)
    · exact stExchanging (by decide) (by unfold Ordinary; decide) (by unfold Ordinary; decide)
  have hst : StagesOf config.contexts (stPairs.map (fun pairs => [replaceContext pairs])) := by
    refine ⟨?_, h1.symm⟩
    intro st hst
    obtain ⟨p, -, rfl⟩ := List.mem_map.1 hst
    simp
  have hcs : ∃ c1 c2, config.contexts = [c1, c2] ∧ contextOf c1 = replaceContext [(Key.KeyA, Key.KeyB), (Key.KeyB, Key.KeyA)] ∧
      contextOf c2 = replaceContext [(Key.KeyB, Key.KeyC), (Key.KeyC, Key.KeyB)] := by
    simp only [stPairs, List.map_cons, List.map_nil, List.flatMap_cons, List.flatMap_nil, markFirst, List.cons_append, List.nil_append] at h1
    generalize config.contexts = cs at h1 ⊢
    rcases cs with - | ⟨c1, - | ⟨c2, - | ⟨c3, l⟩⟩⟩
    · cases h1
    · simp [markBegin] at h1
    · simp only [markBegin, List.map_cons, List.map_nil, List.cons.injEq, Prod.mk.injEq] at h1
      exact ⟨c1, c2, rfl, h1.1.2, h1.2.1.2⟩
    · simp [markBegin] at h1
  obtain ⟨c1, c2, hcs, hc1, hc2⟩ := hcs
  have hfl : ∀ bytes : Bytes, (bytes.map (fun b => [b])).flatten = bytes := by
    intro bytes
    induction bytes with
    | nil => rfl
    | cons b l ih => simp only [List.map_cons, List.flatten_cons, ih]; rfl
  refine (C95_exchange stEnv stFiles ['c'] none (by decide) (by decide) hr ?_ ?_ (pairss := stPairs) (by decide) hst hp hw (hfl _) rx _ _ stTyped
    ?_ (by decide) ?_ ?_).trans ?_
  · refine ⟨?_, ?_, ?_⟩
    · rw [hg]; exact ⟨by decide, by intro f hf; cases hf⟩
    · rw [hcs]
      refine ⟨by simp, ?_⟩
      intro c hc
      simp only [List.mem_cons, List.not_mem_nil, or_false] at hc
      rcases hc with rfl | rfl
      · exact fits_pair hc1 (by decide) (hp _ (by simp [stPairs])).ordinary
      · exact fits_pair hc2 (by decide) (hp _ (by simp [stPairs])).ordinary
    · rw [hd]; exact ⟨by decide, by intro f hf; cases hf⟩
  · simp only [ToServer.body, hg, hd, hcs, wrList, wrType, wrU32, List.length_append, leBytes_length, List.flatMap_nil, List.length_nil,
      List.flatMap_cons, length_pair hc1, length_pair hc2]
    decide
  · intro it hit
    simp only [stTyped, List.mem_cons, List.not_mem_nil, or_false] at hit
    rcases hit with rfl | rfl | rfl | rfl | rfl
    all_goals
      refine ⟨⟨?_, rfl, .inl rfl, (by intro m hm; cases hm), rfl⟩, rfl⟩
      intro ev dev h
      first
        | (injection h with h1 h2; subst h1; unfold Ordinary; decide)
        | cases h
  · simp only [stTyped, keysRead, List.filterMap_cons, List.filterMap_nil, List.map_cons, List.map_nil, pressedAndReleased]
    decide
  · rintro before last after h ⟨a, b, c, rfl⟩
    have h2 : (Key.Escape, KeyState.Down) ∈ strokes ((keysRead stTyped).map (fun p => .input p.1 p.2)) := by
      rw [h]; simp
    exact absurd h2 (by decide)
  · decide +kernel

private def stLines : List Str := ["A >> B".toList, "B >> A".toList, [], " [ stage]".toList, "B >> C".toList, "C>>B".toList]
private def stFile : FileSys :=
  { mtime := fun _ => 1, content := fun f => if f = ['c'] then some (joinLines stLines) else none, resolve := fun _ f => f, noName := rfl }

private theorem st_names {n : Str} {k : Key} (h : (!n.isEmpty && n.all isIdentChar) = true ∧ keyOf n = k ∧ k ≠ Key.none ∧ beginsWithDelay n = false) :
    Names keyOf n k := by
  have h1 := h.1
  rw [Bool.and_eq_true] at h1
  exact ⟨by simpa using h1.1, by simpa using h1.2, h.2.1, h.2.2.1, h.2.2.2⟩

private theorem stSections : SectionLines stPairs stLines := by
  have hsp : Spaces ([] : Str) := by intro c h; cases h
  have hsp1 : Spaces [' '] := by intro c h; rw [List.mem_singleton.1 h]; decide
  have hline : ∀ {a b : Char} {x y : Key} (sp : Str), Spaces sp → (!([a] : Str).isEmpty && [a].all isIdentChar) = true ∧ keyOf [a] = x ∧ x ≠ Key.none ∧ beginsWithDelay [a] = false →
      (!([b] : Str).isEmpty && [b].all isIdentChar) = true ∧ keyOf [b] = y ∧ y ≠ Key.none ∧ beginsWithDelay [b] = false → startsWithLowerCase [a] = false →
      ReplaceLine [(x, y)] ([] ++ (([a] ++ sp) ++ '>' :: '>' :: (sp ++ [b] ++ []))) := by
    intro a b x y sp hs h1 h2 h3
    exact .pair hsp hs hs hsp (st_names h1) (st_names h2) h3
  exact .cons (line := " [ stage]".toList)
    (.cons (p := [(Key.KeyA, Key.KeyB)]) (hline [' '] hsp1 (by decide +kernel) (by decide +kernel) (by decide)) (by decide)
      (.cons (p := [(Key.KeyB, Key.KeyA)]) (hline [' '] hsp1 (by decide +kernel) (by decide +kernel) (by decide)) (by decide)
      (.cons (p := []) (.blank hsp) (by decide) .nil)))
    (.line (sp0 := [' ']) (sp := [' ']) (sp' := []) (sp1 := []) hsp1 hsp1 hsp hsp) (by decide)
    (.last (.cons (p := [(Key.KeyB, Key.KeyC)]) (hline [' '] hsp1 (by decide +kernel) (by decide +kernel) (by decide)) (by decide)
      (.cons (p := [(Key.KeyC, Key.KeyB)]) (hline [] hsp (by decide +kernel) (by decide +kernel) (by decide)) (by decide) .nil)))

/-- the same from the lines of the file, for any client and focused window -/
example (env : ClientEnv) (upd : Option Window) (rx : Regex) : stFile.content ['c'] = some "A >> B\nB >> A\n\n [ stage]\nB >> C\nC>>B".toList ∧
    (({} : Srv).connection rx (receivedMessages (fun _ => false)
        [sentBytes ((Client.start env stFile ['c']).run env [.connect upd]).out]) [{ name := ['k'], id := [] }] stTyped).out =
      [.sendKey ⟨Key.KeyC, .Down, 0⟩, .sendKey ⟨Key.KeyA, .Down, 0⟩, .sendKey ⟨Key.KeyC, .Up, 0⟩, .sendKey ⟨Key.KeyB, .Down, 0⟩] := by
  refine ⟨by decide +kernel, ?_⟩
  refine (C95_file env stFile ['c'] upd (pairss := stPairs) (by decide) (by decide +kernel) (by decide) (.inl ⟨rfl, fun c h => ?_⟩) (by decide) stSections ?_
    (by decide) (by simp) rx _ _ stTyped ?_ (by decide) ?_ ?_).trans ?_
  · have h1 : some c = some 'A' := h.symm.trans (by decide +kernel)
    rw [Option.some.inj h1]; decide
  · intro pairs hp
    simp only [stPairs, List.mem_cons, List.not_mem_nil, or_false] at hp
    rcases hp with rfl | rfl
    · exact stExchanging (by decide) (by unfold Ordinary; decide) (by unfold Ordinary; decide)
    · exact stExchanging (by decide) (by unfold Ordinary; decide) (by unfold Ordinary; decide)
  · intro it hit
    simp only [stTyped, List.mem_cons, List.not_mem_nil, or_false] at hit
    rcases hit with rfl | rfl | rfl | rfl | rfl
    all_goals
      refine ⟨⟨?_, rfl, .inl rfl, (by intro m hm; cases hm), rfl⟩, rfl⟩
      intro ev dev h
      first
        | (injection h with h1 h2; subst h1; unfold Ordinary; decide)
        | cases h
  · simp only [stTyped, keysRead, List.filterMap_cons, List.filterMap_nil, List.map_cons, List.map_nil, pressedAndReleased]
    decide
  · rintro before last after h ⟨a, b, c, rfl⟩
    have h2 : (Key.Escape, KeyState.Down) ∈ strokes ((keysRead stTyped).map (fun p => .input p.1 p.2)) := by
      rw [h]; simp
    exact absurd h2 (by decide)
  · decide +kernel

end KM
