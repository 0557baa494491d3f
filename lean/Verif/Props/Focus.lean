import Verif.Spec.Focus
import Verif.Props.Stages
import Verif.Lemmas.ClientRun
/-!
# C96: the mappings follow the focused window, from the client to the virtual device
-/
namespace KM

/-- the client knows of the focus and told the server about it -/
structure FollowsFocus (config : Config) (rx : Regex) (f : KnownFocus) (c : Client) : Prop where
  connected : c.isConnected = true
  file : c.file.config = config
  active : c.active = f.on
  window : c.window = f.window
  contexts : c.activeContexts = f.contexts rx config

theorem refresh_contexts (rx : Regex) (c : Client) : (c.refreshContexts rx).1 = { c with activeContexts := matchingContexts rx c.file.config c.window } ∧
    ((c.refreshContexts rx).2 = true ↔ matchingContexts rx c.file.config c.window ≠ c.activeContexts) := by
  unfold Client.refreshContexts
  simp only []
  split
  · next h => exact ⟨rfl, by simp [h]⟩
  · next h =>
    have h := Classical.not_not.1 h
    exact ⟨by rw [h], by simp [h]⟩

theorem FollowsFocus.step {config : Config} {env : ClientEnv} {f : KnownFocus} {c : Client} (h : FollowsFocus config env.rx f c) (op : FocusOp) :
    FollowsFocus config env.rx (f.step op) (c.step env op.toClient) ∧
      (c.step env op.toClient).out = c.out ++ (focusMessages env.rx config f [op]).map (fun l => .server (.activeContexts (l.map Int.ofNat))) := by
  obtain ⟨h1, h2, h3, h4, h5⟩ := h
  obtain ⟨w, on⟩ := f
  obtain ⟨cfile, crecent, ccontrol, cwindow, cactive, con, cconn, cout⟩ := c
  simp only at h1 h2 h3 h4 h5
  subst h1; subst h2; subst h3; subst h4
  cases op with
  | look w' =>
    cases con with
    | false =>
      refine ⟨⟨rfl, rfl, rfl, rfl, ?_⟩, ?_⟩
      · exact h5
      · simp [FocusOp.toClient, Client.step, Client.updateActiveContexts, focusMessages, KnownFocus.step]
    | true =>
      simp only [KnownFocus.contexts, if_true] at h5
      subst h5
      cases w' with
      | none =>
        have hsame : (Client.mk cfile crecent ccontrol cwindow (matchingContexts env.rx cfile.config cwindow) true true cout).updateActiveContexts env.rx none =
            (Client.mk cfile crecent ccontrol cwindow (matchingContexts env.rx cfile.config cwindow) true true cout, false) := by
          simp [Client.updateActiveContexts, Client.refreshContexts]
        simp only [FocusOp.toClient, Client.step, hsame]
        refine ⟨⟨rfl, rfl, rfl, rfl, rfl⟩, ?_⟩
        simp [focusMessages, KnownFocus.step]
      | some w =>
        simp only [FocusOp.toClient, Client.step, Client.updateActiveContexts, Bool.not_true, Bool.false_eq_true, if_false]
        obtain ⟨r1, r2⟩ := refresh_contexts env.rx (Client.mk cfile crecent ccontrol w (matchingContexts env.rx cfile.config cwindow) true true cout)
        rw [r1]
        simp only at r2 ⊢
        by_cases hw : matchingContexts env.rx cfile.config w = matchingContexts env.rx cfile.config cwindow
        · rw [if_neg (by rw [r2]; exact fun h => h hw)]
          refine ⟨⟨rfl, rfl, rfl, rfl, rfl⟩, ?_⟩
          simp [focusMessages, KnownFocus.step, KnownFocus.contexts, hw]
        · rw [if_pos (by rw [r2]; exact hw)]
          refine ⟨⟨rfl, rfl, rfl, rfl, rfl⟩, ?_⟩
          simp [focusMessages, KnownFocus.step, KnownFocus.contexts, hw, Client.sendActiveContexts, Client.send]
  | pause w' =>
    cases con with
    | true =>
      refine ⟨⟨rfl, rfl, rfl, rfl, rfl⟩, ?_⟩
      simp [FocusOp.toClient, Client.step, Client.toggleActive, focusMessages, KnownFocus.step, KnownFocus.contexts, Client.sendActiveContexts, Client.send]
    | false =>
      have h5 : cactive = [] := h5
      subst h5
      cases w' with
      | none =>
        simp only [FocusOp.toClient, Client.step, Client.toggleActive, Client.updateActiveContexts, Bool.not_true, Bool.false_eq_true, if_false, List.isEmpty_nil]
        rw [(refresh_contexts env.rx _).1]
        refine ⟨⟨rfl, rfl, rfl, rfl, rfl⟩, ?_⟩
        simp [focusMessages, KnownFocus.step, KnownFocus.contexts, Client.sendActiveContexts, Client.send]
      | some w =>
        simp only [FocusOp.toClient, Client.step, Client.toggleActive, Client.updateActiveContexts, Bool.not_true, Bool.false_eq_true, if_false]
        rw [(refresh_contexts env.rx _).1]
        refine ⟨⟨rfl, rfl, rfl, rfl, rfl⟩, ?_⟩
        simp [focusMessages, KnownFocus.step, KnownFocus.contexts, Client.sendActiveContexts, Client.send]

theorem focusMessages_cons (rx : Regex) (config : Config) (f : KnownFocus) (op : FocusOp) (ops : List FocusOp) :
    focusMessages rx config f (op :: ops) = focusMessages rx config f [op] ++ focusMessages rx config (f.step op) ops := by
  cases op with
  | look w =>
    simp only [focusMessages]
    split
    · rfl
    · rfl
  | pause w => rfl

theorem FollowsFocus.run {config : Config} {env : ClientEnv} (ops : List FocusOp) : ∀ {f : KnownFocus} {c : Client}, FollowsFocus config env.rx f c →
    (c.run env (ops.map FocusOp.toClient)).out =
      c.out ++ (focusMessages env.rx config f ops).map (fun l => .server (.activeContexts (l.map Int.ofNat))) := by
  induction ops with
  | nil => intro f c _; exact (List.append_nil _).symm
  | cons op ops ih =>
    intro f c h
    obtain ⟨h1, h2⟩ := h.step op
    rw [focusMessages_cons, List.map_append, ← List.append_assoc, ← h2]
    exact ih h1

/-- after it connected the client knows of the focus -/
theorem connect_follows {env : ClientEnv} {c : Client} (ha : c.active = true) (ho : c.out = []) (hw : c.window = {}) (upd : Option Window) :
    FollowsFocus c.file.config env.rx { window := upd.getD {} } (c.run env [.connect upd]) ∧
    (c.run env [.connect upd]).out = [.connected, .server (.config c.file.config),
      .server (.activeContexts ((matchingContexts env.rx c.file.config (upd.getD {})).map Int.ofNat))] := by
  simp only [Client.run, List.foldl_cons, List.foldl_nil, Client.step, Client.sendConfig, if_true, Client.send, Client.configSent, ha,
      Client.updateActiveContexts, Bool.not_true, Bool.false_eq_true, if_false, ho, List.isEmpty_nil]
  cases upd with
  | some w =>
    simp only [(refresh_contexts env.rx _).1, Client.sendActiveContexts, Client.send]
    exact ⟨⟨rfl, rfl, rfl, rfl, rfl⟩, rfl⟩
  | none =>
    simp only [(refresh_contexts env.rx _).1, Client.sendActiveContexts, Client.send]
    exact ⟨⟨rfl, rfl, rfl, hw, by rw [hw]; rfl⟩, by rw [hw]; rfl⟩

theorem focusMessages_matching (rx : Regex) (config : Config) (ops : List FocusOp) : ∀ (f : KnownFocus), ∀ l ∈ focusMessages rx config f ops,
    ∃ f' : KnownFocus, l = f'.contexts rx config := by
  induction ops with
  | nil => intro f l h; cases h
  | cons op ops ih =>
    intro f l h
    rw [focusMessages_cons] at h
    rcases List.mem_append.1 h with h | h
    · refine ⟨f.step op, ?_⟩
      cases op with
      | look w =>
        simp only [focusMessages] at h
        split at h
        · cases h
        · exact List.mem_singleton.1 h
      | pause w => exact List.mem_singleton.1 h
    · exact ih _ l h

theorem contexts_fit (rx : Regex) {config : Config} (hsize : (ToServer.config config).body.length < 2 ^ 32) (f : KnownFocus) :
    (ToServer.activeContexts ((f.contexts rx config).map Int.ofNat)).FitsMsg ∧
      (ToServer.activeContexts ((f.contexts rx config).map Int.ofNat)).body.length < 2 ^ 32 := by
  have hlt := Nat.lt_of_le_of_lt config_length hsize
  have hsub : f.contexts rx config = [] ∨ f.contexts rx config = matchingContexts rx config f.window := by
    unfold KnownFocus.contexts
    split
    · exact .inr rfl
    · exact .inl rfl
  have hml : (f.contexts rx config).length ≤ config.contexts.length := by
    rcases hsub with h | h
    · rw [h]; exact Nat.zero_le _
    · rw [h]; unfold matchingContexts
      exact Nat.le_trans (List.length_filter_le _ _) (by simp)
  refine ⟨⟨by rw [List.length_map]; omega, ?_⟩, ?_⟩
  · intro i hi
    obtain ⟨j, hj, rfl⟩ := List.mem_map.1 hi
    rcases hsub with h | h
    · rw [h] at hj; cases hj
    rw [h] at hj
    unfold matchingContexts at hj
    have := (List.mem_filter.1 hj).1
    rw [List.mem_range] at this
    constructor <;> simp only [Int.ofNat_eq_natCast] <;> omega
  · simp only [ToServer.body, wrList, wrType, wrU32, List.length_append, leBytes_length]
    rw [length_flatMap_const (k := 4) _ (by intro a _; simp [wrI32, leBytes_length]), List.length_map]
    omega

theorem allMean_contexts (isDown : Key → Bool) (ls : List (List Int)) : ∀ rs, AllMean (ls.map .activeContexts) rs →
    rs.filterMap (FromClient.toMsg isDown) = ls.map .activeContexts := by
  induction ls with
  | nil => intro rs h; cases rs with
    | nil => rfl
    | cons r rs => cases h
  | cons l ls ih => intro rs h; cases rs with
    | nil => cases h
    | cons r rs =>
      obtain ⟨h1, h2⟩ := h
      rw [show r = _ from h1, List.filterMap_cons, List.map_cons, ← ih rs h2]
      rfl

/-- what the server receives while the focus changes -/
theorem received_focus (env : ClientEnv) (fs : FileSys) (filename : Str) (upd : Option Window) (focus : List FocusOp) {config : Config} (hn : filename ≠ [])
    (ht : fs.mtime filename ≠ -1) (hr : readConfigFile env fs filename = some config) (hfit : FitsConfig config)
    (hsize : (ToServer.config config).body.length < 2 ^ 32) {stages : List (List Context)} (hst : StagesOf config.contexts stages) {chunks : List Bytes}
    (hchunks : chunks.flatten = sentBytes ((Client.start env fs filename).run env (.connect upd :: focus.map FocusOp.toClient)).out) (isDown : Key → Bool) :
    receivedMessages isDown chunks = .configuration (stages.map Cfg.make) ::
      (matchingContexts env.rx config (upd.getD {}) :: focusMessages env.rx config { window := upd.getD {} } focus).map
        (fun l => .activeContexts (l.map Int.ofNat)) := by
  obtain ⟨h1, h2, h3, h4⟩ := start_config hn ht hr
  obtain ⟨hf, hout⟩ := connect_follows (env := env) h2 h3 h4 upd
  rw [h1] at hf hout
  have hrun : (Client.start env fs filename).run env (.connect upd :: focus.map FocusOp.toClient) =
      ((Client.start env fs filename).run env [.connect upd]).run env (focus.map FocusOp.toClient) := rfl
  rw [hrun, hf.run focus, hout] at hchunks
  obtain ⟨ls, hls⟩ : ∃ ls, ls = (matchingContexts env.rx config (upd.getD {}) :: focusMessages env.rx config { window := upd.getD {} } focus) := ⟨_, rfl⟩
  have hbytes : chunks.flatten = (ToServer.config config :: (ls.map (fun l => l.map Int.ofNat)).map .activeContexts).flatMap (fun m => frame m.body) := by
    rw [hchunks, hls]
    simp [sentBytes, List.flatMap_map]
  have hall : ∀ l ∈ ls, ∃ f : KnownFocus, l = f.contexts env.rx config := by
    intro l hl
    rw [hls] at hl
    rcases List.mem_cons.1 hl with rfl | hl
    · exact ⟨{ window := upd.getD {} }, rfl⟩
    · exact focusMessages_matching _ _ _ _ l hl
  obtain ⟨rs, h5, h6⟩ := C30_conversation (by
      intro m hm
      rcases List.mem_cons.1 hm with rfl | hm
      · exact ⟨hfit, hsize⟩
      · obtain ⟨l', hl', rfl⟩ := List.mem_map.1 hm
        obtain ⟨l, hl, rfl⟩ := List.mem_map.1 hl'
        obtain ⟨f, rfl⟩ := hall l hl
        exact contexts_fit env.rx hsize f) hbytes
  unfold receivedMessages
  rw [h6]
  match rs, h5 with
  | r :: rs, ⟨⟨stages', hst', e1⟩, h7⟩ =>
    have := C29_stages_determined hst' hst
    subst this
    rw [e1, ← hls]
    simp only [List.filterMap_cons]
    rw [allMean_contexts isDown _ rs h7, List.map_map]
    rfl

theorem activated_messages (ls : List (List Nat)) :
    (((ls.map (fun l => Msg.activeContexts (l.map Int.ofNat))).flatMap Msg.stagesOps).filterMap StagesOp.activated) = ls.map (fun l => l.map Int.ofNat) := by
  induction ls with
  | nil => rfl
  | cons l ls ih =>
    rw [List.map_cons, List.flatMap_cons, List.filterMap_append, ih]
    rfl

theorem activated_its (its : List Iteration) (h : ∀ it ∈ its, it.read = .other → it.messages = []) :
    (its.flatMap Iteration.stagesOps).filterMap StagesOp.activated =
      ((its.flatMap (fun it => it.messages)).flatMap Msg.stagesOps).filterMap StagesOp.activated := by
  induction its with
  | nil => rfl
  | cons it its ih =>
    rw [List.flatMap_cons, List.flatMap_cons, List.flatMap_append, List.filterMap_append, List.filterMap_append, ih (fun x hx => h x (List.mem_cons_of_mem _ hx))]
    congr 1
    unfold Iteration.stagesOps
    cases hr : it.read with
    | other => rw [h it (List.mem_cons_self ..) hr]; rfl
    | nothing => rfl
    | key ev dev => rfl

theorem typed_messages (ms : List Msg) : (ms.flatMap Msg.stagesOps).filterMap StagesOp.typed = [] := by
  induction ms with
  | nil => rfl
  | cons m ms ih =>
    rw [List.flatMap_cons, List.filterMap_append, ih, List.append_nil]
    cases m <;> rfl

theorem typed_its (its : List Iteration) (hi : ∀ it ∈ its, it.Ordinary true) : (its.flatMap Iteration.stagesOps).filterMap StagesOp.typed = keysRead its := by
  rw [← stagesOps_keys its hi]
  congr 1

/-- **C96 (following the focus).** The client has read a configuration, connects, looks which window is focused again and again, and is paused and resumed at
any times. What it sends arrives in whatever pieces: some of it (`first`, at least the configuration) before the server starts to read keys, the rest while it does.
Then the server outputs on the virtual device exactly what the stages output, when they are input all keys which are typed, in order, and when in between
exactly the contexts are activated one after the other, which match the windows focused one after the other (and none while the client is paused). -/
theorem C96_follow (env : ClientEnv) (fs : FileSys) (filename : Str) (upd : Option Window) (focus : List FocusOp) {config : Config} (hn : filename ≠ [])
    (ht : fs.mtime filename ≠ -1) (hr : readConfigFile env fs filename = some config) (hfit : FitsConfig config)
    (hsize : (ToServer.config config).body.length < 2 ^ 32) {stages : List (List Context)} (hst : StagesOf config.contexts stages) (hne : stages ≠ [])
    (hdev : ∀ st ∈ stages, ∀ ctx ∈ st, ctx.hasDeviceFilter = false) {chunks : List Bytes}
    (hchunks : chunks.flatten = sentBytes ((Client.start env fs filename).run env (.connect upd :: focus.map FocusOp.toClient)).out)
    (rx : Regex) (isDown : Key → Bool) (ds : List DeviceDesc) {first : List Msg} (hfirst : first ≠ []) (its : List Iteration)
    (harrive : first ++ its.flatMap (fun it => it.messages) = receivedMessages isDown chunks)
    (hi : ∀ it ∈ its, it.Ordinary true ∧ (it.read = .other → it.messages = []))
    {ops : List StagesOp} (hops : ops = first.flatMap Msg.stagesOps ++ its.flatMap Iteration.stagesOps)
    (hout : OnlyKeys (stagesRun (stages.map stageInit) ops).2) (hexit : NoExit ((keysRead its).map (fun p => .input p.1 p.2))) :
    (({} : Srv).connection rx first ds its).out = (lastOutputs (stagesRun (stages.map stageInit) ops).2).map Eff.sendKey ∧
    ops.filterMap StagesOp.typed = keysRead its ∧
    ops.filterMap StagesOp.activated =
      (matchingContexts env.rx config (upd.getD {}) :: focusMessages env.rx config { window := upd.getD {} } focus).map (fun l => l.map Int.ofNat) := by
  have hrec := received_focus env fs filename upd focus hn ht hr hfit hsize hst hchunks isDown
  rw [hrec] at harrive
  obtain ⟨ls, hls⟩ : ∃ ls, ls = (matchingContexts env.rx config (upd.getD {}) :: focusMessages env.rx config { window := upd.getD {} } focus) := ⟨_, rfl⟩
  rw [← hls] at harrive ⊢
  have hord : ∀ it ∈ its, it.Ordinary true := fun it h => (hi it h).1
  cases first with
  | nil => exact absurd rfl hfirst
  | cons m ms =>
    rw [List.cons_append] at harrive
    injection harrive with hm hrest
    subst hm
    have hops' : ops = ms.flatMap Msg.stagesOps ++ its.flatMap Iteration.stagesOps := hops
    have htyped : ops.filterMap StagesOp.typed = keysRead its := by
      rw [hops', List.filterMap_append, typed_messages, List.nil_append, typed_its its hord]
    refine ⟨?_, htyped, ?_⟩
    · have hms : ∀ m ∈ ms, ∃ l, m = .activeContexts l := by
        intro m hm
        have : m ∈ ms ++ its.flatMap (fun it => it.messages) := List.mem_append_left _ hm
        rw [hrest] at this
        obtain ⟨l, _, rfl⟩ := List.mem_map.1 this
        exact ⟨_, rfl⟩
      have hx : StaysIn (stages.map stageInit) ops := by
        intro ops' hp
        cases stages with
        | nil => exact absurd rfl hne
        | cons ctxs rest =>
          rw [List.map_cons, stagesRun_first]
          have hs := first_strokes (stageInit ctxs).1.contexts.length ops (keysRead its) (by
            rw [← htyped]; congr 1)
          have hno : NoExit (ops.map (StagesOp.first (stageInit ctxs).1.contexts.length)) := by
            intro a b c h
            rw [hs] at h
            exact hexit a b c h
          obtain ⟨t, rfl⟩ := hp
          exact hno.run ctxs (by rw [List.map_append]; exact List.prefix_append _ _)
      rw [hops'] at hout hx ⊢
      exact connection_stages rx hne hdev ms hms ds its hord hout hx
    · rw [hops', List.filterMap_append, activated_its its (fun it h => (hi it h).2), ← List.filterMap_append, ← List.flatMap_append, hrest, activated_messages]

theorem focus_last (rx : Regex) (config : Config) (focus : List FocusOp) : ∀ f : KnownFocus,
    (f.contexts rx config :: focusMessages rx config f focus).getLast (by simp) = (focus.foldl KnownFocus.step f).contexts rx config := by
  induction focus with
  | nil => intro f; rfl
  | cons op ops ih =>
    intro f
    rw [List.foldl_cons, ← ih (f.step op)]
    cases op with
    | pause w => rfl
    | look w =>
      simp only [focusMessages]
      split
      · next h => simp only [h]
      · rfl

/-- **C96 (what is active last).** Once everything the client sent has arrived, exactly the contexts are active whose filters match the window which is focused last, or none
when the client is paused. -/
theorem C96_last (rx : Regex) (config : Config) (focus : List FocusOp) (f : KnownFocus) :
    ((focus.foldl KnownFocus.step f).on = true → AreMatching rx config (focus.foldl KnownFocus.step f).window
      (((f.contexts rx config :: focusMessages rx config f focus).getLast (by simp)).map Int.ofNat)) ∧
    ((focus.foldl KnownFocus.step f).on = false → (f.contexts rx config :: focusMessages rx config f focus).getLast (by simp) = []) := by
  rw [focus_last]
  unfold KnownFocus.contexts
  refine ⟨fun h => ?_, fun h => ?_⟩
  · rw [if_pos h]
    exact areMatching_matchingContexts _ _ _
  · rw [if_neg (by rw [h]; exact Bool.false_ne_true)]

/-! ### a configuration of a single stage which replaces keys -/

theorem stagesRun_single (ops : List StagesOp) : ∀ st : Cfg × S,
    (stagesRun [st] ops).2.map (fun os => os.flatten) = (stagesRun [st] ops).2.map (fun os => os.getLastD []) ∧
    lastOutputs (stagesRun [st] ops).2 = (stageRun st (ops.map (StagesOp.first st.1.contexts.length))).2 := by
  induction ops with
  | nil => intro st; exact ⟨rfl, rfl⟩
  | cons op ops ih =>
    intro st
    obtain ⟨o, ho, hs⟩ : ∃ o, stagesStep [st] op = ([(stageStep st (op.first st.1.contexts.length)).1], [o]) ∧
        o = (stageStep st (op.first st.1.contexts.length)).2 := by
      cases op with
      | input ev dev => exact ⟨_, rfl, by simp [stageRun, StagesOp.first]⟩
      | contexts l => exact ⟨_, rfl, by simp [stageRun, StagesOp.first]⟩
    have hc : (stageStep st (op.first st.1.contexts.length)).1.1.contexts.length = st.1.contexts.length := by
      cases op <;> rfl
    obtain ⟨i1, i2⟩ := ih (stageStep st (op.first st.1.contexts.length)).1
    rw [hc] at i2
    rw [stagesRun]
    simp only [ho]
    refine ⟨?_, ?_⟩
    · rw [List.map_cons, List.map_cons, i1]; simp
    · rw [List.map_cons, stageRun, lastOutputs, List.flatMap_cons, hs]
      simp only []
      rw [← i2]; rfl

theorem own_all (l : List Int) (n : Nat) : (∀ i ∈ ownContexts l 0 n, i < n) := by
  intro i hi
  unfold ownContexts at hi
  obtain ⟨j, hj, rfl⟩ := List.mem_map.1 hi
  have := (List.mem_filter.1 hj).2
  simp only [Bool.and_eq_true, decide_eq_true_eq] at this
  omega

theorem own_sorted {l : List Int} (h : l.Pairwise (· ≤ ·)) (n : Nat) : (ownContexts l 0 n).Pairwise (· ≤ ·) := by
  unfold ownContexts
  rw [List.pairwise_map]
  exact (h.sublist List.filter_sublist).imp (by intro a b hab; omega)

theorem focus_sorted (rx : Regex) (config : Config) (f : KnownFocus) : ((f.contexts rx config).map Int.ofNat).Pairwise (· ≤ ·) := by
  rw [List.pairwise_map]
  have h : (f.contexts rx config).Pairwise (· < ·) := by
    unfold KnownFocus.contexts
    split
    · unfold matchingContexts
      exact List.pairwise_lt_range.sublist List.filter_sublist
    · exact .nil
  exact h.imp (by intro a b hab; simp only [Int.ofNat_eq_natCast]; omega)

/-- **C96 (replacing keys depending on the window).** When the contexts of the configuration (of a single stage) only replace keys, then on the virtual device appears
exactly what is specified for a `Remapper` (as in C70): which contexts it has active when a key is pressed follows the windows focused one after the other. -/
theorem C96_replace (env : ClientEnv) (fs : FileSys) (filename : Str) (upd : Option Window) (focus : List FocusOp) {config : Config} (hn : filename ≠ [])
    (ht : fs.mtime filename ≠ -1) (hr : readConfigFile env fs filename = some config) (hfit : FitsConfig config)
    (hsize : (ToServer.config config).body.length < 2 ^ 32) {contexts : List Context} (hst : StagesOf config.contexts [contexts])
    (hdev : ∀ ctx ∈ contexts, ctx.hasDeviceFilter = false ∧ ctx.OnlyReplaces) (hu : CommandsUnique contexts) (hs : LastStops contexts) {chunks : List Bytes}
    (hchunks : chunks.flatten = sentBytes ((Client.start env fs filename).run env (.connect upd :: focus.map FocusOp.toClient)).out)
    (rx : Regex) (isDown : Key → Bool) (ds : List DeviceDesc) {first : List Msg} (hfirst : first ≠ []) (its : List Iteration)
    (harrive : first ++ its.flatMap (fun it => it.messages) = receivedMessages isDown chunks)
    (hi : ∀ it ∈ its, it.Ordinary true ∧ (it.read = .other → it.messages = []))
    (hev : ∀ p ∈ keysRead its, (p.1.state = .Down ∨ p.1.state = .Up) ∧ -2 ≤ p.2 ∧ p.2 < 64)
    {ops : List StageOp} (hops : ops = (first.flatMap Msg.stagesOps ++ its.flatMap Iteration.stagesOps).map (StagesOp.first contexts.length))
    (hout : ∀ e ∈ (Remapper.run { contexts := contexts } ops).2, Sendable e) (hexit : NoExit ((keysRead its).map (fun p => .input p.1 p.2))) :
    (({} : Srv).connection rx first ds its).out = (Remapper.run { contexts := contexts } ops).2.map Eff.sendKey := by
  obtain ⟨sops, hsops⟩ : ∃ sops, sops = first.flatMap Msg.stagesOps ++ its.flatMap Iteration.stagesOps := ⟨_, rfl⟩
  have hlen : (stageInit contexts).1.contexts.length = contexts.length := by
    show (contexts.map _).length = _
    exact List.length_map _
  have hord : ∀ it ∈ its, it.Ordinary true := fun it h => (hi it h).1
  have hkeys : ∀ p ∈ keysRead its, Ordinary p.1.key := by
    intro p hp
    obtain ⟨it, hit, e⟩ := List.mem_filterMap.1 hp
    cases hread : it.read with
    | key ev dev =>
      rw [hread] at e
      injection e with e
      rw [← e]
      exact (hord it hit).read ev dev hread
    | other => rw [hread] at e; cases e
    | nothing => rw [hread] at e; cases e
  have hmsgs : ∀ l, Msg.activeContexts l ∈ first ++ its.flatMap (fun it => it.messages) → l.Pairwise (· ≤ ·) := by
    intro l hl
    rw [harrive, received_focus env fs filename upd focus hn ht hr hfit hsize hst hchunks isDown] at hl
    rcases List.mem_cons.1 hl with hl | hl
    · cases hl
    · obtain ⟨l', hl', e⟩ := List.mem_map.1 hl
      injection e with e
      rw [← e]
      rcases List.mem_cons.1 hl' with rfl | hl'
      · exact focus_sorted env.rx config { window := upd.getD {} }
      · obtain ⟨f, rfl⟩ := focusMessages_matching _ _ _ _ _ hl'
        exact focus_sorted env.rx config f
  have hmem : ∀ l (ms : List Msg), StagesOp.contexts l ∈ ms.flatMap Msg.stagesOps → Msg.activeContexts l ∈ ms := by
    intro l ms h
    obtain ⟨m, hm, h⟩ := List.mem_flatMap.1 h
    cases m <;> simp only [Msg.stagesOps, List.mem_singleton, List.not_mem_nil] at h
    injection h with h
    rw [h]; exact hm
  have hremap : ∀ op ∈ ops, op.isRemap contexts.length := by
    intro op hop
    rw [hops] at hop
    obtain ⟨sop, hsop, rfl⟩ := List.mem_map.1 hop
    cases sop with
    | input ev dev =>
      have hk : (ev, dev) ∈ keysRead its := by
        rw [← typed_its its hord, List.mem_filterMap]
        rcases List.mem_append.1 hsop with h | h
        · obtain ⟨m, hm, h⟩ := List.mem_flatMap.1 h
          cases m <;> simp [Msg.stagesOps] at h
        · exact ⟨_, h, rfl⟩
      obtain ⟨h1, h2⟩ := hev _ hk
      refine ⟨h1, ?_, h2⟩
      refine ⟨?_, ?_, ?_, ?_⟩ <;> (intro he; have hb := (hkeys _ hk).1; rw [he] at hb; exact absurd hb (by decide))
    | contexts l =>
      refine ⟨own_sorted (hmsgs l ?_) _, own_all l _⟩
      rcases List.mem_append.1 hsop with h | h
      · exact List.mem_append_left _ (hmem l _ h)
      · refine List.mem_append_right _ ?_
        obtain ⟨it, hit, h⟩ := List.mem_flatMap.1 h
        refine List.mem_flatMap.2 ⟨it, hit, ?_⟩
        unfold Iteration.stagesOps at h
        split at h
        · cases h
        · rcases List.mem_append.1 h with h | h
          · cases hread : it.read <;> simp [hread, Read.stagesOps] at h
          · exact hmem l _ h
  have href := C70_refines contexts (fun ctx h => (hdev ctx h).2) hu (.inr hs) ops hremap
  obtain ⟨h1, h2⟩ := stagesRun_single sops (stageInit contexts)
  rw [hlen, hsops, ← hops, href, ← hsops] at h2
  have honly : OnlyKeys (stagesRun ([contexts].map stageInit) sops).2 := by
    intro os hos o ho e he
    refine hout e ?_
    rw [← h2, lastOutputs, List.flatMap_def, ← h1]
    exact List.mem_flatten.2 ⟨os.flatten, List.mem_map.2 ⟨os, hos, rfl⟩, List.mem_flatten.2 ⟨o, ho, he⟩⟩
  have := (C96_follow env fs filename upd focus hn ht hr hfit hsize hst (by simp) (by
    intro st hst ctx hc
    rw [List.mem_singleton.1 hst] at hc
    exact (hdev ctx hc).1) hchunks rx isDown ds hfirst its harrive hi hsops honly hexit).1
  rw [this]
  exact congrArg _ h2

/-! ### an example: `A >> B` only in windows with a title which contains an x -/

private def foEnv : ClientEnv := ⟨genericTyper, fun _ => true, fun _ _ => false⟩
private def foFiles : FileSys :=
  { mtime := fun _ => 1, content := fun f => if f = ['c'] then some "[title=\"x\"]\nA >> B".toList else none, resolve := fun _ f => f, noName := rfl }
private def foWindow (t : Str) : Window := { title := t }
private def foPairs : List (Key × Key) := [(Key.KeyA, Key.KeyB)]
private def foFocus : List FocusOp :=
  [.look (some (foWindow ['x'])), .look none, .look (some (foWindow ['a', 'x'])), .look (some (foWindow ['y'])), .pause none, .pause (some (foWindow ['x']))]

set_option synthInstance.maxSize 1000 in
private theorem foRead : (readConfigFile foEnv foFiles ['c']).map (fun c => (markBegin c.contexts, c.grabDeviceFilters, c.serverDirectives,
    [foWindow ['y'], foWindow ['x'], foWindow ['a', 'x']].map (matchingContexts foEnv.rx c))) =
    some ([[replaceContext foPairs]].flatMap markFirst, [], [], [[], [0], [0]]) := by decide +kernel

private def foTyped : List Iteration :=
  [{ now := 1, read := .key ⟨Key.KeyA, .Down, 0⟩ 0 }, { now := 2, read := .key ⟨Key.KeyA, .Up, 0⟩ 0, messages := [.activeContexts [0]] },
    { now := 3, read := .key ⟨Key.KeyA, .Down, 0⟩ 0, messages := [.activeContexts []] }, { now := 4, read := .key ⟨Key.KeyA, .Up, 0⟩ 0 },
    { now := 5, read := .key ⟨Key.KeyA, .Down, 0⟩ 0 }, { now := 6, messages := [.activeContexts [], .activeContexts [0]] },
    { now := 7, read := .key ⟨Key.KeyA, .Up, 0⟩ 0 }, { now := 8, read := .key ⟨Key.KeyA, .Down, 0⟩ 0 }]

/-- The window y is focused, then x, then another one with an x, then y. The key which is replaced when it is pressed is also released as replaced, although then y is
focused. Then the client is paused, and resumed with x focused. -/
example (rx : Regex) : (({} : Srv).connection rx [.configuration [Cfg.make [replaceContext foPairs]], .activeContexts []] [] foTyped).out =
    [.sendKey ⟨Key.KeyA, .Down, 0⟩, .sendKey ⟨Key.KeyA, .Up, 0⟩, .sendKey ⟨Key.KeyB, .Down, 0⟩, .sendKey ⟨Key.KeyB, .Up, 0⟩,
      .sendKey ⟨Key.KeyA, .Down, 0⟩, .sendKey ⟨Key.KeyA, .Up, 0⟩, .sendKey ⟨Key.KeyB, .Down, 0⟩] := by
  obtain ⟨config, hr, hc⟩ := Option.map_eq_some_iff.1 foRead
  simp only [Prod.mk.injEq] at hc
  obtain ⟨h1, hg, hd, hw⟩ := hc
  simp only [List.map_cons, List.map_nil, List.cons.injEq, and_true] at hw
  obtain ⟨hy, hx, hax⟩ := hw
  have hst : StagesOf config.contexts [[replaceContext foPairs]] := by
    refine ⟨?_, h1.symm⟩
    intro st hst
    rw [List.mem_singleton.1 hst]; simp
  have hcs : ∃ c1, config.contexts = [c1] ∧ contextOf c1 = replaceContext foPairs := by
    simp only [List.flatMap_cons, List.flatMap_nil, markFirst, List.append_nil, List.map_nil] at h1
    generalize config.contexts = cs at h1 ⊢
    rcases cs with - | ⟨c1, - | ⟨c2, l⟩⟩
    · cases h1
    · simp only [markBegin, List.map_nil, List.cons.injEq, Prod.mk.injEq] at h1
      exact ⟨c1, rfl, h1.1.2⟩
    · simp [markBegin] at h1
  obtain ⟨c1, hcs, hc1⟩ := hcs
  have hpairs : ∀ p ∈ foPairs, Ordinary p.1 ∧ Ordinary p.2 := by
    intro p hp
    rw [List.mem_singleton.1 hp]
    exact ⟨by unfold Ordinary; decide, by unfold Ordinary; decide⟩
  have hfit : FitsConfig config := by
    refine ⟨?_, ?_, ?_⟩
    · rw [hg]; exact ⟨by decide, by intro f hf; cases hf⟩
    · rw [hcs]
      refine ⟨by simp, ?_⟩
      intro c hc
      rw [List.mem_singleton.1 hc]
      exact fits_pair hc1 (by decide) hpairs
    · rw [hd]; exact ⟨by decide, by intro f hf; cases hf⟩
  have hsize : (ToServer.config config).body.length < 2 ^ 32 := by
    simp only [ToServer.body, hg, hd, hcs, wrList, wrType, wrU32, List.length_append, leBytes_length, List.flatMap_nil, List.length_nil,
      List.flatMap_cons, length_pair hc1]
    decide
  have hfl : ∀ bytes : Bytes, [bytes].flatten = bytes := by intro bytes; simp
  refine (C96_replace foEnv foFiles ['c'] (some (foWindow ['y'])) foFocus (by decide) (by decide) hr hfit hsize hst ?_ (by unfold CommandsUnique; decide)
    ⟨_, rfl, rfl⟩ (hfl _) rx (fun _ => false) [] (by simp) foTyped ?_ ?_ (by decide) rfl ?_ ?_).trans ?_
  · intro ctx hctx
    rw [List.mem_singleton.1 hctx]
    refine ⟨rfl, ?_, ?_, (by intro o ho; cases ho)⟩
    · intro m hm
      have : m = ⟨singleKey Key.KeyA, 0⟩ := List.mem_singleton.1 hm
      rw [this]
      exact ⟨Key.KeyA, by unfold Replaceable; decide, rfl⟩
    · intro o ho
      have : o = [⟨Key.KeyB, .Down, 0⟩] := List.mem_singleton.1 ho
      rw [this]
      unfold OnlyPresses; decide
  · rw [received_focus foEnv foFiles ['c'] (some (foWindow ['y'])) foFocus (by decide) (by decide) hr hfit hsize hst (hfl _)]
    simp [foFocus, focusMessages, KnownFocus.step, KnownFocus.contexts, hy, hx, hax, foTyped]
  · intro it hit
    simp only [foTyped, List.mem_cons, List.not_mem_nil, or_false] at hit
    rcases hit with rfl | rfl | rfl | rfl | rfl | rfl | rfl | rfl
    all_goals
      refine ⟨⟨?_, rfl, .inl rfl, (by intro m hm; simp at hm; try (rcases hm with rfl | rfl) <;> exact ⟨_, rfl⟩), rfl⟩, (by intro h; cases h)⟩
      intro ev dev h
      first
        | (injection h with h1 h2; subst h1; unfold Ordinary; decide)
        | cases h
  · unfold Sendable; decide +kernel
  · rintro before last after h ⟨a, b, c, rfl⟩
    have h2 : (Key.Escape, KeyState.Down) ∈ strokes ((keysRead foTyped).map (fun p => .input p.1 p.2)) := by
      rw [h]; simp
    exact absurd h2 (by decide)
  · decide +kernel

end KM
