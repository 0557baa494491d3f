import Verif.Lemmas.EndToEnd
/-!
# C75: from the configuration file to the virtual device
-/
namespace KM

/-- the keys which terminate the server are not typed -/
def NoExit (ops : List StageOp) : Prop := ∀ before last after, strokes ops = before ++ last ++ after → ¬ ExitStrokes last

theorem strokes_append (a b : List StageOp) : strokes (a ++ b) = strokes a ++ strokes b := by
  induction a with
  | nil => rfl
  | cons op a ih =>
    cases op with
    | input ev dev =>
      simp only [List.cons_append, strokes, ih]
      split <;> rfl
    | _ => simp only [List.cons_append, strokes, ih]

theorem NoExit.run {ops : List StageOp} (h : NoExit ops) (ctxs : List Context) {ops' : List StageOp} (hp : ops' <+: ops) :
    (stageRun (stageInit ctxs) ops').1.2.shouldExit = false := by
  rw [← Bool.not_eq_true]
  intro hx
  obtain ⟨before, last, h1, h2⟩ := C07_exit_only_then ctxs ops' hx
  obtain ⟨t, rfl⟩ := hp
  exact h before last (strokes t) (by rw [strokes_append, h1]) h2

theorem length_flatMap_ge {w : α → Bytes} {k : Nat} (l : List α) (h : ∀ a ∈ l, k ≤ (w a).length) : k * l.length ≤ (l.flatMap w).length := by
  induction l with
  | nil => simp
  | cons a l ih =>
    have h1 := h a (by simp)
    have h2 := ih (fun b hb => h b (by simp [hb]))
    simp only [List.flatMap_cons, List.length_append, List.length_cons, Nat.mul_succ]
    omega

theorem config_length {config : Config} : 4 * config.contexts.length + 10 ≤ (ToServer.config config).body.length := by
  have h1 := length_flatMap_ge (w := wrContext) (k := 4) config.contexts (by
    intro c _
    simp only [wrContext, wrList, wrU32, List.length_append, leBytes_length]
    omega)
  simp only [ToServer.body, wrList, wrType, wrU32, List.length_append, leBytes_length]
  omega

theorem length_flatMap_const {w : α → Bytes} {k : Nat} (l : List α) (h : ∀ a ∈ l, (w a).length = k) : (l.flatMap w).length = k * l.length := by
  induction l with
  | nil => simp
  | cons a l ih =>
    have h1 := h a (by simp)
    have h2 := ih (fun b hb => h b (by simp [hb]))
    simp only [List.flatMap_cons, List.length_append, List.length_cons, Nat.mul_succ]
    omega

theorem matching_ops (rx : Regex) (config : Config) (w : Window) :
    Msg.stageOps config.contexts.length (.activeContexts ((matchingContexts rx config w).map Int.ofNat)) =
      [.contexts (matchingContexts rx config w)] := by
  have h : ∀ l : List Nat, (∀ i ∈ l, i < config.contexts.length) →
      ((l.map Int.ofNat).filter (fun i => decide (0 ≤ i) && decide (i < (config.contexts.length : Int)))).map Int.toNat = l := by
    intro l hl
    induction l with
    | nil => rfl
    | cons i l ih =>
      have hi := hl i (by simp)
      rw [List.map_cons, List.filter_cons, if_pos (by simp; omega), List.map_cons, ih (fun j hj => hl j (by simp [hj]))]
      rfl
  rw [Msg.stageOps, h]
  intro i hi
  unfold matchingContexts at hi
  simpa using (List.mem_filter.1 hi).1

theorem stages_single {cs : List CContext} (hne : cs ≠ []) (h : ∀ ctx ∈ cs.tail, ctx.beginStage = false) : StagesOf cs [cs.map contextOf] := by
  cases cs with
  | nil => exact absurd rfl hne
  | cons c cs =>
    refine ⟨by simp, ?_⟩
    simp only [List.flatMap_cons, List.flatMap_nil, List.append_nil, List.map_cons, markFirst, markBegin, List.map_map]
    congr 1
    apply List.map_congr_left
    intro x hx
    simp [h x (by simpa using hx)]

/-- what the server receives when the client connects -/
theorem received_single (env : ClientEnv) (fs : FileSys) (filename : Str) (upd : Option Window) {config : Config} (hn : filename ≠ [])
    (ht : fs.mtime filename ≠ -1) (hr : readConfigFile env fs filename = some config) (hfit : FitsConfig config)
    (hsize : (ToServer.config config).body.length < 2 ^ 32) (hne : config.contexts ≠ [])
    (hone : ∀ ctx ∈ config.contexts.tail, ctx.beginStage = false) {chunks : List Bytes}
    (hchunks : chunks.flatten = sentBytes ((Client.start env fs filename).run env [.connect upd]).out) (isDown : Key → Bool) :
    receivedMessages isDown chunks = [.configuration [Cfg.make (config.contexts.map contextOf)],
      .activeContexts ((matchingContexts env.rx config (upd.getD {})).map Int.ofNat)] := by
  obtain ⟨h1, h2, h3, h4⟩ := start_config hn ht hr
  rw [connect_sends h2 h3 h4, h1] at hchunks
  have hlt := Nat.lt_of_le_of_lt config_length hsize
  have hml : (matchingContexts env.rx config (upd.getD {})).length ≤ config.contexts.length := by
    unfold matchingContexts
    exact Nat.le_trans (List.length_filter_le _ _) (by simp)
  have hactive : (ToServer.activeContexts ((matchingContexts env.rx config (upd.getD {})).map Int.ofNat)).FitsMsg ∧
      (ToServer.activeContexts ((matchingContexts env.rx config (upd.getD {})).map Int.ofNat)).body.length < 2 ^ 32 := by
    refine ⟨⟨by rw [List.length_map]; omega, ?_⟩, ?_⟩
    · intro i hi
      obtain ⟨j, hj, rfl⟩ := List.mem_map.1 hi
      unfold matchingContexts at hj
      have := (List.mem_filter.1 hj).1
      rw [List.mem_range] at this
      constructor <;> simp only [Int.ofNat_eq_natCast] <;> omega
    · simp only [ToServer.body, wrList, wrType, wrU32, List.length_append, leBytes_length]
      rw [length_flatMap_const (k := 4) _ (by intro a _; simp [wrI32, leBytes_length]), List.length_map]
      omega
  obtain ⟨rs, h5, h6⟩ := C30_conversation (ms := [ToServer.config config,
    .activeContexts ((matchingContexts env.rx config (upd.getD {})).map Int.ofNat)]) (by
      intro m hm
      simp only [List.mem_cons, List.not_mem_nil, or_false] at hm
      rcases hm with rfl | rfl
      · exact ⟨hfit, hsize⟩
      · exact hactive) hchunks
  unfold receivedMessages
  rw [h6]
  match rs, h5 with
  | [r1, r2], ⟨⟨stages, hst, e1⟩, e2, _⟩ =>
    have := C29_stages_determined hst (stages_single hne hone)
    subst this
    rw [e1, show r2 = _ from e2]
    rfl

/-- without device filters -/
theorem noFilters_make {config : Config} (hdev : ∀ ctx ∈ config.contexts, (contextOf ctx).hasDeviceFilter = false) :
    (Cfg.make (config.contexts.map contextOf)).hasDeviceFilter = false := by
  show ((config.contexts.map contextOf).map (fun c => { c with commandOutputs := sortCommandOutputs c.commandOutputs })).any
    (fun c => c.hasDeviceFilter) = false
  rw [List.any_map, List.any_eq_false]
  intro ctx hc
  obtain ⟨c, h7, rfl⟩ := List.mem_map.1 hc
  have : (contextOf c).hasDeviceFilter = false := hdev c h7
  simpa [Context.hasDeviceFilter] using this

/-- **C75 (pipeline).** When the client has read a configuration of one stage, connects and sends it, in whatever pieces it arrives, then
the server outputs on the virtual device exactly what a stage of the contexts of the configuration outputs, with the contexts active
whose filters match the focused window. The stage is thereby only to output keys (no virtual keys, delays and terminal commands), there are no device
filters, and the keys which terminate the server are not typed. -/
theorem C75_pipeline (env : ClientEnv) (fs : FileSys) (filename : Str) (upd : Option Window) {config : Config} (hn : filename ≠ [])
    (ht : fs.mtime filename ≠ -1) (hr : readConfigFile env fs filename = some config) (hfit : FitsConfig config)
    (hsize : (ToServer.config config).body.length < 2 ^ 32) (hne : config.contexts ≠ [])
    (hone : ∀ ctx ∈ config.contexts.tail, ctx.beginStage = false)
    (hdev : ∀ ctx ∈ config.contexts, (contextOf ctx).hasDeviceFilter = false) {chunks : List Bytes}
    (hchunks : chunks.flatten = sentBytes ((Client.start env fs filename).run env [.connect upd]).out)
    (rx : Regex) (isDown : Key → Bool) (ds : List DeviceDesc) (its : List Iteration) (hi : ∀ it ∈ its, it.Ordinary true)
    {ops : List StageOp} (hops : ops = .contexts (matchingContexts env.rx config (upd.getD {})) ::
      its.flatMap (Iteration.stageOps config.contexts.length))
    (hout : ∀ e ∈ (stageRun (stageInit (config.contexts.map contextOf)) ops).2, Sendable e) (hexit : NoExit ops) :
    (({} : Srv).connection rx (receivedMessages isDown chunks) ds its).out =
      (stageRun (stageInit (config.contexts.map contextOf)) ops).2.map Eff.sendKey := by
  have hrec := received_single env fs filename upd hn ht hr hfit hsize hne hone hchunks isDown
  have hopsEq : ops = [Msg.activeContexts ((matchingContexts env.rx config (upd.getD {})).map Int.ofNat)].flatMap
      (Msg.stageOps (config.contexts.map contextOf).length) ++ its.flatMap (Iteration.stageOps (config.contexts.map contextOf).length) := by
    rw [hops, List.length_map, List.flatMap_cons, List.flatMap_nil, List.append_nil, matching_ops]
    rfl
  rw [hrec, hopsEq]
  rw [hopsEq] at hout hexit
  exact connection_ordinary rx _ (noFilters_make hdev) _ (by simp) ds its hi hout (fun ops' hp => hexit.run _ hp)

/-! ### exchanging keys -/

theorem ordinary_bound {k : Key} (h : Ordinary k) : k ≤ 61439 := by
  have h := h.1
  simp only [isDeviceKey, isKeyboardKey, isMouseButton, isMouseWheel, Bool.or_eq_true, Bool.and_eq_true, decide_eq_true_eq] at h
  rcases h with (h | h) | h
  · exact h.1.1.2
  · exact Nat.le_trans h.2 (by decide)
  · exact Nat.le_trans h.2 (by decide)

theorem fits_pair {pairs : List (Key × Key)} {ctx : CContext} (h : contextOf ctx = replaceContext pairs) (hl : pairs.length < 2 ^ 24)
    (hk : ∀ p ∈ pairs, Ordinary p.1 ∧ Ordinary p.2) : FitsContext ctx := by
  have key_lt : ∀ k, Ordinary k → k < 2 ^ 16 := by
    intro k hk
    exact Nat.lt_of_le_of_lt (ordinary_bound hk) (by decide)
  have h1 : ctx.inputs = _ := congrArg Context.inputs h
  have h2 : ctx.outputs = _ := congrArg Context.outputs h
  have h3 : ctx.commandOutputs = _ := congrArg Context.commandOutputs h
  have h4 : ctx.deviceFilter = _ := congrArg Context.deviceFilter h
  have h5 : ctx.deviceIdFilter = _ := congrArg Context.deviceIdFilter h
  have h6 : ctx.modifierFilter = _ := congrArg Context.modifierFilter h
  refine ⟨?_, ?_, ?_, ?_, ?_, ?_⟩
  · rw [h1]
    refine ⟨by simp [replaceContext]; omega, ?_⟩
    intro i hi
    obtain ⟨⟨p, n⟩, hp, rfl⟩ := List.mem_map.1 hi
    have hz := List.mem_zipIdx hp
    have hpm : p ∈ pairs := by rw [hz.2.2]; exact List.getElem_mem _
    refine ⟨⟨by simp [singleKey], ?_⟩, by simp only; omega, by simp only; omega⟩
    intro e he
    simp only [singleKey, List.mem_cons, List.not_mem_nil, or_false] at he
    rcases he with rfl | rfl
    · exact ⟨key_lt _ (hk p hpm).1, by simp⟩
    · exact ⟨key_lt _ (hk p hpm).1, by simp⟩
  · rw [h2]
    refine ⟨by simp [replaceContext]; omega, ?_⟩
    intro o ho
    obtain ⟨p, hp, rfl⟩ := List.mem_map.1 ho
    refine ⟨by simp, ?_⟩
    intro e he
    rw [List.mem_singleton.1 he]
    exact ⟨key_lt _ (hk p hp).2, by simp⟩
  · rw [h3]; exact ⟨by simp [replaceContext], by intro o ho; cases ho⟩
  · rw [h4]; exact ⟨⟨by simp [replaceContext], by intro c hc; cases hc⟩, rfl⟩
  · rw [h5]; exact ⟨⟨by simp [replaceContext], by intro c hc; cases hc⟩, rfl⟩
  · rw [h6]; exact ⟨by simp [replaceContext], by intro c hc; cases hc⟩

theorem length_pair {pairs : List (Key × Key)} {ctx : CContext} (h : contextOf ctx = replaceContext pairs) :
    (wrContext ctx).length = 24 * pairs.length + 29 := by
  have h1 : ctx.inputs = _ := congrArg Context.inputs h
  have h2 : ctx.outputs = _ := congrArg Context.outputs h
  have h3 : ctx.commandOutputs = _ := congrArg Context.commandOutputs h
  have h4 : ctx.deviceFilter = _ := congrArg Context.deviceFilter h
  have h5 : ctx.deviceIdFilter = _ := congrArg Context.deviceIdFilter h
  have h6 : ctx.modifierFilter = _ := congrArg Context.modifierFilter h
  have hi : ((replaceContext pairs).inputs.flatMap wrInput).length = 16 * pairs.length := by
    rw [length_flatMap_const (k := 16)]
    · simp [replaceContext]
    · intro i hi
      obtain ⟨p, _, rfl⟩ := List.mem_map.1 hi
      simp [wrInput, wrSeq, wrList, wrU32, wrI32, wrEvent, singleKey, leBytes_length]
  have ho : ((replaceContext pairs).outputs.flatMap wrSeq).length = 8 * pairs.length := by
    rw [length_flatMap_const (k := 8)]
    · simp [replaceContext]
    · intro i hi
      obtain ⟨p, _, rfl⟩ := List.mem_map.1 hi
      simp [wrSeq, wrList, wrU32, wrEvent, leBytes_length]
  unfold wrContext
  rw [h1, h2, h3, h4, h5, h6]
  simp only [wrList, wrU32, wrBool, wrFilter, wrStr, wrSeq, List.length_append, leBytes_length, hi, ho]
  simp only [replaceContext, List.flatMap_nil, List.length_nil, List.map_nil, List.length_cons]
  omega

theorem replacedBy_ordinary {pairs : List (Key × Key)} (hk : ∀ p ∈ pairs, Ordinary p.1 ∧ Ordinary p.2) {k : Key} (h : Ordinary k) :
    Ordinary (replacedBy pairs k) := by
  unfold replacedBy
  cases hl : pairs.lookup k with
  | none => exact h
  | some b =>
    rw [List.lookup_eq_some_iff] at hl
    obtain ⟨l1, l2, rfl, _⟩ := hl
    exact (hk (k, b) (by simp)).2

theorem replacedBy_other {pairs : List (Key × Key)} (hk : ∀ p ∈ pairs, Ordinary p.1 ∧ Ordinary p.2) {k : Key} (h : ¬ Ordinary k) :
    replacedBy pairs k = k := by
  unfold replacedBy
  cases hl : pairs.lookup k with
  | none => rfl
  | some b =>
    rw [List.lookup_eq_some_iff] at hl
    obtain ⟨l1, l2, rfl, _⟩ := hl
    exact absurd (hk (k, b) (by simp)).1 h

theorem ordinary_sendable {e : KeyEvent} (h : Ordinary e.key) : Sendable e := by
  have h1 := ordinary_bound h
  obtain ⟨hd, hw⟩ := h
  refine ⟨?_, ?_, ?_, fun h => absurd h (by rw [hw]; decide)⟩
  · intro e'; rw [e'] at hd; exact absurd hd (by decide)
  · rw [← Bool.not_eq_true]; intro hv
    simp only [isVirtualKey, Bool.and_eq_true, decide_eq_true_eq] at hv
    have := Nat.le_trans hv.1 h1
    exact absurd this (by decide)
  · rw [← Bool.not_eq_true]; intro hv
    simp only [isActionKey, Bool.and_eq_true, decide_eq_true_eq] at hv
    have := Nat.le_trans hv.1 h1
    exact absurd this (by decide)

theorem keysRead_ops (its : List Iteration) (n : Nat) (h : ∀ it ∈ its, it.messages = []) :
    its.flatMap (Iteration.stageOps n) = (keysRead its).map (fun p => .input p.1 p.2) := by
  induction its with
  | nil => rfl
  | cons it its ih =>
    have h1 := h it (by simp)
    rw [List.flatMap_cons, ih (fun x hx => h x (by simp [hx]))]
    unfold keysRead Iteration.stageOps
    rw [h1, List.filterMap_cons]
    cases it.read <;> simp [Read.stageOps]

/-- **C75 (exchanging keys, from the file to the virtual device).** A configuration file with lines `A >> B` (empty lines and comments), which
exchanges keys (no two keys are replaced with the same one), is read by the client, which sends it to the server. Then everything which is typed on the grabbed keyboards appears
on the virtual device, event by event, in order, with the keys exchanged. -/
theorem C75_exchange (env : ClientEnv) (fs : FileSys) (filename : Str) (upd : Option Window) {lines : List Str} {text : Str}
    {pairs : List (Key × Key)} (hn : filename ≠ []) (hfile : fs.content filename = some text) (ht : fs.mtime filename ≠ -1)
    (htext : FileText lines text) (hne : lines ≠ []) (hlines : ReplaceLines pairs lines)
    (hk : ∀ p ∈ pairs, Ordinary p.1 ∧ Ordinary p.2) (hsize : pairs.length < 2 ^ 24)
    (hinj : ∀ a b, Ordinary a → Ordinary b → replacedBy pairs a = replacedBy pairs b → a = b)
    {chunks : List Bytes} (hchunks : chunks.flatten = sentBytes ((Client.start env fs filename).run env [.connect upd]).out)
    (rx : Regex) (isDown : Key → Bool) (ds : List DeviceDesc) (its : List Iteration)
    (hi : ∀ it ∈ its, it.Ordinary true ∧ it.messages = [])
    (hev : ∀ p ∈ keysRead its, p.1.value = 0 ∧ -2 ≤ p.2 ∧ p.2 < 64)
    (hpr : pressedAndReleased [] ((keysRead its).map (·.1)))
    (hexit : NoExit ((keysRead its).map (fun p => .input p.1 p.2))) :
    (({} : Srv).connection rx (receivedMessages isDown chunks) ds its).out =
      (keysRead its).map (fun p => .sendKey { p.1 with key := replacedBy pairs p.1.key }) := by
  obtain ⟨ctx, hres, hctx⟩ := pairDoc_result pairs
  have hc := hctx.context
  have hplain : (pairDoc pairs).Plain := by
    have key_lt : ∀ k, Ordinary k → k < Key.first_logical := by
      intro k hk
      exact Nat.lt_of_le_of_lt (ordinary_bound hk) (by decide)
    intro c hc'
    rw [hres, List.mem_singleton] at hc'
    subst hc'
    have h1 : c.inputs = _ := congrArg Context.inputs hc
    have h2 : c.outputs = _ := congrArg Context.outputs hc
    have h3 : c.commandOutputs = _ := congrArg Context.commandOutputs hc
    have h6 : c.modifierFilter = _ := congrArg Context.modifierFilter hc
    rw [h1, h2, h3, h6]
    refine ⟨?_, ?_, (by intro o ho; cases ho), (by intro e he; cases he)⟩
    · intro i hi
      obtain ⟨⟨p, n⟩, hp, rfl⟩ := List.mem_map.1 hi
      have hz := List.mem_zipIdx hp
      have hpm : p ∈ pairs := by rw [hz.2.2]; exact List.getElem_mem _
      intro e he
      simp only [singleKey, List.mem_cons, List.not_mem_nil, or_false] at he
      rcases he with rfl | rfl <;> exact key_lt _ (hk p hpm).1
    · intro o ho
      obtain ⟨p, hp, rfl⟩ := List.mem_map.1 ho
      intro e he
      rw [List.mem_singleton.1 he]
      exact key_lt _ (hk p hp).2
  have hdoc := replaceLines_doc (env := { typer := env.typer, validRegex := env.validRegex, files := fun name => fs.content (fs.resolve filename name) })
    hlines hk []
  rw [List.nil_append] at hdoc
  obtain ⟨config, hp, hcs, -, -, hg, hd, -⟩ := C74_configuration _ hne hdoc htext (.inr (by intro n h; cases h)) rfl hplain
  rw [show (pairDoc pairs).grab = [] from rfl] at hg
  rw [show (pairDoc pairs).server = [] from rfl] at hd
  rw [hres] at hcs
  have hr : readConfigFile env fs filename = some config := by
    unfold readConfigFile
    rw [hfile]; exact hp
  have hfit : FitsConfig config := by
    refine ⟨?_, ?_, ?_⟩
    · rw [hg]; exact ⟨by decide, by intro f hf; cases hf⟩
    · rw [hcs]; exact ⟨by simp, by intro c hc'; rw [List.mem_singleton.1 hc']; exact fits_pair hc hsize hk⟩
    · rw [hd]; exact ⟨by decide, by intro f hf; cases hf⟩
  have hbody : (ToServer.config config).body.length < 2 ^ 32 := by
    simp only [ToServer.body, hg, hd, hcs, wrList, wrType, wrU32, List.length_append, leBytes_length, List.flatMap_nil, List.length_nil,
      List.flatMap_cons, length_pair hc]
    omega
  have hmatch : matchingContexts env.rx config (upd.getD {}) = [0] := by
    unfold matchingContexts
    rw [hcs]
    simp [List.range_succ, CContext.matches, hctx.window, Filter.matches, Filter.matchesUninverted]
  have hmap : config.contexts.map contextOf = [replaceContext pairs] := by rw [hcs, ← hc]; rfl
  have hinj' : ∀ a b, Replaceable a → Replaceable b → replacedBy pairs a = replacedBy pairs b → a = b := by
    intro a b _ _ hab
    by_cases ha : Ordinary a
    · by_cases hb : Ordinary b
      · exact hinj a b ha hb hab
      · rw [replacedBy_other hk hb] at hab
        exact absurd (hab ▸ replacedBy_ordinary hk ha) hb
    · by_cases hb : Ordinary b
      · rw [replacedBy_other hk ha] at hab
        exact absurd (hab ▸ replacedBy_ordinary hk hb) ha
      · rwa [replacedBy_other hk ha, replacedBy_other hk hb] at hab
  have hord : ∀ p ∈ keysRead its, Ordinary p.1.key := by
    intro p hp
    obtain ⟨it, hit, he⟩ := List.mem_filterMap.1 hp
    cases hread : it.read with
    | key ev dev =>
      rw [hread] at he
      simp only [Option.some.injEq] at he
      subst he
      exact (hi it hit).1.read ev dev hread
    | _ => rw [hread] at he; cases he
  have hrepl : ∀ k, Ordinary k → Replaceable k := by
    intro k hk
    refine ⟨?_, ?_, ?_, ?_⟩ <;> (rintro rfl; exact absurd hk.1 (by decide))
  have hrun := C70_exchange pairs (fun p hp => ⟨hrepl _ (hk p hp).1, (hrepl _ (hk p hp).2).2.1, (hrepl _ (hk p hp).2).2.2.1⟩) hinj' (keysRead its)
    (fun p hp => ⟨hrepl _ (hord p hp), (ordinary_sendable (hord p hp)).2.1, hev p hp⟩) hpr
  have hops := keysRead_ops its config.contexts.length (fun it hit => (hi it hit).2)
  rw [C75_pipeline env fs filename upd hn ht hr hfit hbody (by rw [hcs]; simp) (by rw [hcs]; simp) (by
      rw [hcs]
      intro c hc'
      rw [List.mem_singleton.1 hc', hc]
      rfl) hchunks rx isDown ds its (fun it hit => (hi it hit).1) (ops := .contexts [0] :: (keysRead its).map (fun p : KeyEvent × Int => StageOp.input p.1 p.2))
      (by rw [hmatch, hops]) (by
        rw [hmap, hrun]
        intro e he
        obtain ⟨p, hp, rfl⟩ := List.mem_map.1 he
        exact ordinary_sendable (replacedBy_ordinary hk (hord p hp))) (fun a b c h => hexit a b c h), hmap, hrun, List.map_map]
  rfl

private theorem ex_names {n : Str} {k : Key} (h : (!n.isEmpty && n.all isIdentChar) = true ∧ keyOf n = k ∧ k ≠ Key.none ∧ beginsWithDelay n = false) :
    Names keyOf n k := by
  have h1 := h.1
  rw [Bool.and_eq_true] at h1
  exact ⟨by simpa using h1.1, by simpa using h1.2, h.2.1, h.2.2.1, h.2.2.2⟩

private theorem ex_swap {x y : Key} (hxy : x ≠ y) {a b : Key} (h : replacedBy [(x, y), (y, x)] a = replacedBy [(x, y), (y, x)] b) :
    a = b := by
  have hs : ∀ k : Key, replacedBy [(x, y), (y, x)] k = if k = x then y else if k = y then x else k := by
    intro k
    unfold replacedBy
    rw [List.lookup_cons, List.lookup_cons, List.lookup_nil]
    by_cases h1 : k = x
    · rw [if_pos h1, h1, beq_self_eq_true]; rfl
    · rw [if_neg h1, beq_eq_false_iff_ne.2 h1]
      by_cases h2 : k = y
      · rw [if_pos h2, h2, beq_self_eq_true]; rfl
      · rw [if_neg h2, beq_eq_false_iff_ne.2 h2]; rfl
  rw [hs, hs] at h
  grind

private def exLines : List Str := ["# exchange".toList, "A >> B".toList, [], "B>>A  ".toList]

private def exFiles : FileSys :=
  { mtime := fun _ => 1, content := fun f => if f = ['c'] then some (joinLines exLines) else none, resolve := fun _ f => f, noName := rfl }

private def exTyped : List Iteration :=
  [{ now := 1, read := .key ⟨Key.KeyA, .Down, 0⟩ 0 }, { now := 2, read := .key ⟨Key.KeyB, .Down, 0⟩ 0 },
    { now := 3, read := .key ⟨Key.KeyA, .Up, 0⟩ 0 }, { now := 4 }, { now := 5, read := .key ⟨Key.KeyC, .Down, 0⟩ 0 }]

private theorem exLines_replace : ReplaceLines [(Key.KeyA, Key.KeyB), (Key.KeyB, Key.KeyA)] exLines := by
  have hsp : Spaces ([] : Str) := by intro c h; cases h
  have hsp1 : Spaces [' '] := by intro c h; rw [List.mem_singleton.1 h]; decide
  have hsp2 : Spaces [' ', ' '] := by
    intro c h; simp only [List.mem_cons, List.not_mem_nil, or_false, or_self] at h; rw [h]; decide
  exact .cons (p := []) (.comment (sp := []) (c := '#') (t := " exchange".toList) hsp (.inl rfl) (by decide)) (by decide)
      (.cons (p := [(Key.KeyA, Key.KeyB)]) (.pair (sp := []) (n := ['A']) (sp1 := [' ']) (sp2 := [' ']) (m := ['B']) (sp3 := []) hsp hsp1 hsp1 hsp
        (ex_names (by decide +kernel)) (ex_names (by decide +kernel)) (by decide)) (by decide)
      (.cons (p := []) (.blank hsp) (by decide)
      (.cons (p := [(Key.KeyB, Key.KeyA)]) (.pair (sp := []) (n := ['B']) (sp1 := []) (sp2 := []) (m := ['A']) (sp3 := [' ', ' ']) hsp hsp hsp hsp2
        (ex_names (by decide +kernel)) (ex_names (by decide +kernel)) (by decide)) (by decide) .nil)))

/-- A configuration which exchanges A and B; B is pressed while A is held. The configuration arrives in pieces of one byte. -/
example (env : ClientEnv) (rx : Regex) : exFiles.content ['c'] = some "# exchange\nA >> B\n\nB>>A  ".toList ∧
    (({} : Srv).connection rx (receivedMessages (fun _ => false)
        ((sentBytes ((Client.start env exFiles ['c']).run env [.connect none]).out).map (fun b => [b])))
      [{ name := ['k'], id := [] }] exTyped).out =
      [.sendKey ⟨Key.KeyB, .Down, 0⟩, .sendKey ⟨Key.KeyA, .Down, 0⟩, .sendKey ⟨Key.KeyB, .Up, 0⟩, .sendKey ⟨Key.KeyC, .Down, 0⟩] := by
  refine ⟨by decide +kernel, ?_⟩
  have hfl : ∀ bytes : Bytes, (bytes.map (fun b => [b])).flatten = bytes := by
    intro bytes
    induction bytes with
    | nil => rfl
    | cons b l ih => simp only [List.map_cons, List.flatten_cons, ih]; rfl
  refine (C75_exchange env exFiles ['c'] none (by decide) (by decide +kernel) (by decide)
    (.inl ⟨rfl, fun c h => ?_⟩) (by decide) exLines_replace (by unfold Ordinary; decide) (by decide) (fun a b _ _ h => ex_swap (by decide) h)
    (hfl _) rx _ _ exTyped ?_ (by decide) ?_ ?_).trans ?_
  · have h1 : some c = some '#' := h.symm.trans (by decide +kernel)
    rw [Option.some.inj h1]; decide
  · intro it hit
    simp only [exTyped, List.mem_cons, List.not_mem_nil, or_false] at hit
    rcases hit with rfl | rfl | rfl | rfl | rfl
    all_goals
      refine ⟨⟨?_, rfl, .inl rfl, (by intro m hm; cases hm), rfl⟩, rfl⟩
      intro ev dev h
      first
        | (injection h with h1 h2; subst h1; unfold Ordinary; decide)
        | cases h
  · simp only [exTyped, keysRead, List.filterMap_cons, List.filterMap_nil, List.map_cons, List.map_nil, pressedAndReleased]
    decide
  · rintro before last after h ⟨a, b, c, rfl⟩
    have h2 : (Key.Escape, KeyState.Down) ∈ strokes ((keysRead exTyped).map (fun p => .input p.1 p.2)) := by
      rw [h]; simp
    exact absurd h2 (by decide)
  · decide +kernel

end KM
