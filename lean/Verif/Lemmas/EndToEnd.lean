import Verif.Spec.EndToEnd
import Verif.Lemmas.ServerForward
import Verif.Lemmas.DocSimple
import Verif.Props.Document
import Verif.Props.Serial
import Verif.Props.Remap
import Verif.Props.Exit
/-!
# Lemmas: from the configuration file to the virtual device
-/
namespace KM

/-! ### the document -/

/-- the mappings of pairs -/
def pairMappings (pairs : List (Key × Key)) : List (KeySequence × Aim) :=
  pairs.map (fun p => (singleKey p.1, .keys [⟨p.2, .Down, 0⟩]))

/-- a document which only replaces keys -/
def pairDoc (pairs : List (Key × Key)) : Doc := { current := { stage := true, mappings := pairMappings pairs } }

theorem pairDoc_step (typer : Typer) (pairs : List (Key × Key)) (a b : Key) :
    (pairDoc pairs).step typer (.map false (.keys false [a] .nil) (.keys [b] .nil)) = pairDoc (pairs ++ [(a, b)]) := by
  unfold pairDoc
  rw [Doc.step]
  have h1 : InExpr.meaning typer false (.keys false [a] .nil) = singleKey a := by
    simp [InExpr.meaning, InExpr.events, expectPresses, expectReleases, singleKey]
  have h2 : OutExpr.meaning typer ([] : List Str).length (.keys [b] .nil) = [⟨b, .Down, 0⟩] := by
    simp [OutExpr.meaning, OutExpr.events, OutExpr.beginsWithNot, pressKeys, releaseKeys, joinDelays, appendEvent, isDelayEvent,
      OutExpr.usesModifiers, pressedAtOnce, withoutLastReleases]
  simp only [pairMappings, List.map_append, h1, h2]
  rfl

theorem pairDoc_nothing (typer : Typer) (pairs : List (Key × Key)) : (pairDoc pairs).step typer .nothing = pairDoc pairs := rfl

theorem line_comment {env : CEnv} {d : Doc} {sp t : Str} {c : Char} (hs : Spaces sp) (hc : c = '#' ∨ c = ';') :
    d.Line env .nothing (sp ++ c :: t) := by
  have hc' : isIdentChar c = false ∧ isSpaceC c = false ∧ c ≠ '=' := by
    rcases hc with rfl | rfl <;> decide
  have hsp : '=' ∉ sp := by
    intro h
    exact absurd (hs _ h) (by decide)
  refine .statement (r := []) (noDefinition_char hsp hc') ?_ (.nothing (by intro c h; cases h))
  refine .text (ts := []) hs ?_ (.comment hc) ?_ .nil
  · intro x hx
    simp only [List.head?_cons, Option.some.injEq] at hx
    subst hx; exact hc'.2.1
  · intro h
    have := h.2 c (by simp)
    rw [hc'.1] at this
    exact absurd this (by decide)

theorem line_blank {env : CEnv} {d : Doc} {sp : Str} (hs : Spaces sp) : d.Line env .nothing sp := by
  have hsp : '=' ∉ sp := by
    intro h
    exact absurd (hs _ h) (by decide)
  refine .statement (r := []) (noDefinition_of hsp) ?_ (.nothing (by intro c h; cases h))
  have := Expand.text (macros := d.macros) (l := 29) (sp := sp) (t := []) (ts := []) (r := []) hs (by intro x hx; cases hx) .nil ?_ .nil
  · rwa [List.append_nil] at this
  · rintro ⟨h1, h2⟩
    cases sp with
    | nil => exact h1 rfl
    | cons c sp =>
      have e1 := hs c (by simp)
      have e2 := h2 c (by simp)
      exact absurd e2 (by rw [isSpaceC_noIdent e1]; decide)

theorem ordinary_outputable {k : Key} (h : Ordinary k) : Outputable k := by
  constructor
  · rintro rfl; exact absurd h.1 (by decide)
  · rintro rfl; exact absurd h.1 (by decide)

theorem replaceLine_doc {env : CEnv} {ps : List (Key × Key)} {line : Str} (h : ReplaceLine ps line) (hn : '\n' ∉ line)
    (hk : ∀ p ∈ ps, Ordinary p.1 ∧ Ordinary p.2) (pairs : List (Key × Key)) :
    ∃ st, (pairDoc pairs).Line env st line ∧ (pairDoc pairs).step env.typer st = pairDoc (pairs ++ ps) ∧ ¬ Continued line := by
  cases h with
  | @pair sp n sp1 sp2 m sp3 a b hs hs1 hs2 hs3 hn' hm hl =>
    obtain ⟨h1, h2⟩ := hk (a, b) (by simp)
    refine ⟨_, pair_line hs hs1 hs2 hs3 hn' hm (ordinary_outputable h1) (ordinary_outputable h2) (fun _ w _ _ _ => rfl)
      (by simp [pairDoc]) hl ?_, pairDoc_step env.typer pairs a b, ?_⟩
    · intro h
      apply hn
      simp only [List.mem_append, List.mem_cons] at h ⊢
      rcases h with (h | h) | h
      · exact .inr (.inl (.inr h))
      · exact .inr (.inr (.inr (.inr (.inl (.inl h)))))
      · exact .inr (.inr (.inr (.inr (.inr h))))
    · refine notContinued_of ?_
      have hsp : ∀ {t : Str}, Spaces t → '\\' ∉ t := fun ht h => absurd (ht _ h) (by decide)
      have hid : ∀ {t : Str} {k}, Names keyOf t k → '\\' ∉ t := fun ht h => absurd (ht.chars _ h) (by decide)
      simp only [List.mem_append, List.mem_cons, not_or]
      exact ⟨hsp hs, ⟨hid hn', hsp hs1⟩, by decide, by decide, ⟨hsp hs2, hid hm⟩, hsp hs3⟩
  | blank hs =>
    refine ⟨.nothing, line_blank hs, by rw [List.append_nil]; rfl, notContinued_of ?_⟩
    exact fun h => absurd (hs _ h) (by decide)
  | @comment sp c t hs hc hb =>
    refine ⟨.nothing, line_comment hs hc, by rw [List.append_nil]; rfl, notContinued_of ?_⟩
    simp only [List.mem_append, List.mem_cons, not_or]
    exact ⟨fun h => absurd (hs _ h) (by decide), by rcases hc with rfl | rfl <;> decide, hb⟩

theorem replaceLines_doc {env : CEnv} {ps : List (Key × Key)} {lines : List Str} (h : ReplaceLines ps lines)
    (hk : ∀ p ∈ ps, Ordinary p.1 ∧ Ordinary p.2) : ∀ pairs, Doc.Lines env 10 (pairDoc pairs) lines (pairDoc (pairs ++ ps)) := by
  induction h with
  | nil => intro pairs; rw [List.append_nil]; exact .nil
  | cons hl hn hr ih =>
    intro pairs
    obtain ⟨st, h1, h2, h3⟩ := replaceLine_doc (env := env) hl hn (fun p hp => hk p (List.mem_append_left _ hp)) pairs
    refine .cons h1 (.last h3 hn) ?_
    rw [h2, ← List.append_assoc]
    exact ih (fun p hp => hk p (List.mem_append_right _ hp)) _

theorem numberInputs_pairs (commands : List Str) (pairs : List (Key × Key)) : ∀ n : Nat,
    numberInputs commands n (pairMappings pairs) = (pairs.zipIdx n).map (fun p => (⟨singleKey p.1.1, (p.2 : Int)⟩ : Input)) := by
  induction pairs with
  | nil => intro n; rfl
  | cons p ps ih => intro n; rw [List.zipIdx_cons, List.map_cons, ← ih (n + 1)]; rfl

theorem outputsOf_pairs (pairs : List (Key × Key)) : outputsOf (pairMappings pairs) = pairs.map (fun p => [⟨p.2, .Down, 0⟩]) := by
  simp [outputsOf, pairMappings, List.filterMap_map]
  induction pairs with
  | nil => rfl
  | cons p ps ih => simp [ih]

/-- a context which replaces keys -/
structure PairContext (pairs : List (Key × Key)) (ctx : CContext) : Prop where
  context : contextOf ctx = replaceContext pairs
  window : ctx.windowClass = {} ∧ ctx.windowTitle = {} ∧ ctx.windowPath = {}

theorem pairDoc_result (pairs : List (Key × Key)) : ∃ ctx, (pairDoc pairs).result = [ctx] ∧ PairContext pairs ctx := by
  cases pairs with
  | nil => exact ⟨{}, rfl, rfl, rfl, rfl, rfl⟩
  | cons p ps =>
    refine ⟨Block.context [] { stage := true, mappings := pairMappings (p :: ps) }, rfl, ?_, rfl, rfl, rfl⟩
    unfold contextOf Block.context replaceContext
    simp only [numberInputs_pairs, outputsOf_pairs]
    rfl

/-! ### the client -/

theorem start_config {env : ClientEnv} {fs : FileSys} {filename : Str} {config : Config} (hn : filename ≠ []) (ht : fs.mtime filename ≠ -1)
    (hr : readConfigFile env fs filename = some config) :
    (Client.start env fs filename).file.config = config ∧ (Client.start env fs filename).active = true ∧
      (Client.start env fs filename).out = [] ∧ (Client.start env fs filename).window = {} := by
  have hl : ConfigFile.load env fs filename =
      ({ filename := filename, modifyTime := latestModifyTime fs filename [], config := config }, true) := by
    unfold ConfigFile.load ConfigFile.update
    have ht' : (latestModifyTime fs filename [] == -1) = false := by
      simp only [latestModifyTime, List.foldl_nil, ite_self]
      simpa using ht
    simp only [hr, Bool.true_and]
    rw [if_neg (by rw [ht']; decide)]
  have hs : Client.start env fs filename =
      { file := { filename := filename, modifyTime := latestModifyTime fs filename [], config := config } } := by
    unfold Client.start Client.loadConfig
    rw [if_neg (by intro h; exact hn h.symm)]
    simp only [List.find?_nil, Client.loadNew, hl]
    rfl
  rw [hs]
  exact ⟨rfl, rfl, rfl, rfl⟩

/-- what the client sends when it connects -/
theorem connect_sends {env : ClientEnv} {c : Client} (ha : c.active = true) (ho : c.out = []) (hw : c.window = {}) (upd : Option Window) :
    sentBytes (c.run env [.connect upd]).out =
      [ToServer.config c.file.config, .activeContexts ((matchingContexts env.rx c.file.config (upd.getD {})).map Int.ofNat)].flatMap
        (fun m => frame m.body) := by
  have hout : (c.run env [.connect upd]).out = [.connected, .server (.config c.file.config),
      .server (.activeContexts ((matchingContexts env.rx c.file.config (upd.getD {})).map Int.ofNat))] := by
    simp only [Client.run, List.foldl_cons, List.foldl_nil, Client.step, Client.sendConfig, if_true, Client.send, Client.configSent, ha,
      Client.updateActiveContexts, Bool.not_true, Bool.false_eq_true, if_false, ho]
    have hrefresh : ∀ (d : Client), d.activeContexts = [] → (d.refreshContexts env.rx).1 =
        { d with activeContexts := matchingContexts env.rx d.file.config d.window } := by
      intro d hd
      unfold Client.refreshContexts
      simp only [hd]
      split
      · rfl
      · next h =>
        have h : matchingContexts env.rx d.file.config d.window = [] := Classical.not_not.1 h
        rw [h, ← hd]
    cases upd with
    | some w => simp [hrefresh, Client.sendActiveContexts, Client.send]
    | none => simp [hrefresh, Client.sendActiveContexts, Client.send, hw]
  rw [hout]
  simp [sentBytes]

/-! ### the server -/

theorem first_configuration_eq (rx : Regex) (ctxs : List Context) :
    ({} : Srv).onMessage rx (.configuration [Cfg.make ctxs]) = { ms := MS.make [Cfg.make ctxs] } := by
  unfold Srv.onMessage Srv.onConfiguration Srv.resetConfiguration
  have h1 : Srv.flush rx (({} : Srv).releaseAllKeys) = {} := by
    have := flush_sendable rx (({} : Srv).releaseAllKeys) (by intro e he; cases he) rfl rfl
    unfold Srv.flush
    rw [this]
    rfl
  simp only [h1]
  unfold Srv.evaluateDeviceFilters
  rw [if_pos (by simp)]

/-- the server after the first configuration -/
theorem first_configuration (rx : Regex) (ctxs : List Context) :
    ∃ srv, ({} : Srv).onMessage rx (.configuration [Cfg.make ctxs]) = srv ∧ Around srv (stageInit ctxs) ∧ srv.out = [] := by
  refine ⟨_, rfl, ?_⟩
  rw [first_configuration_eq]
  exact ⟨⟨⟨rfl, rfl, rfl, rfl, rfl, rfl⟩, rfl, rfl⟩, rfl⟩

/-- new devices do not matter when there are no filters -/
theorem devices_around (rx : Regex) {srv : Srv} {c : Cfg} {s : S} (h : Around srv (c, s)) (hf : c.hasDeviceFilter = false) (ds : List DeviceDesc) :
    Around (srv.setDeviceDescs rx ds) (c, s) ∧ (srv.setDeviceDescs rx ds).out = srv.out := by
  have hdef : srv.setDeviceDescs rx ds = { srv with devices := ds } := by
    unfold Srv.setDeviceDescs Srv.evaluateDeviceFilters
    rw [if_pos (by simp [MS.hasDeviceFilters, h.stages, hf])]
  rw [hdef]
  exact ⟨⟨⟨h.buf, h.flushAt, h.timeout, h.sending, h.info, h.stageBuf⟩, h.stages, h.results⟩, rfl⟩

/-- a connection: the output of the stage is sent -/
theorem connection_ordinary (rx : Regex) (ctxs : List Context) (hf : (Cfg.make ctxs).hasDeviceFilter = false) (ms : List Msg)
    (hm : ∀ m ∈ ms, ∃ l, m = .activeContexts l) (ds : List DeviceDesc) (its : List Iteration) (hi : ∀ it ∈ its, it.Ordinary true)
    (hout : ∀ e ∈ (stageRun (stageInit ctxs) (ms.flatMap (Msg.stageOps ctxs.length) ++ its.flatMap (Iteration.stageOps ctxs.length))).2, Sendable e)
    (hx : ∀ ops', ops' <+: ms.flatMap (Msg.stageOps ctxs.length) ++ its.flatMap (Iteration.stageOps ctxs.length) →
      (stageRun (stageInit ctxs) ops').1.2.shouldExit = false) :
    (({} : Srv).connection rx (.configuration [Cfg.make ctxs] :: ms) ds its).out =
      (stageRun (stageInit ctxs) (ms.flatMap (Msg.stageOps ctxs.length) ++ its.flatMap (Iteration.stageOps ctxs.length))).2.map Eff.sendKey := by
  have hlen : (Cfg.make ctxs).contexts.length = ctxs.length := by simp [Cfg.make]
  obtain ⟨srv, h1, h2, h3⟩ := first_configuration rx ctxs
  have hrun := stageRun_append (stageInit ctxs) (ms.flatMap (Msg.stageOps ctxs.length)) (its.flatMap (Iteration.stageOps ctxs.length))
  obtain ⟨s1, h4, h5, h6⟩ := messages_ordinary rx (Cfg.make ctxs) ms hm srv {} h2 (by
    rw [hlen]
    intro e he
    exact hout e (by rw [hrun]; exact List.mem_append_left _ he))
  rw [hlen] at h4 h6
  have h4' : (stageRun (stageInit ctxs) (ms.flatMap (Msg.stageOps ctxs.length))).1 = (Cfg.make ctxs, s1) := by
    show (stageRun (Cfg.make ctxs, {}) _).1 = _
    rw [h4]
  rw [h4'] at hrun
  obtain ⟨h7, h8⟩ := devices_around rx h5 hf ds
  obtain ⟨s2, h9, h10, h11⟩ := mainLoop_ordinary rx (Cfg.make ctxs) its (by rw [hf]; exact hi) _ s1 h7 (by
      rw [hlen]
      intro e he
      exact hout e (by rw [hrun]; exact List.mem_append_right _ he)) (by
      rw [hlen]
      rintro ops' ⟨t, ht⟩
      have := hx (ms.flatMap (Msg.stageOps ctxs.length) ++ ops') ⟨t, by rw [← ht, List.append_assoc]⟩
      rw [stageRun_append, h4'] at this
      exact this)
  unfold Srv.connection
  rw [List.foldl_cons, h1, h11, h8, h6, h3, hlen, hrun]
  show [] ++ (stageRun (stageInit ctxs) (ms.flatMap (Msg.stageOps ctxs.length))).2.map Eff.sendKey ++ _ = _
  simp

end KM
