import Verif.Spec.ReloadHistory
import Verif.Props.Reload
/-!
# C97: any history of the client, while keys are typed
-/
namespace KM

/-- the client knows what is to be known, and told the server about it -/
structure KnowsAll (env : ClientEnv) (k : Known) (c : Client) : Prop extends FollowsFocus k.file.config env.rx k.focus c where
  whole : c.file = k.file

theorem focusStep_file (env : ClientEnv) (c : Client) (op : FocusOp) : (c.step env op.toClient).file = c.file := by
  have hsend : ∀ (c : Client) (m : ToServer), (c.send m).file = c.file := by
    intro c m; unfold Client.send; split <;> rfl
  have hrefresh : ∀ c : Client, (c.refreshContexts env.rx).1.file = c.file := by
    intro c; rw [(refresh_contexts env.rx c).1]
  have hupd : ∀ (c : Client) (w : Option Window), (c.updateActiveContexts env.rx w).1.file = c.file := by
    intro c w
    unfold Client.updateActiveContexts
    split
    · rfl
    · split
      · exact hrefresh _
      · split
        · rfl
        · exact hrefresh _
  cases op with
  | look w =>
    simp only [FocusOp.toClient, Client.step]
    split
    · exact (hsend _ _).trans (hupd c w)
    · exact hupd c w
  | pause w =>
    simp only [FocusOp.toClient, Client.step, Client.toggleActive]
    split
    · exact hsend _ _
    · exact (hsend _ _).trans (hupd _ w)

theorem update_none {env : ClientEnv} {f : KnownFocus} {file : ConfigFile} {fs : FileSys} (hn : Known.modified env ⟨f, file⟩ fs = none) :
    file.update env fs true = ({ file with modifyTime := latestModifyTime fs file.filename file.config.includes }, false) := by
  unfold Known.modified at hn
  unfold ConfigFile.update
  simp only [Bool.true_and, beq_iff_eq] at hn ⊢
  split at hn
  · next ht => rw [if_pos ht, ht]
  · next ht => rw [if_neg ht, hn]

theorem update_some {env : ClientEnv} {f : KnownFocus} {file : ConfigFile} {fs : FileSys} {config : Config} (hn : Known.modified env ⟨f, file⟩ fs = some config) :
    file.update env fs true = ({ file with modifyTime := latestModifyTime fs file.filename file.config.includes, config := config }, true) := by
  unfold Known.modified at hn
  unfold ConfigFile.update
  simp only [Bool.true_and, beq_iff_eq] at hn ⊢
  split at hn
  · cases hn
  · next ht => rw [if_neg ht, hn]

theorem update_forced (env : ClientEnv) (file : ConfigFile) (fs : FileSys) : (file.update env fs false).1 =
    { file with modifyTime := latestModifyTime fs file.filename file.config.includes, config := (readConfigFile env fs file.filename).getD file.config } := by
  unfold ConfigFile.update
  simp only [Bool.false_and, Bool.false_eq_true, if_false]
  cases readConfigFile env fs file.filename <;> rfl

theorem KnowsAll.step {env : ClientEnv} {k : Known} {c : Client} (h : KnowsAll env k c) (op : UserOp) :
    KnowsAll env (k.step env op) (c.step env op.toClient) ∧
      (c.step env op.toClient).out = c.out ++ (userMessages env k [op]).map .server := by
  cases op with
  | focus op =>
    obtain ⟨h1, h2⟩ := h.toFollowsFocus.step op
    refine ⟨⟨h1, (focusStep_file env c op).trans h.whole⟩, ?_⟩
    rw [show UserOp.toClient (.focus op) = op.toClient from rfl, h2]
    simp only [userMessages, List.append_nil, List.map_map]
    rfl
  | update fs upd =>
    obtain ⟨⟨h1, h2, h3, h4, h5⟩, h6⟩ := h
    obtain ⟨⟨w, on⟩, file⟩ := k
    obtain ⟨cfile, crecent, ccontrol, cwindow, cactive, con, cconn, cout⟩ := c
    simp only at h1 h2 h3 h4 h5 h6
    subst h1; subst h3; subst h4; subst h6
    cases hmod : Known.modified env ⟨⟨cwindow, con⟩, cfile⟩ fs with
    | none =>
      simp only [UserOp.toClient, Client.step, Client.updateConfig, update_none hmod, Bool.false_eq_true, if_false, Known.step, Known.sends, Known.replaced, hmod, userMessages,
        List.append_nil, List.map_nil]
      exact ⟨⟨⟨rfl, rfl, rfl, rfl, h5⟩, rfl⟩, trivial⟩
    | some config =>
      simp only [UserOp.toClient, Client.step, Client.updateConfig, update_some hmod, if_true, Client.sendConfig, Client.send, Client.configSent, Known.step, Known.sends,
        Known.replaced, hmod, userMessages, List.append_nil]
      cases con with
      | false => exact ⟨⟨⟨rfl, rfl, rfl, rfl, rfl⟩, rfl⟩, rfl⟩
      | true =>
        cases upd with
        | some w' =>
          simp only [Client.updateActiveContexts, Bool.not_true, Bool.false_eq_true, if_false, if_true, (refresh_contexts env.rx _).1, Client.sendActiveContexts, Client.send,
            Option.getD_some, List.append_assoc]
          exact ⟨⟨⟨rfl, rfl, rfl, rfl, rfl⟩, rfl⟩, rfl⟩
        | none =>
          simp only [Client.updateActiveContexts, Bool.not_true, Bool.false_eq_true, if_false, if_true, (refresh_contexts env.rx _).1, Client.sendActiveContexts, Client.send,
            Option.getD_none, List.append_assoc, List.isEmpty_nil]
          exact ⟨⟨⟨rfl, rfl, rfl, rfl, rfl⟩, rfl⟩, rfl⟩
  | reload fs upd =>
    obtain ⟨⟨h1, h2, h3, h4, h5⟩, h6⟩ := h
    obtain ⟨⟨w, on⟩, file⟩ := k
    obtain ⟨cfile, crecent, ccontrol, cwindow, cactive, con, cconn, cout⟩ := c
    simp only at h1 h2 h3 h4 h5 h6
    subst h1; subst h3; subst h4; subst h6
    simp only [UserOp.toClient, Client.step, Client.updateConfig, update_forced, if_true, Client.sendConfig, Client.send, Client.configSent, Known.step, Known.sends,
      Known.replaced, userMessages, List.append_nil]
    cases con with
    | false => exact ⟨⟨⟨rfl, rfl, rfl, rfl, rfl⟩, rfl⟩, rfl⟩
    | true =>
      cases upd with
      | some w' =>
        simp only [Client.updateActiveContexts, Bool.not_true, Bool.false_eq_true, if_false, if_true, (refresh_contexts env.rx _).1, Client.sendActiveContexts, Client.send,
          Option.getD_some, List.append_assoc]
        exact ⟨⟨⟨rfl, rfl, rfl, rfl, rfl⟩, rfl⟩, rfl⟩
      | none =>
        simp only [Client.updateActiveContexts, Bool.not_true, Bool.false_eq_true, if_false, if_true, (refresh_contexts env.rx _).1, Client.sendActiveContexts, Client.send,
          Option.getD_none, List.append_assoc, List.isEmpty_nil]
        exact ⟨⟨⟨rfl, rfl, rfl, rfl, rfl⟩, rfl⟩, rfl⟩

theorem KnowsAll.run {env : ClientEnv} (ops : List UserOp) : ∀ {k : Known} {c : Client}, KnowsAll env k c →
    (c.run env (ops.map UserOp.toClient)).out = c.out ++ (userMessages env k ops).map .server := by
  induction ops with
  | nil => intro k c _; exact (List.append_nil _).symm
  | cons op ops ih =>
    intro k c h
    obtain ⟨h1, h2⟩ := h.step op
    have hm : userMessages env k (op :: ops) = userMessages env k [op] ++ userMessages env (k.step env op) ops := by
      simp only [userMessages, List.append_nil]
    rw [hm, List.map_append, ← List.append_assoc, ← h2]
    exact ih h1

/-- only configurations, and contexts of them, are sent -/
theorem userMessages_only (env : ClientEnv) (G : Config → Prop) (ops : List UserOp) : ∀ k : Known, G k.file.config →
    (∀ c, ToServer.config c ∈ userMessages env k ops → G c) → ∀ m ∈ userMessages env k ops,
    (∃ c, G c ∧ m = .config c) ∨ ∃ (f : KnownFocus) (c : Config), G c ∧ m = .activeContexts ((f.contexts env.rx c).map Int.ofNat) := by
  induction ops with
  | nil => intro k _ _ m hm; cases hm
  | cons op ops ih =>
    intro k hk hG m hm
    have hcons : userMessages env k (op :: ops) = userMessages env k [op] ++ userMessages env (k.step env op) ops := by
      simp only [userMessages, List.append_nil]
    rw [hcons] at hm
    rw [hcons] at hG
    have hsent : ∀ fs upd, op = .update fs upd ∨ op = .reload fs upd → ∀ o, k.sends env op = o →
        userMessages env k [op] = (match o with
          | none => []
          | some config => .config config :: (if k.focus.on then [.activeContexts (((k.step env op).focus.contexts env.rx config).map Int.ofNat)] else [])) ∧
        (k.step env op).file.config = o.getD k.file.config := by
      rintro fs upd (rfl | rfl) o rfl
      · simp only [userMessages, Known.step, List.append_nil]
        cases k.sends env (.update fs upd) <;> exact ⟨rfl, rfl⟩
      · simp only [userMessages, Known.step, List.append_nil]
        cases k.sends env (.reload fs upd) <;> exact ⟨rfl, rfl⟩
    have hcases : (∃ o, op = .focus o) ∨ ∃ fs upd, op = .update fs upd ∨ op = .reload fs upd := by
      cases op with
      | focus o => exact .inl ⟨o, rfl⟩
      | update fs upd => exact .inr ⟨fs, upd, .inl rfl⟩
      | reload fs upd => exact .inr ⟨fs, upd, .inr rfl⟩
    have hnext : G (k.step env op).file.config := by
      rcases hcases with ⟨o, rfl⟩ | ⟨fs, upd, h⟩
      · exact hk
      · obtain ⟨h1, h2⟩ := hsent fs upd h _ rfl
        rw [h2]
        cases hs : k.sends env op with
        | none => exact hk
        | some config =>
          rw [hs] at h1
          exact hG _ (List.mem_append_left _ (by rw [h1]; exact List.mem_cons_self ..))
    rcases List.mem_append.1 hm with hm | hm
    · rcases hcases with ⟨o, rfl⟩ | ⟨fs, upd, h⟩
      · simp only [userMessages, List.append_nil] at hm
        obtain ⟨l, hl, rfl⟩ := List.mem_map.1 hm
        obtain ⟨f, rfl⟩ := focusMessages_matching _ _ _ _ l hl
        exact .inr ⟨f, _, hk, rfl⟩
      · obtain ⟨h1, h2⟩ := hsent fs upd h _ rfl
        rw [h1] at hm
        cases hs : k.sends env op with
        | none => rw [hs] at hm; cases hm
        | some config =>
          rw [hs] at hm h2
          rw [h2] at hnext
          rcases List.mem_cons.1 hm with rfl | hm
          · exact .inl ⟨_, hnext, rfl⟩
          · split at hm
            · rw [List.mem_singleton.1 hm]
              exact .inr ⟨_, _, hnext, rfl⟩
            · cases hm
    · exact ih _ hnext (fun c hc => hG c (List.mem_append_right _ hc)) m hm

/-- the configuration can be sent, is not empty, and has no device filters -/
structure Usable (stagesOf : Config → List (List Context)) (c : Config) : Prop where
  fits : FitsConfig c
  size : (ToServer.config c).body.length < 2 ^ 32
  stages : StagesOf c.contexts (stagesOf c)
  nonempty : stagesOf c ≠ []
  devices : ∀ st ∈ stagesOf c, ∀ ctx ∈ st, ctx.hasDeviceFilter = false

/-- what the server is told -/
def ToServer.told (stagesOf : Config → List (List Context)) : ToServer → List Msg
  | .config c => [.configuration ((stagesOf c).map Cfg.make)]
  | .activeContexts l => [.activeContexts l]
  | _ => []

theorem allMean_told (isDown : Key → Bool) {stagesOf : Config → List (List Context)} (rx : Regex) (ms : List ToServer)
    (hm : ∀ m ∈ ms, (∃ c, Usable stagesOf c ∧ m = .config c) ∨ ∃ (f : KnownFocus) (c : Config), Usable stagesOf c ∧ m = .activeContexts ((f.contexts rx c).map Int.ofNat)) :
    ∀ rs, AllMean ms rs → rs.filterMap (FromClient.toMsg isDown) = ms.flatMap (ToServer.told stagesOf) := by
  induction ms with
  | nil => intro rs h; cases rs with
    | nil => rfl
    | cons r rs => cases h
  | cons m ms ih => intro rs h; cases rs with
    | nil => cases h
    | cons r rs =>
      obtain ⟨h1, h2⟩ := h
      have hrest := ih (fun x hx => hm x (List.mem_cons_of_mem _ hx)) rs h2
      rcases hm m (List.mem_cons_self ..) with ⟨c, hc, rfl⟩ | ⟨f, c, hc, rfl⟩
      · obtain ⟨st, hst, e⟩ := h1
        have := C29_stages_determined hst hc.stages
        subst this
        rw [e, List.filterMap_cons, List.flatMap_cons, ← hrest]
        rfl
      · rw [show r = _ from h1, List.filterMap_cons, List.flatMap_cons, ← hrest]
        rfl

/-- what the server receives -/
theorem received_history (env : ClientEnv) (fs : FileSys) (filename : Str) (upd : Option Window) (user : List UserOp) {config : Config} (hn : filename ≠ [])
    (ht : fs.mtime filename ≠ -1) (hr : readConfigFile env fs filename = some config)
    {msgs : List ToServer} (hmsgs : msgs = .activeContexts ((matchingContexts env.rx config (upd.getD {})).map Int.ofNat) ::
      userMessages env { focus := { window := upd.getD {} }, file := { filename := filename, modifyTime := latestModifyTime fs filename [], config := config } } user)
    {stagesOf : Config → List (List Context)} (huse : ∀ c, c = config ∨ ToServer.config c ∈ msgs → Usable stagesOf c) {chunks : List Bytes}
    (hchunks : chunks.flatten = sentBytes ((Client.start env fs filename).run env (.connect upd :: user.map UserOp.toClient)).out) (isDown : Key → Bool) :
    receivedMessages isDown chunks = (ToServer.config config :: msgs).flatMap (ToServer.told stagesOf) ∧
    ∀ m ∈ ToServer.config config :: msgs, (∃ c, Usable stagesOf c ∧ m = .config c) ∨
      ∃ (f : KnownFocus) (c : Config), Usable stagesOf c ∧ m = .activeContexts ((f.contexts env.rx c).map Int.ofNat) := by
  obtain ⟨h1, h2, h3, h4⟩ := start_config hn ht hr
  have hfile := start_file hn ht hr
  obtain ⟨hf, hout0⟩ := connect_follows (env := env) h2 h3 h4 upd
  have hcf := connect_file env (Client.start env fs filename) upd
  rw [hfile] at hcf
  rw [h1] at hf hout0
  have hall : KnowsAll env { focus := { window := upd.getD {} }, file := { filename := filename, modifyTime := latestModifyTime fs filename [], config := config } }
      ((Client.start env fs filename).run env [.connect upd]) := ⟨hf, hcf⟩
  have hrun : (Client.start env fs filename).run env (.connect upd :: user.map UserOp.toClient) =
      ((Client.start env fs filename).run env [.connect upd]).run env (user.map UserOp.toClient) := rfl
  rw [hrun, hall.run user, hout0] at hchunks
  have hbytes : chunks.flatten = (ToServer.config config :: msgs).flatMap (fun m => frame m.body) := by
    rw [hchunks, hmsgs]
    simp [sentBytes, List.flatMap_map]
  have honly : ∀ m ∈ ToServer.config config :: msgs, (∃ c, Usable stagesOf c ∧ m = .config c) ∨
      ∃ (f : KnownFocus) (c : Config), Usable stagesOf c ∧ m = .activeContexts ((f.contexts env.rx c).map Int.ofNat) := by
    intro m hm
    rcases List.mem_cons.1 hm with rfl | hm
    · exact .inl ⟨_, huse _ (.inl rfl), rfl⟩
    · rw [hmsgs] at hm
      rcases List.mem_cons.1 hm with rfl | hm
      · exact .inr ⟨{ window := upd.getD {} }, config, huse _ (.inl rfl), rfl⟩
      · exact userMessages_only env (Usable stagesOf) user _ (huse _ (.inl rfl)) (fun c hc => huse c (.inr (by rw [hmsgs]; exact List.mem_cons_of_mem _ hc))) m hm
  obtain ⟨rs, h5, h6⟩ := C30_conversation (by
      intro m hm
      rcases honly m hm with ⟨c, hc, rfl⟩ | ⟨f, c, hc, rfl⟩
      · exact ⟨hc.fits, hc.size⟩
      · exact contexts_fit env.rx hc.size f) hbytes
  have hrec : receivedMessages isDown chunks = (ToServer.config config :: msgs).flatMap (ToServer.told stagesOf) := by
    unfold receivedMessages
    rw [h6]
    exact allMean_told isDown env.rx _ honly rs h5
  exact ⟨hrec, honly⟩

/-- what happens to the stages -/
theorem history_ops (env : ClientEnv) (fs : FileSys) (filename : Str) (upd : Option Window) (user : List UserOp) {config : Config} (hn : filename ≠ [])
    (ht : fs.mtime filename ≠ -1) (hr : readConfigFile env fs filename = some config)
    {msgs : List ToServer} (hmsgs : msgs = .activeContexts ((matchingContexts env.rx config (upd.getD {})).map Int.ofNat) ::
      userMessages env { focus := { window := upd.getD {} }, file := { filename := filename, modifyTime := latestModifyTime fs filename [], config := config } } user)
    {stagesOf : Config → List (List Context)} (huse : ∀ c, c = config ∨ ToServer.config c ∈ msgs → Usable stagesOf c) {chunks : List Bytes}
    (hchunks : chunks.flatten = sentBytes ((Client.start env fs filename).run env (.connect upd :: user.map UserOp.toClient)).out)
    (isDown : Key → Bool) {first : List Msg} (hfirst : first ≠ []) (its : List Iteration)
    (harrive : first ++ its.flatMap (fun it => it.messages) = receivedMessages isDown chunks)
    (hi : ∀ it ∈ its, it.read = .other → it.messages = [])
    {ops : List ReloadOp} (hops : ops = first.tail.flatMap Msg.reloadOps ++ its.flatMap Iteration.reloadOps) :
    ops.flatMap ReloadOp.keys = (keysRead its).map (fun p => .input p.1 p.2) ∧
    ops.filter (fun op => !op.isKey) = msgs.flatMap (ToServer.reloadOps stagesOf) := by
  obtain ⟨hrec, -⟩ := received_history env fs filename upd user hn ht hr hmsgs huse hchunks isDown
  rw [hrec, List.flatMap_cons] at harrive
  have hopsOf : (msgs.flatMap (ToServer.told stagesOf)).flatMap Msg.reloadOps = msgs.flatMap (ToServer.reloadOps stagesOf) := by
    rw [List.flatMap_assoc]
    congr 1
    funext m
    cases m <;> rfl
  cases first with
  | nil => exact absurd rfl hfirst
  | cons m ms =>
    simp only [ToServer.told, List.cons_append, List.nil_append] at harrive
    injection harrive with e harrive
    rw [List.tail_cons] at hops
    constructor
    · rw [hops, List.flatMap_append, reload_keys_messages, reload_keys_its]
      rfl
    · rw [hops, List.filter_append, notKey_messages, notKey_its its hi, ← List.flatMap_append, harrive, hopsOf]

/-- **C97 (any history).** The client has read a configuration and connects. Then, while keys are typed, windows are focused, the client is paused and resumed, and the file is
modified (also such that it cannot be read) and reloaded any number of times and in any order. What the client sends arrives in whatever pieces, the first part (at least the
configuration) before the server reads keys, the rest in any iterations of its loop. Then the server outputs on the virtual device exactly what the stages output, which are input all keys
which are typed, in order, while in between the contexts are activated and the stages replaced exactly as specified by `userMessages`, in this order. -/
theorem C97_history (env : ClientEnv) (fs : FileSys) (filename : Str) (upd : Option Window) (user : List UserOp) {config : Config} (hn : filename ≠ [])
    (ht : fs.mtime filename ≠ -1) (hr : readConfigFile env fs filename = some config)
    {msgs : List ToServer} (hmsgs : msgs = .activeContexts ((matchingContexts env.rx config (upd.getD {})).map Int.ofNat) ::
      userMessages env { focus := { window := upd.getD {} }, file := { filename := filename, modifyTime := latestModifyTime fs filename [], config := config } } user)
    {stagesOf : Config → List (List Context)} (huse : ∀ c, c = config ∨ ToServer.config c ∈ msgs → Usable stagesOf c) {chunks : List Bytes}
    (hchunks : chunks.flatten = sentBytes ((Client.start env fs filename).run env (.connect upd :: user.map UserOp.toClient)).out)
    (rx : Regex) (isDown : Key → Bool) (ds : List DeviceDesc) {first : List Msg} (hfirst : first ≠ []) (its : List Iteration)
    (harrive : first ++ its.flatMap (fun it => it.messages) = receivedMessages isDown chunks)
    (hi : ∀ it ∈ its, (∀ ev dev, it.read = .key ev dev → KM.Ordinary ev.key) ∧ it.sendResults = [] ∧ it.regrab = false ∧ (it.read = .other → it.messages = []))
    {ops : List ReloadOp} (hops : ops = first.tail.flatMap Msg.reloadOps ++ its.flatMap Iteration.reloadOps)
    (hout : OnlyKeys (reloadRun ((stagesOf config).map stageInit) ops).2) (hexit : NoExit ((keysRead its).map (fun p => .input p.1 p.2))) :
    (({} : Srv).connection rx first ds its).out = (lastOutputs (reloadRun ((stagesOf config).map stageInit) ops).2).map Eff.sendKey ∧
    ops.flatMap ReloadOp.keys = (keysRead its).map (fun p => .input p.1 p.2) ∧
    ops.filter (fun op => !op.isKey) = msgs.flatMap (ToServer.reloadOps stagesOf) := by
  obtain ⟨hrec, honly⟩ := received_history env fs filename upd user hn ht hr hmsgs huse hchunks isDown
  have harrive0 := harrive
  rw [hrec, List.flatMap_cons] at harrive
  have htold : ∀ m ∈ msgs.flatMap (ToServer.told stagesOf), m.Reloads := by
    intro m hm
    obtain ⟨t, ht, hm⟩ := List.mem_flatMap.1 hm
    rcases honly t (List.mem_cons_of_mem _ ht) with ⟨c, hc, rfl⟩ | ⟨f, c, hc, rfl⟩
    · rw [List.mem_singleton.1 hm]; exact .inr ⟨_, hc.nonempty, hc.devices, rfl⟩
    · rw [List.mem_singleton.1 hm]; exact .inl ⟨_, rfl⟩
  have hopsBoth := history_ops env fs filename upd user hn ht hr hmsgs huse hchunks isDown hfirst its harrive0 (fun it h => (hi it h).2.2.2) hops
  cases first with
  | nil => exact absurd rfl hfirst
  | cons m ms =>
    simp only [ToServer.told, List.cons_append, List.nil_append] at harrive
    injection harrive with e harrive
    subst e
    rw [List.tail_cons] at hops
    have hu := huse config (.inl rfl)
    refine ⟨C97_connection rx hu.nonempty hu.devices ms ?_ ds its ?_ hops hout hexit, hopsBoth⟩
    · intro m hm
      exact htold m (by rw [← harrive]; exact List.mem_append_left _ hm)
    · intro it hit
      obtain ⟨g1, g2, g3, g4⟩ := hi it hit
      refine ⟨g1, g2, ?_, g3⟩
      intro m hm
      exact htold m (by rw [← harrive]; exact List.mem_append_right _ (List.mem_flatMap.2 ⟨it, hit, hm⟩))

/-! ### an example: while A is held the file cannot be read, the client is paused, the file is corrected, the client is resumed, and
let reload a file which cannot be read -/

def hiBad : FileSys :=
  { mtime := fun _ => 2, content := fun f => if f = ['c'] then some "A".toList else none, resolve := fun _ f => f, noName := rfl }

theorem hiBad_read : readConfigFile reEnv hiBad ['c'] = none := by
  have : (readConfigFile reEnv hiBad ['c']).isNone = true := by decide +kernel
  exact Option.isNone_iff_eq_none.1 this

def hiUser : List UserOp := [.update hiBad none, .focus (.pause none), .update (reFiles 3 'C') none, .focus (.pause none), .reload hiBad none]

def hiTyped : List Iteration :=
  [{ now := 1, read := .key ⟨Key.KeyA, .Down, 0⟩ 0 },
    { now := 2, messages := [.activeContexts []] },
    { now := 3, read := .key ⟨Key.KeyX, .Down, 0⟩ 0, messages := [.configuration [Cfg.make [replaceContext [(Key.KeyA, Key.KeyC)]]]] },
    { now := 4, read := .key ⟨Key.KeyA, .Up, 0⟩ 0 }, { now := 5, read := .key ⟨Key.KeyA, .Down, 0⟩ 0 },
    { now := 6, messages := [.activeContexts [0]] },
    { now := 7, read := .key ⟨Key.KeyA, .Up, 0⟩ 0 }, { now := 8, read := .key ⟨Key.KeyA, .Down, 0⟩ 0 },
    { now := 9, messages := [.configuration [Cfg.make [replaceContext [(Key.KeyA, Key.KeyC)]]], .activeContexts [0]] },
    { now := 10, read := .key ⟨Key.KeyA, .Up, 0⟩ 0 }]


theorem hi_usable {c : Config} {b : Key} (hb : Ordinary b) (h1 : markBegin c.contexts = [[replaceContext [(Key.KeyA, b)]]].flatMap markFirst)
    (hg : c.grabDeviceFilters = []) (hd : c.serverDirectives = []) : Usable (fun c => splitStages [] (markBegin c.contexts)) c := by
  obtain ⟨hfit, hsize, hst⟩ := re_config h1 hg hd rfl (by
    intro p hp
    rw [List.mem_singleton.1 hp]
    exact ⟨(by unfold Ordinary; decide : Ordinary Key.KeyA), hb⟩)
  have he : splitStages [] (markBegin c.contexts) = [[replaceContext [(Key.KeyA, b)]]] := by rw [h1]; rfl
  refine ⟨hfit, hsize, ?_, ?_, ?_⟩
  · rw [he]; exact hst
  · simp [he]
  · simp only [he]
    intro st hst ctx hctx
    rw [List.mem_singleton.1 hst] at hctx
    rw [List.mem_singleton.1 hctx]; rfl

theorem hi_iteration {it : Iteration} (hit : it ∈ hiTyped) : (∀ ev dev, it.read = .key ev dev → Ordinary ev.key) ∧ it.sendResults = [] ∧ it.regrab = false ∧
    (it.read = .other → it.messages = []) := by
  simp only [hiTyped, List.mem_cons, List.not_mem_nil, or_false] at hit
  rcases hit with rfl | rfl | rfl | rfl | rfl | rfl | rfl | rfl | rfl | rfl
  all_goals
    refine ⟨?_, rfl, rfl, (by intro h; cases h)⟩
    intro ev dev h
    first
      | (injection h with h1 h2; subst h1; unfold Ordinary; decide)
      | cases h

theorem hi_exit : NoExit ((keysRead hiTyped).map (fun p => .input p.1 p.2)) := by
  rintro before last after h ⟨a, b, c, rfl⟩
  have h2 : (Key.Escape, KeyState.Down) ∈ strokes ((keysRead hiTyped).map (fun p => .input p.1 p.2)) := by
    rw [h]; simp
  exact absurd h2 (by decide)

set_option synthInstance.maxSize 1000 in
theorem hi_read : (readConfigFile reEnv (reFiles 3 'C') ['c']).map (fun c => (markBegin c.contexts, c.grabDeviceFilters, c.serverDirectives, c.includes,
    matchingContexts reEnv.rx c {})) = some ([[replaceContext [(Key.KeyA, Key.KeyC)]]].flatMap markFirst, [], [], [], [0]) := by decide +kernel

example (rx : Regex) : (({} : Srv).connection rx [.configuration [Cfg.make [replaceContext [(Key.KeyA, Key.KeyB)]]], .activeContexts [0]] [] hiTyped).out =
    [.sendKey ⟨Key.KeyB, .Down, 0⟩, .sendKey ⟨Key.KeyX, .Down, 0⟩, .sendKey ⟨Key.KeyB, .Up, 0⟩, .sendKey ⟨Key.KeyX, .Up, 0⟩,
      .sendKey ⟨Key.KeyA, .Down, 0⟩, .sendKey ⟨Key.KeyA, .Up, 0⟩, .sendKey ⟨Key.KeyC, .Down, 0⟩, .sendKey ⟨Key.KeyC, .Up, 0⟩] := by
  obtain ⟨config, hr, hc⟩ := Option.map_eq_some_iff.1 reRead1
  obtain ⟨config', hr', hc'⟩ := Option.map_eq_some_iff.1 hi_read
  simp only [Prod.mk.injEq] at hc hc'
  obtain ⟨h1, hg, hd, hin, hw⟩ := hc
  obtain ⟨h1', hg', hd', hin', hw'⟩ := hc'
  have hu := hi_usable (b := Key.KeyB) (by unfold Ordinary; decide) h1 hg hd
  have hu' := hi_usable (b := Key.KeyC) (by unfold Ordinary; decide) h1' hg' hd'
  have ht2 : latestModifyTime hiBad ['c'] [] = 2 := by decide
  have ht3 : latestModifyTime (reFiles 3 'C') ['c'] [] = 3 := by decide
  have ht1 : latestModifyTime (reFiles 1 'B') ['c'] [] = 1 := by decide
  have hmsgs : [ToServer.activeContexts [0], .activeContexts [], .config config', .activeContexts [0], .config config', .activeContexts [0]] =
      .activeContexts ((matchingContexts reEnv.rx config ((none : Option Window).getD {})).map Int.ofNat) ::
      userMessages reEnv { focus := { window := (none : Option Window).getD {} }, file := { filename := ['c'], modifyTime := latestModifyTime (reFiles 1 'B') ['c'] [], config := config } } hiUser := by
    simp [hiUser, userMessages, Known.modified, Known.sends, Known.replaced, Known.step, hin, ht1, ht2, ht3, hiBad_read, hr', hw, hw', focusMessages, KnownFocus.step, KnownFocus.contexts]
  have hfl : ∀ bytes : Bytes, [bytes].flatten = bytes := by intro bytes; simp
  have huse : ∀ c, c = config ∨ ToServer.config c ∈ [ToServer.activeContexts [0], .activeContexts [], .config config', .activeContexts [0], .config config', .activeContexts [0]] →
      Usable (fun c => splitStages [] (markBegin c.contexts)) c := by
    intro c hc
    simp only [List.mem_cons, List.not_mem_nil, or_false, reduceCtorEq, false_or, ToServer.config.injEq] at hc
    rcases hc with rfl | rfl | rfl
    · exact hu
    · exact hu'
    · exact hu'
  have he : splitStages [] (markBegin config.contexts) = [[replaceContext [(Key.KeyA, Key.KeyB)]]] := by rw [h1]; rfl
  have he' : splitStages [] (markBegin config'.contexts) = [[replaceContext [(Key.KeyA, Key.KeyC)]]] := by rw [h1']; rfl
  have hrec := (received_history reEnv (reFiles 1 'B') ['c'] none hiUser (by decide) (by decide) hr hmsgs huse (hfl _) (fun _ => false)).1
  have h := (C97_history reEnv (reFiles 1 'B') ['c'] none hiUser (by decide) (by decide) hr hmsgs huse (hfl _) rx (fun _ => false) []
    (first := [.configuration [Cfg.make [replaceContext [(Key.KeyA, Key.KeyB)]]], .activeContexts [0]]) (by simp) hiTyped (by
      rw [hrec]
      simp only [ToServer.told, List.flatMap_cons, List.flatMap_nil, he, he', hiTyped]
      rfl) (fun it hit => hi_iteration hit) rfl (by
      rw [he]
      apply re_only
      decide +kernel) hi_exit).1
  rw [h, he]
  decide +kernel

end KM
