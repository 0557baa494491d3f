import Verif.Spec.Unmapped
import Verif.Props.Transparent
import Verif.Props.Focus
import Verif.Props.ReloadHistory
/-!
# C98: keys which are not mapped by any stage, from the client to the virtual device
-/
namespace KM

theorem inputs_fold (ops : List StageOp) (a : KeySequence × Int) : (ops.foldl pressStep a).1 = a.1 ++ inputEvents ops := by
  induction ops generalizing a with
  | nil => simp [inputEvents]
  | cons op ops ih => rw [List.foldl_cons, ih]; cases op <;> simp [pressStep, inputEvents]

theorem held_snoc (a : KeySequence) (e : KeyEvent) (k : Key) : heldAfter (a ++ [e]) k = heldStep k (heldAfter a k) e := by
  rw [heldAfter_append]; rfl

theorem device_fold {d : Int} (ops : List StageOp) : (∀ ev dev, StageOp.input ev dev ∈ ops → dev = d) → ∀ a : KeySequence × Int,
    (a.2 = d ∨ d = noDeviceIndex ∨ ∀ k, heldAfter a.1 k = false) →
    ((ops.foldl pressStep a).2 = d ∨ d = noDeviceIndex ∨ ∀ k, heldAfter (ops.foldl pressStep a).1 k = false) := by
  induction ops with
  | nil => intro _ a h; exact h
  | cons op ops ih =>
    intro hd a h
    rw [List.foldl_cons]
    refine ih (fun ev dev h => hd ev dev (List.mem_cons_of_mem _ h)) _ ?_
    cases op with
    | input ev dev =>
      have := hd ev dev (List.mem_cons_self ..)
      subst this
      by_cases hn : dev = noDeviceIndex
      · exact .inr (.inl hn)
      · simp only [pressStep]
        by_cases hc : ev.state = .Down ∧ heldAfter a.1 ev.key = false ∧ dev ≠ noDeviceIndex
        · rw [if_pos hc]; exact .inl rfl
        · rw [if_neg hc]
          rcases h with h | h | h
          · exact .inl h
          · exact absurd h hn
          · refine .inr (.inr ?_)
            intro k
            rw [held_snoc, h k]
            unfold heldStep
            have : ev.state ≠ .Down := fun hs => hc ⟨hs, h _, hn⟩
            simp [this]
    | contexts l => exact h
    | devices rx ds => exact h
    | validate f => exact h

/-- a stage which had only inputs of these keys, the same are held as those typed -/
def Mirrors (K : Key → Prop) (d : Int) (typed : KeySequence) (contexts : List Context) (st : Cfg × S) : Prop :=
  ∃ past, st = (stageRun (stageInit contexts) past).1 ∧ st.1 = (stageInit contexts).1 ∧ (∀ op ∈ past, op.Leaves K contexts) ∧
    (∀ k, heldAfter (inputEvents past) k = heldAfter typed k) ∧ ∀ ev dev, StageOp.input ev dev ∈ past → dev = d

theorem stageRun_concat (st : Cfg × S) (past : List StageOp) (op : StageOp) :
    (stageRun st (past ++ [op])).1 = (stageStep (stageRun st past).1 op).1 := by
  induction past generalizing st with
  | nil => rfl
  | cons o past ih => exact ih _

theorem Mirrors.input {K : Key → Prop} {d : Int} {typed : KeySequence} {contexts : List Context} {st : Cfg × S} (hK : RealKeys K)
    (hv : ∀ k, K k → isVirtualKey k = false) (h : Mirrors K d typed contexts st) {ev : KeyEvent} (hk : K ev.key) (hs : ev.state = .Down ∨ ev.state = .Up)
    (h0 : ev.state = .Up → ev.value = 0) :
    (stageStep st (.input ev d)).2 = (if ev.state = .Up ∧ heldAfter typed ev.key = false then [] else [ev]) ∧
    Mirrors K d (typed ++ [ev]) contexts (stageStep st (.input ev d)).1 := by
  obtain ⟨past, h1, h2, h3, h4, h5⟩ := h
  have hp := C05_unmapped_key_passes contexts K hK past h3 ev d hk
  simp only [] at hp
  obtain ⟨p1, p2, p3, p4, p5⟩ := hp.2 (hv _ hk)
  rw [h4] at p1 p2 p3 p4 p5
  rw [← h1] at p1 p2 p3 p4 p5
  constructor
  · rcases hs with hs | hs
    · rw [if_neg (by rw [hs]; intro h; cases h.1)]
      cases hh : heldAfter typed ev.key with
      | false => exact p1 hs hh
      | true =>
        refine p3 hs hh ?_
        have := device_fold past h5 ([], noDeviceIndex) (.inr (.inr (fun _ => rfl)))
        rcases this with h | h | h
        · exact .inr h.symm
        · exact .inl h
        · have e := inputs_fold past ([], noDeviceIndex)
          have := h ev.key
          rw [e, List.nil_append, h4, hh] at this
          cases this
    · cases hh : heldAfter typed ev.key with
      | false => rw [if_pos ⟨hs, rfl⟩]; exact p5 hs hh
      | true =>
        rw [if_neg (by intro h; cases h.2), p4 hs hh]
        have : ev = ⟨ev.key, .Up, 0⟩ := by
          obtain ⟨k, s, v⟩ := ev
          simp only at hs h0 ⊢
          rw [h0 hs, hs]
        rw [← this]
  · refine ⟨past ++ [.input ev d], ?_, h2, ?_, ?_, ?_⟩
    · rw [stageRun_concat, ← h1]
    · intro op hop
      rcases List.mem_append.1 hop with hop | hop
      · exact h3 op hop
      · rw [List.mem_singleton.1 hop]; exact ⟨hk, hs⟩
    · intro k
      rw [inputEvents_append]
      show heldAfter (inputEvents past ++ [ev]) k = _
      rw [held_snoc, held_snoc, h4]
    · intro e dev hop
      rcases List.mem_append.1 hop with hop | hop
      · exact h5 e dev hop
      · injection List.mem_singleton.1 hop

theorem Mirrors.contexts {K : Key → Prop} {d : Int} {typed : KeySequence} {contexts : List Context} {st : Cfg × S} (hK : RealKeys K)
    (h : Mirrors K d typed contexts st) {l : List Nat} (hl : (StageOp.contexts l).Leaves K contexts) :
    (stageStep st (.contexts l)).2 = [] ∧ Mirrors K d typed contexts (stageStep st (.contexts l)).1 := by
  obtain ⟨past, h1, h2, h3, h4, h5⟩ := h
  constructor
  · rw [h1]
    exact C05_switching_is_silent contexts K hK past h3 _ hl (by intro _ _ h; cases h)
  · refine ⟨past ++ [.contexts l], ?_, h2, ?_, ?_, ?_⟩
    · rw [stageRun_concat, ← h1]
    · intro op hop
      rcases List.mem_append.1 hop with hop | hop
      · exact h3 op hop
      · rw [List.mem_singleton.1 hop]; exact hl
    · intro k
      rw [inputEvents_append]
      show heldAfter (inputEvents past ++ []) k = _
      rw [List.append_nil, h4]
    · intro e dev hop
      rcases List.mem_append.1 hop with hop | hop
      · exact h5 e dev hop
      · cases List.mem_singleton.1 hop

/-- a release of a key which is not held changes nothing -/
theorem Mirrors.same {K : Key → Prop} {d : Int} {typed : KeySequence} {contexts : List Context} {st : Cfg × S} (h : Mirrors K d typed contexts st) {ev : KeyEvent}
    (hs : ev.state = .Up) (hh : heldAfter typed ev.key = false) : Mirrors K d (typed ++ [ev]) contexts st := by
  obtain ⟨past, h1, h2, h3, h4, h5⟩ := h
  refine ⟨past, h1, h2, h3, ?_, h5⟩
  intro k
  rw [held_snoc, h4]
  unfold heldStep
  by_cases hk : ev.key = k
  · rw [if_pos hk, hs, ← hk, hh]; rfl
  · rw [if_neg hk]

/-- all stages -/
def AllMirror (K : Key → Prop) (d : Int) (typed : KeySequence) : List (List Context) → List (Cfg × S) → Prop
  | [], sts => sts = []
  | contexts :: rest, sts => ∃ st sts', sts = st :: sts' ∧ Mirrors K d typed contexts st ∧ AllMirror K d typed rest sts'

theorem allMirror_init (K : Key → Prop) (d : Int) (stages : List (List Context)) : AllMirror K d [] stages (stages.map stageInit) := by
  induction stages with
  | nil => rfl
  | cons contexts rest ih =>
    exact ⟨_, _, rfl, ⟨[], rfl, rfl, (by intro op h; cases h), (fun _ => rfl), (by intro e dev h; cases h)⟩, ih⟩

theorem AllMirror.same {K : Key → Prop} {d : Int} {typed : KeySequence} {ev : KeyEvent} (hs : ev.state = .Up) (hh : heldAfter typed ev.key = false)
    (stages : List (List Context)) : ∀ sts, AllMirror K d typed stages sts → AllMirror K d (typed ++ [ev]) stages sts ∧
      (stagesInput d sts []).1 = sts ∧ ∀ o ∈ (stagesInput d sts []).2, o = [] := by
  induction stages with
  | nil => rintro sts rfl; exact ⟨rfl, rfl, by intro o h; cases h⟩
  | cons contexts rest ih =>
    rintro sts ⟨st, sts', rfl, h1, h2⟩
    obtain ⟨g1, g2, g3⟩ := ih sts' h2
    refine ⟨⟨st, sts', rfl, h1.same hs hh, g1⟩, ?_, ?_⟩
    · simp only [stagesInput, List.map_nil, stageRun, g2]
    · intro o ho
      simp only [stagesInput, List.map_nil, stageRun] at ho
      rcases List.mem_cons.1 ho with rfl | ho
      · rfl
      · exact g3 o ho

theorem AllMirror.input {K : Key → Prop} {d : Int} {typed : KeySequence} (hK : RealKeys K) (hv : ∀ k, K k → isVirtualKey k = false) {ev : KeyEvent} (hk : K ev.key)
    (hs : ev.state = .Down ∨ ev.state = .Up) (h0 : ev.state = .Up → ev.value = 0) (stages : List (List Context)) : ∀ sts, AllMirror K d typed stages sts →
    AllMirror K d (typed ++ [ev]) stages (stagesInput d sts [ev]).1 ∧
    (stagesInput d sts [ev]).2.length = sts.length ∧
    ∀ o ∈ (stagesInput d sts [ev]).2, o = (if ev.state = .Up ∧ heldAfter typed ev.key = false then [] else [ev]) := by
  induction stages with
  | nil => rintro sts rfl; exact ⟨rfl, rfl, by intro o h; cases h⟩
  | cons contexts rest ih =>
    rintro sts ⟨st, sts', rfl, h1, h2⟩
    obtain ⟨g1, g2⟩ := h1.input hK hv hk hs h0
    have hrun : stageRun st ([ev].map (fun e => .input e d)) = ((stageStep st (.input ev d)).1, (stageStep st (.input ev d)).2) := by
      simp only [List.map_cons, List.map_nil, stageRun, List.append_nil]
    by_cases hc : ev.state = .Up ∧ heldAfter typed ev.key = false
    · rw [if_pos hc] at g1
      rw [g1] at hrun
      obtain ⟨k1, k2, k3⟩ := AllMirror.same hc.1 hc.2 rest sts' h2
      have hl : (stagesInput d sts' []).2.length = sts'.length := by
        have : ∀ (sts : List (Cfg × S)) evs, (stagesInput d sts evs).2.length = sts.length := by
          intro sts
          induction sts with
          | nil => intro evs; rfl
          | cons a l ih => intro evs; simp only [stagesInput, List.length_cons, ih]
        exact this _ _
      simp only [stagesInput, hrun, if_pos hc]
      refine ⟨⟨_, _, rfl, g2, by rw [k2]; exact k1⟩, by simp only [List.length_cons, hl], ?_⟩
      intro o ho
      rcases List.mem_cons.1 ho with rfl | ho
      · rfl
      · exact k3 o ho
    · rw [if_neg hc] at g1
      rw [g1] at hrun
      obtain ⟨k1, k2, k3⟩ := ih sts' h2
      simp only [stagesInput, hrun]
      refine ⟨⟨_, _, rfl, g2, k1⟩, by simp only [List.length_cons, k2], ?_⟩
      intro o ho
      rcases List.mem_cons.1 ho with rfl | ho
      · rw [if_neg hc]
      · exact k3 o ho

theorem AllMirror.contexts {K : Key → Prop} {d : Int} {typed : KeySequence} (hK : RealKeys K) {l : List Int} (stages : List (List Context)) :
    ∀ off sts, ActivatesForeign K l off stages → AllMirror K d typed stages sts →
    AllMirror K d typed stages (stagesContexts l off sts []).1 ∧ ∀ o ∈ (stagesContexts l off sts []).2, o = [] := by
  induction stages with
  | nil => rintro off sts _ rfl; exact ⟨rfl, by intro o h; cases h⟩
  | cons contexts rest ih =>
    rintro off sts ⟨a1, a2⟩ ⟨st, sts', rfl, h1, h2⟩
    have hlen : st.1.contexts.length = contexts.length := by
      obtain ⟨_, _, e, _⟩ := h1
      rw [e]
      show (contexts.map _).length = _
      exact List.length_map _
    obtain ⟨g1, g2⟩ := h1.contexts hK a1
    have hrun : stageRun st (([] : KeySequence).map (fun e => .input e noDeviceIndex) ++ [.contexts (ownContexts l off contexts.length)]) =
        ((stageStep st (.contexts (ownContexts l off contexts.length))).1, []) := by
      simp only [List.map_nil, List.nil_append, stageRun, g1, List.append_nil]
    obtain ⟨k1, k2⟩ := ih (off + contexts.length) sts' a2 h2
    simp only [stagesContexts, hlen, hrun]
    refine ⟨⟨_, _, rfl, g2, k1⟩, ?_⟩
    intro o ho
    rcases List.mem_cons.1 ho with rfl | ho
    · rfl
    · exact k2 o ho

theorem getLastD_all {α} {l : List (List α)} {x : List α} (h : ∀ o ∈ l, o = x) (hl : l ≠ []) : l.getLastD [] = x := by
  rw [List.getLastD_eq_getLast?, List.getLast?_eq_some_getLast hl]
  exact h _ (List.getLast_mem hl)

/-- **C98 (stages).** Keys which no context mentions which is activated in any of the stages pass all stages, as they are typed. -/
theorem C98_stages {K : Key → Prop} {d : Int} (hK : RealKeys K) (hv : ∀ k, K k → isVirtualKey k = false) {stages : List (List Context)} (hne : stages ≠ [])
    (ops : List StagesOp) (hops : ∀ op ∈ ops, op.Foreign K d stages) :
    lastOutputs (stagesRun (stages.map stageInit) ops).2 = asTyped [] ((ops.filterMap StagesOp.typed).map (·.1)) ∧
    ∀ os ∈ (stagesRun (stages.map stageInit) ops).2, ∀ o ∈ os, ∀ e ∈ o, K e.key := by
  suffices h : ∀ ops : List StagesOp, (∀ op ∈ ops, op.Foreign K d stages) → ∀ typed sts, AllMirror K d typed stages sts →
      lastOutputs (stagesRun sts ops).2 = asTyped typed ((ops.filterMap StagesOp.typed).map (·.1)) ∧
      ∀ os ∈ (stagesRun sts ops).2, ∀ o ∈ os, ∀ e ∈ o, K e.key from h ops hops [] _ (allMirror_init K d stages)
  intro ops
  induction ops with
  | nil => intro _ typed sts _; exact ⟨rfl, by intro os h; cases h⟩
  | cons op ops ih =>
    intro hops typed sts hm
    have hop := hops op (List.mem_cons_self ..)
    have hrest := fun o ho => hops o (List.mem_cons_of_mem _ ho)
    cases op with
    | input ev dev =>
      obtain ⟨rfl, hk, hs, h0⟩ := hop
      obtain ⟨g1, g2, g3⟩ := AllMirror.input hK hv hk hs h0 stages sts hm
      obtain ⟨k1, k2⟩ := ih hrest _ _ g1
      constructor
      · simp only [stagesRun, stagesStep, lastOutputs, List.flatMap_cons, List.filterMap_cons, StagesOp.typed, List.map_cons, asTyped]
        rw [getLastD_all g3]
        · exact congrArg _ k1
        · intro he
          rw [he] at g2
          cases stages with
          | nil => exact hne rfl
          | cons c rest => obtain ⟨st, sts', rfl, _⟩ := hm; cases g2
      · intro os hos
        simp only [stagesRun, stagesStep] at hos
        rcases List.mem_cons.1 hos with rfl | hos
        · intro o ho e he
          rw [g3 o ho] at he
          split at he
          · cases he
          · rw [List.mem_singleton.1 he]; exact hk
        · exact k2 os hos
    | contexts l =>
      obtain ⟨g1, g3⟩ := AllMirror.contexts hK stages 0 sts hop hm
      obtain ⟨k1, k2⟩ := ih hrest _ _ g1
      constructor
      · simp only [stagesRun, stagesStep, lastOutputs, List.flatMap_cons, List.filterMap_cons, StagesOp.typed]
        have : (stagesContexts l 0 sts []).2.getLastD [] = [] := by
          by_cases he : (stagesContexts l 0 sts []).2 = []
          · rw [he]; rfl
          · exact getLastD_all g3 he
        rw [this, List.nil_append]
        exact k1
      · intro os hos
        simp only [stagesRun, stagesStep] at hos
        rcases List.mem_cons.1 hos with rfl | hos
        · intro o ho e he
          rw [g3 o ho] at he
          cases he
        · exact k2 os hos

theorem activatesForeign_nil (K : Key → Prop) (stages : List (List Context)) : ∀ off, ActivatesForeign K [] off stages := by
  induction stages with
  | nil => intro off; trivial
  | cons contexts rest ih => intro off; exact ⟨(by intro i h; cases h), ih _⟩

theorem activatesForeign_all {K : Key → Prop} (l : List Int) (stages : List (List Context)) : (∀ st ∈ stages, ∀ ctx ∈ st, ctx.Leaves K) →
    ∀ off, ActivatesForeign K l off stages := by
  induction stages with
  | nil => intro _ off; trivial
  | cons contexts rest ih =>
    intro h off
    refine ⟨?_, ih (fun st hst => h st (List.mem_cons_of_mem _ hst)) _⟩
    intro i _ j _ ctx hctx
    exact h contexts (List.mem_cons_self ..) ctx (List.mem_of_getElem? hctx)

/-- **C98.** The client has read a configuration of any number of stages and connects, while windows are focused and it is paused and resumed. The typed keys are not
mentioned in the input of any mapping (which neither contains `Any`, nor maps the activation of its context), or no context matches any of the focused windows. Then on the
virtual device appears exactly what is typed, event by event and in order, including repetitions; only releases of keys which are not held do not appear. -/
theorem C98_unmapped (env : ClientEnv) (fs : FileSys) (filename : Str) (upd : Option Window) (focus : List FocusOp) {config : Config} (hn : filename ≠ [])
    (ht : fs.mtime filename ≠ -1) (hr : readConfigFile env fs filename = some config) (hfit : FitsConfig config)
    (hsize : (ToServer.config config).body.length < 2 ^ 32) {stages : List (List Context)} (hst : StagesOf config.contexts stages) (hne : stages ≠ [])
    (hdev : ∀ st ∈ stages, ∀ ctx ∈ st, ctx.hasDeviceFilter = false) {chunks : List Bytes}
    (hchunks : chunks.flatten = sentBytes ((Client.start env fs filename).run env (.connect upd :: focus.map FocusOp.toClient)).out)
    (rx : Regex) (isDown : Key → Bool) (ds : List DeviceDesc) {first : List Msg} (hfirst : first ≠ []) (its : List Iteration)
    (harrive : first ++ its.flatMap (fun it => it.messages) = receivedMessages isDown chunks)
    (hi : ∀ it ∈ its, it.Ordinary true ∧ (it.read = .other → it.messages = []))
    {K : Key → Prop} (hK : ∀ k, K k → Ordinary k) {d : Int}
    (hkeys : ∀ p ∈ keysRead its, p.2 = d ∧ K p.1.key ∧ (p.1.state = .Down ∨ p.1.state = .Up) ∧ (p.1.state = .Up → p.1.value = 0))
    (hleave : (∀ st ∈ stages, ∀ ctx ∈ st, ctx.Leaves K) ∨
      ∀ l ∈ matchingContexts env.rx config (upd.getD {}) :: focusMessages env.rx config { window := upd.getD {} } focus, l = [])
    (hexit : NoExit ((keysRead its).map (fun p => .input p.1 p.2))) :
    (({} : Srv).connection rx first ds its).out = (asTyped [] ((keysRead its).map (·.1))).map Eff.sendKey := by
  obtain ⟨ops, hops⟩ : ∃ ops, ops = first.flatMap Msg.stagesOps ++ its.flatMap Iteration.stagesOps := ⟨_, rfl⟩
  have hord : ∀ it ∈ its, it.Ordinary true := fun it h => (hi it h).1
  have htyped : ops.filterMap StagesOp.typed = keysRead its := by
    rw [hops, List.filterMap_append, typed_messages, List.nil_append, typed_its its hord]
  have hactive : ops.filterMap StagesOp.activated =
      (matchingContexts env.rx config (upd.getD {}) :: focusMessages env.rx config { window := upd.getD {} } focus).map (fun l => l.map Int.ofNat) := by
    rw [hops, List.filterMap_append, activated_its its (fun it h => (hi it h).2), ← List.filterMap_append, ← List.flatMap_append, harrive,
      received_focus env fs filename upd focus hn ht hr hfit hsize hst hchunks isDown, List.flatMap_cons, List.filterMap_append, activated_messages]
    rfl
  have hforeign : ∀ op ∈ ops, op.Foreign K d stages := by
    intro op hop
    cases op with
    | input ev dev =>
      have : (ev, dev) ∈ keysRead its := by
        rw [← htyped]
        exact List.mem_filterMap.2 ⟨_, hop, rfl⟩
      exact hkeys _ this
    | contexts l =>
      rcases hleave with h | h
      · exact activatesForeign_all l stages h 0
      · have hl : l ∈ ops.filterMap StagesOp.activated := List.mem_filterMap.2 ⟨_, hop, rfl⟩
        rw [hactive] at hl
        obtain ⟨l', hl', rfl⟩ := List.mem_map.1 hl
        rw [h l' hl']
        exact activatesForeign_nil K stages 0
  have hreal : RealKeys K := by
    intro k hk
    have hb := (hK k hk).1
    refine ⟨?_, ?_, ?_⟩ <;> (intro he; rw [he] at hb; exact absurd hb (by decide))
  have hvirtual : ∀ k, K k → isVirtualKey k = false := fun k hk =>
    (ordinary_sendable (e := ⟨k, .Down, 0⟩) (hK k hk)).2.1
  obtain ⟨h1, h2⟩ := C98_stages hreal hvirtual hne ops hforeign
  have := (C96_follow env fs filename upd focus hn ht hr hfit hsize hst hne hdev hchunks rx isDown ds hfirst its harrive hi hops
    (fun os hos o ho e he => ordinary_sendable (hK _ (h2 os hos o ho e he))) hexit).1
  rw [this, h1, htyped]

/-! ### also while the configuration is replaced -/

theorem AllMirror.last {K : Key → Prop} {d : Int} {typed : KeySequence} (stages : List (List Context)) : stages ≠ [] → ∀ sts, AllMirror K d typed stages sts →
    ∃ contexts st, sts.getLast? = some st ∧ Mirrors K d typed contexts st := by
  induction stages with
  | nil => intro h; exact absurd rfl h
  | cons contexts rest ih =>
    rintro _ sts ⟨st, sts', rfl, h1, h2⟩
    cases rest with
    | nil => cases h2; exact ⟨contexts, st, rfl, h1⟩
    | cons c r =>
      obtain ⟨cs, st', h3, h4⟩ := ih (by simp) sts' h2
      refine ⟨cs, st', ?_, h4⟩
      rw [List.getLast?_cons, h3]; rfl

theorem AllMirror.released {K : Key → Prop} {d : Int} {typed : KeySequence} (hK : ∀ k, K k → Ordinary k) (hreal : RealKeys K) (hv : ∀ k, K k → isVirtualKey k = false)
    {stages : List (List Context)} (hne : stages ≠ []) {sts : List (Cfg × S)} (h : AllMirror K d typed stages sts) :
    (∀ k, k ∈ heldOutput sts ↔ heldAfter typed k = true) ∧ (heldOutput sts).Nodup := by
  obtain ⟨contexts, st, h1, past, h2, -, h3, h4, -⟩ := AllMirror.last stages hne sts h
  have hd := unmapped_down contexts K hreal past h3
  rw [← h2] at hd
  constructor
  · intro k
    simp only [heldOutput, h1, List.mem_filter, (hd k).1, h4]
    constructor
    · intro h; exact h.1.1
    · intro h
      have hk := (hd k).2 (by rw [h4]; exact h)
      exact ⟨⟨h, hv k hk⟩, (hK k hk).1⟩
  · simp only [heldOutput, h1]
    refine List.Nodup.sublist List.filter_sublist ?_
    rw [h2]
    exact C06_held_once contexts past

/-- **C98 (replacing the configuration).** Keys which are not mentioned by any of the configurations which replace each other pass all stages as they are typed; whenever the
configuration is replaced exactly those which are held are released. -/
theorem C98_reload {K : Key → Prop} {d : Int} (hK : ∀ k, K k → Ordinary k) {stages : List (List Context)} (hne : stages ≠ [])
    (hleave : ∀ st ∈ stages, ∀ ctx ∈ st, ctx.Leaves K) (ops : List ReloadOp) (hops : ∀ op ∈ ops, op.Foreign K d) :
    AppearsAs [] ops (lastOutputs (reloadRun (stages.map stageInit) ops).2) ∧ OnlyKeys (reloadRun (stages.map stageInit) ops).2 := by
  have hreal : RealKeys K := by
    intro k hk
    have hb := (hK k hk).1
    refine ⟨?_, ?_, ?_⟩ <;> (intro he; rw [he] at hb; exact absurd hb (by decide))
  have hv : ∀ k, K k → isVirtualKey k = false := fun k hk => (ordinary_sendable (e := ⟨k, .Down, 0⟩) (hK k hk)).2.1
  suffices h : ∀ ops : List ReloadOp, (∀ op ∈ ops, op.Foreign K d) → ∀ stages : List (List Context), stages ≠ [] → (∀ st ∈ stages, ∀ ctx ∈ st, ctx.Leaves K) →
      ∀ typed sts, AllMirror K d typed stages sts → AppearsAs typed ops (lastOutputs (reloadRun sts ops).2) ∧ OnlyKeys (reloadRun sts ops).2 from
    h ops hops stages hne hleave [] _ (allMirror_init K d stages)
  intro ops
  induction ops with
  | nil => intro _ stages _ _ typed sts _; exact ⟨.nil, by intro os h; cases h⟩
  | cons op ops ih =>
    intro hops stages hne hleave typed sts hm
    have hop := hops op (List.mem_cons_self ..)
    have hrest := fun o ho => hops o (List.mem_cons_of_mem _ ho)
    match op, hop with
    | .stages (.input ev dev), hop =>
      obtain ⟨rfl, hk, hs, h0⟩ := hop
      obtain ⟨g1, g2, g3⟩ := AllMirror.input hreal hv hk hs h0 stages sts hm
      obtain ⟨k1, k2⟩ := ih hrest stages hne hleave _ _ g1
      constructor
      · simp only [reloadRun, reloadStep, stagesStep, lastOutputs, List.flatMap_cons]
        rw [getLastD_all g3]
        · exact .key k1
        · intro he
          rw [he] at g2
          cases stages with
          | nil => exact hne rfl
          | cons c rest => obtain ⟨st, sts', rfl, _⟩ := hm; cases g2
      · intro os hos
        simp only [reloadRun, reloadStep, stagesStep] at hos
        rcases List.mem_cons.1 hos with rfl | hos
        · intro o ho e he
          rw [g3 o ho] at he
          split at he
          · cases he
          · rw [List.mem_singleton.1 he]; exact ordinary_sendable (hK _ hk)
        · exact k2 os hos
    | .stages (.contexts l), hop =>
      obtain ⟨g1, g3⟩ := AllMirror.contexts hreal stages 0 sts (activatesForeign_all l stages hleave 0) hm
      obtain ⟨k1, k2⟩ := ih hrest stages hne hleave _ _ g1
      constructor
      · simp only [reloadRun, reloadStep, stagesStep, lastOutputs, List.flatMap_cons]
        have : (stagesContexts l 0 sts []).2.getLastD [] = [] := by
          by_cases he : (stagesContexts l 0 sts []).2 = []
          · rw [he]; rfl
          · exact getLastD_all g3 he
        rw [this, List.nil_append]
        exact .contexts k1
      · intro os hos
        simp only [reloadRun, reloadStep, stagesStep] at hos
        rcases List.mem_cons.1 hos with rfl | hos
        · intro o ho e he
          rw [g3 o ho] at he
          cases he
        · exact k2 os hos
    | .configure cfgs, hop =>
      obtain ⟨stages', hne', hleave', rfl⟩ := hop
      obtain ⟨r1, r2⟩ := AllMirror.released hK hreal hv hne hm
      have hinit : (stages'.map Cfg.make).map (fun c => (c, ({} : S))) = stages'.map stageInit := by rw [List.map_map]; rfl
      obtain ⟨k1, k2⟩ := ih hrest stages' hne' hleave' [] _ (allMirror_init K d stages')
      constructor
      · simp only [reloadRun, reloadStep, hinit, lastOutputs, List.flatMap_cons, List.getLastD_cons, List.getLastD_nil]
        exact .configure _ r1 r2 k1
      · intro os hos
        simp only [reloadRun, reloadStep, hinit] at hos
        rcases List.mem_cons.1 hos with rfl | hos
        · intro o ho e he
          rw [List.mem_singleton.1 ho] at he
          exact heldOutput_sendable _ e he
        · exact k2 os hos

/-- **C98 (any history).** As `C97_history`: the client connects, and then windows are focused, it is paused and resumed, and the file is modified and reloaded any number of times.
When none of the configurations mentions the typed keys, then they appear as typed, and when a new configuration arrives those which are held are released. -/
theorem C98_history (env : ClientEnv) (fs : FileSys) (filename : Str) (upd : Option Window) (user : List UserOp) {config : Config} (hn : filename ≠ [])
    (ht : fs.mtime filename ≠ -1) (hr : readConfigFile env fs filename = some config)
    {msgs : List ToServer} (hmsgs : msgs = .activeContexts ((matchingContexts env.rx config (upd.getD {})).map Int.ofNat) ::
      userMessages env { focus := { window := upd.getD {} }, file := { filename := filename, modifyTime := latestModifyTime fs filename [], config := config } } user)
    {stagesOf : Config → List (List Context)} {K : Key → Prop}
    (huse : ∀ c, c = config ∨ ToServer.config c ∈ msgs → Usable stagesOf c ∧ ∀ st ∈ stagesOf c, ∀ ctx ∈ st, ctx.Leaves K) {chunks : List Bytes}
    (hchunks : chunks.flatten = sentBytes ((Client.start env fs filename).run env (.connect upd :: user.map UserOp.toClient)).out)
    (rx : Regex) (isDown : Key → Bool) (ds : List DeviceDesc) {first : List Msg} (hfirst : first ≠ []) (its : List Iteration)
    (harrive : first ++ its.flatMap (fun it => it.messages) = receivedMessages isDown chunks)
    (hi : ∀ it ∈ its, it.sendResults = [] ∧ it.regrab = false ∧ (it.read = .other → it.messages = []))
    (hK : ∀ k, K k → Ordinary k) {d : Int}
    (hkeys : ∀ it ∈ its, ∀ ev dev, it.read = .key ev dev → dev = d ∧ K ev.key ∧ (ev.state = .Down ∨ ev.state = .Up) ∧ (ev.state = .Up → ev.value = 0))
    (hexit : NoExit ((keysRead its).map (fun p => .input p.1 p.2))) :
    ∃ ops out, (({} : Srv).connection rx first ds its).out = out.map Eff.sendKey ∧ AppearsAs [] ops out ∧
      ops.flatMap ReloadOp.keys = (keysRead its).map (fun p => .input p.1 p.2) ∧
      ops.filter (fun op => !op.isKey) = msgs.flatMap (ToServer.reloadOps stagesOf) := by
  obtain ⟨ops, hops⟩ : ∃ ops, ops = first.tail.flatMap Msg.reloadOps ++ its.flatMap Iteration.reloadOps := ⟨_, rfl⟩
  have huse' : ∀ c, c = config ∨ ToServer.config c ∈ msgs → Usable stagesOf c := fun c h => (huse c h).1
  obtain ⟨h1, h2⟩ := history_ops env fs filename upd user hn ht hr hmsgs huse' hchunks isDown hfirst its harrive (fun it h => (hi it h).2.2) hops
  have hread : ∀ p ∈ keysRead its, p.2 = d ∧ K p.1.key ∧ (p.1.state = .Down ∨ p.1.state = .Up) ∧ (p.1.state = .Up → p.1.value = 0) := by
    intro p hp
    obtain ⟨it, hit, e⟩ := List.mem_filterMap.1 hp
    cases hread : it.read with
    | key ev dev =>
      rw [hread] at e
      injection e with e
      rw [← e]
      exact hkeys it hit ev dev hread
    | other => rw [hread] at e; cases e
    | nothing => rw [hread] at e; cases e
  have hforeign : ∀ op ∈ ops, op.Foreign K d := by
    intro op hop
    match op, hop with
    | .stages (.input ev dev), hop =>
      have : StageOp.input ev dev ∈ ops.flatMap ReloadOp.keys := List.mem_flatMap.2 ⟨_, hop, List.mem_singleton.2 rfl⟩
      rw [h1] at this
      obtain ⟨p, hp, e⟩ := List.mem_map.1 this
      injection e with e1 e2
      have := hread p hp
      rw [e1, e2] at this
      exact this
    | .stages (.contexts l), hop => trivial
    | .configure cfgs, hop =>
      have : ReloadOp.configure cfgs ∈ ops.filter (fun op => !op.isKey) := List.mem_filter.2 ⟨hop, rfl⟩
      rw [h2] at this
      obtain ⟨m, hm, he⟩ := List.mem_flatMap.1 this
      cases m with
      | config c =>
        obtain ⟨u, hl⟩ := huse c (.inr hm)
        injection List.mem_singleton.1 he with e
        exact ⟨stagesOf c, u.nonempty, hl, e⟩
      | activeContexts l => cases List.mem_singleton.1 he
      | _ => cases he
  obtain ⟨u, hl⟩ := huse config (.inl rfl)
  obtain ⟨g1, g2⟩ := C98_reload hK u.nonempty hl ops hforeign
  refine ⟨ops, _, (C97_history env fs filename upd user hn ht hr hmsgs huse' hchunks rx isDown ds hfirst its harrive ?_ hops g2 hexit).1, g1, h1, h2⟩
  intro it hit
  exact ⟨fun ev dev h => hK _ (hkeys it hit ev dev h).2.1, hi it hit⟩

/-! ### an example: X and Y are typed with the configuration `A >> B` -/

def unTyped : List Iteration :=
  [{ now := 1, read := .key ⟨Key.KeyX, .Down, 0⟩ 0 }, { now := 2, read := .key ⟨Key.KeyX, .Down, 0⟩ 0 },
    { now := 3, read := .key ⟨Key.KeyY, .Up, 0⟩ 0, messages := [.activeContexts []] },
    { now := 4, read := .key ⟨Key.KeyY, .Down, 0⟩ 0 }, { now := 5, read := .key ⟨Key.KeyX, .Up, 0⟩ 0 }]

/-- X is held and repeats, a release of Y arrives although it is not held, the client is paused, Y is pressed and X is released. -/
example (rx : Regex) : (({} : Srv).connection rx [.configuration [Cfg.make [replaceContext [(Key.KeyA, Key.KeyB)]]], .activeContexts [0]] [] unTyped).out =
    [.sendKey ⟨Key.KeyX, .Down, 0⟩, .sendKey ⟨Key.KeyX, .Down, 0⟩, .sendKey ⟨Key.KeyY, .Down, 0⟩, .sendKey ⟨Key.KeyX, .Up, 0⟩] := by
  obtain ⟨config, hr, hc⟩ := Option.map_eq_some_iff.1 reRead1
  simp only [Prod.mk.injEq] at hc
  obtain ⟨h1, hg, hd, hin, hw⟩ := hc
  obtain ⟨hfit, hsize, hst⟩ := re_config h1 hg hd rfl (by
    intro p hp
    rw [List.mem_singleton.1 hp]
    exact ⟨by unfold Ordinary; decide, by unfold Ordinary; decide⟩)
  have hfl : ∀ bytes : Bytes, [bytes].flatten = bytes := by intro bytes; simp
  have hrec := received_focus reEnv (reFiles 1 'B') ['c'] none [.pause none] (by decide) (by decide) hr hfit hsize hst (hfl _) (fun _ => false)
  refine (C98_unmapped reEnv (reFiles 1 'B') ['c'] none [.pause none] (by decide) (by decide) hr hfit hsize hst (by simp) ?_ (hfl _) rx (fun _ => false) [] (by simp)
    unTyped ?_ ?_ (K := fun k => k = Key.KeyX ∨ k = Key.KeyY) ?_ (d := 0) ?_ (.inl ?_) ?_).trans ?_
  · intro st hst ctx hctx
    rw [List.mem_singleton.1 hst] at hctx
    rw [List.mem_singleton.1 hctx]; rfl
  · rw [hrec]
    simp [focusMessages, KnownFocus.step, KnownFocus.contexts, hw, unTyped]
  · intro it hit
    simp only [unTyped, List.mem_cons, List.not_mem_nil, or_false] at hit
    rcases hit with rfl | rfl | rfl | rfl | rfl
    all_goals
      refine ⟨⟨?_, rfl, .inl rfl, (by intro m hm; simp at hm; try exact ⟨_, hm⟩), rfl⟩, (by intro h; cases h)⟩
      intro ev dev h
      injection h with h1 h2; subst h1; unfold Ordinary; decide
  · rintro k (rfl | rfl) <;> (unfold Ordinary; decide)
  · decide
  · intro st hst ctx hctx inp hinp
    rw [List.mem_singleton.1 hst] at hctx
    rw [List.mem_singleton.1 hctx] at hinp
    have : inp = ⟨singleKey Key.KeyA, 0⟩ := List.mem_singleton.1 hinp
    rw [this]
    unfold Foreign
    decide
  · rintro before last after h ⟨a, b, c, rfl⟩
    have h2 : (Key.Escape, KeyState.Down) ∈ strokes ((keysRead unTyped).map (fun p => .input p.1 p.2)) := by
      rw [h]; simp
    exact absurd h2 (by decide)
  · decide +kernel

theorem un_leaves (b : Key) : ∀ st ∈ [[replaceContext [(Key.KeyA, b)]]], ∀ ctx ∈ st, ctx.Leaves (fun k => k = Key.KeyX ∨ k = Key.KeyY) := by
  intro st hst ctx hctx inp hinp
  rw [List.mem_singleton.1 hst] at hctx
  rw [List.mem_singleton.1 hctx] at hinp
  have : inp = ⟨singleKey Key.KeyA, 0⟩ := List.mem_singleton.1 hinp
  rw [this]
  unfold Foreign
  decide

def unReloaded : List Iteration :=
  [{ now := 1, read := .key ⟨Key.KeyX, .Down, 0⟩ 0 }, { now := 2, read := .key ⟨Key.KeyY, .Down, 0⟩ 0, messages := [.configuration [Cfg.make [replaceContext [(Key.KeyA, Key.KeyC)]]]] },
    { now := 3, read := .key ⟨Key.KeyX, .Up, 0⟩ 0 }, { now := 4, read := .key ⟨Key.KeyX, .Down, 0⟩ 0, messages := [.activeContexts [0]] }]

def unOps : List ReloadOp :=
  [.stages (.contexts [0]), .stages (.input ⟨Key.KeyX, .Down, 0⟩ 0), .stages (.input ⟨Key.KeyY, .Down, 0⟩ 0),
    .configure [Cfg.make [replaceContext [(Key.KeyA, Key.KeyC)]]], .stages (.input ⟨Key.KeyX, .Up, 0⟩ 0), .stages (.input ⟨Key.KeyX, .Down, 0⟩ 0), .stages (.contexts [0])]

/-- `A >> B` becomes `A >> C` while X and Y are held: both are released. The release of X, which follows, does not appear. -/
example : AppearsAs [] unOps [⟨Key.KeyX, .Down, 0⟩, ⟨Key.KeyY, .Down, 0⟩, ⟨Key.KeyX, .Up, 0⟩, ⟨Key.KeyY, .Up, 0⟩, ⟨Key.KeyX, .Down, 0⟩] := by
  have h := (C98_reload (K := fun k => k = Key.KeyX ∨ k = Key.KeyY) (d := 0) (by rintro k (rfl | rfl) <;> (unfold Ordinary; decide)) (by simp) (un_leaves Key.KeyB)
    unOps (by
      intro op hop
      simp only [unOps, List.mem_cons, List.not_mem_nil, or_false] at hop
      rcases hop with rfl | rfl | rfl | rfl | rfl | rfl | rfl
      · trivial
      · exact ⟨rfl, by decide, by decide, by decide⟩
      · exact ⟨rfl, by decide, by decide, by decide⟩
      · exact ⟨[[replaceContext [(Key.KeyA, Key.KeyC)]]], by simp, un_leaves Key.KeyC, rfl⟩
      · exact ⟨rfl, by decide, by decide, by decide⟩
      · exact ⟨rfl, by decide, by decide, by decide⟩
      · trivial)).1
  have he : lastOutputs (reloadRun ([[replaceContext [(Key.KeyA, Key.KeyB)]]].map stageInit) unOps).2 =
      [⟨Key.KeyX, .Down, 0⟩, ⟨Key.KeyY, .Down, 0⟩, ⟨Key.KeyX, .Up, 0⟩, ⟨Key.KeyY, .Up, 0⟩, ⟨Key.KeyX, .Down, 0⟩] := by decide +kernel
  rw [he] at h
  exact h

/-- The same from the file, which is modified. -/
example (rx : Regex) : ∃ ops out, (({} : Srv).connection rx [.configuration [Cfg.make [replaceContext [(Key.KeyA, Key.KeyB)]]], .activeContexts [0]] [] unReloaded).out =
      out.map Eff.sendKey ∧ AppearsAs [] ops out ∧ ops.flatMap ReloadOp.keys = (keysRead unReloaded).map (fun p => .input p.1 p.2) ∧
      ops.filter (fun op => !op.isKey) = [.stages (.contexts [0]), .configure [Cfg.make [replaceContext [(Key.KeyA, Key.KeyC)]]], .stages (.contexts [0])] := by
  obtain ⟨config, hr, hc⟩ := Option.map_eq_some_iff.1 reRead1
  obtain ⟨config', hr', hc'⟩ := Option.map_eq_some_iff.1 hi_read
  simp only [Prod.mk.injEq] at hc hc'
  obtain ⟨h1, hg, hd, hin, hw⟩ := hc
  obtain ⟨h1', hg', hd', hin', hw'⟩ := hc'
  have hu := hi_usable (b := Key.KeyB) (by unfold Ordinary; decide) h1 hg hd
  have hu' := hi_usable (b := Key.KeyC) (by unfold Ordinary; decide) h1' hg' hd'
  have ht3 : latestModifyTime (reFiles 3 'C') ['c'] [] = 3 := by decide
  have ht1 : latestModifyTime (reFiles 1 'B') ['c'] [] = 1 := by decide
  have hmsgs : [ToServer.activeContexts [0], .config config', .activeContexts [0]] =
      .activeContexts ((matchingContexts reEnv.rx config ((none : Option Window).getD {})).map Int.ofNat) ::
      userMessages reEnv { focus := { window := (none : Option Window).getD {} }, file := { filename := ['c'], modifyTime := latestModifyTime (reFiles 1 'B') ['c'] [], config := config } } [.update (reFiles 3 'C') none] := by
    simp [userMessages, Known.modified, Known.sends, Known.replaced, Known.step, hin, ht1, ht3, hr', hw, hw', KnownFocus.contexts]
  have hfl : ∀ bytes : Bytes, [bytes].flatten = bytes := by intro bytes; simp
  have he : splitStages [] (markBegin config.contexts) = [[replaceContext [(Key.KeyA, Key.KeyB)]]] := by rw [h1]; rfl
  have he' : splitStages [] (markBegin config'.contexts) = [[replaceContext [(Key.KeyA, Key.KeyC)]]] := by rw [h1']; rfl
  have huse : ∀ c, c = config ∨ ToServer.config c ∈ [ToServer.activeContexts [0], .config config', .activeContexts [0]] →
      Usable (fun c => splitStages [] (markBegin c.contexts)) c ∧
        ∀ st ∈ splitStages [] (markBegin c.contexts), ∀ ctx ∈ st, ctx.Leaves (fun k => k = Key.KeyX ∨ k = Key.KeyY) := by
    intro c hc
    simp only [List.mem_cons, List.not_mem_nil, or_false, reduceCtorEq, false_or, ToServer.config.injEq] at hc
    rcases hc with rfl | rfl
    · exact ⟨hu, by rw [he]; exact un_leaves _⟩
    · exact ⟨hu', by rw [he']; exact un_leaves _⟩
  have hrec := (received_history reEnv (reFiles 1 'B') ['c'] none [.update (reFiles 3 'C') none] (by decide) (by decide) hr hmsgs (fun c h => (huse c h).1) (hfl _) (fun _ => false)).1
  obtain ⟨ops, out, g1, g2, g3, g4⟩ := C98_history reEnv (reFiles 1 'B') ['c'] none [.update (reFiles 3 'C') none] (by decide) (by decide) hr hmsgs huse (hfl _) rx (fun _ => false) []
    (first := [.configuration [Cfg.make [replaceContext [(Key.KeyA, Key.KeyB)]]], .activeContexts [0]]) (by simp) unReloaded (by
      rw [hrec]
      simp only [ToServer.told, List.flatMap_cons, List.flatMap_nil, he, he', unReloaded]
      rfl) (by
      intro it hit
      simp only [unReloaded, List.mem_cons, List.not_mem_nil, or_false] at hit
      rcases hit with rfl | rfl | rfl | rfl <;> exact ⟨rfl, rfl, by intro h; cases h⟩)
    (by rintro k (rfl | rfl) <;> (unfold Ordinary; decide)) (d := 0) (by
      intro it hit ev dev h
      simp only [unReloaded, List.mem_cons, List.not_mem_nil, or_false] at hit
      rcases hit with rfl | rfl | rfl | rfl <;> (injection h with h1 h2; subst h1; subst h2; decide)) (by
      rintro before last after h ⟨a, b, c, rfl⟩
      have h2 : (Key.Escape, KeyState.Down) ∈ strokes ((keysRead unReloaded).map (fun p => .input p.1 p.2)) := by
        rw [h]; simp
      exact absurd h2 (by decide))
  refine ⟨ops, out, g1, g2, g3, ?_⟩
  rw [g4]
  simp only [List.flatMap_cons, List.flatMap_nil, ToServer.reloadOps, he', List.map_cons, List.map_nil, List.cons_append, List.nil_append]

end KM
