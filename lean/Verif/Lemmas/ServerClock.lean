import Verif.Spec.Clock
import Verif.Lemmas.ServerForward
/-!
# Lemmas: the server measures time
-/
namespace KM

theorem askedTime_eq (out : KeySequence) : timeoutRequest out = askedTime out := by
  unfold timeoutRequest askedTime
  cases out.getLast? with
  | none => rfl
  | some e => simp only [Option.filter_some]

theorem durationToTimeout_eq {ms : Int} (h : ms < 2 ^ 31) (h' : -(2 ^ 31) ≤ ms) : durationToTimeout ms = measured ms := by
  unfold durationToTimeout measured
  have : (ms + 2147483648) % 4294967296 = ms + 2147483648 := Int.emod_eq_of_lt (by omega) (by omega)
  rw [this]
  simp only []
  omega

/-- what is known about the server while it processes something; `out` is what is not sent yet -/
structure Clocking (srv : Srv) (now : Int) (c : Clocked (Cfg × S)) (out : KeySequence) : Prop where
  buf : srv.sendBuf = out
  flushAt : srv.flushAt = none
  sending : srv.sending = false
  info : srv.nextKeyInfo = false
  ms : srv.ms = { stages := [c.state], activeClient := srv.ms.activeClient, buf := [] }
  results : srv.sendResults = []
  now : srv.now = now
  last : srv.last = c.last
  start : srv.timeoutStart = c.since.map (·.1)
  timeout : ∀ start request, c.since = some (start, request) → srv.timeout = request.value ∧ srv.cancelOnUp = request.state.cancelTimeoutOnUp

theorem update_clocked (st : Cfg × S) (act : List Int) (ev : KeyEvent) (dev : Int) :
    MS.update { stages := [st], activeClient := act, buf := [] } ev dev =
      ({ stages := [(stageStep st (.input ev dev)).1], activeClient := act, buf := [] }, (stageStep st (.input ev dev)).2) :=
  update_single st.1 st.2 act ev dev

/-- inputting something -/
theorem core_clocked (rx : Regex) {srv : Srv} {now : Int} {c : Clocked (Cfg × S)} {out : KeySequence} (h : Clocking srv now c out) (ev : KeyEvent) (dev : Int)
    (hw : isMouseWheel ev.key = false) (hx : (stageStep c.state (.input ev dev)).1.2.shouldExit = false) :
    Clocking (srv.translateCore rx (Srv.flush rx) ev dev) now
      (({ c with last := if ev.key = Key.timeout then c.last else ev } : Clocked (Cfg × S)).input stageStep now ev dev).1
      (out ++ (c.input stageStep now ev dev).2) ∧
    (srv.translateCore rx (Srv.flush rx) ev dev).out = srv.out := by
  have hnote : srv.noteEvent ev = { srv with last := if ev.key = Key.timeout then c.last else ev } := by
    unfold Srv.noteEvent
    by_cases ht : ev.key = Key.timeout
    · rw [if_neg (by simpa using ht), if_pos ht, ← h.last]
    · rw [if_pos (by simpa using ht), if_neg ht]
  obtain ⟨l, hl⟩ : ∃ l, l = (if ev.key = Key.timeout then c.last else ev) := ⟨_, rfl⟩
  rw [← hl] at hnote ⊢
  have hupd : srv.ms.update ev dev = ({ stages := [(stageStep c.state (.input ev dev)).1], activeClient := srv.ms.activeClient, buf := [] },
      (stageStep c.state (.input ev dev)).2) := by
    rw [h.ms, update_clocked]
  unfold Srv.translateCore
  rw [hnote]
  simp only [hupd]
  rw [if_neg (by simp [MS.shouldExit, hx])]
  unfold Srv.sendOutput Clocked.input
  rw [askedTime_eq]
  simp only []
  cases hq : askedTime (stageStep c.state (.input ev dev)).2 with
  | none =>
    simp only []
    refine ⟨⟨?_, h.flushAt, h.sending, h.info, rfl, h.results, h.now, rfl, h.start, h.timeout⟩, rfl⟩
    show srv.sendBuf ++ copyWheelDelta ev _ = _
    rw [h.buf]; simp [copyWheelDelta, hw]
  | some q =>
    simp only []
    refine ⟨⟨?_, h.flushAt, h.sending, h.info, rfl, h.results, h.now, rfl, ?_, ?_⟩, rfl⟩
    · show srv.sendBuf ++ copyWheelDelta ev _ = _
      rw [h.buf]; simp [copyWheelDelta, hw]
    · show some srv.now = _
      rw [h.now]; rfl
    · intro start request he
      simp only [Option.some.injEq, Prod.mk.injEq] at he
      rw [← he.2]
      exact ⟨rfl, rfl⟩

theorem input_last (c : Clocked (Cfg × S)) (l : KeyEvent) (now : Int) (ev : KeyEvent) (dev : Int) :
    (({ c with last := l } : Clocked (Cfg × S)).input stageStep now ev dev).2 = (c.input stageStep now ev dev).2 := by
  unfold Clocked.input
  simp only []
  cases askedTime (stageStep c.state (.input ev dev)).2 <;> rfl

/-- the exit sequence is not complete after any of the operations -/
def NeverExits (st : Cfg × S) (log : List StageOp) : Prop := ∀ ops, ops <+: log → (stageRun st ops).1.2.shouldExit = false

theorem input_log {σ : Type} (step : σ → StageOp → σ × KeySequence) (c : Clocked σ) (now : Int) (ev : KeyEvent) (dev : Int) :
    (c.input step now ev dev).1.log = c.log ++ [.input ev dev] ∧
    (c.input step now ev dev).1.state = (step c.state (.input ev dev)).1 := by
  unfold Clocked.input
  simp only []
  cases askedTime (step c.state (.input ev dev)).2 <;> exact ⟨rfl, rfl⟩

/-- the state is the one after the operations -/
def Clocked.Follows (init : Cfg × S) (c : Clocked (Cfg × S)) : Prop := c.state = (stageRun init c.log).1

theorem stageRun_snoc (st : Cfg × S) (ops : List StageOp) (op : StageOp) :
    (stageRun st (ops ++ [op])).1 = (stageStep (stageRun st ops).1 op).1 := by
  rw [stageRun_append]; rfl

theorem Clocked.Follows.input {init : Cfg × S} {c : Clocked (Cfg × S)} (h : c.Follows init) (now : Int) (ev : KeyEvent) (dev : Int) :
    (c.input stageStep now ev dev).1.Follows init := by
  unfold Clocked.Follows
  obtain ⟨h1, h2⟩ := input_log stageStep c now ev dev
  rw [h1, h2, stageRun_snoc, ← h]

theorem NeverExits.step {init : Cfg × S} {c : Clocked (Cfg × S)} (h : c.Follows init) {log : List StageOp} {op : StageOp} (hx : NeverExits init log)
    (hp : c.log ++ [op] <+: log) : (stageStep c.state op).1.2.shouldExit = false := by
  have := hx _ hp
  rwa [stageRun_snoc, ← h] at this

/-- inputting a time which passed -/
theorem elapsed_clocked (rx : Regex) {srv : Srv} {now : Int} {c : Clocked (Cfg × S)} {out : KeySequence} (h : Clocking srv now c out) (ms : Int) (dev : Int)
    (h1 : ms < 2 ^ 31) (h2 : -(2 ^ 31) ≤ ms) (hx : (stageStep c.state (.input ⟨Key.timeout, .Up, measured ms⟩ dev)).1.2.shouldExit = false) :
    Clocking (srv.cancelTimeout.translateCore rx (Srv.flush rx) (makeInputTimeoutEvent ms) dev) now (c.elapsed stageStep now ms dev).1
      (out ++ (c.elapsed stageStep now ms dev).2) ∧
    (srv.cancelTimeout.translateCore rx (Srv.flush rx) (makeInputTimeoutEvent ms) dev).out = srv.out := by
  have he : makeInputTimeoutEvent ms = ⟨Key.timeout, .Up, measured ms⟩ := by
    unfold makeInputTimeoutEvent
    rw [durationToTimeout_eq h1 h2]
  have hc : Clocking srv.cancelTimeout now { c with since := none } out :=
    ⟨h.buf, h.flushAt, h.sending, h.info, h.ms, h.results, h.now, h.last, rfl, fun _ _ he => (by cases he)⟩
  rw [he]
  have := core_clocked rx hc ⟨Key.timeout, .Up, measured ms⟩ dev (by show isMouseWheel Key.timeout = false; decide) hx
  rw [if_pos rfl] at this
  exact ⟨this.1, this.2⟩

/-- before a key -/
theorem interrupt_clocked (rx : Regex) {srv : Srv} {now : Int} {c : Clocked (Cfg × S)} {out : KeySequence} (h : Clocking srv now c out) (ev : KeyEvent) (dev : Int)
    (ht : ∀ start request, c.since = some (start, request) → start ≤ now ∧ now - start < 2 ^ 31) {init : Cfg × S} (hf : c.Follows init) {log : List StageOp}
    (hx : NeverExits init log) (hp : (c.interrupt stageStep now ev dev).1.log <+: log) :
    Clocking (srv.injectElapsed rx (Srv.flush rx) ev dev) now (c.interrupt stageStep now ev dev).1 (out ++ (c.interrupt stageStep now ev dev).2) ∧
    (srv.injectElapsed rx (Srv.flush rx) ev dev).out = srv.out ∧ (c.interrupt stageStep now ev dev).1.Follows init := by
  unfold Srv.injectElapsed
  unfold Clocked.interrupt at hp ⊢
  cases hs : c.since with
  | none =>
    have : srv.timeoutStart = none := by rw [h.start, hs]; rfl
    rw [this]
    simp only [List.append_nil]
    exact ⟨h, trivial, hf⟩
  | some p =>
    obtain ⟨start, request⟩ := p
    have hst : srv.timeoutStart = some start := by rw [h.start, hs]; rfl
    obtain ⟨h1, h2⟩ := h.timeout start request hs
    obtain ⟨h3, h4⟩ := ht start request hs
    rw [hst]
    rw [hs] at hp
    simp only [h2, h.now] at hp ⊢
    by_cases hc : ev.state = .Down ∨ request.state = .NotTimeout_cancel_on_up_down ∨ request.state = .Timeout_cancel_on_up_down
    · rw [if_pos hc] at hp ⊢
      rw [if_pos (by simpa [KeyState.cancelTimeoutOnUp] using hc)]
      have hlog := (input_log stageStep ({ c with since := none } : Clocked (Cfg × S)) now ⟨Key.timeout, .Up, measured (now - start)⟩ dev).1
      have hx1 : (stageStep c.state (.input ⟨Key.timeout, .Up, measured (now - start)⟩ dev)).1.2.shouldExit = false := by
        refine NeverExits.step hf hx ?_
        have hp' : (({ c with since := none } : Clocked (Cfg × S)).input stageStep now ⟨Key.timeout, .Up, measured (now - start)⟩ dev).1.log <+: log := hp
        rw [hlog] at hp'
        exact hp'
      obtain ⟨h5, h6⟩ := elapsed_clocked rx h (now - start) dev h4 (by omega) hx1
      unfold Srv.translateTimeout
      rw [if_neg (by simp [Srv.ignoresRepeat, Srv.cancelTimeout, h.flushAt])]
      exact ⟨h5, h6, Clocked.Follows.input (c := { c with since := none }) hf now _ dev⟩
    · rw [if_neg hc] at hp ⊢
      rw [if_neg (by simpa [KeyState.cancelTimeoutOnUp] using hc)]
      simp only [List.append_nil]
      exact ⟨h, trivial, hf⟩

/-- reading a key -/
theorem key_clocked (rx : Regex) {srv : Srv} {now : Int} {c : Clocked (Cfg × S)} {out : KeySequence} (h : Clocking srv now c out) (ev : KeyEvent) (dev : Int)
    (hk : Ordinary ev.key) (ht : ∀ start request, c.since = some (start, request) → start ≤ now ∧ now - start < 2 ^ 31) {init : Cfg × S} (hf : c.Follows init)
    {log : List StageOp} (hx : NeverExits init log) (hp : (c.key stageStep now ev dev).1.log <+: log) :
    Clocking (srv.translateInput rx ev dev) now (c.key stageStep now ev dev).1 (out ++ (c.key stageStep now ev dev).2) ∧
    (srv.translateInput rx ev dev).out = srv.out ∧ (c.key stageStep now ev dev).1.Follows init := by
  obtain ⟨hw, hto, hn⟩ := ordinary_noWheel hk
  unfold Srv.translateInput Srv.translateWith
  unfold Clocked.key at hp ⊢
  by_cases hr : c.since.isSome = true ∧ ev = c.last
  · rw [if_pos hr] at hp ⊢
    have : srv.ignoresRepeat ev = true := by
      simp [Srv.ignoresRepeat, h.last, h.start, h.flushAt, hr.1, hr.2]
    rw [if_pos this]
    simp only [List.append_nil]
    exact ⟨h, trivial, hf⟩
  · rw [if_neg hr] at hp ⊢
    have : srv.ignoresRepeat ev = false := by
      rw [← Bool.not_eq_true]
      intro hi
      refine hr ?_
      simp only [Srv.ignoresRepeat, h.last, h.start, h.flushAt, Bool.and_eq_true, beq_iff_eq, Option.isSome_none, Bool.false_or, Option.isSome_map] at hi
      exact ⟨hi.2, hi.1⟩
    rw [if_neg (by rw [this]; decide), if_neg (by simp [Srv.repliesKeyInfo, h.info])]
    simp only [] at hp ⊢
    have hlog := (input_log stageStep ({ (c.interrupt stageStep now ev dev).1 with last := ev } : Clocked (Cfg × S)) now ev dev).1
    rw [hlog] at hp
    obtain ⟨h1, h2, h3⟩ := interrupt_clocked rx h ev dev ht hf hx ((List.prefix_append _ _).trans hp)
    rw [if_neg (by simp [hw])]
    obtain ⟨h4, h5⟩ := core_clocked rx h1 ev dev hw (NeverExits.step h3 hx hp)
    rw [if_neg hto] at h4
    rw [input_last, ← List.append_assoc]
    exact ⟨h4, h5.trans h2, Clocked.Follows.input (c := { (c.interrupt stageStep now ev dev).1 with last := ev }) h3 now ev dev⟩

/-- when the time is over -/
theorem expire_clocked (rx : Regex) {srv : Srv} {now : Int} {c : Clocked (Cfg × S)} {out : KeySequence} (h : Clocking srv now c out)
    (ht : ∀ start request, c.since = some (start, request) → request.value < 4096) {init : Cfg × S} (hf : c.Follows init)
    {log : List StageOp} (hx : NeverExits init log) (hp : (c.expire stageStep now).1.log <+: log) :
    Clocking (srv.answerTimeout rx) now (c.expire stageStep now).1 (out ++ (c.expire stageStep now).2) ∧
    (srv.answerTimeout rx).out = srv.out ∧ (c.expire stageStep now).1.Follows init := by
  unfold Srv.answerTimeout Srv.timeoutElapsed
  unfold Clocked.expire at hp ⊢
  cases hs : c.since with
  | none =>
    have : srv.timeoutStart = none := by rw [h.start, hs]; rfl
    rw [this]
    simp only [List.append_nil, Bool.false_eq_true, if_false]
    exact ⟨h, trivial, hf⟩
  | some p =>
    obtain ⟨start, request⟩ := p
    have hst : srv.timeoutStart = some start := by rw [h.start, hs]; rfl
    obtain ⟨h1, h2⟩ := h.timeout start request hs
    have h3 := ht start request hs
    rw [hst]
    rw [hs] at hp
    simp only [h1, h.now, decide_eq_true_eq] at hp ⊢
    by_cases hc : start + (request.value : Int) ≤ now
    · rw [if_pos hc] at hp ⊢
      rw [if_pos hc]
      have hlog := (input_log stageStep ({ c with since := none } : Clocked (Cfg × S)) now ⟨Key.timeout, .Up, measured request.value⟩ anyDeviceIndex).1
      have hx1 : (stageStep c.state (.input ⟨Key.timeout, .Up, measured request.value⟩ anyDeviceIndex)).1.2.shouldExit = false := by
        refine NeverExits.step hf hx ?_
        have hp' : (({ c with since := none } : Clocked (Cfg × S)).input stageStep now ⟨Key.timeout, .Up, measured request.value⟩ anyDeviceIndex).1.log <+: log := hp
        rw [hlog] at hp'
        exact hp'
      obtain ⟨h5, h6⟩ := elapsed_clocked rx h request.value anyDeviceIndex (by omega) (by omega) hx1
      have hti : srv.cancelTimeout.translateInput rx (makeInputTimeoutEvent (request.value : Int)) anyDeviceIndex =
          srv.cancelTimeout.translateCore rx (Srv.flush rx) (makeInputTimeoutEvent (request.value : Int)) anyDeviceIndex := by
        unfold Srv.translateInput Srv.translateWith
        have hwt : isMouseWheel (makeInputTimeoutEvent (request.value : Int)).key = false := by show isMouseWheel Key.timeout = false; decide
        rw [if_neg (by simp [Srv.ignoresRepeat, Srv.cancelTimeout, h.flushAt]), if_neg (by simp [Srv.repliesKeyInfo, Srv.cancelTimeout, h.info])]
        simp only [hwt, Bool.false_and, Bool.false_eq_true, if_false]
        rfl
      rw [hti]
      exact ⟨h5, h6, Clocked.Follows.input (c := { c with since := none }) hf now _ _⟩
    · rw [if_neg hc] at hp ⊢
      rw [if_neg hc]
      simp only [List.append_nil]
      exact ⟨h, trivial, hf⟩

theorem apply_log {σ : Type} (step : σ → StageOp → σ × KeySequence) (ops : List StageOp) : ∀ (c : Clocked σ), (c.apply step ops).1.log = c.log ++ ops ∧
    (c.apply step ops).1.since = c.since ∧ (c.apply step ops).1.last = c.last := by
  induction ops with
  | nil => intro c; exact ⟨(List.append_nil _).symm, rfl, rfl⟩
  | cons op ops ih =>
    intro c
    obtain ⟨h1, h2, h3⟩ := ih { c with state := (step c.state op).1, log := c.log ++ [op] }
    refine ⟨?_, h2, h3⟩
    show (Clocked.apply step _ ops).1.log = _
    rw [h1, List.append_assoc]; rfl

theorem Clocked.Follows.apply {init : Cfg × S} (ops : List StageOp) : ∀ {c : Clocked (Cfg × S)}, c.Follows init → (c.apply stageStep ops).1.Follows init := by
  induction ops with
  | nil => intro c h; exact h
  | cons op ops ih =>
    intro c h
    refine ih (c := { c with state := (stageStep c.state op).1, log := c.log ++ [op] }) ?_
    unfold Clocked.Follows
    rw [stageRun_snoc, ← h]

/-- a change of the active contexts -/
theorem active_clocked (rx : Regex) {srv : Srv} {now : Int} {c : Clocked (Cfg × S)} (h : Clocking srv now c []) {l : List Int}
    (hout : ∀ e ∈ (c.apply stageStep (Msg.stageOps c.state.1.contexts.length (.activeContexts l))).2, Sendable e) :
    ∃ srv', srv.onMessage rx (.activeContexts l) = srv' ∧
      Clocking srv' now (c.apply stageStep (Msg.stageOps c.state.1.contexts.length (.activeContexts l))).1 [] ∧
      srv'.out = srv.out ++ (c.apply stageStep (Msg.stageOps c.state.1.contexts.length (.activeContexts l))).2.map Eff.sendKey := by
  refine ⟨_, rfl, ?_⟩
  obtain ⟨op, hop⟩ : ∃ op, op = StageOp.contexts (stageIndices l 0 c.state.1.contexts.length) := ⟨_, rfl⟩
  have hops : Msg.stageOps c.state.1.contexts.length (.activeContexts l) = [op] := by
    rw [hop, stageIndices_zero]; rfl
  have happ : c.apply stageStep [op] = ({ c with state := (stageStep c.state op).1, log := c.log ++ [op] }, (stageStep c.state op).2) := by
    simp [Clocked.apply]
  rw [hops, happ] at hout ⊢
  have hset : srv.ms.setActiveClientContexts l =
      ({ stages := [(stageStep c.state op).1], activeClient := l, buf := (stageStep c.state op).2 }, (stageStep c.state op).2) := by
    rw [h.ms, hop]
    exact setActive_single c.state.1 c.state.2 srv.ms.activeClient l
  have hdef : srv.onMessage rx (.activeContexts l) = { srv with
      ms := { stages := [(stageStep c.state op).1], activeClient := l, buf := [] }
      sendBuf := []
      flushAt := none
      out := srv.out ++ (stageStep c.state op).2.map Eff.sendKey } := by
    rw [Srv.onMessage, Srv.onActiveContexts, Srv.setActiveContexts]
    simp only [hset, Srv.sendKeySequence, MS.reuseBuffer, h.buf, List.nil_append, h.flushAt, Option.isNone_none, if_true]
    rw [Srv.flush]
    have hfl := flush_sendable rx { srv with
      ms := { stages := [(stageStep c.state op).1], activeClient := l, buf := [] }
      sendBuf := (stageStep c.state op).2
      flushAt := none } hout h.results h.sending
    rw [hfl]
  rw [hdef]
  exact ⟨⟨rfl, rfl, h.sending, h.info, rfl, h.results, h.now, h.last, h.start, h.timeout⟩, rfl⟩

theorem contexts_const (st : Cfg × S) (op : StageOp) (h : ∃ l, op = .contexts l ∨ ∃ ev dev, op = .input ev dev) : (stageStep st op).1.1 = st.1 := by
  obtain ⟨l, rfl | ⟨ev, dev, rfl⟩⟩ := h <;> rfl

theorem apply_append (ops ops' : List StageOp) : ∀ (c : Clocked (Cfg × S)), c.apply stageStep (ops ++ ops') =
    (((c.apply stageStep ops).1.apply stageStep ops').1, (c.apply stageStep ops).2 ++ ((c.apply stageStep ops).1.apply stageStep ops').2) := by
  induction ops with
  | nil => intro c; rfl
  | cons op ops ih =>
    intro c
    have := ih { c with state := (stageStep c.state op).1, log := c.log ++ [op] }
    show (let q := Clocked.apply stageStep { c with state := (stageStep c.state op).1, log := c.log ++ [op] } (ops ++ ops'); (q.1, (stageStep c.state op).2 ++ q.2)) = _
    rw [this]
    simp only [Clocked.apply, List.append_assoc]

/-- messages -/
theorem messages_clocked (rx : Regex) (n : Nat) (ms : List Msg) (hm : ∀ m ∈ ms, ∃ l, m = .activeContexts l) : ∀ (srv : Srv) (now : Int) (c : Clocked (Cfg × S)),
    c.state.1.contexts.length = n → Clocking srv now c [] → (∀ e ∈ (c.apply stageStep (ms.flatMap (Msg.stageOps n))).2, Sendable e) →
    Clocking (ms.foldl (Srv.onMessage rx) srv) now (c.apply stageStep (ms.flatMap (Msg.stageOps n))).1 [] ∧
      (ms.foldl (Srv.onMessage rx) srv).out = srv.out ++ (c.apply stageStep (ms.flatMap (Msg.stageOps n))).2.map Eff.sendKey := by
  induction ms with
  | nil => intro srv now c _ h _; exact ⟨h, by simp [Clocked.apply]⟩
  | cons m ms ih =>
    intro srv now c hn h hout
    obtain ⟨l, rfl⟩ := hm m (by simp)
    rw [List.flatMap_cons, apply_append] at hout ⊢
    obtain ⟨srv', h1, h2, h3⟩ := active_clocked rx h (l := l) (by rw [hn]; exact fun e he => hout e (List.mem_append_left _ he))
    rw [hn] at h2 h3
    have hn' : (c.apply stageStep (Msg.stageOps n (.activeContexts l))).1.state.1.contexts.length = n := by
      rw [← hn]; rfl
    obtain ⟨h4, h5⟩ := ih (fun x hx => hm x (by simp [hx])) srv' now _ hn' h2 (fun e he => hout e (List.mem_append_right _ he))
    rw [List.foldl_cons, h1]
    exact ⟨h4, by rw [h5, h3]; simp⟩

theorem input_cfg (c : Clocked (Cfg × S)) (now : Int) (ev : KeyEvent) (dev : Int) : (c.input stageStep now ev dev).1.state.1 = c.state.1 := by
  rw [(input_log stageStep c now ev dev).2]; rfl

theorem interrupt_cfg (c : Clocked (Cfg × S)) (now : Int) (ev : KeyEvent) (dev : Int) : (c.interrupt stageStep now ev dev).1.state.1 = c.state.1 := by
  unfold Clocked.interrupt
  split
  · split
    · exact input_cfg _ _ _ _
    · rfl
  · rfl

theorem key_cfg (c : Clocked (Cfg × S)) (now : Int) (ev : KeyEvent) (dev : Int) : (c.key stageStep now ev dev).1.state.1 = c.state.1 := by
  unfold Clocked.key
  split
  · rfl
  · exact (input_cfg _ _ _ _).trans (interrupt_cfg _ _ _ _)

theorem read_cfg (c : Clocked (Cfg × S)) (now : Int) (r : Read) : (c.read stageStep now r).1.state.1 = c.state.1 := by
  cases r with
  | key ev dev => exact key_cfg c now ev dev
  | _ => rfl

theorem expire_cfg (c : Clocked (Cfg × S)) (now : Int) : (c.expire stageStep now).1.state.1 = c.state.1 := by
  unfold Clocked.expire
  split
  · split
    · exact input_cfg _ _ _ _
    · rfl
  · rfl

theorem expire_log {σ : Type} (step : σ → StageOp → σ × KeySequence) (c : Clocked σ) (now : Int) : c.log <+: (c.expire step now).1.log := by
  unfold Clocked.expire
  split
  · split
    · unfold Clocked.elapsed
      rw [(input_log step _ _ _ _).1]; exact List.prefix_append _ _
    · exact List.prefix_refl _
  · exact List.prefix_refl _

theorem interrupt_log {σ : Type} (step : σ → StageOp → σ × KeySequence) (c : Clocked σ) (now : Int) (ev : KeyEvent) (dev : Int) : c.log <+: (c.interrupt step now ev dev).1.log := by
  unfold Clocked.interrupt
  split
  · split
    · unfold Clocked.elapsed
      rw [(input_log step _ _ _ _).1]; exact List.prefix_append _ _
    · exact List.prefix_refl _
  · exact List.prefix_refl _

theorem read_log {σ : Type} (step : σ → StageOp → σ × KeySequence) (c : Clocked σ) (now : Int) (r : Read) : c.log <+: (c.read step now r).1.log := by
  cases r with
  | key ev dev =>
    show c.log <+: (c.key step now ev dev).1.log
    unfold Clocked.key
    split
    · exact List.prefix_refl _
    · simp only []
      rw [(input_log step _ _ _ _).1]
      exact (interrupt_log step c now ev dev).trans (List.prefix_append _ _)
  | _ => exact List.prefix_refl _

theorem wake_log {σ : Type} (step : σ → StageOp → σ × KeySequence) (n : Nat) (c : Clocked σ) (it : Iteration) : c.log <+: (c.wake step n it).1.log := by
  unfold Clocked.wake
  split
  · exact List.prefix_refl _
  · simp only []
    rw [(apply_log step _ _).1]
    exact (read_log step c it.now it.read).trans ((expire_log step _ _).trans (List.prefix_append _ _))

theorem run_log {σ : Type} (step : σ → StageOp → σ × KeySequence) (n : Nat) (its : List Iteration) : ∀ (c : Clocked σ), c.log <+: (c.run step n its).1.log := by
  induction its with
  | nil => intro c; exact List.prefix_refl _
  | cons it its ih => intro c; exact (wake_log step n c it).trans (ih _)

theorem apply_cfg (n : Nat) (ms : List Msg) : ∀ (c : Clocked (Cfg × S)), (c.apply stageStep (ms.flatMap (Msg.stageOps n))).1.state.1 = c.state.1 := by
  induction ms with
  | nil => intro c; rfl
  | cons m ms ih =>
    intro c
    rw [List.flatMap_cons, apply_append]
    refine (ih _).trans ?_
    cases m <;> rfl

theorem wake_cfg (n : Nat) (c : Clocked (Cfg × S)) (it : Iteration) : (c.wake stageStep n it).1.state.1 = c.state.1 := by
  unfold Clocked.wake
  split
  · rfl
  · exact (apply_cfg n it.messages _).trans ((expire_cfg _ _).trans (read_cfg _ _ _))

/-- an iteration -/
theorem iterate_clocked (rx : Regex) {srv : Srv} {now : Int} {c : Clocked (Cfg × S)} (h : Clocking srv now c []) {n : Nat} (hn : c.state.1.contexts.length = n)
    {it : Iteration} (hi : it.Ordinary (!c.state.1.hasDeviceFilter))
    (ht : ∀ start request, c.since = some (start, request) → start ≤ it.now ∧ it.now - start < 2 ^ 31)
    (ht' : ∀ start request, (c.read stageStep it.now it.read).1.since = some (start, request) → request.value < 4096)
    (hout : ∀ e ∈ (c.wake stageStep n it).2, Sendable e) {init : Cfg × S} (hf : c.Follows init) {log : List StageOp} (hx : NeverExits init log)
    (hp : (c.wake stageStep n it).1.log <+: log) :
    (srv.iterate rx it).2 = true ∧ Clocking (srv.iterate rx it).1 it.now (c.wake stageStep n it).1 [] ∧
      (srv.iterate rx it).1.out = srv.out ++ (c.wake stageStep n it).2.map Eff.sendKey ∧ (c.wake stageStep n it).1.Follows init := by
  obtain ⟨srv0, hsrv0⟩ : ∃ srv0 : Srv, srv0 = { srv with now := it.now, sendResults := it.sendResults } := ⟨_, rfl⟩
  have h0 : Clocking srv0 it.now c [] := by
    rw [hsrv0]
    exact ⟨h.buf, h.flushAt, h.sending, h.info, h.ms, hi.sent, rfl, h.last, h.start, h.timeout⟩
  have ho0 : srv0.out = srv.out := by rw [hsrv0]
  unfold Clocked.wake at hout hp ⊢
  rw [Srv.iterate, ← hsrv0]
  simp only []
  by_cases hother : it.read = .other
  · rw [if_pos hother, if_pos hother]
    exact ⟨rfl, h0, by rw [ho0]; simp, hf⟩
  · rw [if_neg hother] at hout hp ⊢
    rw [if_neg hother]
    simp only [] at hout hp ⊢
    obtain ⟨a, ha⟩ : ∃ a, a = c.read stageStep it.now it.read := ⟨_, rfl⟩
    obtain ⟨b, hb⟩ : ∃ b, b = a.1.expire stageStep it.now := ⟨_, rfl⟩
    obtain ⟨d, hd⟩ : ∃ d, d = b.1.apply stageStep (it.messages.flatMap (Msg.stageOps n)) := ⟨_, rfl⟩
    rw [← ha, ← hb, ← hd] at hout hp ⊢
    rw [← ha] at ht'
    have hacfg : a.1.state.1 = c.state.1 := by rw [ha]; exact read_cfg _ _ _
    have hbcfg : b.1.state.1 = c.state.1 := by rw [hb]; exact (expire_cfg _ _).trans hacfg
    have hlb : b.1.log <+: log := by
      have := (apply_log stageStep (it.messages.flatMap (Msg.stageOps n)) b.1).1
      rw [← hd] at this
      rw [this] at hp
      exact (List.prefix_append _ _).trans hp
    have hla : a.1.log <+: log := by
      have := expire_log stageStep a.1 it.now
      rw [← hb] at this
      exact this.trans hlb
    -- the event which is read
    have hread : Clocking (srv0.processRead rx it.read) it.now a.1 ([] ++ a.2) ∧ (srv0.processRead rx it.read).out = srv0.out ∧ a.1.Follows init := by
      cases hr : it.read with
      | nothing => rw [ha, hr]; exact ⟨h0, rfl, hf⟩
      | other => exact absurd hr hother
      | key ev dev =>
        have hk := hi.read ev dev hr
        rw [ha, hr] at hla ⊢
        rw [Srv.processRead, if_pos (by simpa using (ordinary_noWheel hk).2.2)]
        exact key_clocked rx h0 ev dev hk ht hf hx hla
    obtain ⟨h1, h2, h3⟩ := hread
    obtain ⟨srv1, hsrv1⟩ : ∃ srv1, srv1 = (srv0.processRead rx it.read).answerTimeout rx := ⟨_, rfl⟩
    have hans := expire_clocked rx h1 ht' h3 hx (by rw [← hb]; exact hlb)
    rw [← hb, ← hsrv1] at hans
    obtain ⟨h4, h5, h6⟩ := hans
    rw [← hsrv1]
    have hsend1 : ∀ e ∈ srv1.sendBuf, Sendable e := by
      intro e he
      rw [h4.buf, List.nil_append] at he
      exact hout e (List.mem_append_left _ he)
    obtain ⟨srv2, hsrv2⟩ : ∃ srv2 : Srv, srv2 = { srv1 with sendBuf := [], flushAt := none, out := srv1.out ++ srv1.sendBuf.map Eff.sendKey } := ⟨_, rfl⟩
    have hfl : srv1.flushWhenDue rx = (srv2, true) := by
      rw [Srv.flushWhenDue, if_pos (by simp [Srv.flushDue, h4.flushAt]), flush_sendable rx _ hsend1 h4.results h4.sending, hsrv2]
    simp only [hfl, Bool.not_true, Bool.false_eq_true, if_false]
    have h7 : Clocking srv2 it.now b.1 [] := by
      rw [hsrv2]; exact ⟨rfl, rfl, h4.sending, h4.info, h4.ms, h4.results, h4.now, h4.last, h4.start, h4.timeout⟩
    -- new devices
    have hdev : ∃ srv3, srv2.updateDevices rx it.devices = srv3 ∧ Clocking srv3 it.now b.1 [] ∧ srv3.out = srv2.out := by
      cases hdv : it.devices with
      | none => exact ⟨srv2, rfl, h7, rfl⟩
      | some l =>
        have hff : c.state.1.hasDeviceFilter = false := by
          rcases hi.devices with h | h
          · rw [hdv] at h; cases h
          · simpa using h
        refine ⟨{ srv2 with devices := l }, ?_, ⟨h7.buf, h7.flushAt, h7.sending, h7.info, h7.ms, h7.results, h7.now, h7.last, h7.start, h7.timeout⟩, rfl⟩
        rw [Srv.updateDevices, Srv.setDeviceDescs, Srv.evaluateDeviceFilters, if_pos (by rw [h7.ms]; simp [MS.hasDeviceFilters, hbcfg, hff])]
    obtain ⟨srv3, hsrv3, h8, ho3⟩ := hdev
    rw [hsrv3]
    obtain ⟨h9, h10⟩ := messages_clocked rx n it.messages hi.messages srv3 it.now b.1 (by rw [hbcfg]; exact hn) h8 (by
      rw [← hd]
      intro e he
      exact hout e (List.mem_append_right _ he))
    rw [← hd] at h9 h10
    have hfd : d.1.Follows init := by rw [hd]; exact h6.apply _
    have hexit : d.1.state.2.shouldExit = false := by
      rw [hfd]; exact hx _ hp
    have hne : (it.messages.foldl (Srv.onMessage rx) srv3).ms.stages = [d.1.state] := by rw [h9.ms]
    rw [if_neg (by simp [hi.regrab, hne])]
    refine ⟨by simp [MS.shouldExit, hne, hexit], h9, ?_, hfd⟩
    rw [h10, ho3, hsrv2]
    simp only [h5, h2, ho0, h4.buf, List.nil_append, List.map_append, List.append_assoc]

/-- the loop -/
theorem mainLoop_clocked (rx : Regex) (n : Nat) (its : List Iteration) : ∀ (srv : Srv) (now : Int) (c : Clocked (Cfg × S)), Clocking srv now c [] →
    c.state.1.contexts.length = n → (∀ it ∈ its, it.Ordinary (!c.state.1.hasDeviceFilter)) → c.Timely stageStep n its →
    (∀ e ∈ (c.run stageStep n its).2, Sendable e) → ∀ {init : Cfg × S}, c.Follows init → NeverExits init (c.run stageStep n its).1.log →
    (srv.mainLoop rx its).out = srv.out ++ (c.run stageStep n its).2.map Eff.sendKey := by
  induction its with
  | nil => intro srv now c _ _ _ _ _ _ _ _; simp [Srv.mainLoop, Clocked.run]
  | cons it its ih =>
    intro srv now c h hn hi ht hout init hf hx
    obtain ⟨h1, h2, h3, h4⟩ := iterate_clocked rx h hn (hi it (by simp)) ht.1 ht.2.1 (fun e he => hout e (List.mem_append_left _ he)) hf hx (run_log stageStep n its _)
    have hcfg := wake_cfg n c it
    have h5 := ih (srv.iterate rx it).1 it.now (c.wake stageStep n it).1 h2 (by rw [hcfg]; exact hn)
      (by rw [hcfg]; exact fun x hx => hi x (by simp [hx])) ht.2.2 (fun e he => hout e (List.mem_append_right _ he)) h4 hx
    rw [Srv.mainLoop, if_pos h1, h5, h3]
    show _ = srv.out ++ ((c.wake stageStep n it).2 ++ ((c.wake stageStep n it).1.run stageStep n its).2).map Eff.sendKey
    simp

end KM
