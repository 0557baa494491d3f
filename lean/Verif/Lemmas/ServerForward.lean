import Verif.Spec.Forward
import Verif.Props.StageOutput
/-!
# Lemmas: the server around a stage
-/
namespace KM

theorem flushItems_sendable (rx : Regex) (next : Option (Srv → Srv × Bool)) (l : KeySequence) : ∀ s : Srv,
    (∀ e ∈ l, Sendable e) → s.sendResults = [] →
    Srv.flushItems rx next l s = ({ s with sendBuf := [], out := s.out ++ l.map Eff.sendKey }, true) := by
  induction l with
  | nil => intro s _ _; simp [Srv.flushItems]
  | cons e l ih =>
    intro s hl hr
    obtain ⟨h1, h2, h3, h4⟩ := hl e (by simp)
    have hw : (isMouseWheel e.key && e.state == .Down) = false := by
      cases hm : isMouseWheel e.key with
      | false => rfl
      | true => simpa using h4 hm
    rw [Srv.flushItems.eq_def]
    simp only []
    rw [if_neg (by rw [hw]; decide), if_neg (by rw [h3]; decide), if_neg (by rw [h2]; decide), if_neg (by simpa using h1),
      if_pos (by simp [Srv.sendSucceeds, hr]), ih _ (fun d hd => hl d (by simp [hd])) (by simp [Srv.send, hr])]
    simp [Srv.send, hr]

/-- everything is sent -/
theorem flush_sendable (rx : Regex) (s : Srv) (hl : ∀ e ∈ s.sendBuf, Sendable e) (hr : s.sendResults = []) (hs : s.sending = false) :
    s.flushSendBuffer rx = ({ s with sendBuf := [], flushAt := none, out := s.out ++ s.sendBuf.map Eff.sendKey }, true) := by
  have h1 := flushItems_sendable rx (some (Srv.flushLoop rx 8)) s.sendBuf { s with sending := true, flushAt := none } hl hr
  have h2 : Srv.flushLoop rx 9 { s with sending := true, flushAt := none } = _ := h1
  rw [Srv.flushSendBuffer, if_neg (by rw [hs]; decide)]
  simp only [h2]
  cases s
  simp only at hs
  subst hs
  rfl

theorem sendable_noTimeout {out : KeySequence} (h : ∀ e ∈ out, Sendable e) : timeoutRequest out = none := by
  unfold timeoutRequest
  cases hl : out.getLast? with
  | none => rfl
  | some e =>
    have := (h e (List.mem_of_mem_getLast? hl)).1
    simp [this]

/-- a stage of its own -/
theorem update_single (c : Cfg) (s : S) (act : List Int) (ev : KeyEvent) (dev : Int) :
    MS.update { stages := [(c, s)], activeClient := act, buf := [] } ev dev =
      ({ stages := [(c, (update c s ev dev).1)], activeClient := act, buf := [] }, (update c s ev dev).2) := by
  simp [MS.update, updateGo, stageEvent, stageInput]

theorem setActive_single (c : Cfg) (s : S) (act : List Int) (l : List Int) :
    MS.setActiveClientContexts { stages := [(c, s)], activeClient := act, buf := [] } l =
      ({ stages := [(c, (setActiveClientContexts c s (stageIndices l 0 c.contexts.length)).1)], activeClient := l,
         buf := (setActiveClientContexts c s (stageIndices l 0 c.contexts.length)).2 },
       (setActiveClientContexts c s (stageIndices l 0 c.contexts.length)).2) := by
  simp [MS.setActiveClientContexts, setActiveGo, contextInput]

/-- what is known about the server between operations -/
structure Around (srv : Srv) (st : Cfg × S) : Prop extends srv.Waits where
  stages : srv.ms.stages = [st]
  results : srv.sendResults = []

theorem Around.ms_eq {srv : Srv} {c : Cfg} {s : S} (h : Around srv (c, s)) : srv.ms = { stages := [(c, s)], activeClient := srv.ms.activeClient, buf := [] } := by
  have h1 := h.stages
  have h2 := h.stageBuf
  cases hm : srv.ms
  rw [hm] at h1 h2
  simp only at h1 h2
  subst h1 h2
  rfl

theorem ordinary_noWheel {k : Key} (h : Ordinary k) : isMouseWheel k = false ∧ k ≠ Key.timeout ∧ k ≠ Key.none := by
  refine ⟨h.2, ?_, ?_⟩
  · rintro rfl; exact absurd h.1 (by decide)
  · rintro rfl; exact absurd h.1 (by decide)

/-- reading a key -/
theorem translate_ordinary (rx : Regex) {srv : Srv} {c : Cfg} {s : S} (h : Around srv (c, s)) {ev : KeyEvent} {dev : Int}
    (hk : Ordinary ev.key) (hout : ∀ e ∈ (update c s ev dev).2, Sendable e) (hx : (update c s ev dev).1.shouldExit = false) :
    srv.translateInput rx ev dev = { srv with
      last := ev
      ms := { stages := [(c, (update c s ev dev).1)], activeClient := srv.ms.activeClient, buf := [] }
      sendBuf := (update c s ev dev).2 } := by
  obtain ⟨hw, ht, hn⟩ := ordinary_noWheel hk
  have hms := h.ms_eq
  have hb := h.buf
  have hnote : srv.noteEvent ev = { srv with last := ev } := by
    unfold Srv.noteEvent; rw [if_pos (by simpa using ht)]
  have hupd : srv.ms.update ev dev = ({ stages := [(c, (update c s ev dev).1)], activeClient := srv.ms.activeClient, buf := [] }, (update c s ev dev).2) := by
    rw [hms, update_single]
  have hcore : srv.translateCore rx (Srv.flush rx) ev dev = { srv with
      last := ev
      ms := { stages := [(c, (update c s ev dev).1)], activeClient := srv.ms.activeClient, buf := [] }
      sendBuf := (update c s ev dev).2 } := by
    unfold Srv.translateCore
    rw [hnote]
    simp only [hupd]
    rw [if_neg (by simp [MS.shouldExit, hx])]
    simp [Srv.sendOutput, sendable_noTimeout hout, Srv.sendKeySequence, copyWheelDelta, hw, MS.reuseBuffer, hb]
  rw [← hcore]
  have hinj : srv.injectElapsed rx (Srv.flush rx) ev dev = srv := by
    unfold Srv.injectElapsed; rw [h.timeout]
  unfold Srv.translateInput Srv.translateWith
  rw [if_neg (by simp [Srv.ignoresRepeat, h.flushAt, h.timeout]), if_neg (by simp [Srv.repliesKeyInfo, h.info])]
  simp only [hinj]
  rw [if_neg (by simp [hw])]

/-- a change of the active contexts -/
theorem active_ordinary (rx : Regex) {srv : Srv} {c : Cfg} {s : S} (h : Around srv (c, s)) {l : List Int}
    (hout : ∀ e ∈ (setActiveClientContexts c s (stageIndices l 0 c.contexts.length)).2, Sendable e) :
    ∃ srv', srv.onMessage rx (.activeContexts l) = srv' ∧
      Around srv' (c, (setActiveClientContexts c s (stageIndices l 0 c.contexts.length)).1) ∧
      srv'.out = srv.out ++ (setActiveClientContexts c s (stageIndices l 0 c.contexts.length)).2.map Eff.sendKey := by
  refine ⟨_, rfl, ?_⟩
  have hms := h.ms_eq
  have hb := h.buf
  have hdef : srv.onMessage rx (.activeContexts l) = { srv with
      ms := { stages := [(c, (setActiveClientContexts c s (stageIndices l 0 c.contexts.length)).1)], activeClient := l, buf := [] }
      sendBuf := []
      flushAt := none
      out := srv.out ++ (setActiveClientContexts c s (stageIndices l 0 c.contexts.length)).2.map Eff.sendKey } := by
    have hset : srv.ms.setActiveClientContexts l =
        ({ stages := [(c, (setActiveClientContexts c s (stageIndices l 0 c.contexts.length)).1)], activeClient := l,
           buf := (setActiveClientContexts c s (stageIndices l 0 c.contexts.length)).2 },
         (setActiveClientContexts c s (stageIndices l 0 c.contexts.length)).2) := by
      rw [hms]; exact setActive_single c s srv.ms.activeClient l
    rw [Srv.onMessage, Srv.onActiveContexts, Srv.setActiveContexts]
    simp only [hset, Srv.sendKeySequence, MS.reuseBuffer, hb, List.nil_append, h.flushAt, Option.isNone_none, if_true]
    rw [Srv.flush]
    have hfl := flush_sendable rx { srv with
      ms := { stages := [(c, (setActiveClientContexts c s (stageIndices l 0 c.contexts.length)).1)], activeClient := l, buf := [] }
      sendBuf := (setActiveClientContexts c s (stageIndices l 0 c.contexts.length)).2
      flushAt := none } hout h.results h.sending
    rw [hfl]
  rw [hdef]
  exact ⟨⟨⟨rfl, rfl, h.timeout, h.sending, h.info, rfl⟩, rfl, h.results⟩, rfl⟩

theorem stageIndices_zero (l : List Int) (n : Nat) :
    stageIndices l 0 n = (l.filter (fun i => decide (0 ≤ i) && decide (i < (n : Int)))).map Int.toNat := by
  simp [stageIndices]

/-- messages -/
theorem messages_ordinary (rx : Regex) (c : Cfg) (ms : List Msg) (hm : ∀ m ∈ ms, ∃ l, m = .activeContexts l) : ∀ (srv : Srv) (s : S),
    Around srv (c, s) → (∀ e ∈ (stageRun (c, s) (ms.flatMap (Msg.stageOps c.contexts.length))).2, Sendable e) →
    ∃ s', stageRun (c, s) (ms.flatMap (Msg.stageOps c.contexts.length)) = ((c, s'), (stageRun (c, s) (ms.flatMap (Msg.stageOps c.contexts.length))).2) ∧
      Around (ms.foldl (Srv.onMessage rx) srv) (c, s') ∧
      (ms.foldl (Srv.onMessage rx) srv).out = srv.out ++ (stageRun (c, s) (ms.flatMap (Msg.stageOps c.contexts.length))).2.map Eff.sendKey := by
  induction ms with
  | nil => intro srv s h _; exact ⟨s, rfl, h, by simp [stageRun]⟩
  | cons m ms ih =>
    intro srv s h hout
    obtain ⟨l, rfl⟩ := hm m (by simp)
    have hrun : stageRun (c, s) ((Msg.activeContexts l :: ms).flatMap (Msg.stageOps c.contexts.length)) =
        ((stageRun (c, (setActiveClientContexts c s (stageIndices l 0 c.contexts.length)).1) (ms.flatMap (Msg.stageOps c.contexts.length))).1,
          (setActiveClientContexts c s (stageIndices l 0 c.contexts.length)).2 ++
          (stageRun (c, (setActiveClientContexts c s (stageIndices l 0 c.contexts.length)).1) (ms.flatMap (Msg.stageOps c.contexts.length))).2) := by
      rw [stageIndices_zero]; rfl
    rw [hrun] at hout ⊢
    obtain ⟨srv', h1, h2, h3⟩ := active_ordinary rx h (l := l) (fun e he => hout e (List.mem_append_left _ he))
    obtain ⟨s', h4, h5, h6⟩ := ih (fun x hx => hm x (by simp [hx])) srv' _ h2 (fun e he => hout e (List.mem_append_right _ he))
    refine ⟨s', ?_, ?_, ?_⟩
    · rw [h4]
    · rw [List.foldl_cons, h1]; exact h5
    · rw [List.foldl_cons, h1, h6, h3]; simp

/-- an iteration: the output of the stage is sent -/
theorem iterate_ordinary (rx : Regex) {srv : Srv} {c : Cfg} {s : S} (h : Around srv (c, s)) {it : Iteration} (hi : it.Ordinary (!c.hasDeviceFilter))
    (hout : ∀ e ∈ (stageRun (c, s) (it.stageOps c.contexts.length)).2, Sendable e)
    (hx : ∀ ops', ops' <+: it.stageOps c.contexts.length → (stageRun (c, s) ops').1.2.shouldExit = false) :
    ∃ s', (stageRun (c, s) (it.stageOps c.contexts.length)).1 = (c, s') ∧ (srv.iterate rx it).2 = true ∧
      Around (srv.iterate rx it).1 (c, s') ∧
      (srv.iterate rx it).1.out = srv.out ++ (stageRun (c, s) (it.stageOps c.contexts.length)).2.map Eff.sendKey := by
  obtain ⟨srv0, hsrv0⟩ : ∃ srv0 : Srv, srv0 = { srv with now := it.now, sendResults := it.sendResults } := ⟨_, rfl⟩
  have h0 : Around srv0 (c, s) := by
    rw [hsrv0]
    exact ⟨⟨h.buf, h.flushAt, h.timeout, h.sending, h.info, h.stageBuf⟩, h.stages, hi.sent⟩
  have ho0 : srv0.out = srv.out := by rw [hsrv0]
  unfold Iteration.stageOps at hout hx ⊢
  rw [Srv.iterate, ← hsrv0]
  simp only []
  by_cases hother : it.read = .other
  · rw [if_pos hother, if_pos hother]
    exact ⟨s, rfl, rfl, h0, by rw [ho0]; simp [stageRun]⟩
  · rw [if_neg hother] at hout hx ⊢
    rw [if_neg hother]
    -- the event which is read
    have hread : ∃ s1, (stageRun (c, s) it.read.stageOps).1 = (c, s1) ∧
        ∃ srv1, (srv0.processRead rx it.read).answerTimeout rx = srv1 ∧ srv1.flushAt = none ∧ srv1.timeoutStart = none ∧ srv1.sending = false ∧
          srv1.nextKeyInfo = false ∧ srv1.ms.buf = [] ∧ srv1.ms.stages = [(c, s1)] ∧ srv1.sendResults = [] ∧ srv1.out = srv.out ∧
          srv1.sendBuf = (stageRun (c, s) it.read.stageOps).2 := by
      cases hr : it.read with
      | nothing =>
        refine ⟨s, rfl, srv0, ?_, h0.flushAt, h0.timeout, h0.sending, h0.info, h0.stageBuf, h0.stages, h0.results, ho0, h0.buf⟩
        simp [Srv.processRead, Srv.answerTimeout, Srv.timeoutElapsed, h0.timeout]
      | other => exact absurd hr hother
      | key ev dev =>
        have hk := hi.read ev dev hr
        have hrun : stageRun (c, s) (Read.key ev dev).stageOps = ((c, (update c s ev dev).1), (update c s ev dev).2) := by
          simp [Read.stageOps, stageRun, stageStep]
        have hs1 : ∀ e ∈ (update c s ev dev).2, Sendable e := by
          intro e he
          refine hout e ?_
          rw [stageRun_append, hr, hrun]
          exact List.mem_append_left _ he
        have hx1 : (update c s ev dev).1.shouldExit = false := by
          have := hx (Read.key ev dev).stageOps (by rw [hr]; exact List.prefix_append _ _)
          rw [hrun] at this
          exact this
        rw [hrun]
        refine ⟨_, rfl, _, rfl, ?_⟩
        rw [Srv.processRead, if_pos (by simpa using (ordinary_noWheel hk).2.2), translate_ordinary rx h0 hk hs1 hx1]
        rw [Srv.answerTimeout, if_neg (by simp [Srv.timeoutElapsed, h0.timeout])]
        exact ⟨h0.flushAt, h0.timeout, h0.sending, h0.info, rfl, rfl, h0.results, ho0, rfl⟩
    obtain ⟨s1, hrun1, srv1, hsrv1, f1, f2, f3, f4, f5, f6, f7, f8, f9⟩ := hread
    rw [hsrv1]
    have hsend1 : ∀ e ∈ srv1.sendBuf, Sendable e := by
      intro e he
      rw [f9] at he
      exact hout e (by rw [stageRun_append]; exact List.mem_append_left _ he)
    obtain ⟨srv2, hsrv2⟩ : ∃ srv2 : Srv, srv2 = { srv1 with sendBuf := [], flushAt := none, out := srv1.out ++ srv1.sendBuf.map Eff.sendKey } := ⟨_, rfl⟩
    have hfl : srv1.flushWhenDue rx = (srv2, true) := by
      rw [Srv.flushWhenDue, if_pos (by simp [Srv.flushDue, f1]), flush_sendable rx _ hsend1 f7 f3, hsrv2]
    simp only [hfl, Bool.not_true, Bool.false_eq_true, if_false]
    have h2 : Around srv2 (c, s1) := by
      rw [hsrv2]; exact ⟨⟨rfl, rfl, f2, f3, f4, f5⟩, f6, f7⟩
    -- new devices
    have hdev : ∃ srv3, srv2.updateDevices rx it.devices = srv3 ∧ Around srv3 (c, s1) ∧ srv3.out = srv2.out := by
      cases hd : it.devices with
      | none => exact ⟨srv2, rfl, h2, rfl⟩
      | some l =>
        have hf : c.hasDeviceFilter = false := by
          rcases hi.devices with h | h
          · rw [hd] at h; cases h
          · simpa using h
        refine ⟨{ srv2 with devices := l }, ?_, ⟨⟨h2.buf, h2.flushAt, h2.timeout, h2.sending, h2.info, h2.stageBuf⟩, h2.stages, h2.results⟩, rfl⟩
        rw [Srv.updateDevices, Srv.setDeviceDescs, Srv.evaluateDeviceFilters, if_pos (by simp [MS.hasDeviceFilters, h2.stages, hf])]
    obtain ⟨srv3, hsrv3, h3, ho3⟩ := hdev
    rw [hsrv3]
    have hrun2 := stageRun_append (c, s) it.read.stageOps (it.messages.flatMap (Msg.stageOps c.contexts.length))
    rw [hrun1] at hrun2
    obtain ⟨s4, h4, h5, h6⟩ := messages_ordinary rx c it.messages hi.messages srv3 s1 h3 (by
      intro e he
      exact hout e (by rw [hrun2]; exact List.mem_append_right _ he))
    have hrun3 : (stageRun (c, s) (it.read.stageOps ++ it.messages.flatMap (Msg.stageOps c.contexts.length))).1 = (c, s4) := by
      rw [hrun2, h4]
    refine ⟨s4, hrun3, ?_⟩
    have hexit : s4.shouldExit = false := by
      have := hx _ (List.prefix_refl _)
      rw [hrun3] at this
      exact this
    rw [if_neg (by simp [hi.regrab, h5.stages])]
    refine ⟨by simp [MS.shouldExit, h5.stages, hexit], h5, ?_⟩
    rw [h6, ho3, hsrv2, hrun2, f8, f9]
    simp only [List.map_append, List.append_assoc]

/-- the loop: the output of the stage is sent -/
theorem mainLoop_ordinary (rx : Regex) (c : Cfg) (its : List Iteration) (hi : ∀ it ∈ its, it.Ordinary (!c.hasDeviceFilter)) : ∀ (srv : Srv) (s : S),
    Around srv (c, s) →
    (∀ e ∈ (stageRun (c, s) (its.flatMap (Iteration.stageOps c.contexts.length))).2, Sendable e) →
    (∀ ops', ops' <+: its.flatMap (Iteration.stageOps c.contexts.length) → (stageRun (c, s) ops').1.2.shouldExit = false) →
    ∃ s', (stageRun (c, s) (its.flatMap (Iteration.stageOps c.contexts.length))).1 = (c, s') ∧ Around (srv.mainLoop rx its) (c, s') ∧
      (srv.mainLoop rx its).out = srv.out ++ (stageRun (c, s) (its.flatMap (Iteration.stageOps c.contexts.length))).2.map Eff.sendKey := by
  induction its with
  | nil => intro srv s h _ _; exact ⟨s, rfl, h, by simp [Srv.mainLoop, stageRun]⟩
  | cons it its ih =>
    intro srv s h hout hx
    rw [List.flatMap_cons] at hout hx ⊢
    obtain ⟨s1, h1, h2, h3, h4⟩ := iterate_ordinary rx h (hi it (by simp))
      (fun e he => hout e (by rw [stageRun_append]; exact List.mem_append_left _ he))
      (fun ops' hp => hx ops' (hp.trans (List.prefix_append _ _)))
    have hrun := stageRun_append (c, s) (it.stageOps c.contexts.length) (its.flatMap (Iteration.stageOps c.contexts.length))
    rw [h1] at hrun
    obtain ⟨s2, h5, h6, h7⟩ := ih (fun x hx => hi x (by simp [hx])) _ s1 h3
      (fun e he => hout e (by rw [hrun]; exact List.mem_append_right _ he))
      (by
        rintro ops' ⟨t, ht⟩
        have := hx (it.stageOps c.contexts.length ++ ops') ⟨t, by rw [← ht, List.append_assoc]⟩
        rw [stageRun_append, h1] at this
        exact this)
    refine ⟨s2, by rw [hrun]; exact h5, ?_, ?_⟩
    · rw [Srv.mainLoop, if_pos h2]; exact h6
    · rw [Srv.mainLoop, if_pos h2, h7, h4, hrun]; simp

end KM
