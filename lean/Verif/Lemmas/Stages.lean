import Verif.Spec.Stages
import Verif.Lemmas.EndToEnd
/-!
# Lemmas: the server around several stages
-/
namespace KM

theorem sendable_noServer {e : KeyEvent} (h : Sendable e) : isServerEvent e = false := by
  unfold isServerEvent
  rw [h.2.1, h.2.2.1, beq_eq_false_iff_ne.2 h.1]
  rfl

theorem stageInput_run (c : Cfg) (dev : Int) (first : Bool) (buf : KeySequence) : ∀ (s : S),
    (first = true ∨ ∀ e ∈ buf, Sendable e) →
    ((c, (stageInput c dev first s buf).1), (stageInput c dev first s buf).2) = stageRun (c, s) (buf.map (fun e => .input e dev)) := by
  induction buf with
  | nil => intro s _; rfl
  | cons e buf ih =>
    intro s h
    have hn : ¬ (!first && isServerEvent e) = true := by
      rcases h with h | h
      · rw [h]; exact Bool.false_ne_true
      · rw [sendable_noServer (h e (List.mem_cons_self ..)), Bool.and_false]; exact Bool.false_ne_true
    have ih := ih (update c s e dev).1 (h.imp id (fun h e he => h e (List.mem_cons_of_mem _ he)))
    rw [stageInput, if_neg hn, List.map_cons, stageRun]
    show _ = ((stageRun (c, (update c s e dev).1) _).1, (update c s e dev).2 ++ (stageRun (c, (update c s e dev).1) _).2)
    rw [← ih]

theorem contextInput_run (c : Cfg) (buf : KeySequence) : ∀ (s : S), (∀ e ∈ buf, Sendable e) →
    ((c, (contextInput c s buf).1), (contextInput c s buf).2) = stageRun (c, s) (buf.map (fun e => .input e noDeviceIndex)) := by
  induction buf with
  | nil => intro s _; rfl
  | cons e buf ih =>
    intro s h
    have ih := ih (update c s e noDeviceIndex).1 (fun e he => h e (List.mem_cons_of_mem _ he))
    rw [contextInput, if_neg (by rw [sendable_noServer (h e (List.mem_cons_self ..))]; exact Bool.false_ne_true), List.map_cons, stageRun]
    show _ = ((stageRun (c, (update c s e noDeviceIndex).1) _).1, (update c s e noDeviceIndex).2 ++ (stageRun (c, (update c s e noDeviceIndex).1) _).2)
    rw [← ih]

theorem updateGo_rest {ev : KeyEvent} (dev : Int) (he : (ev.key == Key.timeout || isVirtualKey ev.key) = false) (stages : List (Cfg × S)) :
    ∀ (buf : KeySequence), (∀ e ∈ buf, Sendable e) → (∀ o ∈ (stagesInput dev stages buf).2, ∀ e ∈ o, Sendable e) →
    updateGo ev dev false stages buf = ((stagesInput dev stages buf).1, (stagesInput dev stages buf).2.getLastD buf) := by
  induction stages with
  | nil => intro buf _ _; rfl
  | cons st rest ih =>
    intro buf hb ho
    obtain ⟨c, s⟩ := st
    have h1 := stageInput_run c dev false buf s (.inr hb)
    rw [stagesInput] at ho ⊢
    rw [updateGo]
    have hev : stageEvent c dev false s ev = (s, []) := by
      unfold stageEvent
      rw [he]
      rfl
    simp only [hev, List.nil_append]
    rw [← h1] at ho ⊢
    simp only [] at ho ⊢
    rw [ih _ (fun e he => ho _ (List.mem_cons_self ..) e he) (fun o h => ho o (List.mem_cons_of_mem _ h)), List.getLastD_cons]

theorem updateGo_stages {ev : KeyEvent} (dev : Int) (he : (ev.key == Key.timeout || isVirtualKey ev.key) = false) {stages : List (Cfg × S)} (hne : stages ≠ [])
    (ho : ∀ o ∈ (stagesInput dev stages [ev]).2, ∀ e ∈ o, Sendable e) :
    updateGo ev dev true stages [ev] = ((stagesInput dev stages [ev]).1, (stagesInput dev stages [ev]).2.getLastD []) := by
  cases stages with
  | nil => exact absurd rfl hne
  | cons st rest =>
    obtain ⟨c, s⟩ := st
    have h1 := stageInput_run c dev true [ev] s (.inl rfl)
    rw [stagesInput] at ho ⊢
    rw [updateGo]
    have hev : stageEvent c dev true s ev = (s, []) := rfl
    simp only [hev, List.nil_append]
    rw [← h1] at ho ⊢
    simp only [] at ho ⊢
    rw [updateGo_rest dev he rest _ (fun e he => ho _ (List.mem_cons_self ..) e he) (fun o h => ho o (List.mem_cons_of_mem _ h)), List.getLastD_cons]

theorem setActiveGo_stages (l : List Int) (stages : List (Cfg × S)) : ∀ (off : Nat) (buf : KeySequence), (∀ e ∈ buf, Sendable e) →
    (∀ o ∈ (stagesContexts l off stages buf).2, ∀ e ∈ o, Sendable e) →
    setActiveGo l stages off buf = ((stagesContexts l off stages buf).1, (stagesContexts l off stages buf).2.getLastD buf) := by
  induction stages with
  | nil => intro off buf _ _; rfl
  | cons st rest ih =>
    intro off buf hb ho
    obtain ⟨c, s⟩ := st
    have h1 := contextInput_run c buf s hb
    rw [stagesContexts] at ho ⊢
    rw [setActiveGo]
    simp only [] at ho ⊢
    rw [stageRun_append, ← h1] at ho ⊢
    have hs : ∀ s1 : S, stageRun (c, s1) [.contexts (ownContexts l off c.contexts.length)] =
        ((c, (setActiveClientContexts c s1 (stageIndices l off c.contexts.length)).1), (setActiveClientContexts c s1 (stageIndices l off c.contexts.length)).2) := by
      intro s1
      show ((c, _), _ ++ []) = _
      rw [List.append_nil]
      rfl
    simp only [hs] at ho ⊢
    rw [ih _ _ (fun e he => ho _ (List.mem_cons_self ..) e he) (fun o h => ho o (List.mem_cons_of_mem _ h)), List.getLastD_cons]

/-- what is known about the server between operations -/
structure AroundAll (srv : Srv) (stages : List (Cfg × S)) : Prop extends srv.Waits where
  nonempty : stages ≠ []
  stages : srv.ms.stages = stages
  results : srv.sendResults = []

/-- the stages themselves stay the same -/
theorem stagesStep_cfgs (stages : List (Cfg × S)) (op : StagesOp) : (stagesStep stages op).1.map (·.1) = stages.map (·.1) := by
  have hr : ∀ (ops : List StageOp) (st : Cfg × S), (∀ op ∈ ops, ∃ e d l, op = .input e d ∨ op = .contexts l) → (stageRun st ops).1.1 = st.1 := by
    intro ops
    induction ops with
    | nil => intro st _; rfl
    | cons op ops ih =>
      intro st h
      rw [stageRun]
      refine (ih _ (fun op h' => h op (List.mem_cons_of_mem _ h'))).trans ?_
      obtain ⟨e, d, l, rfl | rfl⟩ := h op (List.mem_cons_self ..)
      · rfl
      · rfl
  cases op with
  | input ev dev =>
    have : ∀ (stages : List (Cfg × S)) (evs : KeySequence), (stagesInput dev stages evs).1.map (·.1) = stages.map (·.1) := by
      intro stages
      induction stages with
      | nil => intro _; rfl
      | cons st rest ih =>
        intro evs
        rw [stagesInput]
        simp only [List.map_cons, ih]
        rw [hr]
        intro op hop
        obtain ⟨e, -, rfl⟩ := List.mem_map.1 hop
        exact ⟨e, dev, [], .inl rfl⟩
    exact this stages [ev]
  | contexts l =>
    have : ∀ (stages : List (Cfg × S)) (off : Nat) (evs : KeySequence), (stagesContexts l off stages evs).1.map (·.1) = stages.map (·.1) := by
      intro stages
      induction stages with
      | nil => intro _ _; rfl
      | cons st rest ih =>
        intro off evs
        rw [stagesContexts]
        simp only [List.map_cons, ih]
        rw [hr]
        intro op hop
        rcases List.mem_append.1 hop with hop | hop
        · obtain ⟨e, -, rfl⟩ := List.mem_map.1 hop
          exact ⟨e, noDeviceIndex, [], .inl rfl⟩
        · rw [List.mem_singleton.1 hop]
          exact ⟨default, 0, _, .inr rfl⟩
    exact this stages 0 []

theorem stagesRun_cfgs (ops : List StagesOp) : ∀ (stages : List (Cfg × S)), (stagesRun stages ops).1.map (·.1) = stages.map (·.1) := by
  induction ops with
  | nil => intro _; rfl
  | cons op ops ih => intro stages; exact (ih _).trans (stagesStep_cfgs stages op)

theorem stagesRun_append (a b : List StagesOp) : ∀ (stages : List (Cfg × S)),
    stagesRun stages (a ++ b) = ((stagesRun (stagesRun stages a).1 b).1, (stagesRun stages a).2 ++ (stagesRun (stagesRun stages a).1 b).2) := by
  induction a with
  | nil => intro _; rfl
  | cons op a ih => intro stages; rw [List.cons_append, stagesRun, ih]; rfl

/-- the first stage does not depend on the others -/
theorem stagesRun_first (ops : List StagesOp) : ∀ (st : Cfg × S) (rest : List (Cfg × S)),
    (stagesRun (st :: rest) ops).1.head? = some (stageRun st (ops.map (StagesOp.first st.1.contexts.length))).1 := by
  induction ops with
  | nil => intro st rest; rfl
  | cons op ops ih =>
    intro st rest
    rw [stagesRun, List.map_cons, stageRun]
    simp only []
    cases op with
    | input ev dev =>
      have h1 : (stagesStep (st :: rest) (.input ev dev)).1 = (stageStep st (.input ev dev)).1 :: (stagesInput dev rest (stageRun st [.input ev dev]).2).1 := rfl
      rw [h1, ih]
      rfl
    | contexts l =>
      have h1 : (stagesStep (st :: rest) (.contexts l)).1 = (stageStep st (.contexts (ownContexts l 0 st.1.contexts.length))).1 ::
        (stagesContexts l (0 + st.1.contexts.length) rest (stageRun st [.contexts (ownContexts l 0 st.1.contexts.length)]).2).1 := rfl
      rw [h1, ih]
      rfl

theorem shouldExit_first (m : MS) : m.shouldExit = (m.stages.head?.map (fun p => p.2.shouldExit)).getD false := by
  unfold MS.shouldExit
  cases m.stages with
  | nil => rfl
  | cons p l => rfl

theorem lastOf_sendable {os : List KeySequence} (h : ∀ o ∈ os, ∀ e ∈ o, Sendable e) : ∀ e ∈ os.getLastD [], Sendable e := by
  intro e he
  rw [List.getLastD_eq_getLast?] at he
  cases hl : os.getLast? with
  | none => rw [hl] at he; cases he
  | some o => rw [hl] at he; exact h o (List.mem_of_getLast? hl) e he

/-- reading a key -/
theorem translate_stages (rx : Regex) {srv : Srv} {stages : List (Cfg × S)} (h : AroundAll srv stages) {ev : KeyEvent} {dev : Int}
    (hk : Ordinary ev.key) (hout : ∀ o ∈ (stagesStep stages (.input ev dev)).2, ∀ e ∈ o, Sendable e)
    (hx : ((stagesStep stages (.input ev dev)).1.head?.map (fun p => p.2.shouldExit)).getD false = false) :
    srv.translateInput rx ev dev = { srv with
      last := ev
      ms := { stages := (stagesStep stages (.input ev dev)).1, activeClient := srv.ms.activeClient, buf := [] }
      sendBuf := (stagesStep stages (.input ev dev)).2.getLastD [] } := by
  obtain ⟨hw, ht, hn⟩ := ordinary_noWheel hk
  have hb := h.buf
  have hlast := lastOf_sendable hout
  have hnote : srv.noteEvent ev = { srv with last := ev } := by
    unfold Srv.noteEvent; rw [if_pos (by simpa using ht)]
  have hvk : (ev.key == Key.timeout || isVirtualKey ev.key) = false := by
    rw [beq_eq_false_iff_ne.2 ht, Bool.false_or, ← Bool.not_eq_true]
    intro hv
    have hb := hk.1
    simp only [isDeviceKey, isKeyboardKey, isMouseButton, isMouseWheel, Bool.or_eq_true, Bool.and_eq_true, decide_eq_true_eq] at hb
    simp only [isVirtualKey, Bool.and_eq_true, decide_eq_true_eq] at hv
    have hle : ev.key ≤ 61439 := by
      rcases hb with (h | h) | h
      · exact h.1.1.2
      · exact Nat.le_trans h.2 (by decide)
      · exact Nat.le_trans h.2 (by decide)
    exact absurd (Nat.le_trans hv.1 hle) (by decide)
  have hupd : srv.ms.update ev dev = ({ stages := (stagesStep stages (.input ev dev)).1, activeClient := srv.ms.activeClient, buf := [] },
      (stagesStep stages (.input ev dev)).2.getLastD []) := by
    unfold MS.update
    rw [h.stages, h.stageBuf, List.nil_append, updateGo_stages dev hvk h.nonempty hout]
    rfl
  have hcore : srv.translateCore rx (Srv.flush rx) ev dev = { srv with
      last := ev
      ms := { stages := (stagesStep stages (.input ev dev)).1, activeClient := srv.ms.activeClient, buf := [] }
      sendBuf := (stagesStep stages (.input ev dev)).2.getLastD [] } := by
    unfold Srv.translateCore
    rw [hnote]
    simp only [hupd]
    rw [if_neg (by rw [shouldExit_first]; simp only [hx]; exact Bool.false_ne_true)]
    simp only [Srv.sendOutput, sendable_noTimeout hlast, Srv.sendKeySequence, copyWheelDelta, hw, MS.reuseBuffer, hb, List.nil_append]
    rfl
  rw [← hcore]
  have hinj : srv.injectElapsed rx (Srv.flush rx) ev dev = srv := by
    unfold Srv.injectElapsed; rw [h.timeout]
  unfold Srv.translateInput Srv.translateWith
  rw [if_neg (by simp [Srv.ignoresRepeat, h.flushAt, h.timeout]), if_neg (by simp [Srv.repliesKeyInfo, h.info])]
  simp only [hinj]
  rw [if_neg (by simp [hw])]

theorem stagesStep_some {stages : List (Cfg × S)} (h : stages ≠ []) (op : StagesOp) : (stagesStep stages op).1 ≠ [] := by
  intro e
  have := stagesStep_cfgs stages op
  rw [e] at this
  exact h (List.map_eq_nil_iff.1 this.symm)

/-- a change of the active contexts -/
theorem active_stages (rx : Regex) {srv : Srv} {stages : List (Cfg × S)} (h : AroundAll srv stages) {l : List Int}
    (hout : ∀ o ∈ (stagesStep stages (.contexts l)).2, ∀ e ∈ o, Sendable e) :
    AroundAll (srv.onMessage rx (.activeContexts l)) (stagesStep stages (.contexts l)).1 ∧
      (srv.onMessage rx (.activeContexts l)).out = srv.out ++ ((stagesStep stages (.contexts l)).2.getLastD []).map Eff.sendKey := by
  have hb := h.buf
  have hset : srv.ms.setActiveClientContexts l =
      ({ stages := (stagesStep stages (.contexts l)).1, activeClient := l, buf := (stagesStep stages (.contexts l)).2.getLastD [] },
       (stagesStep stages (.contexts l)).2.getLastD []) := by
    unfold MS.setActiveClientContexts
    rw [h.stages, h.stageBuf, setActiveGo_stages l stages 0 [] (by intro e he; cases he) hout]
    rfl
  have hdef : srv.onMessage rx (.activeContexts l) = { srv with
      ms := { stages := (stagesStep stages (.contexts l)).1, activeClient := l, buf := [] }
      sendBuf := []
      flushAt := none
      out := srv.out ++ ((stagesStep stages (.contexts l)).2.getLastD []).map Eff.sendKey } := by
    rw [Srv.onMessage, Srv.onActiveContexts, Srv.setActiveContexts]
    simp only [hset, Srv.sendKeySequence, MS.reuseBuffer, hb, List.nil_append, h.flushAt, Option.isNone_none, if_true]
    rw [Srv.flush]
    have hfl := flush_sendable rx { srv with
      ms := { stages := (stagesStep stages (.contexts l)).1, activeClient := l, buf := [] }
      sendBuf := (stagesStep stages (.contexts l)).2.getLastD []
      flushAt := none } (lastOf_sendable hout) h.results h.sending
    rw [hfl]
  rw [hdef]
  exact ⟨⟨⟨rfl, rfl, h.timeout, h.sending, h.info, rfl⟩, stagesStep_some h.nonempty _, rfl, h.results⟩, rfl⟩

theorem lastOutputs_append (a b : List (List KeySequence)) : lastOutputs (a ++ b) = lastOutputs a ++ lastOutputs b := List.flatMap_append

/-- messages -/
theorem messages_stages (rx : Regex) (ms : List Msg) (hm : ∀ m ∈ ms, ∃ l, m = .activeContexts l) : ∀ (srv : Srv) (stages : List (Cfg × S)),
    AroundAll srv stages → OnlyKeys (stagesRun stages (ms.flatMap Msg.stagesOps)).2 →
    AroundAll (ms.foldl (Srv.onMessage rx) srv) (stagesRun stages (ms.flatMap Msg.stagesOps)).1 ∧
      (ms.foldl (Srv.onMessage rx) srv).out = srv.out ++ (lastOutputs (stagesRun stages (ms.flatMap Msg.stagesOps)).2).map Eff.sendKey := by
  induction ms with
  | nil => intro srv stages h _; exact ⟨h, (List.append_nil _).symm⟩
  | cons m ms ih =>
    intro srv stages h hout
    obtain ⟨l, rfl⟩ := hm m (List.mem_cons_self ..)
    have hf : (Msg.activeContexts l :: ms).flatMap Msg.stagesOps = .contexts l :: ms.flatMap Msg.stagesOps := rfl
    rw [hf, stagesRun] at hout ⊢
    simp only [] at hout ⊢
    obtain ⟨h1, h2⟩ := active_stages rx h (l := l) (fun o ho => hout _ (List.mem_cons_self ..) o ho)
    obtain ⟨h3, h4⟩ := ih (fun x hx => hm x (List.mem_cons_of_mem _ hx)) _ _ h1 (fun o ho => hout o (List.mem_cons_of_mem _ ho))
    refine ⟨h3, ?_⟩
    rw [List.foldl_cons, h4, h2]
    simp only [lastOutputs, List.flatMap_cons, List.map_append, List.append_assoc]

/-- the first stage does not ask to exit -/
def StaysIn (stages : List (Cfg × S)) (ops : List StagesOp) : Prop :=
  ∀ ops', ops' <+: ops → ((stagesRun stages ops').1.head?.map (fun p => p.2.shouldExit)).getD false = false

theorem StaysIn.left {stages : List (Cfg × S)} {a b : List StagesOp} (h : StaysIn stages (a ++ b)) : StaysIn stages a :=
  fun ops' hp => h ops' (hp.trans (List.prefix_append _ _))

theorem StaysIn.right {stages : List (Cfg × S)} {a b : List StagesOp} (h : StaysIn stages (a ++ b)) : StaysIn (stagesRun stages a).1 b := by
  rintro ops' ⟨t, ht⟩
  have := h (a ++ ops') ⟨t, by rw [← ht, List.append_assoc]⟩
  rw [stagesRun_append] at this
  exact this

theorem OnlyKeys.left {a b : List (List KeySequence)} (h : OnlyKeys (a ++ b)) : OnlyKeys a := fun o ho => h o (List.mem_append_left _ ho)
theorem OnlyKeys.right {a b : List (List KeySequence)} (h : OnlyKeys (a ++ b)) : OnlyKeys b := fun o ho => h o (List.mem_append_right _ ho)

/-- an iteration: the output of the last stage is sent -/
theorem iterate_stages (rx : Regex) {srv : Srv} {stages : List (Cfg × S)} (h : AroundAll srv stages)
    (hf : ∀ st ∈ stages, st.1.hasDeviceFilter = false) {it : Iteration} (hi : it.Ordinary true)
    (hout : OnlyKeys (stagesRun stages it.stagesOps).2) (hx : StaysIn stages it.stagesOps) :
    (srv.iterate rx it).2 = true ∧ AroundAll (srv.iterate rx it).1 (stagesRun stages it.stagesOps).1 ∧
      (srv.iterate rx it).1.out = srv.out ++ (lastOutputs (stagesRun stages it.stagesOps).2).map Eff.sendKey := by
  obtain ⟨srv0, hsrv0⟩ : ∃ srv0 : Srv, srv0 = { srv with now := it.now, sendResults := it.sendResults } := ⟨_, rfl⟩
  have h0 : AroundAll srv0 stages := by
    rw [hsrv0]
    exact ⟨⟨h.buf, h.flushAt, h.timeout, h.sending, h.info, h.stageBuf⟩, h.nonempty, h.stages, hi.sent⟩
  have ho0 : srv0.out = srv.out := by rw [hsrv0]
  unfold Iteration.stagesOps at hout hx ⊢
  rw [Srv.iterate, ← hsrv0]
  simp only []
  by_cases hother : it.read = .other
  · rw [if_pos hother, if_pos hother]
    exact ⟨rfl, h0, by rw [ho0]; exact (List.append_nil _).symm⟩
  · rw [if_neg hother] at hout hx ⊢
    rw [if_neg hother]
    have hrun := stagesRun_append it.read.stagesOps (it.messages.flatMap Msg.stagesOps) stages
    have ho1 : OnlyKeys (stagesRun stages it.read.stagesOps).2 := by rw [hrun] at hout; exact hout.left
    have ho2 : OnlyKeys (stagesRun (stagesRun stages it.read.stagesOps).1 (it.messages.flatMap Msg.stagesOps)).2 := by rw [hrun] at hout; exact hout.right
    have hread : ∃ srv1, (srv0.processRead rx it.read).answerTimeout rx = srv1 ∧ srv1.flushAt = none ∧ srv1.timeoutStart = none ∧ srv1.sending = false ∧
          srv1.nextKeyInfo = false ∧ srv1.ms.buf = [] ∧ srv1.ms.stages = (stagesRun stages it.read.stagesOps).1 ∧ srv1.sendResults = [] ∧ srv1.out = srv.out ∧
          srv1.sendBuf = lastOutputs (stagesRun stages it.read.stagesOps).2 := by
      have hx := hx.left
      cases hr : it.read with
      | nothing =>
        refine ⟨srv0, ?_, h0.flushAt, h0.timeout, h0.sending, h0.info, h0.stageBuf, h0.stages, h0.results, ho0, h0.buf⟩
        simp [Srv.processRead, Srv.answerTimeout, Srv.timeoutElapsed, h0.timeout]
      | other => exact absurd hr hother
      | key ev dev =>
        have hk := hi.read ev dev hr
        rw [hr] at ho1 hx
        have hx1 := hx _ (List.prefix_refl _)
        have hrun : stagesRun stages (Read.key ev dev).stagesOps = ((stagesStep stages (.input ev dev)).1, [(stagesStep stages (.input ev dev)).2]) := rfl
        rw [hrun] at ho1 hx1 ⊢
        refine ⟨_, rfl, ?_⟩
        rw [Srv.processRead, if_pos (by simpa using (ordinary_noWheel hk).2.2), translate_stages rx h0 hk (fun o ho => ho1 _ (List.mem_singleton.2 rfl) o ho) hx1]
        rw [Srv.answerTimeout, if_neg (by simp [Srv.timeoutElapsed, h0.timeout])]
        exact ⟨h0.flushAt, h0.timeout, h0.sending, h0.info, rfl, rfl, h0.results, ho0, (List.append_nil _).symm⟩
    obtain ⟨srv1, hsrv1, f1, f2, f3, f4, f5, f6, f7, f8, f9⟩ := hread
    rw [hsrv1]
    have hsend1 : ∀ e ∈ srv1.sendBuf, Sendable e := by
      intro e he
      rw [f9] at he
      obtain ⟨os, hos, he⟩ := List.mem_flatMap.1 he
      exact lastOf_sendable (ho1 os hos) e he
    obtain ⟨srv2, hsrv2⟩ : ∃ srv2 : Srv, srv2 = { srv1 with sendBuf := [], flushAt := none, out := srv1.out ++ srv1.sendBuf.map Eff.sendKey } := ⟨_, rfl⟩
    have hfl : srv1.flushWhenDue rx = (srv2, true) := by
      rw [Srv.flushWhenDue, if_pos (by simp [Srv.flushDue, f1]), flush_sendable rx _ hsend1 f7 f3, hsrv2]
    simp only [hfl, Bool.not_true, Bool.false_eq_true, if_false]
    have hcf := stagesRun_cfgs it.read.stagesOps stages
    have hx2 := hx _ (List.prefix_refl _)
    rw [hrun] at hx2 ⊢
    generalize hs1 : stagesRun stages it.read.stagesOps = r1 at f6 f9 ho2 hcf hx2 ⊢
    obtain ⟨stages1, outs1⟩ := r1
    simp only [] at f6 f9 ho2 hcf hx2 ⊢
    have hne1 : stages1 ≠ [] := by
      intro e
      rw [e] at hcf
      exact h.nonempty (List.map_eq_nil_iff.1 hcf.symm)
    have h2 : AroundAll srv2 stages1 := by
      rw [hsrv2]; exact ⟨⟨rfl, rfl, f2, f3, f4, f5⟩, hne1, f6, f7⟩
    have hnf : ∀ st ∈ stages1, st.1.hasDeviceFilter = false := by
      intro st hst
      have : st.1 ∈ stages.map (·.1) := by rw [← hcf]; exact List.mem_map.2 ⟨st, hst, rfl⟩
      obtain ⟨st', hst', e⟩ := List.mem_map.1 this
      rw [← e]; exact hf st' hst'
    have hdev : ∃ srv3, srv2.updateDevices rx it.devices = srv3 ∧ AroundAll srv3 stages1 ∧ srv3.out = srv2.out := by
      cases hd : it.devices with
      | none => exact ⟨srv2, rfl, h2, rfl⟩
      | some l =>
        refine ⟨{ srv2 with devices := l }, ?_, ⟨⟨h2.buf, h2.flushAt, h2.timeout, h2.sending, h2.info, h2.stageBuf⟩, h2.nonempty, h2.stages, h2.results⟩, rfl⟩
        have hd : srv2.ms.hasDeviceFilters = false := by
          unfold MS.hasDeviceFilters
          rw [h2.stages, List.any_eq_false]
          intro st hst
          rw [hnf st hst]
          exact Bool.false_ne_true
        rw [Srv.updateDevices, Srv.setDeviceDescs, Srv.evaluateDeviceFilters, if_pos (by simp [hd])]
    obtain ⟨srv3, hsrv3, h3, ho3⟩ := hdev
    rw [hsrv3]
    obtain ⟨h5, h6⟩ := messages_stages rx it.messages hi.messages srv3 stages1 h3 ho2
    generalize it.messages.foldl (Srv.onMessage rx) srv3 = srv4 at h5 h6 ⊢
    rw [if_neg (by
      rw [hi.regrab, Bool.false_or, h5.stages]
      intro e
      exact h5.nonempty (List.isEmpty_iff.1 e))]
    refine ⟨?_, h5, ?_⟩
    · show (!srv4.ms.shouldExit) = true
      rw [shouldExit_first, h5.stages, hx2]
      rfl
    · show srv4.out = _
      rw [h6, ho3, hsrv2, lastOutputs_append]
      simp only [f8, f9, List.map_append, List.append_assoc]

/-- the loop: the output of the last stage is sent -/
theorem mainLoop_stages (rx : Regex) (its : List Iteration) (hi : ∀ it ∈ its, it.Ordinary true) : ∀ (srv : Srv) (stages : List (Cfg × S)),
    AroundAll srv stages → (∀ st ∈ stages, st.1.hasDeviceFilter = false) →
    OnlyKeys (stagesRun stages (its.flatMap Iteration.stagesOps)).2 → StaysIn stages (its.flatMap Iteration.stagesOps) →
    (srv.mainLoop rx its).out = srv.out ++ (lastOutputs (stagesRun stages (its.flatMap Iteration.stagesOps)).2).map Eff.sendKey := by
  induction its with
  | nil => intro srv stages _ _ _ _; exact (List.append_nil _).symm
  | cons it its ih =>
    intro srv stages h hf hout hx
    rw [List.flatMap_cons, stagesRun_append] at hout
    rw [List.flatMap_cons] at hx ⊢
    obtain ⟨h2, h3, h4⟩ := iterate_stages rx h hf (hi it (List.mem_cons_self ..)) hout.left hx.left
    have hnf : ∀ st ∈ (stagesRun stages it.stagesOps).1, st.1.hasDeviceFilter = false := by
      intro st hst
      have : st.1 ∈ stages.map (·.1) := by rw [← stagesRun_cfgs it.stagesOps stages]; exact List.mem_map.2 ⟨st, hst, rfl⟩
      obtain ⟨st', hst', e⟩ := List.mem_map.1 this
      rw [← e]; exact hf st' hst'
    rw [Srv.mainLoop, if_pos h2, ih (fun x hx => hi x (List.mem_cons_of_mem _ hx)) _ _ h3 hnf hout.right hx.right, h4, stagesRun_append, lastOutputs_append]
    simp only [List.map_append, List.append_assoc]

end KM
