import Verif.Lemmas.History
import Verif.Lemmas.StageRun
/-!
# Histories of operations: nothing goes wrong, the history stays well formed
-/
namespace KM

theorem rfindKey_eq (l : KeySequence) (k : Key) : rfindKey l k = (ofKey k l).getLast? := by
  unfold rfindKey ofKey
  rw [List.getLast?_eq_head?_reverse, ← List.filter_reverse, List.head?_filter]
  congr 1

theorem addToHistory_frame (c : Cfg) (s : S) (ev : KeyEvent) :
    addToHistory c s ev = { s with history := (addToHistory c s ev).history } := by
  unfold addToHistory
  simp only []
  repeat' split
  all_goals rfl

theorem addToHistory_congr (c : Cfg) {s s' : S} (ev : KeyEvent) (h : s.history = s'.history) :
    (addToHistory c s ev).history = (addToHistory c s' ev).history := by
  unfold addToHistory
  simp only []
  rw [h]
  repeat' split
  all_goals first
    | rfl
    | exact h

/-- adding an event to the history -/
theorem Hist.add {c : Cfg} {s : S} {T : KeySequence} {ev : KeyEvent} (h : Hist c T s.history)
    (hs : ev.state = .Down ∨ ev.state = .Up) : Hist c (T ++ [ev]) (addToHistory c s ev).history := by
  have hother : ∀ k, ev.key ≠ k → ofKey k (T ++ [ev]) = ofKey k T := by
    intro k hk
    rw [ofKey_append, ofKey_cons_ne hk]
    simp [ofKey]
  have hself : ofKey ev.key (T ++ [ev]) = ofKey ev.key T ++ [ev] := by
    rw [ofKey_append, ofKey_cons_self]; rfl
  have keep : (∀ x, (ofKey ev.key s.history).getLast? = some x → x.state ≠ .Down) ∨ ev.state = .Down →
      Hist c (T ++ [ev]) s.history := by
    intro hx
    refine ⟨fun k => ?_, h.sub.trans (List.sublist_append_left ..), h.skipped⟩
    by_cases hk : ev.key = k
    · rw [← hk, hself]
      rcases hx with hx | hx
      · exact (h.keys ev.key).skip hx
      · exact (h.keys ev.key).press hx
    · rw [hother k hk]; exact h.keys k
  have record : (c.hasNoMightMatch && !isVirtualKey ev.key && ev.key != Key.timeout) = true →
      ((∀ e, (ofKey ev.key s.history).getLast? = some e → e.state ≠ .Down) ∧ ev.state = .Down ∨
        (∃ e, (ofKey ev.key s.history).getLast? = some e ∧ e.state = .Down) ∧ ev.state = .Up) →
      Hist c (T ++ [ev]) (s.history ++ [ev]) := by
    intro hr hx
    simp only [Bool.and_eq_true, Bool.not_eq_true', bne_iff_ne] at hr
    refine ⟨fun k => ?_, h.sub.append (List.Sublist.refl _), ?_⟩
    · by_cases hk : ev.key = k
      · rw [← hk, hself, ofKey_append, ofKey_cons_self]
        exact (h.keys ev.key).record hx
      · rw [hother k hk, ofKey_append, ofKey_cons_ne hk]
        simpa [ofKey] using h.keys k
    · intro e he
      rcases List.mem_append.mp he with he | he
      · exact h.skipped e he
      · rw [List.mem_singleton] at he
        subst he; exact ⟨hr.1.1, hr.1.2, hr.2⟩
  unfold addToHistory
  split
  · next hr =>
    rw [← rfindKey_eq] at keep record
    simp only []
    split
    · next hd =>
      simp only [beq_iff_eq] at hd
      cases hl : rfindKey s.history ev.key with
      | none => exact record hr (Or.inl ⟨fun e he => by rw [hl] at he; simp at he, hd⟩)
      | some x =>
        simp only []
        split
        · next hx =>
          refine record hr (Or.inl ⟨fun e he => ?_, hd⟩)
          rw [hl, Option.some.injEq] at he
          subst he; simpa using hx
        · exact keep (Or.inr hd)
    · next hd =>
      simp only [beq_iff_eq] at hd
      cases hl : rfindKey s.history ev.key with
      | none => exact keep (Or.inl (fun e he => by rw [hl] at he; simp at he))
      | some x =>
        simp only []
        split
        · next hx => exact record hr (Or.inr ⟨⟨x, hl, by simpa using hx⟩, hs.resolve_left hd⟩)
        · next hx =>
          refine keep (Or.inl (fun e he => ?_))
          rw [hl, Option.some.injEq] at he
          subst he; simpa using hx
  · next hr =>
    refine keep (Or.inl ?_)
    intro e he
    have hm := List.mem_of_getLast? he
    have hk := ofKey_key hm
    have := h.skipped e (List.mem_filter.mp hm).1
    rw [hk] at this
    exact absurd (by simp [this]) hr

theorem kept_history {s s' : S} (h : s.kept = s'.kept) : s.history = s'.history :=
  congrArg (fun x => x.1) h

theorem suppressTimeout_history (s ev) : (suppressTimeout s ev).1.history = s.history := by
  unfold suppressTimeout
  repeat' split
  all_goals rfl

theorem mergeRepeat_history (s ev dev) : (mergeRepeat s ev dev).1.history = s.history := by
  unfold mergeRepeat
  simp only []
  repeat' split
  all_goals rfl

theorem beforeMatchUp_history (s ev) : (beforeMatchUp s ev).history = s.history := by
  unfold beforeMatchUp
  simp only []
  repeat' split
  all_goals rfl

theorem Ok.suppressTimeout {c : Cfg} {s : S} (h : Ok c s) (ev) : Ok c (suppressTimeout s ev).1 := by
  unfold KM.suppressTimeout
  repeat' split
  all_goals exact ⟨h.ub, h.onRelease, h.seq, h.history, h.active, h.client, h.down, h.buf, h.anyM⟩

theorem Ok.mergeRepeat {c : Cfg} {s : S} (h : Ok c s) (ev dev) : Ok c (mergeRepeat s ev dev).1 := by
  have hs := mergeRepeat_seq s ev dev
  unfold KM.mergeRepeat at hs ⊢
  simp only [] at hs ⊢
  repeat' split
  all_goals first
    | exact ⟨h.ub, h.onRelease, h.seq, h.history, h.active, h.client, h.down, h.buf, h.anyM⟩
    | exact ⟨h.ub, h.onRelease, fun e he => h.seq e (mem_rEraseKey he), h.history, h.active, h.client, h.down, h.buf, h.anyM⟩

theorem suppressTimeout_timeout {s s' : S} {ev} (h : suppressTimeout s ev = (s', true)) : ev.key = Key.timeout := by
  unfold suppressTimeout at h
  split at h
  · simp at h
  · split at h
    · split at h
      · next hk => simpa using hk
      · split at h <;> simp at h
    · simp at h

theorem continueOnRelease_down {s s' : S} {ev ctx} (h : continueOnRelease s ev ctx = (s', false)) :
    ev.state = .Down := by
  unfold continueOnRelease at h
  split at h
  · simp at h
  · split at h
    · next hd => simpa using hd
    · simp at h

theorem mergeRepeat_isDown {s s' : S} {ev dev} (h : mergeRepeat s ev dev = (s', true)) : ev.state = .Down := by
  unfold mergeRepeat at h
  split at h
  · next hd => simpa using hd
  · simp at h

theorem mergeRepeat_active (s ev dev) : (mergeRepeat s ev dev).1.active = s.active := by
  unfold mergeRepeat
  simp only []
  repeat' split
  all_goals rfl

theorem InputSafe.valid {ev dev} (h : InputSafe ev dev) : validInput ev = true := by
  unfold validInput
  rcases h.state with h1 | h1 <;> rcases h.key with h2 | h2 | h2 | h2 <;> simp [h1, h2]

/-- Either an event is ignored, or it is added to the history, and everything up to cleaning it up
goes well. -/
theorem applyInput_steps {c : Cfg} (hc : c.Safe) {s : S} {ev : KeyEvent} {dev : Int} (hi : InputSafe ev dev)
    (h : Ok c s) :
    (Ok c (applyInput c s ev dev) ∧ (applyInput c s ev dev).history = s.history ∧
      (applyInput c s ev dev).active = s.active ∧ (ev.state = .Down ∨ ev.key = Key.timeout)) ∨
    ∃ s4, applyInput c s ev dev = finishInput c s4 ev ∧ Ok c s4 ∧ s4.history = (addToHistory c s ev).history := by
  unfold applyInput
  simp only []
  rw [if_pos hi.valid]
  have h1 := h.continueOnRelease ev (-1)
  have k1 := continueOnRelease_kept s ev (-1)
  have d1 := @continueOnRelease_down s (continueOnRelease s ev (-1)).1 ev (-1)
  generalize continueOnRelease s ev (-1) = r1 at *
  obtain ⟨s1, b1⟩ := r1
  cases b1 with
  | false => exact Or.inl ⟨h1, kept_history k1, kept_active k1, Or.inl (d1 rfl)⟩
  | true =>
    simp only [] at *
    clear d1
    have h2 := h1.suppressTimeout ev
    have k2 := suppressTimeout_history s1 ev
    have a2 := suppressTimeout_active s1 ev
    have d2 := @suppressTimeout_timeout s1 (suppressTimeout s1 ev).1 ev
    generalize suppressTimeout s1 ev = r2 at *
    obtain ⟨s2, b2⟩ := r2
    cases b2 with
    | true =>
      exact Or.inl ⟨h2, k2.trans (kept_history k1), a2.trans (kept_active k1), Or.inr (d2 rfl)⟩
    | false =>
      simp only [] at *
      clear d2
      have h3 := h2.mergeRepeat ev dev
      have k3 := mergeRepeat_history s2 ev dev
      have a3 := mergeRepeat_active s2 ev dev
      have d3 := @mergeRepeat_isDown s2 (mergeRepeat s2 ev dev).1 ev dev
      generalize mergeRepeat s2 ev dev = r3 at *
      obtain ⟨s3, b3⟩ := r3
      cases b3 with
      | true =>
        exact Or.inl ⟨h3, k3.trans (k2.trans (kept_history k1)), a3.trans (a2.trans (kept_active k1)), Or.inl (d3 rfl)⟩
      | false =>
        simp only [] at *
        clear d3
        right
        refine ⟨_, rfl, ?_, ?_⟩
        · refine Ok.mainLoop hc ?_ hi.device
          have hadd : Ok c (addToHistory c { s3 with seq := s3.seq ++ [ev] } ev) := by
            have hx : Ok c { s3 with seq := s3.seq ++ [ev] } := by
              refine h3.withSeq ?_
              intro e he
              rcases List.mem_append.mp he with he | he
              · exact h3.seq e he
              · rw [List.mem_singleton] at he; subst he; exact hi.key
            unfold addToHistory
            simp only []
            repeat' split
            all_goals first
              | exact hx
              | (refine ⟨hx.ub, hx.onRelease, hx.seq, ?_, hx.active, hx.client, hx.down, hx.buf, hx.anyM⟩
                 intro e he
                 rcases List.mem_append.mp he with he | he
                 · exact hx.history e he
                 · rw [List.mem_singleton] at he; subst he; exact hi.key)
          have h5 := hadd.updateActiveContexts hc
          have hb := h5.beforeMatchUp (ev := ev) ⟨ev, by rw [updateActiveContexts_seq, addToHistory_seq]; simp, rfl⟩
          refine ⟨hb.ub, hb.onRelease, hb.seq, hb.history, hb.active, hb.client, ?_, hb.buf, hb.anyM⟩
          intro o ho
          simp only [List.mem_map] at ho
          obtain ⟨o, ho, rfl⟩ := ho
          exact hb.down o ho
        · rw [kept_history (mainLoop_kept ..)]
          show (beforeMatchUp _ ev).history = _
          rw [beforeMatchUp_history, kept_history (updateActiveContexts_kept ..)]
          exact addToHistory_congr c ev (k3.trans (k2.trans (kept_history k1)))

/-- what `finishInput` does up to cleaning up the history -/
theorem finishInput_spec {c : Cfg} (hc : c.Safe) {s : S} (h : Ok c s) (ev : KeyEvent) :
    ∃ s1, Ok c s1 ∧ s1.history = s.history ∧
      (finishInput c s ev).active = s1.active ∧
      (finishInput c s ev).history = (cleanUpHistory c s1.active s.history).1 ∧
      (finishInput c s ev).ub = (cleanUpHistory c s1.active s.history).2 ∧
      ((cleanUpHistory c s1.active s.history).2 = false → Ok c (finishInput c s ev)) := by
  unfold finishInput
  simp only []
  have h1 : Ok c (if (ev.state == KeyState.Up) = true then releaseTriggered s ev.key (-1) else s) := by
    split
    · exact h.releaseTriggered _ _
    · exact h
  have k1 : (if (ev.state == KeyState.Up) = true then releaseTriggered s ev.key (-1) else s).history = s.history := by
    split <;> rfl
  generalize (if (ev.state == KeyState.Up) = true then releaseTriggered s ev.key (-1) else s) = s1 at *
  have h2 := h1.updateActiveContexts hc
  have k2 : (updateActiveContexts c s1).history = s.history :=
    (kept_history (updateActiveContexts_kept c s1)).trans k1
  generalize updateActiveContexts c s1 = s2 at *
  have h3 : Ok c { s2 with seq := s2.seq.dropWhile (fun e => e.state == KeyState.UpMatched) } :=
    h2.withSeq (fun e he => h2.seq e ((List.dropWhile_sublist _).mem he))
  generalize hs4 : (if (s2.seq.dropWhile (fun e => e.state == KeyState.UpMatched)).isEmpty = true then
    { s2 with seq := s2.seq.dropWhile (fun e => e.state == KeyState.UpMatched), timeout := none }
    else { s2 with seq := s2.seq.dropWhile (fun e => e.state == KeyState.UpMatched) }) = s4
  have h4 : Ok c s4 := by
    subst hs4
    split
    · exact ⟨h3.ub, h3.onRelease, h3.seq, h3.history, h3.active, h3.client, h3.down, h3.buf, h3.anyM⟩
    · exact h3
  have k4 : s4.history = s.history := by subst hs4; split <;> exact k2
  refine ⟨s4, h4, k4, rfl, by rw [k4], by rw [h4.ub, k4, Bool.false_or], fun hu => ?_⟩
  refine ⟨by simp only [k4, hu, h4.ub, Bool.or_false], h4.onRelease, h4.seq, ?_, h4.active, h4.client, h4.down, h4.buf, h4.anyM⟩
  intro e he
  exact h4.history e (cleanUpHistory_mem' he)
where
  cleanUpHistory_mem' {c : Cfg} {active : List Nat} {h : KeySequence} {e : KeyEvent}
      (he : e ∈ (cleanUpHistory c active h).1) : e ∈ h := by
    fun_induction cleanUpHistory c active h with
    | case1 => exact he
    | case2 => exact he
    | case3 => exact he
    | case4 => exact he
    | case5 x rest hne up hc m u hm h ih =>
      exact List.mem_cons_of_mem _ (List.mem_of_mem_erase (ih he))

/-- the state of a stage to which `T` was input -/
structure StageOk (c : Cfg) (T : KeySequence) (s : S) : Prop where
  ok : Ok c s
  hist : Hist c T s.history

/-- Applying an event goes well. A recorded event leaves a history which is cleaned up. -/
theorem StageOk.applyInput {c : Cfg} (hc : c.Safe) {T : KeySequence} {s : S} (h : StageOk c T s) {ev : KeyEvent}
    {dev : Int} (hi : InputSafe ev dev) (hv : ∀ k, isVirtualKey k = false → k ≠ Key.timeout → ValuesFit (ofKey k (T ++ [ev]))) :
    StageOk c (T ++ [ev]) (applyInput c s ev dev) ∧
    ((applyInput c s ev dev).history = s.history ∧ (applyInput c s ev dev).active = s.active ∧
        (ev.state = .Down ∨ ev.key = Key.timeout) ∨
      CleanedUp c (applyInput c s ev dev).active (applyInput c s ev dev).history) ∧
    ∀ k, (ev.key ≠ k ∨ ev.state = .Down) → endsPressed s.history k → endsPressed (applyInput c s ev dev).history k := by
  rcases applyInput_steps hc hi h.ok with ⟨h1, h2, h3, h4⟩ | ⟨s4, h1, h2, h3⟩
  · refine ⟨⟨h1, ?_⟩, Or.inl ⟨h2, h3, h4⟩, fun k _ hp => by rw [h2]; exact hp⟩
    rw [h2]
    rcases h4 with h4 | h4
    · have := h.hist
      refine ⟨fun k => ?_, this.sub.trans (List.sublist_append_left ..), this.skipped⟩
      by_cases hk : ev.key = k
      · subst hk
        rw [ofKey_append, ofKey_cons_self]
        exact (this.keys ev.key).press h4
      · rw [ofKey_append, ofKey_cons_ne hk]
        simpa [ofKey] using this.keys k
    · have := h.hist
      refine ⟨fun k => ?_, this.sub.trans (List.sublist_append_left ..), this.skipped⟩
      by_cases hk : ev.key = k
      · subst hk
        rw [ofKey_append, ofKey_cons_self]
        refine (this.keys ev.key).skip ?_
        intro e he
        have hm := List.mem_of_getLast? he
        exact absurd ((ofKey_key hm).trans h4) (this.skipped e (List.mem_filter.mp hm).1).2.2
      · rw [ofKey_append, ofKey_cons_ne hk]
        simpa [ofKey] using this.keys k
  · obtain ⟨s1, g1, g2, g3, g4, g5, g6⟩ := finishInput_spec hc h2 ev
    have hadd := h.hist.add hi.state
    rw [← h3] at hadd
    obtain ⟨c1, c2, c3, c4⟩ := hadd.cleanUp hc s1.active hv h2.history
    rw [h1]
    refine ⟨⟨g6 c2, by rw [g4]; exact c1⟩, Or.inr (by rw [g3, g4]; exact c3), ?_⟩
    intro k hk hp
    rw [g4, c4 k, h3]
    revert hp
    unfold endsPressed addToHistory
    simp only []
    repeat' split
    all_goals first
      | exact fun h => h
      | (intro ⟨x, hx, hd⟩
         rw [ofKey_append]
         by_cases hkk : ev.key = k
         · subst hkk
           rw [ofKey_cons_self]
           exact ⟨ev, by simp [ofKey], hk.resolve_left (by simp)⟩
         · rw [ofKey_cons_ne hkk, show ofKey k [] = [] from rfl, List.append_nil]
           exact ⟨x, hx, hd⟩)

theorem validateState_ok {c : Cfg} {s : S} (h : Ok c s) (f) : Ok c (validateState s f) :=
  ⟨h.ub, h.onRelease, fun e he => h.seq e (List.mem_filter.mp he).1, h.history, h.active, h.client,
    fun o ho => h.down o (List.mem_filter.mp ho).1, h.buf, h.anyM⟩

theorem ContextsSafe.evaluate {c : Cfg} (hc : c.Safe) (rx ds) : (c.evaluateDeviceFilters rx ds).Safe := by
  constructor
  · intro ctx hctx
    simp only [Cfg.evaluateDeviceFilters, List.mem_map] at hctx
    obtain ⟨x, hx, rfl⟩ := hctx
    have := hc.contexts x hx
    exact ⟨this.inputs, this.flag, this.references, this.outputs, this.commands⟩
  · intro hne
    have hne' : c.contexts ≠ [] := by
      intro h0; apply hne; simp [Cfg.evaluateDeviceFilters, h0]
    obtain ⟨ctx, h1, h2⟩ := hc.last hne'
    unfold LastStops
    simp only [Cfg.evaluateDeviceFilters, List.getLast?_map, h1, Option.map_some]
    exact ⟨_, rfl, h2⟩

theorem Ok.evaluate {c : Cfg} {s : S} (h : Ok c s) (rx ds) : Ok (c.evaluateDeviceFilters rx ds) s := by
  have hl : (c.evaluateDeviceFilters rx ds).contexts.length = c.contexts.length := by
    simp [Cfg.evaluateDeviceFilters]
  exact ⟨h.ub, h.onRelease, h.seq, h.history, by rw [hl]; exact h.active, by rw [hl]; exact h.client,
    h.down, h.buf, h.anyM⟩

theorem Ok.setActiveClientContexts {c : Cfg} (hc : c.Safe) {s : S} (h : Ok c s) {l : List Nat}
    (hl : l.Pairwise (· ≤ ·) ∧ ∀ i ∈ l, i < c.contexts.length) :
    Ok c (setActiveClientContexts c s l).1 ∧ (setActiveClientContexts c s l).1.history = s.history ∧
      ∀ e ∈ (setActiveClientContexts c s l).2, CanEmit e := by
  unfold KM.setActiveClientContexts
  simp only []
  rw [if_pos (by
    rw [Bool.and_eq_true, decide_eq_true_eq, List.all_eq_true]
    exact ⟨hl.1, fun i hi => by simpa using hl.2 i hi⟩)]
  have h1 : Ok c { s with activeClient := l } := ⟨h.ub, h.onRelease, h.seq, h.history, h.active, hl.2, h.down, h.buf, h.anyM⟩
  have h2 := h1.updateActiveContexts hc
  have k2 := kept_history (updateActiveContexts_kept c { s with activeClient := l })
  exact ⟨⟨h2.ub, fun o ho => h2.onRelease o (List.mem_filter.mp ho).1, h2.seq, h2.history, h2.active, h2.client, h2.down,
    by simp, h2.anyM⟩, k2, h2.buf⟩

theorem inputEvents_cons_eq (op : StageOp) (ops : List StageOp) :
    inputEvents (op :: ops) = inputEvents [op] ++ inputEvents ops := by
  cases op <;> rfl

theorem evaluate_length (c : Cfg) (rx ds) : (c.evaluateDeviceFilters rx ds).contexts.length = c.contexts.length := by
  simp [Cfg.evaluateDeviceFilters]

theorem stageStep_length (st : Cfg × S) (op : StageOp) :
    (stageStep st op).1.1.contexts.length = st.1.contexts.length := by
  cases op with
  | devices rx ds => exact evaluate_length ..
  | _ => rfl

/-- One operation goes well. -/
theorem StageOk.step {st : Cfg × S} (hc : st.1.Safe) {T : KeySequence} (h : StageOk st.1 T st.2) {op : StageOp}
    (ho : op.isSafe st.1.contexts.length) (hv : ∀ k, isVirtualKey k = false → k ≠ Key.timeout → ValuesFit (ofKey k (T ++ inputEvents [op]))) :
    (stageStep st op).1.1.Safe ∧ StageOk (stageStep st op).1.1 (T ++ inputEvents [op]) (stageStep st op).1.2 ∧
      ∀ e ∈ (stageStep st op).2, CanEmit e := by
  cases op with
  | input ev dev =>
    refine ⟨hc, ?_⟩
    have h0 : StageOk st.1 T { st.2 with exitPos := advanceExit st.2.exitPos ev } :=
      ⟨⟨h.ok.ub, h.ok.onRelease, h.ok.seq, h.ok.history, h.ok.active, h.ok.client, h.ok.down, h.ok.buf, h.ok.anyM⟩, h.hist⟩
    have h1 := (h0.applyInput hc ho hv).1
    exact ⟨⟨⟨h1.ok.ub, h1.ok.onRelease, h1.ok.seq, h1.ok.history, h1.ok.active, h1.ok.client, h1.ok.down,
      (fun e he => absurd he (List.not_mem_nil)), h1.ok.anyM⟩, h1.hist⟩, h1.ok.buf⟩
  | contexts l =>
    have h1 := h.ok.setActiveClientContexts hc ho
    refine ⟨hc, ⟨h1.1, ?_⟩, h1.2.2⟩
    show Hist st.1 (T ++ []) (setActiveClientContexts st.1 st.2 l).1.history
    rw [h1.2.1, List.append_nil]; exact h.hist
  | devices rx ds =>
    refine ⟨hc.evaluate rx ds, ⟨h.ok.evaluate rx ds, ?_⟩, fun e he => absurd he (List.not_mem_nil)⟩
    show Hist _ (T ++ []) st.2.history
    rw [List.append_nil]
    exact ⟨h.hist.keys, h.hist.sub, h.hist.skipped⟩
  | validate f =>
    refine ⟨hc, ⟨validateState_ok h.ok f, ?_⟩, fun e he => absurd he (List.not_mem_nil)⟩
    show Hist _ (T ++ []) st.2.history
    rw [List.append_nil]
    exact h.hist

/-- A history of operations goes well. -/
theorem StageOk.run {ops : List StageOp} : ∀ {st : Cfg × S} {T : KeySequence}, st.1.Safe → StageOk st.1 T st.2 →
    (∀ op ∈ ops, op.isSafe st.1.contexts.length) → (∀ k, isVirtualKey k = false → k ≠ Key.timeout → ValuesFit (ofKey k (T ++ inputEvents ops))) →
    (stageRun st ops).1.1.Safe ∧ (stageRun st ops).1.1.contexts.length = st.1.contexts.length ∧
      StageOk (stageRun st ops).1.1 (T ++ inputEvents ops) (stageRun st ops).1.2 ∧
      ∀ e ∈ (stageRun st ops).2, CanEmit e := by
  induction ops with
  | nil =>
    intro st T hc h _ _
    exact ⟨hc, rfl, by rw [show inputEvents [] = [] from rfl, List.append_nil]; exact h, by simp [stageRun]⟩
  | cons op ops ih =>
    intro st T hc h ho hv
    rw [inputEvents_cons_eq, ← List.append_assoc] at hv ⊢
    obtain ⟨h1, h2, h3⟩ := h.step hc (ho op (by simp)) (fun k hk1 hk2 => by
      have := hv k hk1 hk2
      rw [ofKey_append] at this
      exact valuesFit_prefix this)
    have hlen := stageStep_length st op
    obtain ⟨g1, g2, g3, g4⟩ := ih h1 h2 (fun op' hop => by rw [hlen]; exact ho op' (List.mem_cons_of_mem _ hop)) hv
    exact ⟨g1, g2.trans hlen, g3, fun e he => (List.mem_append.mp he).elim (h3 e) (g4 e)⟩

theorem ContextsSafe.make {cs : List Context} (h : ContextsSafe cs) : (Cfg.make cs).Safe := by
  constructor
  · intro ctx hctx
    simp only [Cfg.make, List.mem_map] at hctx
    obtain ⟨x, hx, rfl⟩ := hctx
    have := h.contexts x hx
    refine ⟨this.inputs, this.flag, this.references, this.outputs, ?_⟩
    intro o ho
    exact this.commands o ((sortCommands_mem o _).mp ho)
  · intro hne
    have hne' : cs ≠ [] := by intro h0; apply hne; simp [Cfg.make, h0]
    obtain ⟨ctx, h1, h2⟩ := h.last hne'
    unfold LastStops
    simp only [Cfg.make, List.getLast?_map, h1, Option.map_some]
    exact ⟨_, rfl, h2⟩
where
  sortCommands_mem (o : CommandOutput) (l : List CommandOutput) : o ∈ sortCommandOutputs l ↔ o ∈ l := by
    unfold sortCommandOutputs
    exact mem_sortBy ..

theorem StageOk.init (cs : List Context) : StageOk (Cfg.make cs) [] ({} : S) :=
  ⟨⟨rfl, by simp, by simp, by simp, by simp, by simp, by simp, by simp, by simp⟩,
    ⟨fun k => ⟨rfl, List.Sublist.refl _, fun _ => trivial, fun e he => by simp [ofKey] at he⟩,
      List.Sublist.refl _, by simp⟩⟩

theorem InputsFit.prefix {a b : KeySequence} (h : InputsFit (a ++ b)) : InputsFit a := by
  intro k hk1 hk2
  have := h k hk1 hk2
  rw [ofKey_append] at this
  exact valuesFit_prefix this

/-- Everything which is done with a stage goes well. -/
theorem StageOk.runInit {contexts : List Context} (hc : ContextsSafe contexts) {ops : List StageOp}
    (ho : ∀ op ∈ ops, op.isSafe contexts.length) (hv : InputsFit (inputEvents ops)) :
    (stageRun (stageInit contexts) ops).1.1.Safe ∧
      (stageRun (stageInit contexts) ops).1.1.contexts.length = contexts.length ∧
      StageOk (stageRun (stageInit contexts) ops).1.1 (inputEvents ops) (stageRun (stageInit contexts) ops).1.2 ∧
      ∀ e ∈ (stageRun (stageInit contexts) ops).2, CanEmit e := by
  have hl : (stageInit contexts).1.contexts.length = contexts.length := by simp [stageInit, Cfg.make]
  have h := StageOk.run (st := stageInit contexts) (ops := ops) (T := []) hc.make (StageOk.init contexts)
    (by rw [hl]; exact ho) (by rw [List.nil_append]; exact hv)
  rw [hl, List.nil_append] at h
  exact h

end KM
