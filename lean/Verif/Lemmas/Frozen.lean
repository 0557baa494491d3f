import Verif.Model.Stage
/-!
# Members which processing an event does not change
-/
namespace KM

/-- the members which are only written by `update` and `set_active_client_contexts` directly -/
def S.frozen (s : S) : Nat × List Nat := (s.exitPos, s.activeClient)

theorem updateOutput_frozen (s : S) (ev trig ctx) : (updateOutput s ev trig ctx).frozen = s.frozen := by
  unfold updateOutput
  split
  · unfold updateOutputUp; split; · rfl
    split; · rfl
    split <;> rfl
  · unfold updateOutputNot; split; · rfl
    split <;> rfl
  · unfold updateOutputDown; simp only []
    split; · rfl
    split <;> rfl
  all_goals rfl

theorem foldl_updateOutput_frozen (l : List α) (f : α → KeyEvent) (s : S) (trig ctx) :
    (l.foldl (fun s k => updateOutput s (f k) trig ctx) s).frozen = s.frozen := by
  induction l generalizing s with
  | nil => rfl
  | cons a l ih => rw [List.foldl_cons, ih, updateOutput_frozen]

theorem applyOutput_frozen (s : S) (out trig ctx) : (applyOutput s out trig ctx).frozen = s.frozen := by
  induction out generalizing s with
  | nil => rfl
  | cons ev rest ih =>
    unfold applyOutput
    split
    · simp only []
      rw [ih]
      split
      · exact foldl_updateOutput_frozen _ (fun (o : OutputDown) => ⟨o.key, .Not, 0⟩) s trig ctx
      · exact foldl_updateOutput_frozen _ (fun (k : Key) => ⟨k, ev.state, 0⟩) s trig ctx
    · split
      · split
        · rfl
        · rw [ih]
      · split
        · simp only []
          rw [ih]
          split
          · rw [updateOutput_frozen]
          · rfl
        · rw [ih, updateOutput_frozen]

theorem continueOnRelease_frozen (s : S) (ev ctx) : (continueOnRelease s ev ctx).1.frozen = s.frozen := by
  unfold continueOnRelease
  split
  · rfl
  · split
    · rfl
    · exact applyOutput_frozen _ _ _ _

theorem releaseTriggered_frozen (s : S) (k ctx) : (releaseTriggered s k ctx).frozen = s.frozen := rfl

theorem onContextActiveEvent_frozen (c s ev i) : (onContextActiveEvent c s ev i).frozen = s.frozen := by
  unfold onContextActiveEvent
  split
  · rfl
  · next ctx hctx =>
    simp only []
    generalize hs1 : (if ((ctx.inputs.takeWhile (fun i => i.input.head?.map (·.key) != some Key.ContextActive)).any
      (·.input.isEmpty)) = true then { s with ub := true } else s) = s1
    have h1 : s1.frozen = s.frozen := by
      subst hs1; split <;> rfl
    split
    · exact h1
    · split
      · split
        · exact h1
        · exact h1
        · rw [applyOutput_frozen]; exact h1
      · rw [releaseTriggered_frozen, continueOnRelease_frozen]; exact h1

theorem updateActiveContexts_frozen (c s) : (updateActiveContexts c s).frozen = s.frozen := by
  have hfold : ∀ (ev : KeyEvent) (l : List Nat) (s : S),
      (l.foldl (fun s i => onContextActiveEvent c s ev i) s).frozen = s.frozen := by
    intro ev l
    induction l with
    | nil => intro s; rfl
    | cons a l ih => intro s; rw [List.foldl_cons, ih, onContextActiveEvent_frozen]
  unfold updateActiveContexts
  split
  · rfl
  · rw [hfold, hfold]; rfl

theorem trackTimeout_frozen (s : S) (t l u) : (trackTimeout s t l u).frozen = s.frozen := by
  unfold trackTimeout
  simp only []
  split
  · rfl
  · split
    · rfl
    · split <;> rfl

theorem matchGo_frozen (c first sequence dev u) (l : List (Nat × Context × Input)) (s : S) :
    (matchGo c first sequence dev u l s).1.frozen = s.frozen := by
  induction l generalizing s with
  | nil => rfl
  | cons a rest ih =>
    obtain ⟨ci, ctx, inp⟩ := a
    unfold matchGo
    simp only []
    split
    · rw [ih]
    · split
      · split
        · rw [trackTimeout_frozen]; rfl
        · rfl
      · split
        · split
          · rfl
          · rw [ih]; rfl
        · rw [ih]; rfl

theorem matchInput_frozen (c s first sequence dev u) :
    (matchInput c s first sequence dev u).1.frozen = s.frozen := by
  unfold matchInput
  simp only [matchGo_frozen]
  rfl

theorem matchStart_frozen (c dev u) (n : Nat) (s : S) : (matchStart c dev u n s).1.frozen = s.frozen := by
  induction n generalizing s with
  | zero => rfl
  | succ n ih =>
    unfold matchStart
    split
    · rfl
    · split
      · rfl
      · have h1 := matchInput_frozen c s false (s.seq.take n) dev u
        split
        · next h => rw [h] at h1; exact h1
        · next h => rw [h] at h1; rw [ih]; exact h1

theorem retryStart_frozen (c s r dev u) : (retryStart c s r dev u).1.frozen = s.frozen := by
  unfold retryStart
  split
  · split
    · have h1 := matchStart_frozen c dev u s.seq.length s
      split
      · next h => rw [h] at h1; exact h1
      · next h => rw [h] at h1; exact h1
    · rfl
  · rfl

theorem timeoutMatched_frozen (s ev r b) : (timeoutMatched s ev r b).1.frozen = s.frozen := by
  unfold timeoutMatched
  repeat' split
  all_goals rfl

theorem notTimeoutFailed_frozen (s r) : (notTimeoutFailed s r).frozen = s.frozen := by
  unfold notTimeoutFailed
  repeat' split
  all_goals rfl

theorem forwardGo_frozen (s : S) (pre l : KeySequence) : (forwardGo s pre l).frozen = s.frozen := by
  induction l generalizing pre with
  | nil => rfl
  | cons e rest ih =>
    unfold forwardGo
    split
    · split
      · exact updateOutput_frozen s e (.key e.key) (-1)
      · split
        · simp only []
          split
          · exact updateOutput_frozen s e (.key e.key) (-1)
          · rfl
        · exact ih _
    · rfl

theorem applyResult_frozen (s ev r n b) : (applyResult s ev r n b).frozen = s.frozen := by
  unfold applyResult
  split
  · next ref out input ctx =>
    have h1 := applyOutput_frozen s out (chooseTrigger s ev out input) ctx
    simp only []
    split <;> exact h1
  · have h1 : (forwardFromSequence s).frozen = s.frozen := forwardGo_frozen s [] s.seq
    simp only []
    split <;> exact h1

theorem round_frozen (c ev dev u s) : (round c ev dev u s).1.frozen = s.frozen := by
  unfold round
  have h1 := matchInput_frozen c s true s.seq dev u
  generalize matchInput c s true s.seq dev u = mi at *
  obtain ⟨s1, r⟩ := mi
  simp only [] at *
  split
  · exact h1
  · split
    · exact h1
    · have h2 := retryStart_frozen c s1 r dev u
      generalize retryStart c s1 r dev u = rs at *
      obtain ⟨s2, r2, n, b⟩ := rs
      simp only [] at *
      have h3 := timeoutMatched_frozen s2 ev r2 b
      generalize timeoutMatched s2 ev r2 b = tm at *
      obtain ⟨s3, r3⟩ := tm
      simp only [] at *
      rw [applyResult_frozen, notTimeoutFailed_frozen, h3, h2, h1]

theorem mainLoop_frozen (c ev dev u s) : (mainLoop c ev dev u s).frozen = s.frozen := by
  fun_induction mainLoop c ev dev u s with
  | case1 s hs hc ih => rw [ih, round_frozen]
  | case2 s hs hc => rw [round_frozen]
  | case3 s hs => rfl

theorem finishInput_frozen (c s ev) : (finishInput c s ev).frozen = s.frozen := by
  unfold finishInput
  simp only []
  generalize hs1 : (if (ev.state == KeyState.Up) = true then releaseTriggered s ev.key (-1) else s) = s1
  have h1 : s1.frozen = s.frozen := by subst hs1; split <;> rfl
  have h2 := updateActiveContexts_frozen c s1
  generalize updateActiveContexts c s1 = s2 at *
  rw [← h1, ← h2]
  split <;> rfl

theorem suppressTimeout_frozen (s ev) : (suppressTimeout s ev).1.frozen = s.frozen := by
  unfold suppressTimeout
  repeat' split
  all_goals rfl

theorem mergeRepeat_frozen (s ev dev) : (mergeRepeat s ev dev).1.frozen = s.frozen := by
  unfold mergeRepeat
  simp only []
  repeat' split
  all_goals rfl

theorem addToHistory_frozen (c s ev) : (addToHistory c s ev).frozen = s.frozen := by
  unfold addToHistory
  simp only []
  repeat' split
  all_goals rfl

theorem beforeMatchUp_frozen (s ev) : (beforeMatchUp s ev).frozen = s.frozen := by
  unfold beforeMatchUp
  simp only []
  repeat' split
  all_goals rfl

theorem applyInput_frozen (c s ev dev) : (applyInput c s ev dev).frozen = s.frozen := by
  unfold applyInput
  simp only []
  generalize hs0 : (if validInput ev = true then s else { s with ub := true }) = s0
  have h0 : s0.frozen = s.frozen := by subst hs0; split <;> rfl
  have h1 := continueOnRelease_frozen s0 ev (-1)
  generalize continueOnRelease s0 ev (-1) = r1 at *
  split
  · exact h1.trans h0
  · next s1 =>
    have h2 := suppressTimeout_frozen s1 ev
    generalize suppressTimeout s1 ev = r2 at *
    split
    · exact h2.trans (h1.trans h0)
    · next s2 =>
      have h3 := mergeRepeat_frozen s2 ev dev
      generalize mergeRepeat s2 ev dev = r3 at *
      split
      · exact h3.trans (h2.trans (h1.trans h0))
      · next s3 =>
        rw [finishInput_frozen, mainLoop_frozen]
        show (beforeMatchUp _ ev).frozen = _
        rw [beforeMatchUp_frozen, updateActiveContexts_frozen, addToHistory_frozen]
        exact h3.trans (h2.trans (h1.trans h0))

theorem update_exitPos (c s ev dev) : (update c s ev dev).1.exitPos = advanceExit s.exitPos ev := by
  have := applyInput_frozen c { s with exitPos := advanceExit s.exitPos ev } ev dev
  exact congrArg Prod.fst this

theorem update_activeClient (c s ev dev) : (update c s ev dev).1.activeClient = s.activeClient := by
  have := applyInput_frozen c { s with exitPos := advanceExit s.exitPos ev } ev dev
  exact congrArg Prod.snd this

theorem setActiveClientContexts_frozen (c s l) :
    (setActiveClientContexts c s l).1.frozen = (s.exitPos, l) := by
  unfold setActiveClientContexts
  simp only []
  generalize (decide (l.Pairwise (· ≤ ·)) && l.all (fun i => decide (i < c.contexts.length))) = ok
  generalize hs1 : (if ok = true then s else { s with ub := true }) = s1
  have h1 : s1.frozen = s.frozen := by subst hs1; split <;> rfl
  have h2 := updateActiveContexts_frozen c { s1 with activeClient := l }
  show (updateActiveContexts c { s1 with activeClient := l }).frozen = _
  rw [h2]
  have := congrArg Prod.fst h1
  simp only [S.frozen] at this ⊢
  rw [this]

end KM
