import Verif.Model.Stage
/-!
# Members which matching and outputting do not change
-/
namespace KM

/-- the members which matching and outputting do not change -/
def S.kept (s : S) : KeySequence × List Nat × List Nat × Int × Int :=
  (s.history, s.activeClient, s.active, s.lastPressed, s.lastRepeat)

theorem updateOutput_kept (s : S) (ev trig ctx) : (updateOutput s ev trig ctx).kept = s.kept := by
  unfold updateOutput
  split
  · unfold updateOutputUp; split; · rfl
    split; · rfl
    split <;> rfl
  · unfold updateOutputNot; split; · rfl
    split <;> rfl
  · unfold updateOutputDown; simp only []
    split; · rfl
    split <;> rfl
  all_goals rfl

theorem foldl_updateOutput_kept (l : List α) (f : α → KeyEvent) (s : S) (trig ctx) :
    (l.foldl (fun s k => updateOutput s (f k) trig ctx) s).kept = s.kept := by
  induction l generalizing s with
  | nil => rfl
  | cons a l ih => rw [List.foldl_cons, ih, updateOutput_kept]

theorem applyOutput_kept (s : S) (out trig ctx) : (applyOutput s out trig ctx).kept = s.kept := by
  induction out generalizing s with
  | nil => rfl
  | cons ev rest ih =>
    unfold applyOutput
    split
    · simp only []
      rw [ih]
      split
      · exact foldl_updateOutput_kept _ (fun (o : OutputDown) => ⟨o.key, .Not, 0⟩) s trig ctx
      · exact foldl_updateOutput_kept _ (fun (k : Key) => ⟨k, ev.state, 0⟩) s trig ctx
    · split
      · split
        · rfl
        · rw [ih]
      · split
        · simp only []
          rw [ih]
          split
          · rw [updateOutput_kept]
          · rfl
        · rw [ih, updateOutput_kept]

theorem continueOnRelease_kept (s : S) (ev ctx) : (continueOnRelease s ev ctx).1.kept = s.kept := by
  unfold continueOnRelease
  split
  · rfl
  · split
    · rfl
    · exact applyOutput_kept _ _ _ _

theorem releaseTriggered_kept (s : S) (k ctx) : (releaseTriggered s k ctx).kept = s.kept := rfl

theorem onContextActiveEvent_kept (c s ev i) : (onContextActiveEvent c s ev i).kept = s.kept := by
  unfold onContextActiveEvent
  split
  · rfl
  · next ctx hctx =>
    simp only []
    generalize hs1 : (if ((ctx.inputs.takeWhile (fun i => i.input.head?.map (·.key) != some Key.ContextActive)).any
      (·.input.isEmpty)) = true then { s with ub := true } else s) = s1
    have h1 : s1.kept = s.kept := by
      subst hs1; split <;> rfl
    split
    · exact h1
    · split
      · split
        · exact h1
        · exact h1
        · rw [applyOutput_kept]; exact h1
      · rw [releaseTriggered_kept, continueOnRelease_kept]; exact h1

theorem foldContextActive_kept (c : Cfg) (ev : KeyEvent) (l : List Nat) (s : S) :
    (l.foldl (fun s i => onContextActiveEvent c s ev i) s).kept = s.kept := by
  induction l generalizing s with
  | nil => rfl
  | cons a l ih => rw [List.foldl_cons, ih, onContextActiveEvent_kept]

theorem updateActiveContexts_kept (c s) :
    (updateActiveContexts c s).kept =
      { s with active := (computeActive c.contexts s.seq s.activeClient []).getD s.active }.kept := by
  unfold updateActiveContexts
  split
  · next h => rw [h]; rfl
  · next h => rw [foldContextActive_kept, foldContextActive_kept, h]; rfl

theorem trackTimeout_kept (s : S) (t l u) : (trackTimeout s t l u).kept = s.kept := by
  unfold trackTimeout
  simp only []
  split
  · rfl
  · split
    · rfl
    · split <;> rfl

theorem matchGo_kept (c first sequence dev u) (l : List (Nat × Context × Input)) (s : S) :
    (matchGo c first sequence dev u l s).1.kept = s.kept := by
  induction l generalizing s with
  | nil => rfl
  | cons a rest ih =>
    obtain ⟨ci, ctx, inp⟩ := a
    unfold matchGo
    simp only []
    split
    · rw [ih]
    · split
      · split
        · rw [trackTimeout_kept]; rfl
        · rfl
      · split
        · split
          · rfl
          · rw [ih]; rfl
        · rw [ih]; rfl

theorem matchInput_kept (c s first sequence dev u) :
    (matchInput c s first sequence dev u).1.kept = s.kept := by
  unfold matchInput
  simp only [matchGo_kept]
  rfl

theorem matchStart_kept (c dev u) (n : Nat) (s : S) : (matchStart c dev u n s).1.kept = s.kept := by
  induction n generalizing s with
  | zero => rfl
  | succ n ih =>
    unfold matchStart
    split
    · rfl
    · split
      · rfl
      · have h1 := matchInput_kept c s false (s.seq.take n) dev u
        split
        · next h => rw [h] at h1; exact h1
        · next h => rw [h] at h1; rw [ih]; exact h1

theorem retryStart_kept (c s r dev u) : (retryStart c s r dev u).1.kept = s.kept := by
  unfold retryStart
  split
  · split
    · have h1 := matchStart_kept c dev u s.seq.length s
      split
      · next h => rw [h] at h1; exact h1
      · next h => rw [h] at h1; exact h1
    · rfl
  · rfl

theorem timeoutMatched_kept (s ev r b) : (timeoutMatched s ev r b).1.kept = s.kept := by
  unfold timeoutMatched
  repeat' split
  all_goals rfl

theorem notTimeoutFailed_kept (s r) : (notTimeoutFailed s r).kept = s.kept := by
  unfold notTimeoutFailed
  repeat' split
  all_goals rfl

theorem forwardGo_kept (s : S) (pre l : KeySequence) : (forwardGo s pre l).kept = s.kept := by
  induction l generalizing pre with
  | nil => rfl
  | cons e rest ih =>
    unfold forwardGo
    split
    · split
      · exact updateOutput_kept s e (.key e.key) (-1)
      · split
        · simp only []
          split
          · exact updateOutput_kept s e (.key e.key) (-1)
          · rfl
        · exact ih _
    · rfl

theorem applyResult_kept (s ev r n b) : (applyResult s ev r n b).kept = s.kept := by
  unfold applyResult
  split
  · next ref out input ctx =>
    have h1 := applyOutput_kept s out (chooseTrigger s ev out input) ctx
    simp only []
    split <;> exact h1
  · have h1 : (forwardFromSequence s).kept = s.kept := forwardGo_kept s [] s.seq
    simp only []
    split <;> exact h1

theorem round_kept (c ev dev u s) : (round c ev dev u s).1.kept = s.kept := by
  unfold round
  have h1 := matchInput_kept c s true s.seq dev u
  generalize matchInput c s true s.seq dev u = mi at *
  obtain ⟨s1, r⟩ := mi
  simp only [] at *
  split
  · exact h1
  · split
    · exact h1
    · have h2 := retryStart_kept c s1 r dev u
      generalize retryStart c s1 r dev u = rs at *
      obtain ⟨s2, r2, n, b⟩ := rs
      simp only [] at *
      have h3 := timeoutMatched_kept s2 ev r2 b
      generalize timeoutMatched s2 ev r2 b = tm at *
      obtain ⟨s3, r3⟩ := tm
      simp only [] at *
      rw [applyResult_kept, notTimeoutFailed_kept, h3, h2, h1]

theorem mainLoop_kept (c ev dev u s) : (mainLoop c ev dev u s).kept = s.kept := by
  fun_induction mainLoop c ev dev u s with
  | case1 s hs hc ih => rw [ih, round_kept]
  | case2 s hs hc => rw [round_kept]
  | case3 s hs => rfl

end KM
