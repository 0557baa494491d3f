import Verif.Model.Stage
/-!
# Properties of all events of the pending sequence
-/
namespace KM

theorem continueOnRelease_seq (s : S) (ev ctx) : (continueOnRelease s ev ctx).1.seq = s.seq := by
  unfold continueOnRelease
  split
  · rfl
  · split
    · rfl
    · exact applyOutput_seq _ _ _ _

theorem onContextActiveEvent_seq (c s ev i) : (onContextActiveEvent c s ev i).seq = s.seq := by
  unfold onContextActiveEvent
  split
  · rfl
  · next ctx hctx =>
    simp only []
    generalize hs1 : (if ((ctx.inputs.takeWhile (fun i => i.input.head?.map (·.key) != some Key.ContextActive)).any
      (·.input.isEmpty)) = true then { s with ub := true } else s) = s1
    have h1 : s1.seq = s.seq := by
      subst hs1; split <;> rfl
    split
    · exact h1
    · split
      · split
        · exact h1
        · exact h1
        · rw [applyOutput_seq]; exact h1
      · show (continueOnRelease s1 ev i).1.seq = _
        rw [continueOnRelease_seq]; exact h1

theorem foldContextActive_seq (c : Cfg) (ev : KeyEvent) (l : List Nat) (s : S) :
    (l.foldl (fun s i => onContextActiveEvent c s ev i) s).seq = s.seq := by
  induction l generalizing s with
  | nil => rfl
  | cons a l ih => rw [List.foldl_cons, ih, onContextActiveEvent_seq]

theorem updateActiveContexts_seq (c s) : (updateActiveContexts c s).seq = s.seq := by
  unfold updateActiveContexts
  split
  · rfl
  · rw [foldContextActive_seq, foldContextActive_seq]

/-- closure conditions: the changes made to events of the sequence -/
structure EventInv (P : KeyEvent → Prop) : Prop where
  matched : ∀ e : KeyEvent, (e.state = .Down ∨ e.state = .DownMatched) → P e → P { e with state := .DownMatched }
  timeout : ∀ e : KeyEvent, e.key = Key.timeout → P e → P { e with state := .UpMatched }

section
variable {P : KeyEvent → Prop} (I : EventInv P)
include I

theorem EventInv.finishGo {n : Nat} {l : KeySequence} (h : ∀ e ∈ l, P e) : ∀ e ∈ finishGo n l, P e := by
  fun_induction KM.finishGo n l with
  | case1 => exact h
  | case2 => exact h
  | case3 n e l h1 h2 ih => exact ih (fun e he => h e (by simp [he]))
  | case4 n e l h1 h2 ih =>
    intro x hx
    rcases List.mem_cons.1 hx with rfl | hx
    · exact I.matched e (by simpa using h1) (h e (by simp))
    · exact ih (fun e he => h e (by simp [he])) x hx
  | case5 n e l h1 h2 ih =>
    intro x hx
    rcases List.mem_cons.1 hx with rfl | hx
    · exact I.timeout e (by simpa using h2) (h e (by simp))
    · exact ih (fun e he => h e (by simp [he])) x hx
  | case6 n e l h1 h2 ih => exact ih (fun e he => h e (by simp [he]))

theorem EventInv.forwardGo {s : S} {pre l : KeySequence} (hp : ∀ e ∈ pre, P e) (h : ∀ e ∈ l, P e)
    (hs : ∀ e ∈ s.seq, P e) :
    ∀ e ∈ (forwardGo s pre l).seq, P e := by
  induction l generalizing pre with
  | nil => exact hs
  | cons e rest ih =>
    have hr : ∀ e ∈ rest, P e := fun e he => h e (by simp [he])
    have hpr : ∀ e ∈ pre ++ rest, P e := by
      intro x hx; rcases List.mem_append.1 hx with hx | hx
      · exact hp x hx
      · exact hr x hx
    unfold KM.forwardGo
    split
    · next hd =>
      split
      · exact hpr
      · split
        · next hdn =>
          intro x hx
          simp only [List.mem_append, List.mem_cons] at hx
          rcases hx with hx | rfl | hx
          · exact hp x hx
          · exact I.matched e (Or.inl (by simpa using hdn)) (h e (by simp))
          · exact hr x hx
        · apply ih _ hr
          intro x hx
          simp only [List.mem_append, List.mem_cons, List.not_mem_nil, or_false] at hx
          rcases hx with hx | rfl
          · exact hp x hx
          · exact h x (by simp)
    · exact hpr

theorem EventInv.applyResult {s : S} {ev r n b} (h : ∀ e ∈ s.seq, P e) :
    ∀ e ∈ (applyResult s ev r n b).seq, P e := by
  unfold KM.applyResult
  split
  · next ref out input ctx =>
    have h1 : ∀ e ∈ (finishSequence (applyOutput s out (chooseTrigger s ev out input) ctx) n).seq, P e := by
      apply I.finishGo
      rw [applyOutput_seq]; exact h
    simp only []
    split <;> exact h1
  · have h1 : ∀ e ∈ (forwardFromSequence s).seq, P e := I.forwardGo (by simp) h h
    simp only []
    split <;> exact h1

theorem EventInv.round {c ev dev u} {s : S} (h : ∀ e ∈ s.seq, P e) :
    ∀ e ∈ (round c ev dev u s).1.seq, P e := by
  unfold KM.round
  have h1 := matchInput_seq c s true s.seq dev u
  generalize matchInput c s true s.seq dev u = mi at *
  obtain ⟨s1, r⟩ := mi
  simp only [] at *
  rw [← h1] at h
  split
  · exact I.finishGo h
  · split
    · exact h
    · have h2 := (retryStart_spec c s1 r dev u).1
      generalize retryStart c s1 r dev u = rs at *
      obtain ⟨s2, r2, n, b⟩ := rs
      simp only [] at *
      have h3 := timeoutMatched_seq s2 ev r2 b
      generalize timeoutMatched s2 ev r2 b = tm at *
      obtain ⟨s3, r3⟩ := tm
      simp only [] at *
      apply I.applyResult
      rw [notTimeoutFailed_seq, h3, h2]; exact h

theorem EventInv.mainLoop {c ev dev u} {s : S} (h : ∀ e ∈ s.seq, P e) :
    ∀ e ∈ (mainLoop c ev dev u s).seq, P e := by
  fun_induction KM.mainLoop c ev dev u s with
  | case1 s hs hc ih => exact ih (I.round h)
  | case2 s hs hc => exact I.round h
  | case3 s hs => exact h

theorem EventInv.beforeMatchUp {s : S} {ev} (h : ∀ e ∈ s.seq, P e) : ∀ e ∈ (beforeMatchUp s ev).seq, P e := by
  unfold KM.beforeMatchUp
  split
  · simp only []
    generalize hs1 : (if (s.timeout.bind (·.matchedOutput)).isSome = true then
      { s with seq := s.seq.map (fun e => if e.state == .Down then { e with state := .DownMatched } else e) }
      else s) = s1
    have h1 : ∀ e ∈ s1.seq, P e := by
      subst hs1
      split
      · intro x hx
        simp only [List.mem_map] at hx
        obtain ⟨e, he, rfl⟩ := hx
        split
        · next hd => exact I.matched e (Or.inl (by simpa using hd)) (h e he)
        · exact h e he
      · exact h
    split
    · split
      · exact h1
      · split
        · intro x hx
          exact h1 x (List.mem_of_mem_eraseP hx)
        · exact h1
    · exact h1
  · exact h

omit I in
theorem mem_rEraseKey {l : KeySequence} {k : Key} {x : KeyEvent} (h : x ∈ rEraseKey l k) : x ∈ l := by
  simp only [rEraseKey, List.mem_reverse] at h
  simpa using List.mem_of_mem_eraseP h

omit I in
theorem suppressTimeout_seq (s ev) : (suppressTimeout s ev).1.seq = s.seq := by
  unfold suppressTimeout
  repeat' split
  all_goals rfl

omit I in
theorem mergeRepeat_seq (s : S) (ev dev) : ∀ e ∈ (mergeRepeat s ev dev).1.seq, e ∈ s.seq := by
  unfold mergeRepeat
  simp only []
  repeat' split
  all_goals first
    | exact fun _ h => h
    | exact fun _ h => mem_rEraseKey h

omit I in
theorem addToHistory_seq (c s ev) : (addToHistory c s ev).seq = s.seq := by
  unfold addToHistory
  simp only []
  repeat' split
  all_goals rfl

omit I in
theorem finishInput_seqAll {c} {s : S} {ev} (h : ∀ e ∈ s.seq, P e) :
    ∀ e ∈ (finishInput c s ev).seq, P e := by
  unfold KM.finishInput
  simp only []
  generalize hs1 : (if (ev.state == KeyState.Up) = true then releaseTriggered s ev.key (-1) else s) = s1
  have h1 : s1.seq = s.seq := by subst hs1; split <;> rfl
  have h2 := updateActiveContexts_seq c s1
  generalize updateActiveContexts c s1 = s2 at *
  rw [← h1, ← h2] at h
  have h3 : ∀ e ∈ s2.seq.dropWhile (fun e => e.state == KeyState.UpMatched), P e :=
    fun e he => h e ((List.dropWhile_sublist _).mem he)
  split <;> exact h3

theorem EventInv.applyInput {c} {s : S} {ev dev} (h : ∀ e ∈ s.seq, P e) (hev : P ev) :
    ∀ e ∈ (applyInput c s ev dev).seq, P e := by
  unfold KM.applyInput
  simp only []
  generalize hs0 : (if validInput ev = true then s else { s with ub := true }) = s0
  have h0 : s0.seq = s.seq := by subst hs0; split <;> rfl
  rw [← h0] at h
  have h1 := continueOnRelease_seq s0 ev (-1)
  generalize continueOnRelease s0 ev (-1) = r1 at *
  rw [← h1] at h
  split
  · exact h
  · next s1 =>
    have h2 := suppressTimeout_seq s1 ev
    simp only [] at h
    rw [← h2] at h
    generalize suppressTimeout s1 ev = r2 at *
    split
    · exact h
    · next s2 =>
      have h3 := mergeRepeat_seq s2 ev dev
      have h' : ∀ e ∈ (mergeRepeat s2 ev dev).1.seq, P e := fun e he => h e (h3 e he)
      generalize mergeRepeat s2 ev dev = r3 at *
      split
      · exact h'
      · next s3 =>
        apply finishInput_seqAll
        apply I.mainLoop
        apply I.beforeMatchUp
        rw [updateActiveContexts_seq, addToHistory_seq]
        intro x hx
        simp only [List.mem_append, List.mem_cons, List.not_mem_nil, or_false] at hx
        rcases hx with hx | rfl
        · exact h' x hx
        · exact hev

theorem EventInv.update {c} {s : S} {ev dev} (h : ∀ e ∈ s.seq, P e) (hev : P ev) :
    ∀ e ∈ (update c s ev dev).1.seq, P e := by
  unfold KM.update
  exact I.applyInput (s := { s with exitPos := advanceExit s.exitPos ev }) h hev

end

theorem setActiveClientContexts_seq (c s l) : (setActiveClientContexts c s l).1.seq = s.seq := by
  unfold setActiveClientContexts
  simp only []
  show (updateActiveContexts c _).seq = _
  rw [updateActiveContexts_seq]
  split <;> rfl

end KM
