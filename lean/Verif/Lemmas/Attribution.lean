import Verif.Lemmas.Release
import Verif.Lemmas.Pressed
import Verif.Lemmas.Kept
/-!
# To what the tracked output keys are attributed
-/
namespace KM

/-- the key, trigger and context of each tracked key are related -/
def Attrib (R : Key → Trigger → Int → Prop) (down : List OutputDown) : Prop :=
  ∀ o ∈ down, R o.key o.trigger o.ctx

variable {R : Key → Trigger → Int → Prop}

theorem Attrib.modify {pre post} {o o' : OutputDown} (h : Attrib R (pre ++ o :: post))
    (h1 : o'.key = o.key) (h2 : o'.trigger = o.trigger) (h3 : o'.ctx = o.ctx) : Attrib R (pre ++ o' :: post) := by
  intro x hx
  simp only [List.mem_append, List.mem_cons] at hx
  rcases hx with hx | hx | hx
  · exact h x (by simp [hx])
  · subst hx; rw [h1, h2, h3]; exact h o (by simp)
  · exact h x (by simp [hx])

theorem Attrib.subset {a b} (h : Attrib R a) (hs : ∀ o ∈ b, o ∈ a) : Attrib R b := fun o ho => h o (hs o ho)

theorem Attrib.updateOutput {s : S} {ev trig ctx} (h : Attrib R s.down) (hR : R ev.key trig ctx) :
    Attrib R (updateOutput s ev trig ctx).down := by
  unfold KM.updateOutput
  split
  · unfold updateOutputUp
    split
    · exact h
    · next o ho =>
      obtain ⟨pre, post, h1, h2, h3, h4, h5⟩ := find_split ho
      rw [h1] at h
      split
      · simp only [h4]; exact h.modify rfl rfl rfl
      · split
        · simp only [h4]; exact h.modify rfl rfl rfl
        · simp only []
          split
          · rw [h5]; refine h.subset ?_; intro o ho; simp at ho ⊢; rcases ho with ho | ho <;> simp [ho]
          · simp only [h4]; exact h.modify rfl rfl rfl
  · unfold updateOutputNot
    split
    · exact h
    · next o ho =>
      obtain ⟨pre, post, h1, h2, h3, h4, h5⟩ := find_split ho
      split
      · exact h
      · rw [h1] at h; simp only [h4]; exact h.modify rfl rfl rfl
  · unfold updateOutputDown
    have hr : Attrib R (reapplyLoop ev.key s.down s.buf s.reapplied).1 := by
      have := reapplyLoop_ind (P := fun _ d => Attrib R d) (k := ev.key) (pre := [])
        (r := s.reapplied) (l := s.down) (b := s.buf)
        (fun b pre o post h _ _ => h.modify rfl rfl rfl)
        (fun b pre o post h _ _ _ => h.modify rfl rfl rfl) h
      simpa using this
    generalize reapplyLoop ev.key s.down s.buf s.reapplied = r at *
    obtain ⟨down, buf, reapplied, returned⟩ := r
    simp only [] at *
    split
    · exact hr
    · split
      · simp only []
        split
        · intro o ho
          simp only [List.mem_append, List.mem_singleton] at ho
          rcases ho with ho | ho
          · exact hr o ho
          · rw [ho]; exact hR
        · exact hr
      · next hn =>
        cases ho : down.find? (·.key == ev.key) with
        | none => simp [ho] at hn
        | some o =>
          obtain ⟨pre, post, h1, h2, h3, h4, h5⟩ := find_split ho
          simp only [h4]
          subst h1
          exact hr.modify rfl rfl rfl
  all_goals exact h

theorem Attrib.applyOutput {s : S} {out trig ctx} (h : Attrib R s.down)
    (hR : ∀ k, ((∃ e ∈ out, e.key = k) ∨ ∃ e ∈ out, e.key = Key.any) → R k trig ctx) :
    Attrib R (applyOutput s out trig ctx).down := by
  have hfold : ∀ {α : Type} (l : List α) (f : α → KeyEvent) (s : S), (∀ k, R k trig ctx) → Attrib R s.down →
      Attrib R (l.foldl (fun s k => KM.updateOutput s (f k) trig ctx) s).down := by
    intro α l f
    induction l with
    | nil => intro s _ h; exact h
    | cons a l ih => intro s hR h; exact ih _ hR (h.updateOutput (hR _))
  induction out generalizing s with
  | nil => exact h
  | cons ev rest ih =>
    have hrest : ∀ k, ((∃ e ∈ rest, e.key = k) ∨ ∃ e ∈ rest, e.key = Key.any) → R k trig ctx := by
      intro k hk
      apply hR
      rcases hk with ⟨e, he, hk⟩ | ⟨e, he, hk⟩
      · exact Or.inl ⟨e, by simp [he], hk⟩
      · exact Or.inr ⟨e, by simp [he], hk⟩
    unfold KM.applyOutput
    split
    · next hany =>
      have hall : ∀ k, R k trig ctx := fun k => hR k (Or.inr ⟨ev, by simp, by simpa using hany⟩)
      simp only []
      refine ih ?_ hrest
      split
      · exact hfold _ (fun (o : OutputDown) => ⟨o.key, .Not, 0⟩) s hall h
      · exact hfold _ (fun (k : Key) => ⟨k, ev.state, 0⟩) s hall h
    · have hev : R ev.key trig ctx := hR _ (Or.inl ⟨ev, by simp, rfl⟩)
      split
      · split
        · exact h
        · exact ih h hrest
      · split
        · simp only []
          refine ih ?_ hrest
          split
          · exact h.updateOutput hev
          · exact h
        · exact ih (h.updateOutput hev) hrest

theorem Attrib.continueOnRelease {s : S} {ev : KeyEvent} {ctx} (h : Attrib R s.down)
    (hR : ∀ o ∈ s.onRelease, isContinuedBy ev.key ctx o = true → ∀ k, R k (.ev ev) o.ctx) :
    Attrib R (continueOnRelease s ev ctx).1.down := by
  unfold KM.continueOnRelease
  split
  · exact h
  · next o ho =>
    split
    · exact h
    · exact h.applyOutput (trig := .ev ev) (fun k _ => hR o (List.mem_of_find?_eq_some ho) (List.find?_some ho) k)

theorem Attrib.releaseTriggered {s : S} (h : Attrib R s.down) (j ctx) : Attrib R (releaseTriggered s j ctx).down :=
  h.subset (fun _ ho => (List.mem_filter.1 ho).1)

theorem Attrib.onContextActiveEvent {c} {s : S} {ev : KeyEvent} (h : Attrib R s.down) (i : Nat)
    (hR : ∀ k t c, t.keyOf = ev.key → R k t c) : Attrib R (onContextActiveEvent c s ev i).down := by
  unfold KM.onContextActiveEvent
  split
  · exact h
  · next ctx hctx =>
    simp only []
    generalize hs1 : (if ((ctx.inputs.takeWhile (fun i => i.input.head?.map (·.key) != some Key.ContextActive)).any
      (·.input.isEmpty)) = true then { s with ub := true } else s) = s1
    have h1 : Attrib R s1.down := by
      subst hs1; split
      · exact h
      · exact h
    split
    · exact h1
    · split
      · split
        · exact h1
        · exact h1
        · exact h1.applyOutput (trig := .ev ev) (fun k _ => hR k _ _ rfl)
      · exact (h1.continueOnRelease (fun o _ _ k => hR k _ _ rfl)).releaseTriggered _ _

theorem Attrib.updateActiveContexts {c} {s : S} (h : Attrib R s.down)
    (hR : ∀ k t c, t.keyOf = Key.ContextActive → R k t c) : Attrib R (updateActiveContexts c s).down := by
  have hfold : ∀ (ev : KeyEvent) (l : List Nat) (s : S), (∀ k t c, t.keyOf = ev.key → R k t c) → Attrib R s.down →
      Attrib R (l.foldl (fun s i => KM.onContextActiveEvent c s ev i) s).down := by
    intro ev l
    induction l with
    | nil => intro s _ h; exact h
    | cons a l ih => intro s he h; exact ih _ he (h.onContextActiveEvent _ he)
  unfold KM.updateActiveContexts
  split
  · exact h
  · exact hfold _ _ _ hR (hfold _ _ _ hR h)

/-- the tracked keys do not change while matching -/
theorem trackTimeout_down (s : S) (t l u) : (trackTimeout s t l u).down = s.down := by
  unfold trackTimeout
  simp only []
  repeat' split
  all_goals rfl

theorem matchGo_down (c first sequence dev u) (l : List (Nat × Context × Input)) (s : S) :
    (matchGo c first sequence dev u l s).1.down = s.down := by
  induction l generalizing s with
  | nil => rfl
  | cons a rest ih =>
    obtain ⟨ci, ctx, inp⟩ := a
    unfold matchGo
    simp only []
    split
    · rw [ih]
    · split
      · split
        · simp only [trackTimeout_down]
        · rfl
      · split
        · split
          · rfl
          · rw [ih]
        · rw [ih]

theorem matchInput_down (c s first sequence dev u) :
    (matchInput c s first sequence dev u).1.down = s.down := by
  unfold matchInput
  simp only [matchGo_down]

theorem matchStart_down (c dev u) (n : Nat) (s : S) : (matchStart c dev u n s).1.down = s.down := by
  induction n generalizing s with
  | zero => rfl
  | succ n ih =>
    unfold matchStart
    split
    · rfl
    · split
      · rfl
      · split
        · next h => have := matchInput_down c s false (s.seq.take n) dev u; rw [h] at this; exact this
        · next h => rw [ih]; have := matchInput_down c s false (s.seq.take n) dev u; rw [h] at this; exact this

theorem retryStart_down (c s r dev u) : (retryStart c s r dev u).1.down = s.down := by
  unfold retryStart
  split
  · split
    · have := matchStart_down c dev u s.seq.length s
      split
      · next h => rw [h] at this; exact this
      · next h => rw [h] at this; exact this
    · rfl
  · rfl

theorem timeoutMatched_down (s ev r b) : (timeoutMatched s ev r b).1.down = s.down := by
  unfold timeoutMatched
  repeat' split
  all_goals rfl

theorem notTimeoutFailed_down (s r) : (notTimeoutFailed s r).down = s.down := by
  unfold notTimeoutFailed
  repeat' split
  all_goals rfl

/-- events of the sequence are no wildcards and no context activations -/
def InputKey (e : KeyEvent) : Prop := e.key ≠ Key.any ∧ e.key ≠ Key.ContextActive

theorem inputKey_inv : EventInv InputKey where
  matched := fun _ _ h => h
  timeout := fun _ _ h => h

/-- What the trigger of an output is -/
theorem chooseTrigger_spec (s : S) (ev : KeyEvent) (out input : KeySequence) (hs : ∀ e ∈ s.seq, InputKey e)
    (hev : InputKey ev) :
    (chooseTrigger s ev out input).keyOf ≠ Key.ContextActive ∧
    (pressedIn s.seq (chooseTrigger s ev out input).keyOf = true ∨ (chooseTrigger s ev out input) = .ev ev ∨
      (out = [(chooseTrigger s ev out input).event] ∧ (chooseTrigger s ev out input).keyOf ≠ Key.any)) := by
  have hpr : ∀ k, pressedIn s.seq k = true → k ≠ Key.ContextActive := by
    intro k hk h
    have : hasKey s.seq k = true := by
      cases hh : hasKey s.seq k with
      | true => rfl
      | false => rw [pressedIn_false_of_not_hasKey hh] at hk; simp at hk
    obtain ⟨e, he, hek⟩ := hasKey_iff.1 this
    exact (hs e he).2 (hek.trans h)
  unfold chooseTrigger
  simp only []
  generalize causeOf s ev input = t
  split
  · split
    · next htriv =>
      simp only [Bool.and_eq_true, beq_iff_eq, List.contains_eq_mem, decide_eq_true_eq] at htriv
      have hk := hs _ htriv.2
      exact ⟨hk.2, Or.inr (Or.inr ⟨htriv.1, hk.1⟩)⟩
    · exact ⟨hev.2, Or.inr (Or.inl rfl)⟩
  · next hp =>
    have hp : pressedIn s.seq t.keyOf = true := by simpa [isPhysicallyPressed_eq] using hp
    exact ⟨hpr _ hp, Or.inl hp⟩

/-- the conditions on a relation which the outputs of the main loop satisfy -/
structure LoopRel (ev : KeyEvent) (P : Key → Bool) (R : Key → Trigger → Int → Prop) : Prop where
  pressed : ∀ k t c, t.keyOf ≠ Key.ContextActive →
    (t.keyOf = Key.timeout ∨ P t.keyOf = true ∨ t.keyOf = ev.key) → R k t c
  same : ∀ k t c, t.keyOf ≠ Key.ContextActive → t.keyOf = k → R k t c

section
variable {ev : KeyEvent} {P : Key → Bool} (L : LoopRel ev P R) (hev : InputKey ev)
include L hev

omit hev in
theorem Attrib.forwardGo {s : S} {pre l} (h : Attrib R s.down) (hl : ∀ e ∈ l, InputKey e) :
    Attrib R (forwardGo s pre l).down := by
  have hR : ∀ e ∈ l, R e.key (.key e.key) (-1) := fun e he => L.same _ _ _ (hl e he).2 rfl
  induction l generalizing pre with
  | nil => exact h
  | cons e rest ih =>
    have hRe := hR e (by simp)
    unfold KM.forwardGo
    split
    · split
      · exact h.updateOutput hRe
      · split
        · show Attrib R (if _ then _ else _ : S).down
          split
          · exact h.updateOutput hRe
          · exact h
        · exact ih (fun e he => hl e (by simp [he])) (fun e he => hR e (by simp [he]))
    · exact h.releaseTriggered _ _

theorem Attrib.applyResult {s : S} {r n b} (h : Attrib R s.down) (hl : ∀ e ∈ s.seq, InputKey e)
    (hp : ∀ k, k ≠ Key.timeout → pressedIn s.seq k = P k) : Attrib R (applyResult s ev r n b).down := by
  unfold KM.applyResult
  split
  · next ref out input ctx =>
    have h1 : Attrib R (finishSequence (KM.applyOutput s out (chooseTrigger s ev out input) ctx) n).down := by
      obtain ⟨h1, h2⟩ := chooseTrigger_spec s ev out input hl hev
      refine h.applyOutput (fun k hk => ?_)
      rcases h2 with h2 | h2 | ⟨h2, h3⟩
      · apply L.pressed _ _ _ h1
        by_cases ht : (chooseTrigger s ev out input).keyOf = Key.timeout
        · exact Or.inl ht
        · exact Or.inr (Or.inl (by rw [← hp _ ht]; exact h2))
      · apply L.pressed _ _ _ h1
        rw [h2]; exact Or.inr (Or.inr rfl)
      · apply L.same _ _ _ h1
        rw [h2] at hk
        simp only [List.mem_cons, List.not_mem_nil, or_false, exists_eq_left] at hk
        rcases hk with hk | hk
        · exact hk
        · exact absurd hk h3
    simp only []
    split <;> exact h1
  · have h1 : Attrib R (forwardFromSequence s).down := h.forwardGo L hl
    simp only []
    split <;> exact h1

theorem Attrib.round {c dev u} {s : S} (h : Attrib R s.down) (hl : ∀ e ∈ s.seq, InputKey e)
    (hp : ∀ k, k ≠ Key.timeout → pressedIn s.seq k = P k) : Attrib R (round c ev dev u s).1.down := by
  unfold KM.round
  have h1 := matchInput_seq c s true s.seq dev u
  have h1' := matchInput_down c s true s.seq dev u
  generalize matchInput c s true s.seq dev u = mi at *
  obtain ⟨s1, r⟩ := mi
  simp only [] at *
  rw [← h1] at hl hp
  rw [← h1'] at h
  split
  · exact h
  · split
    · exact h
    · have h2 := (retryStart_spec c s1 r dev u).1
      have h2' := retryStart_down c s1 r dev u
      generalize retryStart c s1 r dev u = rs at *
      obtain ⟨s2, r2, n, b⟩ := rs
      simp only [] at *
      have h3 := timeoutMatched_seq s2 ev r2 b
      have h3' := timeoutMatched_down s2 ev r2 b
      generalize timeoutMatched s2 ev r2 b = tm at *
      obtain ⟨s3, r3⟩ := tm
      simp only [] at *
      refine Attrib.applyResult L hev ?_ ?_ ?_
      · rw [notTimeoutFailed_down, h3', h2']; exact h
      · rw [notTimeoutFailed_seq, h3, h2]; exact hl
      · rw [notTimeoutFailed_seq, h3, h2]; exact hp

theorem Attrib.mainLoop {c dev u} {s : S} (h : Attrib R s.down) (hl : ∀ e ∈ s.seq, InputKey e)
    (hse : ∀ e ∈ s.seq, SeqEvent e) (hp : ∀ k, k ≠ Key.timeout → pressedIn s.seq k = P k) :
    Attrib R (mainLoop c ev dev u s).down := by
  fun_induction KM.mainLoop c ev dev u s with
  | case1 s hs hc ih =>
    exact ih (Attrib.round L hev h hl hp) (inputKey_inv.round hl) (seqEvent_inv.round hse)
      (fun k hk => (pressedIn_round hse hk).trans (hp k hk))
  | case2 s hs hc => exact Attrib.round L hev h hl hp
  | case3 s hs => exact h

omit L hev in
theorem Attrib.finishInput {c} {s : S} (h : Attrib R s.down)
    (hR : ∀ k t c, t.keyOf = Key.ContextActive → R k t c) : Attrib R (finishInput c s ev).down := by
  unfold KM.finishInput
  simp only []
  generalize hs1 : (if (ev.state == KeyState.Up) = true then KM.releaseTriggered s ev.key (-1) else s) = s1
  have h1 : Attrib R s1.down := by
    subst hs1
    split
    · exact h.releaseTriggered _ _
    · exact h
  have h2 := h1.updateActiveContexts (c := c) hR
  split <;> exact h2
end

theorem suppressTimeout_down (s ev) : (suppressTimeout s ev).1.down = s.down := by
  unfold suppressTimeout
  repeat' split
  all_goals rfl

theorem mergeRepeat_down (s : S) (ev dev) : (mergeRepeat s ev dev).1.down = s.down := by
  unfold mergeRepeat
  simp only []
  repeat' split
  all_goals rfl

theorem addToHistory_down (c s ev) : (addToHistory c s ev).down = s.down := by
  unfold addToHistory
  simp only []
  repeat' split
  all_goals rfl

theorem beforeMatchUp_down (s ev) : (beforeMatchUp s ev).down = s.down := by
  unfold beforeMatchUp
  simp only []
  repeat' split
  all_goals rfl

/-- an event only attributes outputs to keys which are pressed, the event or the key itself -/
theorem Attrib.update {c} {s : S} {ev dev} {P : Key → Bool} (L : LoopRel ev P R)
    (hR : ∀ k t c, t.keyOf = Key.ContextActive → R k t c)
    (h : Attrib R s.down) (hl : ∀ e ∈ s.seq, InputKey e) (hev : InputKey ev)
    (hse : ∀ e ∈ s.seq, SeqEvent e) (hsev : SeqEvent ev)
    (hp : ∀ k, k ≠ Key.timeout → pressedIn (s.seq ++ [ev]) k = P k) :
    Attrib R (update c s ev dev).1.down := by
  show Attrib R (applyInput c { s with exitPos := advanceExit s.exitPos ev } ev dev).down
  have hss : s.seq = ({ s with exitPos := advanceExit s.exitPos ev } : S).seq := rfl
  have hsd : s.down = ({ s with exitPos := advanceExit s.exitPos ev } : S).down := rfl
  rw [hss] at hl hp hse
  rw [hsd] at h
  generalize { s with exitPos := advanceExit s.exitPos ev } = s at *
  clear hss hsd
  unfold KM.applyInput
  simp only []
  generalize hs0 : (if validInput ev = true then s else { s with ub := true }) = s0
  have h0 : s0.seq = s.seq := by subst hs0; split <;> rfl
  have h0' : s0.down = s.down := by subst hs0; split <;> rfl
  rw [← h0] at hl hp hse
  rw [← h0'] at h
  have h1 := continueOnRelease_seq s0 ev (-1)
  have h1' : Attrib R (KM.continueOnRelease s0 ev (-1)).1.down :=
    h.continueOnRelease (fun o _ _ k => L.pressed _ _ _ hev.2 (Or.inr (Or.inr rfl)))
  generalize KM.continueOnRelease s0 ev (-1) = r1 at *
  rw [← h1] at hl hp hse
  split
  · exact h1'
  · next s1 =>
    simp only [] at h1' hl hp hse
    have h2 := suppressTimeout_seq s1 ev
    have h2' := suppressTimeout_down s1 ev
    rw [← h2] at hl hp hse
    rw [← h2'] at h1'
    generalize suppressTimeout s1 ev = r2 at *
    split
    · exact h1'
    · next s2 =>
      simp only [] at h1' hl hp hse
      have h3 := mergeRepeat_seq s2 ev dev
      have h3' := mergeRepeat_down s2 ev dev
      have h4 := @mergeRepeat_pressed s2 ev dev
      rw [← h3'] at h1'
      generalize hr3 : mergeRepeat s2 ev dev = r3 at *
      split
      · exact h1'
      · next s3 =>
        have h5 := (h4 rfl).2 rfl
        simp only [] at h1' h3
        have hl3 : ∀ e ∈ s3.seq ++ [ev], SeqEvent e := by
          intro x hx
          simp only [List.mem_append, List.mem_cons, List.not_mem_nil, or_false] at hx
          rcases hx with hx | rfl
          · exact hse x (h3 x hx)
          · exact hsev
        have hi3 : ∀ e ∈ s3.seq ++ [ev], InputKey e := by
          intro x hx
          simp only [List.mem_append, List.mem_cons, List.not_mem_nil, or_false] at hx
          rcases hx with hx | rfl
          · exact hl x (h3 x hx)
          · exact hev
        have hA : (KM.updateActiveContexts c (addToHistory c { s3 with seq := s3.seq ++ [ev] } ev)).seq = s3.seq ++ [ev] := by
          rw [updateActiveContexts_seq, addToHistory_seq]
        have hD : Attrib R (KM.updateActiveContexts c (addToHistory c { s3 with seq := s3.seq ++ [ev] } ev)).down := by
          refine Attrib.updateActiveContexts ?_ hR
          rw [addToHistory_down]; exact h1'
        have hB := fun k => pressedIn_beforeMatchUp hA k
        have hB1 := seqEvent_inv.beforeMatchUp (ev := ev)
          (s := KM.updateActiveContexts c (addToHistory c { s3 with seq := s3.seq ++ [ev] } ev)) (by rw [hA]; exact hl3)
        have hB2 := inputKey_inv.beforeMatchUp (ev := ev)
          (s := KM.updateActiveContexts c (addToHistory c { s3 with seq := s3.seq ++ [ev] } ev)) (by rw [hA]; exact hi3)
        rw [← beforeMatchUp_down _ ev] at hD
        refine Attrib.finishInput (Attrib.mainLoop L hev ?_ hB2 hB1 ?_) hR
        · intro o ho
          simp only [List.mem_map] at ho
          obtain ⟨o', ho', rfl⟩ := ho
          exact hD o' ho'
        · intro k hk
          show pressedIn (beforeMatchUp _ ev).seq k = _
          rw [hB, hA, h5, hp k hk]

end KM
