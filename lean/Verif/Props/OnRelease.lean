import Verif.Props.Pressed
import Verif.Spec.Context
import Verif.Spec.OnRelease
import Verif.Lemmas.Active
/-!
# Output on release `^` (C52)

An output sequence `a ^ b` outputs `a` when the trigger is pressed and `b` when it is released.
-/
namespace KM

/-- the marker `^` is not the key `Any` (the parser creates it with the key none) -/
def PlainMarker (out : KeySequence) : Prop := ∀ e ∈ out, e.state = .OutputOnRelease → e.key ≠ Key.any

/-- **C52** Output triggered by a press: exactly the part before `^` is output, and
the rest is kept, for the key and the context which triggered it. -/
theorem C52_press_outputs_first_part (s : S) (out : KeySequence) (hm : PlainMarker out) (trig : Trigger) (ctx : Int)
    (ht : trig.event.state = .Down) :
    (applyOutput s out trig ctx).buf = (applyOutput s (onPress out) trig ctx).buf ∧
    (applyOutput s out trig ctx).down = (applyOutput s (onPress out) trig ctx).down ∧
    (applyOutput s out trig ctx).onRelease =
      s.onRelease ++ (match onReleasePart out with
        | none => []
        | some b => [⟨trig.event.key, b, ctx⟩]) := by
  induction out generalizing s with
  | nil => simp [onPress, applyOutput, onReleasePart]
  | cons e out ih =>
    have ih := fun s => ih s (fun x hx => hm x (by simp [hx]))
    by_cases he : e.state = .OutputOnRelease
    · have hk := hm e (by simp) he
      have h1 : onPress (e :: out) = [] := by simp [onPress, he]
      rw [h1]
      conv => enter [1, 1]; unfold applyOutput
      conv => enter [2, 1, 1]; unfold applyOutput
      conv => enter [2, 2, 1]; unfold applyOutput
      simp [hk, he, ht, onReleasePart, applyOutput]
    · have h1 : onPress (e :: out) = e :: onPress out := by
        have : (e.state != KeyState.OutputOnRelease) = true := by simpa using he
        simp only [onPress, List.takeWhile_cons, this, if_true]
      have h2 : onReleasePart (e :: out) = onReleasePart out := by simp [onReleasePart, he]
      have h3 : (e.state == KeyState.OutputOnRelease) = false := by simpa using he
      rw [h1, h2]
      have key : ∀ s1 : S, s1.onRelease = s.onRelease →
          (applyOutput s1 out trig ctx).buf = (applyOutput s1 (onPress out) trig ctx).buf ∧
          (applyOutput s1 out trig ctx).down = (applyOutput s1 (onPress out) trig ctx).down ∧
          (applyOutput s1 out trig ctx).onRelease =
            s.onRelease ++ (match onReleasePart out with
              | none => []
              | some b => [⟨trig.event.key, b, ctx⟩]) := by
        intro s1 hs1
        have := ih s1
        rw [hs1] at this
        exact this
      unfold applyOutput
      simp only [h3, Bool.false_eq_true, if_false]
      split
      · apply key
        split
        · exact foldl_updateOutput_onRelease _ (fun (o : OutputDown) => ⟨o.key, .Not, 0⟩) s trig ctx
        · exact foldl_updateOutput_onRelease _ (fun (k : Key) => ⟨k, e.state, 0⟩) s trig ctx
      · split
        · apply key
          split
          · rw [updateOutput_onRelease]
          · rfl
        · exact key _ (updateOutput_onRelease _ _ _ _)

/-- **C52** Output triggered by something which is not held (e.g. a release) is output completely,
nothing is kept for later. -/
theorem C52_release_outputs_all (s : S) (out : KeySequence) (hm : PlainMarker out) (trig : Trigger) (ctx : Int)
    (ht : trig.event.state ≠ .Down) :
    applyOutput s out trig ctx = applyOutput s (out.filter (·.state != .OutputOnRelease)) trig ctx ∧
    (applyOutput s out trig ctx).onRelease = s.onRelease := by
  have h1 : applyOutput s out trig ctx = applyOutput s (out.filter (·.state != .OutputOnRelease)) trig ctx := by
    induction out generalizing s with
    | nil => rfl
    | cons e out ih =>
      have ih := fun s => ih s (fun x hx => hm x (by simp [hx]))
      by_cases he : e.state = .OutputOnRelease
      · have hk := hm e (by simp) he
        have hk : (e.key == Key.any) = false := beq_eq_false_iff_ne.2 hk
        have ht : (trig.event.state == KeyState.Down) = false := beq_eq_false_iff_ne.2 ht
        rw [List.filter_cons_of_neg (by simp [he]), ← ih]
        conv => lhs; unfold applyOutput
        simp only [hk, he, ht, beq_self_eq_true, if_true, Bool.false_eq_true, if_false]
      · rw [List.filter_cons_of_pos (by simpa using he)]
        have h3 : (e.state == KeyState.OutputOnRelease) = false := by simpa using he
        unfold applyOutput
        simp only [h3, Bool.false_eq_true, if_false]
        split
        · exact ih _
        · split
          · exact ih _
          · exact ih _
  refine ⟨h1, ?_⟩
  rw [h1]
  apply applyOutput_onRelease
  intro e he
  simpa using (List.mem_filter.1 he).2

/-- the output which is pending for the release of a key -/
def pendingFor (s : S) (k : Key) : List OnRelease := s.onRelease.filter (fun o => o.trigger = k)

private theorem isContinuedBy_key {k : Key} (hk : k ≠ Key.ContextActive) (o : OnRelease) :
    isContinuedBy k (-1) o = decide (o.trigger = k) := by
  unfold isContinuedBy
  by_cases h : o.trigger = k
  · have : o.trigger ≠ Key.ContextActive := by rw [h]; exact hk
    simp [h, hk]
  · have : (o.trigger == k) = false := beq_eq_false_iff_ne.2 h
    simp [this, h]

private theorem continueOnRelease_exit (s : S) (ev : KeyEvent) (ctx : Int) (p) :
    KM.continueOnRelease { s with exitPos := p } ev ctx =
      ({ (KM.continueOnRelease s ev ctx).1 with exitPos := p }, (KM.continueOnRelease s ev ctx).2) := by
  have hu : ∀ (s : S) (e : KeyEvent) (t : Trigger) (x : Int),
      updateOutput { s with exitPos := p } e t x = { updateOutput s e t x with exitPos := p } := by
    intro s e t x
    unfold updateOutput updateOutputUp updateOutputNot updateOutputDown
    simp only []
    repeat' split
    all_goals rfl
  have ha : ∀ (out : KeySequence) (s : S) (t : Trigger) (x : Int),
      applyOutput { s with exitPos := p } out t x = { applyOutput s out t x with exitPos := p } := by
    intro out
    have hf : ∀ {α : Type} (l : List α) (f : α → KeyEvent) (s : S) (t : Trigger) (x : Int),
        l.foldl (fun s k => updateOutput s (f k) t x) { s with exitPos := p } =
          { l.foldl (fun s k => updateOutput s (f k) t x) s with exitPos := p } := by
      intro α l f
      induction l with
      | nil => intros; rfl
      | cons a l ih => intro s t x; rw [List.foldl_cons, hu, ih, List.foldl_cons]
    induction out with
    | nil => intros; rfl
    | cons e out ih =>
      intro s t x
      unfold applyOutput
      simp only [hu]
      split
      · split
        · rw [hf s.down (fun (o : OutputDown) => ⟨o.key, .Not, 0⟩), ih]
        · rw [hf s.anyM (fun (k : Key) => ⟨k, e.state, 0⟩), ih]
      · split
        · split
          · rfl
          · rw [ih]
        · split
          · split
            · rw [ih]
            · rw [ih]
          · rw [ih]
  unfold KM.continueOnRelease
  simp only []
  split
  · rfl
  · split
    · rfl
    · rw [ha]

/-- the state in which the pending output of the first entry of a key was output and removed -/
def S.continued (s : S) (ev : KeyEvent) (o : OnRelease) : S :=
  { applyOutput s o.sequence (.ev ev) o.ctx with
      onRelease := (applyOutput s o.sequence (.ev ev) o.ctx).onRelease.eraseP (fun p => p.trigger = ev.key) }

/-- **C52** Releasing a key outputs what is pending for it; apart from this it is an
ordinary release. -/
theorem C52_release_continues (c : Cfg) (s : S) (ev : KeyEvent) (dev : Int) (hup : ev.state = .Up)
    (hk : ev.key ≠ Key.ContextActive) (hv : validInput ev = true) {o : OnRelease}
    (hp : pendingFor s ev.key = [o]) (hm : PlainMarker o.sequence) :
    update c s ev dev = update c (s.continued ev o) ev dev ∧ pendingFor (s.continued ev o) ev.key = [] := by
  have hcont : ∀ x : OnRelease, isContinuedBy ev.key (-1) x = decide (x.trigger = ev.key) :=
    isContinuedBy_key hk
  have hfun : isContinuedBy ev.key (-1) = fun x => decide (x.trigger = ev.key) := funext hcont
  have hfind : s.onRelease.find? (fun x => decide (x.trigger = ev.key)) = some o := by
    rw [← List.head?_filter]
    show (pendingFor s ev.key).head? = some o
    rw [hp]; rfl
  have hon : (applyOutput s o.sequence (.ev ev) o.ctx).onRelease = s.onRelease :=
    (C52_release_outputs_all s o.sequence hm (.ev ev) o.ctx (by simp [Trigger.event, hup])).2
  have hnone : pendingFor (s.continued ev o) ev.key = [] := by
    show ((applyOutput s o.sequence (.ev ev) o.ctx).onRelease.eraseP _).filter _ = []
    rw [hon]
    have : ∀ l : List OnRelease, l.filter (fun o => decide (o.trigger = ev.key)) = [o] →
        (l.eraseP (fun p => decide (p.trigger = ev.key))).filter (fun o => decide (o.trigger = ev.key)) = [] := by
      intro l
      induction l with
      | nil => intro h; simp at h
      | cons a l ih =>
        intro h
        by_cases ha : a.trigger = ev.key
        · rw [List.filter_cons_of_pos (by simpa using ha)] at h
          rw [List.eraseP_cons_of_pos (by simpa using ha)]
          exact (List.cons.inj h).2
        · rw [List.filter_cons_of_neg (by simpa using ha)] at h
          rw [List.eraseP_cons_of_neg (by simpa using ha), List.filter_cons_of_neg (by simpa using ha)]
          exact ih h
    exact this _ hp
  refine ⟨?_, hnone⟩
  have h1 : KM.continueOnRelease s ev (-1) = (s.continued ev o, true) := by
    unfold KM.continueOnRelease
    rw [hfun, hfind]
    simp only []
    rw [if_neg (by rw [hup]; decide)]
    rfl
  have h2 : KM.continueOnRelease (s.continued ev o) ev (-1) = (s.continued ev o, true) := by
    unfold KM.continueOnRelease
    rw [hfun]
    have : (s.continued ev o).onRelease.find? (fun x => decide (x.trigger = ev.key)) = none := by
      rw [← List.head?_filter]
      show (pendingFor (s.continued ev o) ev.key).head? = none
      rw [hnone]; rfl
    rw [this]
  have hep : (s.continued ev o).exitPos = s.exitPos := by
    have hkept : ∀ (out : KeySequence) (s : S) (t : Trigger) (x : Int), (applyOutput s out t x).exitPos = s.exitPos := by
      intro out s t x
      refine applyOutput_of_update (Q := fun s' => s'.exitPos = s.exitPos) ?_ ?_ s out t x rfl
      · intro s' e t' x' h
        rw [← h]
        unfold updateOutput updateOutputUp updateOutputNot updateOutputDown
        simp only []
        repeat' split
        all_goals rfl
      · intro s' l h; exact h
    exact hkept o.sequence s (.ev ev) o.ctx
  unfold update applyInput
  simp only [hv, if_true, continueOnRelease_exit, h1, h2, hep]

/-- **C52** While output is pending for a key, its presses (key repeats) are ignored: nothing is output and
nothing but the detection of the exit sequence changes. -/
theorem C52_repeat_ignored (c : Cfg) (s : S) (ev : KeyEvent) (dev : Int) (hdown : ev.state = .Down)
    (hk : ev.key ≠ Key.ContextActive) (hv : validInput ev = true) (hp : pendingFor s ev.key ≠ []) (hb : s.buf = []) :
    update c s ev dev = ({ s with exitPos := advanceExit s.exitPos ev }, []) := by
  have hfun : isContinuedBy ev.key (-1) = fun x => decide (x.trigger = ev.key) := funext (isContinuedBy_key hk)
  obtain ⟨o, ho⟩ : ∃ o, s.onRelease.find? (fun x => decide (x.trigger = ev.key)) = some o := by
    rw [← List.head?_filter]
    show ∃ o, (pendingFor s ev.key).head? = some o
    cases h : pendingFor s ev.key with
    | nil => exact absurd h hp
    | cons a l => exact ⟨a, rfl⟩
  have h1 : KM.continueOnRelease s ev (-1) = (s, false) := by
    unfold KM.continueOnRelease
    rw [hfun, ho]
    simp only []
    rw [if_pos (by rw [hdown]; decide)]
  unfold update applyInput
  simp only [hv, if_true, continueOnRelease_exit, h1]
  cases s
  simp only at hb
  subst hb
  rfl

/-- **C52** After the client's contexts were changed, output is only pending for contexts which
are active, or to which an active context falls through. -/
theorem C52_cancelled_by_context_switch (c : Cfg) (s : S) (l : List Nat) (o : OnRelease)
    (ho : o ∈ (setActiveClientContexts c s l).1.onRelease) :
    ∃ i ∈ (setActiveClientContexts c s l).1.active, o.ctx = (i : Int) ∨
      ∃ j, FallsTo c.contexts i j ∧ o.ctx = (j : Int) := by
  unfold setActiveClientContexts at ho ⊢
  simp only [cancelInactiveOnRelease] at ho ⊢
  have h := (List.mem_filter.1 ho).2
  unfold isContextActive at h
  rw [List.any_eq_true] at h
  obtain ⟨i, hi, h⟩ := h
  refine ⟨i, hi, ?_⟩
  simp only [Bool.or_eq_true, beq_iff_eq] at h
  rcases h with h | h
  · exact Or.inl h.symm
  · split at h
    · next j hj => exact Or.inr ⟨j, (fallthroughContext_iff _ _ _).1 hj, (by simpa using h : (j : Int) = o.ctx).symm⟩
    · simp at h

/-! ### Concrete cases -/

private def d (k : Key) : KeyEvent := ⟨k, .Down, 0⟩
private def u (k : Key) : KeyEvent := ⟨k, .Up, 0⟩
private def tilde (k : Key) : KeyEvent := ⟨k, .UpAsync, 0⟩
private def caret : KeyEvent := ⟨Key.none, .OutputOnRelease, 0⟩

/-- `A >> X ^ Y` in the only context -/
private def sample : List Context :=
  [{ inputs := [⟨[d Key.KeyA, tilde Key.KeyA], 0⟩], outputs := [[d Key.KeyX, u Key.KeyX, caret, d Key.KeyY]] }]

private def pressed : Cfg × S := (stageRun (stageInit sample) [.contexts [0], .input (d Key.KeyA) 0]).1

-- the hypotheses of the theorems about press and release
example : PlainMarker [d Key.KeyX, u Key.KeyX, caret, d Key.KeyY] ∧
    onPress [d Key.KeyX, u Key.KeyX, caret, d Key.KeyY] = [d Key.KeyX, u Key.KeyX] ∧
    pendingFor pressed.2 Key.KeyA = [⟨Key.KeyA, [d Key.KeyY], 0⟩] ∧ validInput (u Key.KeyA) = true := by
  refine ⟨?_, by decide +kernel, by decide +kernel, by decide +kernel⟩
  intro e he
  simp only [List.mem_cons, List.not_mem_nil, or_false] at he
  rcases he with h | h | h | h <;> subst h <;> decide

-- press, repeat, release
example : (stageRun (stageInit sample) [.contexts [0], .input (d Key.KeyA) 0]).2 = [d Key.KeyX, u Key.KeyX] ∧
    (update pressed.1 pressed.2 (d Key.KeyA) 0).2 = [] ∧
    (update pressed.1 pressed.2 (u Key.KeyA) 0).2 = [d Key.KeyY, u Key.KeyY] := by
  decide +kernel

-- cancelled by leaving the context
example : (stageRun (stageInit sample) [.contexts [0], .input (d Key.KeyA) 0, .contexts [],
    .input (u Key.KeyA) 0]).2 = [d Key.KeyX, u Key.KeyX] := by
  decide +kernel

end KM
