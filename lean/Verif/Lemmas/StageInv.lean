import Verif.Model.Stage
/-!
# Invariants of a stage

A predicate on the state which is preserved by the few functions writing the held output keys and
the output buffer is preserved by `applyInput` and `setActiveClientContexts`.
-/
namespace KM

/-- an output sequence of the configuration -/
def Cfg.HasOutput (c : Cfg) (out : KeySequence) : Prop :=
  ∃ ctx ∈ c.contexts, out ∈ ctx.outputs ∨ ∃ o ∈ ctx.commandOutputs, o.output = out

theorem searchCommand_mem {cs : List CommandOutput} {idx : Int} {pos : Nat} {out : KeySequence}
    (h : searchCommand cs idx = some (pos, out)) : ∃ o ∈ cs, o.output = out := by
  unfold searchCommand at h
  simp only [] at h
  split at h
  · next a ha =>
    split at h
    · simp only [Option.some.injEq, Prod.mk.injEq] at h
      refine ⟨a, ?_, h.2⟩
      have := List.mem_of_getElem? ha
      simpa using this
    · simp at h
  · simp at h

theorem findCommandOutput_hasOutput {c : Cfg} {idx : Int} {l : List Nat} {ref out u}
    (h : findCommandOutput c.contexts idx l = (some (ref, out), u)) : c.HasOutput out := by
  induction l with
  | nil => simp [findCommandOutput] at h
  | cons i is ih =>
    unfold findCommandOutput at h
    split at h
    · simp at h
    · split at h
      · simp at h
      · next ctx hctx =>
        split at h
        · next pos out' hs =>
          simp only [Prod.mk.injEq, Option.some.injEq] at h
          obtain ⟨⟨_, rfl⟩, _⟩ := h
          exact ⟨ctx, List.mem_of_getElem? hctx, Or.inr (searchCommand_mem hs)⟩
        · exact ih h

theorem findOutput_hasOutput {c : Cfg} {active i ctx idx ref out u} (hc : ctx ∈ c.contexts)
    (h : findOutput c.contexts active i ctx idx = (some (ref, out), u)) : c.HasOutput out := by
  unfold findOutput at h
  split at h
  · split at h
    · next o ho =>
      simp only [Prod.mk.injEq, Option.some.injEq] at h
      obtain ⟨⟨_, rfl⟩, _⟩ := h
      exact ⟨ctx, hc, Or.inl (List.mem_of_getElem? ho)⟩
    · simp at h
  · exact findCommandOutput_hasOutput h

/-- The closure conditions of an invariant `Q`; `G` holds for all output sequences. -/
structure StageInv (c : Cfg) (G : KeySequence → Prop) (Q : S → Prop) : Prop where
  outputs : ∀ out, c.HasOutput out → G out
  frame : ∀ s s' : S, s'.down = s.down → s'.buf = s.buf →
    (∀ o ∈ s'.onRelease, o ∈ s.onRelease) → Q s → Q s'
  pending : ∀ s, Q s → ∀ o ∈ s.onRelease, G o.sequence
  apply : ∀ s out trig ctx, G out → Q s → Q (applyOutput s out trig ctx)
  forward : ∀ (s : S) (e : KeyEvent), (e.state = .Down ∨ e.state = .DownMatched) → Q s →
    Q (updateOutput s e (.key e.key) (-1))
  release : ∀ (s : S) k ctx, Q s → Q (releaseTriggered s k ctx)
  timeout : ∀ (s : S) (t : KeyEvent), t.key = Key.timeout → Q s → Q { s with buf := s.buf ++ [t] }
  reset : ∀ (s : S), Q s → Q { s with down := s.down.map (fun o => { o with suppressed := false }) }

/-! ### the timeout requested by the matcher -/

theorem MState.advE_timeout {m : MState} {r} (h : m.advE = .inr r) : r.timeout = none := by
  unfold MState.advE at h; split at h <;> simp at h; subst h; rfl

theorem MState.advS_timeout {m : MState} {r} (h : m.advS = .inr r) : r.timeout = none := by
  unfold MState.advS at h; split at h <;> simp at h; subst h; rfl

theorem MState.advSE_timeout {m : MState} {r} (h : m.advSE = .inr r) : r.timeout = none := by
  unfold MState.advSE at h; split at h
  · exact advE_timeout h
  · next h1 => simp at h; subst h; exact advS_timeout h1

theorem mStepElse_timeout {m : MState} {se ee r} (h : mStepElse m se ee = .inr r) :
    r.timeout = none := by
  unfold mStepElse at h
  repeat' split at h
  all_goals first
    | exact MState.advS_timeout h
    | exact MState.advE_timeout h
    | (simp at h; subst h; rfl)

theorem mStep_timeout {m : MState} {r t} (h : mStep m = .inr r) (ht : r.timeout = some t) :
    t.key = Key.timeout := by
  unfold mStep mStepMain at h
  split at h
  · simp at h; subst h; simp at ht
  · repeat' split at h
    all_goals first
      | (have := MState.advS_timeout h; simp [this] at ht; done)
      | (have := MState.advE_timeout h; simp [this] at ht; done)
      | (have := MState.advSE_timeout h; simp [this] at ht; done)
      | (have := mStepElse_timeout h; simp [this] at ht; done)
      | (simp at h; subst h; simp at ht; done)
      | skip
    next hk =>
      simp at h; subst h; simp at ht; subst ht
      simp at hk; exact hk.1

theorem mLoop_timeout {m : MState} {t} (ht : (mLoop m).timeout = some t) : t.key = Key.timeout := by
  fun_induction mLoop m with
  | case1 m m' h ih => exact ih ht
  | case2 m r h => exact mStep_timeout h ht

theorem matchSeq_timeout {e s t} (ht : (matchSeq e s).timeout = some t) : t.key = Key.timeout := by
  unfold matchSeq at ht
  split at ht
  · simp at ht
  · exact mLoop_timeout ht

/-! ### the result of `match_input` is an output of the configuration -/

theorem candidates_mem {cs : List Context} {active dev} {x : Nat × Context × Input}
    (h : x ∈ candidates cs active dev) :
    x.1 ∈ active ∧ cs[x.1]? = some x.2.1 ∧ deviceMatchesFilter x.2.1 dev = true ∧
      x.2.2 ∈ x.2.1.inputs := by
  unfold candidates at h
  simp only [List.mem_flatMap] at h
  obtain ⟨i, hi, h⟩ := h
  split at h
  · simp at h
  · next ctx hctx =>
    split at h
    · next hd =>
      simp only [List.mem_map] at h
      obtain ⟨inp, hinp, rfl⟩ := h
      exact ⟨hi, hctx, hd, hinp⟩
    · simp at h

theorem matchGo_hasOutput {c : Cfg} {first sequence dev u} {l : List (Nat × Context × Input)} {s s' : S}
    {ref out trig ctx} (hl : ∀ x ∈ l, x.2.1 ∈ c.contexts)
    (h : matchGo c first sequence dev u l s = (s', .matched ref out trig ctx)) : c.HasOutput out := by
  induction l generalizing s with
  | nil => simp [matchGo] at h
  | cons x rest ih =>
    obtain ⟨ci, cx, inp⟩ := x
    have hl' : ∀ x ∈ rest, x.2.1 ∈ c.contexts := fun x hx => hl x (by simp [hx])
    unfold matchGo at h
    simp only [] at h
    split at h
    · exact ih hl' h
    · split at h
      · split at h <;> simp at h
      · split at h
        · split at h
          · next ho =>
            simp only [Prod.mk.injEq, MIR.matched.injEq] at h
            obtain ⟨_, _, rfl, _⟩ := h
            exact findOutput_hasOutput (hl (ci, cx, inp) (by simp)) ho
          · exact ih hl' h
        · exact ih hl' h

theorem matchInput_hasOutput {c : Cfg} {s s' : S} {first sequence dev u ref out trig ctx}
    (h : matchInput c s first sequence dev u = (s', .matched ref out trig ctx)) : c.HasOutput out := by
  unfold matchInput at h
  refine matchGo_hasOutput (fun x hx => ?_) h
  exact List.mem_of_getElem? (candidates_mem hx).2.1

theorem matchStart_hasOutput {c : Cfg} {dev u n} {s s' : S} {ref out trig ctx m}
    (h : matchStart c dev u n s = (s', .matched ref out trig ctx, m)) : c.HasOutput out := by
  induction n generalizing s with
  | zero => simp [matchStart] at h
  | succ n ih =>
    unfold matchStart at h
    split at h
    · simp at h
    · split at h
      · simp at h
      · split at h
        · next hm =>
          simp only [Prod.mk.injEq, MIR.matched.injEq] at h
          obtain ⟨_, ⟨_, rfl, _⟩, _⟩ := h
          exact matchInput_hasOutput hm
        · exact ih h

theorem retryStart_hasOutput {c : Cfg} {dev u} {s s' : S} {r ref out trig ctx n b}
    (hr : ∀ ref out trig ctx, r = .matched ref out trig ctx → c.HasOutput out)
    (h : retryStart c s r dev u = (s', .matched ref out trig ctx, n, b)) : c.HasOutput out := by
  unfold retryStart at h
  split at h
  · split at h
    · split at h
      · next hm =>
        simp only [Prod.mk.injEq, MIR.matched.injEq] at h
        obtain ⟨_, ⟨_, rfl, _⟩, _⟩ := h
        exact matchStart_hasOutput hm
      · next s1 r n hne hm =>
        simp only [Prod.mk.injEq] at h
        obtain ⟨_, rfl, _⟩ := h
        exact absurd rfl (hne _ _ _ _)
    · simp at h
  · simp only [Prod.mk.injEq] at h
    obtain ⟨_, rfl, _⟩ := h
    exact hr _ _ _ _ rfl

/-! ### preservation -/

section
variable {c : Cfg} {G : KeySequence → Prop} {Q : S → Prop} (I : StageInv c G Q)
include I

theorem StageInv.same {s s' : S} (h : Q s) (h1 : s'.down = s.down) (h2 : s'.buf = s.buf)
    (h3 : s'.onRelease = s.onRelease) : Q s' :=
  I.frame s s' h1 h2 (fun o ho => by rw [← h3]; exact ho) h

theorem StageInv.ub {s : S} (b : Bool) (h : Q s) : Q { s with ub := b } := I.same h rfl rfl rfl

theorem StageInv.continueOnRelease {s : S} (ev ctx) (h : Q s) : Q (continueOnRelease s ev ctx).1 := by
  unfold KM.continueOnRelease
  split
  · exact h
  · next o ho =>
    split
    · exact h
    · have h2 := I.apply s o.sequence (.ev ev) o.ctx (I.pending s h o (List.mem_of_find?_eq_some ho)) h
      exact I.frame (applyOutput s o.sequence (.ev ev) o.ctx) _ rfl rfl
        (fun o ho => List.mem_of_mem_eraseP ho) h2

theorem StageInv.onContextActiveEvent {s : S} (ev i) (h : Q s) : Q (onContextActiveEvent c s ev i) := by
  unfold KM.onContextActiveEvent
  split
  · exact I.ub _ h
  · next ctx hctx =>
    simp only []
    generalize hs1 : (if ((ctx.inputs.takeWhile (fun i => i.input.head?.map (·.key) != some Key.ContextActive)).any
      (·.input.isEmpty)) = true then { s with ub := true } else s) = s1
    have h1 : Q s1 := by
      subst hs1; split
      · exact I.ub _ h
      · exact h
    split
    · exact h1
    · split
      · split
        · exact I.ub _ h1
        · exact h1
        · next ho =>
          exact I.apply _ _ _ _ (I.outputs _ (findOutput_hasOutput (List.mem_of_getElem? hctx) ho)) h1
      · exact I.release _ _ _ (I.continueOnRelease _ _ h1)

theorem StageInv.foldContextActive {l : List Nat} {s : S} (ev) (h : Q s) :
    Q (l.foldl (fun s i => KM.onContextActiveEvent c s ev i) s) := by
  induction l generalizing s with
  | nil => exact h
  | cons a l ih => exact ih (I.onContextActiveEvent _ _ h)

theorem StageInv.updateActiveContexts {s : S} (h : Q s) : Q (updateActiveContexts c s) := by
  unfold KM.updateActiveContexts
  split
  · exact I.ub _ h
  · exact I.foldContextActive _ (I.foldContextActive _ (I.same h rfl rfl rfl))

theorem StageInv.setActiveClientContexts {s : S} (l) (h : Q s) :
    Q { (setActiveClientContexts c s l).1 with buf := (setActiveClientContexts c s l).2 } := by
  unfold KM.setActiveClientContexts
  simp only []
  generalize (decide (l.Pairwise (· ≤ ·)) && l.all (fun i => decide (i < c.contexts.length))) = ok
  generalize hs1 : (if ok = true then s else { s with ub := true }) = s1
  have h1 : Q s1 := by
    subst hs1; split
    · exact h
    · exact I.ub _ h
  have h2 : Q (KM.updateActiveContexts c { s1 with activeClient := l }) :=
    I.updateActiveContexts (I.same h1 rfl rfl rfl)
  refine I.frame (KM.updateActiveContexts c { s1 with activeClient := l }) _ ?_ ?_ ?_ h2
  · rfl
  · rfl
  · intro o ho
    simp only [cancelInactiveOnRelease, List.mem_filter] at ho
    exact ho.1

theorem StageInv.trackTimeout {s : S} {t : KeyEvent} (l u) (ht : t.key = Key.timeout) (h : Q s) :
    Q (trackTimeout s t l u) := by
  have h1 := I.timeout s t ht h
  unfold KM.trackTimeout
  simp only []
  split
  · exact h1
  · split
    · exact I.same h1 rfl rfl rfl
    · split
      · exact I.same h rfl (by simp) rfl
      · exact h1

theorem StageInv.matchGo {first sequence dev u} {l : List (Nat × Context × Input)} {s : S} (h : Q s) :
    Q (matchGo c first sequence dev u l s).1 := by
  induction l generalizing s with
  | nil => exact h
  | cons x rest ih =>
    obtain ⟨ci, cx, inp⟩ := x
    unfold KM.matchGo
    simp only []
    have h1 : ∀ (a : List Key) (b : Bool), Q { s with anyM := a, ub := b } :=
      fun a b => I.same h rfl rfl rfl
    split
    · exact ih h
    · split
      · split
        · next ht => exact I.trackTimeout _ _ (matchSeq_timeout ht) (h1 _ _)
        · exact h1 _ _
      · split
        · split
          · exact h1 _ _
          · exact ih (h1 _ _)
        · exact ih (h1 _ _)

theorem StageInv.matchInput {s : S} {first sequence dev u} (h : Q s) :
    Q (matchInput c s first sequence dev u).1 := by
  unfold KM.matchInput
  exact I.matchGo (I.ub _ h)

theorem StageInv.matchStart {dev u n} {s : S} (h : Q s) : Q (matchStart c dev u n s).1 := by
  induction n generalizing s with
  | zero => exact h
  | succ n ih =>
    unfold KM.matchStart
    split
    · exact h
    · split
      · exact h
      · have h1 := I.matchInput (first := false) (sequence := s.seq.take n) (dev := dev) (u := u) h
        split
        · next hm => rw [hm] at h1; exact h1
        · next hm => rw [hm] at h1; exact ih h1

theorem StageInv.retryStart {s : S} {r dev u} (h : Q s) : Q (retryStart c s r dev u).1 := by
  unfold KM.retryStart
  split
  · split
    · have h1 := I.matchStart (dev := dev) (u := u) (n := s.seq.length) h
      split
      · next hm => rw [hm] at h1; exact h1
      · next hm => rw [hm] at h1; exact h1
    · exact h
  · exact h

theorem StageInv.timeoutMatched {s : S} {ev r b} (h : Q s) : Q (timeoutMatched s ev r b).1 := by
  unfold KM.timeoutMatched
  repeat' split
  all_goals first
    | exact h
    | exact I.same h rfl rfl rfl

theorem StageInv.notTimeoutFailed {s : S} {r} (h : Q s) : Q (notTimeoutFailed s r) := by
  unfold KM.notTimeoutFailed
  repeat' split
  all_goals first
    | exact h
    | exact I.same h rfl rfl rfl

theorem StageInv.forwardGo {s : S} {pre l} (h : Q s) : Q (forwardGo s pre l) := by
  induction l generalizing pre with
  | nil => exact h
  | cons e rest ih =>
    unfold KM.forwardGo
    split
    · next hd =>
      simp only [Bool.or_eq_true, beq_iff_eq] at hd
      split
      · exact I.same (I.forward s e hd h) rfl rfl rfl
      · split
        · simp only []
          split
          · exact I.same (I.forward s e hd h) rfl rfl rfl
          · exact I.same h rfl rfl rfl
        · exact ih
    · exact I.same (I.release s e.key (-1) h) rfl rfl rfl

theorem StageInv.applyResult {s : S} {ev r n b} (hr : ∀ ref out trig ctx, r = .matched ref out trig ctx → G out)
    (h : Q s) : Q (applyResult s ev r n b) := by
  unfold KM.applyResult
  split
  · next ref out input ctx =>
    have h1 := I.apply s out (chooseTrigger s ev out input) ctx (hr _ _ _ _ rfl) h
    simp only []
    split
    · exact I.same h1 rfl rfl rfl
    · exact I.same h1 rfl rfl rfl
  · have h1 : Q (forwardFromSequence s) := I.forwardGo h
    simp only []
    split
    · exact I.same h1 rfl rfl rfl
    · exact h1

theorem StageInv.round {s : S} {ev dev u} (h : Q s) : Q (round c ev dev u s).1 := by
  unfold KM.round
  have h1 := I.matchInput (s := s) (first := true) (sequence := s.seq) (dev := dev) (u := u) h
  have h1' := @matchInput_hasOutput c s
  generalize hmi : KM.matchInput c s true s.seq dev u = mi at *
  obtain ⟨s1, r⟩ := mi
  simp only []
  split
  · exact I.same h1 rfl rfl rfl
  · split
    · exact I.same h1 rfl rfl rfl
    · have h2 := I.retryStart (s := s1) (r := r) (dev := dev) (u := u) h1
      have h2' := @retryStart_hasOutput c dev u s1
      generalize hrs : KM.retryStart c s1 r dev u = rs at *
      obtain ⟨s2, r2, n, b⟩ := rs
      simp only []
      have h3 := I.timeoutMatched (s := s2) (ev := ev) (r := r2) (b := b) h2
      have h3' := @timeoutMatched_matched s2 ev r2 b
      generalize KM.timeoutMatched s2 ev r2 b = tm at *
      obtain ⟨s3, r3⟩ := tm
      simp only [] at *
      apply I.applyResult
      · intro ref out trig ctx hr3
        have hr2 := h3' hr3
        subst hr2
        refine I.outputs _ (h2' ?_ hrs)
        intro ref out trig ctx hr
        subst hr
        exact h1' hmi
      · exact I.notTimeoutFailed h3

theorem StageInv.mainLoop {s : S} {ev dev u} (h : Q s) : Q (mainLoop c ev dev u s) := by
  fun_induction KM.mainLoop c ev dev u s with
  | case1 s hs hc ih => exact ih (I.round h)
  | case2 s hs hc => exact I.round h
  | case3 s hs => exact h

theorem StageInv.finishInput {s : S} {ev} (h : Q s) : Q (finishInput c s ev) := by
  unfold KM.finishInput
  simp only []
  generalize hs1 : (if (ev.state == KeyState.Up) = true then releaseTriggered s ev.key (-1) else s) = s1
  have h1 : Q s1 := by
    subst hs1; split
    · exact I.release _ _ _ h
    · exact h
  have h2 := I.updateActiveContexts h1
  generalize KM.updateActiveContexts c s1 = s2 at *
  refine I.frame s2 _ ?_ ?_ ?_ h2
  · simp only []; split <;> rfl
  · simp only []; split <;> rfl
  · simp only []; split <;> exact fun _ h => h

theorem StageInv.applyInput {s : S} {ev dev} (h : Q s) : Q (applyInput c s ev dev) := by
  unfold KM.applyInput
  simp only []
  generalize hs0 : (if validInput ev = true then s else { s with ub := true }) = s0
  have h0 : Q s0 := by
    subst hs0; split
    · exact h
    · exact I.ub _ h
  have h1 := I.continueOnRelease ev (-1) h0
  generalize KM.continueOnRelease s0 ev (-1) = r1 at *
  split
  · exact h1
  · next s1 =>
    have h2 : Q (suppressTimeout s1 ev).1 := by
      unfold suppressTimeout
      repeat' split
      all_goals first
        | exact h1
        | exact I.same h1 rfl rfl rfl
    generalize suppressTimeout s1 ev = r2 at *
    split
    · exact h2
    · next s2 =>
      have h3 : Q (mergeRepeat s2 ev dev).1 := by
        unfold mergeRepeat
        simp only []
        repeat' split
        all_goals first
          | exact h2
          | exact I.same h2 rfl rfl rfl
      generalize mergeRepeat s2 ev dev = r3 at *
      split
      · exact h3
      · next s3 =>
        apply I.finishInput
        apply I.mainLoop
        refine I.reset (beforeMatchUp _ ev) ?_
        have h4 : Q (addToHistory c { s3 with seq := s3.seq ++ [ev] } ev) := by
          unfold addToHistory
          simp only []
          repeat' split
          all_goals exact I.same h3 rfl rfl rfl
        have h5 := I.updateActiveContexts h4
        generalize KM.updateActiveContexts c (addToHistory c { s3 with seq := s3.seq ++ [ev] } ev) = s5 at *
        unfold beforeMatchUp
        simp only []
        repeat' split
        all_goals first
          | exact h5
          | exact I.same h5 rfl rfl rfl

theorem StageInv.update {s : S} {ev dev} (h : Q s) :
    Q { (update c s ev dev).1 with buf := (update c s ev dev).2 } := by
  unfold KM.update
  have h1 : Q { s with exitPos := advanceExit s.exitPos ev } := I.same h rfl rfl rfl
  exact I.same (I.applyInput (ev := ev) (dev := dev) h1) rfl rfl rfl

end

end KM
