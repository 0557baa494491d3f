import Verif.Model.Stage
/-!
# Every input event is processed in finitely many steps (C01)
-/
namespace KM

/-- Running the main loop of `apply_input` (`Stage.cpp:554-655`) literally: `Rounds s n s'` when
the body is executed exactly `n` times and leaves the state `s'`. There is no `Rounds` for a
loop which does not end. -/
inductive Rounds (c : Cfg) (ev : KeyEvent) (dev : Int) (isKeyUp : Bool) : S → Nat → S → Prop where
  /-- the loop condition does not hold -/
  | finished (s : S) : hasNonOptional s.seq = false → Rounds c ev dev isKeyUp s 0 s
  /-- the body left the loop -/
  | left (s s' : S) : hasNonOptional s.seq = true → round c ev dev isKeyUp s = (s', false) →
      Rounds c ev dev isKeyUp s 1 s'
  /-- the body was executed, the loop continues -/
  | next (s s' s'' : S) (n : Nat) : hasNonOptional s.seq = true → round c ev dev isKeyUp s = (s', true) →
      Rounds c ev dev isKeyUp s' n s'' → Rounds c ev dev isKeyUp s (n + 1) s''

theorem Rounds.deterministic {c ev dev u s n m a b} (h1 : Rounds c ev dev u s n a)
    (h2 : Rounds c ev dev u s m b) : n = m ∧ a = b := by
  induction h1 generalizing m b with
  | finished s h => cases h2 <;> simp_all
  | left s s' h hr => cases h2 <;> simp_all
  | next s s' s'' n h hr hn ih =>
    cases h2 with
    | finished => simp_all
    | left => simp_all
    | next s2 =>
      rename_i m' h' hr' hn'
      rw [hr] at hr'
      simp only [Prod.mk.injEq, and_true] at hr'
      subst hr'
      obtain ⟨h1, h2⟩ := ih hn'
      exact ⟨by omega, h2⟩

theorem mainLoop_rounds (c ev dev u) (s : S) :
    ∃ n, n ≤ seqMeasure s.seq ∧ Rounds c ev dev u s n (mainLoop c ev dev u s) := by
  fun_induction mainLoop c ev dev u s with
  | case1 s hs hc ih =>
    obtain ⟨n, hn, hr⟩ := ih
    have := round_measure c ev dev u s hs hc
    exact ⟨n + 1, by omega, .next s _ _ n hs (by rw [← hc]) hr⟩
  | case2 s hs hc =>
    refine ⟨1, ?_, .left s _ hs ?_⟩
    · simp only [hasNonOptional, List.any_eq_true] at hs
      obtain ⟨x, hx, _⟩ := hs
      have := List.length_pos_of_mem hx
      unfold seqMeasure
      omega
    · simp only [Bool.not_eq_true] at hc
      rw [← hc]
  | case3 s hs => exact ⟨0, by omega, .finished s (by simpa using hs)⟩

/-- **C01** In whatever state and for whatever configuration, event and device the loop is entered,
it ends after at most twice as many rounds as there are pending events (and the number of rounds is
unique, see `Rounds.deterministic`). -/
theorem C01_loop_terminates (c : Cfg) (ev : KeyEvent) (dev : Int) (isKeyUp : Bool) (s : S) :
    ∃ n s', n ≤ 2 * s.seq.length ∧ Rounds c ev dev isKeyUp s n s' := by
  obtain ⟨n, hn, hr⟩ := mainLoop_rounds c ev dev isKeyUp s
  refine ⟨n, _, ?_, hr⟩
  have := List.countP_le_length (p := isNonOptional) (l := s.seq)
  unfold seqMeasure at hn
  omega

/-- **C01** and what `apply_input` continues with is the state in which the loop ends. -/
theorem C01_loop_result (c : Cfg) (ev : KeyEvent) (dev : Int) (isKeyUp : Bool) (s s' : S) (n : Nat)
    (h : Rounds c ev dev isKeyUp s n s') : mainLoop c ev dev isKeyUp s = s' := by
  obtain ⟨m, _, hr⟩ := mainLoop_rounds c ev dev isKeyUp s
  exact (hr.deterministic h).2

/-- Running the loop of the matcher (`MatchKeySequence.cpp:71-217`) literally. -/
inductive MRounds : MState → Nat → MOut → Prop where
  | returned (m r) : mStep m = .inr r → MRounds m 1 r
  | next (m m' n r) : mStep m = .inl m' → MRounds m' n r → MRounds m (n + 1) r

/-- **C01** Matching an expression with a sequence takes at most as many iterations as the two have
events, plus one. -/
theorem C01_matcher_terminates (expression sequence : KeySequence) :
    ∃ n r, n ≤ expression.length + sequence.length + 1 ∧ MRounds (mInit expression sequence) n r ∧
      mLoop (mInit expression sequence) = r := by
  have : ∀ m : MState, ∃ n, n ≤ m.size + 1 ∧ MRounds m n (mLoop m) := by
    intro m
    fun_induction mLoop m with
    | case1 m m' h ih =>
      obtain ⟨n, hn, hr⟩ := ih
      have := mStep_size h
      exact ⟨n + 1, by omega, .next m m' n _ h hr⟩
    | case2 m r h => exact ⟨1, by omega, .returned m r h⟩
  obtain ⟨n, hn, hr⟩ := this (mInit expression sequence)
  exact ⟨n, _, hn, hr, rfl⟩

/-! ### Concrete cases -/

/-- `A B >> X`, `A B C >> Y`: with the sequence `+A +B +D` two rounds hold back nothing more -/
private def sample : Cfg := Cfg.make
  [{ inputs := [⟨[⟨Key.KeyA, .Down, 0⟩, ⟨Key.KeyA, .UpAsync, 0⟩, ⟨Key.KeyB, .Down, 0⟩, ⟨Key.KeyB, .UpAsync, 0⟩,
       ⟨Key.KeyC, .Down, 0⟩, ⟨Key.KeyC, .UpAsync, 0⟩], 0⟩,
       ⟨[⟨Key.KeyA, .Down, 0⟩, ⟨Key.KeyA, .UpAsync, 0⟩, ⟨Key.KeyB, .Down, 0⟩, ⟨Key.KeyB, .UpAsync, 0⟩], 1⟩]
     outputs := [[⟨Key.KeyX, .Down, 0⟩], [⟨Key.KeyY, .Down, 0⟩]] }]

private def sampleState : S :=
  { active := [0]
    activeClient := [0]
    might := true
    seq := [⟨Key.KeyA, .Down, 0⟩, ⟨Key.KeyB, .Down, 0⟩, ⟨Key.KeyD, .Down, 0⟩] }

private def round1 : S × Bool := round sample ⟨Key.KeyD, .Down, 0⟩ 0 false sampleState
private def round2 : S × Bool := round sample ⟨Key.KeyD, .Down, 0⟩ 0 false round1.1

-- the loop takes two rounds here, and outputs `Y` for the beginning and forwards `D`
example : round1.2 = true ∧ hasNonOptional round1.1.seq = true ∧ round2.2 = true ∧
    hasNonOptional round2.1.seq = false ∧
    round2.1.buf = [⟨Key.KeyY, .Down, 0⟩, ⟨Key.KeyD, .Down, 0⟩] := by
  decide +kernel

end KM
