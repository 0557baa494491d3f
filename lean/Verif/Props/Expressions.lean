import Verif.Lemmas.KeyRange
import Verif.Lemmas.ParseInputFinal
import Verif.Lemmas.ParseOutput
import Verif.Spec.StageRun
/-!
# What the parser of expressions produces (C32, C33, C34)

The theorems range over all texts, all assignments of names to keys and all string typers.
-/
namespace KM

/-- the parser of output expressions, with the names of keys and the generic typer -/
private def outEnv : PEnv := ⟨false, getKeyByName, genericTyper, true, 0⟩
/-- the parser of input expressions, with the names of keys and the generic typer -/
private def inEnv : PEnv := ⟨true, getKeyByName, genericTyper, false, 0⟩

/-- the names in the examples (which takes less time than sorting all names for each lookup) -/
private def exNames (n : Str) : Key :=
  match n with
  | ['A'] => Key.KeyA
  | ['B'] => Key.KeyB
  | ['C'] => Key.KeyC
  | ['D'] => Key.KeyD
  | ['C', 'o', 'n', 't', 'e', 'x', 't', 'A', 'c', 't', 'i', 'v', 'e'] => Key.ContextActive
  | _ => Key.none
private def exOut : PEnv := ⟨false, exNames, genericTyper, true, 0⟩
private def exIn : PEnv := ⟨true, exNames, genericTyper, false, 0⟩

/-! ## C32 -/

/-- **C32** A parsed output expression only consists of presses, releases, temporary releases and
the marker `^`. -/
theorem C32_output_alphabet (env : PEnv) (henv : env.isInput = false) (str : Str) (l : KeySequence)
    (acts : List Str) (h : parseSequence env str = some (l, acts)) : ∀ e ∈ l, OutputEvent e := by
  obtain ⟨p, hp, -, -, -, -, h⟩ := parseOutput_final henv h
  have ha := hp.alpha.1
  rcases h with rfl | ⟨-, -, rfl⟩
  · exact ha
  · intro e he
    exact ha e ((allPressed_prefix _ _).subset he)

/-- **C32** The marker `^` occurs at most once. -/
theorem C32_marker_once (env : PEnv) (henv : env.isInput = false) (str : Str) (l : KeySequence)
    (acts : List Str) (h : parseSequence env str = some (l, acts)) :
    l.countP (fun e => e.state == .OutputOnRelease) ≤ 1 := by
  obtain ⟨p, hp, -, -, -, -, h⟩ := parseOutput_final henv h
  have ha := hp.alpha.2
  rcases h with rfl | ⟨-, -, rfl⟩
  · rw [ha]; split <;> omega
  · have := (allPressed_prefix (p.release false 0).seq .Up).sublist.countP_le
      (p := fun e : KeyEvent => e.state == .OutputOnRelease)
    rw [ha] at this
    split at this <;> omega

-- everything which can occur, does
example : (parseSequence exOut "A{B} !C 5ms ^ D $(x)".toList).map (·.1) = some
    [⟨Key.KeyA, .Down, 0⟩, ⟨Key.KeyB, .Down, 0⟩, ⟨Key.KeyB, .Up, 0⟩, ⟨Key.KeyA, .Up, 0⟩, ⟨Key.KeyC, .Not, 0⟩,
     ⟨Key.timeout, .Down, 5⟩, onReleaseMarker, ⟨Key.KeyD, .Down, 0⟩, ⟨Key.KeyD, .Up, 0⟩,
     ⟨Key.first_action, .Down, 0⟩] := by decide +kernel

/-! ## C33 -/

/-- **C33** In no prefix of a parsed output expression a key is released more often than it was
pressed. -/
theorem C33_output_balanced (env : PEnv) (henv : env.isInput = false) (str : Str) (l : KeySequence)
    (acts : List Str) (h : parseSequence env str = some (l, acts)) : Balanced l := by
  obtain ⟨p, hp, -, -, -, -, h⟩ := parseOutput_final henv h
  have hb := (hp.balanced.release 0).1
  rcases h with rfl | ⟨-, -, rfl⟩
  · exact hb
  · exact hb.prefix (allPressed_prefix _ _)

/-- **C33** Each press of a key in a parsed output expression is followed by its release, unless the
expression is a chord: then its keys are only released together with the trigger, and after the
first release there is no press. -/
theorem C33_presses_released (env : PEnv) (henv : env.isInput = false) (str : Str) (l : KeySequence)
    (acts : List Str) (h : parseSequence env str = some (l, acts)) :
    ∃ ups : KeySequence, (∀ u ∈ ups, u.state = .Up) ∧
      Released (DelayOrCommand env.actionBase acts.length) [] (l ++ ups) ∧
      (ups ≠ [] → Chord (l ++ ups)) := by
  obtain ⟨p, hp, -, -, rfl, -, h⟩ := parseOutput_final henv h
  have hr := hp.released
  rcases h with rfl | ⟨-, hc, rfl⟩
  · exact ⟨[], by simp, by simpa using hr, by simp⟩
  · obtain ⟨r, h1, h2⟩ := removeAllFromEnd_append (p.release false 0).seq .Up
    refine ⟨r, h1, ?_, fun _ => ?_⟩
    · rw [h2]; exact hr
    · rw [h2]; exact chord_of_allPressed hc

-- keys pressed together stay pressed, modified ones do not
example : (parseSequence exOut "A B".toList).map (·.1) = some
    [⟨Key.KeyA, .Down, 0⟩, ⟨Key.KeyA, .Up, 0⟩, ⟨Key.KeyB, .Down, 0⟩, ⟨Key.KeyB, .Up, 0⟩] := by decide +kernel
example : (parseSequence exOut "(A B)".toList).map (·.1) = some
    [⟨Key.KeyA, .Down, 0⟩, ⟨Key.KeyB, .Down, 0⟩] := by decide +kernel
example : (parseSequence exOut "A{B}".toList).map (·.1) = some
    [⟨Key.KeyA, .Down, 0⟩, ⟨Key.KeyB, .Down, 0⟩, ⟨Key.KeyB, .Up, 0⟩, ⟨Key.KeyA, .Up, 0⟩] := by decide +kernel

/-- **C33** The stronger claim, that a key is not pressed again before it is released, and that
there are as many presses as releases, is false: the inner group of `A{A}` already releases `A`. -/
theorem C33_twice_counterexample :
    (parseSequence outEnv "A{A}".toList).map (·.1) = some
      [⟨Key.KeyA, .Down, 0⟩, ⟨Key.KeyA, .Down, 0⟩, ⟨Key.KeyA, .Up, 0⟩] := by
  decide +kernel

/-! ### Connection with C03 -/

private theorem releasesOwn_go (q : Key) (rest : KeySequence) : ∀ (pre cur : KeySequence) (seen : List Key),
    Balanced (pre ++ cur ++ rest) →
    (∀ k v, k = q ∨ k = Key.any → (⟨k, .Up, v⟩ : KeyEvent) ∈ cur ++ rest → pressCount k pre ≤ releaseCount k pre) →
    (∀ a m b k v, k = q ∨ k = Key.any → rest = a ++ m :: b → m.state = .OutputOnRelease → (⟨k, .Up, v⟩ : KeyEvent) ∈ b →
      pressCount k (pre ++ cur ++ a) ≤ releaseCount k (pre ++ cur ++ a)) →
    (∀ e ∈ cur, e.state = .Down → e.key ∈ seen) →
    releasesOwn q seen rest = true := by
  induction rest with
  | nil => intros; rfl
  | cons e rest ih =>
    intro pre cur seen hb hpre hover hseen
    have hshift : pre ++ cur ++ e :: rest = pre ++ (cur ++ [e]) ++ rest := by simp
    have hnext : ∀ seen', (∀ d ∈ cur ++ [e], d.state = .Down → d.key ∈ seen') →
        releasesOwn q seen' rest = true := by
      intro seen' hs
      refine ih pre (cur ++ [e]) seen' (hshift ▸ hb) ?_ ?_ hs
      · intro k v hq hm
        exact hpre k v hq (by simpa using hm)
      · intro a m b k v hq h1 h2 h3
        have := hover (e :: a) m b k v hq (by simp [h1]) h2 h3
        simpa using this
    have hold : e.state ≠ .Down → ∀ d ∈ cur ++ [e], d.state = .Down → d.key ∈ seen := by
      intro hne d hd hdd
      rcases List.mem_append.1 hd with hd | hd
      · exact hseen d hd hdd
      · rw [List.mem_singleton.1 hd] at hdd
        exact absurd hdd hne
    obtain ⟨k, st, v⟩ := e
    unfold releasesOwn
    cases st
    case OutputOnRelease =>
      refine ih (pre ++ cur ++ [⟨k, .OutputOnRelease, v⟩]) [] [] (by simpa using hb) ?_ ?_ (by simp)
      · intro j w hq hm
        have := hover [] ⟨k, .OutputOnRelease, v⟩ rest j w hq rfl rfl (by simpa using hm)
        simpa [pressCount, releaseCount, List.countP_append] using this
      · intro a m b j w hq h1 h2 h3
        have := hover (⟨k, .OutputOnRelease, v⟩ :: a) m b j w hq (by simp [h1]) h2 h3
        simpa using this
    case Down =>
      refine hnext (k :: seen) ?_
      intro d hd hdd
      rcases List.mem_append.1 hd with hd | hd
      · exact List.mem_cons_of_mem _ (hseen d hd hdd)
      · rw [List.mem_singleton.1 hd]; exact List.mem_cons_self
    case Up =>
      simp only [Bool.and_eq_true, Bool.or_eq_true]
      refine ⟨?_, hnext seen (hold (by simp))⟩
      by_cases hq : k = q ∨ k = Key.any
      case neg => exact .inl ⟨bne_iff_ne.2 (fun h => hq (.inl h)), bne_iff_ne.2 (fun h => hq (.inr h))⟩
      refine .inr ?_
      have h1 := hb (pre ++ cur ++ [⟨k, .Up, v⟩]) ⟨rest, by simp⟩ k
      have h2 := hpre k v hq (by simp)
      simp only [releaseCount, pressCount, List.countP_append, List.countP_singleton] at h1 h2
      simp only [beq_self_eq_true, Bool.and_self, if_true] at h1
      have hpos : 0 < List.countP (fun e : KeyEvent => e.state == .Down && e.key == k) cur := by
        simp at h1; omega
      obtain ⟨d, hd, hdd⟩ := List.countP_pos_iff.1 hpos
      simp only [Bool.and_eq_true, beq_iff_eq] at hdd
      rw [List.contains_iff_mem, ← hdd.2]
      exact hseen d hd hdd.1
    all_goals exact hnext seen (hold (by simp))

/-- **C33**, **C03** An output which is balanced and does not hold a key over `^` releases it in each piece
only when it was pressed in it, as required by `C03_no_stuck_key`. -/
theorem C33_releases_own (k : Key) (l : KeySequence) (hb : Balanced l) (hh : ¬HeldOver k l) (ha : ¬HeldOver Key.any l) :
    releasesOwn k [] l = true := by
  refine releasesOwn_go k l [] [] [] hb (by simp [pressCount]) ?_ (by simp)
  intro a m b j v hj h1 h2 h3
  refine Nat.le_of_not_lt (fun hlt => ?_)
  rcases hj with rfl | rfl
  · exact hh ⟨a, m, b, v, h1, h2, by simpa using hlt, h3⟩
  · exact ha ⟨a, m, b, v, h1, h2, by simpa using hlt, h3⟩

-- the hypotheses hold for `A ^ B`
example : ∃ l acts, parseSequence exOut "A B ^ A".toList = some (l, acts) ∧ Balanced l ∧ (∀ k, ¬HeldOver k l) ∧
    onReleaseMarker ∈ l ∧ (∃ e ∈ l, e.state = .Up) := by
  have h : parseSequence exOut "A B ^ A".toList = some
      ([⟨Key.KeyA, .Down, 0⟩, ⟨Key.KeyA, .Up, 0⟩, ⟨Key.KeyB, .Down, 0⟩, ⟨Key.KeyB, .Up, 0⟩, onReleaseMarker,
        ⟨Key.KeyA, .Down, 0⟩, ⟨Key.KeyA, .Up, 0⟩], []) := by decide +kernel
  refine ⟨_, _, h, C33_output_balanced exOut rfl _ _ _ h, ?_, by decide, by decide⟩
  rintro k ⟨a, m, b, v, h1, h2, h3, -⟩
  have : a = [⟨Key.KeyA, .Down, 0⟩, ⟨Key.KeyA, .Up, 0⟩, ⟨Key.KeyB, .Down, 0⟩, ⟨Key.KeyB, .Up, 0⟩] := by
    match a, h1 with
    | [], h1 => simp at h1; rw [← h1.1] at h2; cases h2
    | [x], h1 => simp at h1; rw [← h1.2.1] at h2; cases h2
    | [x, y], h1 => simp at h1; rw [← h1.2.2.1] at h2; cases h2
    | [x, y, z], h1 => simp at h1; rw [← h1.2.2.2.1] at h2; cases h2
    | [x, y, z, w], h1 => simp at h1; simp [h1]
    | [x, y, z, w, _], h1 => simp at h1; rw [← h1.2.2.2.2.2.1] at h2; cases h2
    | [x, y, z, w, _, _], h1 => simp at h1; rw [← h1.2.2.2.2.2.2.1] at h2; cases h2
    | _ :: _ :: _ :: _ :: _ :: _ :: _ :: t, h1 => simp at h1
  subst this
  simp only [releaseCount, pressCount] at h3
  by_cases hA : Key.KeyA = k
  · subst hA; revert h3; decide
  · by_cases hB : Key.KeyB = k
    · subst hB; revert h3; decide
    · simp [hA, hB] at h3

/-! ## C34 -/

/-- **C34** A parsed input expression presses a key (with the exception of `? ContextActive`, see
below), only contains the kinds of events the matcher knows, the flag `?` at most at its begin,
releases only what was pressed before, and only allows to press early what has to be pressed later. -/
theorem C34_input_well_formed (env : PEnv) (henv : env.isInput = true) (hnames : NamesNoTimeout env)
    (str : Str) (l : KeySequence) (acts : List Str) (h : parseSequence env str = some (l, acts)) :
    ((∃ e ∈ l, IsKeyPress e) ∨ l = [noMightMatchFlag]) ∧
    (∀ e ∈ l, InputEvent e) ∧
    (∀ e ∈ l.tail, e.state ≠ .NoMightMatch) ∧
    ReleasesPreceded l ∧ AsyncPressed [] l ∧ TimeoutsPreceded l := by
  have := parseInput_wellFormed henv hnames h
  exact ⟨this.press, this.events, this.flag, this.releases, this.async, this.timeouts⟩

/-- **C34** Each key which has to be pressed also has to be released, possibly later, unless the
expression begins with `?` or is `ContextActive`. -/
theorem C34_presses_released (env : PEnv) (henv : env.isInput = true) (hnames : NamesNoTimeout env)
    (str : Str) (l : KeySequence) (acts : List Str) (h : parseSequence env str = some (l, acts))
    (hf : noMightMatchFlag ∉ l) (hc : ∀ e ∈ l, e.key ≠ Key.ContextActive) : PressesReleased [] l := by
  refine parseInput_released henv hnames h (fun e he hs => ?_) hc
  have := (parseInput_wellFormed henv hnames h).events e he
  rcases this with ⟨-, -, h⟩ | ⟨-, h⟩ | rfl
  · rw [hs] at h; exact absurd h (by decide)
  · rw [hs] at h; exact absurd h (by decide)
  · exact hf he

/-- **C34** `ContextActive` can only be used alone. -/
theorem C34_context_active_alone (env : PEnv) (henv : env.isInput = true) (hnames : NamesNoTimeout env)
    (str : Str) (l : KeySequence) (acts : List Str) (h : parseSequence env str = some (l, acts))
    (hc : ∃ e ∈ l, e.key = Key.ContextActive) : l = [⟨Key.ContextActive, .Down, 0⟩] :=
  (parseInput_wellFormed henv hnames h).contextActive hc

/-- **C34** The hypothesis on the names holds for the names of keys and the generic typer. -/
theorem C34_names (input add : Bool) (base : Nat) :
    NamesNoTimeout ⟨input, getKeyByName, genericTyper, add, base⟩ :=
  namesNoTimeout_generic input add base

-- everything which can occur, does
example : (parseSequence exIn "? (A B) !C !A".toList).map (·.1) = some
    [noMightMatchFlag, ⟨Key.KeyA, .DownAsync, 0⟩, ⟨Key.KeyB, .DownAsync, 0⟩, ⟨Key.KeyA, .Down, 0⟩,
     ⟨Key.KeyB, .Down, 0⟩, ⟨Key.KeyA, .UpAsync, 0⟩, ⟨Key.KeyB, .UpAsync, 0⟩, ⟨Key.KeyC, .Not, 0⟩,
     ⟨Key.KeyA, .Up, 0⟩] := by decide +kernel
example : (parseSequence exIn "A 500ms !A".toList).map (·.1) = some
    [⟨Key.KeyA, .Down, 0⟩, ⟨Key.KeyA, .UpAsync, 0⟩, ⟨Key.timeout, .Down, 500⟩, ⟨Key.KeyA, .Up, 0⟩] := by
  decide +kernel
example : (parseSequence exIn "ContextActive".toList).map (·.1) = some [⟨Key.ContextActive, .Down, 0⟩] := by
  decide +kernel

/-! ### What is not the case -/

/-- **C34** `? ContextActive` is accepted, and the result only consists of the flag `?` -/
theorem C34_flag_alone : (parseSequence inEnv "? ContextActive".toList).map (·.1) = some [noMightMatchFlag] := by
  decide +kernel

/-- **C34** Then an assertion fails when the first key is released: the matcher is called with an
empty expression. -/
theorem C34_flag_alone_counterexample :
    (stageRun (stageInit [{ inputs := [⟨[noMightMatchFlag], 0⟩], outputs := [[⟨Key.KeyX, .Down, 0⟩]] }])
      [.contexts [0], .input ⟨Key.KeyA, .Down, 0⟩ 0, .input ⟨Key.KeyA, .Up, 0⟩ 0]).1.2.ub = true := by
  decide +kernel

/-- **C34** A release which can never be matched: `A` has to be released after `B`, but must not be
held before. -/
theorem C34_release_without_press : (parseSequence inEnv "!A B !A".toList).map (·.1) = some
    [⟨Key.KeyA, .Not, 0⟩, ⟨Key.KeyB, .Down, 0⟩, ⟨Key.KeyB, .UpAsync, 0⟩, ⟨Key.KeyA, .Up, 0⟩] := by
  decide +kernel

/-- **C34** Within a group, the modifier of a typed character is only released, so it is not required
to be pressed. -/
theorem C34_typed_in_group : (parseSequence inEnv "X{\"B\"}".toList).map (·.1) = some
    [⟨Key.KeyX, .Down, 0⟩, ⟨Key.KeyB, .Down, 0⟩, ⟨Key.KeyB, .UpAsync, 0⟩, ⟨Key.Shift, .UpAsync, 0⟩,
     ⟨Key.KeyX, .UpAsync, 0⟩] := by
  decide +kernel

end KM
