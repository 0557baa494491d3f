import Verif.Spec.Timed
import Verif.Lemmas.HeldMatch
import Verif.Lemmas.WordStep
/-!
# Matching keys which are held or tapped
-/
namespace KM

/-- a bounded number of iterations of the matcher -/
def mLoopN : Nat → MState → Option MOut
  | 0, _ => none
  | n + 1, m =>
    match mStep m with
    | .inl m' => mLoopN n m'
    | .inr r => some r

theorem mLoop_of_N {n : Nat} {m : MState} {r : MOut} (h : mLoopN n m = some r) : mLoop m = r := by
  induction n generalizing m with
  | zero => simp [mLoopN] at h
  | succ n ih =>
    rw [mLoopN] at h
    rw [mLoop]
    split
    · next m' hm => rw [hm] at h; exact ih h
    · next r' hm => rw [hm] at h; simpa using h

theorem mLoop_of_step {m m' : MState} (h : mStep m = .inl m') : mLoop m = mLoop m' := by
  rw [mLoop]
  split
  · next m1 hm => rw [hm] at h; simp at h; rw [h]
  · next r hm => rw [hm] at h; simp at h

/-- events which were matched before, and do not concern the key -/
def Skipped (k : Key) (e : KeyEvent) : Prop := (e.state = .DownMatched ∨ e.state = .UpMatched) ∧ e.key ≠ k ∧ e.key ≠ Key.any

theorem mLoop_skip {k : Key} (hk : ProperKey k) (e' rest : KeySequence) (base : KeySequence) (hb : ∀ e ∈ base, Skipped k e) :
    mLoop (mInit (⟨k, .Down, 0⟩ :: e') (base ++ rest)) = mLoop (mInit (⟨k, .Down, 0⟩ :: e') rest) := by
  induction base with
  | nil => rfl
  | cons e base ih =>
    rw [← ih (fun e he => hb e (by simp [he]))]
    apply mLoop_of_step
    obtain ⟨hs, hne, hany⟩ := hb e (by simp)
    have h1 : (e.key == k) = false := beq_eq_false_iff_ne.2 hne
    have h2 : (e.key == Key.any) = false := beq_eq_false_iff_ne.2 hany
    have h3 : (k == Key.any) = false := beq_eq_false_iff_ne.2 hk.2.1
    have hu : unifiable e ⟨k, .Down, 0⟩ = false := by
      unfold unifiable
      have : unifiableKey e.key k = false := by
        unfold unifiableKey
        simp [h1, h2, h3]
      simp [h2, h3, this]
    unfold mStep mInit
    simp only [List.isEmpty_cons, Bool.false_and, Bool.false_eq_true, if_false, MState.se, MState.ee, List.headD_cons, List.cons_append, MState.dropNot]
    unfold mStepMain
    have e1 : (KeyState.Down == KeyState.DownAsync || KeyState.Down == KeyState.UpAsync) = false := rfl
    have e2 : (KeyState.Down == KeyState.Not) = false := rfl
    have e3 : (KeyState.Down == KeyState.NoMightMatch) = false := rfl
    have e4 : (k == Key.timeout) = false := beq_eq_false_iff_ne.2 hk.2.2
    simp only [beq_self_eq_true, if_true, List.filter_nil, List.contains_nil, Bool.and_false, Bool.false_eq_true, if_false, e1, e2, e3, e4, Bool.false_and, h3, hu]
    unfold mStepElse
    have e5 : (e.state == .DownMatched || e.state == .UpMatched) = true := by rcases hs with h | h <;> simp [h]
    simp only [Bool.false_and, Bool.false_eq_true, if_false, List.any_nil, e5, if_true]
    unfold MState.advS
    have e6 : (e.state == .Down) = false := by rcases hs with h | h <;> simp [h]
    simp [e6]

/-- evaluates the matcher on a short sequence -/
macro "eval_match" "[" ts:Lean.Parser.Tactic.simpLemma,* "]" : tactic =>
  `(tactic| simp [mLoopN, mStep, mStepMain, mStepElse, mInit, MState.se, MState.ee, MState.dropNot, MState.advE, MState.advS, MState.advSE,
    unifiable, unifiableKey, unifiableState, timeoutUnifiable, waitsFor, modFirst, asyncUpDown, KeyEvent.zero, KeyState.isNotTimeout, $ts,*])

section
variable {k : Key}

theorem foreign_input {m : TimedMapping} (hm : m.Valid) {x : Key} (hx : ProperKey x) (hne : m.key ≠ x) : Foreign (· = x) m.input := by
  obtain ⟨_, h2, _⟩ := (deviceKey_proper hm.1).1
  have ht : Key.timeout ≠ x := fun h => hx.2.2 h.symm
  have hta : Key.timeout ≠ Key.any := by decide
  intro y hy
  unfold TimedMapping.input at hy
  split at hy
  · simp only [List.mem_cons, List.not_mem_nil, or_false] at hy
    rcases hy with rfl | rfl <;> exact ⟨hne, h2⟩
  · simp only [List.mem_cons, List.not_mem_nil, or_false] at hy
    rcases hy with rfl | rfl | rfl
    · exact ⟨hne, h2⟩
    · exact ⟨ht, hta⟩
    · exact ⟨hne, h2⟩
  · simp only [List.mem_cons, List.not_mem_nil, or_false] at hy
    rcases hy with rfl | rfl | rfl | rfl
    · exact ⟨hne, h2⟩
    · exact ⟨ht, hta⟩
    · exact ⟨hne, h2⟩
    · exact ⟨hne, h2⟩

theorem timedInput_cons (m : TimedMapping) : ∃ e', m.input = ⟨m.key, .Down, 0⟩ :: e' := by
  unfold TimedMapping.input
  split
  · exact ⟨_, rfl⟩
  · exact ⟨_, rfl⟩
  · exact ⟨_, rfl⟩

/-- an event of a key which the mapping is not for -/
theorem match_other {m : TimedMapping} (hm : m.Valid) {s : KeySequence} {x : KeyEvent} (hx : ProperKey x.key) (hne : m.key ≠ x.key)
    (hst : isNonOptional x = true) (hs : x ∈ s) (hz : ∀ y ∈ s, y ≠ KeyEvent.zero) : (matchSeq m.input s).res = .no_match := by
  refine matchSeq_unrelated' (x := x) (fun y hy => by subst hy; exact hx) hst (foreign_input hm hx hne) (Or.inr hz) hs ?_
  obtain ⟨e', he⟩ := timedInput_cons m
  rw [he]; simp

theorem matchTimed_skip {m : TimedMapping} (hm : m.Valid) {base rest : KeySequence} (hb : ∀ e ∈ base, Skipped m.key e) (hr : rest ≠ []) :
    matchSeq m.input (base ++ rest) = mLoop (mInit m.input rest) := by
  obtain ⟨e', he⟩ := timedInput_cons m
  have hk := (deviceKey_proper hm.1).1
  unfold matchSeq
  rw [if_neg (by rw [he]; simp [hr]), he, mLoop_skip hk _ _ _ hb]

/-- the key was pressed -/
theorem match_pressed {m : TimedMapping} (hm : m.Valid) {base : KeySequence} (hb : ∀ e ∈ base, Skipped m.key e) :
    (matchSeq m.input (base ++ [⟨m.key, .Down, 0⟩])).res = (if m.asks.isSome then .might_match else .matched) ∧
    (matchSeq m.input (base ++ [⟨m.key, .Down, 0⟩])).timeout = m.asks := by
  rw [matchTimed_skip hm hb (by simp)]
  obtain ⟨h1, h2, h3⟩ := (deviceKey_proper hm.1).1
  have h3' : Key.timeout ≠ m.key := fun h => h3 h.symm
  have hta : Key.timeout ≠ Key.any := by decide
  have htn : Key.timeout ≠ Key.none := by decide
  obtain ⟨mk, tm, out⟩ := m
  simp only at h1 h2 h3 h3' ⊢
  unfold TimedMapping.input TimedMapping.asks
  cases tm with
  | press =>
    have := mLoop_of_N (n := 3) (m := mInit [⟨mk, .Down, 0⟩, ⟨mk, .UpAsync, 0⟩] [⟨mk, .Down, 0⟩])
      (r := { res := .matched, any := [] }) (by eval_match [h1, h2, h3, h3'])
    rw [this]; exact ⟨rfl, rfl⟩
  | hold t =>
    have := mLoop_of_N (n := 3) (m := mInit [⟨mk, .Down, 0⟩, ⟨Key.timeout, .Up, t⟩, ⟨mk, .UpAsync, 0⟩] [⟨mk, .Down, 0⟩])
      (r := { res := .might_match, any := [], timeout := some ⟨Key.timeout, .Up, t⟩ }) (by eval_match [h1, h2, h3, h3'])
    rw [this]; exact ⟨rfl, rfl⟩
  | tap t =>
    have := mLoop_of_N (n := 3) (m := mInit [⟨mk, .Down, 0⟩, ⟨Key.timeout, .NotTimeout_cancel_on_up_down, t⟩, ⟨mk, .UpAsync, 0⟩, ⟨mk, .Up, 0⟩] [⟨mk, .Down, 0⟩])
      (r := { res := .might_match, any := [], timeout := some ⟨Key.timeout, .NotTimeout_cancel_on_up_down, t⟩ }) (by eval_match [h1, h2, h3, h3'])
    rw [this]; exact ⟨rfl, rfl⟩

/-- some time passed since the key was pressed -/
theorem match_elapsed {m : TimedMapping} (hm : m.Valid) {base : KeySequence} (hb : ∀ e ∈ base, Skipped m.key e) (v : Nat) :
    (matchSeq m.input (base ++ [⟨m.key, .Down, 0⟩, ⟨Key.timeout, .Up, v⟩])).res =
      (if m.fits v then if m.isTap then .might_match else .matched else .no_match) ∧
    (matchSeq m.input (base ++ [⟨m.key, .Down, 0⟩, ⟨Key.timeout, .Up, v⟩])).timeout = none := by
  rw [matchTimed_skip hm hb (by simp)]
  obtain ⟨h1, h2, h3⟩ := (deviceKey_proper hm.1).1
  have h3' : Key.timeout ≠ m.key := fun h => h3 h.symm
  have hta : Key.timeout ≠ Key.any := by decide
  have htn : Key.timeout ≠ Key.none := by decide
  obtain ⟨mk, tm, out⟩ := m
  simp only at h1 h2 h3 h3' ⊢
  unfold TimedMapping.input TimedMapping.fits TimedMapping.isTap
  cases tm with
  | press =>
    have := mLoop_of_N (n := 4) (m := mInit [⟨mk, .Down, 0⟩, ⟨mk, .UpAsync, 0⟩] [⟨mk, .Down, 0⟩, ⟨Key.timeout, .Up, v⟩])
      (r := { res := .matched, any := [] }) (by eval_match [h1, h2, h3, h3', hta, htn])
    rw [this]; exact ⟨rfl, rfl⟩
  | hold t =>
    by_cases hv : t ≤ v
    · have := mLoop_of_N (n := 4) (m := mInit [⟨mk, .Down, 0⟩, ⟨Key.timeout, .Up, t⟩, ⟨mk, .UpAsync, 0⟩] [⟨mk, .Down, 0⟩, ⟨Key.timeout, .Up, v⟩])
        (r := { res := .matched, any := [] }) (by eval_match [h1, h2, h3, h3', hta, htn, hv])
      rw [this]; simp [hv]
    · have := mLoop_of_N (n := 4) (m := mInit [⟨mk, .Down, 0⟩, ⟨Key.timeout, .Up, t⟩, ⟨mk, .UpAsync, 0⟩] [⟨mk, .Down, 0⟩, ⟨Key.timeout, .Up, v⟩])
        (r := { res := .no_match, any := [] }) (by eval_match [h1, h2, h3, h3', hta, htn, hv])
      rw [this]; simp [hv]
  | tap t =>
    by_cases hv : v < t
    · have hv' : ¬ t ≤ v := by omega
      have := mLoop_of_N (n := 5) (m := mInit [⟨mk, .Down, 0⟩, ⟨Key.timeout, .NotTimeout_cancel_on_up_down, t⟩, ⟨mk, .UpAsync, 0⟩, ⟨mk, .Up, 0⟩] [⟨mk, .Down, 0⟩, ⟨Key.timeout, .Up, v⟩])
        (r := { res := .might_match, any := [] }) (by eval_match [h1, h2, h3, h3', hta, htn, hv, hv'])
      rw [this]; simp [hv]
    · have hv' : t ≤ v := by omega
      have := mLoop_of_N (n := 4) (m := mInit [⟨mk, .Down, 0⟩, ⟨Key.timeout, .NotTimeout_cancel_on_up_down, t⟩, ⟨mk, .UpAsync, 0⟩, ⟨mk, .Up, 0⟩] [⟨mk, .Down, 0⟩, ⟨Key.timeout, .Up, v⟩])
        (r := { res := .no_match, any := [] }) (by eval_match [h1, h2, h3, h3', hta, htn, hv, hv'])
      rw [this]; simp [hv]

/-- the key was released after some time -/
theorem match_tapped {m : TimedMapping} (hm : m.Valid) {base : KeySequence} (hb : ∀ e ∈ base, Skipped m.key e) (v : Nat) :
    (matchSeq m.input (base ++ [⟨m.key, .Down, 0⟩, ⟨Key.timeout, .Up, v⟩, ⟨m.key, .Up, 0⟩])).res =
      (if m.fits v then .matched else .no_match) := by
  rw [matchTimed_skip hm hb (by simp)]
  obtain ⟨h1, h2, h3⟩ := (deviceKey_proper hm.1).1
  have h3' : Key.timeout ≠ m.key := fun h => h3 h.symm
  have hta : Key.timeout ≠ Key.any := by decide
  have htn : Key.timeout ≠ Key.none := by decide
  obtain ⟨mk, tm, out⟩ := m
  simp only at h1 h2 h3 h3' ⊢
  unfold TimedMapping.input TimedMapping.fits
  cases tm with
  | press =>
    have := mLoop_of_N (n := 5) (m := mInit [⟨mk, .Down, 0⟩, ⟨mk, .UpAsync, 0⟩] [⟨mk, .Down, 0⟩, ⟨Key.timeout, .Up, v⟩, ⟨mk, .Up, 0⟩])
      (r := { res := .matched, any := [] }) (by eval_match [h1, h2, h3, h3', hta, htn])
    rw [this]; rfl
  | hold t =>
    by_cases hv : t ≤ v
    · have := mLoop_of_N (n := 5) (m := mInit [⟨mk, .Down, 0⟩, ⟨Key.timeout, .Up, t⟩, ⟨mk, .UpAsync, 0⟩] [⟨mk, .Down, 0⟩, ⟨Key.timeout, .Up, v⟩, ⟨mk, .Up, 0⟩])
        (r := { res := .matched, any := [] }) (by eval_match [h1, h2, h3, h3', hta, htn, hv])
      rw [this]; simp [hv]
    · have := mLoop_of_N (n := 4) (m := mInit [⟨mk, .Down, 0⟩, ⟨Key.timeout, .Up, t⟩, ⟨mk, .UpAsync, 0⟩] [⟨mk, .Down, 0⟩, ⟨Key.timeout, .Up, v⟩, ⟨mk, .Up, 0⟩])
        (r := { res := .no_match, any := [] }) (by eval_match [h1, h2, h3, h3', hta, htn, hv])
      rw [this]; simp [hv]
  | tap t =>
    by_cases hv : v < t
    · have hv' : ¬ t ≤ v := by omega
      have := mLoop_of_N (n := 5) (m := mInit [⟨mk, .Down, 0⟩, ⟨Key.timeout, .NotTimeout_cancel_on_up_down, t⟩, ⟨mk, .UpAsync, 0⟩, ⟨mk, .Up, 0⟩] [⟨mk, .Down, 0⟩, ⟨Key.timeout, .Up, v⟩, ⟨mk, .Up, 0⟩])
        (r := { res := .matched, any := [] }) (by eval_match [h1, h2, h3, h3', hta, htn, hv, hv'])
      rw [this]; simp [hv]
    · have hv' : t ≤ v := by omega
      have := mLoop_of_N (n := 4) (m := mInit [⟨mk, .Down, 0⟩, ⟨Key.timeout, .NotTimeout_cancel_on_up_down, t⟩, ⟨mk, .UpAsync, 0⟩, ⟨mk, .Up, 0⟩] [⟨mk, .Down, 0⟩, ⟨Key.timeout, .Up, v⟩, ⟨mk, .Up, 0⟩])
        (r := { res := .no_match, any := [] }) (by eval_match [h1, h2, h3, h3', hta, htn, hv, hv'])
      rw [this]; simp [hv]

/-- an event which is not a press of the key -/
theorem match_notPressed {m : TimedMapping} (hm : m.Valid) {base rest : KeySequence} (hb : ∀ e ∈ base, Skipped m.key e) {x : KeyEvent}
    (hx : x.state = .Up) (hxn : x.key ≠ Key.none) (hxa : x.key ≠ Key.any) : (matchSeq m.input (base ++ x :: rest)).res = .no_match := by
  rw [matchTimed_skip hm hb (by simp)]
  obtain ⟨e', he⟩ := timedInput_cons m
  obtain ⟨h1, h2, h3⟩ := (deviceKey_proper hm.1).1
  have h3' : Key.timeout ≠ m.key := fun h => h3 h.symm
  rw [he]
  obtain ⟨xk, xs, xv⟩ := x
  simp only at hx hxn hxa
  subst hx
  have hu : unifiable ⟨xk, .Up, xv⟩ ⟨m.key, .Down, 0⟩ = false := by
    unfold unifiable
    simp only [unifiableState]
    split
    · rfl
    split
    · rfl
    split
    · rfl
    · next hk =>
      rw [if_neg]
      · rfl
      · intro ht
        simp only [beq_iff_eq] at ht
        subst ht
        apply hk
        unfold unifiableKey
        have e1 : (Key.timeout == m.key) = false := beq_eq_false_iff_ne.2 h3'
        simp [e1, h1]
  have := mLoop_of_N (n := 1) (m := mInit (⟨m.key, .Down, 0⟩ :: e') (⟨xk, .Up, xv⟩ :: rest)) (r := { res := .no_match, any := [] }) (by
    simp [mLoopN, mStep, mStepMain, mStepElse, mInit, MState.se, MState.ee, MState.dropNot, hu, h2, h3, asyncUpDown])
  rw [this]

/-- the key was pressed and passed on, then time passed -/
theorem match_forwarded {m : TimedMapping} (hm : m.Valid) {base : KeySequence} (hb : ∀ e ∈ base, Skipped m.key e) {v : Nat} (hv : m.fits v = false) :
    (matchSeq m.input (base ++ [⟨m.key, .DownMatched, 0⟩, ⟨Key.timeout, .Up, v⟩])).res = .no_match := by
  rw [matchTimed_skip hm hb (by simp)]
  obtain ⟨h1, h2, h3⟩ := (deviceKey_proper hm.1).1
  have h3' : Key.timeout ≠ m.key := fun h => h3 h.symm
  have hta : Key.timeout ≠ Key.any := by decide
  have htn : Key.timeout ≠ Key.none := by decide
  obtain ⟨mk, tm, out⟩ := m
  simp only at h1 h2 h3 h3' ⊢
  unfold TimedMapping.fits at hv
  unfold TimedMapping.input
  cases tm with
  | press => simp at hv
  | hold t =>
    have hv : ¬ t ≤ v := by simpa using hv
    have := mLoop_of_N (n := 4) (m := mInit [⟨mk, .Down, 0⟩, ⟨Key.timeout, .Up, t⟩, ⟨mk, .UpAsync, 0⟩] [⟨mk, .DownMatched, 0⟩, ⟨Key.timeout, .Up, v⟩])
        (r := { res := .no_match, any := [] }) (by eval_match [h1, h2, h3, h3', hta, htn, hv])
    rw [this]
  | tap t =>
    have hv : t ≤ v := by simpa using hv
    have := mLoop_of_N (n := 4) (m := mInit [⟨mk, .Down, 0⟩, ⟨Key.timeout, .NotTimeout_cancel_on_up_down, t⟩, ⟨mk, .UpAsync, 0⟩, ⟨mk, .Up, 0⟩] [⟨mk, .DownMatched, 0⟩, ⟨Key.timeout, .Up, v⟩])
        (r := { res := .no_match, any := [] }) (by eval_match [h1, h2, h3, h3', hta, htn, hv])
    rw [this]

/-- after everything was matched, events which were matched before are skipped -/
theorem mLoop_skipEnd {mk : Key} (hk : ProperKey mk) (v n : Nat) (rest : KeySequence) (hr : ∀ e ∈ rest, e.state = .DownMatched ∨ e.state = .UpMatched) :
    (mLoop { eRest := [], e := n, sRest := rest ++ [⟨Key.timeout, .Up, v⟩], downs := 0, async := [⟨mk, .UpAsync, 0⟩], nots := [], ign := [], any := [], nmm := false }).res
      = .no_match := by
  obtain ⟨h1, h2, h3⟩ := hk
  have h3' : Key.timeout ≠ mk := fun h => h3 h.symm
  have hta : Key.timeout ≠ Key.any := by decide
  have htn : Key.timeout ≠ Key.none := by decide
  induction rest with
  | nil =>
    have := mLoop_of_N (n := 1) (m := { eRest := [], e := n, sRest := [⟨Key.timeout, .Up, v⟩], downs := 0, async := [⟨mk, .UpAsync, 0⟩], nots := [], ign := [], any := [], nmm := false })
        (r := { res := .no_match, any := [] }) (by eval_match [h1, h2, h3, h3', hta, htn])
    rw [List.nil_append, this]
  | cons e rest ih =>
    rw [← ih (fun e he => hr e (by simp [he]))]
    congr 1
    apply mLoop_of_step
    obtain ⟨ek, es, ev⟩ := e
    have := hr ⟨ek, es, ev⟩ (by simp)
    simp only at this
    have hz : unifiableKey ek Key.none = false := by unfold unifiableKey; simp
    rcases this with rfl | rfl
    · simp [mStep, mStepMain, mStepElse, MState.se, MState.ee, MState.dropNot, unifiable, hz, KeyEvent.zero, waitsFor, MState.advS]
    · simp [mStep, mStepMain, mStepElse, MState.se, MState.ee, MState.dropNot, unifiable, hz, KeyEvent.zero, waitsFor, MState.advS]

/-- the key of a mapping which does not depend on time was matched before -/
theorem match_pressedBefore {m : TimedMapping} (hm : m.Valid) (hp : m.asks = none) {base rest : KeySequence} (hb : ∀ e ∈ base, Skipped m.key e)
    (hr : ∀ e ∈ rest, e.state = .DownMatched ∨ e.state = .UpMatched) (v : Nat) :
    (matchSeq m.input (base ++ ⟨m.key, .DownMatched, 0⟩ :: (rest ++ [⟨Key.timeout, .Up, v⟩]))).res = .no_match := by
  rw [matchTimed_skip hm hb (by simp)]
  have hk := (deviceKey_proper hm.1).1
  obtain ⟨h1, h2, h3⟩ := hk
  have hin : m.input = [⟨m.key, .Down, 0⟩, ⟨m.key, .UpAsync, 0⟩] := by
    unfold TimedMapping.asks at hp
    unfold TimedMapping.input
    split at hp <;> simp_all
  rw [hin, mLoop_of_step (m' := { eRest := [⟨m.key, .UpAsync, 0⟩], e := 1, sRest := rest ++ [⟨Key.timeout, .Up, v⟩], downs := 0, async := [], nots := [], ign := [], any := [], nmm := false })]
  · rw [mLoop_of_step (m' := { eRest := [], e := 2, sRest := rest ++ [⟨Key.timeout, .Up, v⟩], downs := 0, async := [⟨m.key, .UpAsync, 0⟩], nots := [], ign := [], any := [], nmm := false })]
    · exact mLoop_skipEnd ⟨h1, h2, h3⟩ v 2 rest hr
    · simp [mStep, mStepMain, MState.se, MState.ee, MState.dropNot, MState.advE]
  · simp [mStep, mStepMain, mInit, MState.se, MState.ee, MState.dropNot, unifiable, unifiableKey, unifiableState, h1, h2, h3, MState.advSE, MState.advS, MState.advE]

end

end KM
