import Verif.Model.Key
/-!
# Matching an input expression against an input sequence

Models `src/runtime/MatchKeySequence.cpp`.
-/
namespace KM

/-- `MatchKeySequence.cpp:7-17` `unifiable(KeyState, KeyState)` -/
def unifiableState (a b : KeyState) : Bool :=
  let norm (s : KeyState) : KeyState :=
    match s with
    | .DownMatched => .Down
    | .UpMatched => .Up
    | s => s
  norm a == norm b

/-- `MatchKeySequence.cpp:19-32` `unifiable(Key, Key)` -/
def unifiableKey (a b : Key) : Bool :=
  if a == Key.none || b == Key.none then false
  else if a == b then true
  else if a == Key.timeout || b == Key.timeout then false
  else if a == Key.any && isKeyboardKey b then true
  else if b == Key.any && isKeyboardKey a then true
  else false

/-- `MatchKeySequence.cpp:35-39` `timeout_unifiable` -/
def timeoutUnifiable (se ee : KeyEvent) : Bool :=
  let timeReached := decide (ee.value ≤ se.value)
  let isNot := se.state.isNotTimeout || ee.state.isNotTimeout
  if isNot then !timeReached else timeReached

/-- `MatchKeySequence.cpp:41-52` `unifiable(KeyEvent, KeyEvent)` -/
def unifiable (a b : KeyEvent) : Bool :=
  if a.key == Key.any && b.state == .DownMatched then false
  else if b.key == Key.any && a.state == .DownMatched then false
  else if !unifiableKey a.key b.key then false
  else if a.key == Key.timeout then timeoutUnifiable a b
  else unifiableState a.state b.state

/-- `MatchKeySequence.h` `enum class MatchResult` -/
inductive MatchResult where
  | no_match | might_match | matched
deriving DecidableEq, Repr, Inhabited

/-- The variables of the loop `MatchKeySequence.cpp:63-71`. The positions `e` and `s` are
represented by the remaining lists; `e` itself is kept since line 190 compares it, and the
number of plain `Down` in `sequence[0, s)` is kept since lines 180-182 count them. -/
structure MState where
  /-- `expression[e, size)` -/
  eRest : KeySequence
  /-- `e` -/
  e : Nat
  /-- `sequence[s, size)` -/
  sRest : KeySequence
  /-- number of events with state `Down` in `sequence[0, s)` -/
  downs : Nat
  /-- `m_async` -/
  async : KeySequence
  /-- `m_not_keys` -/
  nots : List Key
  /-- `m_ignore_ups` -/
  ign : List Key
  /-- `*any_key_matches` -/
  any : List Key
  /-- `is_no_might_match` -/
  nmm : Bool
deriving DecidableEq, Repr, Inhabited

/-- Everything the function communicates to its caller. `ub` stands for leaving the specified
behaviour: a failed assert of line 59, or incrementing a position past its end (which is only
reachable at line 205, when `Key::none` was pressed). -/
structure MOut where
  res : MatchResult
  /-- `*any_key_matches` at return -/
  any : List Key
  /-- `*input_timeout_event`, `none` when it was not assigned -/
  timeout : Option KeyEvent := none
  ub : Bool := false
deriving DecidableEq, Repr, Inhabited

/-- Apply `f` to the first element satisfying `p` (`it = find_if(...); modify *it`). -/
def modFirst (p : α → Bool) (f : α → α) : List α → List α
  | [] => []
  | x :: xs => if p x then f x :: xs else x :: modFirst p f xs

/-- `++e`; incrementing past the end is `ub`. -/
def MState.advE (m : MState) : MState ⊕ MOut :=
  match m.eRest with
  | [] => .inr { res := .no_match, any := m.any, ub := true }
  | _ :: er => .inl { m with eRest := er, e := m.e + 1 }

/-- `++s`; incrementing past the end is `ub`. -/
def MState.advS (m : MState) : MState ⊕ MOut :=
  match m.sRest with
  | [] => .inr { res := .no_match, any := m.any, ub := true }
  | x :: sr => .inl { m with sRest := sr, downs := m.downs + (if x.state == .Down then 1 else 0) }

/-- `++s; ++e` -/
def MState.advSE (m : MState) : MState ⊕ MOut :=
  match m.advS with
  | .inl m' => m'.advE
  | .inr r => .inr r

/-- `MatchKeySequence.cpp:168-172`: the first unmatched async down of the key is directly
preceded by its unmatched async up. -/
def asyncUpDown (async : KeySequence) (k : Key) : Bool :=
  match async.findIdx? (fun a => a == ⟨k, .DownAsync, 0⟩) with
  | some (i + 1) => async[i]? == some ⟨k, .UpAsync, 0⟩
  | _ => false

/-- `MatchKeySequence.cpp:74-75, 134-138`: an asynchronous event waits for the event of the
sequence -/
def waitsFor (se a : KeyEvent) : Bool :=
  a.state == (if se.state == .Up then .UpAsync else .DownAsync) && unifiableKey se.key a.key

/-- `MatchKeySequence.cpp:128-215`: the last branch of the loop body. `se`, `ee` are the
current events. -/
def mStepElse (m : MState) (se ee : KeyEvent) : MState ⊕ MOut :=
  -- 130-131
  if m.nmm && ee == KeyEvent.zero then .inr { res := .no_match, any := m.any }
  else
    -- 134-145
    if m.async.any (waitsFor se) then
      MState.advS { m with async := modFirst (waitsFor se) (fun a => { a with state := se.state }) m.async }
    -- 147-152
    else if se.state == .DownMatched || se.state == .UpMatched then m.advS
    -- 155-163
    else if m.async.any (fun a => unifiable ee a) then
      MState.advE { m with async := m.async.eraseP (fun a => unifiable ee a) }
    -- 165-176
    else if ee.state == .Down && asyncUpDown m.async ee.key then m.advE
    -- 178-187
    else if se.key == Key.timeout && ee.key != Key.timeout && m.downs != 0 then m.advS
    -- 189-200
    else if m.nmm && m.e == 1 then
      if se != KeyEvent.zero then
        MState.advS { m with ign := if se.state == .Down then m.ign ++ [se.key] else m.ign }
      else .inr { res := .no_match, any := m.any }
    -- 201-208
    else if m.nmm && se.state == .Up && m.ign.contains se.key then m.advS
    -- 212-214
    else .inr { res := if m.sRest.isEmpty then .might_match else .no_match, any := m.any }

/-- `MatchKeySequence.cpp:78-80`: when a key is expected, it is no longer forbidden. -/
def MState.dropNot (m : MState) (ee : KeyEvent) : MState :=
  if ee.state == .Down then { m with nots := m.nots.filter (· != ee.key) } else m

/-- `MatchKeySequence.cpp:83-215`: the loop body after line 80. `se`, `ee` are the current events. -/
def mStepMain (m : MState) (se ee : KeyEvent) : MState ⊕ MOut :=
  -- 83-86
  if (se.state == .Down || se.state == .DownMatched) && m.nots.contains se.key then
    .inr { res := .no_match, any := m.any }
  -- 88-92
  else if ee.state == .DownAsync || ee.state == .UpAsync then
    MState.advE { m with async := m.async ++ [ee] }
  -- 93-97
  else if ee.state == .Not && ee.key != Key.timeout then
    MState.advE { m with nots := m.nots ++ [ee.key] }
  -- 98-105
  else if ee.key == Key.any && ee.state == .Up && se.key != Key.none && se.state == .Up then
    if !m.any.contains se.key then .inr { res := .no_match, any := m.any }
    else m.advSE
  -- 106-118
  else if unifiable se ee then
    MState.advSE { m with
      any := if ee.key == Key.any && se.state == .Down then m.any ++ [se.key] else m.any
      async := m.async.filter (fun a => !(se.key == a.key)) }
  -- 119-123
  else if ee.key == Key.timeout && se == KeyEvent.zero then
    .inr { res := .might_match, any := m.any, timeout := some ee }
  -- 124-127
  else if ee.state == .NoMightMatch then MState.advE { m with nmm := true }
  else mStepElse m se ee

/-- the current event of the sequence, `KeyEvent{}` at its end (`MatchKeySequence.cpp:72`) -/
def MState.se (m : MState) : KeyEvent := m.sRest.headD KeyEvent.zero

/-- the current event of the expression, `KeyEvent{}` at its end (`MatchKeySequence.cpp:73`) -/
def MState.ee (m : MState) : KeyEvent := m.eRest.headD KeyEvent.zero

/-- `MatchKeySequence.cpp:71-216`: one iteration of the loop, either the next loop state or the
returned result. -/
def mStep (m : MState) : MState ⊕ MOut :=
  -- 71
  if m.eRest.isEmpty && m.sRest.isEmpty then .inr { res := .matched, any := m.any }
  else mStepMain (m.dropNot m.ee) m.se m.ee

/-- decreases in every iteration -/
def MState.size (m : MState) : Nat := m.eRest.length + m.sRest.length

theorem MState.advE_size {m m' : MState} (h : m.advE = .inl m') : m'.size < m.size := by
  unfold MState.advE at h; split at h
  · simp at h
  · next er he => simp at h; subst h; simp [MState.size, he]

theorem MState.advS_size {m m' : MState} (h : m.advS = .inl m') : m'.size < m.size := by
  unfold MState.advS at h; split at h
  · simp at h
  · next er he => simp at h; subst h; simp [MState.size, he]

theorem MState.advSE_size {m m' : MState} (h : m.advSE = .inl m') : m'.size < m.size := by
  unfold MState.advSE at h; split at h
  · next m1 h1 => exact Nat.lt_trans (advE_size h) (advS_size h1)
  · simp at h

theorem mStepElse_size {m m' : MState} {se ee} (h : mStepElse m se ee = .inl m') :
    m'.size < m.size := by
  unfold mStepElse at h
  repeat' split at h
  all_goals first
    | (simp at h; done)
    | exact Nat.lt_of_lt_of_le (MState.advS_size h) (Nat.le_refl _)
    | exact Nat.lt_of_lt_of_le (MState.advE_size h) (Nat.le_refl _)

theorem mStepMain_size {m m' : MState} {se ee} (h : mStepMain m se ee = .inl m') : m'.size < m.size := by
  unfold mStepMain at h
  repeat' split at h
  all_goals first
    | (simp at h; done)
    | exact Nat.lt_of_lt_of_le (MState.advS_size h) (Nat.le_refl _)
    | exact Nat.lt_of_lt_of_le (MState.advE_size h) (Nat.le_refl _)
    | exact Nat.lt_of_lt_of_le (MState.advSE_size h) (Nat.le_refl _)
    | exact mStepElse_size h

theorem mStep_size {m m' : MState} (h : mStep m = .inl m') : m'.size < m.size := by
  unfold mStep at h
  split at h
  · simp at h
  · have := mStepMain_size h
    have hs : (m.dropNot m.ee).size = m.size := by unfold MState.dropNot; split <;> rfl
    rwa [hs] at this

/-- `MatchKeySequence.cpp:71-217`: the loop -/
def mLoop (m : MState) : MOut :=
  match _h : mStep m with
  | .inl m' => mLoop m'
  | .inr r => r
termination_by m.size
decreasing_by exact mStep_size _h

/-- `MatchKeySequence.cpp:61-69`: the initial loop state -/
def mInit (expression sequence : KeySequence) : MState :=
  { eRest := expression, e := 0, sRest := sequence, downs := 0, async := [], nots := [],
    ign := [], any := [], nmm := false }

/-- `MatchKeySequence.cpp:55-218` `MatchKeySequence::operator()`. An empty expression or
sequence violates the assertion of line 59. -/
def matchSeq (expression sequence : KeySequence) : MOut :=
  if expression.isEmpty || sequence.isEmpty then { res := .no_match, any := [], ub := true }
  else mLoop (mInit expression sequence)

end KM
