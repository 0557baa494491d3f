import Verif.Spec.StageRun
import Verif.Lemmas.Frozen
/-!
# The exit sequence (C07)
-/
namespace KM

/-- The keys of the keyboard which were pressed or released in a history, in order. -/
def strokes : List StageOp → List (Key × KeyState)
  | [] => []
  | .input ev _ :: ops => if isKeyboardKey ev.key then (ev.key, ev.state) :: strokes ops else strokes ops
  | _ :: ops => strokes ops

/-- Press (and possibly repeat) left Shift, then Escape, then K, nothing else in between. -/
def ExitStrokes (l : List (Key × KeyState)) : Prop :=
  ∃ a b c : Nat, l = List.replicate (a + 1) (Key.ShiftLeft, .Down) ++
    List.replicate (b + 1) (Key.Escape, .Down) ++ List.replicate (c + 1) (Key.KeyK, .Down)

/-- `advance_exit_sequence` on a keyboard stroke -/
private def adv (pos : Nat) (e : Key × KeyState) : Nat := advanceExit pos ⟨e.1, e.2, 0⟩

private theorem adv_eq (pos : Nat) (ev : KeyEvent) : advanceExit pos ev =
    if isKeyboardKey ev.key then adv pos (ev.key, ev.state) else pos := by
  simp only [advanceExit, adv]
  split <;> simp_all

private theorem stageStep_exitPos (st : Cfg × S) (op : StageOp) :
    (stageStep st op).1.2.exitPos = (strokes [op]).foldl adv st.2.exitPos := by
  cases op with
  | input ev dev =>
    simp only [stageStep, update_exitPos, strokes, adv_eq]
    split <;> rfl
  | contexts l => exact congrArg Prod.fst (setActiveClientContexts_frozen st.1 st.2 l)
  | devices rx ds => rfl
  | validate f => rfl

private theorem strokes_append (a b : List StageOp) : strokes (a ++ b) = strokes a ++ strokes b := by
  induction a with
  | nil => rfl
  | cons op a ih =>
    cases op <;> simp only [List.cons_append, strokes, ih]
    split <;> rfl

private theorem stageRun_exitPos (st : Cfg × S) (ops : List StageOp) :
    (stageRun st ops).1.2.exitPos = (strokes ops).foldl adv st.2.exitPos := by
  induction ops generalizing st with
  | nil => rfl
  | cons op ops ih =>
    show (stageRun (stageStep st op).1 ops).1.2.exitPos = _
    rw [ih, stageStep_exitPos, ← List.foldl_append, ← strokes_append]
    rfl

private theorem adv_replicate (k : Key) (pos pos' n : Nat) (h : adv pos (k, .Down) = pos')
    (h' : adv pos' (k, .Down) = pos') :
    (List.replicate (n + 1) (k, KeyState.Down)).foldl adv pos = pos' := by
  rw [List.replicate_succ, List.foldl_cons, h]
  induction n with
  | zero => rfl
  | succ n ih => rw [List.replicate_succ, List.foldl_cons, h', ih]

private theorem strokes_keyboard (ops : List StageOp) : ∀ e ∈ strokes ops, isKeyboardKey e.1 = true := by
  induction ops with
  | nil => simp [strokes]
  | cons op ops ih =>
    cases op <;> simp only [strokes]
    · split
      · next h => intro e he; rcases List.mem_cons.1 he with h' | h'; · subst h'; exact h
                  · exact ih e h'
      · exact ih
    all_goals exact ih

/-- **C07** When the recogniser is at its start, i.e. when the last keyboard event was a release (or
there was none), pressing ShiftLeft, Escape and K, each repeated arbitrarily often and interleaved
with arbitrary other events and operations, requests to exit, for all contexts and histories. -/
theorem C07_exit_recognised (contexts : List Context) (ops ops' : List StageOp)
    (hstart : ∀ e, (strokes ops).getLast? = some e → e.2 ≠ .Down)
    (hexit : ExitStrokes (strokes ops')) :
    (stageRun (stageInit contexts) (ops ++ ops')).1.2.shouldExit = true := by
  have hpos : (strokes ops).foldl adv 0 = 0 := by
    have hkb := strokes_keyboard ops
    rcases List.eq_nil_or_concat (strokes ops) with h | ⟨l, e, h⟩
    · rw [h]; rfl
    · have h1 := hkb e (by simp [h])
      rw [h] at hstart ⊢
      have := hstart e (by simp)
      rw [List.concat_eq_append, List.foldl_append]
      simp [adv, advanceExit, h1, this]
  obtain ⟨a, b, c, h⟩ := hexit
  unfold S.shouldExit
  rw [stageRun_exitPos, strokes_append, List.foldl_append]
  show (List.foldl adv ((strokes ops).foldl adv 0) (strokes ops') == _) = true
  rw [hpos, h, List.foldl_append, List.foldl_append]
  rw [adv_replicate Key.ShiftLeft 0 1 a (by decide) (by decide),
    adv_replicate Key.Escape 1 2 b (by decide) (by decide),
    adv_replicate Key.KeyK 2 3 c (by decide) (by decide)]
  rfl

/-- what the position says about the last strokes -/
private def PosInv (pos : Nat) (l : List (Key × KeyState)) : Prop :=
  pos = 0 ∨
  (pos = 1 ∧ ∃ pre a, l = pre ++ List.replicate (a + 1) (Key.ShiftLeft, .Down)) ∨
  (pos = 2 ∧ ∃ pre a b, l = pre ++ (List.replicate (a + 1) (Key.ShiftLeft, .Down) ++
    List.replicate (b + 1) (Key.Escape, .Down))) ∨
  (pos = 3 ∧ ∃ pre post, l = pre ++ post ∧ ExitStrokes post)

private theorem posInv_adv {pos l} (h : PosInv pos l) (e : Key × KeyState)
    (hkb : isKeyboardKey e.1 = true) : PosInv (adv pos e) (l ++ [e]) := by
  obtain ⟨k, st⟩ := e
  have hrep : ∀ (n : Nat) (x : Key × KeyState), List.replicate (n + 1 + 1) x = List.replicate (n + 1) x ++ [x] :=
    fun n x => by rw [List.replicate_succ']
  have hk : isKeyboardKey k = true := hkb
  by_cases hst : st = .Down
  case neg => left; simp [adv, advanceExit, hk, hst]
  subst hst
  rcases h with rfl | ⟨rfl, pre, a, rfl⟩ | ⟨rfl, pre, a, b, rfl⟩ | ⟨rfl, pre, post, rfl, a, b, c, rfl⟩
  · by_cases h1 : k = Key.ShiftLeft
    · subst h1
      exact Or.inr (Or.inl ⟨by decide, l, 0, rfl⟩)
    · left
      simp [adv, advanceExit, exitSequence, hk, Ne.symm h1]
  · by_cases h1 : k = Key.ShiftLeft
    · subst h1
      exact Or.inr (Or.inl ⟨by decide, pre, a + 1, by rw [hrep]; simp⟩)
    · by_cases h2 : k = Key.Escape
      · subst h2
        exact Or.inr (Or.inr (Or.inl ⟨by decide, pre, a, 0, by simp⟩))
      · left
        simp [adv, advanceExit, exitSequence, hk, Ne.symm h1, Ne.symm h2]
  · by_cases h1 : k = Key.Escape
    · subst h1
      exact Or.inr (Or.inr (Or.inl ⟨by decide, pre, a, b + 1, by rw [hrep]; simp⟩))
    · by_cases h2 : k = Key.KeyK
      · subst h2
        exact Or.inr (Or.inr (Or.inr ⟨by decide, pre, _, by rw [List.append_assoc], a, b, 0, by simp⟩))
      · left
        simp [adv, advanceExit, exitSequence, hk, Ne.symm h1, Ne.symm h2]
  · by_cases h1 : k = Key.KeyK
    · subst h1
      exact Or.inr (Or.inr (Or.inr ⟨by decide, pre, _, by rw [List.append_assoc], a, b, c + 1, by rw [hrep]; simp⟩))
    · left
      simp [adv, advanceExit, exitSequence, hk, Ne.symm h1]

/-- **C07** Exit is only requested when the last keyboard events were these presses. -/
theorem C07_exit_only_then (contexts : List Context) (ops : List StageOp)
    (h : (stageRun (stageInit contexts) ops).1.2.shouldExit = true) :
    ∃ before last, strokes ops = before ++ last ∧ ExitStrokes last := by
  have key : ∀ (l : List (Key × KeyState)) (pos : Nat) (done : List (Key × KeyState)),
      (∀ e ∈ l, isKeyboardKey e.1 = true) → PosInv pos done → PosInv (l.foldl adv pos) (done ++ l) := by
    intro l
    induction l with
    | nil => intro pos done _ h; simpa using h
    | cons e l ih =>
      intro pos done hl h
      have := ih _ _ (fun e he => hl e (by simp [he])) (posInv_adv h e (hl e (by simp)))
      simpa using this
  have hinv := key (strokes ops) 0 [] (strokes_keyboard ops) (Or.inl rfl)
  have hpos := stageRun_exitPos (stageInit contexts) ops
  unfold S.shouldExit at h
  rw [hpos] at h
  have h3 : (strokes ops).foldl adv 0 = 3 := by simpa [exitSequence, stageInit] using h
  rw [h3] at hinv
  simp only [List.nil_append] at hinv
  rcases hinv with h | ⟨h, _⟩ | ⟨h, _⟩ | ⟨_, h⟩
  · simp at h
  · simp at h
  · simp at h
  · exact h

/-! ### Concrete cases -/

private def sampleOps : List StageOp :=
  [.input ⟨Key.ShiftLeft, .Down, 0⟩ 0, .input ⟨Key.ButtonLeft, .Down, 0⟩ 1, .input ⟨Key.ShiftLeft, .Down, 0⟩ 0,
   .input ⟨Key.Escape, .Down, 0⟩ 0, .contexts [], .input ⟨Key.timeout, .Up, 100⟩ (-1), .input ⟨Key.KeyK, .Down, 0⟩ 0]

example : ExitStrokes (strokes sampleOps) := ⟨1, 0, 0, by decide⟩
example : ∀ e, (strokes [.input ⟨Key.KeyA, .Down, 0⟩ 0, .input ⟨Key.KeyA, .Up, 0⟩ 0]).getLast? = some e → e.2 ≠ .Down := by
  intro e he
  have : strokes [.input ⟨Key.KeyA, .Down, 0⟩ 0, .input ⟨Key.KeyA, .Up, 0⟩ 0] =
      [(Key.KeyA, .Down), (Key.KeyA, .Up)] := by decide
  rw [this] at he
  simp at he
  subst he
  simp
example : (stageRun (stageInit [{}]) sampleOps).1.2.shouldExit = true := by decide +kernel

end KM
