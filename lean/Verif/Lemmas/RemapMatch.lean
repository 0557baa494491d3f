import Verif.Spec.Remap
import Verif.Lemmas.Transparent
/-!
# Matching single keys
-/
set_option linter.unusedSimpArgs false
namespace KM

private def waiting (k : Key) (s : KeySequence) (d : Nat) : MState :=
  { eRest := singleKey k, e := 0, sRest := s, downs := d, async := [], nots := [], ign := [], any := [], nmm := false }

private def half (k : Key) (s : KeySequence) (d : Nat) : MState :=
  { eRest := [⟨k, .UpAsync, 0⟩], e := 1, sRest := s, downs := d, async := [], nots := [], ign := [], any := [], nmm := false }

private def done (k : Key) (s : KeySequence) (d : Nat) : MState :=
  { eRest := [], e := 2, sRest := s, downs := d, async := [⟨k, .UpAsync, 0⟩], nots := [], ign := [], any := [], nmm := false }

private theorem mLoop_inl {m m' : MState} (h : mStep m = .inl m') : mLoop m = mLoop m' := by
  rw [mLoop]
  split
  · next m1 h1 => rw [h] at h1; simp at h1; rw [h1]
  · next r h1 => rw [h] at h1; simp at h1

private theorem mLoop_inr {m : MState} {r : MOut} (h : mStep m = .inr r) : mLoop m = r := by
  rw [mLoop]
  split
  · next m1 h1 => rw [h] at h1; simp at h1
  · next r1 h1 => rw [h] at h1; simp at h1; exact h1.symm

private theorem unifiable_self {e : KeyEvent} {k : Key} (hk : Replaceable k) (he : e.key = k)
    (hs : e.state = .DownMatched ∨ e.state = .Down) : unifiable e ⟨k, .Down, 0⟩ = true := by
  have h1 : (e.key == Key.any) = false := by rw [he]; exact beq_eq_false_iff_ne.2 hk.2.1
  have h2 : (k == Key.any) = false := beq_eq_false_iff_ne.2 hk.2.1
  have h3 : (e.key == Key.timeout) = false := by rw [he]; exact beq_eq_false_iff_ne.2 hk.2.2.1
  have h4 : unifiableKey e.key k = true := by
    unfold unifiableKey
    rw [he, if_neg (by simp [hk.1]), if_pos (by simp)]
  unfold unifiable
  simp only [h1, h2, h3, h4, Bool.false_and, Bool.not_true, Bool.false_eq_true, if_false]
  rcases hs with hs | hs <;> rw [hs] <;> rfl

private theorem unifiableKey_ne {a b : Key} (ha : Replaceable a) (hb : Replaceable b) (h : a ≠ b) : unifiableKey a b = false := by
  unfold unifiableKey
  have h1 : (a == b) = false := beq_eq_false_iff_ne.2 h
  have h2 : (a == Key.any) = false := beq_eq_false_iff_ne.2 ha.2.1
  have h3 : (b == Key.any) = false := beq_eq_false_iff_ne.2 hb.2.1
  simp [h1, h2, h3]

private theorem unifiable_ne {e : KeyEvent} {k : Key} (he : Replaceable e.key) (hk : Replaceable k) (h : e.key ≠ k) (st v) :
    unifiable e ⟨k, st, v⟩ = false := by
  have h1 : (e.key == Key.any) = false := beq_eq_false_iff_ne.2 he.2.1
  have h2 : (k == Key.any) = false := beq_eq_false_iff_ne.2 hk.2.1
  unfold unifiable
  simp [h1, h2, unifiableKey_ne he hk h]

private theorem unifiable_zero (a : KeyEvent) : unifiable KeyEvent.zero a = false := by
  unfold unifiable
  have h1 : (KeyEvent.zero.key == Key.any) = false := rfl
  have h2 : unifiableKey KeyEvent.zero.key a.key = false := by unfold unifiableKey; simp [KeyEvent.zero]
  simp only [h1, h2, Bool.false_and, Bool.false_eq_true, if_false, Bool.not_false, if_true, ite_self]

/-- a key which was matched already is skipped -/
private theorem waiting_skip {k : Key} (hk : Replaceable k) {x : KeyEvent} (hx : Replaceable x.key) (hs : x.state = .DownMatched)
    (hne : x.key ≠ k) (s d) : mStep (waiting k (x :: s) d) = .inl (waiting k s d) := by
  unfold mStep
  rw [if_neg (by simp [waiting])]
  show mStepMain _ x ⟨k, .Down, 0⟩ = _
  have hu := unifiable_ne hx hk hne .Down 0
  have h1 : (k == Key.any) = false := beq_eq_false_iff_ne.2 hk.2.1
  have h2 : (k == Key.timeout) = false := beq_eq_false_iff_ne.2 hk.2.2.1
  unfold mStepMain
  simp only [hu, h1, h2, MState.dropNot, waiting, hs, List.filter_nil, List.contains_nil, Bool.and_false, Bool.false_and,
    Bool.false_eq_true, if_false, beq_self_eq_true, if_true]
  unfold mStepElse
  simp [hs, MState.advS, singleKey]

private theorem waiting_take {k : Key} (hk : Replaceable k) {x : KeyEvent} (hs : x.state = .DownMatched ∨ x.state = .Down)
    (he : x.key = k) (s d) : ∃ d', mStep (waiting k (x :: s) d) = .inl (half k s d') := by
  unfold mStep
  rw [if_neg (by simp [waiting])]
  refine ⟨d + (if x.state == .Down then 1 else 0), ?_⟩
  show mStepMain _ x ⟨k, .Down, 0⟩ = _
  have hu := unifiable_self hk he hs
  have h1 : (k == Key.any) = false := beq_eq_false_iff_ne.2 hk.2.1
  unfold mStepMain
  simp [hu, h1, MState.dropNot, waiting, MState.ee, singleKey, MState.advSE, MState.advS, MState.advE, half]

private theorem half_step (k : Key) (s d) : mStep (half k s d) = .inl (done k s d) := by
  unfold mStep
  rw [if_neg (by simp [half])]
  show mStepMain _ _ ⟨k, .UpAsync, 0⟩ = _
  unfold mStepMain
  simp [MState.dropNot, half, MState.advE, done]

private theorem done_skip {k : Key} {x : KeyEvent} (hs : x.state = .DownMatched) (hx : Replaceable x.key) (s d) :
    mStep (done k (x :: s) d) = .inl (done k s d) := by
  unfold mStep
  rw [if_neg (by simp [done])]
  show mStepMain _ x KeyEvent.zero = _
  have hu : unifiable x KeyEvent.zero = false := by
    unfold unifiable
    have h2 : unifiableKey x.key KeyEvent.zero.key = false := by unfold unifiableKey; simp [KeyEvent.zero]
    have h1 : (x.key == Key.any) = false := beq_eq_false_iff_ne.2 hx.2.1
    simp [h2, h1]
  unfold mStepMain
  simp only [hu, MState.dropNot, done, hs]
  simp [mStepElse, hs, KeyEvent.zero, waitsFor, MState.advS]

private theorem done_fail {k : Key} (hk : Replaceable k) {x : KeyEvent} (hs : x.state = .Down ∨ (x.state = .Up ∧ x.key ≠ k))
    (hx : Replaceable x.key) (d) : ∃ a, mStep (done k [x] d) = .inr { res := .no_match, any := a } := by
  unfold mStep
  rw [if_neg (by simp [done])]
  refine ⟨[], ?_⟩
  show mStepMain _ x KeyEvent.zero = _
  have hu : unifiable x KeyEvent.zero = false := by
    unfold unifiable
    have h2 : unifiableKey x.key KeyEvent.zero.key = false := by unfold unifiableKey; simp [KeyEvent.zero]
    have h1 : (x.key == Key.any) = false := beq_eq_false_iff_ne.2 hx.2.1
    simp [h2, h1]
  have hz := unifiable_zero ⟨k, .UpAsync, 0⟩
  have ht : (x.key == Key.timeout) = false := beq_eq_false_iff_ne.2 hx.2.2.1
  have hza : (KeyEvent.zero.key == Key.any) = false := rfl
  have hzt : (KeyEvent.zero.key == Key.timeout) = false := rfl
  have hw : waitsFor x ⟨k, .UpAsync, 0⟩ = false := by
    unfold waitsFor
    rcases hs with hs | ⟨hs, hne⟩
    · simp [hs]
    · simp [unifiableKey_ne hx hk hne]
  unfold mStepMain
  have hst : KeyEvent.zero.state = .Up := rfl
  simp only [hu, hza, hzt, MState.dropNot, done, List.contains_nil, Bool.and_false, Bool.false_and,
    Bool.false_eq_true, if_false, hst, reduceCtorEq, beq_iff_eq, Bool.or_false]
  unfold mStepElse
  rcases hs with hs | ⟨hs, hne⟩ <;>
    simp [hs, hw, hz, ht, hst, List.any_cons]

private theorem waiting_fail {k : Key} (hk : Replaceable k) {x : KeyEvent} (hs : x.state = .Down ∨ x.state = .Up)
    (hu : unifiable x ⟨k, .Down, 0⟩ = false) (hx : Replaceable x.key) (d) :
    ∃ a, mStep (waiting k [x] d) = .inr { res := .no_match, any := a } := by
  unfold mStep
  rw [if_neg (by simp [waiting])]
  refine ⟨[], ?_⟩
  show mStepMain _ x ⟨k, .Down, 0⟩ = _
  have h1 : (k == Key.any) = false := beq_eq_false_iff_ne.2 hk.2.1
  have h2 : (k == Key.timeout) = false := beq_eq_false_iff_ne.2 hk.2.2.1
  have ht : (x.key == Key.timeout) = false := beq_eq_false_iff_ne.2 hx.2.2.1
  unfold mStepMain
  simp only [hu, h1, h2, MState.dropNot, waiting, List.filter_nil, List.contains_nil, Bool.and_false, Bool.false_and,
    Bool.false_eq_true, if_false, beq_self_eq_true, if_true]
  unfold mStepElse
  rcases hs with hs | hs <;> simp [hs, ht, asyncUpDown]

private theorem done_loop {k : Key} (hk : Replaceable k) {ev : KeyEvent} (hev : ev.state = .Down ∨ (ev.state = .Up ∧ ev.key ≠ k))
    (hx : Replaceable ev.key) (l : KeySequence) (hl : ∀ e ∈ l, e.state = .DownMatched ∧ Replaceable e.key) (d) :
    ∃ a, mLoop (done k (l ++ [ev]) d) = { res := .no_match, any := a } := by
  induction l with
  | nil =>
    obtain ⟨a, h⟩ := done_fail hk hev hx d
    exact ⟨a, mLoop_inr h⟩
  | cons e l ih =>
    rw [List.cons_append, mLoop_inl (done_skip (hl e (by simp)).1 (hl e (by simp)).2 _ d)]
    exact ih (fun e he => hl e (by simp [he]))

/-- **(matcher)** The input of a single key matches exactly when the key is pressed: not when another key is pressed, or any key
is released. -/
theorem matchSeq_singleKey {k : Key} (hk : Replaceable k) {ev : KeyEvent} (hx : Replaceable ev.key)
    (hev : ev.state = .Down ∨ ev.state = .Up) (l : KeySequence) (hl : ∀ e ∈ l, e.state = .DownMatched ∧ Replaceable e.key)
    (hn : ev.key ∉ l.map (·.key)) :
    ∃ a, matchSeq (singleKey k) (l ++ [ev]) =
      { res := if ev.state = .Down ∧ ev.key = k then .matched else .no_match, any := a } := by
  have hgen : ∀ d, ∃ a, mLoop (waiting k (l ++ [ev]) d) =
      { res := if ev.state = .Down ∧ ev.key = k then .matched else .no_match, any := a } := by
    induction l with
    | nil =>
      intro d
      by_cases h : ev.state = .Down ∧ ev.key = k
      · obtain ⟨d', h1⟩ := waiting_take hk (Or.inr h.1) h.2 [] d
        rw [if_pos h, List.nil_append, mLoop_inl h1, mLoop_inl (half_step k [] d')]
        refine ⟨[], mLoop_inr ?_⟩
        unfold mStep
        rw [if_pos (by simp [done])]
        rfl
      · have hu : unifiable ev ⟨k, .Down, 0⟩ = false := by
          by_cases hek : ev.key = k
          · have hup : ev.state = .Up := hev.resolve_left (fun hd => h ⟨hd, hek⟩)
            have h1 : (ev.key == Key.any) = false := beq_eq_false_iff_ne.2 hx.2.1
            have h2 : (k == Key.any) = false := beq_eq_false_iff_ne.2 hk.2.1
            have h3 : (ev.key == Key.timeout) = false := beq_eq_false_iff_ne.2 hx.2.2.1
            unfold unifiable
            simp only [h1, h2, h3, hup, Bool.false_and, Bool.false_eq_true, if_false]
            split <;> rfl
          · exact unifiable_ne hx hk hek _ _
        obtain ⟨a, h1⟩ := waiting_fail hk hev hu hx d
        rw [if_neg h]
        exact ⟨a, mLoop_inr h1⟩
    | cons e l ih =>
      intro d
      have hl' : ∀ e ∈ l, e.state = .DownMatched ∧ Replaceable e.key := fun e he => hl e (by simp [he])
      have hn' : ev.key ∉ l.map (·.key) := fun h => hn (by simp [h])
      have hne : ev.key ≠ e.key := fun h => hn (by simp [h])
      obtain ⟨he1, he2⟩ := hl e (by simp)
      by_cases hek : e.key = k
      · obtain ⟨d', h1⟩ := waiting_take hk (Or.inl he1) hek (l ++ [ev]) d
        rw [List.cons_append, mLoop_inl h1, mLoop_inl (half_step k _ d')]
        have : ¬ (ev.state = .Down ∧ ev.key = k) := fun h => hne (h.2.trans hek.symm)
        rw [if_neg this]
        exact done_loop hk (hev.imp id (fun h => ⟨h, fun h' => hne (h'.trans hek.symm)⟩)) hx l hl' d'
      · rw [List.cons_append, mLoop_inl (waiting_skip hk he2 he1 hek _ d)]
        exact ih hl' hn' d
  have h0 : matchSeq (singleKey k) (l ++ [ev]) = mLoop (waiting k (l ++ [ev]) 0) := by
    unfold matchSeq
    rw [if_neg (by simp [singleKey])]
    rfl
  rw [h0]
  exact hgen 0

end KM
