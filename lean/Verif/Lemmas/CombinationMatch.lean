import Verif.Spec.Combinations
import Verif.Lemmas.RemapLookup
/-!
# Matching combinations of keys
-/
set_option linter.unusedSimpArgs false
namespace KM

private def stC (er : KeySequence) (e : Nat) (s : KeySequence) (d : Nat) (as : KeySequence) (nots : List Key) : MState :=
  { eRest := er, e := e, sRest := s, downs := d, async := as, nots := nots, ign := [], any := [], nmm := false }

private theorem mLoop_inl {m m' : MState} (h : mStep m = .inl m') : mLoop m = mLoop m' := by
  rw [mLoop]
  split
  · next m1 h1 => rw [h] at h1; simp at h1; rw [h1]
  · next r h1 => rw [h] at h1; simp at h1

private theorem mLoop_inr {m : MState} {r : MOut} (h : mStep m = .inr r) : mLoop m = r := by
  rw [mLoop]
  split
  · next m1 h1 => rw [h] at h1; simp at h1
  · next r1 h1 => rw [h] at h1; simp at h1; exact h1.symm

private theorem unifiable_self {e : KeyEvent} {k : Key} (hk : Replaceable k) (he : e.key = k)
    (hs : e.state = .DownMatched ∨ e.state = .Down) : unifiable e ⟨k, .Down, 0⟩ = true := by
  have h1 : (e.key == Key.any) = false := by rw [he]; exact beq_eq_false_iff_ne.2 hk.2.1
  have h2 : (k == Key.any) = false := beq_eq_false_iff_ne.2 hk.2.1
  have h3 : (e.key == Key.timeout) = false := by rw [he]; exact beq_eq_false_iff_ne.2 hk.2.2.1
  have h4 : unifiableKey e.key k = true := by
    unfold unifiableKey
    rw [he, if_neg (by simp [hk.1]), if_pos (by simp)]
  unfold unifiable
  simp only [h1, h2, h3, h4, Bool.false_and, Bool.not_true, Bool.false_eq_true, if_false]
  rcases hs with hs | hs <;> rw [hs] <;> rfl

private theorem unifiableKey_ne {a b : Key} (ha : Replaceable a) (hb : Replaceable b) (h : a ≠ b) : unifiableKey a b = false := by
  unfold unifiableKey
  have h1 : (a == b) = false := beq_eq_false_iff_ne.2 h
  have h2 : (a == Key.any) = false := beq_eq_false_iff_ne.2 ha.2.1
  have h3 : (b == Key.any) = false := beq_eq_false_iff_ne.2 hb.2.1
  simp [h1, h2, h3]

private theorem unifiable_ne {e : KeyEvent} {k : Key} (he : Replaceable e.key) (hk : Replaceable k) (h : e.key ≠ k) (st v) :
    unifiable e ⟨k, st, v⟩ = false := by
  have h1 : (e.key == Key.any) = false := beq_eq_false_iff_ne.2 he.2.1
  have h2 : (k == Key.any) = false := beq_eq_false_iff_ne.2 hk.2.1
  unfold unifiable
  simp [h1, h2, unifiableKey_ne he hk h]

private theorem unifiable_up {e : KeyEvent} {k : Key} (he : Replaceable e.key) (hk : Replaceable k) (hs : e.state = .Up) :
    unifiable e ⟨k, .Down, 0⟩ = false := by
  have h1 : (e.key == Key.any) = false := beq_eq_false_iff_ne.2 he.2.1
  have h2 : (k == Key.any) = false := beq_eq_false_iff_ne.2 hk.2.1
  have h3 : (e.key == Key.timeout) = false := beq_eq_false_iff_ne.2 he.2.2.1
  unfold unifiable
  simp only [h1, h2, h3, hs, Bool.false_and, Bool.false_eq_true, if_false]
  split <;> rfl

private theorem unifiable_zero (a : KeyEvent) : unifiable KeyEvent.zero a = false := by
  unfold unifiable
  have h1 : (KeyEvent.zero.key == Key.any) = false := rfl
  have h2 : unifiableKey KeyEvent.zero.key a.key = false := by unfold unifiableKey; simp [KeyEvent.zero]
  simp only [h1, h2, Bool.false_and, Bool.false_eq_true, if_false, Bool.not_false, if_true, ite_self]

private theorem unifiable_zero' (x : KeyEvent) (hx : Replaceable x.key) : unifiable x KeyEvent.zero = false := by
  unfold unifiable
  have h2 : unifiableKey x.key KeyEvent.zero.key = false := by unfold unifiableKey; simp [KeyEvent.zero]
  have h1 : (x.key == Key.any) = false := beq_eq_false_iff_ne.2 hx.2.1
  simp [h2, h1]

/-- an excluded key is held -/
private def bad (nots : List Key) (x : KeyEvent) : Bool := (x.state == .Down || x.state == .DownMatched) && nots.contains x.key

private theorem zero_bad (nots : List Key) : bad nots KeyEvent.zero = false := rfl

/-- a state in which an excluded key is next -/
private theorem step_bad {ee : KeyEvent} (er e x s d as nots) (hb : bad nots x = true)
    (hee : ee.state = .Down → ee.key ∉ nots) :
    mStep (stC (ee :: er) e (x :: s) d as nots) = .inr { res := .no_match, any := [] } := by
  unfold mStep
  rw [if_neg (by simp [stC])]
  show mStepMain (MState.dropNot _ ee) x ee = _
  have : MState.dropNot (stC (ee :: er) e (x :: s) d as nots) ee = stC (ee :: er) e (x :: s) d as nots := by
    unfold MState.dropNot
    split
    · next h =>
      have hf : nots.filter (· != ee.key) = nots := by
        rw [List.filter_eq_self]
        intro a ha
        simp only [bne_iff_ne, ne_eq]
        intro h'
        exact hee (by simpa using h) (h' ▸ ha)
      simp only [stC, hf]
    · rfl
  rw [this]
  unfold mStepMain
  unfold bad at hb
  show (if ((_ == KeyState.Down || _ == KeyState.DownMatched) && nots.contains _) = true then _ else _) = _
  rw [if_pos hb]
  rfl

private theorem step_bad_end (e x s d as nots) (hb : bad nots x = true) :
    mStep (stC [] e (x :: s) d as nots) = .inr { res := .no_match, any := [] } := by
  unfold mStep
  rw [if_neg (by simp [stC])]
  show mStepMain (MState.dropNot _ KeyEvent.zero) x KeyEvent.zero = _
  have : MState.dropNot (stC [] e (x :: s) d as nots) KeyEvent.zero = stC [] e (x :: s) d as nots := by
    unfold MState.dropNot
    rw [if_neg (by simp [KeyEvent.zero])]
  rw [this]
  unfold mStepMain
  unfold bad at hb
  show (if ((_ == KeyState.Down || _ == KeyState.DownMatched) && nots.contains _) = true then _ else _) = _
  rw [if_pos hb]
  rfl

private theorem not_bad_if {nots : List Key} {x : KeyEvent} (hb : bad nots x = false) (a b : α) :
    (if ((x.state == KeyState.Down || x.state == KeyState.DownMatched) && nots.contains x.key) = true then a else b) = b := by
  unfold bad at hb
  rw [hb]; rfl

/-- an excluded key is read -/
private theorem step_not (n er e s d as nots) (hn : n ≠ Key.timeout) (hb : bad nots (s.headD KeyEvent.zero) = false) :
    mStep (stC (⟨n, .Not, 0⟩ :: er) e s d as nots) = .inl (stC er (e + 1) s d as (nots ++ [n])) := by
  unfold mStep
  rw [if_neg (by simp [stC])]
  show mStepMain _ (s.headD KeyEvent.zero) ⟨n, .Not, 0⟩ = _
  have : MState.dropNot (stC (⟨n, .Not, 0⟩ :: er) e s d as nots) ⟨n, .Not, 0⟩ = stC (⟨n, .Not, 0⟩ :: er) e s d as nots := rfl
  show mStepMain (MState.dropNot (stC (⟨n, .Not, 0⟩ :: er) e s d as nots) ⟨n, .Not, 0⟩) _ _ = _
  rw [this]
  have hn' : (n != Key.timeout) = true := by simpa using hn
  unfold mStepMain
  show (if ((_ == KeyState.Down || _ == KeyState.DownMatched) && nots.contains _) = true then _ else _) = _
  rw [not_bad_if hb]
  simp [hn', MState.advE, stC]

/-- an asynchronous release is read -/
private theorem step_up (k er e s d as nots) (hb : bad nots (s.headD KeyEvent.zero) = false) :
    mStep (stC (⟨k, .UpAsync, 0⟩ :: er) e s d as nots) = .inl (stC er (e + 1) s d (as ++ [⟨k, .UpAsync, 0⟩]) nots) := by
  unfold mStep
  rw [if_neg (by simp [stC])]
  show mStepMain (MState.dropNot (stC (⟨k, .UpAsync, 0⟩ :: er) e s d as nots) ⟨k, .UpAsync, 0⟩) (s.headD KeyEvent.zero) ⟨k, .UpAsync, 0⟩ = _
  have : MState.dropNot (stC (⟨k, .UpAsync, 0⟩ :: er) e s d as nots) ⟨k, .UpAsync, 0⟩ = stC (⟨k, .UpAsync, 0⟩ :: er) e s d as nots := rfl
  rw [this]
  unfold mStepMain
  show (if ((_ == KeyState.Down || _ == KeyState.DownMatched) && nots.contains _) = true then _ else _) = _
  rw [not_bad_if hb]
  simp [MState.advE, stC]

private theorem dropNot_down {k : Key} {er e s d as nots} (hk : k ∉ nots) :
    MState.dropNot (stC er e s d as nots) ⟨k, .Down, 0⟩ = stC er e s d as nots := by
  unfold MState.dropNot
  have hf : nots.filter (· != k) = nots := by
    rw [List.filter_eq_self]
    intro a ha
    simp only [bne_iff_ne, ne_eq]
    intro h'
    exact hk (h' ▸ ha)
  simp only [stC, hf]
  rfl

/-- the next key of the combination is held or pressed -/
private theorem step_take {k : Key} (hk : Replaceable k) {x : KeyEvent} (hs : x.state = .DownMatched ∨ x.state = .Down) (he : x.key = k)
    (er e s d nots) (hn : k ∉ nots) :
    ∃ d', mStep (stC (⟨k, .Down, 0⟩ :: er) e (x :: s) d [] nots) = .inl (stC er (e + 1) s d' [] nots) := by
  refine ⟨d + (if x.state == .Down then 1 else 0), ?_⟩
  have hb : bad nots x = false := by
    unfold bad
    rw [he]
    simp [hn]
  unfold mStep
  rw [if_neg (by simp [stC])]
  show mStepMain (MState.dropNot (stC (⟨k, .Down, 0⟩ :: er) e (x :: s) d [] nots) ⟨k, .Down, 0⟩) x ⟨k, .Down, 0⟩ = _
  rw [dropNot_down hn]
  have hu := unifiable_self hk he hs
  have h1 : (k == Key.any) = false := beq_eq_false_iff_ne.2 hk.2.1
  unfold mStepMain
  show (if ((_ == KeyState.Down || _ == KeyState.DownMatched) && nots.contains _) = true then _ else _) = _
  rw [not_bad_if hb]
  simp [hu, h1, stC, MState.advSE, MState.advS, MState.advE]

/-- another key is held -/
private theorem step_skip {k : Key} (hk : Replaceable k) {x : KeyEvent} (hx : Replaceable x.key) (hs : x.state = .DownMatched)
    (hne : x.key ≠ k) (er e s d nots) (hn : k ∉ nots) (hb : bad nots x = false) :
    mStep (stC (⟨k, .Down, 0⟩ :: er) e (x :: s) d [] nots) = .inl (stC (⟨k, .Down, 0⟩ :: er) e s d [] nots) := by
  unfold mStep
  rw [if_neg (by simp [stC])]
  show mStepMain (MState.dropNot (stC (⟨k, .Down, 0⟩ :: er) e (x :: s) d [] nots) ⟨k, .Down, 0⟩) x ⟨k, .Down, 0⟩ = _
  rw [dropNot_down hn]
  have hu := unifiable_ne hx hk hne .Down 0
  have h1 : (k == Key.any) = false := beq_eq_false_iff_ne.2 hk.2.1
  have h2 : (k == Key.timeout) = false := beq_eq_false_iff_ne.2 hk.2.2.1
  unfold mStepMain
  show (if ((_ == KeyState.Down || _ == KeyState.DownMatched) && nots.contains _) = true then _ else _) = _
  rw [not_bad_if hb]
  simp only [hu, h1, h2, stC, Bool.and_false, Bool.false_and, Bool.false_eq_true, if_false, reduceCtorEq, beq_iff_eq, Bool.or_false]
  rw [if_neg (by simp), if_neg (by simp)]
  unfold mStepElse
  simp [hs, MState.advS]

/-- another key is pressed or released -/
private theorem step_fail {k : Key} (hk : Replaceable k) {x : KeyEvent} (hs : x.state = .Down ∨ x.state = .Up)
    (hu : unifiable x ⟨k, .Down, 0⟩ = false) (hx : Replaceable x.key) (er e d nots) (hn : k ∉ nots) :
    mStep (stC (⟨k, .Down, 0⟩ :: er) e [x] d [] nots) = .inr { res := .no_match, any := [] } := by
  cases hb : bad nots x with
  | true => exact step_bad _ _ _ _ _ _ _ hb (fun _ => hn)
  | false =>
    unfold mStep
    rw [if_neg (by simp [stC])]
    show mStepMain (MState.dropNot (stC (⟨k, .Down, 0⟩ :: er) e [x] d [] nots) ⟨k, .Down, 0⟩) x ⟨k, .Down, 0⟩ = _
    rw [dropNot_down hn]
    have h1 : (k == Key.any) = false := beq_eq_false_iff_ne.2 hk.2.1
    have h2 : (k == Key.timeout) = false := beq_eq_false_iff_ne.2 hk.2.2.1
    have ht : (x.key == Key.timeout) = false := beq_eq_false_iff_ne.2 hx.2.2.1
    unfold mStepMain
    show (if ((_ == KeyState.Down || _ == KeyState.DownMatched) && nots.contains _) = true then _ else _) = _
    rw [not_bad_if hb]
    simp only [hu, h1, h2, stC, Bool.and_false, Bool.false_and, Bool.false_eq_true, if_false, reduceCtorEq, beq_iff_eq, Bool.or_false]
    rw [if_neg (by simp), if_neg (by simp)]
    unfold mStepElse
    rcases hs with hs | hs <;> simp [hs, ht, asyncUpDown]

/-- the combination is not complete -/
private theorem step_more {k : Key} (hk : Replaceable k) (er e d nots) (hn : k ∉ nots) :
    mStep (stC (⟨k, .Down, 0⟩ :: er) e [] d [] nots) = .inr { res := .might_match, any := [] } := by
  unfold mStep
  rw [if_neg (by simp [stC])]
  show mStepMain (MState.dropNot (stC (⟨k, .Down, 0⟩ :: er) e [] d [] nots) ⟨k, .Down, 0⟩) KeyEvent.zero ⟨k, .Down, 0⟩ = _
  rw [dropNot_down hn]
  have h1 : (k == Key.any) = false := beq_eq_false_iff_ne.2 hk.2.1
  have h2 : (k == Key.timeout) = false := beq_eq_false_iff_ne.2 hk.2.2.1
  have hu := unifiable_zero ⟨k, .Down, 0⟩
  unfold mStepMain
  show (if ((_ == KeyState.Down || _ == KeyState.DownMatched) && nots.contains _) = true then _ else _) = _
  rw [not_bad_if (zero_bad nots)]
  simp only [hu, h1, h2, stC, Bool.and_false, Bool.false_and, Bool.false_eq_true, if_false, reduceCtorEq, beq_iff_eq, Bool.or_false]
  rw [if_neg (by simp), if_neg (by simp)]
  unfold mStepElse
  simp [asyncUpDown, KeyEvent.zero, Key.timeout, Key.none]

private theorem end_skip {x : KeyEvent} (hs : x.state = .DownMatched) (hx : Replaceable x.key) (e s d as nots)
    (ha : ∀ a ∈ as, a.state = .UpAsync) (hb : bad nots x = false) :
    mStep (stC [] e (x :: s) d as nots) = .inl (stC [] e s d as nots) := by
  unfold mStep
  rw [if_neg (by simp [stC])]
  show mStepMain (MState.dropNot (stC [] e (x :: s) d as nots) KeyEvent.zero) x KeyEvent.zero = _
  have : MState.dropNot (stC [] e (x :: s) d as nots) KeyEvent.zero = stC [] e (x :: s) d as nots := rfl
  rw [this]
  have hu := unifiable_zero' x hx
  have hw : as.any (waitsFor x) = false := by
    rw [List.any_eq_false]
    intro a h
    simp [waitsFor, hs, ha a h]
  unfold mStepMain
  show (if ((_ == KeyState.Down || _ == KeyState.DownMatched) && nots.contains _) = true then _ else _) = _
  rw [not_bad_if hb]
  simp only [hu]
  simp [mStepElse, hs, KeyEvent.zero, stC, hw, MState.advS, Key.timeout, Key.none, Key.any]

private theorem end_fail {x : KeyEvent} (hs : x.state = .Down ∨ x.state = .Up) (hx : Replaceable x.key) (e d as nots)
    (ha : ∀ a ∈ as, a.state = .UpAsync ∧ Replaceable a.key ∧ (x.state = .Up → a.key ≠ x.key)) :
    mStep (stC [] e [x] d as nots) = .inr { res := .no_match, any := [] } := by
  cases hb : bad nots x with
  | true => exact step_bad_end _ _ _ _ _ _ hb
  | false =>
    unfold mStep
    rw [if_neg (by simp [stC])]
    show mStepMain (MState.dropNot (stC [] e [x] d as nots) KeyEvent.zero) x KeyEvent.zero = _
    have : MState.dropNot (stC [] e [x] d as nots) KeyEvent.zero = stC [] e [x] d as nots := rfl
    rw [this]
    have hu := unifiable_zero' x hx
    have hw : as.any (waitsFor x) = false := by
      rw [List.any_eq_false]
      intro a h
      obtain ⟨h1, h2, h3⟩ := ha a h
      rcases hs with hs | hs
      · simp [waitsFor, hs, h1]
      · simp [waitsFor, unifiableKey_ne hx h2 (fun h' => h3 hs h'.symm)]
    have hz : as.any (fun a => unifiable KeyEvent.zero a) = false := by
      rw [List.any_eq_false]
      intro a _
      simp [unifiable_zero]
    have ht : (x.key == Key.timeout) = false := beq_eq_false_iff_ne.2 hx.2.2.1
    have hza : (KeyEvent.zero.key == Key.any) = false := rfl
    have hzt : (KeyEvent.zero.key == Key.timeout) = false := rfl
    have hst : KeyEvent.zero.state = .Up := rfl
    unfold mStepMain
    show (if ((_ == KeyState.Down || _ == KeyState.DownMatched) && nots.contains _) = true then _ else _) = _
    rw [not_bad_if hb]
    simp only [hu, hza, hzt, stC, Bool.and_false, Bool.false_and, Bool.false_eq_true, if_false, hst, reduceCtorEq, beq_iff_eq, Bool.or_false]
    unfold mStepElse
    rcases hs with hs | hs <;> simp [hs, hw, hz, ht, hst]

private theorem mStep_matched (e d as nots) : mStep (stC [] e [] d as nots) = .inr { res := .matched, any := [] } := by
  unfold mStep
  rw [if_pos (by simp [stC])]
  rfl

/-- everything was matched, but there are further events -/
private theorem loop_end {ev : KeyEvent} (hev : ev.state = .Down ∨ ev.state = .Up) (hx : Replaceable ev.key) (l : KeySequence)
    (hl : ∀ e ∈ l, e.state = .DownMatched ∧ Replaceable e.key) (e d as nots)
    (ha : ∀ a ∈ as, a.state = .UpAsync ∧ Replaceable a.key ∧ (ev.state = .Up → a.key ≠ ev.key)) :
    mLoop (stC [] e (l ++ [ev]) d as nots) = { res := .no_match, any := [] } := by
  induction l with
  | nil => exact mLoop_inr (end_fail hev hx e d as nots ha)
  | cons x l ih =>
    obtain ⟨h1, h2⟩ := hl x (by simp)
    cases hb : bad nots x with
    | true => exact mLoop_inr (step_bad_end _ _ _ _ _ _ hb)
    | false =>
      rw [List.cons_append, mLoop_inl (end_skip h1 h2 _ _ _ _ _ (fun a h => (ha a h).1) hb)]
      exact ih (fun e he => hl e (by simp [he]))

private theorem loop_ups {ev : KeyEvent} (hev : ev.state = .Down ∨ ev.state = .Up) (hx : Replaceable ev.key) (l : KeySequence)
    (hl : ∀ e ∈ l, e.state = .DownMatched ∧ Replaceable e.key) (ups : List Key) (hu : ∀ k ∈ ups, Replaceable k ∧ (ev.state = .Up → k ≠ ev.key)) (e d as nots)
    (ha : ∀ a ∈ as, a.state = .UpAsync ∧ Replaceable a.key ∧ (ev.state = .Up → a.key ≠ ev.key)) :
    mLoop (stC (ups.map (fun k => (⟨k, .UpAsync, 0⟩ : KeyEvent))) e (l ++ [ev]) d as nots) = { res := .no_match, any := [] } := by
  induction ups generalizing e as with
  | nil => exact loop_end hev hx l hl e d as nots ha
  | cons k ups ih =>
    obtain ⟨x, s, hxs⟩ : ∃ x s, l ++ [ev] = x :: s := by cases l <;> exact ⟨_, _, rfl⟩
    rw [List.map_cons]
    cases hb : bad nots x with
    | true =>
      rw [hxs]
      exact mLoop_inr (step_bad _ _ _ _ _ _ _ hb (by simp))
    | false =>
      rw [mLoop_inl (step_up _ _ _ _ _ _ _ (by rw [hxs]; exact hb))]
      apply ih (fun k hk => hu k (by simp [hk]))
      intro a h
      simp only [List.mem_append, List.mem_singleton] at h
      rcases h with h | h
      · exact ha a h
      · subst h; exact ⟨rfl, hu k (by simp)⟩

private theorem loop_matched (ups : List Key) (e d as nots) :
    mLoop (stC (ups.map (fun k => (⟨k, .UpAsync, 0⟩ : KeyEvent))) e [] d as nots) = { res := .matched, any := [] } := by
  induction ups generalizing e as with
  | nil => exact mLoop_inr (mStep_matched _ _ _ _)
  | cons k ups ih =>
    rw [List.map_cons, mLoop_inl (step_up _ _ _ _ _ _ _ (zero_bad nots))]
    exact ih _ _

/-- the result of matching a combination, event by event -/
private def resOf (nots : List Key) (k : Key) : List Key → List Key → MatchResult
  | [], _ => .no_match
  | d :: ds, [] => if d = k then (if ds = [] then .matched else .might_match) else .no_match
  | d :: ds, x :: l => if nots.contains x then .no_match else if x = d then (if ds = [] then .no_match else resOf nots k ds l) else resOf nots k (d :: ds) l

private theorem loop_downs {ev : KeyEvent} (hev : ev.state = .Down ∨ ev.state = .Up) (hx : Replaceable ev.key) (l : KeySequence)
    (hl : ∀ e ∈ l, e.state = .DownMatched ∧ Replaceable e.key) (hn : ev.key ∉ l.map (·.key)) (nots ups downs : List Key)
    (hd : ∀ k ∈ downs, Replaceable k ∧ k ∉ nots) (hne : downs ≠ []) (hu : ∀ k ∈ ups, Replaceable k ∧ (k ∈ downs ∨ k ≠ ev.key)) (e d) :
    mLoop (stC (downs.map (fun k => (⟨k, .Down, 0⟩ : KeyEvent)) ++ ups.map (fun k => (⟨k, .UpAsync, 0⟩ : KeyEvent))) e (l ++ [ev]) d [] nots) =
      { res := if ev.state = .Down then resOf nots ev.key downs (l.map (·.key)) else .no_match, any := [] } := by
  induction l generalizing downs e d with
  | nil =>
    obtain ⟨k, ds, rfl⟩ : ∃ k ds, downs = k :: ds := by
      cases downs with
      | nil => exact absurd rfl hne
      | cons k ds => exact ⟨k, ds, rfl⟩
    obtain ⟨hk, hkn⟩ := hd k (by simp)
    rw [List.map_cons, List.cons_append, List.nil_append]
    by_cases hdn : ev.state = .Down
    · rw [if_pos hdn]
      by_cases hek : ev.key = k
      · obtain ⟨d', h1⟩ := step_take hk (Or.inr hdn) hek (ds.map (fun k => (⟨k, .Down, 0⟩ : KeyEvent)) ++ ups.map (fun k => (⟨k, .UpAsync, 0⟩ : KeyEvent))) e [] d nots hkn
        rw [mLoop_inl h1]
        cases ds with
        | nil =>
          rw [List.map_nil, List.nil_append, loop_matched]
          simp [resOf, hek]
        | cons k2 ds =>
          rw [List.map_cons, List.cons_append, mLoop_inr (step_more (hd k2 (by simp)).1 _ _ _ _ (hd k2 (by simp)).2)]
          simp [resOf, hek]
      · rw [mLoop_inr (step_fail hk hev (unifiable_ne hx hk hek _ _) hx _ _ _ _ hkn)]
        simp [resOf, Ne.symm hek]
    · rw [if_neg hdn, mLoop_inr (step_fail hk hev (unifiable_up hx hk (hev.resolve_left hdn)) hx _ _ _ _ hkn)]
  | cons x l ih =>
    have hl' : ∀ e ∈ l, e.state = .DownMatched ∧ Replaceable e.key := fun e he => hl e (by simp [he])
    have hn' : ev.key ∉ l.map (·.key) := fun h => hn (by simp [h])
    have hnx : ev.key ≠ x.key := fun h => hn (by simp [h])
    obtain ⟨hx1, hx2⟩ := hl x (by simp)
    have hbx : bad nots x = nots.contains x.key := by simp [bad, hx1]
    obtain ⟨k, ds, rfl⟩ : ∃ k ds, downs = k :: ds := by
      cases downs with
      | nil => exact absurd rfl hne
      | cons k ds => exact ⟨k, ds, rfl⟩
    obtain ⟨hk, hkn⟩ := hd k (by simp)
    rw [List.map_cons, List.cons_append, List.cons_append, List.map_cons]
    cases hb : bad nots x with
    | true =>
      rw [mLoop_inr (step_bad _ _ _ _ _ _ _ hb (fun _ => hkn))]
      rw [hb] at hbx
      simp only [resOf, ← hbx, if_true, ite_self]
    | false =>
      rw [hb] at hbx
      by_cases hek : x.key = k
      · obtain ⟨d', h1⟩ := step_take hk (Or.inl hx1) hek (ds.map (fun k => (⟨k, .Down, 0⟩ : KeyEvent)) ++ ups.map (fun k => (⟨k, .UpAsync, 0⟩ : KeyEvent))) e (l ++ [ev]) d nots hkn
        rw [mLoop_inl h1]
        have hu' : ∀ k' ∈ ups, Replaceable k' ∧ (k' ∈ ds ∨ k' ≠ ev.key) := by
          intro k' h
          obtain ⟨a1, a2⟩ := hu k' h
          refine ⟨a1, ?_⟩
          rcases a2 with a2 | a2
          · simp only [List.mem_cons] at a2
            rcases a2 with a2 | a2
            · right; rw [a2, ← hek]; exact fun h => hnx h.symm
            · exact Or.inl a2
          · exact Or.inr a2
        cases hds : ds with
        | nil =>
          subst hds
          rw [List.map_nil, List.nil_append, loop_ups hev hx l hl' ups (fun k' h => ⟨(hu' k' h).1, fun _ => (hu' k' h).2.resolve_left (by simp)⟩) _ _ _ _ (by simp)]
          simp only [resOf, ← hbx, if_pos hek, if_true, Bool.false_eq_true, if_false, ite_self]
        | cons k2 ds2 =>
          subst hds
          rw [ih hl' hn' (k2 :: ds2) (fun k' h => hd k' (by simp [List.mem_cons] at h ⊢; right; exact h)) (by simp) hu']
          simp only [resOf, ← hbx, if_pos hek, if_true, Bool.false_eq_true, if_false, reduceCtorEq]
      · rw [mLoop_inl (step_skip hk hx2 hx1 hek _ _ _ _ _ hkn hb)]
        have := ih hl' hn' (k :: ds) hd hne hu e d
        rw [List.map_cons, List.cons_append] at this
        rw [this]
        simp only [resOf, ← hbx, if_neg hek, Bool.false_eq_true, if_false]

private theorem loop_nots {ev : KeyEvent} (hev : ev.state = .Down ∨ ev.state = .Up) (hx : Replaceable ev.key) (l : KeySequence)
    (hl : ∀ e ∈ l, e.state = .DownMatched ∧ Replaceable e.key) (hn : ev.key ∉ l.map (·.key)) (nots1 nots2 ups downs : List Key)
    (ht : ∀ k ∈ nots2, Replaceable k)
    (hd : ∀ k ∈ downs, Replaceable k ∧ k ∉ nots1 ++ nots2) (hne : downs ≠ []) (hu : ∀ k ∈ ups, Replaceable k ∧ (k ∈ downs ∨ k ≠ ev.key)) (e d) :
    mLoop (stC (nots2.map (fun k => (⟨k, .Not, 0⟩ : KeyEvent)) ++ (downs.map (fun k => (⟨k, .Down, 0⟩ : KeyEvent)) ++
        ups.map (fun k => (⟨k, .UpAsync, 0⟩ : KeyEvent)))) e (l ++ [ev]) d [] nots1) =
      { res := if ev.state = .Down then resOf (nots1 ++ nots2) ev.key downs (l.map (·.key)) else .no_match, any := [] } := by
  induction nots2 generalizing nots1 e with
  | nil =>
    rw [List.map_nil, List.nil_append, List.append_nil]
    exact loop_downs hev hx l hl hn nots1 ups downs (by simpa using hd) hne hu e d
  | cons n nots2 ih =>
    rw [List.map_cons, List.cons_append]
    obtain ⟨x, s, hxs⟩ : ∃ x s, l ++ [ev] = x :: s := by cases l <;> exact ⟨_, _, rfl⟩
    cases hb : bad nots1 x with
    | true =>
      have : (if ev.state = .Down then resOf (nots1 ++ n :: nots2) ev.key downs (l.map (·.key)) else .no_match) = MatchResult.no_match := by
        split
        · next hdn =>
          obtain ⟨k, ds, rfl⟩ : ∃ k ds, downs = k :: ds := by
            cases downs with
            | nil => exact absurd rfl hne
            | cons k ds => exact ⟨k, ds, rfl⟩
          have hxn : x.key ∈ nots1 := by
            unfold bad at hb
            simp only [Bool.and_eq_true, List.contains_eq_mem, decide_eq_true_eq] at hb
            exact hb.2
          cases l with
          | nil =>
            simp only [List.nil_append, List.cons.injEq] at hxs
            have hk := (hd k (by simp)).2
            rw [List.map_nil, resOf, if_neg]
            intro h
            apply hk
            rw [h, hxs.1]
            simp [hxn]
          | cons y l =>
            simp only [List.cons_append, List.cons.injEq] at hxs
            rw [List.map_cons, resOf, if_pos]
            rw [hxs.1]; simp [hxn]
        · rfl
      rw [this, hxs]
      exact mLoop_inr (step_bad _ _ _ _ _ _ _ hb (by simp))
    | false =>
      rw [mLoop_inl (step_not _ _ _ _ _ _ _ (ht n (by simp)).2.2.1 (by rw [hxs]; exact hb))]
      rw [ih (nots1 ++ [n]) (fun k hk => ht k (by simp [hk])) (by simpa using hd)]
      simp

/-! ### the result and the specification -/

private theorem resOf_bad (nots : List Key) (k : Key) (downs l : List Key) (h : ∃ x ∈ l, x ∈ nots) (hk : k ∉ l) :
    resOf nots k downs l = .no_match := by
  induction l generalizing downs with
  | nil => simp at h
  | cons x l ih =>
    cases downs with
    | nil => rfl
    | cons d ds =>
      rw [resOf]
      split
      · rfl
      · next hx =>
        have hx : x ∉ nots := by simpa using hx
        have h' : ∃ x ∈ l, x ∈ nots := by
          obtain ⟨y, h1, h2⟩ := h
          simp only [List.mem_cons] at h1
          rcases h1 with h1 | h1
          · subst h1; exact absurd h2 hx
          · exact ⟨y, h1, h2⟩
        have hk' : k ∉ l := fun h => hk (by simp [h])
        split
        · split
          · rfl
          · exact ih ds h' hk'
        · exact ih (d :: ds) h' hk'

private theorem resOf_spec (nots : List Key) (k : Key) (downs l : List Key) (h : ∀ x ∈ l, x ∉ nots) (hk : k ∉ l) (hn : downs.Nodup) :
    resOf nots k downs l =
      if downs.getLast? = some k ∧ downs.dropLast.isSublist l = true then .matched
      else if k ∈ downs.dropLast ∧ (downs.takeWhile (· != k)).isSublist l = true then .might_match else .no_match := by
  induction l generalizing downs with
  | nil =>
    cases downs with
    | nil => simp [resOf]
    | cons d ds =>
      rw [resOf]
      by_cases hdk : d = k
      · subst hdk
        cases ds with
        | nil => simp
        | cons d2 ds =>
          rw [List.nodup_cons] at hn
          have hl : (d :: d2 :: ds).getLast? ≠ some d := by
            intro hh
            rw [List.getLast?_cons_cons] at hh
            exact hn.1 (List.mem_of_getLast? hh)
          simp [hl]
      · rw [if_neg hdk, if_neg, if_neg]
        · rintro ⟨_, h2⟩
          have : (d != k) = true := by simpa using hdk
          rw [List.takeWhile_cons, if_pos this] at h2
          simp at h2
        · rintro ⟨h1, h2⟩
          cases ds with
          | nil => simp only [List.getLast?_singleton, Option.some.injEq] at h1; exact hdk h1
          | cons d2 ds => simp at h2
  | cons x l ih =>
    have hk' : k ∉ l := fun h => hk (by simp [h])
    have hxk : x ≠ k := fun h => hk (by simp [h])
    have h' : ∀ x ∈ l, x ∉ nots := fun x hx => h x (by simp [hx])
    cases downs with
    | nil => simp [resOf]
    | cons d ds =>
      have hxn : nots.contains x = false := by simpa using h x (by simp)
      rw [resOf, hxn]
      simp only [Bool.false_eq_true, if_false]
      by_cases hxd : x = d
      · subst hxd
        rw [if_pos rfl]
        have hxk' : (x != k) = true := by simpa using hxk
        cases ds with
        | nil => simp [hxk]
        | cons d2 ds =>
          rw [if_neg (by simp), ih (d2 :: ds) h' hk' (List.nodup_cons.1 hn).2]
          rw [List.getLast?_cons_cons, List.dropLast_cons_cons, List.takeWhile_cons (a := x), if_pos hxk']
          simp only [List.isSublist, beq_self_eq_true, if_true, List.mem_cons, Ne.symm hxk, false_or]
      · rw [if_neg hxd, ih (d :: ds) h' hk' hn]
        have e1 : (d :: ds).dropLast.isSublist (x :: l) = (d :: ds).dropLast.isSublist l := by
          cases ds with
          | nil => simp [List.isSublist]
          | cons d2 ds =>
            have : (d == x) = false := beq_eq_false_iff_ne.2 (Ne.symm hxd)
            rw [List.dropLast_cons_cons]
            simp only [List.isSublist, this, Bool.false_eq_true, if_false]
        have e2 : ((d :: ds).takeWhile (· != k)).isSublist (x :: l) = ((d :: ds).takeWhile (· != k)).isSublist l := by
          rw [List.takeWhile_cons]
          split
          · have : (d == x) = false := beq_eq_false_iff_ne.2 (Ne.symm hxd)
            simp only [List.isSublist, this, Bool.false_eq_true, if_false]
          · simp [List.isSublist]
        rw [e1, e2]

private theorem keysToPress_eq (nots downs ups : List Key) : keysToPress (nots.map (fun k => (⟨k, .Not, 0⟩ : KeyEvent)) ++ downs.map (fun k => (⟨k, .Down, 0⟩ : KeyEvent)) ++
      ups.map (fun k => (⟨k, .UpAsync, 0⟩ : KeyEvent))) = downs := by
  unfold keysToPress
  rw [List.filter_append, List.filter_append]
  have h1 : (nots.map (fun k => (⟨k, .Not, 0⟩ : KeyEvent))).filter (fun e => e.state == .Down) = [] := by simp
  have h2 : (ups.map (fun k => (⟨k, .UpAsync, 0⟩ : KeyEvent))).filter (fun e => e.state == .Down) = [] := by simp
  have h3 : (downs.map (fun k => (⟨k, .Down, 0⟩ : KeyEvent))).filter (fun e => e.state == .Down) = downs.map (fun k => (⟨k, .Down, 0⟩ : KeyEvent)) := by simp
  rw [h1, h2, h3]
  simp only [List.nil_append, List.append_nil, List.map_map]
  exact List.map_id _

private theorem keysExcluded_eq (nots downs ups : List Key) : keysExcluded (nots.map (fun k => (⟨k, .Not, 0⟩ : KeyEvent)) ++ downs.map (fun k => (⟨k, .Down, 0⟩ : KeyEvent)) ++
      ups.map (fun k => (⟨k, .UpAsync, 0⟩ : KeyEvent))) = nots := by
  unfold keysExcluded
  rw [List.filter_append, List.filter_append]
  have h1 : (downs.map (fun k => (⟨k, .Down, 0⟩ : KeyEvent))).filter (fun e => e.state == .Not) = [] := by simp
  have h2 : (ups.map (fun k => (⟨k, .UpAsync, 0⟩ : KeyEvent))).filter (fun e => e.state == .Not) = [] := by simp
  have h3 : (nots.map (fun k => (⟨k, .Not, 0⟩ : KeyEvent))).filter (fun e => e.state == .Not) = nots.map (fun k => (⟨k, .Not, 0⟩ : KeyEvent)) := by simp
  rw [h1, h2, h3]
  simp only [List.nil_append, List.append_nil, List.map_map]
  exact List.map_id _

/-- **(matcher)** A combination matches exactly when its last key is pressed, while the others are held and none of the excluded ones is;
it might match when another of its keys is pressed. -/
theorem matchSeq_combination {input : KeySequence} (hi : IsCombination input) {ev : KeyEvent} (hx : Replaceable ev.key)
    (hev : ev.state = .Down ∨ ev.state = .Up) (l : KeySequence) (hl : ∀ e ∈ l, e.state = .DownMatched ∧ Replaceable e.key)
    (hn : ev.key ∉ l.map (·.key)) :
    matchSeq input (l ++ [ev]) =
      { res := if ev.state = .Down then
          (if triggers input (l.map (·.key)) ev.key then .matched
            else if continues input (l.map (·.key)) ev.key then .might_match else .no_match)
          else .no_match
        any := [] } := by
  obtain ⟨nots, downs, ups, rfl, h1, h2, h3, h4, h5⟩ := hi
  have h0 : ∀ i : KeySequence, i ≠ [] → matchSeq i (l ++ [ev]) = mLoop (stC i 0 (l ++ [ev]) 0 [] []) := by
    intro i hi
    unfold matchSeq
    rw [if_neg (by simp [hi])]
    rfl
  rw [h0 _ (by simp [h1]), List.append_assoc, loop_nots hev hx l hl hn [] nots ups downs h5 (fun k hk => ⟨(h4 k hk).1, by simpa using (h4 k hk).2⟩) h1
    (fun k hk => ⟨(h4 k (h3 k hk)).1, Or.inl (h3 k hk)⟩)]
  rw [← List.append_assoc]
  unfold triggers continues
  rw [keysToPress_eq, keysExcluded_eq, List.nil_append]
  congr 1
  split
  · by_cases hb : ∃ x ∈ l.map (·.key), x ∈ nots
    · rw [resOf_bad _ _ _ _ hb hn]
      have : nots.all (fun n => !(l.map (·.key)).contains n) = false := by
        rw [List.all_eq_false]
        obtain ⟨x, a, b⟩ := hb
        exact ⟨x, b, by simp [List.contains_eq_mem] at a ⊢; exact a⟩
      rw [this]
      simp
    · rw [resOf_spec _ _ _ _ (fun x hx hx' => hb ⟨x, hx, hx'⟩) hn h2]
      have : nots.all (fun n => !(l.map (·.key)).contains n) = true := by
        rw [List.all_eq_true]
        intro x hx
        have : x ∉ l.map (·.key) := fun h => hb ⟨x, h, hx⟩
        simpa using this
      rw [this]
      simp only [Bool.and_true, Bool.and_eq_true, beq_iff_eq, List.contains_eq_mem, decide_eq_true_eq]
  · rfl

end KM
