import Verif.Props.Layers
import Verif.Props.Combinations
/-!
# Virtual keys and combinations of keys
-/
namespace KM

/-- a key held in the output can be released and pressed again -/
structure GoodHold (tapped : List Key) (h : Hold) : Prop where
  timeout : h.key ≠ Key.timeout
  wheel : isMouseWheel h.key = false
  lifted : isVirtualKey h.key = true → h.lifted = false
  cause : isVirtualKey h.cause = true → isVirtualKey h.key = false
  tapped : isTapped tapped h.key = false

variable {tapped : List Key}

/-- what is known while something is output -/
structure GoodSink (tapped : List Key) (s : Sink) : Prop where
  holds : ∀ h ∈ s.holds, GoodHold tapped h
  sent : ∀ e ∈ s.sent, e.key ≠ Key.timeout ∧ isMouseWheel e.key = false

theorem restore_good (banned : List Key) (k : Key) (hs : List Hold) (h : ∀ x ∈ hs, GoodHold tapped x) :
    (∀ x ∈ (restore banned k hs).1, GoodHold tapped x) ∧
    ∀ e ∈ (restore banned k hs).2.1, e.key ≠ Key.timeout ∧ isMouseWheel e.key = false ∧ isVirtualKey e.key = false := by
  induction hs with
  | nil => exact ⟨h, by intro e he; cases he⟩
  | cons x hs ih =>
    obtain ⟨ih1, ih2⟩ := ih (fun y hy => h y (List.mem_cons_of_mem _ hy))
    have hx := h x (by simp)
    unfold restore
    by_cases hl : (x.lifted && !banned.contains x.key) = true
    · rw [if_pos hl]
      have hlift : x.lifted = true := by rw [Bool.and_eq_true] at hl; exact hl.1
      have hv : isVirtualKey x.key = false := by
        cases hv : isVirtualKey x.key with
        | false => rfl
        | true => rw [hx.lifted hv] at hlift; cases hlift
      have hx' : GoodHold tapped { x with lifted := false } := ⟨hx.timeout, hx.wheel, fun _ => rfl, hx.cause, hx.tapped⟩
      by_cases hk : x.key = k
      · rw [if_pos hk]
        refine ⟨?_, ?_⟩
        · intro y hy
          rcases List.mem_cons.1 hy with rfl | hy
          · exact hx'
          · exact h y (List.mem_cons_of_mem _ hy)
        · intro e he
          have he : e ∈ [(⟨k, .Down, 0⟩ : KeyEvent)] := he
          rw [List.mem_singleton] at he
          subst he
          rw [← hk]
          exact ⟨hx.timeout, hx.wheel, hv⟩
      · rw [if_neg hk]
        refine ⟨?_, ?_⟩
        · intro y hy
          rcases List.mem_cons.1 hy with rfl | hy
          · exact hx'
          · exact ih1 y hy
        · intro e he
          rcases List.mem_cons.1 he with rfl | he
          · exact ⟨hx.timeout, hx.wheel, hv⟩
          · exact ih2 e he
    · rw [if_neg hl]
      refine ⟨?_, ih2⟩
      intro y hy
      rcases List.mem_cons.1 hy with rfl | hy
      · exact hx
      · exact ih1 y hy

theorem changeHold_good {k : Key} {f : Hold → Hold} {hs : List Hold} (h : ∀ x ∈ hs, GoodHold tapped x) (hf : ∀ x, GoodHold tapped x → x.key = k → GoodHold tapped (f x)) :
    ∀ x ∈ changeHold k f hs, GoodHold tapped x := by
  intro x hx
  unfold changeHold at hx
  obtain ⟨y, h1, rfl⟩ := List.mem_map.1 hx
  split
  · next h2 => exact hf y (h y h1) h2
  · exact h y h1

/-- an event which can be output because of `cause` -/
structure GoodEvent (tapped : List Key) (cause : Key) (e : KeyEvent) : Prop where
  states : e.state = .Down ∨ e.state = .Up ∨ e.state = .Not
  timeout : e.key ≠ Key.timeout
  wheel : isMouseWheel e.key = false
  pressed : e.state ≠ .Down → isVirtualKey e.key = false
  cause : isVirtualKey cause = true → isVirtualKey e.key = false
  tapped : isTapped tapped e.key = false

theorem toggles_key {e : KeyEvent} (h : isVirtualKey e.key = false) : toggles e = false := by unfold toggles; rw [h]; rfl

theorem withoutLast_sublist (k : Key) (l : KeySequence) : (withoutLast k l).Sublist l := by
  unfold withoutLast
  rw [← List.reverse_sublist, List.reverse_reverse]
  exact List.eraseP_sublist

/-- what outputting an event does -/
structure PutGood (tapped : List Key) (s s' : Sink) (e : KeyEvent) : Prop where
  good : GoodSink tapped s'
  count : s'.sent.countP toggles ≤ s.sent.countP toggles + if toggles e then 1 else 0
  virtual : isVirtualKey e.key = false → (∀ x ∈ s.sent, isVirtualKey x.key = false) → ∀ x ∈ s'.sent, isVirtualKey x.key = false

/-- something is output -/
theorem putGood_append {s s' : Sink} {e : KeyEvent} {l : KeySequence} (h : GoodSink tapped s) (hs : s'.sent = s.sent ++ l) (hh : ∀ x ∈ s'.holds, GoodHold tapped x)
    (hl : ∀ x ∈ l, x.key ≠ Key.timeout ∧ isMouseWheel x.key = false ∧ (isVirtualKey e.key = false → isVirtualKey x.key = false))
    (hc : l.countP toggles ≤ if toggles e then 1 else 0) : PutGood tapped s s' e := by
  refine ⟨⟨hh, ?_⟩, ?_, ?_⟩
  · rw [hs]
    intro x hx
    rcases List.mem_append.1 hx with hx | hx
    · exact h.sent x hx
    · exact ⟨(hl x hx).1, (hl x hx).2.1⟩
  · rw [hs, List.countP_append]; omega
  · rw [hs]
    intro hv h1 x hx
    rcases List.mem_append.1 hx with hx | hx
    · exact h1 x hx
    · exact (hl x hx).2.2 hv

theorem press_good {s : Sink} (h : GoodSink tapped s) {cause : Key} {e : KeyEvent} (he : GoodEvent tapped cause e) (hd : e.state = .Down) : PutGood tapped s (s.press cause e.key) e := by
  obtain ⟨r1, r2⟩ := restore_good s.banned e.key s.holds h.holds
  have hzero : (restore s.banned e.key s.holds).2.1.countP toggles = 0 := by
    rw [List.countP_eq_zero]
    intro x hx
    rw [toggles_key (r2 x hx).2.2]; decide
  have hrest : ∀ x ∈ (restore s.banned e.key s.holds).2.1, x.key ≠ Key.timeout ∧ isMouseWheel x.key = false ∧ (isVirtualKey e.key = false → isVirtualKey x.key = false) :=
    fun x hx => ⟨(r2 x hx).1, (r2 x hx).2.1, fun _ => (r2 x hx).2.2⟩
  have htog : ∀ st, toggles ⟨e.key, st, 0⟩ = true → toggles e = true := by
    intro st
    unfold toggles
    simp only [hd, Bool.and_eq_true]
    exact fun h => ⟨h.1, rfl⟩
  have happ : ∀ l : KeySequence, (∀ x ∈ l, x.key = e.key) → ∀ x ∈ (restore s.banned e.key s.holds).2.1 ++ l,
      x.key ≠ Key.timeout ∧ isMouseWheel x.key = false ∧ (isVirtualKey e.key = false → isVirtualKey x.key = false) := by
    intro l hl x hx
    rcases List.mem_append.1 hx with hx | hx
    · exact hrest x hx
    · rw [hl x hx]; exact ⟨he.timeout, he.wheel, id⟩
  unfold Sink.press
  simp only []
  by_cases hu : s.undoes e.key = true
  · rw [if_pos hu]
    have hsub : s.sent.dropLast.Sublist s.sent := List.dropLast_sublist _
    refine ⟨⟨changeHold_good h.holds (fun x hx _ => ⟨hx.timeout, hx.wheel, fun _ => rfl, hx.cause, hx.tapped⟩), fun y hy => h.sent y (hsub.subset hy)⟩, ?_, ?_⟩
    · exact Nat.le_trans hsub.countP_le (Nat.le_add_right _ _)
    · intro _ h2 y hy; exact h2 y (hsub.subset hy)
  rw [if_neg hu]
  by_cases h1 : (restore s.banned e.key s.holds).2.2 = true
  · rw [if_pos h1]
    refine putGood_append h rfl r1 hrest ?_
    rw [hzero]; exact Nat.zero_le _
  · rw [if_neg h1]
    by_cases h2 : (restore s.banned e.key s.holds).1.any (fun h => h.key == e.key) = true
    · rw [if_pos h2]
      refine putGood_append h (List.append_assoc _ _ _) (changeHold_good r1 (fun x hx _ => ⟨hx.timeout, hx.wheel, fun _ => rfl, hx.cause, hx.tapped⟩)) (happ _ ?_) ?_
      · intro x hx
        split at hx
        · simp only [List.mem_cons, List.not_mem_nil, or_false] at hx
          rcases hx with rfl | rfl <;> rfl
        · rw [List.mem_singleton] at hx; rw [hx]
      · rw [List.countP_append, hzero, Nat.zero_add]
        have ht := htog .Down
        have hu : toggles ⟨e.key, .Up, 0⟩ = false := by unfold toggles; simp
        cases h3 : toggles ⟨e.key, .Down, 0⟩ with
        | false => split <;> simp [hu, h3]
        | true =>
          rw [ht h3]
          split <;> simp [hu, h3]
    · rw [if_neg h2]
      refine putGood_append h (List.append_assoc _ _ _) ?_ (happ _ ?_) ?_
      · intro x hx
        rcases List.mem_append.1 hx with hx | hx
        · exact r1 x hx
        · rw [List.mem_singleton] at hx
          subst hx
          exact ⟨he.timeout, he.wheel, fun _ => rfl, he.cause, he.tapped⟩
      · intro x hx; rw [List.mem_singleton] at hx; rw [hx]
      · rw [List.countP_append, hzero, Nat.zero_add]
        have ht := htog .Down
        cases h3 : toggles ⟨e.key, .Down, 0⟩ with
        | false => simp [h3]
        | true => rw [ht h3]; simp [h3]

/-- a key is lifted -/
structure LiftGood (tapped : List Key) (s s' : Sink) : Prop where
  good : GoodSink tapped s'
  count : s'.sent.countP toggles ≤ s.sent.countP toggles
  virtual : (∀ x ∈ s.sent, isVirtualKey x.key = false) → ∀ x ∈ s'.sent, isVirtualKey x.key = false

theorem lift_good {s : Sink} (h : GoodSink tapped s) (k : Key) : LiftGood tapped s (s.lift k) := by
  unfold Sink.lift
  by_cases hk : (s.holds.any (fun h => h.key == k) && !isVirtualKey k && !isActionKey k) = true
  · rw [if_pos hk]
    simp only [Bool.and_eq_true, List.any_eq_true, Bool.not_eq_true'] at hk
    obtain ⟨⟨⟨x, hx, hxk⟩, hv⟩, _⟩ := hk
    have hxk : x.key = k := by simpa using hxk
    have ht : k ≠ Key.timeout := hxk ▸ (h.holds x hx).timeout
    have hw : isMouseWheel k = false := hxk ▸ (h.holds x hx).wheel
    have hup : toggles ⟨k, .Up, 0⟩ = false := by unfold toggles; simp
    refine ⟨⟨changeHold_good h.holds (fun x hx hk => ⟨hx.timeout, hx.wheel, (fun hvx => by rw [hk, hv] at hvx; cases hvx), hx.cause, hx.tapped⟩), ?_⟩, ?_, ?_⟩
    · intro y hy
      rcases List.mem_append.1 hy with hy | hy
      · exact h.sent y hy
      · split at hy
        · rw [List.mem_singleton] at hy; subst hy; exact ⟨ht, hw⟩
        · cases hy
    · rw [List.countP_append]
      split
      · rw [List.countP_cons, hup]; exact Nat.le_refl _
      · exact Nat.le_refl _
    · intro h1 y hy
      rcases List.mem_append.1 hy with hy | hy
      · exact h1 y hy
      · split at hy
        · rw [List.mem_singleton] at hy; subst hy; exact hv
        · cases hy
  · rw [if_neg hk]
    exact ⟨h, Nat.le_refl _, id⟩

theorem lifts_good (l : List Key) {s : Sink} (h : GoodSink tapped s) : LiftGood tapped s (l.foldl Sink.lift s) := by
  induction l generalizing s with
  | nil => exact ⟨h, Nat.le_refl _, id⟩
  | cons k l ih =>
    have h1 := lift_good h k
    have h2 := ih h1.good
    exact ⟨h2.good, Nat.le_trans h2.count h1.count, fun h => h2.virtual (h1.virtual h)⟩

theorem put_good {s : Sink} (h : GoodSink tapped s) {cause : Key} {e : KeyEvent} (he : GoodEvent tapped cause e) : PutGood tapped s (s.put cause e) e := by
  have hsame : PutGood tapped s s e := ⟨h, Nat.le_add_right _ _, fun _ h => h⟩
  have hone : ∀ hv : isVirtualKey e.key = false, ∀ x ∈ [(⟨e.key, .Up, 0⟩ : KeyEvent)],
      x.key ≠ Key.timeout ∧ isMouseWheel x.key = false ∧ (isVirtualKey e.key = false → isVirtualKey x.key = false) := by
    intro hv x hx
    rw [List.mem_singleton] at hx
    subst hx
    exact ⟨he.timeout, he.wheel, id⟩
  have hup : [(⟨e.key, .Up, 0⟩ : KeyEvent)].countP toggles ≤ if toggles e then 1 else 0 := by
    have hu : toggles ⟨e.key, .Up, 0⟩ = false := by unfold toggles; simp
    rw [List.countP_cons, hu]; exact Nat.zero_le _
  rcases he.states with hd | hd | hd
  · have : s.put cause e = s.press cause e.key := by unfold Sink.put; rw [hd]
    rw [this]
    exact press_good h he hd
  · have : s.put cause e = s.release cause e.key := by unfold Sink.put; rw [hd]
    rw [this]
    have hv := he.pressed (by rw [hd]; decide)
    unfold Sink.release
    cases hf : s.holds.find? (fun h => h.key == e.key) with
    | none => exact hsame
    | some x =>
      simp only [hv, Bool.and_false, Bool.false_eq_true, if_false]
      by_cases h1 : (x.twice && !s.banned.contains e.key) = true
      · rw [if_pos h1]
        have hsub := withoutLast_sublist e.key s.sent
        refine ⟨⟨changeHold_good h.holds (fun x hx _ => ⟨hx.timeout, hx.wheel, hx.lifted, hx.cause, hx.tapped⟩), fun y hy => h.sent y (hsub.subset hy)⟩, ?_, ?_⟩
        · exact Nat.le_trans hsub.countP_le (Nat.le_add_right _ _)
        · intro _ h2 y hy; exact h2 y (hsub.subset hy)
      · rw [if_neg h1]
        by_cases h2 : x.cause = cause
        · rw [if_pos h2]
          exact putGood_append h rfl (fun y hy => h.holds y (List.mem_filter.1 hy).1) (hone hv) hup
        · rw [if_neg h2]
          exact putGood_append h rfl (changeHold_good h.holds (fun x hx hk => ⟨hx.timeout, hx.wheel, (fun hvx => by rw [hk, hv] at hvx; cases hvx), hx.cause, hx.tapped⟩)) (hone hv) hup
  · have hl : LiftGood tapped s (s.put cause e) := by
      unfold Sink.put
      rw [hd]
      simp only []
      split
      · exact lifts_good _ h
      · exact lift_good h e.key
    exact ⟨hl.good, Nat.le_trans hl.count (Nat.le_add_right _ _), fun _ => hl.virtual⟩

/-- a virtual key is pressed and released -/
theorem tap_put {s : Sink} (h : GoodSink tapped s) (cause : Key) {v : Key} (hv : isTapped tapped v = true) :
    (s.put cause ⟨v, .Down, 0⟩).put cause ⟨v, .Up, 0⟩ = { s with
      holds := (restore s.banned v s.holds).1
      banned := s.banned.filter (fun b => b != v)
      restored := s.restored || !(restore s.banned v s.holds).2.1.isEmpty
      sent := s.sent ++ (restore s.banned v s.holds).2.1 ++ [⟨v, .Down, 0⟩, ⟨v, .Up, 0⟩] } := by
  have hne : ∀ x ∈ s.holds, x.key ≠ v := by
    intro x hx h'
    have := (h.holds x hx).tapped
    rw [h', hv] at this
    cases this
  obtain ⟨r1, r2⟩ := restore_good s.banned v s.holds h.holds
  have hne1 : ∀ x ∈ (restore s.banned v s.holds).1, x.key ≠ v := by
    intro x hx h'
    have := (r1 x hx).tapped
    rw [h', hv] at this
    cases this
  have hno : ∀ hs : List Hold, (∀ x ∈ hs, x.key ≠ v) → (restore s.banned v hs).2.2 = false := by
    intro hs
    induction hs with
    | nil => intro _; rfl
    | cons x hs ih =>
      intro hx
      have ih := ih (fun y hy => hx y (List.mem_cons_of_mem _ hy))
      unfold restore
      by_cases hl : (x.lifted && !s.banned.contains x.key) = true
      · rw [if_pos hl, if_neg (hx x (by simp))]; exact ih
      · rw [if_neg hl]; exact ih
  have hany : (restore s.banned v s.holds).1.any (fun h => h.key == v) = false := by
    rw [List.any_eq_false]
    intro x hx
    simpa using hne1 x hx
  have h1 : s.put cause ⟨v, .Down, 0⟩ = { s with
      holds := (restore s.banned v s.holds).1 ++ [{ key := v, cause := cause }]
      restored := s.restored || !(restore s.banned v s.holds).2.1.isEmpty
      sent := s.sent ++ (restore s.banned v s.holds).2.1 ++ [⟨v, .Down, 0⟩] } := by
    show s.press cause v = _
    unfold Sink.press
    simp only [undoes_none hne, hno s.holds hne, hany, Bool.false_eq_true, if_false]
  rw [h1]
  generalize (restore s.banned v s.holds) = q at hne1 ⊢
  show Sink.release cause _ v = _
  unfold Sink.release
  have hf : (q.1 ++ [({ key := v, cause := cause } : Hold)]).find? (fun h => h.key == v) = some { key := v, cause := cause } := by
    rw [List.find?_append, List.find?_eq_none.2 (fun x hx => by simpa using hne1 x hx)]
    simp
  have hfl : (q.1 ++ [({ key := v, cause := cause } : Hold)]).filter (fun h => h.key != v) = q.1 := by
    rw [List.filter_append, List.filter_eq_self.2 (fun x hx => by simpa using hne1 x hx)]
    simp
  simp only [hf, hfl]
  simp

/-- what can be output because of `cause` -/
inductive GoodOutput (tapped : List Key) (cause : Key) : KeySequence → Prop
  | nil : GoodOutput tapped cause []
  | one {e es} : GoodEvent tapped cause e → GoodOutput tapped cause es → GoodOutput tapped cause (e :: es)
  | tap {v es} : isTapped tapped v = true → GoodOutput tapped cause es → GoodOutput tapped cause (⟨v, .Down, 0⟩ :: ⟨v, .Up, 0⟩ :: es)

theorem tap_good {s : Sink} (h : GoodSink tapped s) (cause : Key) {v : Key} (hv : isTapped tapped v = true) :
    GoodSink tapped ((s.put cause ⟨v, .Down, 0⟩).put cause ⟨v, .Up, 0⟩) ∧
    ((s.put cause ⟨v, .Down, 0⟩).put cause ⟨v, .Up, 0⟩).sent.countP toggles ≤ s.sent.countP toggles + 1 := by
  rw [tap_put h cause hv]
  obtain ⟨r1, r2⟩ := restore_good s.banned v s.holds h.holds
  have hzero : (restore s.banned v s.holds).2.1.countP toggles = 0 := by
    rw [List.countP_eq_zero]
    intro x hx
    rw [toggles_key (r2 x hx).2.2]; decide
  have hvv : isVirtualKey v = true := by unfold isTapped at hv; rw [Bool.and_eq_true] at hv; exact hv.1
  have hvt : v ≠ Key.timeout := by rintro rfl; revert hvv; decide
  have hvw : isMouseWheel v = false := by
    cases hw : isMouseWheel v with
    | false => rfl
    | true =>
      have hw : (Key.WheelUp ≤ v ∧ v ≤ Key.WheelRight) := by simpa [isMouseWheel] using hw
      have hvv : (Key.first_virtual ≤ v ∧ v ≤ Key.last_virtual) := by simpa [isVirtualKey] using hvv
      have h1 : Key.WheelRight < Key.first_virtual := by decide
      exact absurd (Nat.le_trans hvv.1 hw.2) (Nat.not_le.2 h1)
  refine ⟨⟨r1, ?_⟩, ?_⟩
  · intro e he
    simp only [List.mem_append, List.mem_cons, List.not_mem_nil, or_false] at he
    rcases he with (he | he) | he | he
    · exact h.sent e he
    · exact ⟨(r2 e he).1, (r2 e he).2.1⟩
    · rw [he]; exact ⟨hvt, hvw⟩
    · rw [he]; exact ⟨hvt, hvw⟩
  · simp only [List.countP_append, hzero]
    have htu : toggles ⟨v, .Up, 0⟩ = false := by unfold toggles; simp
    simp only [List.countP_cons, List.countP_nil, htu]
    rw [if_neg (by simp)]
    split <;> simp

/-- a whole output -/
theorem puts_good {cause : Key} {out : KeySequence} (ho : GoodOutput tapped cause out) : ∀ {s : Sink}, GoodSink tapped s →
    GoodSink tapped (out.foldl (Sink.put cause) s) ∧ (out.foldl (Sink.put cause) s).sent.countP toggles ≤ s.sent.countP toggles + out.countP toggles ∧
      ((∀ e ∈ out, isVirtualKey e.key = false) → (∀ x ∈ s.sent, isVirtualKey x.key = false) →
        ∀ x ∈ (out.foldl (Sink.put cause) s).sent, isVirtualKey x.key = false) := by
  induction ho with
  | nil => intro s h; exact ⟨h, Nat.le_add_right _ _, fun _ h => h⟩
  | one he _ ih =>
    intro s h
    have h1 := put_good h he
    obtain ⟨h2, h3, h4⟩ := ih h1.good
    rw [List.foldl_cons]
    refine ⟨h2, ?_, ?_⟩
    · have := h1.count
      rw [List.countP_cons]
      omega
    · intro hv hs
      exact h4 (fun x hx => hv x (List.mem_cons_of_mem _ hx)) (h1.virtual (hv _ (by simp)) hs)
  | @tap v es hv _ ih =>
    intro s h
    obtain ⟨h1, h1'⟩ := tap_good h cause hv
    obtain ⟨h2, h3, h4⟩ := ih h1
    have hvv : isVirtualKey v = true := by unfold isTapped at hv; rw [Bool.and_eq_true] at hv; exact hv.1
    rw [List.foldl_cons, List.foldl_cons]
    refine ⟨h2, ?_, ?_⟩
    · have htd : toggles ⟨v, .Down, 0⟩ = true := by unfold toggles; rw [hvv]; rfl
      rw [List.countP_cons, List.countP_cons, htd]
      simp only [if_true]
      omega
    · intro hall
      have := hall ⟨v, .Down, 0⟩ (by simp)
      rw [hvv] at this
      cases this

/-! ### a step -/

/-- what can be output because of `cause` -/
def FitsFor (tapped : List Key) (cause : Key) (out : KeySequence) : Prop :=
  ∀ all, GoodOutput tapped cause (settled all out) ∧ (settled all out).countP toggles ≤ 9 ∧
    (isVirtualKey cause = true → ∀ e ∈ settled all out, isVirtualKey e.key = false)

/-! outputs which only tap some virtual keys -/

theorem tapsOnly_cons {e : KeyEvent} (h1 : isTapped tapped e.key = false) (h2 : ¬ (e.state = .Up ∧ isVirtualKey e.key = true)) (es : KeySequence) :
    tapsOnly tapped (e :: es) = tapsOnly tapped es := by
  have h3 : (e.state == .Up && isVirtualKey e.key) = false := by
    rw [Bool.eq_false_iff]
    intro h
    rw [Bool.and_eq_true, beq_iff_eq] at h
    exact h2 h
  cases es with
  | nil => simp [tapsOnly, h1, h3]
  | cons e' es => simp [tapsOnly, h1, h3]

theorem tapsOnly_tap {v : Key} (h : isTapped tapped v = true) (es : KeySequence) :
    tapsOnly tapped (⟨v, .Down, 0⟩ :: ⟨v, .Up, 0⟩ :: es) = tapsOnly tapped es := by
  simp [tapsOnly, h]

/-- without releases of virtual keys -/
theorem tapsOnly_none {o : KeySequence} (h : ∀ e ∈ o, e.state = .Up → isVirtualKey e.key = false) : tapsOnly [] o = true := by
  induction o with
  | nil => rfl
  | cons e o ih =>
    rw [tapsOnly_cons (by simp [isTapped])]
    · exact ih (fun x hx => h x (List.mem_cons_of_mem _ hx))
    · rintro ⟨h1, h2⟩
      rw [h e (by simp) h1] at h2
      cases h2

theorem Context.Layered.switches {ctx : Context} (h : ctx.Layered) : ctx.Switches [] :=
  ⟨fun o ho => ⟨fun e he => ((h.outputs o ho).1 e he).1, tapsOnly_none (fun e he => ((h.outputs o ho).1 e he).2), (h.outputs o ho).2⟩,
    fun o ho => ⟨fun e he => ((h.commands o ho).1 e he).1, tapsOnly_none (fun e he => ((h.commands o ho).1 e he).2), (h.commands o ho).2⟩, h.virtual⟩

/-- induction over such an output -/
theorem tapsOnly_rec {motive : KeySequence → Prop} (nil : motive [])
    (one : ∀ e es, isTapped tapped e.key = false → ¬ (e.state = .Up ∧ isVirtualKey e.key = true) → tapsOnly tapped es = true → motive es → motive (e :: es))
    (tap : ∀ v es, isTapped tapped v = true → tapsOnly tapped es = true → motive es → motive (⟨v, .Down, 0⟩ :: ⟨v, .Up, 0⟩ :: es)) :
    ∀ (n : Nat) (o : KeySequence), o.length ≤ n → tapsOnly tapped o = true → motive o := by
  intro n
  induction n with
  | zero =>
    intro o hn _
    rw [List.length_eq_zero_iff.1 (Nat.le_zero.1 hn)]
    exact nil
  | succ n ih =>
    intro o hn h
    cases o with
    | nil => exact nil
    | cons e es =>
      have hlen : es.length ≤ n := by simpa using hn
      cases ht : isTapped tapped e.key with
      | false =>
        by_cases hu : e.state = .Up ∧ isVirtualKey e.key = true
        · have hb : (e.state == .Up && isVirtualKey e.key) = true := by rw [hu.1, hu.2]; rfl
          cases es with
          | nil => simp [tapsOnly, hb] at h
          | cons e' es => simp [tapsOnly, ht, hb] at h
        · rw [tapsOnly_cons ht hu] at h
          exact one e es ht hu h (ih es hlen h)
      | true =>
        cases es with
        | nil => simp [tapsOnly, ht] at h
        | cons e' es =>
          simp only [tapsOnly, ht, if_true, Bool.and_eq_true, beq_iff_eq] at h
          obtain ⟨⟨h1, h2⟩, h3⟩ := h
          rw [h1, h2]
          exact tap e.key es ht h3 (ih es (by simp at hlen; omega) h3)

theorem tapsOnly_onPress {o : KeySequence} (h : tapsOnly tapped o = true) : tapsOnly tapped (onPress o) = true := by
  refine tapsOnly_rec (tapped := tapped) (motive := fun o => tapsOnly tapped (onPress o) = true) rfl ?_ ?_ _ o (Nat.le_refl _) h
  · intro e es h1 h2 _ ih
    unfold onPress at ih ⊢
    by_cases he : (e.state != .OutputOnRelease) = true
    · rw [List.takeWhile_cons_of_pos (p := fun x : KeyEvent => x.state != .OutputOnRelease) he, tapsOnly_cons h1 h2]; exact ih
    · rw [List.takeWhile_cons_of_neg (p := fun x : KeyEvent => x.state != .OutputOnRelease) he]; rfl
  · intro v es h1 _ ih
    unfold onPress at ih ⊢
    rw [List.takeWhile_cons_of_pos (by rfl), List.takeWhile_cons_of_pos (by rfl), tapsOnly_tap h1]
    exact ih

theorem tapsOnly_rest {o : KeySequence} (h : tapsOnly tapped o = true) : ∀ {rest}, onReleasePart o = some rest → tapsOnly tapped rest = true := by
  refine tapsOnly_rec (tapped := tapped) (motive := fun o => ∀ {rest}, onReleasePart o = some rest → tapsOnly tapped rest = true) ?_ ?_ ?_ _ o (Nat.le_refl _) h
  · intro rest h; cases h
  · intro e es h1 h2 h3 ih rest hr
    rw [onReleasePart] at hr
    split at hr
    · cases hr; exact h3
    · exact ih hr
  · intro v es _ _ ih rest hr
    rw [onReleasePart, if_neg (by simp), onReleasePart, if_neg (by simp)] at hr
    exact ih hr

theorem tapsOnly_filter {o : KeySequence} (h : tapsOnly tapped o = true) : tapsOnly tapped (o.filter (fun e => e.state != .OutputOnRelease)) = true := by
  refine tapsOnly_rec (tapped := tapped) (motive := fun o => tapsOnly tapped (o.filter (fun e => e.state != .OutputOnRelease)) = true) rfl ?_ ?_ _ o (Nat.le_refl _) h
  · intro e es h1 h2 _ ih
    by_cases he : (e.state != .OutputOnRelease) = true
    · rw [List.filter_cons_of_pos (p := fun x : KeyEvent => x.state != .OutputOnRelease) he, tapsOnly_cons h1 h2]; exact ih
    · rw [List.filter_cons_of_neg (p := fun x : KeyEvent => x.state != .OutputOnRelease) he]; exact ih
  · intro v es h1 _ ih
    rw [List.filter_cons_of_pos (by rfl), List.filter_cons_of_pos (by rfl), tapsOnly_tap h1]
    exact ih

/-- such an output is good -/
theorem settled_good {cause : Key} (all : List Key) {o : KeySequence} (h : tapsOnly tapped o = true)
    (ho : ∀ e ∈ o, (e.state = .Down ∨ e.state = .Up ∨ e.state = .Not) ∧ e.key ≠ Key.timeout ∧ isMouseWheel e.key = false ∧ (isVirtualKey cause = true → isVirtualKey e.key = false)) :
    GoodOutput tapped cause (settled all o) := by
  refine tapsOnly_rec (tapped := tapped) (motive := fun o => (∀ e ∈ o, (e.state = .Down ∨ e.state = .Up ∨ e.state = .Not) ∧ e.key ≠ Key.timeout ∧ isMouseWheel e.key = false ∧
    (isVirtualKey cause = true → isVirtualKey e.key = false)) → GoodOutput tapped cause (settled all o)) ?_ ?_ ?_ _ o (Nat.le_refl _) h ho
  · intro _; exact .nil
  · intro e es h1 h2 _ ih ho
    have ih := ih (fun x hx => ho x (List.mem_cons_of_mem _ hx))
    obtain ⟨g1, g2, g3, g4⟩ := ho e (by simp)
    have hs : settled all (e :: es) = (if e.state = .Not ∧ isVirtualKey e.key = true then if e.key ∈ all then [⟨e.key, .Down, 0⟩] else [] else [e]) ++ settled all es := by
      unfold settled; rw [List.flatMap_cons]
    rw [hs]
    by_cases hn : e.state = .Not ∧ isVirtualKey e.key = true
    · rw [if_pos hn]
      by_cases hm : e.key ∈ all
      · rw [if_pos hm]
        exact .one ⟨.inl rfl, g2, g3, fun h => absurd rfl h, g4, h1⟩ ih
      · rw [if_neg hm]; exact ih
    · rw [if_neg hn]
      refine .one ⟨g1, g2, g3, fun hd => ?_, g4, h1⟩ ih
      cases hv : isVirtualKey e.key with
      | false => rfl
      | true =>
        rcases g1 with g1 | g1 | g1
        · exact absurd g1 hd
        · exact absurd ⟨g1, hv⟩ h2
        · exact absurd ⟨g1, hv⟩ hn
  · intro v es h1 _ ih ho
    have ih := ih (fun x hx => ho x (List.mem_cons_of_mem _ (List.mem_cons_of_mem _ hx)))
    have hs : settled all (⟨v, .Down, 0⟩ :: ⟨v, .Up, 0⟩ :: es) = ⟨v, .Down, 0⟩ :: ⟨v, .Up, 0⟩ :: settled all es := by
      unfold settled
      rw [List.flatMap_cons, List.flatMap_cons]
      simp
    rw [hs]
    exact .tap h1 ih

/-- what is known about the state of the specification -/
structure CombLayers (tapped : List Key) (contexts : List Context) (r : Combiner) : Prop where
  ctxs : r.contexts = contexts
  client : r.client = [] ∨ 0 ∈ r.client
  holds : ∀ h ∈ r.holds, GoodHold tapped h
  pending : ∀ p ∈ r.pending, FitsFor tapped p.key (p.out.filter (fun e => e.state != .OutputOnRelease))

/-- the mapping which an output is from -/
theorem meaning_mem {cs : List Context} {inUse : List Nat} {dev : Int} {held : List Key} {k : Key} {o : KeySequence}
    (h : meaning cs inUse dev held k = some (.output o)) :
    ∃ ctx ∈ cs, ∃ m ∈ ctx.inputs, triggers m.input held k = true ∧ mappingOutput cs inUse ctx m = some o := by
  unfold meaning at h
  obtain ⟨⟨ctx, m⟩, hm, h1⟩ := List.exists_of_findSome?_eq_some h
  have hctx : ctx ∈ cs ∧ m ∈ ctx.inputs := by
    unfold mappingsFor at hm
    obtain ⟨j, _, hj⟩ := List.mem_flatMap.1 hm
    split at hj
    · next ctx' hc' =>
      split at hj
      · obtain ⟨m', h2, hm'⟩ := List.mem_map.1 hj
        simp only [Prod.mk.injEq] at hm'
        rw [← hm'.1, ← hm'.2]
        exact ⟨List.mem_of_getElem? hc', h2⟩
      · simp at hj
    · simp at hj
  refine ⟨ctx, hctx.1, m, hctx.2, ?_⟩
  unfold meaningOf at h1
  split at h1
  · next ht =>
    obtain ⟨o', h2, h3⟩ := Option.map_eq_some_iff.1 h1
    simp only [Meaning.output.injEq] at h3
    subst h3
    exact ⟨ht, h2⟩
  · split at h1 <;> simp at h1

theorem settled_mem {held : List Key} {out : KeySequence} {e : KeyEvent} (h : e ∈ settled held out) :
    (e ∈ out ∧ (e.state = .Not → isVirtualKey e.key = false)) ∨ (∃ x ∈ out, x.state = .Not ∧ isVirtualKey x.key = true ∧ e = ⟨x.key, .Down, 0⟩) := by
  unfold settled at h
  obtain ⟨x, h1, h2⟩ := List.mem_flatMap.1 h
  split at h2
  · next hx =>
    split at h2
    · rw [List.mem_singleton] at h2
      exact .inr ⟨x, h1, hx.1, hx.2, h2⟩
    · cases h2
  · next hx =>
    rw [List.mem_singleton] at h2
    subst h2
    refine .inl ⟨h1, fun hn => ?_⟩
    cases hv : isVirtualKey e.key with
    | false => rfl
    | true => exact absurd ⟨hn, hv⟩ hx

theorem settled_count (held : List Key) (out : KeySequence) : (settled held out).countP toggles ≤ out.countP mayToggle := by
  induction out with
  | nil => exact Nat.le_refl _
  | cons e out ih =>
    unfold settled at ih ⊢
    rw [List.flatMap_cons, List.countP_append, List.countP_cons]
    have : (if e.state = .Not ∧ isVirtualKey e.key = true then if e.key ∈ held then [(⟨e.key, .Down, 0⟩ : KeyEvent)] else [] else [e]).countP toggles ≤
        if mayToggle e = true then 1 else 0 := by
      split
      · next hx =>
        have : mayToggle e = true := by unfold mayToggle; rw [hx.1, hx.2]; rfl
        rw [this]
        split
        · rw [List.countP_cons]; simp; split <;> omega
        · exact Nat.zero_le _
      · have := toggles_may [e]
        rw [List.countP_cons, List.countP_cons, List.countP_nil, List.countP_nil] at this
        rw [List.countP_cons, List.countP_nil]
        omega
    omega

theorem meaning_fits {cs : List Context} (hr : ∀ ctx ∈ cs, ctx.OnlyCombines) (hl : ∀ ctx ∈ cs, ctx.Switches tapped) {inUse : List Nat} {dev : Int}
    {held : List Key} {k : Key} {o : KeySequence} (h : meaning cs inUse dev held k = some (.output o))
    {q : KeySequence} (hq : q.Sublist o) (hqt : tapsOnly tapped o = true → tapsOnly tapped q = true) (hqn : ∀ e ∈ q, e.state ≠ .OutputOnRelease) :
    FitsFor tapped k q := by
  intro all
  have hkey := meaning_output hr h
  obtain ⟨ctx, h1, m, h2, h3, h4⟩ := meaning_mem h
  have hor : (∃ c ∈ cs, o ∈ c.outputs) ∨ ∃ c ∈ cs, ∃ x ∈ c.commandOutputs, x.output = o := by
    unfold mappingOutput at h4
    split at h4
    · exact .inl ⟨ctx, h1, List.mem_of_getElem? h4⟩
    · exact .inr (commandOutput_mem h4)
  have hp : (∀ e ∈ o, isMouseWheel e.key = false) ∧ tapsOnly tapped o = true ∧ o.countP mayToggle ≤ 9 := by
    rcases hor with ⟨c, h5, h6⟩ | ⟨c, h5, x, h6, rfl⟩
    · exact (hl c h5).outputs o h6
    · exact (hl c h5).commands x h6
  have hv : isVirtualKey k = true → ∀ e ∈ o, isVirtualKey e.key = false := by
    intro hv
    have ht : (keysToPress m.input).getLast? = some k := by
      unfold triggers at h3
      simp only [Bool.and_eq_true, beq_iff_eq] at h3
      exact h3.1.1
    obtain ⟨h5, h6⟩ := (hl ctx h1).virtual m h2 k hv ht
    unfold mappingOutput at h4
    rw [if_pos h5] at h4
    exact h6 o h4
  have hv' : isVirtualKey k = true → ∀ e ∈ settled all q, isVirtualKey e.key = false := by
    intro hk e he
    rcases settled_mem he with ⟨he, _⟩ | ⟨x, hx, _, hxv, _⟩
    · exact hv hk e (hq.subset he)
    · rw [hv hk x (hq.subset hx)] at hxv; cases hxv
  refine ⟨settled_good all (hqt hp.2.1) ?_, Nat.le_trans (settled_count all q) (Nat.le_trans hq.countP_le hp.2.2), hv'⟩
  intro e he
  have hen := hqn e he
  have he := hq.subset he
  refine ⟨?_, (hkey.plain e he).2.1, hp.1 e he, fun hk => hv hk e he⟩
  rcases hkey.states e he with hs | hs | hs | hs
  · exact .inl hs
  · exact .inr (.inl hs)
  · exact .inr (.inr hs)
  · exact absurd hs hen

theorem Combiner.device_same (r : Combiner) (ev : KeyEvent) (dev : Int) : (r.device ev dev).contexts = r.contexts ∧ (r.device ev dev).holds = r.holds ∧
    (r.device ev dev).held = r.held ∧ (r.device ev dev).client = r.client ∧ (r.device ev dev).pending = r.pending := by
  unfold Combiner.device
  repeat' split
  all_goals exact ⟨rfl, rfl, rfl, rfl, rfl⟩

theorem onReleasePart_sublist {out rest : KeySequence} (h : onReleasePart out = some rest) : rest.Sublist out := by
  induction out with
  | nil => cases h
  | cons e out ih =>
    rw [onReleasePart] at h
    split at h
    · cases h; exact List.sublist_cons_self _ _
    · exact (ih h).trans (List.sublist_cons_self _ _)

theorem unmarked (q : KeySequence) : ∀ e ∈ q.filter (fun e => e.state != .OutputOnRelease), e.state ≠ .OutputOnRelease := by
  intro e he
  simpa using (List.mem_filter.1 he).2

/-- a step of the mappings -/
theorem combine_input {cs : List Context} (hr : ∀ ctx ∈ cs, ctx.OnlyCombines) (hl : ∀ ctx ∈ cs, ctx.Switches tapped) {r : Combiner}
    (h : CombLayers tapped cs r) (ev : KeyEvent) (dev : Int) (hk : isVirtualKey ev.key = true ∨ Ordinary ev.key) :
    CombLayers tapped cs (r.step (.input ev dev)).1 ∧ (∀ e ∈ (r.step (.input ev dev)).2, Immediate e) ∧ (r.step (.input ev dev)).2.countP toggles ≤ 9 ∧
      (isVirtualKey ev.key = true → ∀ e ∈ (r.step (.input ev dev)).2, isVirtualKey e.key = false) := by
  obtain ⟨d1, d2, d3, d4, d5⟩ := r.device_same ev dev
  have hc : r.contexts = cs := h.ctxs
  unfold Combiner.step
  simp only []
  by_cases hd : ev.state = .Down
  · rw [if_pos hd]
    by_cases hig : r.ignores ev dev = true
    · rw [if_pos hig]
      exact ⟨h, (by intro e he; cases he), Nat.zero_le _, (by intro _ e he; cases he)⟩
    · rw [if_neg hig]
      have hfit : GoodOutput tapped ev.key ((r.device ev dev).outputFor ev dev) ∧ ((r.device ev dev).outputFor ev dev).countP toggles ≤ 9 ∧
          (isVirtualKey ev.key = true → ∀ e ∈ (r.device ev dev).outputFor ev dev, isVirtualKey e.key = false) := by
        unfold Combiner.outputFor
        split
        · next o ho =>
          unfold Combiner.meaning at ho
          rw [d1, hc] at ho
          exact meaning_fits hr hl ho (q := onPress o) (List.takeWhile_sublist _) tapsOnly_onPress onPress_states _
        · rcases hk with hk | hk
          · rw [if_pos hk]
            exact ⟨.nil, Nat.zero_le _, (by intro _ e he; cases he)⟩
          · have hs := ordinary_sendable (e := ⟨ev.key, .Down, 0⟩) hk
            have hv : isVirtualKey ev.key = false := hs.2.1
            have hw : isMouseWheel ev.key = false := by
              cases hw : isMouseWheel ev.key with
              | false => rfl
              | true => exact absurd rfl (hs.2.2.2 hw)
            rw [if_neg (by rw [hv]; decide)]
            refine ⟨?_, ?_, ?_⟩
            · refine .one ⟨.inl rfl, hs.1, hw, fun _ => hv, fun _ => hv, ?_⟩ .nil
              unfold isTapped
              simp [hv]
            · rw [List.countP_cons, List.countP_nil]; split <;> omega
            · intro hv'; rw [hv] at hv'; cases hv'
      obtain ⟨h1, h2, h3⟩ := puts_good hfit.1 (s := { holds := (r.device ev dev).holds })
        ⟨by rw [d2]; exact h.holds, by intro e he; cases he⟩
      refine ⟨⟨?_, ?_, h1.holds, ?_⟩, ?_, ?_, ?_⟩
      · show (r.device ev dev).contexts = cs
        rw [d1, hc]
      · show (r.device ev dev).client = [] ∨ 0 ∈ (r.device ev dev).client
        rw [d4]; exact h.client
      · intro p hp
        have hp : p ∈ (r.device ev dev).pending ++ (r.device ev dev).pendingFor ev dev := hp
        rw [d5] at hp
        rcases List.mem_append.1 hp with hp | hp
        · exact h.pending p hp
        · unfold Combiner.pendingFor at hp
          split at hp
          · next o ho =>
            unfold Combiner.meaning at ho
            rw [d1, hc] at ho
            split at hp
            · next rest j hrest _ =>
              rw [List.mem_singleton] at hp
              subst hp
              exact meaning_fits hr hl ho (List.filter_sublist.trans (onReleasePart_sublist hrest)) (fun h => tapsOnly_filter (tapsOnly_rest h hrest)) (unmarked rest)
            · cases hp
          · cases hp
      · intro e he
        exact ⟨(h1.sent e he).1, fun hw => absurd (h1.sent e he).2 (by rw [hw]; decide)⟩
      · exact Nat.le_trans h2 (by simpa using hfit.2.1)
      · intro hv e he
        exact h3 (hfit.2.2 hv) (by intro x hx; cases hx) e he
  · rw [if_neg hd]
    have hfit : GoodOutput tapped ev.key ((r.device ev dev).releaseOutput ev.key) ∧ ((r.device ev dev).releaseOutput ev.key).countP toggles ≤ 9 ∧
        (isVirtualKey ev.key = true → ∀ e ∈ (r.device ev dev).releaseOutput ev.key, isVirtualKey e.key = false) := by
      unfold Combiner.releaseOutput
      split
      · next p hp =>
        rw [d5] at hp
        have hk : p.key = ev.key := by simpa using List.find?_some hp
        have := h.pending p (List.mem_of_find?_eq_some hp)
        rw [hk] at this
        exact this _
      · exact ⟨.nil, Nat.zero_le _, (by intro _ e he; cases he)⟩
    obtain ⟨h1, h2, h3⟩ := puts_good hfit.1 (s := { holds := (r.device ev dev).holds, banned := (r.device ev dev).banned })
      ⟨by rw [d2]; exact h.holds, by intro e he; cases he⟩
    unfold Combiner.release
    simp only []
    generalize hsk : ((r.device ev dev).releaseOutput ev.key).foldl (Sink.put ev.key) { holds := (r.device ev dev).holds, banned := (r.device ev dev).banned } = sink at h1 h2 h3 ⊢
    have hup : ∀ e ∈ (sink.holds.filter (fun h => h.cause == ev.key && !h.lifted)).reverse.map (fun h => (⟨h.key, .Up, 0⟩ : KeyEvent)),
        ∃ x ∈ sink.holds, x.cause = ev.key ∧ e = ⟨x.key, .Up, 0⟩ := by
      intro e he
      obtain ⟨x, h1, rfl⟩ := List.mem_map.1 he
      rw [List.mem_reverse, List.mem_filter, Bool.and_eq_true] at h1
      exact ⟨x, h1.1, by simpa using h1.2.1, rfl⟩
    refine ⟨⟨?_, ?_, ?_, ?_⟩, ?_, ?_, ?_⟩
    · show (r.device ev dev).contexts = cs
      rw [d1, hc]
    · show (r.device ev dev).client = [] ∨ 0 ∈ (r.device ev dev).client
      rw [d4]; exact h.client
    · exact fun x hx => h1.holds x (List.mem_filter.1 hx).1
    · intro p hp
      have hp : p ∈ (r.device ev dev).pending.filter (fun p => p.key != ev.key) := hp
      rw [d5] at hp
      exact h.pending p (List.mem_filter.1 hp).1
    · intro e he
      rcases List.mem_append.1 he with he | he
      · exact ⟨(h1.sent e he).1, fun hw => absurd (h1.sent e he).2 (by rw [hw]; decide)⟩
      · obtain ⟨x, h4, h5, rfl⟩ := hup e he
        exact ⟨(h1.holds x h4).timeout, fun _ h => by cases h⟩
    · rw [List.countP_append, List.countP_eq_zero (l := (sink.holds.filter (fun h => h.cause == ev.key && !h.lifted)).reverse.map (fun h => (⟨h.key, .Up, 0⟩ : KeyEvent))) |>.2]
      · exact Nat.le_trans h2 (by simpa using hfit.2.1)
      · intro e he
        obtain ⟨x, h4, h5, rfl⟩ := hup e he
        simp [toggles]
    · intro hv e he
      rcases List.mem_append.1 he with he | he
      · exact h3 (hfit.2.2 hv) (by intro x hx; cases hx) e he
      · obtain ⟨x, h4, h5, rfl⟩ := hup e he
        exact (h1.holds x h4).cause (by rw [h5]; exact hv)

/-- the operations, and the events of virtual keys -/
def combineAllowed (n : Nat) (op : StageOp) : Prop :=
  ((LayerOp.keys op).isLayer n ∧ op.isCombining n) ∨ ∃ v st, op = .input ⟨v, st, 0⟩ anyDeviceIndex ∧ isVirtualKey v = true ∧ (st = .Down ∨ st = .Up)

theorem combine_refines {cs : List Context} (hr : ∀ ctx ∈ cs, ctx.OnlyCombines) (hl : ∀ ctx ∈ cs, ctx.Switches tapped) (hf : ForwardsFirst cs) :
    Refinement Combiner.step (combineAllowed cs.length) (fun p r => CombInv p.1 p.2 r ∧ CombLayers tapped cs r) := by
  refine ⟨?_, ?_⟩
  · intro p r op ⟨h, hg⟩ hop
    have hlen : r.contexts.length = cs.length := by rw [hg.ctxs]
    cases op with
    | input ev dev =>
      have hk : isVirtualKey ev.key = true ∨ Ordinary ev.key := by
        rcases hop with hop | ⟨v, st, hop, hv, _⟩
        · exact .inr hop.1.2.1
        · cases hop; exact .inl hv
      have hacc : r.accepts (.input ev dev) := by
        have hremap : StageOp.isRemap r.contexts.length (.input ev dev) ∧ ev.value = 0 := by
          rcases hop with ⟨⟨hst, hk, hd1, hd2⟩, hc⟩ | ⟨v, st, hop, hv, hst⟩
          · exact ⟨⟨hst, ordinary_replaceable hk, hd1, hd2⟩, hc.2⟩
          · cases hop; exact ⟨⟨hst, virtual_replaceable hv, by decide, by decide⟩, rfl⟩
        refine ⟨hremap.1, hremap.2, ?_⟩
        intro _ hv _
        unfold Combiner.meaning
        rw [hg.ctxs]
        exact forwards_meaning hf hg.client hremap.1.2.2.1 hremap.1.2.2.2 _ _ hv
      obtain ⟨h1, h2, h3, _⟩ := combine_input hr hl hg ev dev hk
      have hstep := h.step hacc
      exact ⟨⟨hstep.1, h1⟩, hstep.2, h2, h3⟩
    | contexts idx =>
      rcases hop with ⟨hop, hcomb⟩ | ⟨v, st, hop, _⟩
      · have hstep := h.step (op := .contexts idx) ⟨by rw [hlen]; exact hop, trivial⟩
        exact ⟨⟨hstep.1, hg.ctxs, .inr hcomb.2, hg.holds, fun p hp => hg.pending p (List.mem_filter.1 hp).1⟩, hstep.2, (by intro e he; cases he), Nat.zero_le _⟩
      · cases hop
    | devices _ _ =>
      rcases hop with hop | ⟨v, st, hop, _⟩
      · exact hop.1.elim
      · cases hop
    | validate _ =>
      rcases hop with hop | ⟨v, st, hop, _⟩
      · exact hop.1.elim
      · cases hop
  · intro p r v st hv hst ⟨_, hg⟩
    refine ⟨.inr ⟨v, st, rfl, hv, hst⟩, ?_⟩
    exact (combine_input hr hl hg ⟨v, st, 0⟩ anyDeviceIndex (.inl hv)).2.2.2 hv

end KM
