import Verif.Lemmas.Match
import Verif.Props.Typing
import Verif.Lemmas.HeldMatch
/-!
# Matching typed keys, when other keys are held
-/
namespace KM

theorem wm_inl {m m' : MState} (h : mStep m = .inl m') : mLoop m = mLoop m' := by
  conv => lhs; unfold mLoop
  split
  · next h2 => rw [h] at h2; simp at h2; rw [h2]
  · next h2 => rw [h] at h2; simp at h2

theorem wm_inr {m : MState} {r} (h : mStep m = .inr r) : mLoop m = r := by
  conv => lhs; unfold mLoop
  split
  · next h2 => rw [h] at h2; simp at h2
  · next h2 => rw [h] at h2; simp at h2; exact h2.symm

theorem wm_unifiableKey {a b : Key} (ha : ProperKey a) (hb : ProperKey b) : unifiableKey a b = (a == b) := by
  unfold unifiableKey
  simp only [ProperKey] at ha hb
  simp [ha, hb]
  rw [Bool.eq_iff_iff]; simp

theorem wm_unifiable {a b : KeyEvent} (ha : ProperKey a.key) (hb : ProperKey b.key) :
    unifiable a b = (a.key == b.key && unifiableState a.state b.state) := by
  unfold unifiable
  rw [wm_unifiableKey ha hb]
  simp only [ProperKey] at ha hb
  simp [ha, hb]
  grind

theorem typingExpr_cons (k : Key) (ks : List Key) :
    typingExpr (k :: ks) = ⟨k, .Down, 0⟩ :: ⟨k, .UpAsync, 0⟩ :: typingExpr ks := rfl

theorem mem_typingExpr {ks : List Key} {x : KeyEvent} (h : x ∈ typingExpr ks) :
    x.key ∈ ks ∧ (x.state = .Down ∨ x.state = .UpAsync) ∧ x.value = 0 := by
  induction ks with
  | nil => simp [typingExpr] at h
  | cons k ks ih =>
    rw [typingExpr_cons] at h
    simp only [List.mem_cons] at h ⊢
    rcases h with h | h | h
    · subst h; simp
    · subst h; simp
    · have := ih h; exact ⟨Or.inr this.1, this.2⟩

theorem typingExpr_inj {a b : List Key} (h : typingExpr a = typingExpr b) : a = b := by
  induction a generalizing b with
  | nil => cases b with
    | nil => rfl
    | cons y b => simp [typingExpr] at h
  | cons x a ih => cases b with
    | nil => simp [typingExpr] at h
    | cons y b =>
      rw [typingExpr_cons, typingExpr_cons] at h
      simp only [List.cons.injEq, KeyEvent.mk.injEq, and_true] at h
      rw [h.1, ih h.2.2]

/-- a step which skips an event already matched before -/
theorem wm_skip {m : MState} {x : KeyEvent} {l : KeySequence} (hs : m.sRest = x :: l) (hx : x.state = .DownMatched)
    (hxp : ProperKey x.key) (hn : m.nmm = false) (hnots : m.nots = [])
    (ha : ∀ a ∈ m.async, a.state = .UpAsync)
    (he : m.eRest = [] ∨ ∃ k er, m.eRest = ⟨k, .Down, 0⟩ :: er ∧ ProperKey k ∧ k ≠ x.key) :
    mStep m = .inl { m with sRest := l } := by
  obtain ⟨eRest, e, sRest, downs, async, nots, ign, any, nmm⟩ := m
  simp only at hs hn hnots ha he
  subst hs hn hnots
  obtain ⟨m, hm⟩ : ∃ m : MState, m = ⟨eRest, e, x :: l, downs, async, [], ign, any, false⟩ := ⟨_, rfl⟩
  have hs : m.sRest = x :: l := by rw [hm]
  have hn : m.nmm = false := by rw [hm]
  have hnots : m.nots = [] := by rw [hm]
  have ha : ∀ a ∈ m.async, a.state = .UpAsync := by rw [hm]; exact ha
  have he : m.eRest = [] ∨ ∃ k er, m.eRest = ⟨k, .Down, 0⟩ :: er ∧ ProperKey k ∧ k ≠ x.key := by rw [hm]; exact he
  rw [← hm]
  have hwait : m.async.any (waitsFor x) = false := by
    rw [List.any_eq_false]
    intro a h
    simp [waitsFor, hx, ha a h]
  have helse : ∀ ee, mStepElse m x ee = .inl { m with sRest := l } ∨ (m.nmm && ee == KeyEvent.zero) = true := by
    intro ee
    left
    unfold mStepElse
    rw [hn, hwait, hx]
    simp only [Bool.false_and, Bool.false_eq_true, if_false, beq_self_eq_true, Bool.true_or, if_true]
    unfold MState.advS
    rw [hs]
    simp only [hx, ← hn]
    rfl
  have hdn : ∀ ee, m.dropNot ee = m := by
    intro ee
    unfold MState.dropNot
    split
    · cases m; subst hnots; rfl
    · rfl
  unfold mStep
  have hemp : (m.eRest.isEmpty && m.sRest.isEmpty) = false := by rw [hs]; simp
  rw [hemp]
  simp only [Bool.false_eq_true, if_false]
  have hse : m.se = x := by unfold MState.se; rw [hs]; rfl
  rw [hdn, hse]
  unfold mStepMain
  rw [hnots]
  simp only [List.contains_nil, Bool.and_false, Bool.false_eq_true, if_false]
  rcases he with he | ⟨k, er, he, hk, hne⟩
  · have hee : m.ee = KeyEvent.zero := by unfold MState.ee; rw [he]; rfl
    rw [hee, unifiable_zero_right]
    rcases helse KeyEvent.zero with h | h
    · have h' := h
      simp only [KeyEvent.zero, hnots] at h'
      simp [KeyEvent.zero, h', Key.any, Key.timeout]
    · rw [hn] at h; simp at h
  · have hee : m.ee = ⟨k, .Down, 0⟩ := by unfold MState.ee; rw [he]; rfl
    have hu : unifiable x ⟨k, .Down, 0⟩ = false := by
      rw [wm_unifiable hxp hk]
      have : (x.key == k) = false := beq_eq_false_iff_ne.2 (Ne.symm hne)
      simp [this]
    rw [hee, hu]
    rcases helse ⟨k, .Down, 0⟩ with h | h
    · have h3 : (k == Key.timeout) = false := beq_eq_false_iff_ne.2 hk.2.2
      simp [h3, h, hnots]
    · rw [hn] at h; simp at h

/-- keys which are held and not in the expression do not matter -/
theorem matchSeq_skip {w : List Key} {base p : KeySequence} (hw : ∀ k ∈ w, ProperKey k) (hne : w ≠ [])
    (hb : ∀ e ∈ base, e.state = .DownMatched ∧ ProperKey e.key ∧ e.key ∉ w) (hp : p ≠ []) :
    matchSeq (typingExpr w) (base ++ p) = matchSeq (typingExpr w) p := by
  obtain ⟨k, ks, rfl⟩ := List.exists_cons_of_ne_nil hne
  unfold matchSeq
  have h1 : (base ++ p).isEmpty = false := by cases base <;> cases p <;> simp_all
  have h2 : p.isEmpty = false := by cases p <;> simp_all
  rw [h1, h2]
  have h3 : (typingExpr (k :: ks)).isEmpty = false := by rw [typingExpr_cons]; rfl
  rw [h3]
  simp only [Bool.or_self, Bool.false_eq_true, if_false]
  clear h1
  induction base with
  | nil => rfl
  | cons x base ih =>
    rw [← ih (fun e he => hb e (by simp [he]))]
    have hx := hb x (by simp)
    apply wm_inl
    rw [wm_skip (x := x) (l := base ++ p) rfl hx.1 hx.2.1 rfl rfl (by simp [mInit]) (Or.inr ⟨k, _, rfl, hw k (by simp), ?_⟩)]
    · rfl
    · intro h; exact hx.2.2 (by rw [h]; simp)

/-- the release of a key, when all other events were matched before -/
theorem mLoop_releaseNoMatch {k : Key} (hk : ProperKey k) (n : Nat) : ∀ (m : MState) (D : KeySequence), m.size ≤ n →
    m.sRest = D ++ [⟨k, .Up, 0⟩] → (∀ e ∈ D, e.state = .DownMatched ∧ ProperKey e.key ∧ e.key ≠ k) →
    m.nmm = false → m.nots = [] → (∀ a ∈ m.async, a.state = .UpAsync ∧ ProperKey a.key ∧ a.key ≠ k) →
    ((∃ r, (∀ x ∈ r, ProperKey x) ∧ m.eRest = typingExpr r) ∨
      ∃ k1 r, (∀ x ∈ r, ProperKey x) ∧ ProperKey k1 ∧ k1 ≠ k ∧ m.eRest = ⟨k1, .UpAsync, 0⟩ :: typingExpr r) →
    (mLoop m).res = .no_match := by
  induction n with
  | zero =>
    intro m D hn hs
    unfold MState.size at hn
    rw [hs] at hn
    simp at hn
  | succ n ih =>
    intro m D hn hs hD hnm hnots hA hE
    have hdn : ∀ ee, m.dropNot ee = m := by
      intro ee
      unfold MState.dropNot
      split
      · cases m; subst hnots; rfl
      · rfl
    have hemp : (m.eRest.isEmpty && m.sRest.isEmpty) = false := by rw [hs]; simp
    rcases hE with ⟨r, hr, hE⟩ | ⟨k1, r, hr, hk1, hne, hE⟩
    · cases D with
      | nil =>
        -- the release
        have hse : m.se = ⟨k, .Up, 0⟩ := by unfold MState.se; rw [hs]; rfl
        have hwait : m.async.any (waitsFor ⟨k, .Up, 0⟩) = false := by
          rw [List.any_eq_false]
          intro a h
          obtain ⟨h1, h2, h3⟩ := hA a h
          have : (k == a.key) = false := beq_eq_false_iff_ne.2 (Ne.symm h3)
          simp [waitsFor, h1, wm_unifiableKey hk h2, this]
        have hkt : (k == Key.timeout) = false := beq_eq_false_iff_ne.2 hk.2.2
        have hres : ∀ ee, (ee = KeyEvent.zero ∨ ∃ x, ProperKey x ∧ ee = ⟨x, .Down, 0⟩) →
            mStepElse m ⟨k, .Up, 0⟩ ee = .inr { res := .no_match, any := m.any } := by
          intro ee hee
          have h1 : m.async.any (fun a => unifiable ee a) = false := by
            rw [List.any_eq_false]
            intro a h
            obtain ⟨h1, h2, h3⟩ := hA a h
            rcases hee with rfl | ⟨x, hx, rfl⟩
            · rw [unifiable_zero_left]; simp
            · rw [wm_unifiable hx h2]; simp [h1, unifiableState]
          have h2 : asyncUpDown m.async ee.key = false := by
            unfold asyncUpDown
            have : m.async.findIdx? (fun a => a == ⟨ee.key, .DownAsync, 0⟩) = none := by
              rw [List.findIdx?_eq_none_iff]
              intro a ha
              have := (hA a ha).1
              simp only [beq_eq_false_iff_ne, ne_eq]; rintro rfl; simp at this
            rw [this]
          unfold mStepElse
          rw [hnm, hwait, h1, h2]
          simp [hkt, hs]
        have hstep : mStep m = .inr { res := .no_match, any := m.any } := by
          unfold mStep
          rw [hemp]
          simp only [Bool.false_eq_true, if_false]
          rw [hdn, hse]
          unfold mStepMain
          rw [hnots]
          cases r with
          | nil =>
            have hee : m.ee = KeyEvent.zero := by unfold MState.ee; rw [hE]; rfl
            rw [hee, unifiable_zero_right, hres _ (Or.inl rfl)]
            simp [KeyEvent.zero, Key.any, Key.timeout]
          | cons x r =>
            have hx := hr x (by simp)
            have hee : m.ee = ⟨x, .Down, 0⟩ := by unfold MState.ee; rw [hE]; rfl
            have hu : unifiable ⟨k, .Up, 0⟩ ⟨x, .Down, 0⟩ = false := by
              rw [wm_unifiable hk hx]; simp [unifiableState]
            rw [hee, hu, hres _ (Or.inr ⟨x, hx, rfl⟩)]
            have h3 : (x == Key.timeout) = false := beq_eq_false_iff_ne.2 hx.2.2
            simp [h3]
        rw [wm_inr hstep]
      | cons d D =>
        have hd := hD d (by simp)
        have hD' : ∀ e ∈ D, e.state = .DownMatched ∧ ProperKey e.key ∧ e.key ≠ k := fun e he => hD e (by simp [he])
        by_cases hmatch : ∃ r', r = d.key :: r'
        · -- it is the next key
          obtain ⟨r', rfl⟩ := hmatch
          have hse : m.se = d := by unfold MState.se; rw [hs]; rfl
          have hee : m.ee = ⟨d.key, .Down, 0⟩ := by unfold MState.ee; rw [hE]; rfl
          have hu : unifiable d ⟨d.key, .Down, 0⟩ = true := by
            rw [wm_unifiable (b := ⟨d.key, .Down, 0⟩) hd.2.1 hd.2.1]; simp [hd.1, unifiableState]
          have hstep : mStep m = .inl { m with
              sRest := D ++ [⟨k, .Up, 0⟩]
              eRest := ⟨d.key, .UpAsync, 0⟩ :: typingExpr r'
              e := m.e + 1
              async := m.async.filter (fun a => !(d.key == a.key)) } := by
            unfold mStep
            rw [hemp]
            simp only [Bool.false_eq_true, if_false]
            rw [hdn, hse, hee]
            unfold mStepMain
            rw [hnots, hu]
            have h3 : (d.key == Key.any) = false := beq_eq_false_iff_ne.2 hd.2.1.2.1
            simp only [List.contains_nil, Bool.and_false, Bool.false_eq_true, if_false, h3, Bool.false_and, if_true, reduceCtorEq, beq_iff_eq]
            unfold MState.advSE MState.advS
            simp only [hs, List.cons_append, hd.1]
            unfold MState.advE
            simp only [hE, typingExpr_cons]
            cases m; simp
          rw [wm_inl hstep]
          refine ih _ D ?_ rfl hD' hnm hnots ?_ (Or.inr ⟨d.key, r', fun x hx => hr x (by simp [hx]), hd.2.1, hd.2.2, rfl⟩)
          · unfold MState.size at hn ⊢
            rw [hs, hE, typingExpr_cons] at hn
            simp at hn ⊢
            omega
          · intro a ha
            exact hA a (List.mem_filter.1 ha).1
        · have hstep : mStep m = .inl { m with sRest := D ++ [⟨k, .Up, 0⟩] } := by
            apply wm_skip (x := d) hs hd.1 hd.2.1 hnm hnots (fun a ha => (hA a ha).1)
            cases r with
            | nil => exact Or.inl hE
            | cons x r' =>
              refine Or.inr ⟨x, _, hE, hr x (by simp), ?_⟩
              intro h
              exact hmatch ⟨r', by rw [h]⟩
          rw [wm_inl hstep]
          refine ih _ D ?_ rfl hD' hnm hnots hA (Or.inl ⟨r, hr, hE⟩)
          unfold MState.size at hn ⊢
          rw [hs] at hn
          simp at hn ⊢
          omega
    · have hee : m.ee = ⟨k1, .UpAsync, 0⟩ := by unfold MState.ee; rw [hE]; rfl
      have hstep : mStep m = .inl { m with
          eRest := typingExpr r
          e := m.e + 1
          async := m.async ++ [⟨k1, .UpAsync, 0⟩] } := by
        unfold mStep
        rw [hemp]
        simp only [Bool.false_eq_true, if_false]
        rw [hdn, hee]
        unfold mStepMain
        rw [hnots]
        simp only [List.contains_nil, Bool.and_false, Bool.false_eq_true, if_false, beq_self_eq_true, Bool.or_true, if_true]
        unfold MState.advE
        simp only [hE]
      rw [wm_inl hstep]
      refine ih _ D ?_ hs hD hnm hnots ?_ (Or.inl ⟨r, hr, rfl⟩)
      · unfold MState.size at hn ⊢
        rw [hE] at hn
        simp at hn ⊢
        omega
      · intro a ha
        simp only [List.mem_append, List.mem_singleton] at ha
        rcases ha with ha | ha
        · exact hA a ha
        · subst ha; exact ⟨rfl, hk1, hne⟩

/-- the release of a key does not match, when all held keys were matched before -/
theorem matchSeq_releaseNoMatch {w : List Key} {D : KeySequence} {k : Key} (hk : ProperKey k) (hw : ∀ x ∈ w, ProperKey x)
    (hD : ∀ e ∈ D, e.state = .DownMatched ∧ ProperKey e.key ∧ e.key ≠ k) :
    (matchSeq (typingExpr w) (D ++ [⟨k, .Up, 0⟩])).res = .no_match := by
  unfold matchSeq
  split
  · rfl
  · exact mLoop_releaseNoMatch hk _ _ D (Nat.le_refl _) rfl hD rfl rfl (by simp [mInit]) (Or.inl ⟨w, hw, rfl⟩)

end KM
