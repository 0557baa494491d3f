import Verif.Spec.Exclude
/-!
# Matching while an application is excluded
-/
namespace KM

private theorem mLoop_inl {m m' : MState} (h : mStep m = .inl m') : mLoop m = mLoop m' := by
  rw [mLoop.eq_1 m]
  split
  · next m'' h' => rw [h] at h'; injection h' with h'; rw [h']
  · next r h' => rw [h] at h'; cases h'

private theorem mLoop_inr {m : MState} {r : MOut} (h : mStep m = .inr r) : mLoop m = r := by
  rw [mLoop.eq_1 m]
  split
  · next m'' h' => rw [h] at h'; cases h'
  · next r h' => rw [h] at h'; injection h' with h'; rw [h']

/-- what is known about keyboard keys -/
theorem keyboard_real {k : Key} (h : isKeyboardKey k = true) :
    k ≠ Key.none ∧ k ≠ Key.any ∧ k ≠ Key.timeout ∧ k ≠ Key.ContextActive ∧ isVirtualKey k = false := by
  refine ⟨?_, ?_, ?_, ?_, ?_⟩
  · rintro rfl; exact absurd h (by decide)
  · rintro rfl; exact absurd h (by decide)
  · rintro rfl; exact absurd h (by decide)
  · rintro rfl; exact absurd h (by decide)
  · simp only [isKeyboardKey, Bool.and_eq_true, decide_eq_true_eq] at h
    simp only [isVirtualKey, Bool.and_eq_false_iff, decide_eq_false_iff_not]
    exact Or.inl (Nat.not_le.2 (Nat.lt_of_le_of_lt h.1.1.2 (by decide)))

/-- keys which are both no pseudo keys unify when they are equal -/
theorem unifiableKey_real {a b : Key} (ha : isKeyboardKey a = true) (hb : b ≠ Key.any) (h : unifiableKey a b = true) : a = b := by
  have ha := keyboard_real ha
  unfold unifiableKey at h
  split at h
  · cases h
  · split at h
    · next h1 => simpa using h1
    · split at h
      · cases h
      · split at h
        · next h1 => simp [ha.2.1] at h1
        · split at h
          · next h1 => simp [hb] at h1
          · cases h

theorem unifiable_any {e : KeyEvent} (h : isKeyboardKey e.key = true) (hs : e.state = .Down) (v) :
    unifiable e ⟨Key.any, .Down, v⟩ = true := by
  have ha := keyboard_real h
  have h1 : (e.key == Key.any) = false := beq_eq_false_iff_ne.2 ha.2.1
  have h2 : (e.key == Key.none) = false := beq_eq_false_iff_ne.2 ha.1
  have h3 : (e.key == Key.timeout) = false := beq_eq_false_iff_ne.2 ha.2.2.1
  unfold unifiable unifiableKey
  simp [h1, h2, h3, hs, h, unifiableState, Key.any, Key.none, Key.timeout]

/-- `Any` matches a key which is pressed while others are held -/
theorem matchSeq_any {ev : KeyEvent} (hk : isKeyboardKey ev.key = true) (hd : ev.state = .Down) (l : KeySequence)
    (hl : ∀ e ∈ l, e.state = .DownMatched) :
    matchSeq (singleKey Key.any) (l ++ [ev]) = { res := .matched, any := [ev.key] } := by
  have hgo : ∀ l : KeySequence, (∀ e ∈ l, e.state = .DownMatched) →
      mLoop { eRest := singleKey Key.any, e := 0, sRest := l ++ [ev], downs := 0, async := [], nots := [], ign := [], any := [], nmm := false } =
        { res := .matched, any := [ev.key] } := by
    intro l hl
    induction l with
    | nil =>
      have hu := unifiable_any hk hd 0
      have h1 : mStep { eRest := singleKey Key.any, e := 0, sRest := [ev], downs := 0, async := [], nots := [], ign := [], any := [], nmm := false } =
          .inl { eRest := [⟨Key.any, .UpAsync, 0⟩], e := 1, sRest := [], downs := 1, async := [], nots := [], ign := [], any := [ev.key], nmm := false } := by
        simp [mStep, mStepMain, MState.dropNot, MState.se, MState.ee, singleKey, hd, hu, MState.advSE, MState.advS, MState.advE]
      have h2 : mStep { eRest := [⟨Key.any, .UpAsync, 0⟩], e := 1, sRest := [], downs := 1, async := [], nots := [], ign := [], any := [ev.key], nmm := false } =
          .inl { eRest := [], e := 2, sRest := [], downs := 1, async := [⟨Key.any, .UpAsync, 0⟩], nots := [], ign := [], any := [ev.key], nmm := false } := by
        simp [mStep, mStepMain, MState.dropNot, MState.se, MState.ee, MState.advE]
      have h3 : mStep { eRest := [], e := 2, sRest := [], downs := 1, async := [⟨Key.any, .UpAsync, 0⟩], nots := [], ign := [], any := [ev.key], nmm := false } =
          .inr { res := .matched, any := [ev.key] } := by
        simp [mStep]
      rw [List.nil_append, mLoop_inl h1, mLoop_inl h2, mLoop_inr h3]
    | cons x l ih =>
      have hx := hl x (by simp)
      have hu : unifiable x ⟨Key.any, .Down, 0⟩ = false := by
        unfold unifiable
        simp [hx]
      have h1 : mStep { eRest := singleKey Key.any, e := 0, sRest := x :: (l ++ [ev]), downs := 0, async := [], nots := [], ign := [], any := [], nmm := false } =
          .inl { eRest := singleKey Key.any, e := 0, sRest := l ++ [ev], downs := 0, async := [], nots := [], ign := [], any := [], nmm := false } := by
        simp [mStep, mStepMain, mStepElse, MState.dropNot, MState.se, MState.ee, singleKey, hx, hu, MState.advS, Key.any, Key.timeout]
      rw [List.cons_append, mLoop_inl h1]
      exact ih (fun e he => hl e (by simp [he]))
  have he : ((singleKey Key.any).isEmpty || (l ++ [ev]).isEmpty) = false := by simp [singleKey]
  unfold matchSeq
  rw [he]
  exact hgo l hl

/-! ### a release does not match -/

/-- the state of the matcher while the release is not reached; `p` is the part of the expression which is done -/
private structure Before (input l : KeySequence) (ev : KeyEvent) (p : KeySequence) (m : MState) : Prop where
  expr : input = p ++ m.eRest
  rest : ∃ l', m.sRest = l' ++ [ev] ∧ ∀ x ∈ l', x ∈ l
  nmm : m.nmm = false
  any : m.any = []
  presses : ∀ x ∈ p, x.state = .Down → x.key ∈ l.map (·.key)
  async : ∀ a ∈ m.async, (a.state = .DownAsync ∧ a.key ≠ Key.any ∧ a.key ≠ Key.timeout) ∨ ((a.state = .UpAsync ∨ a.state = .DownMatched) ∧ a.key ∈ l.map (·.key))

variable {input l : KeySequence} {ev : KeyEvent}

private theorem async_unifies {ee a : KeyEvent} (hkl : ∀ k ∈ l.map (·.key), isKeyboardKey k = true ∧ k ≠ ev.key) (hd : ee.state = .Down)
    (ha : (a.state = .DownAsync ∧ a.key ≠ Key.any ∧ a.key ≠ Key.timeout) ∨ ((a.state = .UpAsync ∨ a.state = .DownMatched) ∧ a.key ∈ l.map (·.key)))
    (hua : unifiable ee a = true) : ee.key ∈ l.map (·.key) := by
  have hnt : a.key ≠ Key.timeout := by
    rcases ha with ⟨_, _, h⟩ | ⟨_, h⟩
    · exact h
    · exact (keyboard_real (hkl _ h).1).2.2.1
  have hkeys : unifiableKey ee.key a.key = true := by
    unfold unifiable at hua
    cases hq : unifiableKey ee.key a.key with
    | true => rfl
    | false => rw [hq] at hua; simp at hua
  have het : ee.key ≠ Key.timeout := by
    intro h
    rw [h] at hkeys
    unfold unifiableKey at hkeys
    simp [Key.none, Key.timeout] at hkeys hnt
    have := hkeys.2
    exact hnt this.symm
  have hstate : unifiableState ee.state a.state = true ∧ ¬ (ee.key = Key.any ∧ a.state = .DownMatched) := by
    unfold unifiable at hua
    have : (ee.key == Key.timeout) = false := beq_eq_false_iff_ne.2 het
    rw [hkeys, this] at hua
    simp only [Bool.not_true, Bool.false_eq_true, if_false] at hua
    split at hua
    · cases hua
    · next h1 =>
      split at hua
      · cases hua
      · refine ⟨hua, ?_⟩
        rintro ⟨h2, h3⟩
        apply h1
        simp [h2, h3]
  rw [hd] at hstate
  rcases ha with ⟨h, _⟩ | ⟨h | h, h1⟩
  · rw [h] at hstate; exact absurd hstate.1 (by decide)
  · rw [h] at hstate; exact absurd hstate.1 (by decide)
  · have hea : ee.key ≠ Key.any := fun h2 => hstate.2 ⟨h2, h⟩
    have hak := (hkl _ h1).1
    have : a.key = ee.key := by
      apply unifiableKey_real hak hea
      unfold unifiableKey at hkeys ⊢
      have har := keyboard_real hak
      have h4 : (a.key == Key.none) = false := beq_eq_false_iff_ne.2 har.1
      have h5 : (a.key == Key.any) = false := beq_eq_false_iff_ne.2 har.2.1
      have h6 : (a.key == Key.timeout) = false := beq_eq_false_iff_ne.2 har.2.2.1
      have h7 : (ee.key == Key.any) = false := beq_eq_false_iff_ne.2 hea
      simp only [h4, h5, h6, h7, Bool.or_false, Bool.false_or, Bool.false_and] at hkeys ⊢
      rw [Bool.beq_comm (a := a.key)]
      exact hkeys
    rw [← this]; exact h1

private theorem Before.next (hi : OrdinaryMapping input) (hk : isKeyboardKey ev.key = true) (hu : ev.state = .Up)
    (hl : ∀ e ∈ l, e.state = .DownMatched ∧ isKeyboardKey e.key = true) (hn : ev.key ∉ l.map (·.key)) {p : KeySequence} {m : MState}
    (h : Before input l ev p m) :
    (∃ p' m', mStep m = .inl m' ∧ Before input l ev p' m') ∨ ∃ r, mStep m = .inr r ∧ r.res = .no_match := by
  obtain ⟨l', hs, hl'⟩ := h.rest
  have hkl : ∀ k ∈ l.map (·.key), isKeyboardKey k = true ∧ k ≠ ev.key := by
    intro k hk
    obtain ⟨x, h1, h2⟩ := List.mem_map.1 hk
    subst h2
    exact ⟨(hl x h1).2, fun he => hn (he ▸ hk)⟩
  have hne : m.sRest.isEmpty = false := by rw [hs]; simp
  -- the current event
  obtain ⟨se, sr, hsr⟩ : ∃ se sr, m.sRest = se :: sr := by
    cases hq : m.sRest with
    | nil => rw [hq] at hne; simp at hne
    | cons a b => exact ⟨a, b, rfl⟩
  have hse : m.se = se := by unfold MState.se; rw [hsr]; rfl
  have hcase : (se ∈ l ∧ ∃ l'', sr = l'' ++ [ev] ∧ ∀ x ∈ l'', x ∈ l) ∨ (se = ev ∧ sr = []) := by
    cases l' with
    | nil =>
      rw [hsr, List.nil_append] at hs
      injection hs with h1 h2
      exact Or.inr ⟨h1, h2⟩
    | cons a l'' =>
      rw [hsr, List.cons_append] at hs
      injection hs with h1 h2
      exact Or.inl ⟨h1 ▸ hl' a (by simp), l'', h2, fun x hx => hl' x (by simp [hx])⟩
  have hsek : isKeyboardKey se.key = true := by
    rcases hcase with ⟨h1, _⟩ | ⟨h1, _⟩
    · exact (hl se h1).2
    · rw [h1]; exact hk
  have hser := keyboard_real hsek
  -- the expected event
  obtain ⟨m1, hm1⟩ : ∃ m1, m1 = m.dropNot m.ee := ⟨_, rfl⟩
  have hB : Before input l ev p m1 := by
    subst hm1
    unfold MState.dropNot
    split
    · exact { h with }
    · exact h
  have hm1s : m1.sRest = m.sRest ∧ m1.eRest = m.eRest := by
    subst hm1; unfold MState.dropNot; split <;> exact ⟨rfl, rfl⟩
  have hstep : mStep m = mStepMain m1 se m.ee := by
    unfold mStep
    rw [hne, hse, hm1]
    simp
  rw [hstep]
  have hee : (m.eRest = [] ∧ m.ee = KeyEvent.zero) ∨ ∃ er, m.eRest = m.ee :: er := by
    unfold MState.ee
    cases m.eRest with
    | nil => exact Or.inl ⟨rfl, rfl⟩
    | cons a b => exact Or.inr ⟨b, rfl⟩
  generalize m.ee = ee at *
  -- the states which follow
  have advE : ∀ (m2 : MState), m2.eRest = m1.eRest → ee ≠ KeyEvent.zero → (ee.state = .Down → ee.key ∈ l.map (·.key)) →
      Before input l ev p m2 → ∃ p' m', m2.advE = .inl m' ∧ Before input l ev p' m' := by
    intro m2 he hz hd hb
    rcases hee with ⟨_, h2⟩ | ⟨er, h2⟩
    · exact absurd h2 hz
    · refine ⟨p ++ [ee], { m2 with eRest := er, e := m2.e + 1 }, ?_, ?_⟩
      · unfold MState.advE
        rw [he, hm1s.2, h2]
      · exact { hb with
          expr := by
            show input = p ++ [ee] ++ er
            rw [List.append_assoc, List.singleton_append, ← h2]
            exact h.expr
          presses := by
            intro x hx
            simp only [List.mem_append, List.mem_singleton] at hx
            rcases hx with hx | hx
            · exact h.presses x hx
            · subst hx; exact hd }
  have advS : ∀ (m2 : MState), m2.sRest = m1.sRest → se ∈ l → Before input l ev p m2 → ∃ p' m', m2.advS = .inl m' ∧ Before input l ev p' m' := by
    intro m2 he hse' hb
    rcases hcase with ⟨_, l'', h3, h4⟩ | ⟨h3, _⟩
    · refine ⟨p, { m2 with sRest := sr, downs := m2.downs + (if se.state == .Down then 1 else 0) }, ?_, ?_⟩
      · unfold MState.advS
        rw [he, hm1s.1, hsr]
      · exact { hb with rest := ⟨l'', h3, h4⟩ }
    · rw [h3] at hse'
      exact absurd (List.mem_map.2 ⟨ev, hse', rfl⟩) hn
  have hestates : ∀ er, m.eRest = ee :: er → ee ∈ input := by
    intro er he; rw [h.expr, he]; simp
  have hepre : ∀ er, m.eRest = ee :: er → ee.state = .Up ∨ ee.state = .UpAsync → ee.key ∈ l.map (·.key) := by
    intro er he hst
    obtain ⟨d, h1, h2, h3⟩ := hi.releases p ee er (by rw [← he]; exact h.expr) hst
    rw [← h2]
    exact h.presses d h1 h3
  have hzero : ∀ st, ee.state = st → st ≠ KeyEvent.zero.state → ee ≠ KeyEvent.zero := by
    intro st h1 h2 h3; rw [h3] at h1; exact h2 h1.symm
  unfold mStepMain
  split
  · exact Or.inr ⟨_, rfl, rfl⟩
  · split
    · next hst =>
      have hst : ee.state = .DownAsync ∨ ee.state = .UpAsync := by simpa using hst
      have hz : ee ≠ KeyEvent.zero := by
        rcases hst with h1 | h1
        · exact hzero _ h1 (by decide)
        · exact hzero _ h1 (by decide)
      obtain ⟨er, hr⟩ : ∃ er, m.eRest = ee :: er := by
        rcases hee with ⟨_, h2⟩ | h2
        · exact absurd h2 hz
        · exact h2
      left
      refine advE { m1 with async := m1.async ++ [ee] } rfl hz ?_ ?_
      · intro hd; rw [hd] at hst; simp at hst
      · exact { hB with
          async := by
            intro a ha
            simp only [List.mem_append, List.mem_singleton] at ha
            rcases ha with ha | ha
            · exact hB.async a ha
            · subst ha
              rcases hst with h1 | h1
              · exact Or.inl ⟨h1, hi.noAnyGroup _ (hestates er hr) h1⟩
              · exact Or.inr ⟨Or.inl h1, hepre er hr (Or.inr h1)⟩ }
    · split
      · next hst =>
        have hst : ee.state = .Not := by
          simp only [Bool.and_eq_true, beq_iff_eq] at hst; exact hst.1
        left
        refine advE { m1 with nots := m1.nots ++ [ee.key] } rfl (hzero _ hst (by decide)) ?_ { hB with }
        intro hd; rw [hd] at hst; cases hst
      · split
        · split
          · exact Or.inr ⟨_, rfl, rfl⟩
          · next hc =>
            rw [hB.any] at hc
            simp at hc
        · next hna =>
          split
          · next hun =>
            -- unifiable
            obtain ⟨er, hr⟩ : ∃ er, m.eRest = ee :: er := by
              rcases hee with ⟨_, h2⟩ | h2
              · exfalso
                rw [h2] at hun
                unfold unifiable unifiableKey at hun
                simp [KeyEvent.zero, Key.none, Key.any] at hun
              · exact h2
            have hkeys : unifiableKey se.key ee.key = true := by
              unfold unifiable at hun
              cases hq : unifiableKey se.key ee.key with
              | true => rfl
              | false => rw [hq] at hun; simp at hun
            have hstate : unifiableState se.state ee.state = true := by
              unfold unifiable at hun
              have : (se.key == Key.timeout) = false := beq_eq_false_iff_ne.2 hser.2.2.1
              rw [hkeys, this] at hun
              simp only [Bool.not_true, Bool.false_eq_true, if_false] at hun
              split at hun
              · cases hun
              · split at hun
                · cases hun
                · exact hun
            have hst := hi.states ee (hestates er hr)
            rcases hcase with ⟨hsl, l'', h3, h4⟩ | ⟨h3, _⟩
            · have hdm := (hl se hsl).1
              have hna : ee.key ≠ Key.any := by
                intro hea
                unfold unifiable at hun
                simp [hea, hdm, hser.2.1] at hun
              have hkk := unifiableKey_real hsek hna hkeys
              left
              refine ⟨p ++ [ee], { m1 with
                any := if ee.key == Key.any && se.state == .Down then m1.any ++ [se.key] else m1.any
                async := m1.async.filter (fun a => !(se.key == a.key))
                sRest := sr
                downs := m1.downs + (if se.state == .Down then 1 else 0)
                eRest := er
                e := m1.e + 1 }, ?_, ?_⟩
              · unfold MState.advSE MState.advS
                simp only [hm1s.1, hsr]
                unfold MState.advE
                simp only [hm1s.2, hr]
              · exact {
                  expr := by
                    show input = p ++ [ee] ++ er
                    rw [List.append_assoc, List.singleton_append, ← hr]
                    exact h.expr
                  rest := ⟨l'', h3, h4⟩
                  nmm := hB.nmm
                  any := by
                    have : (ee.key == Key.any) = false := beq_eq_false_iff_ne.2 hna
                    simp only [this, Bool.false_and, Bool.false_eq_true, if_false]
                    exact hB.any
                  presses := by
                    intro x hx
                    simp only [List.mem_append, List.mem_singleton] at hx
                    rcases hx with hx | hx
                    · exact h.presses x hx
                    · subst hx
                      intro _
                      rw [← hkk]
                      exact List.mem_map.2 ⟨se, hsl, rfl⟩
                  async := fun a ha => hB.async a (List.mem_filter.1 ha).1 }
            · exfalso
              rw [h3, hu] at hstate
              have heu : ee.state = .Up := by
                rcases hst with h | h | h | h | h <;> rw [h] at hstate <;> first | exact h | (exact absurd hstate (by decide))
              have hna' : ee.key ≠ Key.any := by
                intro hea
                apply hna
                simp [hea, heu, h3, hu, (keyboard_real hk).1]
              have hkk := unifiableKey_real hsek hna' hkeys
              have := hepre er hr (Or.inl heu)
              rw [← hkk, h3] at this
              exact hn this
          · split
            · next hz =>
              exfalso
              simp only [Bool.and_eq_true, beq_iff_eq] at hz
              have := hser.1
              rw [hz.2] at this
              exact this rfl
            · split
              · next hst =>
                exfalso
                have hst : ee.state = .NoMightMatch := by simpa using hst
                rcases hee with ⟨_, h2⟩ | ⟨er, hr⟩
                · rw [h2] at hst; cases hst
                · have := hi.states ee (hestates er hr)
                  rw [hst] at this
                  simp at this
              · -- the last branch
                have hnm := hB.nmm
                have h0 : ¬ (m1.nmm && ee == KeyEvent.zero) = true := by simp [hnm]
                by_cases hw : m1.async.any (waitsFor se) = true
                · have hval : mStepElse m1 se ee = MState.advS { m1 with async := modFirst (waitsFor se) (fun a => { a with state := se.state }) m1.async } := by
                    unfold mStepElse
                    rw [if_neg h0, if_pos hw]
                  rw [hval]
                  -- an asynchronous event waits
                  obtain ⟨a, ha, hwa⟩ := List.any_eq_true.1 hw
                  unfold waitsFor at hwa
                  simp only [Bool.and_eq_true, beq_iff_eq] at hwa
                  rcases hcase with ⟨hsl, _⟩ | ⟨h3, _⟩
                  · have hdm := (hl se hsl).1
                    left
                    refine advS { m1 with async := modFirst (waitsFor se) (fun a => { a with state := se.state }) m1.async } rfl hsl { hB with async := ?_ }
                    have hmem : ∀ (as : KeySequence), (∀ a ∈ as, (a.state = .DownAsync ∧ a.key ≠ Key.any ∧ a.key ≠ Key.timeout) ∨ ((a.state = .UpAsync ∨ a.state = .DownMatched) ∧ a.key ∈ l.map (·.key))) →
                        ∀ a ∈ modFirst (waitsFor se) (fun a => { a with state := se.state }) as,
                        (a.state = .DownAsync ∧ a.key ≠ Key.any ∧ a.key ≠ Key.timeout) ∨ ((a.state = .UpAsync ∨ a.state = .DownMatched) ∧ a.key ∈ l.map (·.key)) := by
                      intro as has
                      induction as with
                      | nil => intro a ha; simp [modFirst] at ha
                      | cons b as ih =>
                        intro a ha
                        unfold modFirst at ha
                        split at ha
                        · next hwb =>
                          simp only [List.mem_cons] at ha
                          rcases ha with ha | ha
                          · subst ha
                            refine Or.inr ⟨Or.inr hdm, ?_⟩
                            unfold waitsFor at hwb
                            simp only [Bool.and_eq_true, beq_iff_eq, hdm] at hwb
                            rcases has b (by simp) with h5 | h5
                            · show b.key ∈ _
                              rw [← unifiableKey_real hsek h5.2.1 hwb.2]
                              exact List.mem_map.2 ⟨se, hsl, rfl⟩
                            · exact h5.2
                          · exact has a (by simp [ha])
                        · simp only [List.mem_cons] at ha
                          rcases ha with ha | ha
                          · subst ha; exact has _ (by simp)
                          · exact ih (fun a ha => has a (by simp [ha])) a ha
                    exact hmem m1.async hB.async
                  · exfalso
                    rw [h3, hu] at hwa
                    simp only [if_true] at hwa
                    rcases hB.async a ha with h5 | h5
                    · rw [hwa.1] at h5; simp at h5
                    · have h6 := hkl _ h5.2
                      exact h6.2 (unifiableKey_real hk (keyboard_real h6.1).2.1 hwa.2).symm
                · by_cases hdm : (se.state == .DownMatched || se.state == .UpMatched) = true
                  · have hval : mStepElse m1 se ee = m1.advS := by
                      unfold mStepElse
                      rw [if_neg h0, if_neg hw, if_pos hdm]
                    rw [hval]
                    rcases hcase with ⟨hsl, _⟩ | ⟨h3, _⟩
                    · exact Or.inl (advS m1 rfl hsl hB)
                    · rw [h3, hu] at hdm; simp at hdm
                  · by_cases hw2 : m1.async.any (fun a => unifiable ee a) = true
                    · have hval : mStepElse m1 se ee = MState.advE { m1 with async := m1.async.eraseP (fun a => unifiable ee a) } := by
                        unfold mStepElse
                        rw [if_neg h0, if_neg hw, if_neg hdm, if_pos hw2]
                      rw [hval]
                      obtain ⟨a, ha, hua⟩ := List.any_eq_true.1 hw2
                      have hz : ee ≠ KeyEvent.zero := by
                        intro hz
                        rw [hz] at hua
                        unfold unifiable unifiableKey at hua
                        simp [KeyEvent.zero, Key.none, Key.any] at hua
                      left
                      refine advE { m1 with async := m1.async.eraseP (fun a => unifiable ee a) } rfl hz ?_
                        { hB with async := fun a ha => hB.async a (List.mem_of_mem_eraseP ha) }
                      intro hd
                      exact async_unifies hkl hd (hB.async a ha) hua
                    · by_cases hud : (ee.state == .Down && asyncUpDown m1.async ee.key) = true
                      · have hval : mStepElse m1 se ee = m1.advE := by
                          unfold mStepElse
                          rw [if_neg h0, if_neg hw, if_neg hdm, if_neg hw2, if_pos hud]
                        rw [hval]
                        simp only [Bool.and_eq_true, beq_iff_eq] at hud
                        left
                        refine advE m1 rfl (hzero _ hud.1 (by decide)) ?_ hB
                        intro _
                        have h7 := hud.2
                        unfold asyncUpDown at h7
                        split at h7
                        · next i hi' =>
                          have h8 : m1.async[i]? = some ⟨ee.key, .UpAsync, 0⟩ := by simpa using h7
                          rcases hB.async _ (List.mem_of_getElem? h8) with h9 | h9
                          · simp at h9
                          · exact h9.2
                        · cases h7
                      · have ht : ¬ (se.key == Key.timeout && ee.key != Key.timeout && m1.downs != 0) = true := by
                          simp [hser.2.2.1]
                        have hval : mStepElse m1 se ee = .inr { res := if m1.sRest.isEmpty then .might_match else .no_match, any := m1.any } := by
                          unfold mStepElse
                          rw [if_neg h0, if_neg hw, if_neg hdm, if_neg hw2, if_neg hud, if_neg ht, if_neg (by simp [hnm]), if_neg (by simp [hnm])]
                        rw [hval]
                        refine Or.inr ⟨_, rfl, ?_⟩
                        rw [hm1s.1, hne]
                        rfl

/-- A release does not match anything else than an expression which presses the key before -/
theorem matchSeq_release (hi : OrdinaryMapping input) (hk : isKeyboardKey ev.key = true) (hu : ev.state = .Up)
    (hl : ∀ e ∈ l, e.state = .DownMatched ∧ isKeyboardKey e.key = true) (hn : ev.key ∉ l.map (·.key)) :
    (matchSeq input (l ++ [ev])).res = .no_match := by
  have hgo : ∀ n p (m : MState), m.size = n → Before input l ev p m → (mLoop m).res = .no_match := by
    intro n
    induction n using Nat.strongRecOn with
    | _ n ih =>
      intro p m hs hb
      rcases hb.next hi hk hu hl hn with ⟨p', m', h1, h2⟩ | ⟨r, h1, h2⟩
      · rw [mLoop_inl h1]
        exact ih m'.size (hs ▸ mStep_size h1) p' m' rfl h2
      · rw [mLoop_inr h1]; exact h2
  have he : (input.isEmpty || (l ++ [ev]).isEmpty) = false := by
    have := hi.notEmpty
    cases hq : input with
    | nil => exact absurd hq this
    | cons a b => simp
  unfold matchSeq
  rw [he]
  exact hgo _ [] _ rfl ⟨rfl, ⟨l, rfl, fun _ h => h⟩, rfl, rfl, fun _ h => (by cases h), fun _ h => (by cases h)⟩

end KM
