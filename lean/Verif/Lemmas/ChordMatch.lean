import Verif.Lemmas.WordMatch
import Verif.Lemmas.WordHeld
/-!
# Matching keys pressed together, when other keys are held or pressed
-/
namespace KM

/-- One iteration, for an expression without forbidden keys, wildcards and timeouts. -/
theorem mStep_plain {m : MState} (hnots : m.nots = []) (hnm : m.nmm = false) (hne : m.sRest ≠ [] ∨ m.eRest ≠ [])
    (he : ∀ e ∈ m.eRest, ProperKey e.key ∧ (e.state = .Down ∨ e.state = .DownAsync ∨ e.state = .UpAsync))
    (hs : ∀ e ∈ m.sRest, e.key ≠ Key.timeout) :
    (∃ ee er, m.eRest = ee :: er ∧ (ee.state = .DownAsync ∨ ee.state = .UpAsync) ∧
      mStep m = .inl { m with async := m.async ++ [ee], eRest := er, e := m.e + 1 }) ∨
    (∃ ee er se sr, m.eRest = ee :: er ∧ m.sRest = se :: sr ∧ unifiable se ee = true ∧
      mStep m = .inl { m with eRest := er, e := m.e + 1, sRest := sr, downs := m.downs + (if se.state == .Down then 1 else 0),
                              async := m.async.filter (fun a => !(se.key == a.key)) }) ∨
    (∃ se sr, m.sRest = se :: sr ∧ m.async.any (waitsFor se) = true ∧
      mStep m = .inl { m with sRest := sr, downs := m.downs + (if se.state == .Down then 1 else 0),
                              async := modFirst (waitsFor se) (fun a => { a with state := se.state }) m.async }) ∨
    (∃ se sr, m.sRest = se :: sr ∧ (se.state = .DownMatched ∨ se.state = .UpMatched) ∧
      mStep m = .inl { m with sRest := sr, downs := m.downs + (if se.state == .Down then 1 else 0) }) ∨
    (∃ ee er, m.eRest = ee :: er ∧ ee.state = .Down ∧ m.async.any (fun a => unifiable ee a) = true ∧
      mStep m = .inl { m with async := m.async.eraseP (fun a => unifiable ee a), eRest := er, e := m.e + 1 }) ∨
    (∃ ee er, m.eRest = ee :: er ∧ ee.state = .Down ∧ asyncUpDown m.async ee.key = true ∧
      mStep m = .inl { m with eRest := er, e := m.e + 1 }) ∨
    mStep m = .inr { res := if m.sRest.isEmpty then .might_match else .no_match, any := m.any } := by
  obtain ⟨eRest, e, sRest, downs, async, nots, ign, any, nmm⟩ := m
  simp only at hnots hnm hne he hs
  subst hnots hnm
  have hz1 : ∀ a, waitsFor KeyEvent.zero a = false := by
    intro a; simp [waitsFor, KeyEvent.zero, unifiableKey]
  have hz2 : ∀ a, unifiable KeyEvent.zero a = false := unifiable_zero_left
  cases eRest with
  | nil =>
    cases sRest with
    | nil => simp at hne
    | cons se sr =>
      have hst := hs se (by simp)
      have hu : unifiable se KeyEvent.zero = false := unifiable_zero_right se
      by_cases hw : async.any (waitsFor se) = true
      · refine Or.inr (Or.inr (Or.inl ⟨se, sr, rfl, hw, ?_⟩))
        simp [mStep, MState.dropNot, MState.ee, MState.se, mStepMain, KeyEvent.zero, Key.any, Key.timeout] at hu ⊢
        simp [hu, mStepElse, hw, MState.advS]
      · by_cases hm : se.state = .DownMatched ∨ se.state = .UpMatched
        · refine Or.inr (Or.inr (Or.inr (Or.inl ⟨se, sr, rfl, hm, ?_⟩)))
          simp [mStep, MState.dropNot, MState.ee, MState.se, mStepMain, KeyEvent.zero, Key.any, Key.timeout] at hu ⊢
          rcases hm with hm | hm <;> simp [hu, mStepElse, hw, MState.advS, hm]
        · refine Or.inr (Or.inr (Or.inr (Or.inr (Or.inr (Or.inr ?_)))))
          have hza : (async.any fun a => unifiable KeyEvent.zero a) = false := by simp [hz2]
          rw [not_or] at hm
          have hm1 : (se.state == KeyState.DownMatched) = false := beq_eq_false_iff_ne.2 hm.1
          have hm2 : (se.state == KeyState.UpMatched) = false := beq_eq_false_iff_ne.2 hm.2
          have hst' : (se.key == Key.timeout) = false := beq_eq_false_iff_ne.2 hst
          simp [mStep, MState.dropNot, MState.ee, MState.se, mStepMain, hu]
          simp [KeyEvent.zero, Key.any, Key.timeout] at hza hst' ⊢
          unfold mStepElse
          simp only [hw, hm1, hm2, Bool.or_self, Bool.false_eq_true, if_false, Bool.false_and]
          simp [hst', Key.timeout]
          intro x hx h
          rw [hza x hx] at h
          simp at h
  | cons ee er =>
    obtain ⟨hep, hest⟩ := he ee (by simp)
    have hea : (ee.key == Key.any) = false := beq_eq_false_iff_ne.2 hep.2.1
    have het : (ee.key == Key.timeout) = false := beq_eq_false_iff_ne.2 hep.2.2
    by_cases hasy : ee.state = .DownAsync ∨ ee.state = .UpAsync
    · refine Or.inl ⟨ee, er, rfl, hasy, ?_⟩
      rcases hasy with h | h <;> simp [mStep, MState.dropNot, MState.ee, mStepMain, h, MState.advE]
    · have hdown : ee.state = .Down := by
        rcases hest with h | h
        · exact h
        · exact absurd h hasy
      have hez : (ee == KeyEvent.zero) = false := by
        rw [beq_eq_false_iff_ne]; rintro rfl; exact hep.1 rfl
      cases sRest with
      | nil =>
        have hu : unifiable KeyEvent.zero ee = false := hz2 ee
        have hw : async.any (waitsFor KeyEvent.zero) = false := by simp [hz1]
        by_cases h1 : async.any (fun a => unifiable ee a) = true
        · refine Or.inr (Or.inr (Or.inr (Or.inr (Or.inl ⟨ee, er, rfl, hdown, h1, ?_⟩))))
          simp [mStep, MState.dropNot, MState.ee, MState.se, mStepMain, hdown, hea, het, hu]
          unfold mStepElse
          simp only [hw, h1, Bool.false_eq_true, if_false, if_true, Bool.false_and]
          simp [KeyEvent.zero, MState.advE]
        · by_cases h2 : asyncUpDown async ee.key = true
          · refine Or.inr (Or.inr (Or.inr (Or.inr (Or.inr (Or.inl ⟨ee, er, rfl, hdown, h2, ?_⟩)))))
            simp [mStep, MState.dropNot, MState.ee, MState.se, mStepMain, hdown, hea, het, hu]
            unfold mStepElse
            simp only [hw, h1, h2, hdown, Bool.false_eq_true, if_false, if_true, Bool.false_and, beq_self_eq_true, Bool.and_self]
            simp [KeyEvent.zero, MState.advE]
          · refine Or.inr (Or.inr (Or.inr (Or.inr (Or.inr (Or.inr ?_)))))
            simp [mStep, MState.dropNot, MState.ee, MState.se, mStepMain, hdown, hea, het, hu]
            unfold mStepElse
            simp only [hw, h1, h2, Bool.false_eq_true, if_false, Bool.false_and, Bool.and_false]
            simp [KeyEvent.zero, Key.timeout]
      | cons se sr =>
        have hst := hs se (by simp)
        have hst' : (se.key == Key.timeout) = false := beq_eq_false_iff_ne.2 hst
        by_cases hu : unifiable se ee = true
        · refine Or.inr (Or.inl ⟨ee, er, se, sr, rfl, rfl, hu, ?_⟩)
          simp [mStep, MState.dropNot, MState.ee, MState.se, mStepMain, hdown, hea, hu, MState.advSE, MState.advS, MState.advE]
        · have hmain : mStep ⟨ee :: er, e, se :: sr, downs, async, [], ign, any, false⟩ =
              mStepElse ⟨ee :: er, e, se :: sr, downs, async, [], ign, any, false⟩ se ee := by
            simp [mStep, MState.dropNot, MState.ee, MState.se, mStepMain, hdown, hea, het, hu]
          rw [hmain]
          unfold mStepElse
          by_cases hw : async.any (waitsFor se) = true
          · refine Or.inr (Or.inr (Or.inl ⟨se, sr, rfl, hw, ?_⟩))
            simp only [hw, Bool.false_eq_true, if_false, if_true, Bool.false_and]
            rfl
          · by_cases hm : se.state = .DownMatched ∨ se.state = .UpMatched
            · refine Or.inr (Or.inr (Or.inr (Or.inl ⟨se, sr, rfl, hm, ?_⟩)))
              have : (se.state == .DownMatched || se.state == .UpMatched) = true := by simpa using hm
              simp only [hw, this, Bool.false_eq_true, if_false, if_true, Bool.false_and]
              rfl
            · have hm' : (se.state == .DownMatched || se.state == .UpMatched) = false := by simpa using hm
              by_cases h1 : async.any (fun a => unifiable ee a) = true
              · refine Or.inr (Or.inr (Or.inr (Or.inr (Or.inl ⟨ee, er, rfl, hdown, h1, ?_⟩))))
                simp only [hw, hm', h1, Bool.false_eq_true, if_false, if_true, Bool.false_and]
                rfl
              · by_cases h2 : asyncUpDown async ee.key = true
                · refine Or.inr (Or.inr (Or.inr (Or.inr (Or.inr (Or.inl ⟨ee, er, rfl, hdown, h2, ?_⟩)))))
                  simp only [hw, hm', h1, h2, hdown, Bool.false_eq_true, if_false, if_true, Bool.false_and, beq_self_eq_true, Bool.and_self]
                  rfl
                · refine Or.inr (Or.inr (Or.inr (Or.inr (Or.inr (Or.inr ?_)))))
                  simp only [hw, hm', h1, h2, hst', Bool.false_eq_true, if_false, Bool.false_and, Bool.and_false]

theorem chord_unify {a b : KeyEvent} (ha : ProperKey a.key) (hb : ProperKey b.key) (h : unifiable a b = true) :
    a.key = b.key ∧ unifiableState a.state b.state = true := by
  rw [wm_unifiable ha hb] at h
  simpa using h

theorem chord_waits {a b : KeyEvent} (ha : ProperKey a.key) (hb : ProperKey b.key) (h : waitsFor a b = true) :
    a.key = b.key ∧ b.state = (if a.state = .Up then .UpAsync else .DownAsync) := by
  unfold waitsFor at h
  rw [wm_unifiableKey ha hb] at h
  simpa [and_comm] using h

/-- a key is pressed or released which is not in the expression -/
structure Strange (y : KeyEvent) (m : MState) : Prop where
  nots : m.nots = []
  nmm : m.nmm = false
  mem : y ∈ m.sRest
  seq : ∀ e ∈ m.sRest, ProperKey e.key
  exp : ∀ e ∈ m.eRest, ProperKey e.key ∧ e.key ≠ y.key ∧ (e.state = .Down ∨ e.state = .DownAsync ∨ e.state = .UpAsync)
  async : ∀ a ∈ m.async, ProperKey a.key ∧ a.key ≠ y.key

theorem Strange.noMatch {y : KeyEvent} (hy : y.state = .Down ∨ y.state = .Up) {m : MState} (h : Strange y m) :
    (mLoop m).res = .no_match := by
  refine mLoop_inv (Strange y) (fun r => r.res = .no_match) ?_ ?_ m h
  · intro m m' h hs
    have hne : m.sRest ≠ [] := List.ne_nil_of_mem h.mem
    rcases mStep_plain h.nots h.nmm (Or.inl hne) (fun e he => ⟨(h.exp e he).1, (h.exp e he).2.2⟩) (fun e he => (h.seq e he).2.2) with
      ⟨ee, er, h1, h2, h3⟩ | ⟨ee, er, se, sr, h1, h2, h3, h4⟩ | ⟨se, sr, h1, h2, h3⟩ | ⟨se, sr, h1, h2, h3⟩ | ⟨ee, er, h1, h2, h3, h4⟩ |
      ⟨ee, er, h1, h2, h3, h4⟩ | h1
    · rw [h3] at hs; injection hs with hs; subst hs
      have hex := h.exp
      rw [h1] at hex
      refine ⟨h.nots, h.nmm, h.mem, h.seq, fun e he => hex e (by simp [he]), ?_⟩
      intro a ha
      rcases List.mem_append.1 ha with ha | ha
      · exact h.async a ha
      · rw [List.mem_singleton] at ha
        subst ha
        exact ⟨(hex a (by simp)).1, (hex a (by simp)).2.1⟩
    · rw [h4] at hs; injection hs with hs; subst hs
      have hex := h.exp
      have hsq := h.seq
      have hm := h.mem
      rw [h1] at hex
      rw [h2] at hsq hm
      have hk := (chord_unify (hsq se (by simp)) (hex ee (by simp)).1 h3).1
      refine ⟨h.nots, h.nmm, ?_, fun e he => hsq e (by simp [he]), fun e he => hex e (by simp [he]), ?_⟩
      · rcases List.mem_cons.1 hm with hm | hm
        · subst hm; exact absurd hk.symm (hex ee (by simp)).2.1
        · exact hm
      · intro a ha; exact h.async a (List.mem_filter.1 ha).1
    · rw [h3] at hs; injection hs with hs; subst hs
      have hsq := h.seq
      have hm := h.mem
      rw [h1] at hsq hm
      refine ⟨h.nots, h.nmm, ?_, fun e he => hsq e (by simp [he]), h.exp, ?_⟩
      · rcases List.mem_cons.1 hm with hm | hm
        · subst hm
          obtain ⟨a, ha, hw⟩ := List.any_eq_true.1 h2
          exact absurd (chord_waits (hsq y (by simp)) (h.async a ha).1 hw).1.symm (h.async a ha).2
        · exact hm
      · intro a ha
        rcases modFirst_mem ha with ha | ⟨b, hb, _, rfl⟩
        · exact h.async a ha
        · exact h.async b hb
    · rw [h3] at hs; injection hs with hs; subst hs
      have hsq := h.seq
      have hm := h.mem
      rw [h1] at hsq hm
      refine ⟨h.nots, h.nmm, ?_, fun e he => hsq e (by simp [he]), h.exp, h.async⟩
      rcases List.mem_cons.1 hm with hm | hm
      · subst hm
        rcases hy with hy | hy <;> (rw [hy] at h2; simp at h2)
      · exact hm
    · rw [h4] at hs; injection hs with hs; subst hs
      have hex := h.exp
      rw [h1] at hex
      exact ⟨h.nots, h.nmm, h.mem, h.seq, fun e he => hex e (by simp [he]), fun a ha => h.async a (List.mem_of_mem_eraseP ha)⟩
    · rw [h4] at hs; injection hs with hs; subst hs
      have hex := h.exp
      rw [h1] at hex
      exact ⟨h.nots, h.nmm, h.mem, h.seq, fun e he => hex e (by simp [he]), h.async⟩
    · rw [h1] at hs; simp at hs
  · intro m r h hs
    have hne : m.sRest ≠ [] := List.ne_nil_of_mem h.mem
    rcases mStep_plain h.nots h.nmm (Or.inl hne) (fun e he => ⟨(h.exp e he).1, (h.exp e he).2.2⟩) (fun e he => (h.seq e he).2.2) with
      ⟨ee, er, _, _, h3⟩ | ⟨ee, er, se, sr, _, _, _, h3⟩ | ⟨se, sr, _, _, h3⟩ | ⟨se, sr, _, _, h3⟩ | ⟨ee, er, _, _, _, h3⟩ |
      ⟨ee, er, _, _, _, h3⟩ | h3
    all_goals (rw [h3] at hs; try (simp at hs; done))
    injection hs with hs
    subst hs
    have : m.sRest.isEmpty = false := by cases hq : m.sRest <;> simp_all
    simp [this]

/-- A key `z` which the expression waits for is not pressed before the end of the sequence, or before a key is released
(`rest` begins with its release). -/
structure Missing (z : Key) (rest : KeySequence) (m : MState) : Prop where
  nots : m.nots = []
  nmm : m.nmm = false
  seq : ∃ D, m.sRest = D ++ rest ∧ ∀ e ∈ D, (e.state = .Down ∨ e.state = .DownMatched) ∧ e.key ≠ z
  proper : ∀ e ∈ m.sRest, ProperKey e.key
  exp : ∃ l r, m.eRest = l ++ ⟨z, .Down, 0⟩ :: r ∧ (∀ e ∈ l, e.state = .Down ∨ e.state = .DownAsync) ∧
    ∀ e ∈ m.eRest, ProperKey e.key ∧ (e.state = .Down ∨ e.state = .DownAsync ∨ e.state = .UpAsync)
  async : ∀ a ∈ m.async, ProperKey a.key ∧ (a.state = .DownAsync ∨ a.state = .Down ∨ a.state = .DownMatched) ∧ (a.key = z → a.state = .DownAsync)

theorem Missing.expNe {z rest} {m : MState} (h : Missing z rest m) : m.eRest ≠ [] := by
  obtain ⟨l, r, h, _⟩ := h.exp
  rw [h]; simp

/-- the next event is one of the presses -/
theorem Missing.next {z rest} (hrest : ∀ y ∈ rest.head?, y.state = .Up) {m : MState} (h : Missing z rest m) {se sr}
    (hs : m.sRest = se :: sr) :
    (∃ D, sr = D ++ rest ∧ (se.state = .Down ∨ se.state = .DownMatched) ∧ se.key ≠ z ∧
      ∀ e ∈ D, (e.state = .Down ∨ e.state = .DownMatched) ∧ e.key ≠ z) ∨ se.state = .Up := by
  obtain ⟨D, h1, h2⟩ := h.seq
  rw [hs] at h1
  cases D with
  | nil =>
    right
    apply hrest
    rw [List.nil_append] at h1
    rw [← h1]; rfl
  | cons d D =>
    rw [List.cons_append] at h1
    injection h1 with h1 h3
    subst h1
    exact Or.inl ⟨D, h3, (h2 se (by simp)).1, (h2 se (by simp)).2, fun e he => h2 e (by simp [he])⟩

theorem asyncUpDown_false {l : KeySequence} {k : Key} (h : ∀ a ∈ l, a.state ≠ .UpAsync) : asyncUpDown l k = false := by
  unfold asyncUpDown
  split
  · next i hi =>
    rw [beq_eq_false_iff_ne]
    intro hq
    exact h _ (List.mem_of_getElem? hq) rfl
  · rfl

theorem Missing.notMatched {z : Key} {rest : KeySequence} (hrest : ∀ y ∈ rest.head?, y.state = .Up) {m : MState} (h : Missing z rest m) :
    (mLoop m).res ≠ .matched ∧ (rest ≠ [] → (mLoop m).res = .no_match) := by
  refine mLoop_inv (Missing z rest) (fun r => r.res ≠ .matched ∧ (rest ≠ [] → r.res = .no_match)) ?_ ?_ m h
  · intro m m' h hs
    obtain ⟨l, r, he1, he2, he3⟩ := h.exp
    have hz := (he3 ⟨z, .Down, 0⟩ (by rw [he1]; simp)).1
    -- what remains of the expression without its first event
    have hsub : ∀ ee er, m.eRest = ee :: er → ee ≠ ⟨z, .Down, 0⟩ → ∃ l r, er = l ++ ⟨z, .Down, 0⟩ :: r ∧
        (∀ e ∈ l, e.state = .Down ∨ e.state = .DownAsync) ∧
        ∀ e ∈ er, ProperKey e.key ∧ (e.state = .Down ∨ e.state = .DownAsync ∨ e.state = .UpAsync) := by
      intro ee er h1 h2
      rw [he1] at h1
      cases l with
      | nil => rw [List.nil_append] at h1; injection h1 with h1; exact absurd h1.symm h2
      | cons x l =>
        rw [List.cons_append] at h1
        injection h1 with h1 h3
        refine ⟨l, r, h3.symm, fun e he => he2 e (by simp [he]), fun e he => he3 e ?_⟩
        rw [he1, List.cons_append, h3]; simp [he]
    rcases mStep_plain h.nots h.nmm (Or.inr h.expNe) he3 (fun e he => (h.proper e he).2.2) with
      ⟨ee, er, h1, h2, h3⟩ | ⟨ee, er, se, sr, h1, h2, h3, h4⟩ | ⟨se, sr, h1, h2, h3⟩ | ⟨se, sr, h1, h2, h3⟩ | ⟨ee, er, h1, h2, h3, h4⟩ |
      ⟨ee, er, h1, h2, h3, h4⟩ | h1
    · rw [h3] at hs; injection hs with hs; subst hs
      have hne : ee ≠ ⟨z, .Down, 0⟩ := by rintro rfl; simp at h2
      have hda : ee.state = .DownAsync := by
        rw [he1] at h1
        cases l with
        | nil => rw [List.nil_append] at h1; injection h1 with h1; exact absurd h1.symm hne
        | cons x l =>
          rw [List.cons_append] at h1
          injection h1 with h1 _
          subst h1
          rcases he2 x (by simp) with h5 | h5
          · rw [h5] at h2; simp at h2
          · exact h5
      refine ⟨h.nots, h.nmm, h.seq, h.proper, hsub ee er h1 hne, ?_⟩
      intro a ha
      rcases List.mem_append.1 ha with ha | ha
      · exact h.async a ha
      · rw [List.mem_singleton] at ha
        subst ha
        exact ⟨(he3 a (by rw [h1]; simp)).1, Or.inl hda, fun _ => hda⟩
    · rw [h4] at hs; injection hs with hs; subst hs
      have hsq := h.proper
      rw [h2] at hsq
      obtain ⟨hk, hst⟩ := chord_unify (hsq se (by simp)) (he3 ee (by rw [h1]; simp)).1 h3
      have hed : ee.state = .Down ∨ ee.state = .DownAsync := by
        rw [he1] at h1
        cases l with
        | nil => rw [List.nil_append] at h1; injection h1 with h1; subst h1; exact Or.inl rfl
        | cons x l =>
          rw [List.cons_append] at h1
          injection h1 with h1 _
          subst h1
          exact he2 x (by simp)
      rcases h.next hrest h2 with ⟨D, d1, d2, d3, d4⟩ | hup
      · refine ⟨h.nots, h.nmm, ⟨D, d1, d4⟩, fun e he => hsq e (by simp [he]), hsub ee er h1 ?_, ?_⟩
        · rintro rfl; exact d3 hk
        · intro a ha; exact h.async a (List.mem_filter.1 ha).1
      · rw [hup] at hst
        rcases hed with h5 | h5 <;> (rw [h5] at hst; simp [unifiableState] at hst)
    · rw [h3] at hs; injection hs with hs; subst hs
      have hsq := h.proper
      rw [h1] at hsq
      obtain ⟨b, hb, hw⟩ := List.any_eq_true.1 h2
      rcases h.next hrest h1 with ⟨D, d1, d2, d3, d4⟩ | hup
      · refine ⟨h.nots, h.nmm, ⟨D, d1, d4⟩, fun e he => hsq e (by simp [he]), h.exp, ?_⟩
        intro a ha
        rcases modFirst_mem ha with ha | ⟨b, hb, hw, rfl⟩
        · exact h.async a ha
        · obtain ⟨b1, b2, b3⟩ := h.async b hb
          refine ⟨b1, Or.inr d2, ?_⟩
          intro hbz
          exact absurd ((chord_waits (hsq se (by simp)) b1 hw).1.trans hbz) d3
      · obtain ⟨b1, b2, b3⟩ := h.async b hb
        have := (chord_waits (hsq se (by simp)) b1 hw).2
        rw [if_pos hup] at this
        rw [this] at b2; simp at b2
    · rw [h3] at hs; injection hs with hs; subst hs
      have hsq := h.proper
      rw [h1] at hsq
      rcases h.next hrest h1 with ⟨D, d1, d2, d3, d4⟩ | hup
      · exact ⟨h.nots, h.nmm, ⟨D, d1, d4⟩, fun e he => hsq e (by simp [he]), h.exp, h.async⟩
      · rw [hup] at h2; simp at h2
    · rw [h4] at hs; injection hs with hs; subst hs
      refine ⟨h.nots, h.nmm, h.seq, h.proper, hsub ee er h1 ?_, fun a ha => h.async a (List.mem_of_mem_eraseP ha)⟩
      rintro rfl
      obtain ⟨b, hb, hw⟩ := List.any_eq_true.1 h3
      obtain ⟨b1, b2, b3⟩ := h.async b hb
      obtain ⟨hk, hst⟩ := chord_unify (a := ⟨z, .Down, 0⟩) hz b1 hw
      rw [b3 hk.symm] at hst
      simp [unifiableState] at hst
    · rw [asyncUpDown_false] at h3
      · simp at h3
      · intro a ha hh
        have := (h.async a ha).2.1
        rw [hh] at this; simp at this
    · rw [h1] at hs; simp at hs
  · intro m r h hs
    obtain ⟨l, r', he1, he2, he3⟩ := h.exp
    rcases mStep_plain h.nots h.nmm (Or.inr h.expNe) he3 (fun e he => (h.proper e he).2.2) with
      ⟨ee, er, _, _, h3⟩ | ⟨ee, er, se, sr, _, _, _, h3⟩ | ⟨se, sr, _, _, h3⟩ | ⟨se, sr, _, _, h3⟩ | ⟨ee, er, _, _, _, h3⟩ |
      ⟨ee, er, _, _, _, h3⟩ | h3
    all_goals (rw [h3] at hs; try (simp at hs; done))
    injection hs with hs
    subst hs
    refine ⟨by show (if _ then _ else _) ≠ _; split <;> simp, fun hne => ?_⟩
    obtain ⟨D, h1, _⟩ := h.seq
    have : m.sRest.isEmpty = false := by rw [h1]; cases D <;> cases rest <;> simp_all
    simp [this]

/-! ### keys pressed together -/

theorem mem_chordExpr {g : List Key} {x : KeyEvent} (h : x ∈ chordExpr g) :
    x.key ∈ g ∧ (x.state = .Down ∨ x.state = .DownAsync ∨ x.state = .UpAsync) ∧ x.value = 0 := by
  simp only [chordExpr, List.mem_append, List.mem_map] at h
  rcases h with (⟨k, h, rfl⟩ | ⟨k, h, rfl⟩) | ⟨k, h, rfl⟩ <;> simp [h]

theorem chordExpr_ne {g : List Key} (h : g ≠ []) : (chordExpr g).isEmpty = false := by
  cases g with
  | nil => exact absurd rfl h
  | cons k g => rfl

/-- a key which is not in the chord is pressed or released -/
theorem chord_strange {g : List Key} (hg : ∀ k ∈ g, ProperKey k) {s : KeySequence} {y : KeyEvent} (hy : y ∈ s)
    (hys : y.state = .Down ∨ y.state = .Up) (hyg : y.key ∉ g) (hs : ∀ e ∈ s, ProperKey e.key) :
    (matchSeq (chordExpr g) s).res = .no_match := by
  unfold matchSeq
  split
  · rfl
  · apply Strange.noMatch hys
    refine ⟨rfl, rfl, hy, hs, ?_, by simp [mInit]⟩
    intro e he
    obtain ⟨h1, h2, _⟩ := mem_chordExpr he
    exact ⟨hg _ h1, fun h => hyg (h ▸ h1), h2⟩

/-- a key of the chord is not pressed -/
theorem chord_missing {g : List Key} (hg : ∀ k ∈ g, ProperKey k) {D rest : KeySequence} {z : Key} (hz : z ∈ g)
    (hD : ∀ e ∈ D, (e.state = .Down ∨ e.state = .DownMatched) ∧ e.key ≠ z) (hrest : ∀ y ∈ rest.head?, y.state = .Up)
    (hs : ∀ e ∈ D ++ rest, ProperKey e.key) :
    (matchSeq (chordExpr g) (D ++ rest)).res ≠ .matched ∧ (rest ≠ [] → (matchSeq (chordExpr g) (D ++ rest)).res = .no_match) := by
  unfold matchSeq
  split
  · exact ⟨by simp, fun _ => rfl⟩
  · apply Missing.notMatched hrest (z := z)
    obtain ⟨a, b, hab⟩ := List.append_of_mem hz
    refine ⟨rfl, rfl, ⟨D, rfl, hD⟩, hs, ?_, by simp [mInit]⟩
    refine ⟨g.map (fun k => ⟨k, .DownAsync, 0⟩) ++ a.map (fun k => ⟨k, .Down, 0⟩),
      b.map (fun k => ⟨k, .Down, 0⟩) ++ g.map (fun k => ⟨k, .UpAsync, 0⟩), ?_, ?_, ?_⟩
    · show chordExpr g = _
      unfold chordExpr
      have : g.map (fun k => (⟨k, .Down, 0⟩ : KeyEvent)) = a.map (fun k => ⟨k, .Down, 0⟩) ++ ⟨z, .Down, 0⟩ :: b.map (fun k => ⟨k, .Down, 0⟩) := by
        rw [hab]; simp
      rw [this]; simp
    · intro e he
      simp only [List.mem_append, List.mem_map] at he
      rcases he with ⟨k, _, rfl⟩ | ⟨k, _, rfl⟩ <;> simp
    · intro e he
      obtain ⟨h1, h2, _⟩ := mem_chordExpr he
      exact ⟨hg _ h1, h2⟩

/-- the release of a key does not match, when all held keys were matched before -/
theorem chord_releaseNoMatch {g : List Key} {D : KeySequence} {k : Key} (hk : ProperKey k) (hg : ∀ x ∈ g, ProperKey x)
    (hD : ∀ e ∈ D, e.state = .DownMatched ∧ ProperKey e.key ∧ e.key ≠ k) :
    (matchSeq (chordExpr g) (D ++ [⟨k, .Up, 0⟩])).res = .no_match := by
  have hs : ∀ e ∈ D ++ [(⟨k, .Up, 0⟩ : KeyEvent)], ProperKey e.key := by
    intro e he
    rcases List.mem_append.1 he with he | he
    · exact (hD e he).2.1
    · rw [List.mem_singleton] at he; subst he; exact hk
  by_cases hkg : k ∈ g
  · exact (chord_missing hg hkg (fun e he => ⟨Or.inr (hD e he).1, (hD e he).2.2⟩) (by simp) hs).2 (by simp)
  · exact chord_strange hg (y := ⟨k, .Up, 0⟩) (by simp) (Or.inr rfl) hkg hs

/-- keys which are held and not in the chord do not matter -/
theorem chord_skip {g : List Key} {base p : KeySequence} (hg : ∀ k ∈ g, ProperKey k) (hne : g ≠ [])
    (hb : ∀ e ∈ base, e.state = .DownMatched ∧ ProperKey e.key ∧ e.key ∉ g) (hp : p ≠ []) :
    matchSeq (chordExpr g) (base ++ p) = matchSeq (chordExpr g) p := by
  unfold matchSeq
  have h1 : (base ++ p).isEmpty = false := by cases base <;> cases p <;> simp_all
  have h2 : p.isEmpty = false := by cases p <;> simp_all
  rw [h1, h2, chordExpr_ne hne]
  simp only [Bool.or_self, Bool.false_eq_true, if_false]
  -- the asynchronous events
  have hbegin : ∀ (l : List Key) (m : MState) (rest : KeySequence), m.eRest = l.map (fun k => ⟨k, .DownAsync, 0⟩) ++ rest → m.nots = [] →
      mLoop m = mLoop { m with eRest := rest, async := m.async ++ l.map (fun k => ⟨k, .DownAsync, 0⟩), e := m.e + l.length } := by
    intro l
    induction l with
    | nil => intro m rest he hn; simp at he; subst he; cases m; simp
    | cons x l ih =>
      intro m rest he hn
      have h1 : mStep m = .inl { m with async := m.async ++ [⟨x, .DownAsync, 0⟩], eRest := l.map (fun k => ⟨k, .DownAsync, 0⟩) ++ rest, e := m.e + 1 } := by
        simp [mStep, mStepMain, MState.dropNot, MState.ee, MState.advE, hn, he]
      refine (wm_inl h1).trans (Eq.trans (ih _ rest rfl hn) ?_)
      congr 1
      simp
      omega
  have hinit : ∀ q : KeySequence, mLoop (mInit (chordExpr g) q) = mLoop { mInit (chordExpr g) q with
      eRest := g.map (fun k => ⟨k, .Down, 0⟩) ++ g.map (fun k => ⟨k, .UpAsync, 0⟩), async := g.map (fun k => ⟨k, .DownAsync, 0⟩), e := g.length } := by
    intro q
    rw [hbegin g (mInit (chordExpr g) q) (g.map (fun k => ⟨k, .Down, 0⟩) ++ g.map (fun k => ⟨k, .UpAsync, 0⟩)) (by simp [mInit, chordExpr]) rfl]
    simp [mInit]
  rw [hinit, hinit]
  clear h1 hinit hbegin
  induction base with
  | nil => rfl
  | cons x base ih =>
    rw [← ih (fun e he => hb e (by simp [he]))]
    obtain ⟨hx1, hx2, hx3⟩ := hb x (by simp)
    apply wm_inl
    obtain ⟨k, g', rfl⟩ := List.exists_cons_of_ne_nil hne
    have hk := hg k (by simp)
    have hkx : (x.key == k) = false := by rw [beq_eq_false_iff_ne]; intro h; exact hx3 (by rw [h]; simp)
    have hu : unifiable x ⟨k, .Down, 0⟩ = false := by rw [wm_unifiable hx2 hk]; simp [hkx]
    have hw : ((k :: g').map (fun k => (⟨k, .DownAsync, 0⟩ : KeyEvent))).any (waitsFor x) = false := by
      rw [List.any_eq_false]
      intro a ha
      obtain ⟨j, hj, rfl⟩ := List.mem_map.1 ha
      intro hh
      exact hx3 ((chord_waits hx2 (b := ⟨j, .DownAsync, 0⟩) (hg j hj) hh).1 ▸ hj)
    have ha : (k == Key.any) = false := beq_eq_false_iff_ne.2 hk.2.1
    have ht : (k == Key.timeout) = false := beq_eq_false_iff_ne.2 hk.2.2
    rw [List.map_cons] at hw
    simp [mStep, mStepMain, MState.dropNot, MState.ee, MState.se, mInit, hu, ha, ht]
    unfold mStepElse
    simp only [hw, hx1, Bool.false_eq_true, if_false, Bool.false_and, beq_self_eq_true, Bool.true_or, if_true]
    simp [MState.advS, hx1]

end KM
