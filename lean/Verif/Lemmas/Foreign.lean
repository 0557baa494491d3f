import Verif.Spec.Transparent
import Verif.Lemmas.Match
/-!
# Keys which an expression does not mention never match it
-/
namespace KM

section
variable {K : Key → Prop} (hK : RealKeys K)
include hK

theorem unifiableKey_foreign {a b : Key} (ha : K a) (hb : ¬ K b) (hb' : b ≠ Key.any) : unifiableKey a b = false := by
  obtain ⟨h1, h2, h3⟩ := hK a ha
  unfold unifiableKey
  have hab : ¬ a = b := fun h => hb (h ▸ ha)
  split
  · rfl
  · rw [if_neg (by simpa using hab)]
    split
    · rfl
    · rw [if_neg (by simp [h2]), if_neg (by simp [hb'])]

theorem unifiable_foreign {a b : KeyEvent} (ha : K a.key) (hb : ¬ K b.key) (hb' : b.key ≠ Key.any) :
    unifiable a b = false := by
  unfold unifiable
  rw [unifiableKey_foreign hK ha hb hb']
  repeat' split
  all_goals first | rfl | simp_all

theorem waitsFor_foreign {se : KeyEvent} (hs : K se.key) {async : KeySequence} (ha : Foreign K async) :
    async.any (waitsFor se) = false := by
  rw [List.any_eq_false]
  intro a h
  unfold waitsFor
  rw [unifiableKey_foreign hK hs (ha a h).1 (ha a h).2]
  simp

end

/-- the parts of the loop state which concern the expression -/
structure FInv (K : Key → Prop) (m : MState) : Prop where
  eF : Foreign K m.eRest
  sK : ∀ x ∈ m.sRest, K x.key
  aF : Foreign K m.async

theorem ee_foreign {K : Key → Prop} (hK : RealKeys K) {m : MState} (h : Foreign K m.eRest) :
    ¬ K m.ee.key ∧ m.ee.key ≠ Key.any := by
  unfold MState.ee
  cases he : m.eRest with
  | nil => exact ⟨fun hk => (hK _ hk).1 rfl, by decide⟩
  | cons x xs => rw [he] at h; exact h x (by simp)

/-- the results of an iteration, while there is still an event `x` of the sequence -/
inductive FStep (K : Key → Prop) (m : MState) (x : KeyEvent) (sr : KeySequence) : MState ⊕ MOut → Prop where
  /-- no match -/
  | fail (r : MOut) (h : r.res = .no_match) : FStep K m x sr (.inr r)
  /-- an event of the expression is skipped -/
  | expr (m' : MState) (h : FInv K m') (h1 : m'.sRest = m.sRest) (h2 : m'.ign = []) (h3 : m'.e = m.e + 1)
      (h4 : m'.nmm = m.nmm ∨ m.ee.state = .NoMightMatch) (h5 : m'.async = m.async ∨ m.ee.state ≠ .NoMightMatch) :
      FStep K m x sr (.inl m')
  /-- an event which was already matched is skipped -/
  | opt (m' : MState) (h : FInv K m') (h1 : m'.sRest = sr) (h2 : m'.ign = []) (h3 : m'.e = m.e) (h4 : m'.eRest = m.eRest)
      (h5 : m'.nmm = m.nmm) (h6 : m'.async = m.async) (h7 : isNonOptional x = false) : FStep K m x sr (.inl m')
  /-- an event of the history is skipped -/
  | hist (m' : MState) (h : FInv K m') (h1 : m'.sRest = sr) (h2 : m'.e = m.e) (h3 : m'.eRest = m.eRest)
      (h4 : m'.nmm = m.nmm) (h5 : m'.async = m.async) (h6 : m.e = 1 ∧ m.nmm = true ∧ m.eRest ≠ [])
      (h7 : m.ee.state ≠ .DownAsync ∧ m.ee.state ≠ .UpAsync ∧ m.ee.state ≠ .NoMightMatch)
      (h8 : m.ee.state ≠ .Not ∨ m.ee.key = Key.timeout) : FStep K m x sr (.inl m')

theorem Foreign.mono {K : Key → Prop} {a b : KeySequence} (h : Foreign K a) (hb : ∀ y ∈ b, y ∈ a) : Foreign K b :=
  fun y hy => h y (hb y hy)

theorem fstep_advE {K : Key → Prop} {m m1 : MState} {x sr} (h : FInv K m1) (h1 : m1.sRest = m.sRest) (h2 : m1.ign = [])
    (h3 : m1.e = m.e) (h4 : m1.nmm = m.nmm ∨ m.ee.state = .NoMightMatch)
    (h5 : m1.async = m.async ∨ m.ee.state ≠ .NoMightMatch) : FStep K m x sr m1.advE := by
  unfold MState.advE
  split
  · exact .fail _ rfl
  · next y er he =>
    refine .expr _ ⟨?_, h.sK, h.aF⟩ h1 h2 (by simp only [h3]) h4 h5
    exact h.eF.mono (fun z hz => by rw [he]; exact List.mem_cons_of_mem _ hz)

theorem zero_of_nil {m : MState} (h : m.eRest = []) : m.ee = KeyEvent.zero := by
  unfold MState.ee; rw [h]; rfl

/-- an iteration while there is still an event of the sequence -/
theorem mStep_foreign {K : Key → Prop} (hK : RealKeys K) {m : MState} {x sr} (h : FInv K m) (hs : m.sRest = x :: sr)
    (hign : m.ign = []) : FStep K m x sr (mStep m) := by
  have hx : K x.key := h.sK x (by rw [hs]; simp)
  have hxr := hK x.key hx
  obtain ⟨he1, he2⟩ := ee_foreign hK h.eF
  unfold mStep
  rw [if_neg (by simp [hs])]
  have hse : m.se = x := by unfold MState.se; rw [hs]; rfl
  rw [hse]
  obtain ⟨d1, d2, d3, d4, d5, d6, d7, d8⟩ := dropNot_fields m m.ee
  have hm0 : FInv K (m.dropNot m.ee) := ⟨by rw [d1]; exact h.eF, by rw [d2]; exact h.sK, by rw [d4]; exact h.aF⟩
  have hz := fun hn => zero_of_nil (m := m) hn
  generalize hee : m.ee = ee at *
  generalize m.dropNot ee = m0 at *
  unfold mStepMain
  split
  · exact .fail _ rfl
  split
  · next hst =>
    refine fstep_advE ⟨hm0.eF, hm0.sK, ?_⟩ d2 (d7.trans hign) d6 (Or.inl d3) (Or.inr ?_)
    · intro y hy
      rcases List.mem_append.1 hy with hy | hy
      · exact hm0.aF y hy
      · rw [List.mem_singleton.1 hy]; exact ⟨he1, he2⟩
    · rw [hee]; rintro h'; rw [h'] at hst; simp at hst
  split
  · next hst =>
    exact fstep_advE (m1 := { m0 with nots := m0.nots ++ [ee.key] }) ⟨hm0.eF, hm0.sK, hm0.aF⟩ d2 (d7.trans hign) d6
      (Or.inl d3) (Or.inl d4)
  split
  · next hst => simp only [Bool.and_eq_true, beq_iff_eq] at hst; exact absurd hst.1.1.1 he2
  rw [unifiable_foreign hK hx he1 he2, if_neg (by simp)]
  split
  · next hst =>
    simp only [Bool.and_eq_true, beq_iff_eq] at hst
    exact absurd (by rw [hst.2]; rfl) hxr.1
  split
  · next hst =>
    exact fstep_advE (m1 := { m0 with nmm := true }) ⟨hm0.eF, hm0.sK, hm0.aF⟩ d2 (d7.trans hign) d6
      (Or.inr (by rw [hee]; simpa using hst)) (Or.inl d4)
  · next h1 h2 h3 h4 h5 =>
    unfold mStepElse
    split
    · exact .fail _ rfl
    · next h6 =>
      rw [waitsFor_foreign hK hx hm0.aF, if_neg (by simp)]
      split
      · next hst =>
        unfold MState.advS
        rw [d2, hs]
        refine .opt _ ⟨hm0.eF, ?_, hm0.aF⟩ rfl (d7.trans hign) d6 d1 d3 d4 ?_
        · intro y hy; exact h.sK y (by rw [hs]; exact List.mem_cons_of_mem _ hy)
        · simp only [Bool.or_eq_true, beq_iff_eq] at hst
          rcases hst with h' | h' <;> simp [isNonOptional, h']
      split
      · refine fstep_advE ⟨hm0.eF, hm0.sK, ?_⟩ d2 (d7.trans hign) d6 (Or.inl d3) (Or.inr ?_)
        · exact hm0.aF.mono (fun y hy => List.mem_of_mem_eraseP hy)
        · rw [hee]; simpa using h5
      split
      · exact fstep_advE hm0 d2 (d7.trans hign) d6 (Or.inl d3) (Or.inl d4)
      split
      · next hst =>
        simp only [Bool.and_eq_true, beq_iff_eq] at hst
        exact absurd hst.1.1 hxr.2.2
      split
      · next hst =>
        simp only [Bool.and_eq_true, beq_iff_eq] at hst
        split
        · unfold MState.advS
          simp only [d2, hs]
          refine .hist _ ⟨hm0.eF, ?_, hm0.aF⟩ rfl d6 d1 d3 d4 ⟨by rw [← d6]; exact hst.2, by rw [← d3]; exact hst.1, ?_⟩
            ⟨?_, ?_, ?_⟩ ?_
          · intro y hy; exact h.sK y (by rw [hs]; exact List.mem_cons_of_mem _ hy)
          · intro hn
            apply h6
            have := hz hn
            simp [hst.1, this]
          · rw [hee]; intro h'; simp [h'] at h1
          · rw [hee]; intro h'; simp [h'] at h1
          · rw [hee]; simpa using h5
          · rw [hee]
            simp only [Bool.and_eq_true, beq_iff_eq, bne_iff_ne, ne_eq, not_and, Classical.not_not] at h2
            by_cases h' : ee.state = .Not
            · exact Or.inr (h2 h')
            · exact Or.inl h'
        · exact .fail _ rfl
      split
      · next hst =>
        simp [d7, hign] at hst
      · refine .fail _ ?_
        rw [d2, hs]; rfl

theorem mInit_finv {K : Key → Prop} {e s : KeySequence} (he : Foreign K e) (hs : ∀ x ∈ s, K x.key) :
    FInv K (mInit e s) := ⟨he, hs, by intro x hx; simp [mInit] at hx⟩

/-- **(matcher)** Keys which the expression does not mention never match it. -/
theorem matchSeq_foreign {K : Key → Prop} (hK : RealKeys K) {e s : KeySequence} (he : Foreign K e)
    (hs : ∀ x ∈ s, K x.key) (hn : hasNonOptional s = true) (hm : e.head?.map (·.state) ≠ some .NoMightMatch) :
    (matchSeq e s).res = .no_match := by
  unfold matchSeq
  split
  · rfl
  · refine mLoop_inv (fun m => FInv K m ∧ m.ign = [] ∧ hasNonOptional m.sRest = true ∧ (m.nmm = true → 2 ≤ m.e) ∧
        (m.e = 0 → m.ee.state ≠ .NoMightMatch)) (fun r => r.res = .no_match) ?_ ?_ (mInit e s) ?_
    · rintro m m' ⟨h1, h2, h3, h4, h5⟩ hstep
      cases hsr : m.sRest with
      | nil => rw [hsr] at h3; simp [hasNonOptional] at h3
      | cons x sr =>
        have := mStep_foreign hK h1 hsr h2
        rw [hstep] at this
        cases this with
        | expr _ f1 f2 f3 f4 f5 f6 =>
          refine ⟨f1, f3, by rw [f2]; exact h3, ?_, by omega⟩
          intro hn
          by_cases h0 : m.e = 0
          · rcases f5 with f5 | f5
            · have := h4 (f5 ▸ hn); omega
            · exact absurd f5 (h5 h0)
          · omega
        | opt _ f1 f2 f3 f4 f5 f6 f7 f8 =>
          refine ⟨f1, f3, ?_, by rw [f6, f4]; exact h4, ?_⟩
          · rw [hsr] at h3
            rw [f2]
            simpa [hasNonOptional, f8] using h3
          · rw [f4]; unfold MState.ee; rw [f5]; exact h5
        | hist _ f1 f2 f3 f4 f5 f6 f7 =>
          have := h4 f7.2.1
          omega
    · rintro m r ⟨h1, h2, h3, h4, h5⟩ hstep
      cases hsr : m.sRest with
      | nil => rw [hsr] at h3; simp [hasNonOptional] at h3
      | cons x sr =>
        have := mStep_foreign hK h1 hsr h2
        rw [hstep] at this
        cases this with
        | fail _ f => exact f
    · refine ⟨mInit_finv he hs, rfl, hn, by simp [mInit], fun _ => ?_⟩
      show (e.headD KeyEvent.zero).state ≠ _
      cases e with
      | nil => simp [KeyEvent.zero]
      | cons a e => simpa using hm

/-- the expression waits for an event, all events of the history are skipped -/
structure FStuck (K : Key → Prop) (m : MState) : Prop where
  eF : Foreign K m.eRest
  sK : ∀ x ∈ m.sRest, K x.key
  nmm : m.nmm = true
  e : m.e = 1
  rest : m.eRest ≠ []
  async : m.async = []
  st : m.ee.state ≠ .DownAsync ∧ m.ee.state ≠ .UpAsync ∧ m.ee.state ≠ .NoMightMatch
  noNot : m.ee.state ≠ .Not ∨ m.ee.key = Key.timeout

theorem fstuck_advS {K : Key → Prop} {m m1 m' : MState} (h : FStuck K m) (h1 : m1.eRest = m.eRest) (h2 : m1.sRest = m.sRest)
    (h3 : m1.nmm = m.nmm) (h4 : m1.e = m.e) (h5 : m1.async = m.async) (hs : m1.advS = .inl m') : FStuck K m' := by
  obtain ⟨x, sr, hx, rfl⟩ := advS_inl hs
  have hee : ∀ a b, ({ m1 with sRest := a, downs := b } : MState).ee = m.ee := by
    intro a b; unfold MState.ee; rw [← h1]
  exact ⟨by show Foreign K m1.eRest; rw [h1]; exact h.eF, fun y hy => h.sK y (by rw [← h2, hx]; exact List.mem_cons_of_mem _ hy),
    h3.trans h.nmm, h4.trans h.e, by rw [show ({ m1 with sRest := sr, downs := _ } : MState).eRest = m1.eRest from rfl, h1]; exact h.rest,
    h5.trans h.async, by rw [hee]; exact h.st, by rw [hee]; exact h.noNot⟩

/-- the expression still waits, or there is no match -/
def StuckOut (K : Key → Prop) : MState ⊕ MOut → Prop
  | .inl m' => FStuck K m'
  | .inr r => r.res ≠ .matched

theorem stuckOut_advS {K : Key → Prop} {m m1 : MState} (h : FStuck K m) (h1 : m1.eRest = m.eRest) (h2 : m1.sRest = m.sRest)
    (h3 : m1.nmm = m.nmm) (h4 : m1.e = m.e) (h5 : m1.async = m.async) : StuckOut K m1.advS := by
  cases hs : m1.advS with
  | inl m' => exact fstuck_advS h h1 h2 h3 h4 h5 hs
  | inr r => show r.res ≠ _; rw [advS_res hs]; simp

theorem mStepElse_stuck {K : Key → Prop} {m m0 : MState} (h : FStuck K m) (d1 : m0.eRest = m.eRest)
    (d2 : m0.sRest = m.sRest) (d3 : m0.nmm = m.nmm) (d4 : m0.e = m.e) (d5 : m0.async = m.async) (se ee : KeyEvent) :
    StuckOut K (mStepElse m0 se ee) := by
  have has := d5.trans h.async
  have hnm := d3.trans h.nmm
  have he := d4.trans h.e
  unfold mStepElse
  split
  · show MatchResult.no_match ≠ _; simp
  rw [has]
  simp only [List.any_nil, Bool.false_eq_true, if_false]
  split
  · exact stuckOut_advS h d1 d2 d3 d4 d5
  rw [if_neg (by simp [asyncUpDown])]
  split
  · exact stuckOut_advS h d1 d2 d3 d4 d5
  rw [if_pos (by simp [hnm, he])]
  split
  · refine stuckOut_advS h ?_ ?_ ?_ ?_ ?_
    · exact d1
    · exact d2
    · exact d3
    · exact d4
    · exact h.async.symm
  · show MatchResult.no_match ≠ _; simp

theorem mStepMain_stuck {K : Key → Prop} {m m0 : MState} (h : FStuck K m) (d1 : m0.eRest = m.eRest)
    (d2 : m0.sRest = m.sRest) (d3 : m0.nmm = m.nmm) (d4 : m0.e = m.e) (d5 : m0.async = m.async) (se ee : KeyEvent)
    (hst : ee.state ≠ .DownAsync ∧ ee.state ≠ .UpAsync ∧ ee.state ≠ .NoMightMatch)
    (hnn : ee.state ≠ .Not ∨ ee.key = Key.timeout) (he2 : ee.key ≠ Key.any) (hu : unifiable se ee = false) :
    StuckOut K (mStepMain m0 se ee) := by
  have q1 : (ee.state == KeyState.DownAsync || ee.state == KeyState.UpAsync) = false := by simp [hst.1, hst.2.1]
  have q2 : (ee.state == KeyState.Not && ee.key != Key.timeout) = false := by
    rcases hnn with h' | h' <;> simp [h']
  have q3 : (ee.key == Key.any) = false := beq_eq_false_iff_ne.2 he2
  have q4 : (ee.state == KeyState.NoMightMatch) = false := beq_eq_false_iff_ne.2 hst.2.2
  unfold mStepMain
  simp only [q1, q2, q3, q4, hu, Bool.false_and, Bool.false_eq_true, if_false]
  split
  · show MatchResult.no_match ≠ _; simp
  split
  · show MatchResult.might_match ≠ _; simp
  exact mStepElse_stuck h d1 d2 d3 d4 d5 se ee

/-- an iteration while the expression waits -/
theorem mStep_stuck {K : Key → Prop} (hK : RealKeys K) {m : MState} (h : FStuck K m) : StuckOut K (mStep m) := by
  obtain ⟨he1, he2⟩ := ee_foreign hK h.eF
  unfold mStep
  have hne : (m.eRest.isEmpty && m.sRest.isEmpty) = false := by
    have := h.rest
    cases hr : m.eRest with
    | nil => exact absurd hr this
    | cons a b => rfl
  rw [if_neg (by rw [hne]; simp)]
  have hse : m.se = KeyEvent.zero ∨ K m.se.key := by
    unfold MState.se
    cases hs : m.sRest with
    | nil => exact Or.inl rfl
    | cons x sr => exact Or.inr (h.sK x (by rw [hs]; simp))
  have hu : unifiable m.se m.ee = false := by
    rcases hse with hse | hse
    · rw [hse]; exact unifiable_zero_left _
    · exact unifiable_foreign hK hse he1 he2
  obtain ⟨d1, d2, d3, d4, d5, d6, d7, d8⟩ := dropNot_fields m m.ee
  exact mStepMain_stuck h d1 d2 d3 d6 d4 _ _ h.st h.noNot he2 hu

/-- **(matcher)** also not in the history -/
theorem matchSeq_foreign_history {K : Key → Prop} (hK : RealKeys K) {e s : KeySequence} (he : Foreign K e)
    (hs : ∀ x ∈ s, K x.key) (hn : ∀ x ∈ s, isNonOptional x = true) :
    (matchSeq e s).res ≠ .matched := by
  unfold matchSeq
  split
  · simp
  · next hemp =>
    refine mLoop_inv (fun m => FStuck K m ∨ (FInv K m ∧ m.ign = [] ∧ m.sRest ≠ [] ∧ (∀ x ∈ m.sRest, isNonOptional x = true) ∧
        (m.e = 0 → m.nmm = false ∧ m.async = []) ∧ (m.nmm = true → m.e = 1 → m.async = [])))
        (fun r => r.res ≠ .matched) ?_ ?_ (mInit e s) (Or.inr ?_)
    · rintro m m' (h | ⟨h1, h2, h3, h4, h5, h6⟩) hstep
      · have := mStep_stuck hK h
        rw [hstep] at this
        exact Or.inl this
      · cases hsr : m.sRest with
        | nil => exact absurd hsr h3
        | cons x sr =>
          have := mStep_foreign hK h1 hsr h2
          rw [hstep] at this
          cases this with
          | expr _ f1 f2 f3 f4 f5 f6 =>
            refine Or.inr ⟨f1, f3, by rw [f2]; exact h3, by rw [f2]; exact h4, by omega, ?_⟩
            intro hnm he1
            have h0 := h5 (by omega)
            rcases f5 with f5 | f5
            · rw [f5, h0.1] at hnm; simp at hnm
            · rcases f6 with f6 | f6
              · exact f6.trans h0.2
              · exact absurd f5 f6
          | opt _ f1 f2 f3 f4 f5 f6 f7 f8 =>
            have := h4 x (by rw [hsr]; simp)
            rw [f8] at this; simp at this
          | hist _ f1 f2 f3 f4 f5 f6 f7 f8 f9 =>
            have hee : m'.ee = m.ee := by unfold MState.ee; rw [f4]
            exact Or.inl ⟨f1.eF, f1.sK, f5.trans f7.2.1, f3.trans f7.1, by rw [f4]; exact f7.2.2,
              f6.trans (h6 f7.2.1 f7.1), by rw [hee]; exact f8, by rw [hee]; exact f9⟩
    · rintro m r (h | ⟨h1, h2, h3, h4, h5, h6⟩) hstep
      · have := mStep_stuck hK h
        rw [hstep] at this
        exact this
      · cases hsr : m.sRest with
        | nil => exact absurd hsr h3
        | cons x sr =>
          have := mStep_foreign hK h1 hsr h2
          rw [hstep] at this
          cases this with
          | fail _ f => rw [f]; simp
    · refine ⟨mInit_finv he hs, rfl, ?_, hn, fun _ => ⟨rfl, rfl⟩, by simp [mInit]⟩
      intro h
      have : s = [] := h
      simp [this] at hemp

end KM
