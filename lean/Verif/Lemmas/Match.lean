import Verif.Model.Match
import Verif.Spec.Match
/-!
# The loop of the matcher
-/
namespace KM

theorem unifiableKey_none_left (b : Key) : unifiableKey 0 b = false := by simp [unifiableKey, Key.none]
theorem unifiableKey_none_right (a : Key) : unifiableKey a 0 = false := by simp [unifiableKey, Key.none]

theorem unifiable_zero_left (b : KeyEvent) : unifiable KeyEvent.zero b = false := by
  unfold unifiable
  simp [KeyEvent.zero, unifiableKey_none_left]

theorem unifiable_zero_right (a : KeyEvent) : unifiable a KeyEvent.zero = false := by
  unfold unifiable
  simp [KeyEvent.zero, unifiableKey_none_right]

theorem head_nmm {m : MState} (h : Plain m.eRest) : m.ee.state ≠ .NoMightMatch := by
  unfold MState.ee
  generalize m.eRest = e at h
  cases e with
  | nil => simp [KeyEvent.zero]
  | cons x xs => exact h x (by simp)

theorem advE_inr {m : MState} {r} (h : m.advE = .inr r) : m.eRest = [] := by
  unfold MState.advE at h; split at h
  · assumption
  · simp at h

theorem advE_inl {m m' : MState} (h : m.advE = .inl m') :
    ∃ x er, m.eRest = x :: er ∧ m' = { m with eRest := er, e := m.e + 1 } := by
  unfold MState.advE at h; split at h
  · simp at h
  · next x er he => simp at h; subst h; exact ⟨x, er, he, rfl⟩

theorem advS_inr {m : MState} {r} (h : m.advS = .inr r) : m.sRest = [] := by
  unfold MState.advS at h; split at h
  · assumption
  · simp at h

theorem advS_inl {m m' : MState} (h : m.advS = .inl m') : ∃ x sr, m.sRest = x :: sr ∧
    m' = { m with sRest := sr, downs := m.downs + (if x.state == .Down then 1 else 0) } := by
  unfold MState.advS at h; split at h
  · simp at h
  · next x sr hs => simp only [Sum.inl.injEq] at h; subst h; exact ⟨x, sr, hs, rfl⟩

theorem advSE_inl {m m' : MState} (h : m.advSE = .inl m') : ∃ x sr y er, m.sRest = x :: sr ∧ m.eRest = y :: er ∧
    m' = { m with sRest := sr, eRest := er, e := m.e + 1, downs := m.downs + (if x.state == .Down then 1 else 0) } := by
  unfold MState.advSE at h; split at h
  · next m1 h1 =>
    obtain ⟨x, sr, hs, rfl⟩ := advS_inl h1
    obtain ⟨y, er, he, rfl⟩ := advE_inl h
    exact ⟨x, sr, y, er, hs, he, rfl⟩
  · simp at h

theorem dropNot_fields (m : MState) (ee) : (m.dropNot ee).eRest = m.eRest ∧ (m.dropNot ee).sRest = m.sRest ∧
    (m.dropNot ee).nmm = m.nmm ∧ (m.dropNot ee).async = m.async ∧ (m.dropNot ee).any = m.any ∧
    (m.dropNot ee).e = m.e ∧ (m.dropNot ee).ign = m.ign ∧ (m.dropNot ee).downs = m.downs := by
  unfold MState.dropNot; split <;> exact ⟨rfl, rfl, rfl, rfl, rfl, rfl, rfl, rfl⟩

/-- what a step does once the sequence is exhausted -/
def StepAtEnd : MState ⊕ MOut → Prop
  | .inl m' => m'.sRest = [] ∧ m'.nmm = false ∧ Plain m'.eRest
  | .inr r => r.res ≠ .no_match

theorem advE_atEnd {m : MState} (hs : m.sRest = []) (hn : m.nmm = false) (he : Plain m.eRest)
    (hne : m.eRest ≠ []) : StepAtEnd m.advE := by
  obtain ⟨x, er, hx⟩ := List.exists_cons_of_ne_nil hne
  unfold MState.advE
  rw [hx]
  exact ⟨hs, hn, fun y hy => he y (by rw [hx]; simp [hy])⟩

theorem mStepMain_atEnd {m : MState} (hs : m.sRest = []) (hn : m.nmm = false) (he : Plain m.eRest)
    (hne : m.eRest ≠ []) (ee : KeyEvent) (hee : ee.state ≠ .NoMightMatch) :
    StepAtEnd (mStepMain m KeyEvent.zero ee) := by
  unfold mStepMain
  split; · next h' => simp [KeyEvent.zero] at h'
  split; · exact advE_atEnd (m := { m with async := m.async ++ [ee] }) hs hn he hne
  split; · exact advE_atEnd (m := { m with nots := m.nots ++ [ee.key] }) hs hn he hne
  split; · next h' => simp [KeyEvent.zero, Key.none] at h'
  rw [unifiable_zero_left]
  simp only [Bool.false_eq_true, if_false]
  split; · simp [StepAtEnd]
  split; · next h' => exact absurd (beq_iff_eq.mp h') hee
  have hp : ∀ l : KeySequence, l.any (waitsFor KeyEvent.zero) = false := by
    intro l
    rw [List.any_eq_false]
    intro a _
    simp [waitsFor, KeyEvent.zero, unifiableKey_none_left]
  unfold mStepElse
  simp only [hn, Bool.false_and, Bool.false_eq_true, if_false, hp]
  split; · next h' => simp [KeyEvent.zero] at h'
  split; · exact advE_atEnd (m := { m with nmm := false, async := m.async.eraseP (fun a => unifiable ee a) }) hs rfl he hne
  split; · exact advE_atEnd hs hn he hne
  split; · next h' => simp [KeyEvent.zero, Key.timeout] at h'
  simp [StepAtEnd, hs]

theorem mStep_atEnd {m : MState} (hs : m.sRest = []) (hn : m.nmm = false) (he : Plain m.eRest) :
    StepAtEnd (mStep m) := by
  unfold mStep
  split
  · simp [StepAtEnd]
  · next hemp =>
    have heE : m.eRest ≠ [] := by intro h'; simp [h', hs] at hemp
    have h0 := dropNot_fields m m.ee
    have : m.se = KeyEvent.zero := by unfold MState.se; rw [hs]; rfl
    rw [this]
    exact mStepMain_atEnd (m := m.dropNot m.ee) (by rw [h0.2.1]; exact hs) (by rw [h0.2.2.1]; exact hn)
      (by rw [h0.1]; exact he) (by rw [h0.1]; exact heE) m.ee (head_nmm he)

/-- invariants of the loop -/
theorem mLoop_inv (I : MState → Prop) (R : MOut → Prop) (hstep : ∀ m m', I m → mStep m = .inl m' → I m')
    (hfin : ∀ m r, I m → mStep m = .inr r → R r) (m : MState) (h : I m) : R (mLoop m) := by
  fun_induction mLoop m with
  | case1 m m' hs ih => exact ih (hstep _ _ h hs)
  | case2 m r hs => exact hfin _ _ h hs

/-- once the sequence is exhausted, the result is not `no_match` -/
theorem exhausted {m : MState} (hs : m.sRest = []) (hn : m.nmm = false) (he : Plain m.eRest) :
    (mLoop m).res ≠ .no_match := by
  refine mLoop_inv (fun m => m.sRest = [] ∧ m.nmm = false ∧ Plain m.eRest) (fun r => r.res ≠ .no_match) ?_ ?_ m ⟨hs, hn, he⟩
  · intro m m' h hstep
    have := mStep_atEnd h.1 h.2.1 h.2.2
    rw [hstep] at this; exact this
  · intro m r h hstep
    have := mStep_atEnd h.1 h.2.1 h.2.2
    rw [hstep] at this; exact this

/-- append events to the sequence -/
def MState.extend (m : MState) (t : KeySequence) : MState := { m with sRest := m.sRest ++ t }

/-- append events to the sequence of the next loop state -/
def extendStep (t : KeySequence) : MState ⊕ MOut → MState ⊕ MOut
  | .inl m' => .inl (m'.extend t)
  | .inr r => .inr r

theorem advS_extend (m : MState) (t) (hs : m.sRest ≠ []) :
    (m.extend t).advS = extendStep t m.advS := by
  unfold MState.advS MState.extend
  cases h : m.sRest with
  | nil => exact absurd h hs
  | cons x xs => simp [extendStep, MState.extend]

theorem advE_extend (m : MState) (t) : (m.extend t).advE = extendStep t m.advE := by
  unfold MState.advE MState.extend
  simp only []
  split <;> rfl

theorem advSE_extend (m : MState) (t) (hs : m.sRest ≠ []) :
    (m.extend t).advSE = extendStep t m.advSE := by
  unfold MState.advSE
  rw [advS_extend m t hs]
  cases m.advS with
  | inl m' => simp only [extendStep]; exact advE_extend m' t
  | inr r => rfl

theorem advS_extend' {m m2 : MState} {t} (h : m2 = m.extend t) (hs : m.sRest ≠ []) :
    m2.advS = extendStep t m.advS := by subst h; exact advS_extend m t hs

theorem advE_extend' {m m2 : MState} {t} (h : m2 = m.extend t) :
    m2.advE = extendStep t m.advE := by subst h; exact advE_extend m t

theorem advSE_extend' {m m2 : MState} {t} (h : m2 = m.extend t) (hs : m.sRest ≠ []) :
    m2.advSE = extendStep t m.advSE := by subst h; exact advSE_extend m t hs

theorem ite_map {f : α → β} {c : Prop} [Decidable c] {a b : β} {x y : α} (h1 : a = f x) (h2 : b = f y) :
    (if c then a else b) = f (if c then x else y) := by
  split
  · exact h1
  · exact h2

theorem mStepElse_extend (m : MState) (t) (hs : m.sRest ≠ []) (se ee) :
    mStepElse (m.extend t) se ee = extendStep t (mStepElse m se ee) := by
  have hs' : m.sRest.isEmpty = false := by simpa using hs
  have hs'' : (m.extend t).sRest.isEmpty = false := by simp [MState.extend, hs]
  have e2 : (m.extend t).any = m.any := rfl
  have e3 : (m.extend t).async = m.async := rfl
  have e4 : (m.extend t).nmm = m.nmm := rfl
  have e5 : (m.extend t).e = m.e := rfl
  have e6 : (m.extend t).ign = m.ign := rfl
  have e7 : (m.extend t).downs = m.downs := rfl
  unfold mStepElse
  rw [e2, e3, e4, e5, e6, e7, hs', hs'']
  refine ite_map rfl ?_
  refine ite_map (advS_extend' rfl hs) ?_
  refine ite_map (advS_extend' rfl hs) ?_
  refine ite_map (advE_extend' rfl) ?_
  refine ite_map (advE_extend' rfl) ?_
  refine ite_map (advS_extend' rfl hs) ?_
  refine ite_map (ite_map (advS_extend' rfl hs) rfl) ?_
  exact ite_map (advS_extend' rfl hs) rfl

theorem mStepMain_extend (m : MState) (t) (hs : m.sRest ≠ []) (se ee) :
    mStepMain (m.extend t) se ee = extendStep t (mStepMain m se ee) := by
  have e1 : (m.extend t).nots = m.nots := rfl
  have e2 : (m.extend t).any = m.any := rfl
  have e3 : (m.extend t).async = m.async := rfl
  unfold mStepMain
  rw [e1, e2, e3]
  split; · rfl
  split; · exact advE_extend' rfl
  split; · exact advE_extend' rfl
  split
  · split
    · rfl
    · exact advSE_extend' rfl hs
  split; · exact advSE_extend' rfl hs
  split; · rfl
  split; · exact advE_extend' rfl
  exact mStepElse_extend m t hs se ee

theorem mStep_extend (m : MState) (t) (hs : m.sRest ≠ []) :
    mStep (m.extend t) = extendStep t (mStep m) := by
  obtain ⟨x, xs, hx⟩ := List.exists_cons_of_ne_nil hs
  have h1 : (m.extend t).se = m.se := by simp [MState.extend, MState.se, hx]
  have h2 : (m.extend t).ee = m.ee := rfl
  have h3 : (m.extend t).sRest.isEmpty = false := by simp [MState.extend, hx]
  have h4 : m.sRest.isEmpty = false := by simp [hx]
  have h5 : (m.extend t).dropNot m.ee = (m.dropNot m.ee).extend t := by
    unfold MState.dropNot; split <;> rfl
  unfold mStep
  rw [h1, h2, h3, h4, h5]
  simp only [Bool.and_false, Bool.false_eq_true, if_false]
  exact mStepMain_extend _ t (by rw [(dropNot_fields m m.ee).2.1]; exact hs) _ _

theorem plain_advE {m1 m' : MState} (h4 : m1.advE = .inl m') (h2 : m1.nmm = false) (h3 : Plain m1.eRest) :
    m'.nmm = false ∧ Plain m'.eRest := by
  obtain ⟨x, er, hx, rfl⟩ := advE_inl h4
  exact ⟨h2, fun y hy => h3 y (by rw [hx]; simp; right; exact hy)⟩

theorem plain_advS {m1 m' : MState} (h4 : m1.advS = .inl m') (h2 : m1.nmm = false) (h3 : Plain m1.eRest) :
    m'.nmm = false ∧ Plain m'.eRest := by
  obtain ⟨x, sr, hx, rfl⟩ := advS_inl h4
  exact ⟨h2, h3⟩

theorem plain_advSE {m1 m' : MState} (h4 : m1.advSE = .inl m') (h2 : m1.nmm = false) (h3 : Plain m1.eRest) :
    m'.nmm = false ∧ Plain m'.eRest := by
  obtain ⟨x, sr, y, er, hs, hx, rfl⟩ := advSE_inl h4
  exact ⟨h2, fun y hy => h3 y (by rw [hx]; simp; right; exact hy)⟩

theorem plain_stepElse {m m' : MState} {se ee} (h : mStepElse m se ee = .inl m') (hn : m.nmm = false)
    (he : Plain m.eRest) : m'.nmm = false ∧ Plain m'.eRest := by
  unfold mStepElse at h
  split at h; · simp at h
  split at h; · exact plain_advS h hn he
  split at h; · exact plain_advS h hn he
  split at h; · exact plain_advE h hn he
  split at h; · exact plain_advE h hn he
  split at h; · exact plain_advS h hn he
  split at h
  · split at h
    · exact plain_advS h hn he
    · simp at h
  split at h; · exact plain_advS h hn he
  simp at h

theorem plain_step {m m' : MState} (h : mStep m = .inl m') (hn : m.nmm = false) (he : Plain m.eRest) :
    m'.nmm = false ∧ Plain m'.eRest := by
  have hne := head_nmm he
  have h0 := dropNot_fields m m.ee
  unfold mStep at h
  split at h; · simp at h
  generalize m.dropNot m.ee = m0 at h h0
  have hp0 : Plain m0.eRest := by rw [h0.1]; exact he
  have hn0 : m0.nmm = false := by rw [h0.2.2.1]; exact hn
  generalize m.se = se at h
  generalize m.ee = ee at h hne
  unfold mStepMain at h
  split at h; · simp at h
  split at h; · exact plain_advE h hn0 hp0
  split at h; · exact plain_advE h hn0 hp0
  split at h
  · split at h
    · simp at h
    · exact plain_advSE h hn0 hp0
  split at h; · exact plain_advSE h hn0 hp0
  split at h; · simp at h
  split at h; · next h' => exact absurd (beq_iff_eq.mp h') hne
  exact plain_stepElse h hn0 hp0

theorem final {m : MState} (hn : m.nmm = false) (he : Plain m.eRest) (h : (mLoop m).res = .no_match)
    (t : KeySequence) : mLoop (m.extend t) = mLoop m := by
  fun_induction mLoop m with
  | case1 m m' hstep ih =>
    have hs : m.sRest ≠ [] := by
      intro hs
      refine exhausted hs hn he ?_
      unfold mLoop; split
      · next h2 => rw [hstep] at h2; simp at h2; subst h2; exact h
      · next h2 => rw [hstep] at h2; simp at h2
    have hp := plain_step hstep hn he
    have hx := mStep_extend m t hs
    rw [hstep] at hx; simp only [extendStep] at hx
    have := ih hp.1 hp.2 h
    rw [← this]
    conv => lhs; unfold mLoop
    split
    · next h2 => rw [hx] at h2; simp at h2; rw [← h2]
    · next h2 => rw [hx] at h2; simp at h2
  | case2 m r hstep =>
    have hs : m.sRest ≠ [] := by
      intro hs
      refine exhausted hs hn he ?_
      unfold mLoop; split
      · next h2 => rw [hstep] at h2; simp at h2
      · next h2 => rw [hstep] at h2; simp at h2; subst h2; exact h
    have hx := mStep_extend m t hs
    rw [hstep] at hx; simp only [extendStep] at hx
    unfold mLoop
    split
    · next h2 => rw [hx] at h2; simp at h2
    · next h2 => rw [hx] at h2; simp at h2; exact h2.symm

/-- what a step can change at all -/
structure Shape (m m' : MState) : Prop where
  e : m'.eRest = m.eRest ∨ m'.eRest = m.eRest.tail
  s : m'.sRest = m.sRest ∨ m'.sRest = m.sRest.tail
  nots : ∀ k ∈ m.nots, k ∈ m'.nots

theorem advE_shape {m m1 m' : MState} (h : m1.advE = .inl m') (h1 : Shape m m1)
    (he : m1.eRest = m.eRest) : Shape m m' := by
  obtain ⟨x, er, hx, rfl⟩ := advE_inl h
  exact ⟨.inr (by rw [← he, hx]; rfl), h1.s, h1.nots⟩

theorem advS_shape {m m1 m' : MState} (h : m1.advS = .inl m') (h1 : Shape m m1)
    (hs : m1.sRest = m.sRest) : Shape m m' := by
  obtain ⟨x, er, hx, rfl⟩ := advS_inl h
  exact ⟨h1.e, .inr (by rw [← hs, hx]; rfl), h1.nots⟩

theorem advSE_shape {m m1 m' : MState} (h : m1.advSE = .inl m') (h1 : Shape m m1)
    (he : m1.eRest = m.eRest) (hs : m1.sRest = m.sRest) : Shape m m' := by
  obtain ⟨x, sr, y, er, hx, hy, rfl⟩ := advSE_inl h
  exact ⟨.inr (by rw [← he, hy]; rfl), .inr (by rw [← hs, hx]; rfl), h1.nots⟩

theorem mStepElse_shape {m m' : MState} {se ee} (h : mStepElse m se ee = .inl m') : Shape m m' := by
  have h1 : ∀ {m1 : MState}, m1.eRest = m.eRest → m1.sRest = m.sRest → m1.nots = m.nots → Shape m m1 :=
    fun e s n => ⟨.inl e, .inl s, fun k hk => n ▸ hk⟩
  unfold mStepElse at h
  split at h; · simp at h
  split at h; · exact advS_shape h (h1 rfl rfl rfl) rfl
  split at h; · exact advS_shape h (h1 rfl rfl rfl) rfl
  split at h; · exact advE_shape h (h1 rfl rfl rfl) rfl
  split at h; · exact advE_shape h (h1 rfl rfl rfl) rfl
  split at h; · exact advS_shape h (h1 rfl rfl rfl) rfl
  split at h
  · split at h
    · exact advS_shape h (h1 rfl rfl rfl) rfl
    · simp at h
  split at h; · exact advS_shape h (h1 rfl rfl rfl) rfl
  simp at h

theorem mStepMain_shape {m m' : MState} {se ee} (h : mStepMain m se ee = .inl m') : Shape m m' := by
  have h1 : ∀ {m1 : MState}, m1.eRest = m.eRest → m1.sRest = m.sRest → m1.nots = m.nots → Shape m m1 :=
    fun e s n => ⟨.inl e, .inl s, fun k hk => n ▸ hk⟩
  unfold mStepMain at h
  split at h; · simp at h
  split at h; · exact advE_shape h (h1 rfl rfl rfl) rfl
  split at h; · exact advE_shape h ⟨.inl rfl, .inl rfl, fun k hk => by simp [hk]⟩ rfl
  split at h
  · split at h
    · simp at h
    · exact advSE_shape h (h1 rfl rfl rfl) rfl rfl
  split at h; · exact advSE_shape h (h1 rfl rfl rfl) rfl rfl
  split at h; · simp at h
  split at h; · exact advE_shape h (h1 rfl rfl rfl) rfl
  exact mStepElse_shape h

theorem advE_res {m : MState} {r} (h : m.advE = .inr r) : r.res = .no_match := by
  unfold MState.advE at h; split at h <;> simp at h; subst h; rfl

theorem advS_res {m : MState} {r} (h : m.advS = .inr r) : r.res = .no_match := by
  unfold MState.advS at h; split at h <;> simp at h; subst h; rfl

theorem advSE_res {m : MState} {r} (h : m.advSE = .inr r) : r.res = .no_match := by
  unfold MState.advSE at h; split at h
  · exact advE_res h
  · next h1 => simp at h; subst h; exact advS_res h1

theorem mStepElse_res {m : MState} {se ee r} (h : mStepElse m se ee = .inr r) (hs : m.sRest ≠ []) :
    r.res = .no_match := by
  have hs' : m.sRest.isEmpty = false := by simpa using hs
  unfold mStepElse at h
  rw [hs'] at h
  split at h; · simp at h; subst h; rfl
  split at h; · exact advS_res h
  split at h; · exact advS_res h
  split at h; · exact advE_res h
  split at h; · exact advE_res h
  split at h; · exact advS_res h
  split at h
  · split at h
    · exact advS_res h
    · simp at h; subst h; rfl
  split at h; · exact advS_res h
  simp at h; subst h; rfl

/-- while there are events left, the only results are no match, or might match for the event
`KeyEvent{}` -/
theorem mStepMain_res {m : MState} {se ee r} (h : mStepMain m se ee = .inr r) (hs : m.sRest ≠ []) :
    r.res = .no_match ∨ (r.res = .might_match ∧ se = KeyEvent.zero) := by
  unfold mStepMain at h
  split at h; · simp at h; subst h; exact .inl rfl
  split at h; · exact .inl (advE_res h)
  split at h; · exact .inl (advE_res h)
  split at h
  · split at h
    · simp at h; subst h; exact .inl rfl
    · exact .inl (advSE_res h)
  split at h; · exact .inl (advSE_res h)
  split at h
  · next h' => simp at h' h; subst h; exact .inr ⟨rfl, h'.2⟩
  split at h; · exact .inl (advE_res h)
  exact .inl (mStepElse_res h hs)

end KM
