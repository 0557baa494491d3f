import Verif.Model.Match
/-!
# The matcher stays within its lists

Matching a nonempty expression with a nonempty sequence of actual keys fails no assertion and does
not read past the end.
-/
namespace KM

/-- the keys of the rest of the sequence, the ignored releases and what `Any` matched are `K` -/
structure MState.Real (K : Key → Prop) (m : MState) : Prop where
  none : ¬ K Key.none
  seq : ∀ e ∈ m.sRest, K e.key
  ign : ∀ k ∈ m.ign, K k
  any : ∀ k ∈ m.any, K k

theorem MState.se_cases (m : MState) : (m.sRest = [] ∧ m.se = KeyEvent.zero) ∨ ∃ sr, m.sRest = m.se :: sr := by
  cases h : m.sRest with
  | nil => exact Or.inl ⟨rfl, by simp [MState.se, h]⟩
  | cons x l => exact Or.inr ⟨l, by simp [MState.se, h]⟩

theorem MState.ee_cases (m : MState) : (m.eRest = [] ∧ m.ee = KeyEvent.zero) ∨ ∃ er, m.eRest = m.ee :: er := by
  cases h : m.eRest with
  | nil => exact Or.inl ⟨rfl, by simp [MState.ee, h]⟩
  | cons x l => exact Or.inr ⟨l, by simp [MState.ee, h]⟩

/-- what a step may result in -/
def MState.StepSafe (K : Key → Prop) (r : MState ⊕ MOut) : Prop :=
  match r with
  | .inl m => m.Real K
  | .inr o => o.ub = false ∧ ∀ k ∈ o.any, K k

theorem MState.advE_safe {m : MState} {K : Key → Prop} (h : m.Real K) (he : m.eRest ≠ []) : MState.StepSafe K m.advE := by
  unfold MState.advE
  split
  · next h1 => exact absurd h1 he
  · exact ⟨h.none, h.seq, h.ign, h.any⟩

theorem MState.advS_safe {m : MState} {K : Key → Prop} (h : m.Real K) (hs : m.sRest ≠ []) : MState.StepSafe K m.advS := by
  unfold MState.advS
  split
  · next h1 => exact absurd h1 hs
  · next x sr h1 =>
    exact ⟨h.none, fun e he => h.seq e (by rw [h1]; exact List.mem_cons_of_mem _ he), h.ign, h.any⟩

theorem MState.advSE_safe {m : MState} {K : Key → Prop} (h : m.Real K) (hs : m.sRest ≠ []) (he : m.eRest ≠ []) :
    MState.StepSafe K m.advSE := by
  have h1 := MState.advS_safe h hs
  unfold MState.advSE
  split
  · next m' h2 =>
    rw [h2] at h1
    refine MState.advE_safe h1 ?_
    unfold MState.advS at h2
    split at h2
    · simp at h2
    · simp only [Sum.inl.injEq] at h2
      rw [← h2]; exact he
  · next r h2 => rw [h2] at h1; exact h1

theorem unifiableKey_left {a b : Key} (h : unifiableKey a b = true) : a ≠ Key.none := by
  intro h0; subst h0; simp [unifiableKey] at h

theorem unifiableKey_right {a b : Key} (h : unifiableKey a b = true) : b ≠ Key.none := by
  intro h0; subst h0; simp [unifiableKey] at h

theorem unifiable_keys {a b : KeyEvent} (h : unifiable a b = true) : unifiableKey a.key b.key = true := by
  unfold unifiable at h
  repeat' split at h
  all_goals simp_all

theorem mStepElse_safe {m : MState} {se ee : KeyEvent} {K : Key → Prop} (h : m.Real K)
    (hs : m.sRest = [] → se = KeyEvent.zero) (hse : m.sRest ≠ [] → se ∈ m.sRest)
    (he : m.eRest = [] → ee = KeyEvent.zero) : MState.StepSafe K (mStepElse m se ee) := by
  unfold mStepElse
  split
  · exact ⟨rfl, h.any⟩
  split
  · next hw =>
    refine MState.advS_safe ⟨h.none, h.seq, h.ign, h.any⟩ ?_
    intro h0
    simp only [List.any_eq_true, waitsFor, Bool.and_eq_true] at hw
    obtain ⟨a, _, _, hw⟩ := hw
    exact unifiableKey_left hw (by rw [hs h0]; rfl)
  split
  · next hw =>
    refine MState.advS_safe h ?_
    intro h0; rw [hs h0] at hw; revert hw; decide
  split
  · next hw =>
    refine MState.advE_safe ⟨h.none, h.seq, h.ign, h.any⟩ ?_
    intro h0
    simp only [List.any_eq_true] at hw
    obtain ⟨a, _, hw⟩ := hw
    exact unifiableKey_left (unifiable_keys hw) (by rw [he h0]; rfl)
  split
  · next hw =>
    refine MState.advE_safe h ?_
    intro h0; rw [he h0] at hw; revert hw
    rw [show (KeyEvent.zero.state == KeyState.Down) = false by decide]; simp
  split
  · next hw =>
    refine MState.advS_safe h ?_
    intro h0; rw [hs h0] at hw; revert hw
    rw [show (KeyEvent.zero.key == Key.timeout) = false by decide]; simp
  split
  · split
    · next hz =>
      have hn : m.sRest ≠ [] := by intro h0; rw [hs h0] at hz; revert hz; decide
      refine MState.advS_safe ⟨h.none, h.seq, ?_, h.any⟩ hn
      intro k hk
      simp only [] at hk
      split at hk
      · rcases List.mem_append.mp hk with hk | hk
        · exact h.ign k hk
        · rw [List.mem_singleton] at hk
          subst hk; exact h.seq _ (hse hn)
      · exact h.ign k hk
    · exact ⟨rfl, h.any⟩
  split
  · next hw =>
    refine MState.advS_safe h ?_
    intro h0; rw [hs h0] at hw
    simp only [Bool.and_eq_true, List.contains_iff_mem] at hw
    exact h.none (h.ign _ hw.2)
  · exact ⟨rfl, h.any⟩

theorem mStep_safe {m : MState} {K : Key → Prop} (h : m.Real K) : MState.StepSafe K (mStep m) := by
  unfold mStep
  split
  · exact ⟨rfl, h.any⟩
  have hr : (m.dropNot m.ee).Real K := by unfold MState.dropNot; split <;> exact ⟨h.none, h.seq, h.ign, h.any⟩
  have hs : (m.dropNot m.ee).sRest = [] → m.se = KeyEvent.zero := by
    have : (m.dropNot m.ee).sRest = m.sRest := by unfold MState.dropNot; split <;> rfl
    rw [this]; intro h0; simp [MState.se, h0]
  have hse : (m.dropNot m.ee).sRest ≠ [] → m.se ∈ (m.dropNot m.ee).sRest := by
    have : (m.dropNot m.ee).sRest = m.sRest := by unfold MState.dropNot; split <;> rfl
    rw [this]
    intro h0
    rcases m.se_cases with ⟨h1, _⟩ | ⟨sr, h1⟩
    · exact absurd h1 h0
    · rw [h1]; simp
  have he : (m.dropNot m.ee).eRest = [] → m.ee = KeyEvent.zero := by
    have : (m.dropNot m.ee).eRest = m.eRest := by unfold MState.dropNot; split <;> rfl
    rw [this]; intro h0; simp [MState.ee, h0]
  revert hr hs hse he
  generalize m.dropNot m.ee = n
  generalize m.se = se
  generalize m.ee = ee
  intro hr hs hse he
  unfold mStepMain
  split
  · exact ⟨rfl, hr.any⟩
  split
  · next hw =>
    refine MState.advE_safe ⟨hr.none, hr.seq, hr.ign, hr.any⟩ ?_
    intro h0; rw [he h0] at hw; revert hw; decide
  split
  · next hw =>
    refine MState.advE_safe ⟨hr.none, hr.seq, hr.ign, hr.any⟩ ?_
    intro h0; rw [he h0] at hw; revert hw; decide
  split
  · next hw =>
    split
    · exact ⟨rfl, hr.any⟩
    · refine MState.advSE_safe hr ?_ ?_
      · intro h0; rw [hs h0] at hw; revert hw
        rw [show (KeyEvent.zero.key != Key.none) = false by decide]; simp
      · intro h0; rw [he h0] at hw; revert hw
        rw [show (KeyEvent.zero.key == Key.any) = false by decide]; simp
  split
  · next hw =>
    have hk := unifiable_keys hw
    have hn : n.sRest ≠ [] := by
      intro h0; exact unifiableKey_left hk (by rw [hs h0]; rfl)
    refine MState.advSE_safe ⟨hr.none, hr.seq, hr.ign, ?_⟩ hn ?_
    · intro k hmem
      simp only [] at hmem
      split at hmem
      · rcases List.mem_append.mp hmem with hmem | hmem
        · exact hr.any k hmem
        · rw [List.mem_singleton] at hmem
          subst hmem; exact hr.seq _ (hse hn)
      · exact hr.any k hmem
    · intro h0; exact unifiableKey_right hk (by rw [he h0]; rfl)
  split
  · exact ⟨rfl, hr.any⟩
  split
  · next hw =>
    refine MState.advE_safe ⟨hr.none, hr.seq, hr.ign, hr.any⟩ ?_
    intro h0; rw [he h0] at hw; revert hw; decide
  · exact mStepElse_safe hr hs hse he

theorem mLoop_safe {K : Key → Prop} (m : MState) (h : m.Real K) :
    (mLoop m).ub = false ∧ ∀ k ∈ (mLoop m).any, K k := by
  fun_induction mLoop m with
  | case1 m m' hm ih => exact ih (by have := mStep_safe h; rw [hm] at this; exact this)
  | case2 m r hm => have := mStep_safe h; rw [hm] at this; exact this

theorem matchSeq_safe {K : Key → Prop} (hn : ¬ K Key.none) {expression sequence : KeySequence} (he : expression ≠ [])
    (hs : sequence ≠ []) (hk : ∀ e ∈ sequence, K e.key) :
    (matchSeq expression sequence).ub = false ∧ ∀ k ∈ (matchSeq expression sequence).any, K k := by
  unfold matchSeq
  split
  · next h =>
    simp only [Bool.or_eq_true, List.isEmpty_iff] at h
    exact absurd h (by simp [he, hs])
  · exact mLoop_safe _ ⟨hn, hk, by simp [mInit], by simp [mInit]⟩

end KM
