import Verif.Spec.HeldBack
import Verif.Lemmas.Foreign
/-!
# An expression which requires a key does not match without it
-/
namespace KM

/-- the key is still expected -/
structure NInv (K : Key → Prop) (k : Key) (m : MState) : Prop where
  split : Requires m.eRest k
  sK : ∀ x ∈ m.sRest, K x.key
  aK : ∀ a ∈ m.async, a.key = k → a.state = .DownAsync
  aA : ∀ a ∈ m.async, a.key = Key.any → a.state = .UpAsync ∨ a.state = .Up

/-- the key is still expected, or there is no match -/
def NOut (K : Key → Prop) (k : Key) : MState ⊕ MOut → Prop
  | .inl m' => NInv K k m'
  | .inr r => r.res ≠ .matched

theorem dropNot_ee (m : MState) : (m.dropNot m.ee).ee = m.ee := by
  obtain ⟨d1, _⟩ := dropNot_fields m m.ee
  show (m.dropNot m.ee).eRest.headD _ = m.eRest.headD _
  rw [d1]

theorem nOut_advE {K : Key → Prop} {k : Key} {m : MState} (h : NInv K k m) (hne : ¬ (m.ee.key = k ∧ m.ee.state = .Down)) :
    NOut K k m.advE := by
  obtain ⟨⟨e1, v, e2, he, h1⟩, h2, h3, h4⟩ := h
  cases e1 with
  | nil =>
    exfalso
    apply hne
    unfold MState.ee
    rw [he]
    exact ⟨rfl, rfl⟩
  | cons a e1 =>
    unfold MState.advE
    rw [he]
    exact ⟨⟨e1, v, e2, rfl, fun a ha => h1 a (by simp [ha])⟩, h2, h3, h4⟩

theorem nOut_advS {K : Key → Prop} {k : Key} {m : MState} (h : NInv K k m) : NOut K k m.advS := by
  obtain ⟨h1, h2, h3, h4⟩ := h
  unfold MState.advS
  split
  · show MatchResult.no_match ≠ _; simp
  · next x sr hs => exact ⟨h1, fun y hy => h2 y (by rw [hs]; simp [hy]), h3, h4⟩

theorem nOut_advSE {K : Key → Prop} {k : Key} {m : MState} (h : NInv K k m) (hne : ¬ (m.ee.key = k ∧ m.ee.state = .Down)) :
    NOut K k m.advSE := by
  unfold MState.advSE
  have hs := nOut_advS h
  cases hm : m.advS with
  | inr r => rw [hm] at hs; exact hs
  | inl m' =>
    rw [hm] at hs
    obtain ⟨x, sr, _, rfl⟩ := advS_inl hm
    exact nOut_advE hs hne

theorem unifiableKey_cases {a b : Key} (h : unifiableKey a b = true) : a = b ∨ a = Key.any ∨ b = Key.any := by
  unfold unifiableKey at h
  split at h
  · simp at h
  split at h
  · next h' => exact Or.inl (by simpa using h')
  split at h
  · simp at h
  split at h
  · next h' => simp only [Bool.and_eq_true, beq_iff_eq] at h'; exact Or.inr (Or.inl h'.1)
  split at h
  · next h' => simp only [Bool.and_eq_true, beq_iff_eq] at h'; exact Or.inr (Or.inr h'.1)
  simp at h

theorem unifiable_key {a b : KeyEvent} (h : unifiable a b = true) : unifiableKey a.key b.key = true := by
  unfold unifiable at h
  cases hk : unifiableKey a.key b.key with
  | true => rfl
  | false =>
    rw [hk] at h
    simp only [Bool.not_false, if_true, ite_self] at h
    cases h

theorem unifiable_state {a b : KeyEvent} (h : unifiable a b = true) (ht : a.key ≠ Key.timeout) : unifiableState a.state b.state = true := by
  have ht' : (a.key == Key.timeout) = false := beq_eq_false_iff_ne.2 ht
  unfold unifiable at h
  rw [ht'] at h
  split at h
  · cases h
  split at h
  · cases h
  split at h
  · cases h
  exact h

theorem modFirst_mem {α : Type} {p : α → Bool} {f : α → α} {l : List α} {a : α} (h : a ∈ modFirst p f l) :
    a ∈ l ∨ ∃ b ∈ l, p b = true ∧ a = f b := by
  induction l with
  | nil => simp [modFirst] at h
  | cons x l ih =>
    unfold modFirst at h
    split at h
    · next hp =>
      rcases List.mem_cons.1 h with h | h
      · exact Or.inr ⟨x, by simp, hp, h⟩
      · exact Or.inl (by simp [h])
    · rcases List.mem_cons.1 h with h | h
      · exact Or.inl (by simp [h])
      · rcases ih h with h | ⟨b, h1, h2⟩
        · exact Or.inl (by simp [h])
        · exact Or.inr ⟨b, by simp [h1], h2⟩

section
variable {K : Key → Prop} (hK : RealKeys K) {k : Key} (hk : ¬ K k) (hka : k ≠ Key.any) (hkt : k ≠ Key.timeout)
include hK hk hka hkt

theorem nOut_stepElse {m : MState} (h : NInv K k m) {se ee : KeyEvent} (hee : m.ee = ee) (hse : se = KeyEvent.zero ∨ K se.key) :
    NOut K k (mStepElse m se ee) := by
  have hsea : se.key ≠ Key.any := by
    rcases hse with rfl | h'
    · decide
    · exact (hK _ h').2.1
  have hsek : ∀ a, unifiableKey se.key a = true → a ≠ k := by
    rintro a ha rfl
    rcases unifiableKey_cases ha with h' | h' | h'
    · rcases hse with rfl | hse
      · rw [show KeyEvent.zero.key = 0 from rfl, unifiableKey_none_left] at ha; cases ha
      · exact hk (h' ▸ hse)
    · exact hsea h'
    · exact hka h'
  unfold mStepElse
  split
  · show MatchResult.no_match ≠ _; simp
  split
  · apply nOut_advS
    refine ⟨h.split, h.sK, ?_, ?_⟩
    · intro a ha hak
      rcases modFirst_mem ha with ha | ⟨b, hb, hp, rfl⟩
      · exact h.aK a ha hak
      · unfold waitsFor at hp
        simp only [Bool.and_eq_true] at hp
        exact absurd hak (hsek _ hp.2)
    · intro a ha hak
      rcases modFirst_mem ha with ha | ⟨b, hb, hp, rfl⟩
      · exact h.aA a ha hak
      · have hst := h.aA b hb hak
        unfold waitsFor at hp
        simp only [Bool.and_eq_true, beq_iff_eq] at hp
        by_cases hup : se.state = .Up
        · exact Or.inr hup
        · have := hp.1
          rw [if_neg hup] at this
          rcases hst with hst | hst <;> rw [hst] at this <;> cases this
  split
  · exact nOut_advS h
  split
  · next hany =>
    refine nOut_advE ⟨h.split, h.sK, fun a ha => h.aK a (List.mem_of_mem_eraseP ha), fun a ha => h.aA a (List.mem_of_mem_eraseP ha)⟩ ?_
    rintro ⟨q1, q2⟩
    have q1 : ee.key = k := by rw [← hee]; exact q1
    have q2 : ee.state = .Down := by rw [← hee]; exact q2
    obtain ⟨a, ha, hu⟩ := List.any_eq_true.1 hany
    have hs := unifiable_state hu (by rw [q1]; exact hkt)
    rw [q2] at hs
    rcases unifiableKey_cases (unifiable_key hu) with h' | h' | h'
    · rw [h.aK a ha (by rw [← h', q1])] at hs; cases hs
    · exact hka (q1.symm.trans h')
    · rcases h.aA a ha h' with h'' | h'' <;> rw [h''] at hs <;> cases hs
  split
  · next hud =>
    refine nOut_advE h ?_
    rintro ⟨q1, q2⟩
    have q1 : ee.key = k := by rw [← hee]; exact q1
    simp only [Bool.and_eq_true] at hud
    have hud := hud.2
    rw [q1] at hud
    unfold asyncUpDown at hud
    split at hud
    · next i hi =>
      have hmem := List.mem_of_getElem? (by simpa using hud)
      have := h.aK _ hmem rfl
      cases this
    · cases hud
  split
  · exact nOut_advS h
  split
  · split
    · exact nOut_advS ⟨h.split, h.sK, h.aK, h.aA⟩
    · show MatchResult.no_match ≠ _; simp
  split
  · exact nOut_advS h
  · show (if _ then MatchResult.might_match else MatchResult.no_match) ≠ _
    split <;> simp

theorem nOut_stepMain {m : MState} (h : NInv K k m) {se ee : KeyEvent} (hee : m.ee = ee) (hse : se = KeyEvent.zero ∨ K se.key) :
    NOut K k (mStepMain m se ee) := by
  have hsea : se.key ≠ Key.any := by
    rcases hse with rfl | h'
    · decide
    · exact (hK _ h').2.1
  have hhead : ∀ e1 : KeyState, ee.state = e1 → e1 ≠ .Down → ¬ (m.ee.key = k ∧ m.ee.state = .Down) := by
    rintro e1 h1 h2 ⟨_, h3⟩
    rw [hee] at h3
    exact h2 (h1.symm.trans h3)
  have hcond : ee.key = k → ee.state ≠ .UpAsync := by
    intro q1 q2
    obtain ⟨⟨e1, v, e2, he, h1⟩, _⟩ := h
    cases e1 with
    | nil =>
      unfold MState.ee at hee
      rw [he] at hee
      rw [← hee] at q2; cases q2
    | cons a e1 =>
      unfold MState.ee at hee
      rw [he] at hee
      have : a = ee := hee
      subst this
      exact (h1 a (by simp)).1 q1 q2
  have hconda : ee.key = Key.any → ee.state ≠ .DownAsync := by
    intro q1 q2
    obtain ⟨⟨e1, v, e2, he, h1⟩, _⟩ := h
    cases e1 with
    | nil =>
      unfold MState.ee at hee
      rw [he] at hee
      rw [← hee] at q2; cases q2
    | cons a e1 =>
      unfold MState.ee at hee
      rw [he] at hee
      have : a = ee := hee
      subst this
      exact (h1 a (by simp)).2 q1 q2
  unfold mStepMain
  split
  · show MatchResult.no_match ≠ _; simp
  split
  · next hst =>
    simp only [Bool.or_eq_true, beq_iff_eq] at hst
    refine nOut_advE ⟨h.split, h.sK, ?_, ?_⟩ ?_
    · intro a ha hak
      rcases List.mem_append.1 ha with ha | ha
      · exact h.aK a ha hak
      · rw [List.mem_singleton] at ha; subst ha
        rcases hst with hst | hst
        · exact hst
        · exact absurd hst (hcond hak)
    · intro a ha hak
      rcases List.mem_append.1 ha with ha | ha
      · exact h.aA a ha hak
      · rw [List.mem_singleton] at ha; subst ha
        rcases hst with hst | hst
        · exact absurd hst (hconda hak)
        · exact Or.inl hst
    · exact hhead ee.state rfl (by rintro e; rw [e] at hst; simp at hst)
  split
  · next hst =>
    simp only [Bool.and_eq_true, beq_iff_eq] at hst
    refine nOut_advE ⟨h.split, h.sK, h.aK, h.aA⟩ (hhead .Not hst.1 (by simp))
  split
  · next hst =>
    simp only [Bool.and_eq_true, beq_iff_eq] at hst
    split
    · show MatchResult.no_match ≠ _; simp
    · exact nOut_advSE h (hhead .Up hst.1.1.2 (by simp))
  split
  · next hu =>
    refine nOut_advSE ⟨h.split, h.sK, fun a ha => h.aK a ((List.mem_filter.1 ha).1), fun a ha => h.aA a ((List.mem_filter.1 ha).1)⟩ ?_
    rintro ⟨q1, _⟩
    have q1 : ee.key = k := by rw [← hee]; exact q1
    have := unifiable_key hu
    rw [q1] at this
    rcases unifiableKey_cases this with h' | h' | h'
    · rcases hse with hse | hse
      · rw [hse, show KeyEvent.zero.key = 0 from rfl, unifiableKey_none_left] at this; cases this
      · exact hk (h' ▸ hse)
    · exact hsea h'
    · exact hka h'
  split
  · show MatchResult.might_match ≠ _; simp
  split
  · next hst =>
    simp only [beq_iff_eq] at hst
    exact nOut_advE ⟨h.split, h.sK, h.aK, h.aA⟩ (hhead _ hst (by simp))
  exact nOut_stepElse hK hk hka hkt h hee hse

theorem nOut_step {m : MState} (h : NInv K k m) : NOut K k (mStep m) := by
  have hne : m.eRest.isEmpty = false := by
    obtain ⟨⟨e1, v, e2, he, _⟩, _⟩ := h
    rw [he]; simp
  unfold mStep
  rw [hne]
  simp only [Bool.false_and, Bool.false_eq_true, if_false]
  obtain ⟨d1, d2, d3, d4, d5, d6, d7, d8⟩ := dropNot_fields m m.ee
  apply nOut_stepMain hK hk hka hkt ⟨by rw [d1]; exact h.split, by rw [d2]; exact h.sK, by rw [d4]; exact h.aK, by rw [d4]; exact h.aA⟩
  · exact dropNot_ee m
  · unfold MState.se
    cases hs : m.sRest with
    | nil => exact Or.inl rfl
    | cons x sr => exact Or.inr (h.sK x (by rw [hs]; simp))

/-- **(matcher)** An expression which requires a key does not match a sequence without this key. -/
theorem matchSeq_requires {e s : KeySequence} (he : Requires e k) (hs : ∀ x ∈ s, K x.key) : (matchSeq e s).res ≠ .matched := by
  unfold matchSeq
  split
  · simp
  · refine mLoop_inv (NInv K k) (fun r => r.res ≠ .matched) ?_ ?_ (mInit e s) ?_
    · intro m m' h hstep
      have := nOut_step hK hk hka hkt h
      rw [hstep] at this
      exact this
    · intro m r h hstep
      have := nOut_step hK hk hka hkt h
      rw [hstep] at this
      exact this
    · exact ⟨he, hs, by simp [mInit], by simp [mInit]⟩

end

/-- an expression without timeouts does not request one -/
theorem matchSeq_noTimeout {e s : KeySequence} (he : ∀ x ∈ e, x.key ≠ Key.timeout) : (matchSeq e s).timeout = none := by
  unfold matchSeq
  split
  · rfl
  · refine mLoop_inv (fun m => ∀ x ∈ m.eRest, x.key ≠ Key.timeout) (fun r => r.timeout = none) ?_ ?_ (mInit e s) he
    · intro m m' h hstep
      unfold mStep at hstep
      split at hstep
      · cases hstep
      · have := (mStepMain_shape hstep).e
        rw [(dropNot_fields m m.ee).1] at this
        rcases this with h' | h'
        · rw [h']; exact h
        · rw [h']; exact fun x hx => h x (List.mem_of_mem_tail hx)
    · intro m r h hstep
      have hee : m.ee.key ≠ Key.timeout := by
        unfold MState.ee
        cases hr : m.eRest with
        | nil => decide
        | cons a b => exact h a (by rw [hr]; simp)
      have hE : ∀ {m : MState} {r}, m.advE = .inr r → r.timeout = none := by
        intro m r h; unfold MState.advE at h; split at h <;> cases h; rfl
      have hS : ∀ {m : MState} {r}, m.advS = .inr r → r.timeout = none := by
        intro m r h; unfold MState.advS at h; split at h <;> cases h; rfl
      have hSE : ∀ {m : MState} {r}, m.advSE = .inr r → r.timeout = none := by
        intro m r h; unfold MState.advSE at h; split at h
        · exact hE h
        · next h1 => cases h; exact hS h1
      have hElse : ∀ {m : MState} {se ee r}, mStepElse m se ee = .inr r → r.timeout = none := by
        intro m se ee r h
        unfold mStepElse at h
        repeat' split at h
        all_goals first | exact hS h | exact hE h | (cases h; rfl)
      unfold mStep at hstep
      split at hstep
      · cases hstep; rfl
      · generalize m.dropNot m.ee = m0 at hstep
        unfold mStepMain at hstep
        split at hstep
        · cases hstep; rfl
        split at hstep
        · exact hE hstep
        split at hstep
        · exact hE hstep
        split at hstep
        · split at hstep
          · cases hstep; rfl
          · exact hSE hstep
        split at hstep
        · exact hSE hstep
        split at hstep
        · next ht => simp only [Bool.and_eq_true, beq_iff_eq] at ht; exact absurd ht.1 hee
        split at hstep
        · exact hE hstep
        exact hElse hstep

/-! ### an event of a key which is not mentioned -/

/-- the event `x` was not skipped -/
structure UInv (x : KeyEvent) (m : MState) : Prop where
  eF : Foreign (· = x.key) m.eRest
  aF : Foreign (· = x.key) m.async
  mem : x ∈ m.sRest
  ign : m.ign = []
  nmm : m.nmm = true → 2 ≤ m.e
  first : m.e = 0 → m.ee.state ≠ .NoMightMatch
  noT : (∀ y ∈ m.eRest, y.key ≠ Key.timeout) ∨ ∀ y ∈ m.sRest, y ≠ KeyEvent.zero

/-- no match, or the event was not skipped -/
def UOut (x : KeyEvent) : MState ⊕ MOut → Prop
  | .inl m' => UInv x m'
  | .inr r => r.res = .no_match

theorem uOut_advE {x : KeyEvent} {m : MState} (h1 : Foreign (· = x.key) m.eRest) (h2 : Foreign (· = x.key) m.async)
    (h3 : x ∈ m.sRest) (h4 : m.ign = []) (h5 : m.nmm = true → 1 ≤ m.e) (h6 : (∀ y ∈ m.eRest, y.key ≠ Key.timeout) ∨ ∀ y ∈ m.sRest, y ≠ KeyEvent.zero) :
    UOut x m.advE := by
  unfold MState.advE
  split
  · rfl
  · next a er he =>
    exact ⟨fun y hy => h1 y (by rw [he]; simp [hy]), h2, h3, h4, fun hn => Nat.succ_le_succ (h5 hn), fun h0 => absurd h0 (Nat.succ_ne_zero _),
      h6.imp (fun h6 y hy => h6 y (by rw [he]; simp [hy])) id⟩

theorem uOut_advS {x : KeyEvent} {m : MState} (h : UInv x m) {se : KeyEvent} (hse : m.se = se) (hne : se ≠ x) : UOut x m.advS := by
  unfold MState.advS
  split
  · rfl
  · next a sr hs =>
    refine ⟨h.eF, h.aF, ?_, h.ign, h.nmm, h.first, h.noT.imp id (fun h y hy => h y (by rw [hs]; simp [hy]))⟩
    have := h.mem
    rw [hs] at this
    rcases List.mem_cons.1 this with h' | h'
    · exfalso
      apply hne
      rw [← hse]
      unfold MState.se
      rw [hs, h']; rfl
    · exact h'

theorem uOut_advSE {x : KeyEvent} {m : MState} (h : UInv x m) {se : KeyEvent} (hse : m.se = se) (hne : se ≠ x) : UOut x m.advSE := by
  unfold MState.advSE
  have hS := uOut_advS h hse hne
  split
  · next m' hm' =>
    rw [hm'] at hS
    exact uOut_advE hS.eF hS.aF hS.mem hS.ign (fun hn => Nat.le_of_succ_le (hS.nmm hn)) hS.noT
  · next r hr => rw [hr] at hS; exact hS

theorem uOut_stepElse {x : KeyEvent} (hx : RealKeys (· = x.key)) (hst : isNonOptional x = true) {m0 : MState} (hm0 : UInv x m0)
    {se ee : KeyEvent} (hse : m0.se = se) : UOut x (mStepElse m0 se ee) := by
  have hxr := hx x.key rfl
  have hwait : ∀ {se : KeyEvent}, se = x → ∀ {l}, Foreign (· = x.key) l → l.any (waitsFor se) = false :=
    fun e _ hl => waitsFor_foreign hx (by rw [e]) hl
  have hne' : m0.sRest ≠ [] := by intro h; have := hm0.mem; rw [h] at this; cases this
  unfold mStepElse
  split
  · rfl
  split
  · next hw =>
    have hsx : se ≠ x := by
      intro e
      rw [hwait e hm0.aF] at hw
      cases hw
    refine uOut_advS ⟨hm0.eF, ?_, hm0.mem, hm0.ign, hm0.nmm, hm0.first, hm0.noT⟩ hse hsx
    intro y hy
    rcases modFirst_mem hy with hy | ⟨b, hb, _, rfl⟩
    · exact hm0.aF y hy
    · exact hm0.aF b hb
  split
  · next hs =>
    refine uOut_advS hm0 hse ?_
    rintro rfl
    simp only [Bool.or_eq_true, beq_iff_eq] at hs
    rcases hs with hs | hs <;> simp [isNonOptional, hs] at hst
  split
  · exact uOut_advE hm0.eF (hm0.aF.mono (fun y hy => List.mem_of_mem_eraseP hy)) hm0.mem hm0.ign (fun hn => Nat.le_of_succ_le (hm0.nmm hn)) hm0.noT
  split
  · exact uOut_advE hm0.eF hm0.aF hm0.mem hm0.ign (fun hn => Nat.le_of_succ_le (hm0.nmm hn)) hm0.noT
  split
  · next hs =>
    refine uOut_advS hm0 hse ?_
    rintro rfl
    simp only [Bool.and_eq_true, beq_iff_eq] at hs
    exact hxr.2.2 hs.1.1
  split
  · next hs =>
    simp only [Bool.and_eq_true, beq_iff_eq] at hs
    have := hm0.nmm hs.1
    omega
  split
  · next hs => simp [hm0.ign] at hs
  · have : m0.sRest.isEmpty = false := by simpa using hne'
    show (if m0.sRest.isEmpty then MatchResult.might_match else _) = _
    rw [this]; rfl

theorem uOut_stepMain {x : KeyEvent} (hx : RealKeys (· = x.key)) (hst : isNonOptional x = true) {m0 : MState} (hm0 : UInv x m0)
    {se ee : KeyEvent} (hse : m0.se = se) (hee : m0.ee = ee) (he1 : ¬ ee.key = x.key) (he2 : ee.key ≠ Key.any)
    (het : ee.key ≠ Key.timeout ∨ se ≠ KeyEvent.zero) :
    UOut x (mStepMain m0 se ee) := by
  unfold mStepMain
  split
  · rfl
  split
  · next hs =>
    refine uOut_advE hm0.eF ?_ hm0.mem hm0.ign (fun hn => Nat.le_of_succ_le (hm0.nmm hn)) hm0.noT
    intro y hy
    rcases List.mem_append.1 hy with hy | hy
    · exact hm0.aF y hy
    · rw [List.mem_singleton.1 hy]; exact ⟨he1, he2⟩
  split
  · exact uOut_advE hm0.eF hm0.aF hm0.mem hm0.ign (fun hn => Nat.le_of_succ_le (hm0.nmm hn)) hm0.noT
  split
  · next hs => simp only [Bool.and_eq_true, beq_iff_eq] at hs; exact absurd hs.1.1.1 he2
  split
  · next hu =>
    have hsx : se ≠ x := by
      rintro rfl
      rw [unifiable_foreign hx rfl he1 he2] at hu
      cases hu
    exact uOut_advSE ⟨hm0.eF, hm0.aF.mono (fun y hy => (List.mem_filter.1 hy).1), hm0.mem, hm0.ign, hm0.nmm, hm0.first, hm0.noT⟩ hse hsx
  split
  · next hs =>
    simp only [Bool.and_eq_true, beq_iff_eq] at hs
    rcases het with het | het
    · exact absurd hs.1 het
    · exact absurd hs.2 het
  split
  · next hs =>
    refine uOut_advE hm0.eF hm0.aF hm0.mem hm0.ign ?_ hm0.noT
    intro _
    rcases Nat.eq_zero_or_pos m0.e with h0 | h0
    · have := hm0.first h0
      rw [hee] at this
      exact absurd (by simpa using hs) this
    · exact h0
  exact uOut_stepElse hx hst hm0 hse

theorem uOut_step {x : KeyEvent} (hx : RealKeys (· = x.key)) (hst : isNonOptional x = true) {m : MState} (h : UInv x m) : UOut x (mStep m) := by
  obtain ⟨he1, he2⟩ := ee_foreign hx h.eF
  have hne : m.sRest.isEmpty = false := by
    cases hs : m.sRest with
    | nil => have := h.mem; rw [hs] at this; cases this
    | cons a b => rfl
  have het : m.ee.key ≠ Key.timeout ∨ m.se ≠ KeyEvent.zero := by
    rcases h.noT with ht | ht
    · left
      unfold MState.ee
      cases hr : m.eRest with
      | nil => decide
      | cons a b => exact ht a (by rw [hr]; simp)
    · right
      unfold MState.se
      cases hr : m.sRest with
      | nil => have := h.mem; rw [hr] at this; cases this
      | cons a b => exact ht a (by rw [hr]; simp)
  unfold mStep
  rw [hne]
  simp only [Bool.and_false, Bool.false_eq_true, if_false]
  obtain ⟨d1, d2, d3, d4, d5, d6, d7, d8⟩ := dropNot_fields m m.ee
  have hse : (m.dropNot m.ee).se = m.se := by unfold MState.se; rw [d2]
  refine uOut_stepMain hx hst ⟨by rw [d1]; exact h.eF, by rw [d4]; exact h.aF, by rw [d2]; exact h.mem, by rw [d7]; exact h.ign,
    by rw [d3, d6]; exact h.nmm, by rw [d6, dropNot_ee]; exact h.first, by rw [d1, d2]; exact h.noT⟩ hse (dropNot_ee m) he1 he2 het

/-- **(matcher)** A sequence with an unmatched event of a key which the expression does not mention neither matches nor might match. -/
theorem matchSeq_unrelated' {e s : KeySequence} {x : KeyEvent} (hx : RealKeys (· = x.key)) (hst : isNonOptional x = true)
    (he : Foreign (· = x.key) e) (ht : (∀ y ∈ e, y.key ≠ Key.timeout) ∨ ∀ y ∈ s, y ≠ KeyEvent.zero) (hs : x ∈ s) (hm : e.head?.map (·.state) ≠ some .NoMightMatch) : (matchSeq e s).res = .no_match := by
  unfold matchSeq
  split
  · rfl
  · refine mLoop_inv (UInv x) (fun r => r.res = .no_match) ?_ ?_ (mInit e s) ?_
    · intro m m' h hstep
      have := uOut_step hx hst h
      rw [hstep] at this
      exact this
    · intro m r h hstep
      have := uOut_step hx hst h
      rw [hstep] at this
      exact this
    · refine ⟨he, by intro y hy; simp [mInit] at hy, hs, rfl, by simp [mInit], fun _ => ?_, ht⟩
      show (e.headD KeyEvent.zero).state ≠ _
      cases e with
      | nil => simp [KeyEvent.zero]
      | cons a e => simpa using hm

/-- **(matcher)** The same for an expression without timeouts. -/
theorem matchSeq_unrelated {e s : KeySequence} {x : KeyEvent} (hx : RealKeys (· = x.key)) (hst : isNonOptional x = true)
    (he : Foreign (· = x.key) e) (ht : ∀ y ∈ e, y.key ≠ Key.timeout) (hs : x ∈ s) (hm : e.head?.map (·.state) ≠ some .NoMightMatch) :
    (matchSeq e s).res = .no_match :=
  matchSeq_unrelated' hx hst he (Or.inl ht) hs hm

end KM
