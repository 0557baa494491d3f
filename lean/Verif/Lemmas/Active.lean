import Verif.Lemmas.Context
import Verif.Lemmas.Kept
import Verif.Lemmas.Frozen
import Verif.Lemmas.SeqAll
/-!
# Lemmas about the active contexts
-/
namespace KM

theorem matchModifierFilter_iff (seq mods : KeySequence) :
    matchModifierFilter seq mods = true ↔ ModifiersHeld seq mods := by
  unfold matchModifierFilter ModifiersHeld findKey
  simp only [List.all_eq_true]
  refine forall_congr' fun m => forall_congr' fun _ => ?_
  have : (seq.find? (·.key == m.key)).isSome = true ↔ ∃ e ∈ seq, e.key = m.key := by simp
  rw [← this]
  cases (seq.find? (·.key == m.key)).isSome <;> cases h : (m.state != .Not) <;> simp_all

theorem filtersMatch_iff (seq : KeySequence) (ctx : Context) :
    (((matchModifierFilter seq ctx.modifierFilter) ^^ ctx.invertModifierFilter) &&
          (!ctx.hasDeviceFilter || ctx.matchingDeviceBits != 0)) = true ↔ FiltersMatch seq ctx := by
  unfold FiltersMatch
  rw [← matchModifierFilter_iff]
  cases matchModifierFilter seq ctx.modifierFilter <;> cases ctx.invertModifierFilter <;>
    cases ctx.hasDeviceFilter <;> simp

theorem fallsTo_exists {cs : List Context} (h : LastStops cs) {i : Nat} (hi : i < cs.length) :
    ∃ j, FallsTo cs i j := by
  obtain ⟨last, h1, h2⟩ := h
  have hlast : cs[cs.length - 1]? = some last := by rw [← List.getLast?_eq_getElem?]; exact h1
  have : ∀ n, ∀ i, i < cs.length → cs.length - 1 - i = n → ∃ j, FallsTo cs i j := by
    intro n
    induction n with
    | zero =>
      intro i hi hn
      have : i = cs.length - 1 := by omega
      exact ⟨i, by omega, by intro m; omega, last, this ▸ hlast, h2⟩
    | succ n ih =>
      intro i hi hn
      by_cases hf : cs[i].fallthrough = true
      · obtain ⟨j, h1, h2, h3⟩ := ih (i + 1) (by omega) (by omega)
        refine ⟨j, by omega, ?_, h3⟩
        intro m hm1 hm2
        by_cases hm : m = i
        · subst hm; exact ⟨_, List.getElem?_eq_getElem hi, hf⟩
        · exact h2 m (by omega) hm2
      · exact ⟨i, by omega, by intro m; omega, _, List.getElem?_eq_getElem hi, by simpa using hf⟩
  exact this _ i hi rfl

theorem pairwise_lt_append {l : List Nat} {j : Nat} (h : l.Pairwise (· < ·)) (hle : ∀ a ∈ l, a ≤ j)
    (hne : l.getLast? ≠ some j) : (l ++ [j]).Pairwise (· < ·) := by
  rw [List.pairwise_append]
  refine ⟨h, by simp, ?_⟩
  intro a ha b hb
  simp only [List.mem_singleton] at hb
  subst hb
  rcases Nat.lt_or_eq_of_le (hle a ha) with h' | h'
  · exact h'
  · exfalso
    subst h'
    apply hne
    obtain ⟨init, last, rfl⟩ : ∃ init last, l = init ++ [last] := by
      have : l ≠ [] := by intro h; simp [h] at ha
      exact ⟨l.dropLast, l.getLast this, (List.dropLast_concat_getLast this).symm⟩
    rw [List.getLast?_append]
    simp only [List.getLast?_singleton, Option.some_or, Option.some.injEq]
    rw [List.pairwise_append] at h
    have hl := hle last (by simp)
    rcases List.mem_append.1 ha with ha | ha
    · have := h.2.2 a ha last (by simp)
      omega
    · simp at ha; exact ha.symm

theorem computeActive_spec {cs : List Context} {seq : KeySequence} (client acc : List Nat)
    (hs : client.Pairwise (· ≤ ·)) (hc : ∀ i ∈ client, ∃ j, FallsTo cs i j)
    (ha : acc.Pairwise (· < ·)) (hle : ∀ a ∈ acc, ∀ i ∈ client, ∀ j, FallsTo cs i j → a ≤ j) :
    ∃ r, computeActive cs seq client acc = some r ∧ r.Pairwise (· < ·) ∧
      ∀ j, j ∈ r ↔ j ∈ acc ∨ IsActive cs seq client j := by
  induction client generalizing acc with
  | nil => exact ⟨acc, rfl, ha, by simp [IsActive]⟩
  | cons i is ih =>
    rw [List.pairwise_cons] at hs
    obtain ⟨j, hj⟩ := hc i (by simp)
    have hlen : i < cs.length := by
      by_cases hij : i < j
      · obtain ⟨ctx, h, _⟩ := hj.2.1 i (Nat.le_refl _) hij
        exact (List.getElem?_eq_some_iff.1 h).1
      · obtain ⟨ctx, h, _⟩ := hj.2.2
        have := (List.getElem?_eq_some_iff.1 h).1
        have := hj.1; omega
    unfold computeActive
    rw [List.getElem?_eq_getElem hlen]
    simp only []
    have hc' : ∀ i ∈ is, ∃ j, FallsTo cs i j := fun i hi => hc i (by simp [hi])
    split
    · next hf =>
      rw [filtersMatch_iff] at hf
      rw [(fallthroughContext_iff cs i j).2 hj]
      simp only []
      have hacc : ∀ a ∈ acc, a ≤ j := fun a h => hle a h i (by simp) j hj
      generalize hacc' : (if (acc.getLast? == some j) = true then acc else acc ++ [j]) = acc'
      have hmem : ∀ a, a ∈ acc' ↔ a ∈ acc ∨ a = j := by
        intro a; subst hacc'
        split
        · next h =>
          simp only [beq_iff_eq] at h
          have := List.mem_of_getLast? h
          constructor
          · exact Or.inl
          · rintro (h | rfl)
            · exact h
            · exact this
        · simp
      have hpw : acc'.Pairwise (· < ·) := by
        subst hacc'
        split
        · exact ha
        · next h => exact pairwise_lt_append ha hacc (by simpa using h)
      obtain ⟨r, h1, h2, h3⟩ := ih acc' hs.2 hc' hpw (by
        intro a h i' hi' j' hj'
        rcases (hmem a).1 h with h | rfl
        · exact hle a h i' (by simp [hi']) j' hj'
        · exact hj.mono hj' (hs.1 i' hi'))
      refine ⟨r, h1, h2, ?_⟩
      intro k
      rw [h3, hmem]
      unfold IsActive
      constructor
      · rintro ((h | rfl) | ⟨i', hi', h⟩)
        · exact Or.inl h
        · exact Or.inr ⟨i, by simp, _, List.getElem?_eq_getElem hlen, hf, hj⟩
        · exact Or.inr ⟨i', by simp [hi'], h⟩
      · rintro (h | ⟨i', hi', ctx, h⟩)
        · exact Or.inl (Or.inl h)
        · rcases List.mem_cons.1 hi' with rfl | hi'
          · exact Or.inl (Or.inr (h.2.2.functional hj))
          · exact Or.inr ⟨i', hi', ctx, h⟩
    · next hf =>
      rw [filtersMatch_iff] at hf
      obtain ⟨r, h1, h2, h3⟩ := ih acc hs.2 hc' ha (fun a h i' hi' => hle a h i' (by simp [hi']))
      refine ⟨r, h1, h2, ?_⟩
      intro k
      rw [h3]
      unfold IsActive
      constructor
      · rintro (h | ⟨i', hi', h⟩)
        · exact Or.inl h
        · exact Or.inr ⟨i', by simp [hi'], h⟩
      · rintro (h | ⟨i', hi', ctx, h⟩)
        · exact Or.inl h
        · rcases List.mem_cons.1 hi' with rfl | hi'
          · rw [List.getElem?_eq_getElem hlen] at h
            simp only [Option.some.injEq] at h
            exact absurd (h.1 ▸ h.2.1) hf
          · exact Or.inr ⟨i', hi', ctx, h⟩

/-! ### the merge loop -/

theorem mergeContexts_spec (P C : List Nat) (hp : P.Pairwise (· < ·)) (hc : C.Pairwise (· < ·)) :
    mergeContexts P C = (P.filter (fun i => !C.contains i), C.filter (fun i => !P.contains i)) := by
  fun_induction mergeContexts P C with
  | case1 curr => simp [List.filter_eq_self.2]
  | case2 prev h => simp [List.filter_eq_self.2]
  | case3 p ps q qs hlt d a heq ih =>
    rw [List.pairwise_cons] at hp hc
    have h := ih hp.2 (List.pairwise_cons.2 hc)
    rw [heq, Prod.mk.injEq] at h
    have hpC : p ∉ q :: qs := by
      intro h; rcases List.mem_cons.1 h with rfl | h
      · omega
      · have := hc.1 p h; omega
    rw [Prod.mk.injEq]
    constructor
    · rw [List.filter_cons_of_pos (by simpa using hpC), h.1]
    · rw [h.2]
      apply List.filter_congr
      intro x hx
      have : x ≠ p := by rintro rfl; exact hpC hx
      simp [this]
  | case4 p ps q qs hge hlt d a heq ih =>
    rw [List.pairwise_cons] at hp hc
    have h := ih (List.pairwise_cons.2 hp) hc.2
    rw [heq, Prod.mk.injEq] at h
    have hqP : q ∉ p :: ps := by
      intro h; rcases List.mem_cons.1 h with rfl | h
      · omega
      · have := hp.1 q h; omega
    rw [Prod.mk.injEq]
    constructor
    · rw [h.1]
      apply List.filter_congr
      intro x hx
      have : x ≠ q := by rintro rfl; exact hqP hx
      simp [this]
    · rw [List.filter_cons_of_pos (by simpa using hqP), h.2]
  | case5 p ps q qs h1 h2 ih =>
    have : p = q := by omega
    subst this
    rw [List.pairwise_cons] at hp hc
    rw [ih hp.2 hc.2, Prod.mk.injEq]
    constructor
    · rw [List.filter_cons_of_neg (by simp)]
      apply List.filter_congr
      intro x hx
      have : x ≠ p := by rintro rfl; have := hp.1 x hx; omega
      simp [this]
    · rw [List.filter_cons_of_neg (by simp)]
      apply List.filter_congr
      intro x hx
      have : x ≠ p := by rintro rfl; have := hc.1 x hx; omega
      simp [this]

/-! ### histories -/

/-- the list of active contexts is the one described by the specification -/
def ActiveFor (cs : List Context) (seq : KeySequence) (client active : List Nat) : Prop :=
  active.Pairwise (· < ·) ∧ ∀ j, j ∈ active ↔ IsActive cs seq client j

theorem computeActive_activeFor {cs : List Context} {seq client} (hl : LastStops cs)
    (hs : client.Pairwise (· ≤ ·)) (hc : ∀ i ∈ client, i < cs.length) :
    ∃ r, computeActive cs seq client [] = some r ∧ ActiveFor cs seq client r := by
  obtain ⟨r, h1, h2, h3⟩ := computeActive_spec (cs := cs) (seq := seq) client [] hs
    (fun i hi => fallsTo_exists hl (hc i hi)) (by simp) (by simp)
  exact ⟨r, h1, h2, by simpa using h3⟩

theorem mergeRepeat_returned {s s' : S} {ev dev} (h : mergeRepeat s ev dev = (s', true)) :
    s'.seq = s.seq ∧ s'.active = s.active := by
  unfold mergeRepeat at h
  simp only [] at h
  repeat' split at h
  all_goals first
    | (simp at h; done)
    | (simp only [Prod.mk.injEq] at h; obtain ⟨rfl, _⟩ := h; exact ⟨rfl, rfl⟩)

theorem kept_active {s s' : S} (h : s.kept = s'.kept) : s.active = s'.active :=
  congrArg (fun x => x.2.2.1) h

theorem kept_client {s s' : S} (h : s.kept = s'.kept) : s.activeClient = s'.activeClient :=
  congrArg (fun x => x.2.1) h

theorem mergeRepeat_client (s : S) (ev dev) : (mergeRepeat s ev dev).1.activeClient = s.activeClient :=
  congrArg Prod.snd (mergeRepeat_frozen s ev dev)

theorem suppressTimeout_active (s ev) : (suppressTimeout s ev).1.active = s.active := by
  unfold suppressTimeout
  repeat' split
  all_goals rfl

theorem finishInput_active (c s ev) :
    ∃ seq, (∀ a, computeActive c.contexts seq s.activeClient [] = some a → (finishInput c s ev).active = a) ∧
      (finishInput c s ev).seq = seq.dropWhile (fun e => e.state == KeyState.UpMatched) ∧ seq = s.seq := by
  refine ⟨s.seq, ?_, ?_, rfl⟩
  · intro a ha
    unfold finishInput
    simp only []
    generalize hs1 : (if (ev.state == KeyState.Up) = true then releaseTriggered s ev.key (-1) else s) = s1
    have h1 : s1.seq = s.seq ∧ s1.activeClient = s.activeClient := by subst hs1; split <;> exact ⟨rfl, rfl⟩
    have h2 := kept_active (updateActiveContexts_kept c s1)
    rw [h1.1, h1.2, ha] at h2
    generalize updateActiveContexts c s1 = s2 at *
    split <;> exact h2
  · unfold finishInput
    simp only []
    generalize hs1 : (if (ev.state == KeyState.Up) = true then releaseTriggered s ev.key (-1) else s) = s1
    have h1 : s1.seq = s.seq := by subst hs1; split <;> rfl
    have h2 := updateActiveContexts_seq c s1
    generalize updateActiveContexts c s1 = s2 at *
    rw [← h1, ← h2]
    split <;> rfl

theorem applyInput_active (c : Cfg) (s : S) (ev dev) :
    ((applyInput c s ev dev).active = s.active ∧ (applyInput c s ev dev).seq = s.seq) ∨
    ∃ s0 : S, (∀ a, computeActive c.contexts s0.seq s.activeClient [] = some a → (applyInput c s ev dev).active = a) ∧
      (applyInput c s ev dev).seq = s0.seq.dropWhile (fun e => e.state == KeyState.UpMatched) ∧
      ∀ P, EventInv P → P ev → (∀ e ∈ s.seq, P e) → ∀ e ∈ s0.seq, P e := by
  unfold applyInput
  simp only []
  generalize hs0 : (if validInput ev = true then s else { s with ub := true }) = s0
  have h0 : s0.seq = s.seq ∧ s0.active = s.active ∧ s0.activeClient = s.activeClient := by
    subst hs0; split <;> exact ⟨rfl, rfl, rfl⟩
  rw [← h0.1, ← h0.2.1, ← h0.2.2]
  have h1 := continueOnRelease_seq s0 ev (-1)
  have h1' := continueOnRelease_kept s0 ev (-1)
  generalize continueOnRelease s0 ev (-1) = r1 at *
  split
  · exact Or.inl ⟨kept_active h1', h1⟩
  · next s1 =>
    simp only [] at h1 h1'
    rw [← h1, ← kept_active h1', ← kept_client h1']
    have h2 := suppressTimeout_seq s1 ev
    have h2' := suppressTimeout_active s1 ev
    have h2'' : (suppressTimeout s1 ev).1.activeClient = s1.activeClient := congrArg Prod.snd (suppressTimeout_frozen s1 ev)
    generalize suppressTimeout s1 ev = r2 at *
    split
    · exact Or.inl ⟨h2', h2⟩
    · next s2 =>
      simp only [] at h2 h2' h2''
      rw [← h2, ← h2', ← h2'']
      have h3 := @mergeRepeat_returned s2
      have h3' := mergeRepeat_client s2 ev dev
      have h4 := mergeRepeat_seq s2 ev dev
      generalize hr : mergeRepeat s2 ev dev = r3 at *
      split
      · next s3 => exact Or.inl ⟨(h3 hr).2, (h3 hr).1⟩
      · next s3 =>
        right
        simp only [] at h3'
        rw [← h3']
        generalize hs4 : mainLoop c ev dev _ _ = s4
        obtain ⟨seq, h5, h6, h7⟩ := finishInput_active c s4 ev
        have h8 : s4.activeClient = s3.activeClient := by
          subst hs4
          rw [kept_client (mainLoop_kept _ _ _ _ _)]
          show (beforeMatchUp _ ev).activeClient = _
          have hb := fun s => (congrArg Prod.snd (beforeMatchUp_frozen s ev) : _ = s.activeClient)
          have hu := fun s => (congrArg Prod.snd (updateActiveContexts_frozen c s) : _ = s.activeClient)
          have ha := fun s => (congrArg Prod.snd (addToHistory_frozen c s ev) : _ = s.activeClient)
          exact (hb _).trans ((hu _).trans (ha _))
        subst h7
        rw [h8] at h5
        refine ⟨s4, h5, h6, ?_⟩
        intro P I hev hs2
        subst hs4
        apply I.mainLoop
        apply I.beforeMatchUp
        rw [updateActiveContexts_seq, addToHistory_seq]
        intro x hx
        simp only [List.mem_append, List.mem_cons, List.not_mem_nil, or_false] at hx
        rcases hx with hx | rfl
        · exact hs2 x (h4 x hx)
        · exact hev

theorem setActiveClientContexts_active (c : Cfg) (s : S) (l : List Nat) {a}
    (h : computeActive c.contexts s.seq l [] = some a) :
    (setActiveClientContexts c s l).1.active = a := by
  unfold setActiveClientContexts
  simp only []
  generalize (decide (l.Pairwise (· ≤ ·)) && l.all (fun i => decide (i < c.contexts.length))) = ok
  generalize hs1 : (if ok = true then s else { s with ub := true }) = s1
  have h1 : s1.seq = s.seq := by subst hs1; split <;> rfl
  have h2 := kept_active (updateActiveContexts_kept c { s1 with activeClient := l })
  rw [← h1] at h
  simp only [] at h2
  rw [h] at h2
  exact h2

end KM
