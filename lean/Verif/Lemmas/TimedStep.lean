import Verif.Lemmas.TimedMatch
import Verif.Lemmas.RemapStep
/-!
# The mappings of keys which are held or tapped
-/
namespace KM

/-- the configuration of a stage with such mappings -/
structure TimedCfg (tcs : List (List TimedMapping)) (c : Cfg) : Prop where
  ctxs : c.contexts = tcs.map timedContext
  nmm : c.hasNoMightMatch = false
  valid : ∀ tc ∈ tcs, ∀ m ∈ tc, m.Valid

theorem TimedCfg.get {tcs c} (h : TimedCfg tcs c) {i : Nat} (hi : i < tcs.length) : c.contexts[i]? = some (timedContext tcs[i]) := by
  rw [h.ctxs, List.getElem?_map, List.getElem?_eq_getElem hi]; rfl

theorem mappingsInUse_valid {tcs c} (h : TimedCfg tcs c) {cur : List Nat} : ∀ m ∈ mappingsInUse tcs cur, m.Valid := by
  intro m hm
  unfold mappingsInUse at hm
  obtain ⟨i, _, h1⟩ := List.mem_flatMap.1 hm
  cases hi : tcs[i]? with
  | none => rw [hi] at h1; simp at h1
  | some tc => rw [hi] at h1; exact h.valid tc (List.mem_of_getElem? hi) m h1

theorem computeActive_timed {tcs c} (h : TimedCfg tcs c) (seq : KeySequence) (l acc : List Nat) (hs : l.Pairwise (· < ·))
    (hlt : ∀ i ∈ l, i < tcs.length) (hacc : ∀ i ∈ l, acc.getLast? ≠ some i) :
    computeActive c.contexts seq l acc = some (acc ++ l) := by
  induction l generalizing acc with
  | nil => simp [computeActive]
  | cons i l ih =>
    have hi := hlt i (by simp)
    have hget := h.get hi
    have hf : fallthroughContext c.contexts i = some i := by
      rw [fallthroughContext_iff]
      refine ⟨Nat.le_refl _, by intro m h1 h2; omega, _, hget, rfl⟩
    rw [computeActive, hget]
    simp only []
    have hcond : ((matchModifierFilter seq (timedContext tcs[i]).modifierFilter ^^ (timedContext tcs[i]).invertModifierFilter) &&
        (!(timedContext tcs[i]).hasDeviceFilter || (timedContext tcs[i]).matchingDeviceBits != 0)) = true := by
      simp [timedContext, matchModifierFilter]
    rw [if_pos hcond, hf]
    simp only []
    have hne : (acc.getLast? == some i) = false := beq_eq_false_iff_ne.2 (hacc i (by simp))
    rw [hne]
    simp only [Bool.false_eq_true, if_false]
    rw [List.pairwise_cons] at hs
    rw [ih (acc ++ [i]) hs.2 (fun j hj => hlt j (by simp [hj]))]
    · simp
    · intro j hj
      rw [List.getLast?_concat]
      have := hs.1 j hj
      simp only [ne_eq, Option.some.injEq]
      omega

/-- the mappings in use, together with the context and number -/
def numberedInUse (tcs : List (List TimedMapping)) (cur : List Nat) : List (Nat × TimedMapping × Nat) :=
  cur.flatMap (fun i => ((tcs[i]?).getD []).zipIdx.map (fun p => (i, p.1, p.2)))

/-- a mapping which is tried -/
def candidateOf (tcs : List (List TimedMapping)) (x : Nat × TimedMapping × Nat) : Nat × Context × Input :=
  (x.1, timedContext ((tcs[x.1]?).getD []), ⟨x.2.1.input, x.2.2⟩)

theorem numbered_mappings (tcs cur) : (numberedInUse tcs cur).map (·.2.1) = mappingsInUse tcs cur := by
  unfold numberedInUse mappingsInUse
  rw [List.map_flatMap]
  congr 1
  funext i
  rw [List.map_map]
  have : ((fun x : Nat × TimedMapping × Nat => x.2.1) ∘ fun p : TimedMapping × Nat => (i, p.1, p.2)) = Prod.fst := rfl
  rw [this, List.zipIdx_map_fst]

theorem accepts_timed (tc : List TimedMapping) {dev : Int} (hd : ValidDevice dev) : deviceMatchesFilter (timedContext tc) dev = true := by
  unfold deviceMatchesFilter
  have hb : (timedContext tc).matchingDeviceBits = BitVec.allOnes 64 := rfl
  rw [hb]
  split
  · rfl
  · next h1 =>
    split
    · simp [allDeviceBits]
    · next h2 =>
      unfold ValidDevice at hd
      simp only [beq_iff_eq, anyDeviceIndex, noDeviceIndex] at h1 h2
      simp only [BitVec.getLsbD_ushiftRight, Nat.add_zero, BitVec.getLsbD_allOnes, decide_eq_true_eq]
      omega

theorem candidates_timed {tcs c} (h : TimedCfg tcs c) {cur : List Nat} (hlt : ∀ i ∈ cur, i < tcs.length) {dev : Int} (hd : ValidDevice dev) :
    candidates c.contexts cur dev = (numberedInUse tcs cur).map (candidateOf tcs) := by
  unfold candidates numberedInUse
  induction cur with
  | nil => rfl
  | cons i cur ih =>
    have hi := hlt i (by simp)
    rw [List.flatMap_cons, List.flatMap_cons, List.map_append, ih (fun j hj => hlt j (by simp [hj]))]
    congr 1
    rw [h.get hi]
    simp only [accepts_timed _ hd, if_true]
    rw [List.getElem?_eq_getElem hi]
    simp only [Option.getD_some, List.map_map]
    unfold timedContext
    simp only [List.map_map]
    apply List.map_congr_left
    intro p _
    simp only [Function.comp_apply, candidateOf, List.getElem?_eq_getElem hi, Option.getD_some]
    rfl

theorem findOutput_timed {tcs} {c : Cfg} (cur : List Nat) {x : Nat × TimedMapping × Nat} (hx : x ∈ numberedInUse tcs cur) (active : List Nat) :
    findOutput c.contexts active (candidateOf tcs x).1 (candidateOf tcs x).2.1 (candidateOf tcs x).2.2.outputIndex =
      (some (⟨x.1, false, x.2.2⟩, x.2.1.out), false) := by
  unfold numberedInUse at hx
  obtain ⟨i, hi, h1⟩ := List.mem_flatMap.1 hx
  obtain ⟨p, h2, h3⟩ := List.mem_map.1 h1
  subst h3
  unfold candidateOf findOutput
  simp only []
  rw [if_pos (by omega)]
  have h4 := List.mem_zipIdx' h2
  have h5 : (timedContext ((tcs[i]?).getD [])).outputs[p.2]? = some p.1.out := by
    unfold timedContext
    simp only [List.getElem?_map]
    rw [List.getElem?_eq_getElem h4.1, ← h4.2]; rfl
  have h6 : (Int.ofNat p.2).toNat = p.2 := rfl
  show (match (timedContext ((tcs[i]?).getD [])).outputs[(Int.ofNat p.2).toNat]? with
    | some out => _
    | none => _) = _
  rw [h6, h5]
  rfl

/-! ### the loop over the mappings -/

section
variable {tcs : List (List TimedMapping)} {c : Cfg} {q : KeySequence} {dev : Int} {u : Bool}

theorem timed_notNMM (m : TimedMapping) : isNoMightMatch m.input = false := by
  obtain ⟨e', he⟩ := timedInput_cons m
  rw [he]; rfl

theorem matchGo_none {first : Bool} (l : List (Nat × TimedMapping × Nat))
    (hl : ∀ x ∈ l, (matchSeq x.2.1.input q).res = .no_match ∨ (first = false ∧ (matchSeq x.2.1.input q).res = .might_match)) (s : S) :
    ∃ a b, matchGo c first q dev u (l.map (candidateOf tcs)) s = ({ s with anyM := a, ub := b }, .noMatch) := by
  induction l generalizing s with
  | nil => exact ⟨s.anyM, s.ub, rfl⟩
  | cons x l ih =>
    rw [List.map_cons]
    have h1 := timed_notNMM x.2.1
    have h2 := hl x (by simp)
    have ih := ih (fun y hy => hl y (by simp [hy]))
    obtain ⟨a, b, h⟩ := ih { s with anyM := (matchSeq x.2.1.input q).any, ub := s.ub || (matchSeq x.2.1.input q).ub }
    refine ⟨a, b, Eq.trans ?_ h⟩
    show matchGo c first q dev u ((x.1, timedContext ((tcs[x.1]?).getD []), ⟨x.2.1.input, x.2.2⟩) :: l.map (candidateOf tcs)) s = _
    rw [matchGo]
    simp only [h1, matchTarget, Bool.false_and, Bool.false_eq_true, if_false, Bool.not_false, Bool.and_true]
    rcases h2 with h2 | ⟨h2, h3⟩
    · have e1 : ((matchSeq x.2.1.input q).res == MatchResult.might_match) = false := by rw [h2]; rfl
      have e2 : ((matchSeq x.2.1.input q).res == MatchResult.matched) = false := by rw [h2]; rfl
      simp only [e1, e2, Bool.and_false, Bool.false_eq_true, if_false]
    · have e2 : ((matchSeq x.2.1.input q).res == MatchResult.matched) = false := by rw [h3]; rfl
      simp only [h2, e2, Bool.false_and, Bool.false_eq_true, if_false]

/-- does a mapping end the search -/
def endsSearch (first : Bool) (q : KeySequence) (m : TimedMapping) : Bool :=
  ((matchSeq m.input q).res == .matched) || (first && (matchSeq m.input q).res == .might_match)

theorem matchGo_some {first : Bool} (l : List (Nat × TimedMapping × Nat)) (s : S)
    (hf : ∀ x ∈ l, findOutput c.contexts s.active (candidateOf tcs x).1 (candidateOf tcs x).2.1 (candidateOf tcs x).2.2.outputIndex =
      (some (⟨x.1, false, x.2.2⟩, x.2.1.out), false)) {m : TimedMapping} (hm : (l.map (·.2.1)).find? (endsSearch first q) = some m) :
    ∃ a b, (((matchSeq m.input q).res = .matched →
        ∃ ref ci, matchGo c first q dev u (l.map (candidateOf tcs)) s = ({ s with anyM := a, ub := b }, .matched ref m.out m.input ci)) ∧
      ((matchSeq m.input q).res = .might_match → (matchSeq m.input q).timeout = none →
        matchGo c first q dev u (l.map (candidateOf tcs)) s = ({ s with anyM := a, ub := b }, .might)) ∧
      ∀ t, (matchSeq m.input q).res = .might_match → (matchSeq m.input q).timeout = some t →
        matchGo c first q dev u (l.map (candidateOf tcs)) s = (trackTimeout { s with anyM := a, ub := b } t q u, .might)) := by
  induction l generalizing s with
  | nil => simp at hm
  | cons x l ih =>
    rw [List.map_cons] at hm ⊢
    have h1 := timed_notNMM x.2.1
    cases hx : endsSearch first q x.2.1 with
    | false =>
      rw [List.find?_cons, hx] at hm
      simp only [] at hm
      have ih := ih { s with anyM := (matchSeq x.2.1.input q).any, ub := s.ub || (matchSeq x.2.1.input q).ub } (fun y hy => hf y (by simp [hy])) hm
      have hgo : matchGo c first q dev u (candidateOf tcs x :: l.map (candidateOf tcs)) s =
          matchGo c first q dev u (l.map (candidateOf tcs)) { s with anyM := (matchSeq x.2.1.input q).any, ub := s.ub || (matchSeq x.2.1.input q).ub } := by
        unfold endsSearch at hx
        rw [Bool.or_eq_false_iff] at hx
        show matchGo c first q dev u ((x.1, timedContext ((tcs[x.1]?).getD []), ⟨x.2.1.input, x.2.2⟩) :: l.map (candidateOf tcs)) s = _
        rw [matchGo]
        simp only [h1, matchTarget, Bool.false_and, Bool.false_eq_true, if_false, Bool.not_false, Bool.and_true, hx.1, hx.2]
      rw [hgo]
      exact ih
    | true =>
      rw [List.find?_cons, hx] at hm
      simp only [Option.some.injEq] at hm
      subst hm
      have hfx := hf x (by simp)
      have hgo : matchGo c first q dev u (candidateOf tcs x :: l.map (candidateOf tcs)) s =
          if (matchSeq x.2.1.input q).res = .matched then
            ({ s with anyM := (matchSeq x.2.1.input q).any, ub := (s.ub || (matchSeq x.2.1.input q).ub) || false }, .matched ⟨x.1, false, x.2.2⟩ x.2.1.out x.2.1.input x.1)
          else match (matchSeq x.2.1.input q).timeout with
            | some t => (trackTimeout { s with anyM := (matchSeq x.2.1.input q).any, ub := s.ub || (matchSeq x.2.1.input q).ub } t q u, .might)
            | none => ({ s with anyM := (matchSeq x.2.1.input q).any, ub := s.ub || (matchSeq x.2.1.input q).ub }, .might) := by
        unfold candidateOf at hfx
        simp only at hfx
        show matchGo c first q dev u ((x.1, timedContext ((tcs[x.1]?).getD []), ⟨x.2.1.input, x.2.2⟩) :: l.map (candidateOf tcs)) s = _
        rw [matchGo]
        simp only [h1, matchTarget, Bool.false_and, Bool.false_eq_true, if_false, Bool.not_false, Bool.and_true, hfx]
        unfold endsSearch at hx
        cases hr : (matchSeq x.2.1.input q).res with
        | no_match => rw [hr] at hx; simp at hx
        | matched =>
          have e1 : (MatchResult.matched == MatchResult.might_match) = false := rfl
          simp [e1]
        | might_match =>
          rw [hr] at hx
          have e1 : first = true := by simpa using hx
          simp only [e1, beq_self_eq_true, Bool.and_true, if_true, reduceCtorEq, if_false]
          cases (matchSeq x.2.1.input q).timeout <;> rfl
      refine ⟨(matchSeq x.2.1.input q).any, s.ub || (matchSeq x.2.1.input q).ub, ?_, ?_, ?_⟩
      · intro hr
        rw [hgo, if_pos hr]
        exact ⟨_, _, by simp only [Bool.or_false]; rfl⟩
      · intro hr ht
        rw [hgo, if_neg (by rw [hr]; simp), ht]
      · intro t hr ht
        rw [hgo, if_neg (by rw [hr]; simp), ht]

theorem matchInput_timed_none (h : TimedCfg tcs c) {s : S} {cur : List Nat} (ha : s.active = cur) (hlt : ∀ i ∈ cur, i < tcs.length) (hd : ValidDevice dev)
    {first : Bool} (hl : ∀ m ∈ mappingsInUse tcs cur, (matchSeq m.input q).res = .no_match ∨ (first = false ∧ (matchSeq m.input q).res = .might_match)) :
    ∃ a b, matchInput c s first q dev u = ({ s with anyM := a, ub := b }, .noMatch) := by
  unfold matchInput
  simp only []
  have hcand : candidates c.contexts s.active dev = (numberedInUse tcs cur).map (candidateOf tcs) := by
    rw [ha]; exact candidates_timed h hlt hd
  rw [hcand]
  obtain ⟨a, b, h1⟩ := matchGo_none (tcs := tcs) (c := c) (q := q) (dev := dev) (u := u) (first := first) (numberedInUse tcs cur) (by
    intro x hx
    exact hl x.2.1 (by rw [← numbered_mappings]; exact List.mem_map.2 ⟨x, hx, rfl⟩)) { s with ub := s.ub || ((!s.active.isEmpty && (decide (64 ≤ dev) || decide (dev < -2))) ||
        s.active.any (fun i => decide (c.contexts.length ≤ i))) }
  exact ⟨a, b, h1⟩

theorem matchInput_timed_some (h : TimedCfg tcs c) {s : S} {cur : List Nat} (ha : s.active = cur) (hlt : ∀ i ∈ cur, i < tcs.length) (hd : ValidDevice dev)
    {first : Bool} {m : TimedMapping} (hm : (mappingsInUse tcs cur).find? (endsSearch first q) = some m) :
    ∃ a b, (((matchSeq m.input q).res = .matched →
        ∃ ref ci, matchInput c s first q dev u = ({ s with anyM := a, ub := b }, .matched ref m.out m.input ci)) ∧
      ((matchSeq m.input q).res = .might_match → (matchSeq m.input q).timeout = none →
        matchInput c s first q dev u = ({ s with anyM := a, ub := b }, .might)) ∧
      ∀ t, (matchSeq m.input q).res = .might_match → (matchSeq m.input q).timeout = some t →
        matchInput c s first q dev u = (trackTimeout { s with anyM := a, ub := b } t q u, .might)) := by
  unfold matchInput
  simp only []
  have hcand : candidates c.contexts s.active dev = (numberedInUse tcs cur).map (candidateOf tcs) := by
    rw [ha]; exact candidates_timed h hlt hd
  rw [hcand]
  exact matchGo_some (tcs := tcs) (c := c) (q := q) (dev := dev) (u := u) (first := first) (numberedInUse tcs cur) _
    (fun x hx => findOutput_timed cur hx _) (by rw [numbered_mappings]; exact hm)

end

theorem find?_congr' {α : Type} {p p' : α → Bool} {l : List α} (h : ∀ x ∈ l, p x = p' x) : l.find? p = l.find? p' := by
  induction l with
  | nil => rfl
  | cons a l ih =>
    rw [List.find?_cons, List.find?_cons, h a (by simp), ih (fun x hx => h x (by simp [hx]))]

end KM
