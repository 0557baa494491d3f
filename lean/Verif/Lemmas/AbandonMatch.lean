import Verif.Lemmas.Abandon
/-!
# Which events end the typing of a word or chord
-/
namespace KM

theorem begun_prefix {pat : Pattern} {a b : KeySequence} (h : pat.Begun (a ++ b)) : pat.Begun a := by
  cases pat with
  | word ks =>
    obtain ⟨h1, h2⟩ := h
    rw [pressed_append] at h1 h2
    refine ⟨(List.prefix_append _ _).trans h1, ?_⟩
    intro hh
    apply h2
    have hlen := h1.length_le
    rw [List.length_append, hh] at hlen
    have hb : presses b = [] := List.length_eq_zero_iff.1 (by omega)
    rw [hb, List.append_nil, hh]
  | chord ks =>
    obtain ⟨order, h1, h2, ⟨k, h3, h4⟩, h5⟩ := h
    obtain ⟨l, r, rfl, ha, hb⟩ := List.map_eq_append_iff.1 h5.symm
    exact ⟨l, (List.nodup_append.1 h1).1, fun x hx => h2 x (by simp [hx]), ⟨k, h3, fun hm => h4 (by simp [hm])⟩, ha.symm⟩

/-- a word does not begin with what is pressed or released -/
theorem word_waits {k : Key} {ks : List Key} (hk : ProperKey k) {D rest : KeySequence} {y : KeyEvent}
    (hD : ∀ e ∈ D, e.state = .DownMatched ∧ ProperKey e.key ∧ e.key ≠ k) (hy : y.state = .Down ∨ y.state = .Up) (hyp : ProperKey y.key)
    (hyk : y.key ≠ k) : (matchSeq (typingExpr (k :: ks)) (D ++ y :: rest)).res = .no_match := by
  unfold matchSeq
  have h1 : (D ++ y :: rest).isEmpty = false := by cases D <;> rfl
  have h3 : (typingExpr (k :: ks)).isEmpty = false := by rw [typingExpr_cons]; rfl
  rw [h1, h3]
  simp only [Bool.or_self, Bool.false_eq_true, if_false]
  clear h1
  induction D with
  | nil =>
    obtain ⟨m, hm⟩ : ∃ m, m = mInit (typingExpr (k :: ks)) (y :: rest) := ⟨_, rfl⟩
    rw [List.nil_append, ← hm]
    have hs : m.sRest = y :: rest := by rw [hm]; rfl
    have he : m.eRest = ⟨k, .Down, 0⟩ :: ⟨k, .UpAsync, 0⟩ :: typingExpr ks := by rw [hm]; rfl
    have hn : m.nmm = false := by rw [hm]; rfl
    have hnots : m.nots = [] := by rw [hm]; rfl
    have ha : m.async = [] := by rw [hm]; rfl
    have hse : m.se = y := by unfold MState.se; rw [hs]; rfl
    have hee : m.ee = ⟨k, .Down, 0⟩ := by unfold MState.ee; rw [he]; rfl
    have hu : unifiable y ⟨k, .Down, 0⟩ = false := by
      rw [wm_unifiable hyp hk]
      have : (y.key == k) = false := beq_eq_false_iff_ne.2 hyk
      simp [this]
    have hstep : ∃ r, mStep m = .inr r ∧ r.res = .no_match := by
      unfold mStep
      have hemp : (m.eRest.isEmpty && m.sRest.isEmpty) = false := by rw [hs]; simp
      have hdn : m.dropNot ⟨k, .Down, 0⟩ = m := by
        unfold MState.dropNot
        split
        · cases m; subst hnots; rfl
        · rfl
      rw [hemp]
      simp only [Bool.false_eq_true, if_false]
      rw [hee, hdn, hse]
      unfold mStepMain
      have h3 : (k == Key.timeout) = false := beq_eq_false_iff_ne.2 hk.2.2
      have hel : ∃ r, mStepElse m y ⟨k, .Down, 0⟩ = .inr r ∧ r.res = .no_match := by
        unfold mStepElse
        rw [hn, ha]
        have ht : (y.key == Key.timeout) = false := beq_eq_false_iff_ne.2 hyp.2.2
        rcases hy with hy | hy <;> simp [hy, asyncUpDown, ht, hs]
      simp [hu, h3, hnots, hel]
    obtain ⟨r, hr, hr2⟩ := hstep
    rw [wm_inr hr]; exact hr2
  | cons x D ih =>
    have hx := hD x (by simp)
    refine Eq.trans ?_ (ih (fun e he => hD e (by simp [he])))
    congr 1
    apply wm_inl
    rw [wm_skip (x := x) (l := D ++ y :: rest) rfl hx.1 hx.2.1 rfl rfl (by simp [mInit]) (Or.inr ⟨k, _, rfl, hk, fun h => hx.2.2 h.symm⟩)]
    rfl

/-- each key of a pattern has to be pressed -/
theorem pattern_requires {pat : Pattern} (hpat : pat.Proper) {z : Key} (hz : z ∈ pat.keys) : Requires pat.expr z := by
  have hany : ∀ k ∈ pat.keys, k ≠ Key.any := fun k hk => (deviceKey_proper (hpat.2.1 k hk)).1.2.1
  cases pat with
  | word ks =>
    have hz : z ∈ ks := hz
    obtain ⟨a, b, hab, hna⟩ := List.eq_append_cons_of_mem hz
    refine ⟨typingExpr a, 0, ⟨z, .UpAsync, 0⟩ :: typingExpr b, ?_, ?_⟩
    · show typingExpr ks = _
      rw [hab]
      unfold typingExpr
      rw [List.flatMap_append]
      simp
    · intro x hx
      have hxa := (mem_typingExpr hx).1
      refine ⟨fun h => absurd (h ▸ hxa) hna, fun h => absurd h (hany _ ?_)⟩
      show x.key ∈ ks
      rw [hab]; simp [hxa]
  | chord ks =>
    have hz : z ∈ ks := hz
    obtain ⟨a, b, hab⟩ := List.append_of_mem hz
    refine ⟨ks.map (fun k => ⟨k, .DownAsync, 0⟩) ++ a.map (fun k => ⟨k, .Down, 0⟩), 0,
      b.map (fun k => ⟨k, .Down, 0⟩) ++ ks.map (fun k => ⟨k, .UpAsync, 0⟩), ?_, ?_⟩
    · show chordExpr ks = _
      unfold chordExpr
      have : ks.map (fun k => (⟨k, .Down, 0⟩ : KeyEvent)) = a.map (fun k => ⟨k, .Down, 0⟩) ++ ⟨z, .Down, 0⟩ :: b.map (fun k => ⟨k, .Down, 0⟩) := by
        rw [hab]; simp
      rw [this]; simp
    · intro x hx
      rw [List.mem_append, List.mem_map, List.mem_map] at hx
      rcases hx with ⟨k, hk, rfl⟩ | ⟨k, hk, rfl⟩
      · exact ⟨fun _ => by simp, fun h => absurd h (hany k hk)⟩
      · exact ⟨fun _ => by simp, fun _ => by simp⟩

/-- No mapping can be completed, as each of them needs a key which is not pressed. -/
theorem words_stuck {cs c} (h : WordCfg cs c) {active : List Nat} {K : Key → Prop}
    (hm : ∀ i ∈ active, ∀ ctx, cs[i]? = some ctx → ∀ m ∈ ctx.inputs, ∀ p : Pattern, p.Proper → m.input = p.expr → ∃ z ∈ p.keys, ¬ K z) :
    Stuck K (· ∈ active) c := by
  intro j ctx hj hctx inp hinp
  obtain ⟨c0, h1, h2, rfl⟩ := h.get hctx
  have hinp' : inp ∈ c0.inputs := hinp
  obtain ⟨pat, hpat, hi⟩ := (h.words c0 h1).inputs inp hinp'
  obtain ⟨z, hz1, hz2⟩ := hm j hj c0 h2 inp hinp' pat hpat hi
  refine ⟨⟨z, hz2, Or.inl (hpat.2.1 z hz1), ?_⟩, ?_, ?_⟩
  · rw [hi]; exact pattern_requires hpat hz1
  · intro e he
    rw [hi] at he
    exact (deviceKey_proper (hpat.2.1 _ (mem_pattern he).1)).1.2.2
  · rw [hi]
    cases hh : pat.expr.head? with
    | none => simp
    | some x =>
      simp only [Option.map_some, ne_eq, Option.some.injEq]
      exact (deviceKey_proper (hpat.2.1 _ (mem_pattern (List.mem_of_mem_head? hh)).1)).2.1

/-- an event of a key which the pattern does not contain -/
theorem pattern_unrelated {pat : Pattern} (hpat : pat.Proper) {l : KeySequence} {y : KeyEvent} (hy : y.state = .Down ∨ y.state = .Up)
    (hyp : ProperKey y.key) (hyk : y.key ∉ pat.keys) (hl : y ∈ l) : (matchSeq pat.expr l).res = .no_match := by
  have hpr : ∀ k ∈ pat.keys, ProperKey k := fun k hk => (deviceKey_proper (hpat.2.1 k hk)).1
  refine matchSeq_unrelated (x := y) ?_ ?_ ?_ ?_ hl ?_
  · intro z hz; subst hz; exact hyp
  · rcases hy with hy | hy <;> simp [isNonOptional, hy]
  · intro x hx
    have := (mem_pattern hx).1
    exact ⟨fun hh => hyk (hh ▸ this), (hpr _ this).2.1⟩
  · intro x hx
    exact (hpr _ (mem_pattern hx).1).2.2
  · obtain ⟨k, ks, hk⟩ := List.exists_cons_of_ne_nil hpat.1
    cases pat with
    | word l => cases hk; simp [Pattern.expr, typingExpr]
    | chord l => cases hk; simp [Pattern.expr, chordExpr]

/-- a key is pressed which no mapping mentions -/
theorem nothing_unmentioned {cs c} (h : WordCfg cs c) {active : List Nat} {dev : Int} {l : KeySequence} {y : KeyEvent}
    (hy : y.state = .Down ∨ y.state = .Up) (hu : Unmentioned cs y.key) (hl : y ∈ l) : NothingMatches c active dev l := by
  intro x hx
  obtain ⟨_, c0, _, _, h3, h4, pat, hpat, hi⟩ := candidate_word h hx
  rw [hi]
  refine pattern_unrelated hpat hy (deviceKey_proper hu.1).1 ?_ hl
  intro hm
  exact hu.2 c0 h3 _ h4 ⟨y.key, .Down, 0⟩ (by rw [hi]; exact pattern_mem hm) rfl

theorem suffix_concat {α} {q' p : List α} {e : α} (h : q' <:+ p ++ [e]) (hne : q' ≠ []) : ∃ r, q' = r ++ [e] ∧ r <:+ p := by
  rcases List.eq_nil_or_concat q' with hq | ⟨r, y, hq⟩
  · exact absurd hq hne
  · rw [List.concat_eq_append] at hq
    subst hq
    obtain ⟨t, ht⟩ := h
    rw [← List.append_assoc] at ht
    obtain ⟨h1, h2⟩ := List.append_inj' ht rfl
    exact ⟨r, by rw [List.singleton_inj.1 h2], ⟨t, h1⟩⟩

/-- some keys are pressed and one of them is released, which does not begin any mapping -/
theorem nothing_released {cs c} (h : WordCfg cs c) {active : List Nat} {dev : Int} {order : List Key} {k : Key} (hk : k ∈ order)
    (hpr : ∀ x ∈ order, isDeviceKey x = true)
    (hn : ∀ i ∈ active, ∀ ctx, cs[i]? = some ctx → ∀ m ∈ ctx.inputs, ∀ p : Pattern, p.Proper → m.input = p.expr → p.NeedsOther order)
    {F' q' : KeySequence} (hq : q' <:+ order.map (fun k => (⟨k, .Down, 0⟩ : KeyEvent)) ++ [⟨k, .Up, 0⟩]) (hne : q' ≠ [])
    (hF : ∀ e ∈ F', e.state = .DownMatched ∧ isDeviceKey e.key = true ∧ (Unmentioned cs e.key ∨ e.key ∈ order)) :
    NothingMatches c active dev (F' ++ q') := by
  obtain ⟨r, rfl, hr⟩ := suffix_concat hq hne
  have hrmem : ∀ e ∈ r, e.state = .Down ∧ e.key ∈ order := by
    intro e he
    obtain ⟨x, hx, rfl⟩ := List.mem_map.1 (hr.subset he)
    exact ⟨rfl, hx⟩
  intro y hy
  obtain ⟨_, c0, h1, h2, h3, h4, pat, hpat, hi⟩ := candidate_word h hy
  have hneeds := hn _ h2 c0 h1 _ h4 pat hpat hi
  have hu : ∀ z ∈ pat.keys, ¬ Unmentioned cs z := fun z hz hh =>
    hh.2 c0 h3 _ h4 ⟨z, .Down, 0⟩ (by rw [hi]; exact pattern_mem hz) rfl
  have hpk : ∀ k ∈ pat.keys, ProperKey k := fun k hk => (deviceKey_proper (hpat.2.1 k hk)).1
  have hFz : ∀ z ∈ pat.keys, z ∉ order → ∀ e ∈ F', e.key ≠ z := by
    intro z hz hzo e he hez
    rcases (hF e he).2.2 with h | h
    · exact hu z hz (hez ▸ h)
    · exact hzo (hez ▸ h)
  rw [hi]
  cases pat with
  | word ks =>
    obtain ⟨k1, kr, hks⟩ := List.exists_cons_of_ne_nil hpat.1
    have hks : ks = k1 :: kr := hks
    subst hks
    have hk1 : k1 ∉ order := hneeds k1 (by simp)
    have hD : ∀ e ∈ F', e.state = .DownMatched ∧ ProperKey e.key ∧ e.key ≠ k1 := fun e he =>
      ⟨(hF e he).1, (deviceKey_proper (hF e he).2.1).1, hFz k1 (by simp [Pattern.keys]) hk1 e he⟩
    show (matchSeq (typingExpr (k1 :: kr)) _).res = _
    cases r with
    | nil =>
      exact word_waits (hpk k1 (by simp [Pattern.keys])) hD (Or.inr rfl) (deviceKey_proper (hpr k hk)).1 (fun hh => hk1 (hh ▸ hk))
    | cons e r =>
      obtain ⟨g1, g2⟩ := hrmem e (by simp)
      exact word_waits (hpk k1 (by simp [Pattern.keys])) hD (Or.inl g1) (deviceKey_proper (hpr _ g2)).1 (fun hh => hk1 (hh ▸ g2))
  | chord ks =>
    obtain ⟨z, hz1, hz2⟩ := hneeds
    show (matchSeq (chordExpr ks) _).res = _
    rw [← List.append_assoc]
    refine (chord_missing (g := ks) hpk hz1 (D := F' ++ r) (rest := [⟨k, .Up, 0⟩]) ?_ (by simp) ?_).2 (by simp)
    · intro e he
      rcases List.mem_append.1 he with he | he
      · exact ⟨Or.inr (hF e he).1, hFz z hz1 hz2 e he⟩
      · exact ⟨Or.inl (hrmem e he).1, fun hh => hz2 (hh ▸ (hrmem e he).2)⟩
    · intro e he
      simp only [List.mem_append, List.mem_singleton] at he
      rcases he with (he | he) | rfl
      · exact (deviceKey_proper (hF e he).2.1).1
      · exact (deviceKey_proper (hpr _ (hrmem e he).2)).1
      · exact (deviceKey_proper (hpr k hk)).1

end KM
