import Verif.Lemmas.PatternMatch
import Verif.Lemmas.WordHeld
import Verif.Lemmas.RemapLookup
/-!
# A stage while a word is typed
-/
namespace KM

/-- the configuration of a stage, all mappings of which are words -/
structure WordCfg (cs : List Context) (c : Cfg) : Prop where
  ctxs : c.contexts = cs.map Context.sorted
  nmm : c.hasNoMightMatch = false
  words : ∀ ctx ∈ cs, ctx.OnlyWords
  uniq : CommandsUnique cs

theorem WordCfg.get {cs c} (h : WordCfg cs c) {j : Nat} {ctx : Context} (hj : c.contexts[j]? = some ctx) :
    ∃ c0 ∈ cs, cs[j]? = some c0 ∧ ctx = c0.sorted := by
  rw [h.ctxs, List.getElem?_map] at hj
  obtain ⟨c0, h1, h2⟩ := Option.map_eq_some_iff.1 hj
  exact ⟨c0, List.mem_of_getElem? h1, h1, h2.symm⟩

theorem unmentioned_real (cs : List Context) : RealKeys (Unmentioned cs) :=
  fun _ h => (deviceKey_proper h.1).1

theorem WordCfg.harmless {cs c} (h : WordCfg cs c) : Harmless (Unmentioned cs) (fun _ => True) c := by
  intro j ctx _ hj inp hinp
  obtain ⟨c0, h1, _, rfl⟩ := h.get hj
  have hinp' : inp ∈ c0.inputs := hinp
  obtain ⟨pat, hpat, hi⟩ := (h.words c0 h1).inputs inp hinp'
  refine ⟨?_, ?_⟩
  · intro x hx
    refine ⟨fun hu => hu.2 c0 h1 inp hinp' x hx rfl, ?_⟩
    rw [hi] at hx
    exact (deviceKey_proper (hpat.2.1 _ (mem_pattern hx).1)).1.2.1
  · rw [hi]
    cases hh : pat.expr.head? with
    | none => simp
    | some x =>
      simp only [Option.map_some, ne_eq, Option.some.injEq]
      exact (deviceKey_proper (hpat.2.1 _ (mem_pattern (List.mem_of_mem_head? hh)).1)).2.1

theorem computeActive_words {cs c} (h : WordCfg cs c) (seq : KeySequence) (l acc : List Nat) (hs : l.Pairwise (· < ·))
    (hlt : ∀ i ∈ l, i < cs.length) (hacc : ∀ i ∈ l, acc.getLast? ≠ some i) :
    computeActive c.contexts seq l acc = some (acc ++ l) := by
  induction l generalizing acc with
  | nil => simp [computeActive]
  | cons i l ih =>
    have hi := hlt i (by simp)
    have hget : c.contexts[i]? = some cs[i].sorted := by
      rw [h.ctxs, List.getElem?_map, List.getElem?_eq_getElem hi]; rfl
    have hw := h.words cs[i] (List.getElem_mem hi)
    have hf : fallthroughContext c.contexts i = some i := by
      rw [h.ctxs]; exact fallthrough_self ⟨cs[i], List.getElem?_eq_getElem hi, hw.stops⟩
    rw [computeActive, hget]
    simp only []
    have hcond : ((matchModifierFilter seq cs[i].sorted.modifierFilter ^^ cs[i].sorted.invertModifierFilter) &&
        (!cs[i].sorted.hasDeviceFilter || cs[i].sorted.matchingDeviceBits != 0)) = true := by
      have h1 : cs[i].sorted.modifierFilter = [] := hw.noModifiers.1
      have h2 : cs[i].sorted.invertModifierFilter = false := hw.noModifiers.2
      have h3 : cs[i].sorted.hasDeviceFilter = false := hw.noDevices.1
      rw [h1, h2, h3]; simp [matchModifierFilter]
    rw [if_pos hcond, hf]
    simp only []
    have hne : (acc.getLast? == some i) = false := beq_eq_false_iff_ne.2 (hacc i (by simp))
    rw [hne]
    simp only [Bool.false_eq_true, if_false]
    rw [List.pairwise_cons] at hs
    rw [ih (acc ++ [i]) hs.2 (fun j hj => hlt j (by simp [hj]))]
    · simp
    · intro j hj
      rw [List.getLast?_concat]
      have := hs.1 j hj
      simp only [ne_eq, Option.some.injEq]
      omega

/-- the contexts in use are the ones reported by the client -/
structure Steady (cs : List Context) (s : S) : Prop where
  eq : s.active = s.activeClient
  sorted : s.activeClient.Pairwise (· < ·)
  lt : ∀ i ∈ s.activeClient, i < cs.length

theorem Steady.compute {cs c} (h : WordCfg cs c) {s : S} (hs : Steady cs s) (seq : KeySequence) :
    computeActive c.contexts seq s.activeClient [] = some s.active := by
  rw [computeActive_words h seq _ [] hs.sorted hs.lt (by simp), hs.eq]; rfl

theorem mergeContexts_self (l : List Nat) : mergeContexts l l = ([], []) := by
  induction l with
  | nil => simp [mergeContexts]
  | cons a l ih => rw [mergeContexts]; simp [ih]

theorem updateActive_steady {cs c} (h : WordCfg cs c) {s : S} (hs : Steady cs s) : updateActiveContexts c s = s := by
  unfold updateActiveContexts
  rw [hs.compute h]
  simp only [mergeContexts_self, List.foldl_nil]

theorem accepts_words {ctx : Context} (h : ctx.OnlyWords) {dev : Int} (hd : ValidDevice dev) :
    deviceMatchesFilter ctx.sorted dev = true := by
  have hb : ctx.sorted.matchingDeviceBits = BitVec.allOnes 64 := h.noDevices.2
  unfold deviceMatchesFilter
  rw [hb]
  split
  · rfl
  · next h1 =>
    split
    · simp [allDeviceBits]
    · next h2 =>
      unfold ValidDevice at hd
      simp only [beq_iff_eq, anyDeviceIndex, noDeviceIndex] at h1 h2
      simp only [BitVec.getLsbD_ushiftRight, Nat.add_zero, BitVec.getLsbD_allOnes, decide_eq_true_eq]
      omega

/-! ### the loop over the mappings -/

/-- a mapping without special events -/
def PlainInput (x : Nat × Context × Input) : Prop :=
  isNoMightMatch x.2.2.input = false ∧ ∀ e ∈ x.2.2.input, e.key ≠ Key.timeout

theorem matchGo_step {c : Cfg} {q : KeySequence} {dev : Int} {u : Bool} {x : Nat × Context × Input} (hx : PlainInput x)
    (l : List (Nat × Context × Input)) (s : S) :
    matchGo c true q dev u (x :: l) s =
      (let r := matchSeq x.2.2.input q
       let s := { s with anyM := r.any, ub := s.ub || r.ub }
       match r.res with
       | .might_match => (s, .might)
       | .matched =>
         match findOutput c.contexts s.active x.1 x.2.1 x.2.2.outputIndex with
         | (some (ref, out), u) => ({ s with ub := s.ub || u }, .matched ref out x.2.2.input x.1)
         | (none, u') => matchGo c true q dev u l { s with ub := s.ub || u' }
       | .no_match => matchGo c true q dev u l s) := by
  obtain ⟨ci, ctx, inp⟩ := x
  have h1 : isNoMightMatch inp.input = false := hx.1
  have ht := matchSeq_noTimeout (s := q) hx.2
  simp only at ht
  rw [matchGo]
  simp only [h1, matchTarget, Bool.false_and, Bool.false_eq_true, if_false, Bool.not_false, Bool.and_true, Bool.true_and]
  rw [ht]
  cases hr : (matchSeq inp.input q).res
  · have e1 : (MatchResult.no_match == MatchResult.might_match) = false := rfl
    have e2 : (MatchResult.no_match == MatchResult.matched) = false := rfl
    simp only [e1, e2, Bool.false_eq_true, if_false]
  · have e1 : (MatchResult.might_match == MatchResult.might_match) = true := rfl
    simp only [e1, if_true]
  · have e1 : (MatchResult.matched == MatchResult.might_match) = false := rfl
    have e2 : (MatchResult.matched == MatchResult.matched) = true := rfl
    simp only [e1, e2, Bool.false_eq_true, if_false, if_true]
    rcases findOutput c.contexts s.active ci ctx inp.outputIndex with ⟨_ | ⟨ref, out⟩, u'⟩ <;> rfl

theorem matchGo_might {c : Cfg} {q : KeySequence} {dev : Int} {u : Bool} (pre post : List (Nat × Context × Input))
    {x : Nat × Context × Input} (hp : ∀ y ∈ pre, PlainInput y ∧ (matchSeq y.2.2.input q).res ≠ .matched) (hx : PlainInput x)
    (hr : (matchSeq x.2.2.input q).res = .might_match) (s : S) :
    ∃ a b, matchGo c true q dev u (pre ++ x :: post) s = ({ s with anyM := a, ub := b }, .might) := by
  induction pre generalizing s with
  | nil =>
    rw [List.nil_append, matchGo_step hx]
    simp only [hr]
    exact ⟨_, _, rfl⟩
  | cons y pre ih =>
    obtain ⟨h1, h2⟩ := hp y (by simp)
    rw [List.cons_append, matchGo_step h1]
    simp only []
    cases hres : (matchSeq y.2.2.input q).res with
    | matched => exact absurd hres h2
    | might_match => exact ⟨_, _, rfl⟩
    | no_match =>
      obtain ⟨a, b, h⟩ := ih (fun y hy => hp y (by simp [hy]))
        { s with anyM := (matchSeq y.2.2.input q).any, ub := s.ub || (matchSeq y.2.2.input q).ub }
      exact ⟨a, b, h⟩

theorem matchGo_matched {c : Cfg} {q : KeySequence} {dev : Int} {u : Bool} (pre post : List (Nat × Context × Input))
    {x : Nat × Context × Input} (hp : ∀ y ∈ pre, PlainInput y ∧ (matchSeq y.2.2.input q).res = .no_match) (hx : PlainInput x)
    (hr : (matchSeq x.2.2.input q).res = .matched) (s : S) {ref out}
    (hf : (findOutput c.contexts s.active x.1 x.2.1 x.2.2.outputIndex).1 = some (ref, out)) :
    ∃ a b, matchGo c true q dev u (pre ++ x :: post) s = ({ s with anyM := a, ub := b }, .matched ref out x.2.2.input x.1) := by
  induction pre generalizing s with
  | nil =>
    rw [List.nil_append, matchGo_step hx]
    simp only [hr]
    generalize findOutput c.contexts s.active x.1 x.2.1 x.2.2.outputIndex = r at hf
    obtain ⟨r1, r2⟩ := r
    simp only at hf
    subst hf
    exact ⟨_, _, rfl⟩
  | cons y pre ih =>
    obtain ⟨h1, h2⟩ := hp y (by simp)
    rw [List.cons_append, matchGo_step h1]
    simp only [h2]
    obtain ⟨a, b, h⟩ := ih (fun y hy => hp y (by simp [hy]))
      { s with anyM := (matchSeq y.2.2.input q).any, ub := s.ub || (matchSeq y.2.2.input q).ub } hf
    exact ⟨a, b, h⟩

theorem matchGo_noMatch {c : Cfg} {q : KeySequence} {dev : Int} {u : Bool} (l : List (Nat × Context × Input))
    (hp : ∀ y ∈ l, PlainInput y ∧ (matchSeq y.2.2.input q).res = .no_match) (s : S) :
    ∃ a b, matchGo c true q dev u l s = ({ s with anyM := a, ub := b }, .noMatch) := by
  induction l generalizing s with
  | nil => exact ⟨s.anyM, s.ub, rfl⟩
  | cons y l ih =>
    obtain ⟨h1, h2⟩ := hp y (by simp)
    rw [matchGo_step h1]
    simp only [h2]
    obtain ⟨a, b, h⟩ := ih (fun y hy => hp y (by simp [hy]))
      { s with anyM := (matchSeq y.2.2.input q).any, ub := s.ub || (matchSeq y.2.2.input q).ub }
    exact ⟨a, b, h⟩

/-- the pattern of a mapping which is tried -/
theorem candidate_word {cs c} (h : WordCfg cs c) {active dev} {x : Nat × Context × Input}
    (hx : x ∈ candidates c.contexts active dev) :
    PlainInput x ∧ ∃ c0, cs[x.1]? = some c0 ∧ x.1 ∈ active ∧ c0 ∈ cs ∧ x.2.2 ∈ c0.inputs ∧
      ∃ pat : Pattern, pat.Proper ∧ x.2.2.input = pat.expr := by
  obtain ⟨h1, h2, _, h4⟩ := candidates_mem hx
  obtain ⟨c0, h5, h6, h7⟩ := h.get h2
  have h4' : x.2.2 ∈ c0.inputs := by rw [h7] at h4; exact h4
  obtain ⟨pat, hpat, hi⟩ := (h.words c0 h5).inputs _ h4'
  refine ⟨⟨?_, ?_⟩, c0, h6, h1, h5, h4', pat, hpat, hi⟩
  · rw [hi]
    obtain ⟨k, ks, hk⟩ := List.exists_cons_of_ne_nil hpat.1
    cases pat with
    | word l => cases hk; rfl
    | chord l => cases hk; rfl
  · rw [hi]
    intro e he
    exact (deviceKey_proper (hpat.2.1 _ (mem_pattern he).1)).1.2.2

theorem candidates_append (cs : List Context) (a b : List Nat) (dev : Int) :
    candidates cs (a ++ b) dev = candidates cs a dev ++ candidates cs b dev := by
  unfold candidates; rw [List.flatMap_append]

/-- the keys which are held are not in the pattern of a mapping -/
theorem candidate_base {cs c} (h : WordCfg cs c) {active dev} {x : Nat × Context × Input}
    (hx : x ∈ candidates c.contexts active dev) {base : KeySequence}
    (hb : ∀ e ∈ base, e.state = .DownMatched ∧ Unmentioned cs e.key) :
    ∃ pat : Pattern, pat.Proper ∧ x.2.2.input = pat.expr ∧
      ∀ e ∈ base, e.state = .DownMatched ∧ ProperKey e.key ∧ e.key ∉ pat.keys := by
  obtain ⟨_, c0, _, _, h3, h4, pat, hpat, hi⟩ := candidate_word h hx
  refine ⟨pat, hpat, hi, ?_⟩
  intro e he
  obtain ⟨h5, h6⟩ := hb e he
  refine ⟨h5, (deviceKey_proper h6.1).1, ?_⟩
  intro hek
  exact h6.2 c0 h3 _ h4 ⟨e.key, .Down, 0⟩ (by rw [hi]; exact pattern_mem hek) rfl

/-- the mapping of a word, and the ones in front of it -/
theorem replacedBy_candidates {cs c} (h : WordCfg cs c) {cur : List Nat} {pat : Pattern} {out : KeySequence}
    (hr : ReplacedBy cs cur pat out) (hcur : ∀ i ∈ cur, i < cs.length) {dev : Int} (hd : ValidDevice dev) :
    ∃ pre x post, candidates c.contexts cur dev = pre ++ x :: post ∧ x.2.2.input = pat.expr ∧
      (∃ ref, (findOutput c.contexts cur x.1 x.2.1 x.2.2.outputIndex).1 = some (ref, out)) ∧
      ∀ y ∈ pre, ∀ q : Pattern, q.Proper → y.2.2.input = q.expr → q.Apart pat := by
  obtain ⟨pre, i, post, ctx, before, m, after, rfl, hctx, hin, hm, ho, h1, h2⟩ := hr
  have hget : c.contexts[i]? = some ctx.sorted := by rw [h.ctxs, List.getElem?_map, hctx]; rfl
  have hacc := accepts_words (h.words ctx (List.mem_of_getElem? hctx)) hd
  have hone : candidates c.contexts (i :: post) dev =
      before.map (fun inp => (i, ctx.sorted, inp)) ++ (i, ctx.sorted, m) ::
        (after.map (fun inp => (i, ctx.sorted, inp)) ++ candidates c.contexts post dev) := by
    show (match c.contexts[i]? with
      | none => []
      | some ctx => if deviceMatchesFilter ctx dev then ctx.inputs.map (fun inp => (i, ctx, inp)) else []) ++ candidates c.contexts post dev = _
    rw [hget]
    simp only [hacc, if_true]
    have : ctx.sorted.inputs = before ++ m :: after := hin
    rw [this]
    simp
  refine ⟨candidates c.contexts pre dev ++ before.map (fun inp => (i, ctx.sorted, inp)), (i, ctx.sorted, m),
    after.map (fun inp => (i, ctx.sorted, inp)) ++ candidates c.contexts post dev, ?_, hm, ?_, ?_⟩
  · rw [candidates_append, hone]; simp [List.append_assoc]
  · have hfo := findOutput_eq h.uniq (inUse := pre ++ i :: post) (by
        intro j hj
        have := hcur j hj
        exact ⟨cs[j], List.getElem?_eq_getElem this, (h.words _ (List.getElem_mem this)).stops⟩) i ctx m
    rw [ho] at hfo
    rw [h.ctxs]
    obtain ⟨p, hp1, hp2⟩ := Option.map_eq_some_iff.1 hfo
    exact ⟨p.1, by rw [hp1, ← hp2]⟩
  · intro y hy q hq hy'
    rw [List.mem_append] at hy
    rcases hy with hy | hy
    · obtain ⟨_, c0, h3, h4, _, h5, _⟩ := candidate_word h hy
      exact h1 _ h4 c0 h3 _ h5 q hq hy'
    · obtain ⟨m', h3, h4⟩ := List.mem_map.1 hy
      subst h4
      exact h2 m' h3 q hq hy'

/-- the beginning of a word or chord is typed -/
theorem matchInput_typing {cs c} (h : WordCfg cs c) {s : S} (hs : Steady cs s) {pat : Pattern} {out : KeySequence} (hpat : pat.Proper)
    (hr : ReplacedBy cs s.active pat out) {base p : KeySequence}
    (hb : ∀ e ∈ base, e.state = .DownMatched ∧ Unmentioned cs e.key) (hp : p ≠ []) (hT : Typed [] p)
    (hbegun : pat.Begun p) (hproper : ∀ e ∈ p, ProperKey e.key) {dev : Int} (hd : ValidDevice dev) (u : Bool) :
    ∃ a b, matchInput c s true (base ++ p) dev u = ({ s with anyM := a, ub := b }, .might) := by
  obtain ⟨pre, x, post, hc, hx, _, hbefore⟩ := replacedBy_candidates h hr (by rw [hs.eq]; exact hs.lt) hd
  unfold matchInput
  simp only []
  rw [hc]
  have hmem : ∀ y ∈ pre ++ x :: post, y ∈ candidates c.contexts s.active dev := by rw [hc]; exact fun _ h => h
  obtain ⟨a, b, hh⟩ := matchGo_might (c := c) (q := base ++ p) (dev := dev) (u := u) pre post (x := x) (by
      intro y hy
      have hy' := hmem y (by simp [hy])
      refine ⟨(candidate_word h hy').1, ?_⟩
      obtain ⟨q, h1, h2, h3⟩ := candidate_base h hy' hb
      rw [h2]
      exact pattern_apart_begun hp hT h1 (hbefore y hy q h1 h2) h3 hbegun hproper) (candidate_word h (hmem x (by simp))).1 (by
      obtain ⟨q, h1, h2, h3⟩ := candidate_base h (hmem x (by simp)) hb
      have : q = pat := pattern_inj h1 (h2.symm.trans hx)
      subst this
      rw [h2]
      exact pattern_begun hp hT hpat h3 hbegun)
    { s with ub := s.ub || ((!s.active.isEmpty && (decide (64 ≤ dev) || decide (dev < -2))) ||
        s.active.any (fun i => decide (c.contexts.length ≤ i))) }
  exact ⟨a, b, hh⟩

/-- a word or chord was typed -/
theorem matchInput_word {cs c} (h : WordCfg cs c) {s : S} (hs : Steady cs s) {pat : Pattern} {out : KeySequence} (hpat : pat.Proper)
    (hr : ReplacedBy cs s.active pat out) {base p : KeySequence}
    (hb : ∀ e ∈ base, e.state = .DownMatched ∧ Unmentioned cs e.key) (hp : p ≠ []) (hT : Typed [] p)
    (hdone : pat.CompletedBy p) (hproper : ∀ e ∈ p, ProperKey e.key) {dev : Int} (hd : ValidDevice dev) (u : Bool) :
    ∃ a b ref ci, matchInput c s true (base ++ p) dev u = ({ s with anyM := a, ub := b }, .matched ref out pat.expr ci) := by
  obtain ⟨pre, x, post, hc, hx, ⟨ref, hfo⟩, hbefore⟩ := replacedBy_candidates h hr (by rw [hs.eq]; exact hs.lt) hd
  unfold matchInput
  simp only []
  rw [hc]
  have hmem : ∀ y ∈ pre ++ x :: post, y ∈ candidates c.contexts s.active dev := by rw [hc]; exact fun _ h => h
  obtain ⟨a, b, hh⟩ := matchGo_matched (c := c) (q := base ++ p) (dev := dev) (u := u) pre post (x := x) (by
      intro y hy
      have hy' := hmem y (by simp [hy])
      refine ⟨(candidate_word h hy').1, ?_⟩
      obtain ⟨q, h1, h2, h3⟩ := candidate_base h hy' hb
      rw [h2]
      exact pattern_apart_completed hp hT h1 (hbefore y hy q h1 h2) h3 hdone hproper)
    (candidate_word h (hmem x (by simp))).1 (by
      obtain ⟨q, h1, h2, h3⟩ := candidate_base h (hmem x (by simp)) hb
      have : q = pat := pattern_inj h1 (h2.symm.trans hx)
      subst this
      rw [h2]
      exact pattern_completed hp hT hpat h3 hdone)
    { s with ub := s.ub || ((!s.active.isEmpty && (decide (64 ≤ dev) || decide (dev < -2))) ||
        s.active.any (fun i => decide (c.contexts.length ≤ i))) } hfo
  rw [hx] at hh
  exact ⟨a, b, ref, x.1, hh⟩

/-- a key is released after the word -/
theorem matchInput_released {cs c} (h : WordCfg cs c) (s : S) {D : KeySequence} {k : Key} (hk : ProperKey k)
    (hD : ∀ e ∈ D, e.state = .DownMatched ∧ ProperKey e.key ∧ e.key ≠ k) (dev : Int) (u : Bool) :
    ∃ a b, matchInput c s true (D ++ [⟨k, .Up, 0⟩]) dev u = ({ s with anyM := a, ub := b }, .noMatch) := by
  unfold matchInput
  simp only []
  obtain ⟨a, b, hh⟩ := matchGo_noMatch (c := c) (q := D ++ [⟨k, .Up, 0⟩]) (dev := dev) (u := u)
    (candidates c.contexts s.active dev) (by
      intro y hy
      obtain ⟨h1, c0, _, _, _, _, pat, hpat, hi⟩ := candidate_word h hy
      refine ⟨h1, ?_⟩
      rw [hi]
      exact pattern_releaseNoMatch hpat hk hD)
    { s with ub := s.ub || ((!s.active.isEmpty && (decide (64 ≤ dev) || decide (dev < -2))) ||
        s.active.any (fun i => decide (c.contexts.length ≤ i))) }
  exact ⟨a, b, hh⟩

end KM
