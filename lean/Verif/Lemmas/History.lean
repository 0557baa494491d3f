import Verif.Lemmas.Safe
/-!
# The history of a stage

Per key it is an alternation of presses and releases, so cleaning it up works.
-/
namespace KM

/-! ### Lists of events of a key -/

theorem ofKey_append (k : Key) (a b : KeySequence) : ofKey k (a ++ b) = ofKey k a ++ ofKey k b :=
  List.filter_append ..

theorem ofKey_cons_self (e : KeyEvent) (l : KeySequence) : ofKey e.key (e :: l) = e :: ofKey e.key l := by
  simp [ofKey]

theorem ofKey_cons_ne {k : Key} {e : KeyEvent} (h : e.key ≠ k) (l : KeySequence) :
    ofKey k (e :: l) = ofKey k l := by
  unfold ofKey; rw [List.filter_cons_of_neg (by simpa using h)]

theorem ofKey_key {k : Key} {l : KeySequence} {e : KeyEvent} (h : e ∈ ofKey k l) : e.key = k := by
  simpa [ofKey] using (List.mem_filter.mp h).2

theorem ofKey_erase_self (x : KeyEvent) (l : KeySequence) : ofKey x.key (l.erase x) = (ofKey x.key l).erase x := by
  induction l with
  | nil => rfl
  | cons a l ih =>
    by_cases hx : a = x
    · subst hx
      rw [ofKey_cons_self, List.erase_cons_head, List.erase_cons_head]
    · rw [List.erase_cons_tail (by simpa using hx)]
      by_cases hk : a.key = x.key
      · rw [← hk, ofKey_cons_self, ofKey_cons_self, List.erase_cons_tail (by simpa using hx), hk, ih]
      · rw [ofKey_cons_ne hk, ofKey_cons_ne hk, ih]

theorem ofKey_erase_ne {k : Key} {x : KeyEvent} (h : x.key ≠ k) (l : KeySequence) :
    ofKey k (l.erase x) = ofKey k l := by
  induction l with
  | nil => rfl
  | cons a l ih =>
    by_cases hx : a = x
    · subst hx; rw [List.erase_cons_head, ofKey_cons_ne h]
    · rw [List.erase_cons_tail (by simpa using hx)]
      by_cases hk : a.key = k
      · rw [← hk, ofKey_cons_self, ofKey_cons_self, hk, ih]
      · rw [ofKey_cons_ne hk, ofKey_cons_ne hk, ih]

theorem mem_ofKey {e : KeyEvent} {l : KeySequence} (h : e ∈ l) : e ∈ ofKey e.key l :=
  List.mem_filter.mpr ⟨h, by simp⟩

/-! ### Alternation and values -/

theorem alternates_cons2 {e f : KeyEvent} {l : KeySequence} :
    alternates (e :: f :: l) = true ↔ e.state = .Down ∧ f.state = .Up ∧ alternates l = true := by
  rw [alternates]; simp [and_assoc]

theorem alternates_head {e : KeyEvent} {l : KeySequence} (h : alternates (e :: l) = true) : e.state = .Down := by
  cases l with
  | nil => simpa [alternates] using h
  | cons f l => exact (alternates_cons2.mp h).1

theorem alternates_append {l : KeySequence} {ev : KeyEvent} (h : alternates l = true)
    (hd : (∀ e, l.getLast? = some e → e.state ≠ .Down) ∧ ev.state = .Down ∨
      (∃ e, l.getLast? = some e ∧ e.state = .Down) ∧ ev.state = .Up) : alternates (l ++ [ev]) = true := by
  fun_induction alternates l with
  | case1 =>
    rcases hd with ⟨_, hd⟩ | ⟨⟨e, he, _⟩, _⟩
    · simp [alternates, hd]
    · simp at he
  | case2 e =>
    rcases hd with ⟨h1, _⟩ | ⟨_, hd⟩
    · exact absurd (by simpa using h) (h1 e rfl)
    · simpa [alternates, hd] using h
  | case3 e f rest ih =>
    simp only [Bool.and_eq_true, beq_iff_eq] at h
    show alternates (e :: f :: (rest ++ [ev])) = true
    rw [alternates_cons2]
    refine ⟨h.1.1, h.1.2, ?_⟩
    cases rest with
    | nil =>
      rcases hd with ⟨_, hd⟩ | ⟨⟨x, hx, hxd⟩, _⟩
      · simp [alternates, hd]
      · simp only [List.getLast?_cons_cons, List.getLast?_singleton, Option.some.injEq] at hx
        subst hx; rw [h.1.2] at hxd; exact absurd hxd (by simp)
    | cons g rest =>
      rw [List.getLast?_cons_cons, List.getLast?_cons_cons] at hd
      exact ih h.2 hd

theorem followsFit_prefix {a b : KeySequence} (h : FollowsFit (a ++ b)) : FollowsFit a := by
  fun_induction FollowsFit a with
  | case1 x y rest ih => exact ⟨h.1, ih h.2⟩
  | case2 => trivial

theorem followsFit_append {l : KeySequence} {ev : KeyEvent} (h : FollowsFit l)
    (hl : ∀ e, l.getLast? = some e → e.state = .Down → ev.value = e.value) : FollowsFit (l ++ [ev]) := by
  fun_induction FollowsFit l with
  | case1 x y rest ih =>
    refine ⟨h.1, ih h.2 ?_⟩
    rw [List.getLast?_cons_cons] at hl
    exact hl
  | case2 l hne =>
    cases l with
    | nil => trivial
    | cons a l =>
      cases l with
      | nil => exact ⟨hl a rfl, trivial⟩
      | cons b l => exact absurd rfl (hne a b l)

theorem followsFit_last {l : KeySequence} {e ev : KeyEvent} (h : FollowsFit (l ++ [ev]))
    (hl : l.getLast? = some e) (hd : e.state = .Down) : ev.value = e.value := by
  fun_induction FollowsFit l with
  | case1 x y rest ih =>
    rw [List.getLast?_cons_cons] at hl
    exact ih h.2 hl
  | case2 l hne =>
    cases l with
    | nil => simp at hl
    | cons a l =>
      cases l with
      | nil =>
        simp only [List.getLast?_singleton, Option.some.injEq] at hl
        subst hl; exact h.1 hd
      | cons b l => exact absurd rfl (hne a b l)

theorem valuesFit_prefix {a b : KeySequence} (h : ValuesFit (a ++ b)) : ValuesFit a := by
  rcases h with h | h
  · exact Or.inl (fun e he => h e (List.mem_append_left _ he))
  · exact Or.inr (followsFit_prefix h)

/-! ### The history of one key -/

/-- `T` are the events of the key which were input, `H` the ones in the history -/
structure KeyHist (T H : KeySequence) : Prop where
  alt : alternates H = true
  sub : H.Sublist T
  fit : FollowsFit T → FollowsFit H
  last : ∀ e, H.getLast? = some e → e.state = .Down →
    ∃ f, T.getLast? = some f ∧ f.state = .Down ∧ (FollowsFit T → f.value = e.value)

/-- the press at the front of a history is directly followed by its release -/
theorem KeyHist.front {T H : KeySequence} (hv : ValuesFit T) (h : KeyHist T H) {e : KeyEvent} {l : KeySequence}
    (hH : H = e :: l) (hk : ∀ x ∈ H, x.key = e.key) (hm : (⟨e.key, .Up, e.value⟩ : KeyEvent) ∈ l) :
    ∃ rest, l = ⟨e.key, .Up, e.value⟩ :: rest ∧ KeyHist T rest := by
  subst hH
  cases l with
  | nil => simp at hm
  | cons f rest =>
    obtain ⟨ha1, ha2, ha3⟩ := alternates_cons2.mp h.alt
    have hfk : f.key = e.key := hk f (by simp)
    have hval : f.value = e.value := by
      rcases hv with hv | hv
      · have h1 := hv f (h.sub.mem (by simp)) ha2
        have h2 := hv ⟨e.key, .Up, e.value⟩ (h.sub.mem (List.mem_cons_of_mem _ hm)) rfl
        rw [h1]; exact h2.symm
      · exact (h.fit hv).1 ha1
    refine ⟨rest, ?_, ha3, ?_, ?_, ?_⟩
    · congr 1
      obtain ⟨a, b, c⟩ := f
      simp only [] at hfk hval ha2
      rw [hfk, hval, ha2]
    · exact ((List.sublist_cons_self f rest).trans (List.sublist_cons_self e _)).trans h.sub
    · intro hT
      have := (h.fit hT).2
      cases rest with
      | nil => trivial
      | cons g rest => exact this.2
    · intro x hx hd
      refine h.last x ?_ hd
      cases rest with
      | nil => simp at hx
      | cons g rest => rw [List.getLast?_cons_cons, List.getLast?_cons_cons]; exact hx

/-- a press which is not recorded -/
theorem KeyHist.press {T H : KeySequence} (h : KeyHist T H) {ev : KeyEvent} (hd : ev.state = .Down) :
    KeyHist (T ++ [ev]) H := by
  refine ⟨h.alt, h.sub.trans (List.sublist_append_left ..), fun hf => h.fit (followsFit_prefix hf), ?_⟩
  intro e he hed
  obtain ⟨f, hf1, hf2, hf3⟩ := h.last e he hed
  refine ⟨ev, by simp, hd, fun hf => ?_⟩
  rw [← hf3 (followsFit_prefix hf)]
  exact followsFit_last hf hf1 hf2

/-- an event of a key which is not pressed in the history, and which is not recorded -/
theorem KeyHist.skip {T H : KeySequence} (h : KeyHist T H) {ev : KeyEvent}
    (hl : ∀ e, H.getLast? = some e → e.state ≠ .Down) : KeyHist (T ++ [ev]) H :=
  ⟨h.alt, h.sub.trans (List.sublist_append_left ..), fun hf => h.fit (followsFit_prefix hf),
    fun e he hd => absurd hd (hl e he)⟩

/-- an event which is recorded -/
theorem KeyHist.record {T H : KeySequence} (h : KeyHist T H) {ev : KeyEvent}
    (hd : (∀ e, H.getLast? = some e → e.state ≠ .Down) ∧ ev.state = .Down ∨
      (∃ e, H.getLast? = some e ∧ e.state = .Down) ∧ ev.state = .Up) : KeyHist (T ++ [ev]) (H ++ [ev]) := by
  refine ⟨alternates_append h.alt hd, h.sub.append (List.Sublist.refl _), ?_, ?_⟩
  · intro hf
    refine followsFit_append (h.fit (followsFit_prefix hf)) ?_
    intro e he hed
    obtain ⟨f, hf1, hf2, hf3⟩ := h.last e he hed
    rw [← hf3 (followsFit_prefix hf)]
    exact followsFit_last hf hf1 hf2
  · intro e he hed
    rw [List.getLast?_concat, Option.some.injEq] at he
    subst he
    exact ⟨ev, by simp, hed, fun _ => rfl⟩

/-! ### The whole history -/

/-- the history of a stage to which `T` was input -/
structure Hist (c : Cfg) (T H : KeySequence) : Prop where
  keys : ∀ k, KeyHist (ofKey k T) (ofKey k H)
  sub : H.Sublist T
  skipped : ∀ e ∈ H, c.hasNoMightMatch = true ∧ isVirtualKey e.key = false ∧ e.key ≠ Key.timeout

theorem historyMightMatch_safe {c : Cfg} (hc : c.Safe) (active : List Nat) {h : KeySequence} (hne : h ≠ [])
    (hk : ∀ e ∈ h, CanInputKey e.key) : (historyMightMatch c active h).2 = false := by
  unfold historyMightMatch
  simp only []
  rw [List.any_eq_false]
  intro r hr
  rw [List.mem_map] at hr
  obtain ⟨i, hi, rfl⟩ := hr
  rw [List.mem_filter, List.mem_flatMap] at hi
  obtain ⟨⟨j, -, hj⟩, hn⟩ := hi
  cases hctx : c.contexts[j]? with
  | none => rw [hctx] at hj; simp at hj
  | some ctx =>
    rw [hctx] at hj
    simp only [Option.map_some, Option.getD_some] at hj
    have hf := (hc.contexts ctx (List.mem_of_getElem? hctx)).flag i hj (by
      unfold isNoMightMatch at hn
      split at hn
      · simp at hn
      · next e l heq => exact ⟨e, by rw [heq]; rfl, by simpa using hn⟩)
    rw [(matchSeq_safe not_inputKey_none hf hne hk).1]
    simp

theorem historyMightMatch_true {c : Cfg} {active : List Nat} {h : KeySequence}
    (hm : (historyMightMatch c active h).1 = true) :
    ∃ j ∈ active, ∃ ctx, c.contexts[j]? = some ctx ∧ ∃ i ∈ ctx.inputs, ∃ f expr, i.input = f :: expr ∧
      f.state = .NoMightMatch ∧ (matchSeq expr h).res = .might_match := by
  unfold historyMightMatch at hm
  simp only [] at hm
  rw [List.any_eq_true] at hm
  obtain ⟨r, hr, hres⟩ := hm
  rw [List.mem_map] at hr
  obtain ⟨i, hi, rfl⟩ := hr
  rw [List.mem_filter, List.mem_flatMap] at hi
  obtain ⟨⟨j, hj, hmem⟩, hn⟩ := hi
  cases hctx : c.contexts[j]? with
  | none => rw [hctx] at hmem; simp at hmem
  | some ctx =>
    rw [hctx] at hmem
    simp only [Option.map_some, Option.getD_some] at hmem
    unfold isNoMightMatch at hn
    split at hn
    · simp at hn
    · next e l heq => exact ⟨j, hj, ctx, hctx, i, hmem, e, l, heq, by simpa using hn, by rw [heq] at hres; simpa using hres⟩

theorem Hist.cleanUp {c c0 : Cfg} (hc : c.Safe) (active : List Nat) {T H : KeySequence} 
    (hv : ∀ k, isVirtualKey k = false → k ≠ Key.timeout → ValuesFit (ofKey k T))
    (hk : ∀ e ∈ H, CanInputKey e.key) (h : Hist c0 T H) :
    Hist c0 T (cleanUpHistory c active H).1 ∧ (cleanUpHistory c active H).2 = false ∧
      CleanedUp c active (cleanUpHistory c active H).1 ∧
      ∀ k, endsPressed (cleanUpHistory c active H).1 k ↔ endsPressed H k := by
  fun_induction cleanUpHistory c active H with
  | case1 => exact ⟨h, rfl, Or.inl rfl, fun _ => Iff.rfl⟩
  | case2 e rest hne =>
    have := (h.keys e.key).alt
    rw [ofKey_cons_self] at this
    exact absurd (alternates_head this) (by simpa using hne)
  | case3 e rest hne up hcont =>
    exact ⟨h, rfl, Or.inr (Or.inl ⟨e, rest, rfl, by simpa using hne, by simpa using hcont⟩), fun _ => Iff.rfl⟩
  | case4 e rest hne up hcont m u hm hmight =>
    have hu : u = false := by
      have := historyMightMatch_safe hc active (h := e :: rest) (by simp) hk
      rw [hm] at this; exact this
    refine ⟨h, hu, Or.inr (Or.inr (historyMightMatch_true ?_)), fun _ => Iff.rfl⟩
    rw [hm]; simpa [hu] using hmight
  | case5 e rest hne up hcont m u hm hmight ih =>
    have hmem : up ∈ rest := by simpa using hcont
    have hsub : (rest.erase up).Sublist (e :: rest) := List.erase_sublist.trans (List.sublist_cons_self ..)
    have hrec := (h.skipped e (by simp)).2
    obtain ⟨r, hr1, hr2⟩ := (h.keys e.key).front (hv e.key hrec.1 hrec.2) (ofKey_cons_self e rest)
      (fun x hx => ofKey_key hx) (mem_ofKey (e := up) hmem)
    have hself : ofKey e.key (rest.erase up) = r := by
      have := ofKey_erase_self up rest
      rw [show up.key = e.key from rfl, hr1] at this
      rw [this, show (⟨e.key, .Up, e.value⟩ : KeyEvent) = up from rfl, List.erase_cons_head]
    have hother : ∀ k, k ≠ e.key → ofKey k (rest.erase up) = ofKey k (e :: rest) := by
      intro k hk
      rw [ofKey_erase_ne (x := up) (fun h => hk h.symm), ofKey_cons_ne (fun h => hk h.symm)]
    have hnew : Hist c0 T (rest.erase up) := by
      refine ⟨fun k => ?_, hsub.trans h.sub, fun x hx => h.skipped x (hsub.mem hx)⟩
      by_cases hk : k = e.key
      · rw [hk, hself]; exact hr2
      · rw [hother k hk]; exact h.keys k
    obtain ⟨h1, h2, h3, h4⟩ := ih (fun x hx => hk x (hsub.mem hx)) hnew
    refine ⟨h1, h2, h3, fun k => (h4 k).trans ?_⟩
    unfold endsPressed
    by_cases hk : k = e.key
    · rw [hk, hself, ofKey_cons_self, hr1]
      cases r with
      | nil => simp
      | cons g r => rw [List.getLast?_cons_cons, List.getLast?_cons_cons]
    · rw [hother k hk]

end KM
