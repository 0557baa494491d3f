import Verif.Lemmas.HeldKey
import Verif.Lemmas.HeldMatch
import Verif.Lemmas.Transparent
/-!
# A stage whose mappings cannot be completed by the keys which are input
-/
namespace KM

/-! ### lists of events -/

theorem eventsOf_append (k : Key) (a b : KeySequence) : eventsOf k (a ++ b) = eventsOf k a ++ eventsOf k b := List.filter_append a b
theorem pressesOf_append (a b : KeySequence) : pressesOf (a ++ b) = pressesOf a ++ pressesOf b := List.filter_append a b

theorem eventsOf_cons_eq {k : Key} {e : KeyEvent} (h : e.key = k) (l : KeySequence) : eventsOf k (e :: l) = e :: eventsOf k l := by
  unfold eventsOf; rw [List.filter_cons_of_pos (by simpa using h)]
theorem eventsOf_cons_ne {k : Key} {e : KeyEvent} (h : e.key ≠ k) (l : KeySequence) : eventsOf k (e :: l) = eventsOf k l := by
  unfold eventsOf; rw [List.filter_cons_of_neg (by simpa using h)]
theorem mem_eventsOf {k : Key} {e : KeyEvent} {l : KeySequence} : e ∈ eventsOf k l ↔ e ∈ l ∧ e.key = k := by
  unfold eventsOf; rw [List.mem_filter, beq_iff_eq]
theorem eventsOf_nil (k : Key) : eventsOf k [] = [] := rfl

theorem pressesOf_cons_down {e : KeyEvent} (h : e.state = .Down) (l : KeySequence) : pressesOf (e :: l) = e :: pressesOf l := by
  unfold pressesOf; rw [List.filter_cons_of_pos (by simpa using h)]
theorem pressesOf_cons_not {e : KeyEvent} (h : e.state ≠ .Down) (l : KeySequence) : pressesOf (e :: l) = pressesOf l := by
  unfold pressesOf; rw [List.filter_cons_of_neg (by simpa using h)]
theorem pressesOf_matched {l : KeySequence} (h : ∀ e ∈ l, e.state = .DownMatched) : pressesOf l = [] := by
  unfold pressesOf; rw [List.filter_eq_nil_iff]; intro e he; rw [h e he]; simp

/-! ### matching -/

/-- the contexts which can be active cannot be completed -/
def Stuck (K : Key → Prop) (H : Nat → Prop) (c : Cfg) : Prop := ∀ j ctx, H j → c.contexts[j]? = some ctx → ctx.Incomplete K

/-- the contexts which can be active do not mention the key -/
def ApartFrom (x : Key) (H : Nat → Prop) (c : Cfg) : Prop :=
  ∀ j ctx, H j → c.contexts[j]? = some ctx → ∀ inp ∈ ctx.inputs, Foreign (· = x) inp.input

theorem real_of_range {k : Key} (h : isDeviceKey k = true ∨ isVirtualKey k = true) : k ≠ Key.none ∧ k ≠ Key.any ∧ k ≠ Key.timeout := by
  refine ⟨?_, ?_, ?_⟩ <;> (rintro rfl; exact absurd h (by decide))

theorem matchGo_stuck {K : Key → Prop} (hK : RealKeys K) {c first sequence dev u} (hs : ∀ x ∈ sequence, K x.key)
    (l : List (Nat × Context × Input))
    (hl : ∀ x ∈ l, (∃ k, ¬ K k ∧ (isDeviceKey k = true ∨ isVirtualKey k = true) ∧ Requires x.2.2.input k) ∧ (∀ e ∈ x.2.2.input, e.key ≠ Key.timeout)) (s : S)
    (hh : ∀ x ∈ s.history, K x.key) :
    ∃ a b r, matchGo c first sequence dev u l s = ({ s with anyM := a, ub := b }, r) ∧
      (r = .noMatch ∨ r = .might ∧ first = true ∧
        ∃ x ∈ l, isNoMightMatch x.2.2.input = false ∧ (matchSeq x.2.2.input sequence).res = .might_match) := by
  induction l generalizing s with
  | nil => exact ⟨s.anyM, s.ub, .noMatch, rfl, Or.inl rfl⟩
  | cons x l ih =>
    obtain ⟨ci, cx, inp⟩ := x
    obtain ⟨⟨k, hk, hr, hq⟩, ht⟩ := hl (ci, cx, inp) (by simp)
    have ih := ih (fun y hy => hl y (by simp [hy]))
    have hmem : ∀ x ∈ matchTarget inp.input s.history sequence, K x.key := by
      unfold matchTarget; split
      · exact hh
      · exact hs
    have hreal := real_of_range hr
    have h1 := matchSeq_requires hK hk hreal.2.1 hreal.2.2 hq hmem
    have h2 := matchSeq_noTimeout (s := matchTarget inp.input s.history sequence) ht
    have lift : ∀ {s : S}, (∃ a b r, matchGo c first sequence dev u l s = ({ s with anyM := a, ub := b }, r) ∧
        (r = .noMatch ∨ r = .might ∧ first = true ∧
          ∃ x ∈ l, isNoMightMatch x.2.2.input = false ∧ (matchSeq x.2.2.input sequence).res = .might_match)) →
        ∃ a b r, matchGo c first sequence dev u l s = ({ s with anyM := a, ub := b }, r) ∧
        (r = .noMatch ∨ r = .might ∧ first = true ∧
          ∃ x ∈ (ci, cx, inp) :: l, isNoMightMatch x.2.2.input = false ∧ (matchSeq x.2.2.input sequence).res = .might_match) := by
      rintro s ⟨a, b, r, h1, h2⟩
      refine ⟨a, b, r, h1, h2.imp id ?_⟩
      rintro ⟨h3, h4, y, hy, h5⟩
      exact ⟨h3, h4, y, by simp [hy], h5⟩
    unfold matchGo
    simp only []
    split
    · exact lift (ih s hh)
    · have h3 : ((matchSeq inp.input (matchTarget inp.input s.history sequence)).res == MatchResult.matched) = false := beq_eq_false_iff_ne.2 h1
      rw [h2, h3]
      split
      · next hm =>
        simp only [Bool.and_eq_true, Bool.not_eq_true', beq_iff_eq] at hm
        refine ⟨_, _, .might, rfl, Or.inr ⟨rfl, hm.1.1, (ci, cx, inp), by simp, hm.1.2, ?_⟩⟩
        have := hm.2
        unfold matchTarget at this
        rw [hm.1.2] at this
        exact this
      · simp only [Bool.false_eq_true, if_false]
        obtain ⟨a, b, r, h4, h5⟩ := lift (ih { s with
          anyM := (matchSeq inp.input (matchTarget inp.input s.history sequence)).any
          ub := s.ub || (matchSeq inp.input (matchTarget inp.input s.history sequence)).ub } hh)
        exact ⟨a, b, r, h4, h5⟩

theorem matchInput_stuck {K : Key → Prop} (hK : RealKeys K) {H c} (hc : Stuck K H c) {s : S} (first sequence dev u)
    (hs : ∀ x ∈ sequence, K x.key) (ha : ∀ i ∈ s.active, H i) (hh : ∀ x ∈ s.history, K x.key) :
    ∃ a b r, matchInput c s first sequence dev u = ({ s with anyM := a, ub := b }, r) ∧
      (r = .noMatch ∨ r = .might ∧ first = true ∧ ∀ x ∈ sequence, isNonOptional x = true → ¬ ApartFrom x.key H c) := by
  unfold matchInput
  simp only []
  have hcand : ∀ x ∈ candidates c.contexts s.active dev, H x.1 ∧ c.contexts[x.1]? = some x.2.1 ∧ x.2.2 ∈ x.2.1.inputs := by
    intro x hx
    obtain ⟨h1, h2, _, h4⟩ := candidates_mem hx
    exact ⟨ha _ h1, h2, h4⟩
  obtain ⟨a, b, r, h1, h2⟩ := matchGo_stuck hK (c := c) (first := first) (dev := dev) (u := u) hs
    (candidates c.contexts s.active dev) (by
      intro x hx
      obtain ⟨h1, h2, h4⟩ := hcand x hx
      have := hc _ _ h1 h2 _ h4
      exact ⟨this.1, this.2.1⟩) { s with ub := s.ub || ((!s.active.isEmpty && (decide (64 ≤ dev) || decide (dev < -2))) ||
        s.active.any (fun i => decide (c.contexts.length ≤ i))) } hh
  refine ⟨a, b, r, h1, h2.imp id ?_⟩
  rintro ⟨h3, h4, x, hx, h5, h6⟩
  refine ⟨h3, h4, ?_⟩
  intro y hy hyn hap
  obtain ⟨g1, g2, g4⟩ := hcand x hx
  have hn := matchSeq_unrelated (x := y) (fun z hz => by subst hz; exact hK _ (hs y hy)) hyn (hap _ _ g1 g2 _ g4) (hc _ _ g1 g2 _ g4).2.1 hy (by
    intro h
    unfold isNoMightMatch at h5
    cases hi : x.2.2.input with
    | nil => rw [hi] at h; simp at h
    | cons a b => rw [hi] at h h5; simp at h; simp [h] at h5)
  rw [hn] at h6; cases h6

theorem matchStart_stuck {K : Key → Prop} (hK : RealKeys K) {H c} (hc : Stuck K H c) (dev u) (n : Nat) (s : S)
    (hs : ∀ x ∈ s.seq, K x.key) (ha : ∀ i ∈ s.active, H i) (hh : ∀ x ∈ s.history, K x.key) :
    ∃ a b m, matchStart c dev u n s = ({ s with anyM := a, ub := b }, .noMatch, m) := by
  induction n generalizing s with
  | zero => exact ⟨s.anyM, s.ub, 0, rfl⟩
  | succ n ih =>
    unfold matchStart
    split
    · exact ⟨s.anyM, s.ub, _, rfl⟩
    · split
      · exact ⟨s.anyM, s.ub, _, rfl⟩
      · obtain ⟨a, b, r, h1, h2⟩ := matchInput_stuck hK hc (s := s) false (s.seq.take n) dev u (fun x hx => hs x (List.mem_of_mem_take hx)) ha hh
        have hr : r = .noMatch := by
          rcases h2 with h2 | ⟨_, h2, _⟩
          · exact h2
          · cases h2
        subst hr
        rw [h1]
        simp only []
        obtain ⟨a', b', m, h3⟩ := ih { s with anyM := a, ub := b } hs ha hh
        exact ⟨a', b', m, h3⟩

theorem retryStart_stuck {K : Key → Prop} (hK : RealKeys K) {H c} (hc : Stuck K H c) (dev u) (s : S)
    (hs : ∀ x ∈ s.seq, K x.key) (ha : ∀ i ∈ s.active, H i) (hh : ∀ x ∈ s.history, K x.key) :
    ∃ a b m, retryStart c s .noMatch dev u = ({ s with anyM := a, ub := b }, .noMatch, m, false) := by
  unfold retryStart
  simp only []
  split
  · obtain ⟨a, b, m, h⟩ := matchStart_stuck hK hc dev u s.seq.length s hs ha hh
    rw [h]
    exact ⟨a, b, m, rfl⟩
  · exact ⟨s.anyM, s.ub, _, rfl⟩

/-! ### active contexts -/

theorem onContextActiveEvent_stuck {K H c} (hc : Stuck K H c) (s : S) (ev : KeyEvent) {i : Nat} (hi : H i) :
    ∃ b, onContextActiveEvent c s ev i = { s with ub := b } := by
  unfold onContextActiveEvent
  split
  · exact ⟨true, rfl⟩
  · next ctx hctx =>
    simp only []
    have hf : ctx.inputs.find? (fun i => i.input.head?.map (·.key) == some Key.ContextActive) = none := by
      rw [List.find?_eq_none]
      intro x hx
      have := (hc i ctx hi hctx x hx).2.2
      rw [beq_iff_eq]; exact this
    rw [hf]
    simp only []
    split
    · exact ⟨true, rfl⟩
    · exact ⟨s.ub, rfl⟩

theorem foldContextActive_stuck {K H c} (hc : Stuck K H c) (ev : KeyEvent) (l : List Nat) (hl : ∀ i ∈ l, H i) (s : S) :
    ∃ b, l.foldl (fun s i => onContextActiveEvent c s ev i) s = { s with ub := b } := by
  induction l generalizing s with
  | nil => exact ⟨s.ub, rfl⟩
  | cons a l ih =>
    obtain ⟨b, hb⟩ := onContextActiveEvent_stuck hc s ev (hl a (by simp))
    rw [List.foldl_cons, hb]
    obtain ⟨b', hb'⟩ := ih (fun i hi => hl i (by simp [hi])) { s with ub := b }
    exact ⟨b', hb'⟩

theorem updateActiveContexts_stuck {K H c} (hc : Stuck K H c) (s : S) (ha : ∀ i ∈ s.active, H i)
    (hcl : ∀ i ∈ s.activeClient, ∀ j, fallthroughContext c.contexts i = some j → H j) :
    ∃ r b, (∀ i ∈ r, H i) ∧ updateActiveContexts c s = { s with active := r, ub := b } := by
  unfold updateActiveContexts
  split
  · exact ⟨s.active, true, ha, rfl⟩
  · next r hr =>
    have hr' := computeActive_mem _ _ hcl (by simp) hr
    have hm := mergeContexts_mem s.active r
    generalize mergeContexts s.active r = da at *
    obtain ⟨d, a⟩ := da
    simp only [] at *
    obtain ⟨b1, h1⟩ := foldContextActive_stuck hc ⟨Key.ContextActive, .Up, 0⟩ d (fun i hi => ha i (hm.1 i hi))
      { s with active := r }
    rw [h1]
    obtain ⟨b2, h2⟩ := foldContextActive_stuck hc ⟨Key.ContextActive, .Down, 0⟩ a (fun i hi => hr' i (hm.2 i hi))
      { s with active := r, ub := b1 }
    exact ⟨r, b2, hr', h2⟩

/-! ### the invariant -/

/-- what was input until now and was output before the current operation, and the state -/
structure Core (K : Key → Prop) (H : Nat → Prop) (c : Cfg) (inp out : KeySequence) (s : S) : Prop where
  act : ∀ i ∈ s.active, H i
  client : ∀ i ∈ s.activeClient, ∀ j, fallthroughContext c.contexts i = some j → H j
  timeout : s.timeout = none
  onRel : s.onRelease = []
  reapplied : s.reapplied = false
  seq : ∀ e ∈ s.seq, K e.key
  hist : ∀ e ∈ s.history, K e.key
  down : DownInv s.down
  order : pressesOf inp = pressesOf (out ++ s.buf) ++ pressesOf s.seq
  keys : ∀ k, KInv k (eventsOf k inp) (eventsOf k (out ++ s.buf)) (eventsOf k s.seq) (decide (k ∈ s.down.map (·.key)))

theorem Core.congr {K H c inp out} {s s' : S} (h : Core K H c inp out s) (h1 : s'.active = s.active) (h2 : s'.activeClient = s.activeClient)
    (h4 : s'.timeout = s.timeout) (h5 : s'.onRelease = s.onRelease) (h6 : s'.buf = s.buf)
    (h7 : s'.reapplied = s.reapplied) (h8 : s'.seq = s.seq) (h9 : s'.history = s.history) (h10 : s'.down = s.down) :
    Core K H c inp out s' where
  act := by rw [h1]; exact h.act
  client := by rw [h2]; exact h.client
  timeout := by rw [h4]; exact h.timeout
  onRel := by rw [h5]; exact h.onRel
  reapplied := by rw [h7]; exact h.reapplied
  seq := by rw [h8]; exact h.seq
  hist := by rw [h9]; exact h.hist
  down := by rw [h10]; exact h.down
  order := by rw [h6, h8]; exact h.order
  keys := by rw [h6, h8, h10]; exact h.keys

theorem Core.states {K H c inp out} {s : S} (h : Core K H c inp out s) {e : KeyEvent} (he : e ∈ s.seq) :
    e.state = .DownMatched ∨ e.state = .Down ∨ e = ⟨e.key, .Up, 0⟩ :=
  (h.keys e.key).states e (mem_eventsOf.2 ⟨he, rfl⟩)

theorem Core.matched {K H c inp out} {s : S} (h : Core K H c inp out s) (hn : hasNonOptional s.seq = false) :
    ∀ e ∈ s.seq, e.state = .DownMatched := by
  intro e he
  have h1 := List.any_eq_false.1 hn e he
  rcases h.states he with h' | h' | h'
  · exact h'
  · simp [isNonOptional, h'] at h1
  · rw [h'] at h1; simp [isNonOptional] at h1

/-! ### forwarding -/

/-- what is done with the first event which is not skipped -/
def forwardOne (s : S) (pre : KeySequence) (e : KeyEvent) (rest : KeySequence) : S :=
  if e.state == .Down || e.state == .DownMatched then
    if (e :: rest).contains ⟨e.key, .Up, 0⟩ then { updateOutput s e (.key e.key) (-1) with seq := pre ++ rest }
    else
      { (if (s.timeout.bind (·.matchedOutput)).isNone then updateOutput s e (.key e.key) (-1) else s) with
        seq := pre ++ { e with state := .DownMatched } :: rest }
  else { releaseTriggered s e.key (-1) with seq := pre ++ rest }

theorem forwardGo_cases (s : S) (pre l : KeySequence) (h : hasNonOptional l = true) :
    ∃ skip e rest, l = skip ++ e :: rest ∧ (∀ a ∈ skip, a.state = .DownMatched ∧ (⟨a.key, .Up, 0⟩ : KeyEvent) ∉ e :: rest) ∧
      (e.state = .DownMatched → (⟨e.key, .Up, 0⟩ : KeyEvent) ∈ rest) ∧ forwardGo s pre l = forwardOne s (pre ++ skip) e rest := by
  induction l generalizing pre with
  | nil => simp [hasNonOptional] at h
  | cons e rest ih =>
    by_cases hd : (e.state == .Down || e.state == .DownMatched) = true
    · by_cases hcn : (e :: rest).contains ⟨e.key, .Up, 0⟩ = true
      · refine ⟨[], e, rest, rfl, by simp, ?_, ?_⟩
        · intro he
          rw [List.contains_eq_mem, decide_eq_true_eq, List.mem_cons] at hcn
          rcases hcn with h' | h'
          · rw [← h'] at he; cases he
          · exact h'
        · unfold forwardGo forwardOne
          rw [if_pos hd, if_pos hcn, if_pos hd, if_pos hcn, List.append_nil]
      · by_cases hdd : (e.state == .Down) = true
        · refine ⟨[], e, rest, rfl, by simp, ?_, ?_⟩
          · intro he; rw [he] at hdd; simp at hdd
          · unfold forwardGo forwardOne
            rw [if_pos hd, if_neg hcn, if_pos hdd, if_pos hd, if_neg hcn, List.append_nil]
        · have hdm : e.state = .DownMatched := by
            simp only [Bool.or_eq_true, beq_iff_eq] at hd hdd
            rcases hd with hd | hd
            · exact absurd hd hdd
            · exact hd
          have hr : hasNonOptional rest = true := by
            simpa [hasNonOptional, isNonOptional, hdm] using h
          obtain ⟨skip, e', rest', h1, h2, h3, h4⟩ := ih (pre ++ [e]) hr
          refine ⟨e :: skip, e', rest', by rw [h1]; rfl, ?_, h3, ?_⟩
          · intro a ha
            rcases List.mem_cons.1 ha with ha | ha
            · subst ha
              refine ⟨hdm, ?_⟩
              intro hm
              apply hcn
              rw [List.contains_eq_mem, decide_eq_true_eq, h1]
              exact List.mem_cons_of_mem _ (List.mem_append_right _ hm)
            · exact h2 a ha
          · unfold forwardGo
            rw [if_pos hd, if_neg hcn, if_neg hdd, h4, List.append_assoc]; rfl
    · refine ⟨[], e, rest, rfl, by simp, ?_, ?_⟩
      · intro he; rw [he] at hd; simp at hd
      · unfold forwardGo forwardOne
        rw [if_neg hd, if_neg hd, List.append_nil]

theorem decide_eq_of_iff {p q : Prop} [Decidable p] [Decidable q] (h : p ↔ q) : decide p = decide q := by
  by_cases hq : q
  · rw [decide_eq_true hq, decide_eq_true (h.2 hq)]
  · rw [decide_eq_false hq, decide_eq_false (fun hp => hq (h.1 hp))]

section
variable {K : Key → Prop} (hK : RealKeys K)
include hK

theorem Core.forward {H c inp out} {s : S} (h : Core K H c inp out s) {skip rest : KeySequence} {e : KeyEvent}
    (hs : s.seq = skip ++ e :: rest) (hsk : ∀ a ∈ skip, a.state = .DownMatched ∧ (⟨a.key, .Up, 0⟩ : KeyEvent) ∉ e :: rest)
    (hm : e.state = .DownMatched → (⟨e.key, .Up, 0⟩ : KeyEvent) ∈ rest) :
    Core K H c inp out (forwardOne s skip e rest) ∧
      ((forwardOne s skip e rest).seq = skip ++ rest ∨ (forwardOne s skip e rest).seq = skip ++ { e with state := .DownMatched } :: rest) := by
  have hmem : e ∈ s.seq := by rw [hs]; simp
  have hke : K e.key := h.seq e hmem
  have hkt := (hK _ hke).2.2
  -- the events of this key
  have hq := h.keys e.key
  rw [hs, eventsOf_append _ skip, eventsOf_cons_eq rfl] at hq
  have hskip : eventsOf e.key skip = [] := by
    cases hsq : eventsOf e.key skip with
    | nil => rfl
    | cons a l =>
      exfalso
      have ha : a ∈ skip ∧ a.key = e.key := mem_eventsOf.1 (by rw [hsq]; simp)
      have hup : (⟨e.key, .Up, 0⟩ : KeyEvent) ∉ e :: rest := by rw [← ha.2]; exact (hsk a ha.1).2
      have has := (hsk a ha.1).1
      rw [hsq] at hq
      have h2 : ∀ b t, a :: l ++ e :: eventsOf e.key rest = a :: b :: t → b = ⟨e.key, .Up, 0⟩ := by
        intro b t heq
        rw [heq] at hq
        exact hq.fwd_first has
      cases l with
      | nil =>
        have := h2 _ _ rfl
        apply hup; rw [← this]; simp
      | cons b l =>
        have := h2 _ _ rfl
        have hb : b ∈ skip := (mem_eventsOf.1 (show b ∈ eventsOf e.key skip by rw [hsq]; simp)).1
        have := (hsk b hb).1
        rw [h2 _ _ rfl] at this; cases this
  rw [hskip, List.nil_append] at hq
  have hother : ∀ k, k ≠ e.key → eventsOf k s.seq = eventsOf k (skip ++ rest) := by
    intro k hk
    rw [hs, eventsOf_append, eventsOf_append, eventsOf_cons_ne (fun h => hk h.symm)]
  have hskp : pressesOf skip = [] := pressesOf_matched (fun a ha => (hsk a ha).1)
  have hord := h.order
  rw [hs, pressesOf_append skip, hskp, List.nil_append] at hord
  have hseqK : ∀ a ∈ skip ++ rest, K a.key := by
    intro a ha
    apply h.seq; rw [hs]
    rcases List.mem_append.1 ha with ha | ha
    · exact List.mem_append_left _ ha
    · exact List.mem_append_right _ (List.mem_cons_of_mem _ ha)
  unfold forwardOne
  by_cases hd : e.state = .Down
  · have hpress := updateOutput_press (s := s) hd hkt h.reapplied (fun o ho => (h.down.own o ho).2.1)
    obtain ⟨hpi, hpk⟩ := pressDown_inv h.down e.key
    obtain ⟨hf1, hf2, hf3⟩ := hq.forward hd
    rw [if_pos (by simp [hd])]
    rw [pressesOf_cons_down hd] at hord
    have hupin : ∀ t : KeySequence, (⟨e.key, .Up, 0⟩ : KeyEvent) ∈ t ↔ (⟨e.key, .Up, 0⟩ : KeyEvent) ∈ eventsOf e.key t := by
      intro t; rw [mem_eventsOf]; simp
    have hne : e ≠ ⟨e.key, .Up, 0⟩ := by intro h'; rw [h'] at hd; cases hd
    have hdown : ∀ k, k ≠ e.key → decide (k ∈ (pressDown s.down e.key).map (·.key)) = decide (k ∈ s.down.map (·.key)) := by
      intro k hk
      apply decide_eq_of_iff
      rw [hpk]
      simp [hk]
    by_cases hcn : (e :: rest).contains ⟨e.key, .Up, 0⟩ = true
    · rw [if_pos hcn, hpress]
      have hin : (⟨e.key, .Up, 0⟩ : KeyEvent) ∈ rest := by
        rw [List.contains_eq_mem, decide_eq_true_eq, List.mem_cons] at hcn
        exact hcn.resolve_left (fun h' => hne h'.symm)
      refine ⟨⟨h.act, h.client, h.timeout, h.onRel, h.reapplied, hseqK, h.hist, hpi, ?_, ?_⟩, Or.inl rfl⟩
      · show pressesOf inp = pressesOf (out ++ (s.buf ++ [e])) ++ pressesOf (skip ++ rest)
        rw [hord, ← List.append_assoc, pressesOf_append _ [e], pressesOf_append skip, hskp, pressesOf_cons_down hd]
        simp [pressesOf]
      · intro k
        show KInv k _ (eventsOf k (out ++ (s.buf ++ [e]))) (eventsOf k (skip ++ rest)) (decide (k ∈ (pressDown s.down e.key).map (·.key)))
        by_cases hk : k = e.key
        · subst hk
          rw [decide_eq_true ((hpk e.key).2 (Or.inr rfl)), ← List.append_assoc, eventsOf_append _ _ [e], eventsOf_cons_eq rfl, eventsOf_nil, eventsOf_append _ skip,
            hskip, List.nil_append]
          rw [if_neg] at hf1
          · exact hf1
          · intro h'
            have := (hupin rest).1 hin
            rw [h'] at this; cases this
        · rw [hdown k hk, ← List.append_assoc, eventsOf_append _ _ [e], eventsOf_cons_ne (fun h => hk h.symm), eventsOf_nil, List.append_nil, ← hother k hk]
          exact h.keys k
    · rw [if_neg hcn, if_pos (by rw [h.timeout]; rfl), hpress]
      have hnin : (⟨e.key, .Up, 0⟩ : KeyEvent) ∉ rest := by
        intro h'
        apply hcn
        rw [List.contains_eq_mem, decide_eq_true_eq]
        exact List.mem_cons_of_mem _ h'
      have hrest : eventsOf e.key rest = [] := by
        cases hr : eventsOf e.key rest with
        | nil => rfl
        | cons a l =>
          exfalso
          apply hnin
          rw [hupin]
          exact hf2 (by rw [hr]; simp)
      refine ⟨⟨h.act, h.client, h.timeout, h.onRel, h.reapplied, ?_, h.hist, hpi, ?_, ?_⟩, Or.inr rfl⟩
      · intro a ha
        rcases List.mem_append.1 ha with ha | ha
        · exact hseqK a (List.mem_append_left _ ha)
        · rcases List.mem_cons.1 ha with ha | ha
          · subst ha; exact hke
          · exact hseqK a (List.mem_append_right _ ha)
      · show pressesOf inp = pressesOf (out ++ (s.buf ++ [e])) ++ pressesOf (skip ++ { e with state := .DownMatched } :: rest)
        rw [hord, ← List.append_assoc, pressesOf_append _ [e], pressesOf_append skip, hskp, pressesOf_cons_down hd, pressesOf_cons_not (by simp)]
        simp [pressesOf]
      · intro k
        show KInv k _ (eventsOf k (out ++ (s.buf ++ [e]))) (eventsOf k (skip ++ { e with state := .DownMatched } :: rest))
          (decide (k ∈ (pressDown s.down e.key).map (·.key)))
        by_cases hk : k = e.key
        · subst hk
          rw [decide_eq_true ((hpk e.key).2 (Or.inr rfl)), ← List.append_assoc, eventsOf_append _ _ [e], eventsOf_cons_eq rfl, eventsOf_nil, eventsOf_append _ skip,
            hskip, List.nil_append, eventsOf_cons_eq (e := { e with state := .DownMatched }) rfl, hrest]
          rw [if_pos hrest] at hf1
          exact hf1
        · rw [hdown k hk, ← List.append_assoc, eventsOf_append _ _ [e], eventsOf_cons_ne (fun h => hk h.symm), eventsOf_nil, List.append_nil,
            eventsOf_append _ skip, eventsOf_cons_ne (e := { e with state := .DownMatched }) (fun h => hk h.symm), ← eventsOf_append, ← hother k hk]
          exact h.keys k
  · rw [pressesOf_cons_not hd] at hord
    by_cases hdm : e.state = .DownMatched
    · have hin := hm hdm
      rw [if_pos (by simp [hdm]), if_pos (by rw [List.contains_eq_mem, decide_eq_true_eq]; exact List.mem_cons_of_mem _ hin)]
      have hup : updateOutput s e (.key e.key) (-1) = s := by unfold updateOutput; simp only [hdm]
      rw [hup]
      refine ⟨⟨h.act, h.client, h.timeout, h.onRel, h.reapplied, hseqK, h.hist, h.down, ?_, ?_⟩, Or.inl rfl⟩
      · show pressesOf inp = pressesOf (out ++ s.buf) ++ pressesOf (skip ++ rest)
        rw [hord, pressesOf_append skip, hskp, List.nil_append]
      · intro k
        show KInv k _ (eventsOf k (out ++ s.buf)) (eventsOf k (skip ++ rest)) (decide (k ∈ s.down.map (·.key)))
        by_cases hk : k = e.key
        · subst hk
          rw [eventsOf_append _ skip, hskip, List.nil_append]
          refine hq.drop hdm ?_
          intro h'
          have : (⟨e.key, .Up, 0⟩ : KeyEvent) ∈ eventsOf e.key rest := mem_eventsOf.2 ⟨hin, rfl⟩
          rw [h'] at this; cases this
        · rw [← hother k hk]; exact h.keys k
    · have he : e = ⟨e.key, .Up, 0⟩ := by
        rcases h.states hmem with h' | h' | h'
        · exact absurd h' hdm
        · exact absurd h' hd
        · exact h'
      rw [if_neg (by simp [hd, hdm]), releaseTriggered_eval h.down h.timeout]
      obtain ⟨hfi, hfk⟩ := filter_inv h.down e.key
      refine ⟨⟨h.act, h.client, h.timeout, h.onRel, h.reapplied, hseqK, h.hist, hfi, ?_, ?_⟩, Or.inl rfl⟩
      · show pressesOf inp = pressesOf (out ++ (s.buf ++ if e.key ∈ s.down.map (·.key) then [⟨e.key, .Up, 0⟩] else [])) ++ pressesOf (skip ++ rest)
        rw [hord, ← List.append_assoc, pressesOf_append (out ++ s.buf), pressesOf_append skip, hskp, List.nil_append]
        split <;> simp [pressesOf]
      · intro k
        show KInv k _ (eventsOf k (out ++ (s.buf ++ if e.key ∈ s.down.map (·.key) then [⟨e.key, .Up, 0⟩] else []))) (eventsOf k (skip ++ rest))
          (decide (k ∈ (s.down.filter (fun o => o.key != e.key)).map (·.key)))
        by_cases hk : k = e.key
        · subst hk
          rw [decide_eq_false (fun h' => ((hfk _).1 h').2 rfl), ← List.append_assoc, eventsOf_append _ (out ++ s.buf),
            eventsOf_append _ skip, hskip, List.nil_append]
          have := hq.forward_up he
          by_cases hk : e.key ∈ s.down.map (·.key)
          · rw [if_pos (decide_eq_true hk)] at this
            rw [if_pos hk, eventsOf_cons_eq (e := ⟨e.key, .Up, 0⟩) rfl, eventsOf_nil]
            exact this
          · rw [if_neg (by rw [decide_eq_false hk]; simp)] at this
            rw [if_neg hk, eventsOf_nil]
            exact this
        · have : decide (k ∈ (s.down.filter (fun o => o.key != e.key)).map (·.key)) = decide (k ∈ s.down.map (·.key)) := by
            apply decide_eq_of_iff
            rw [hfk]; simp [hk]
          rw [this, ← List.append_assoc, eventsOf_append _ (out ++ s.buf), ← hother k hk]
          have h2 : eventsOf k (if e.key ∈ s.down.map (·.key) then [⟨e.key, .Up, 0⟩] else []) = [] := by
            split
            · rw [eventsOf_cons_ne (e := ⟨e.key, .Up, 0⟩) (fun h => hk h.symm), eventsOf_nil]
            · rfl
          rw [h2, List.append_nil]
          exact h.keys k

/-- nothing of what is in the sequence is held back -/
def AllMatched (s : S) : Prop := ∀ e ∈ s.seq, e.state = .DownMatched

/-- this event is the last one, or nothing is held back -/
def Flushing (x : KeyEvent) (s : S) : Prop := (∃ q, s.seq = q ++ [x]) ∨ AllMatched s

/-- one iteration of the main loop -/
theorem Core.round {H c inp out} (hc : Stuck K H c) {s : S} (h : Core K H c inp out s) {ev : KeyEvent} (hv : isVirtualKey ev.key = false) (dev : Int) (u : Bool)
    (hn : hasNonOptional s.seq = true) :
    Core K H c inp out (round c ev dev u s).1 ∧
      ∀ x, isNonOptional x = true → ApartFrom x.key H c → Flushing x s → (round c ev dev u s).2 = true ∧ Flushing x (round c ev dev u s).1 := by
  obtain ⟨a, b, r, h1, h2⟩ := matchInput_stuck hK hc (s := s) true s.seq dev u h.seq h.act h.hist
  have hnm : r.isMatched = false := by
    rcases h2 with h2 | ⟨h2, _⟩ <;> rw [h2] <;> rfl
  unfold KM.round
  rw [h1]
  simp only [hv, Bool.false_and, Bool.false_eq_true, if_false]
  rcases h2 with h2 | ⟨h2, _, h3⟩
  · subst h2
    have hne : (MIR.noMatch == MIR.might) = false := rfl
    rw [hne]
    simp only [Bool.false_eq_true, if_false]
    obtain ⟨a', b', m, h4⟩ := retryStart_stuck hK hc dev u { s with anyM := a, ub := b } h.seq h.act h.hist
    rw [h4]
    obtain ⟨s1, hs1⟩ : ∃ s1, s1 = ({ s with anyM := a', ub := b' } : S) := ⟨_, rfl⟩
    have hcore : Core K H c inp out s1 := by subst hs1; exact h.congr rfl rfl rfl rfl rfl rfl rfl rfl rfl
    have hseq : s1.seq = s.seq := by rw [hs1]
    simp only []
    rw [← hs1]
    have ht : timeoutMatched s1 ev .noMatch false = (s1, .noMatch) := by unfold timeoutMatched; rw [hcore.timeout]
    have ht' : notTimeoutFailed s1 .noMatch = s1 := by unfold notTimeoutFailed; rw [hcore.timeout]
    rw [ht]
    simp only [ht', applyResult, forwardFromSequence, hseq]
    obtain ⟨skip, e, rest, g1, g2, g3, g4⟩ := forwardGo_cases s1 [] s.seq hn
    rw [List.nil_append] at g4
    obtain ⟨f1, f2⟩ := hcore.forward hK (hseq.trans g1) g2 g3
    rw [g4]
    generalize forwardOne s1 skip e rest = s2 at *
    refine ⟨?_, ?_⟩
    · split
      · exact f1.congr rfl rfl rfl rfl rfl rfl rfl rfl rfl
      · exact f1
    · intro x hx hap hf
      refine ⟨trivial, ?_⟩
      have hfl : Flushing x s2 := by
        rcases hf with ⟨q, hq⟩ | hf
        · rw [g1] at hq
          rcases List.eq_nil_or_concat rest with hr | ⟨r', y, hr⟩
          · right
            intro z hz
            rw [hr] at f2
            rcases f2 with f2 | f2 <;> rw [f2] at hz
            · rw [List.append_nil] at hz; exact (g2 z hz).1
            · rcases List.mem_append.1 hz with hz | hz
              · exact (g2 z hz).1
              · rw [List.mem_singleton] at hz; rw [hz]
          · left
            have hyx : y = x := by
              have : (skip ++ e :: rest).getLast? = (q ++ [x]).getLast? := by rw [hq]
              rw [hr, List.concat_eq_append, ← List.cons_append, ← List.append_assoc, List.getLast?_concat, List.getLast?_concat] at this
              exact Option.some.inj this
            subst hyx
            rcases f2 with f2 | f2 <;> rw [f2, hr, List.concat_eq_append]
            · exact ⟨skip ++ r', by rw [List.append_assoc]⟩
            · exact ⟨skip ++ { e with state := .DownMatched } :: r', by rw [List.append_assoc]; rfl⟩
        · rw [hasNonOptional_matched hf] at hn; cases hn
      split
      · exact hfl
      · exact hfl
  · subst h2
    have he : (MIR.might == MIR.might) = true := rfl
    rw [he]
    simp only [if_true]
    refine ⟨h.congr rfl rfl rfl rfl rfl rfl rfl rfl rfl, ?_⟩
    intro x hx hap hf
    exfalso
    rcases hf with ⟨q, hq⟩ | hf
    · exact h3 x (by rw [hq]; simp) hx hap
    · rw [hasNonOptional_matched hf] at hn; cases hn

theorem Core.mainLoop {H c inp out} (hc : Stuck K H c) {s : S} (h : Core K H c inp out s) {ev : KeyEvent} (hv : isVirtualKey ev.key = false) (dev : Int) (u : Bool) :
    Core K H c inp out (mainLoop c ev dev u s) ∧
      ∀ x, isNonOptional x = true → ApartFrom x.key H c → Flushing x s → AllMatched (mainLoop c ev dev u s) := by
  generalize hq : seqMeasure s.seq = n
  induction n using Nat.strongRecOn generalizing s with
  | _ n ih =>
    subst hq
    rw [KM.mainLoop.eq_def]
    by_cases hn : hasNonOptional s.seq = true
    · rw [dif_pos hn]
      obtain ⟨g1, g4⟩ := h.round hK hc hv dev u hn
      by_cases hr : (KM.round c ev dev u s).2 = true
      · rw [dif_pos hr]
        obtain ⟨i1, i3⟩ := ih _ (round_measure c ev dev u s hn hr) g1 rfl
        exact ⟨i1, fun x hx hap hf => i3 x hx hap (g4 x hx hap hf).2⟩
      · rw [dif_neg hr]
        exact ⟨g1, fun x hx hap hf => absurd (g4 x hx hap hf).1 hr⟩
    · rw [dif_neg hn]
      exact ⟨h, fun _ _ _ _ => h.matched (by simpa using hn)⟩

/-! ### a whole input -/

omit hK in
theorem rfindKey_eventsOf (l : KeySequence) (k : Key) : rfindKey l k = (eventsOf k l).getLast? := by
  unfold rfindKey eventsOf
  rw [← List.head?_filter, List.filter_reverse, List.head?_reverse]

omit hK in
theorem findKey_eq (l : KeySequence) (k : Key) : findKey l k = (eventsOf k l).head? := by
  unfold findKey eventsOf
  rw [List.head?_filter]

omit hK in
/-- the event can follow what was input before -/
def Follows (inp : KeySequence) (ev : KeyEvent) : Prop :=
  (ev.state = .Down ∧ lastKeyState (eventsOf ev.key inp) ≠ some .Down) ∨ (ev = ⟨ev.key, .Up, 0⟩ ∧ lastKeyState (eventsOf ev.key inp) = some .Down)

omit hK in
theorem Core.push {H c inp out} {s : S} (h : Core K H c inp out s) {ev : KeyEvent} (hk : K ev.key) (hf : Follows inp ev) :
    Core K H c (inp ++ [ev]) out { s with seq := s.seq ++ [ev] } := by
  refine ⟨h.act, h.client, h.timeout, h.onRel, h.reapplied, ?_, h.hist, h.down, ?_, ?_⟩
  · intro e he
    rcases List.mem_append.1 he with he | he
    · exact h.seq e he
    · rw [List.mem_singleton] at he; subst he; exact hk
  · show pressesOf (inp ++ [ev]) = pressesOf (out ++ s.buf) ++ pressesOf (s.seq ++ [ev])
    rw [pressesOf_append inp, pressesOf_append s.seq, h.order, List.append_assoc]
  · intro k
    show KInv k (eventsOf k (inp ++ [ev])) (eventsOf k (out ++ s.buf)) (eventsOf k (s.seq ++ [ev])) (decide (k ∈ s.down.map (·.key)))
    rw [eventsOf_append _ inp, eventsOf_append _ s.seq]
    by_cases hke : ev.key = k
    · subst hke
      rw [eventsOf_cons_eq rfl, eventsOf_nil]
      rcases hf with ⟨h1, h2⟩ | ⟨h1, h2⟩
      · exact (h.keys _).press h2 h1
      · have := (h.keys _).release h2
        rw [← h1] at this
        exact this
    · rw [eventsOf_cons_ne hke, eventsOf_nil, List.append_nil, List.append_nil]
      exact h.keys k

omit hK in
theorem Core.beforeMatchUp {H c inp out} {s : S} (h : Core K H c inp out s) {ev : KeyEvent} {q : KeySequence} (hs : s.seq = q ++ [ev])
    (hn : ev.state ≠ .DownMatched) :
    Core K H c inp out (beforeMatchUp s ev) ∧ ∃ q', (beforeMatchUp s ev).seq = q' ++ [ev] := by
  have hgoal : Core K H c inp out s ∧ ∃ q', s.seq = q' ++ [ev] := ⟨h, q, hs⟩
  unfold KM.beforeMatchUp
  split
  · have hb : (s.timeout.bind (·.matchedOutput)).isSome = false := by rw [h.timeout]; rfl
    simp only [hb, Bool.false_eq_true, if_false]
    split
    · split
      · exact ⟨h.congr rfl rfl rfl rfl rfl rfl rfl rfl rfl, q, hs⟩
      · next e he =>
        split
        · next hem =>
          rw [beq_iff_eq] at hem
          have hek : (e.key == ev.key) = true := List.find?_some (p := fun x : KeyEvent => x.key == ev.key) (show List.find? (fun x => x.key == ev.key) s.seq = some e from he)
          have hmem : e ∈ s.seq := List.mem_of_find?_eq_some (show List.find? (fun x => x.key == ev.key) s.seq = some e from he)
          obtain ⟨a, l1, l2, g1, g2, g3, g4⟩ := List.exists_of_eraseP (p := fun x : KeyEvent => x.key == ev.key) hmem hek
          have hae : a = e := by
            have : findKey s.seq ev.key = some a := by
              unfold findKey
              rw [g3, List.find?_append, List.find?_eq_none.2 (fun x hx => by simpa using g1 x hx), List.find?_cons_of_pos (p := fun x : KeyEvent => x.key == ev.key) g2]
              rfl
            rw [he] at this
            exact (Option.some.inj this).symm
          subst hae
          have hl2 : ∃ l, l2 = l ++ [ev] := by
            rcases List.eq_nil_or_concat l2 with hl | ⟨l, y, hl⟩
            · exfalso
              have : s.seq.getLast? = some ev := by rw [hs, List.getLast?_concat]
              rw [g3, hl, List.getLast?_concat] at this
              rw [Option.some.inj this] at hem
              exact hn hem
            · rw [List.concat_eq_append] at hl
              have : s.seq.getLast? = some ev := by rw [hs, List.getLast?_concat]
              rw [g3, hl, ← List.cons_append, ← List.append_assoc, List.getLast?_concat] at this
              rw [Option.some.inj this] at hl
              exact ⟨l, hl⟩
          obtain ⟨l, hl⟩ := hl2
          have hak : a.key = ev.key := by simpa using hek
          have hl1 : eventsOf ev.key l1 = [] := by
            unfold eventsOf; rw [List.filter_eq_nil_iff]; exact g1
          rw [g4]
          refine ⟨⟨h.act, h.client, h.timeout, h.onRel, h.reapplied, ?_, h.hist, h.down, ?_, ?_⟩, l1 ++ l, by rw [hl, List.append_assoc]⟩
          · intro x hx
            apply h.seq; rw [g3]
            rcases List.mem_append.1 hx with hx | hx
            · exact List.mem_append_left _ hx
            · exact List.mem_append_right _ (List.mem_cons_of_mem _ hx)
          · show pressesOf inp = pressesOf (out ++ s.buf) ++ pressesOf (l1 ++ l2)
            rw [h.order, g3, pressesOf_append l1, pressesOf_append l1, pressesOf_cons_not (by rw [hem]; simp)]
          · intro k
            show KInv k _ _ (eventsOf k (l1 ++ l2)) (decide (k ∈ s.down.map (·.key)))
            have hq := h.keys k
            rw [g3, eventsOf_append _ l1] at hq
            rw [eventsOf_append _ l1]
            by_cases hke : k = ev.key
            · subst hke
              rw [hl1, List.nil_append, eventsOf_cons_eq hak] at hq
              rw [hl1, List.nil_append]
              refine hq.drop hem ?_
              rw [hl, eventsOf_append, eventsOf_cons_eq rfl]
              simp
            · rw [eventsOf_cons_ne (fun h => hke (h.symm.trans hak))] at hq
              exact hq
        · exact hgoal
    · exact hgoal
  · exact hgoal

omit hK in
theorem Core.releaseEarly {H c inp out} {s : S} (h : Core K H c inp out s) {k : Key} (hl : lastKeyState (eventsOf k inp) ≠ some .Down) :
    Core K H c inp out (releaseTriggered s k (-1)) := by
  rw [releaseTriggered_eval h.down h.timeout]
  obtain ⟨hfi, hfk⟩ := filter_inv h.down k
  refine ⟨h.act, h.client, h.timeout, h.onRel, h.reapplied, h.seq, h.hist, hfi, ?_, ?_⟩
  · show pressesOf inp = pressesOf (out ++ (s.buf ++ if k ∈ s.down.map (·.key) then [⟨k, .Up, 0⟩] else [])) ++ pressesOf s.seq
    rw [h.order, ← List.append_assoc, pressesOf_append (out ++ s.buf)]
    split <;> simp [pressesOf]
  · intro k'
    show KInv k' _ (eventsOf k' (out ++ (s.buf ++ if k ∈ s.down.map (·.key) then [⟨k, .Up, 0⟩] else []))) (eventsOf k' s.seq)
      (decide (k' ∈ (s.down.filter (fun o => o.key != k)).map (·.key)))
    rw [← List.append_assoc, eventsOf_append _ (out ++ s.buf)]
    by_cases hk : k' = k
    · subst hk
      rw [decide_eq_false (fun h' => ((hfk _).1 h').2 rfl)]
      have := (h.keys k').early hl
      by_cases hk : k' ∈ s.down.map (·.key)
      · rw [if_pos (decide_eq_true hk)] at this
        rw [if_pos hk, eventsOf_cons_eq (e := ⟨k', .Up, 0⟩) rfl, eventsOf_nil]
        exact this
      · rw [if_neg (by rw [decide_eq_false hk]; simp)] at this
        rw [if_neg hk, eventsOf_nil]
        exact this
    · have : decide (k' ∈ (s.down.filter (fun o => o.key != k)).map (·.key)) = decide (k' ∈ s.down.map (·.key)) := by
        apply decide_eq_of_iff
        rw [hfk]; simp [hk]
      rw [this]
      have h2 : eventsOf k' (if k ∈ s.down.map (·.key) then [⟨k, .Up, 0⟩] else []) = [] := by
        split
        · rw [eventsOf_cons_ne (e := ⟨k, .Up, 0⟩) (fun h => hk h.symm), eventsOf_nil]
        · rfl
      rw [h2, List.append_nil]
      exact h.keys k'

omit hK in
theorem Core.contexts {H c inp out} (hc : Stuck K H c) {s : S} (h : Core K H c inp out s) :
    Core K H c inp out (updateActiveContexts c s) ∧ (updateActiveContexts c s).seq = s.seq := by
  obtain ⟨r, b, hr, he⟩ := updateActiveContexts_stuck hc s h.act h.client
  rw [he]
  exact ⟨⟨hr, h.client, h.timeout, h.onRel, h.reapplied, h.seq, h.hist, h.down, h.order, h.keys⟩, rfl⟩

omit hK in
theorem Core.finishInput {H c inp out} (hc : Stuck K H c) {s : S} (h : Core K H c inp out s) {ev : KeyEvent}
    (hl : ev.state = .Up → lastKeyState (eventsOf ev.key inp) ≠ some .Down) :
    Core K H c inp out (finishInput c s ev) ∧ (finishInput c s ev).seq = s.seq := by
  unfold KM.finishInput
  simp only []
  obtain ⟨s1, hs1⟩ : ∃ s1, s1 = (if (ev.state == .Up) = true then releaseTriggered s ev.key (-1) else s) := ⟨_, rfl⟩
  have h1 : Core K H c inp out s1 ∧ s1.seq = s.seq := by
    rw [hs1]
    split
    · next hu => exact ⟨h.releaseEarly (hl (by simpa using hu)), rfl⟩
    · exact ⟨h, rfl⟩
  rw [← hs1]
  obtain ⟨h2, e2⟩ := h1.1.contexts hc
  generalize updateActiveContexts c s1 = s2 at *
  have hdw : s2.seq.dropWhile (fun e => e.state == KeyState.UpMatched) = s2.seq := by
    cases hq : s2.seq with
    | nil => rfl
    | cons e l =>
      have := h2.states (e := e) (by simp [hq])
      rw [List.dropWhile_cons, if_neg]
      rcases this with h' | h' | h'
      · rw [h']; simp
      · rw [h']; simp
      · rw [h']; simp
  rw [hdw]
  obtain ⟨s3, hs3⟩ : ∃ s3, s3 = (if s2.seq.isEmpty = true then { s2 with timeout := none } else { s2 with seq := s2.seq }) := ⟨_, rfl⟩
  rw [← hs3]
  have h3 : Core K H c inp out s3 ∧ s3.seq = s2.seq := by
    rw [hs3]
    split
    · exact ⟨h2.congr rfl rfl h2.timeout.symm rfl rfl rfl rfl rfl rfl, rfl⟩
    · exact ⟨h2, rfl⟩
  have hcm := cleanUpHistory_mem c s3.active s3.history
  generalize cleanUpHistory c s3.active s3.history = q at *
  obtain ⟨hh, u⟩ := q
  refine ⟨⟨h3.1.act, h3.1.client, h3.1.timeout, h3.1.onRel, rfl, h3.1.seq, fun e he => h3.1.hist e (hcm e he), h3.1.down, h3.1.order, h3.1.keys⟩, ?_⟩
  show s3.seq = s.seq
  rw [h3.2, e2, h1.2]

theorem Core.pressTail {H c inp out} (hc : Stuck K H c) {s : S} (h : Core K H c inp out s) {ev : KeyEvent} (hk : K ev.key)
    (hv : isVirtualKey ev.key = false) (hf : Follows inp ev) (dev : Int) :
    Core K H c (inp ++ [ev]) out (pressTail c s ev dev) ∧ (ApartFrom ev.key H c → AllMatched (pressTail c s ev dev)) := by
  have hst : ev.state = .Down ∨ ev.state = .Up := by
    rcases hf with ⟨h1, _⟩ | ⟨h1, _⟩
    · exact Or.inl h1
    · rw [h1]; exact Or.inr rfl
  unfold KM.pressTail
  simp only []
  have h1 := h.push hk hf
  obtain ⟨s1, hs1⟩ : ∃ s1, s1 = ({ s with seq := s.seq ++ [ev] } : S) := ⟨_, rfl⟩
  have e1 : s1.seq = s.seq ++ [ev] := by rw [hs1]
  rw [← hs1] at h1 ⊢
  have h2 : Core K H c (inp ++ [ev]) out (addToHistory c s1 ev) ∧ (addToHistory c s1 ev).seq = s1.seq := by
    obtain ⟨hh, e2, m2⟩ := addToHistory_spec c s1 ev
    rw [e2]
    refine ⟨⟨h1.act, h1.client, h1.timeout, h1.onRel, h1.reapplied, h1.seq, ?_, h1.down, h1.order, h1.keys⟩, rfl⟩
    intro e he
    rcases m2 e he with h' | h'
    · exact h1.hist e h'
    · subst h'; exact hk
  generalize addToHistory c s1 ev = s2 at *
  obtain ⟨h3, e3⟩ := h2.1.contexts hc
  generalize updateActiveContexts c s2 = s3 at *
  obtain ⟨h4, q, e4⟩ := h3.beforeMatchUp (q := s.seq) (by rw [e3, h2.2, e1]) (ev := ev) (by rcases hst with h' | h' <;> rw [h'] <;> simp)
  generalize KM.beforeMatchUp s3 ev = s4 at *
  obtain ⟨s5, hs5⟩ : ∃ s5, s5 = ({ s4 with down := s4.down.map (fun o => { o with suppressed := false }) } : S) := ⟨_, rfl⟩
  have h5 : Core K H c (inp ++ [ev]) out s5 := by
    obtain ⟨hdn, hdk⟩ := unsuppress_inv h4.down
    rw [hs5]
    refine ⟨h4.act, h4.client, h4.timeout, h4.onRel, h4.reapplied, h4.seq, h4.hist, hdn, h4.order, ?_⟩
    show ∀ k, KInv k _ _ _ (decide (k ∈ (s4.down.map (fun o => { o with suppressed := false })).map (fun x : OutputDown => x.key)))
    rw [hdk]
    exact h4.keys
  have e5 : s5.seq = s4.seq := by rw [hs5]
  rw [← hs5]
  obtain ⟨h6, f6⟩ := h5.mainLoop hK hc hv dev (ev.state == .Up && ev.key != Key.timeout)
  generalize KM.mainLoop c ev dev (ev.state == .Up && ev.key != Key.timeout) s5 = s6 at *
  obtain ⟨h7, e7⟩ := h6.finishInput hc (ev := ev) (by
    intro hu
    rw [eventsOf_append, eventsOf_cons_eq rfl, eventsOf_nil, lastState_concat, hu]
    simp)
  refine ⟨h7, ?_⟩
  intro hap
  have := f6 ev (by rcases hst with h' | h' <;> simp [isNonOptional, h']) hap (Or.inl ⟨q, by rw [e5, e4]⟩)
  intro e he
  rw [e7] at he
  exact this e he

/-- everything which is done for an input -/
theorem Core.update {H c inp out} (hc : Stuck K H c) {s : S} (h : Core K H c inp out s) {ev : KeyEvent} (hk : K ev.key)
    (hv : isVirtualKey ev.key = false) (hf : Follows inp ev) (dev : Int) :
    Core K H c (inp ++ [ev]) (out ++ (update c s ev dev).2) (update c s ev dev).1 ∧ (update c s ev dev).1.buf = [] ∧
      (ApartFrom ev.key H c → AllMatched (update c s ev dev).1) := by
  have hm : ∃ s1, Core K H c inp out s1 ∧ applyInput c { s with exitPos := advanceExit s.exitPos ev } ev dev = KM.pressTail c s1 ev dev := by
    rw [applyInput_eq c { s with exitPos := advanceExit s.exitPos ev } ev dev h.onRel h.timeout]
    unfold mergeRepeat
    rcases hf with ⟨h1, h2⟩ | ⟨h1, h2⟩
    · have hnp : isPhysicallyPressed { s with exitPos := advanceExit s.exitPos ev, ub := if validInput ev then s.ub else true } ev.key = false := by
        unfold isPhysicallyPressed
        rw [rfindKey_eventsOf]
        simp only []
        have := (h.keys ev.key).released h2
        unfold lastKeyState at this
        cases hg : (eventsOf ev.key s.seq).getLast? with
        | none => rfl
        | some e =>
          rw [hg] at this
          simp only [Option.map_some, Option.some.injEq, reduceCtorEq, false_or] at this
          simp only [this]; rfl
      rw [if_pos (by rw [h1]; rfl), hnp]
      simp only [Bool.false_eq_true, if_false]
      cases hdv : (dev != noDeviceIndex) with
      | true => refine ⟨_, ?_, rfl⟩; exact h.congr rfl rfl rfl rfl rfl rfl rfl rfl rfl
      | false => refine ⟨_, ?_, rfl⟩; exact h.congr rfl rfl rfl rfl rfl rfl rfl rfl rfl
    · rw [if_neg (by rw [h1]; exact Bool.noConfusion)]
      refine ⟨_, ?_, rfl⟩; exact h.congr rfl rfl rfl rfl rfl rfl rfl rfl rfl
  obtain ⟨s1, h1, e1⟩ := hm
  unfold KM.update
  simp only [e1]
  obtain ⟨h2, f2⟩ := h1.pressTail hK hc hk hv hf dev
  generalize KM.pressTail c s1 ev dev = s2 at *
  refine ⟨⟨h2.act, h2.client, h2.timeout, h2.onRel, h2.reapplied, h2.seq, h2.hist, h2.down, ?_, ?_⟩, trivial, f2⟩
  · show _ = pressesOf ((out ++ s2.buf) ++ []) ++ _
    rw [List.append_nil]; exact h2.order
  · show ∀ k, KInv k _ (eventsOf k ((out ++ s2.buf) ++ [])) _ _
    rw [List.append_nil]; exact h2.keys

end

end KM
