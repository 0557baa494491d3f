import Verif.Lemmas.Foreign
import Verif.Lemmas.StageInv
import Verif.Lemmas.Active
import Verif.Lemmas.Pressed
/-!
# A stage to which only unmapped keys are input
-/
namespace KM

/-- these contexts do not mention the keys, nor `Any`, nor `ContextActive` -/
def Harmless (K : Key → Prop) (H : Nat → Prop) (c : Cfg) : Prop :=
  ∀ j ctx, H j → c.contexts[j]? = some ctx → ∀ inp ∈ ctx.inputs, Foreign K inp.input ∧
    inp.input.head?.map (·.key) ≠ some Key.ContextActive

section
variable {K : Key → Prop} (hK : RealKeys K)
include hK

theorem matchGo_foreign {c first sequence dev u} (hs : ∀ x ∈ sequence, K x.key) (hn : hasNonOptional sequence = true)
    (l : List (Nat × Context × Input)) (hl : ∀ x ∈ l, Foreign K x.2.2.input) (s : S)
    (hh : ∀ x ∈ s.history, K x.key ∧ isNonOptional x = true) :
    ∃ a b, matchGo c first sequence dev u l s = ({ s with anyM := a, ub := b }, .noMatch) := by
  induction l generalizing s with
  | nil => exact ⟨s.anyM, s.ub, rfl⟩
  | cons x l ih =>
    obtain ⟨ci, cx, inp⟩ := x
    have hf := hl (ci, cx, inp) (by simp)
    have ih := ih (fun y hy => hl y (by simp [hy]))
    have hres : (matchSeq inp.input (matchTarget inp.input s.history sequence)).res ≠ .matched ∧
        (isNoMightMatch inp.input = false →
          (matchSeq inp.input (matchTarget inp.input s.history sequence)).res = .no_match) := by
      unfold matchTarget
      by_cases hnm : isNoMightMatch inp.input = true
      · rw [if_pos hnm]
        exact ⟨matchSeq_foreign_history hK hf (fun x hx => (hh x hx).1) (fun x hx => (hh x hx).2),
          fun h => by rw [hnm] at h; simp at h⟩
      · rw [if_neg hnm]
        have := matchSeq_foreign hK hf hs hn (by
          intro h
          apply hnm
          unfold isNoMightMatch
          cases hi : inp.input with
          | nil => rw [hi] at h; simp at h
          | cons a b => rw [hi] at h; simp at h; simp [h])
        exact ⟨by rw [this]; simp, fun _ => this⟩
    unfold matchGo
    simp only []
    split
    · exact ih s hh
    · generalize matchSeq inp.input (matchTarget inp.input s.history sequence) = r at *
      have h2 : (r.res == MatchResult.matched) = false := beq_eq_false_iff_ne.2 hres.1
      have h1 : (first && !isNoMightMatch inp.input && r.res == MatchResult.might_match) = false := by
        cases hnm : isNoMightMatch inp.input with
        | true => simp
        | false => rw [hres.2 hnm]; simp
      rw [h1, h2]
      simp only [Bool.false_eq_true, if_false]
      obtain ⟨a, b, h⟩ := ih { s with anyM := r.any, ub := s.ub || r.ub } hh
      exact ⟨a, b, h⟩

theorem matchInput_foreign {c : Cfg} {H : Nat → Prop} (hc : Harmless K H c) {s : S} {first sequence dev u}
    (hs : ∀ x ∈ sequence, K x.key) (hn : hasNonOptional sequence = true) (ha : ∀ i ∈ s.active, H i)
    (hh : ∀ x ∈ s.history, K x.key ∧ isNonOptional x = true) :
    ∃ a b, matchInput c s first sequence dev u = ({ s with anyM := a, ub := b }, .noMatch) := by
  unfold matchInput
  simp only []
  obtain ⟨a, b, h⟩ := matchGo_foreign hK (c := c) (first := first) (dev := dev) (u := u) hs hn
    (candidates c.contexts s.active dev) (by
      intro x hx
      obtain ⟨h1, h2, _, h4⟩ := candidates_mem hx
      exact (hc x.1 x.2.1 (ha _ h1) h2 x.2.2 h4).1) { s with ub := s.ub || ((!s.active.isEmpty && (decide (64 ≤ dev) || decide (dev < -2))) ||
        s.active.any (fun i => decide (c.contexts.length ≤ i))) } hh
  exact ⟨a, b, h⟩

end

/-! ### active contexts -/

theorem onContextActiveEvent_harmless {K H c} (hc : Harmless K H c) (s : S) (ev : KeyEvent) {i : Nat} (hi : H i) :
    ∃ b, onContextActiveEvent c s ev i = { s with ub := b } := by
  unfold onContextActiveEvent
  split
  · exact ⟨true, rfl⟩
  · next ctx hctx =>
    simp only []
    have hf : ctx.inputs.find? (fun i => i.input.head?.map (·.key) == some Key.ContextActive) = none := by
      rw [List.find?_eq_none]
      intro x hx
      have := (hc i ctx hi hctx x hx).2
      rw [beq_iff_eq]; exact this
    rw [hf]
    simp only []
    split
    · exact ⟨true, rfl⟩
    · exact ⟨s.ub, rfl⟩

theorem foldContextActive_harmless {K H c} (hc : Harmless K H c) (ev : KeyEvent) (l : List Nat) (hl : ∀ i ∈ l, H i) (s : S) :
    ∃ b, l.foldl (fun s i => onContextActiveEvent c s ev i) s = { s with ub := b } := by
  induction l generalizing s with
  | nil => exact ⟨s.ub, rfl⟩
  | cons a l ih =>
    obtain ⟨b, hb⟩ := onContextActiveEvent_harmless hc s ev (hl a (by simp))
    rw [List.foldl_cons, hb]
    obtain ⟨b', hb'⟩ := ih (fun i hi => hl i (by simp [hi])) { s with ub := b }
    exact ⟨b', hb'⟩

theorem mergeContexts_mem (p q : List Nat) :
    (∀ i ∈ (mergeContexts p q).1, i ∈ p) ∧ (∀ i ∈ (mergeContexts p q).2, i ∈ q) := by
  fun_induction mergeContexts p q with
  | case1 q => simp
  | case2 p h => simp
  | case3 p ps q qs h d a hm ih =>
    rw [hm] at ih
    simp only [List.mem_cons] at ih ⊢
    exact ⟨fun i hi => hi.imp id (ih.1 i), ih.2⟩
  | case4 p ps q qs h h' d a hm ih =>
    rw [hm] at ih
    simp only [List.mem_cons] at ih ⊢
    exact ⟨ih.1, fun i hi => hi.imp id (ih.2 i)⟩
  | case5 p ps q qs h h' ih =>
    simp only [List.mem_cons] at ih ⊢
    exact ⟨fun i hi => Or.inr (ih.1 i hi), fun i hi => Or.inr (ih.2 i hi)⟩

theorem computeActive_mem {cs : List Context} {seq : KeySequence} {H : Nat → Prop} (l acc : List Nat) {r}
    (hl : ∀ i ∈ l, ∀ j, fallthroughContext cs i = some j → H j) (ha : ∀ i ∈ acc, H i)
    (h : computeActive cs seq l acc = some r) : ∀ i ∈ r, H i := by
  induction l generalizing acc with
  | nil => simp only [computeActive, Option.some.injEq] at h; subst h; exact ha
  | cons i l ih =>
    have hl' : ∀ i ∈ l, ∀ j, fallthroughContext cs i = some j → H j := fun i hi => hl i (by simp [hi])
    unfold computeActive at h
    split at h
    · simp at h
    · split at h
      · split at h
        · simp at h
        · next j hj =>
          refine ih _ hl' ?_ h
          intro x hx
          split at hx
          · exact ha x hx
          · simp only [List.mem_append, List.mem_singleton] at hx
            rcases hx with hx | hx
            · exact ha x hx
            · rw [hx]; exact hl i (by simp) j hj
      · exact ih _ hl' ha h

theorem updateActiveContexts_harmless {K H c} (hc : Harmless K H c) (s : S) (ha : ∀ i ∈ s.active, H i)
    (hcl : ∀ i ∈ s.activeClient, ∀ j, fallthroughContext c.contexts i = some j → H j) :
    ∃ r b, (∀ i ∈ r, H i) ∧ updateActiveContexts c s = { s with active := r, ub := b } := by
  unfold updateActiveContexts
  split
  · exact ⟨s.active, true, ha, rfl⟩
  · next r hr =>
    have hr' := computeActive_mem _ _ hcl (by simp) hr
    have hm := mergeContexts_mem s.active r
    generalize mergeContexts s.active r = da at *
    obtain ⟨d, a⟩ := da
    simp only [] at *
    obtain ⟨b1, h1⟩ := foldContextActive_harmless hc ⟨Key.ContextActive, .Up, 0⟩ d (fun i hi => ha i (hm.1 i hi))
      { s with active := r }
    rw [h1]
    obtain ⟨b2, h2⟩ := foldContextActive_harmless hc ⟨Key.ContextActive, .Down, 0⟩ a (fun i hi => hr' i (hm.2 i hi))
      { s with active := r, ub := b1 }
    exact ⟨r, b2, hr', h2⟩

/-! ### history -/

theorem cleanUpHistory_mem (c : Cfg) (active : List Nat) (h : KeySequence) :
    ∀ e ∈ (cleanUpHistory c active h).1, e ∈ h := by
  fun_induction cleanUpHistory c active h with
  | case1 => simp
  | case2 e rest hne => exact fun _ h => h
  | case3 e rest hne up hc => exact fun _ h => h
  | case4 e rest hne up hc m u hm h => exact fun _ h => h
  | case5 e rest hne up hc m u hm h ih =>
    intro x hx
    exact List.mem_cons_of_mem _ (List.mem_of_mem_erase (ih x hx))

theorem addToHistory_spec (c : Cfg) (s : S) (ev : KeyEvent) :
    ∃ h, addToHistory c s ev = { s with history := h } ∧ ∀ e ∈ h, e ∈ s.history ∨ e = ev := by
  unfold addToHistory
  simp only []
  repeat' split
  all_goals first
    | exact ⟨s.history, rfl, fun e he => Or.inl he⟩
    | exact ⟨_, rfl, fun e he => by simpa using he⟩

/-! ### the output of a forwarded key -/

/-- the tracked output keys after forwarding the press of a key -/
def pressDown (d : List OutputDown) (k : Key) : List OutputDown :=
  if (d.find? (·.key == k)).isNone then d ++ [{ key := k, trigger := .key k, ctx := -1 }]
  else modFirst (·.key == k) (fun o => { o with temporarilyReleased := false, pressedTwice := true }) d

theorem reapplyLoop_none (k : Key) (d : List OutputDown) (b : KeySequence) (r : Bool)
    (h : ∀ o ∈ d, o.temporarilyReleased = false) : reapplyLoop k d b r = (d, b, r, false) := by
  induction d with
  | nil => rfl
  | cons o d ih =>
    have h1 := h o (by simp)
    unfold reapplyLoop
    simp only [h1, Bool.false_and, Bool.false_eq_true, if_false]
    rw [ih (fun o ho => h o (by simp [ho]))]

theorem updateOutput_press {s : S} {ev : KeyEvent} (hd : ev.state = .Down) (ht : ev.key ≠ Key.timeout)
    (hr : s.reapplied = false) (h : ∀ o ∈ s.down, o.temporarilyReleased = false) :
    updateOutput s ev (.key ev.key) (-1) =
      { s with down := pressDown s.down ev.key, buf := s.buf ++ [ev] } := by
  have ht' : (ev.key != Key.timeout) = true := by simpa using ht
  unfold updateOutput
  simp only [hd]
  unfold updateOutputDown
  rw [reapplyLoop_none _ _ _ _ h]
  simp only [Bool.false_eq_true, if_false, ht', if_true, hr]
  unfold pressDown
  split
  · cases s; subst hr; rfl
  · cases s; subst hr; rfl

/-! ### forwarding from the sequence -/

theorem forwardGo_skip (s : S) (pre l rest : KeySequence) (hl : ∀ e ∈ l, e.state = .DownMatched)
    (hn : ∀ e ∈ l, (⟨e.key, .Up, 0⟩ : KeyEvent) ∉ rest) :
    forwardGo s pre (l ++ rest) = forwardGo s (pre ++ l) rest := by
  induction l generalizing pre with
  | nil => simp
  | cons e l ih =>
    have h1 := hl e (by simp)
    have hc : ((e :: (l ++ rest)).contains (⟨e.key, .Up, 0⟩ : KeyEvent)) = false := by
      rw [List.contains_eq_mem]
      simp only [List.mem_cons, List.mem_append, decide_eq_false_iff_not, not_or]
      refine ⟨?_, ?_, hn e (by simp)⟩
      · intro h; rw [← h] at h1; simp at h1
      · intro h; have := hl _ (List.mem_cons_of_mem _ h); simp at this
    rw [List.cons_append, forwardGo, hc, h1]
    simp only [Bool.false_eq_true, if_false, reduceCtorEq, beq_iff_eq, Bool.or_true, beq_self_eq_true, if_true]
    rw [ih (pre ++ [e]) (fun e he => hl e (by simp [he])) (fun e he => hn e (by simp [he]))]
    simp

theorem finishGo_skip (n : Nat) (l rest : KeySequence) (hl : ∀ e ∈ l, e.state = .DownMatched)
    (hn : ∀ e ∈ l, (⟨e.key, .Up, 0⟩ : KeyEvent) ∉ rest) :
    finishGo (l.length + n) (l ++ rest) = l ++ finishGo n rest := by
  induction l with
  | nil => simp
  | cons e l ih =>
    have h1 := hl e (by simp)
    have hc : ((e :: (l ++ rest)).contains (⟨e.key, .Up, 0⟩ : KeyEvent)) = false := by
      rw [List.contains_eq_mem]
      simp only [List.mem_cons, List.mem_append, decide_eq_false_iff_not, not_or]
      refine ⟨?_, ?_, hn e (by simp)⟩
      · intro h; rw [← h] at h1; simp at h1
      · intro h; have := hl _ (List.mem_cons_of_mem _ h); simp at this
    have : (e :: l).length + n = (l.length + n) + 1 := by simp; omega
    rw [this, List.cons_append, finishGo, hc, h1]
    simp only [Bool.false_eq_true, if_false, Bool.or_true, beq_self_eq_true, if_true]
    rw [ih (fun e he => hl e (by simp [he])) (fun e he => hn e (by simp [he]))]
    have : ({ e with state := KeyState.DownMatched } : KeyEvent) = e := by cases e; simp at h1; rw [h1]
    simp [this]

section
variable {K : Key → Prop} (hK : RealKeys K)
include hK

/-- what the main loop does to the tracked keys and the output -/
def pressed (s : S) (ev : KeyEvent) : List OutputDown × KeySequence :=
  if isVirtualKey ev.key then (s.down, s.buf) else (pressDown s.down ev.key, s.buf ++ [ev])

/-- the state after the main loop -/
def pressResult (s : S) (ev : KeyEvent) (l : KeySequence) (a : List Key) (b : Bool) : S :=
  { s with
    anyM := a
    ub := b
    seq := l ++ [{ ev with state := .DownMatched }]
    down := (pressed s ev).1
    buf := (pressed s ev).2 }

omit hK in
theorem hasNonOptional_matched {l : KeySequence} (h : ∀ e ∈ l, e.state = .DownMatched) : hasNonOptional l = false := by
  unfold hasNonOptional
  rw [List.any_eq_false]
  intro x hx
  simp [isNonOptional, h x hx]

theorem mainLoop_press {c : Cfg} {H : Nat → Prop} (hc : Harmless K H c) {s : S} {ev : KeyEvent} {dev : Int} {u : Bool}
    {l : KeySequence} (hs : s.seq = l ++ [ev]) (hl : ∀ e ∈ l, e.state = .DownMatched ∧ K e.key)
    (hd : ev.state = .Down) (hk : K ev.key) (ha : ∀ i ∈ s.active, H i)
    (hh : ∀ x ∈ s.history, K x.key ∧ isNonOptional x = true) (hm : s.might = false) (ht : s.timeout = none)
    (hr : s.reapplied = false) (hdn : ∀ o ∈ s.down, o.temporarilyReleased = false) :
    ∃ a b, mainLoop c ev dev u s = pressResult s ev l a b := by
  have hsk : ∀ x ∈ s.seq, K x.key := by
    rw [hs]; intro x hx
    simp only [List.mem_append, List.mem_singleton] at hx
    rcases hx with hx | hx
    · exact (hl x hx).2
    · rw [hx]; exact hk
  have hsn : hasNonOptional s.seq = true := by
    rw [hs]; simp [hasNonOptional, isNonOptional, hd]
  have hnu : ∀ e ∈ l, (⟨e.key, .Up, 0⟩ : KeyEvent) ∉ [ev] := by
    intro e _ h
    simp only [List.mem_singleton] at h
    rw [← h] at hd; simp at hd
  have hce : [ev].contains (⟨ev.key, .Up, 0⟩ : KeyEvent) = false := by
    rw [List.contains_eq_mem]
    simp only [List.mem_singleton, decide_eq_false_iff_not]
    intro h; rw [← h] at hd; simp at hd
  have hafter : hasNonOptional (l ++ [{ ev with state := .DownMatched }]) = false := by
    apply hasNonOptional_matched
    intro e he
    simp only [List.mem_append, List.mem_singleton] at he
    rcases he with he | he
    · exact (hl e he).1
    · rw [he]
  obtain ⟨a, b, hmi⟩ := matchInput_foreign hK hc (s := s) (first := true) (dev := dev) (u := u) hsk hsn ha hh
  refine ⟨a, b, ?_⟩
  have hround : round c ev dev u s = (pressResult s ev l a b, !isVirtualKey ev.key) := by
    unfold round
    rw [hmi]
    simp only []
    unfold pressResult pressed
    cases hv : isVirtualKey ev.key with
    | true =>
      simp only [MIR.isMatched, Bool.not_false, Bool.and_self, if_true, Bool.not_true]
      unfold finishSequence
      simp only [hs, List.length_append]
      rw [finishGo_skip _ l [ev] (fun e he => (hl e he).1) hnu]
      have : finishGo [ev].length [ev] = [{ ev with state := .DownMatched }] := by
        rw [List.length_singleton, finishGo, hce, hd]; simp [finishGo]
      rw [this]
    | false =>
      simp only [MIR.isMatched, Bool.not_false, Bool.false_and, Bool.false_eq_true, if_false]
      have : (MIR.noMatch == MIR.might) = false := rfl
      rw [this]
      simp only [Bool.false_eq_true, if_false, retryStart, hm]
      simp only [timeoutMatched, ht, notTimeoutFailed, applyResult, forwardFromSequence, hs]
      rw [forwardGo_skip _ _ l [ev] (fun e he => (hl e he).1) hnu]
      unfold forwardGo
      simp only [hd, hce]
      have hp := @updateOutput_press { s with anyM := a, ub := b } ev hd (hK _ hk).2.2 hr hdn
      simp only [ht] at hp
      simp only [hm, hs] at hp ⊢
      simp [hp]
  unfold mainLoop
  rw [dif_pos hsn]
  rw [hround]
  cases hv : isVirtualKey ev.key with
  | true => simp
  | false =>
    simp only [Bool.not_false, dite_true]
    unfold mainLoop
    rw [dif_neg]
    show ¬ hasNonOptional (l ++ [{ ev with state := .DownMatched }]) = true
    rw [hafter]; simp

/-! ### releases -/

/-- the output keys tracked while keys are only forwarded -/
structure DownInv (d : List OutputDown) : Prop where
  own : ∀ o ∈ d, o.trigger = .key o.key ∧ o.temporarilyReleased = false ∧ o.ctx = -1
  nodup : (d.map (·.key)).Nodup

omit hK in
theorem releasedEvents {d : List OutputDown} (h : DownInv d) (k : Key) :
    (((d.filter (fun o => !staysDown k (-1) o)).reverse.filter (fun o => !o.temporarilyReleased)).map
      (fun o => (⟨o.key, .Up, 0⟩ : KeyEvent))) = if k ∈ d.map (·.key) then [⟨k, .Up, 0⟩] else [] := by
  have hf : ∀ d, DownInv d → (d.filter (fun o => !staysDown k (-1) o)).map (·.key) = if k ∈ d.map (·.key) then [k] else [] := by
    intro d h
    induction d with
    | nil => simp
    | cons o d ih =>
      have ho := h.own o (by simp)
      have ih := ih ⟨fun o ho => h.own o (by simp [ho]), (List.nodup_cons.1 h.nodup).2⟩
      have hst : staysDown k (-1) o = !(o.key == k) := by
        unfold staysDown
        rw [ho.1, ho.2.2]
        show (if (o.key == k) = true then _ else _) = _
        cases hok : (o.key == k) with
        | true => simp
        | false => simp
      rw [List.filter_cons, hst]
      have hnd := (List.nodup_cons.1 h.nodup).1
      by_cases hok : o.key = k
      · subst hok
        rw [if_neg hnd] at ih
        simp only [beq_self_eq_true, Bool.not_true, Bool.not_false, if_true, List.map_cons, ih, List.mem_cons, true_or]
      · have h1 : (o.key == k) = false := beq_eq_false_iff_ne.2 hok
        have h2 : ¬ k = o.key := fun h => hok h.symm
        simp only [h1, Bool.not_false, Bool.not_true, Bool.false_eq_true, if_false, ih, List.map_cons, List.mem_cons, h2, false_or]
  have h1 : ((d.filter (fun o => !staysDown k (-1) o)).reverse.filter (fun o => !o.temporarilyReleased)) =
      (d.filter (fun o => !staysDown k (-1) o)).reverse := by
    rw [List.filter_eq_self]
    intro o ho
    simp only [List.mem_reverse, List.mem_filter] at ho
    simp [(h.own o ho.1).2.1]
  rw [h1]
  have h2 : (fun o : OutputDown => (⟨o.key, .Up, 0⟩ : KeyEvent)) = (fun k : Key => (⟨k, .Up, 0⟩ : KeyEvent)) ∘ (·.key) := rfl
  rw [h2, ← List.map_map, List.map_reverse, hf d h]
  split <;> simp

/-- the state after forwarding the release of a key -/
def releaseResult (s : S) (k : Key) : S :=
  { s with
    down := s.down.filter (fun o => o.key != k)
    buf := s.buf ++ if k ∈ s.down.map (·.key) then [⟨k, .Up, 0⟩] else [] }

omit hK in
theorem releaseTriggered_eval {s : S} (h : DownInv s.down) (ht : s.timeout = none) (k : Key) :
    releaseTriggered s k (-1) = releaseResult s k := by
  unfold releaseTriggered releaseResult
  simp only [releasedEvents h k, ht]
  have : s.down.filter (staysDown k (-1)) = s.down.filter (fun o => o.key != k) := by
    apply List.filter_congr
    intro o ho
    have := h.own o ho
    unfold staysDown
    rw [this.1, this.2.2]
    show (if (o.key == k) = true then _ else _) = _
    cases hok : (o.key == k) with
    | true =>
      have : (o.key != k) = false := by simpa using hok
      rw [this]; simp
    | false =>
      have : (o.key != k) = true := by simpa using hok
      rw [this]; simp
  rw [this]

omit hK in
theorem releaseResult_of_not {s : S} {k : Key} (h : k ∉ s.down.map (·.key)) : releaseResult s k = s := by
  unfold releaseResult
  rw [if_neg h, List.append_nil]
  have : s.down.filter (fun o => o.key != k) = s.down := by
    rw [List.filter_eq_self]
    intro o ho
    simp only [bne_iff_ne, ne_eq]
    intro hk
    exact h (List.mem_map.2 ⟨o, ho, hk⟩)
  rw [this]

theorem mainLoop_release {c : Cfg} {H : Nat → Prop} (hc : Harmless K H c) {s : S} {ev : KeyEvent} {dev : Int} {u : Bool}
    {l : KeySequence} (hs : s.seq = l ++ [ev]) (hl : ∀ e ∈ l, e.state = .DownMatched ∧ K e.key)
    (hnl : ev.key ∉ l.map (·.key))
    (hd : ev.state = .Up) (hk : K ev.key) (ha : ∀ i ∈ s.active, H i)
    (hh : ∀ x ∈ s.history, K x.key ∧ isNonOptional x = true) (hm : s.might = false) (ht : s.timeout = none)
    (hdn : DownInv s.down) (hv : isVirtualKey ev.key = true → ev.key ∉ s.down.map (·.key)) :
    ∃ a b, mainLoop c ev dev u s = { releaseResult s ev.key with seq := l, anyM := a, ub := b } := by
  have hsk : ∀ x ∈ s.seq, K x.key := by
    rw [hs]; intro x hx
    simp only [List.mem_append, List.mem_singleton] at hx
    rcases hx with hx | hx
    · exact (hl x hx).2
    · rw [hx]; exact hk
  have hsn : hasNonOptional s.seq = true := by
    rw [hs]; simp [hasNonOptional, isNonOptional, hd]
  have hnu : ∀ e ∈ l, (⟨e.key, .Up, 0⟩ : KeyEvent) ∉ [ev] := by
    intro e he h
    simp only [List.mem_singleton] at h
    apply hnl
    rw [← h]
    exact List.mem_map.2 ⟨e, he, rfl⟩
  have hafter : hasNonOptional l = false := hasNonOptional_matched (fun e he => (hl e he).1)
  have hto : (ev.key == Key.timeout) = false := beq_eq_false_iff_ne.2 (hK _ hk).2.2
  obtain ⟨a, b, hmi⟩ := matchInput_foreign hK hc (s := s) (first := true) (dev := dev) (u := u) hsk hsn ha hh
  refine ⟨a, b, ?_⟩
  have hround : round c ev dev u s = ({ releaseResult s ev.key with seq := l, anyM := a, ub := b }, !isVirtualKey ev.key) := by
    unfold round
    rw [hmi]
    simp only []
    cases hvv : isVirtualKey ev.key with
    | true =>
      rw [releaseResult_of_not (hv hvv)]
      simp only [MIR.isMatched, Bool.not_false, Bool.and_self, if_true, Bool.not_true]
      unfold finishSequence
      simp only [hs, List.length_append]
      rw [finishGo_skip _ l [ev] (fun e he => (hl e he).1) hnu]
      have : finishGo [ev].length [ev] = [] := by
        rw [List.length_singleton, finishGo, hd, hto]; simp [finishGo]
      rw [this, List.append_nil]
    | false =>
      simp only [MIR.isMatched, Bool.not_false, Bool.false_and, Bool.false_eq_true, if_false]
      have : (MIR.noMatch == MIR.might) = false := rfl
      rw [this]
      simp only [Bool.false_eq_true, if_false, retryStart, hm]
      simp only [timeoutMatched, ht, notTimeoutFailed, applyResult, forwardFromSequence, hs]
      rw [forwardGo_skip _ _ l [ev] (fun e he => (hl e he).1) hnu]
      rw [forwardGo, hd]
      have hp := @releaseTriggered_eval { s with anyM := a, ub := b } hdn ht ev.key
      simp only [ht] at hp
      simp only [hm, hs] at hp ⊢
      simp [hp, releaseResult, hm, ht]
  unfold mainLoop
  rw [dif_pos hsn]
  rw [hround]
  cases hv : isVirtualKey ev.key with
  | true => simp
  | false =>
    simp only [Bool.not_false, dite_true]
    unfold mainLoop
    rw [dif_neg]
    rw [hafter]; simp

/-! ### the invariant -/

/-- the state of a stage to which only keys without mappings were input -/
structure TInv (K : Key → Prop) (H : Nat → Prop) (c : Cfg) (s : S) : Prop where
  act : ∀ i ∈ s.active, H i
  client : ∀ i ∈ s.activeClient, ∀ j, fallthroughContext c.contexts i = some j → H j
  might : s.might = false
  timeout : s.timeout = none
  onRel : s.onRelease = []
  buf : s.buf = []
  reapplied : s.reapplied = false
  seq : ∀ e ∈ s.seq, e.state = .DownMatched ∧ K e.key
  nodup : (s.seq.map (·.key)).Nodup
  hist : ∀ e ∈ s.history, K e.key ∧ isNonOptional e = true
  down : DownInv s.down
  keys : ∀ k, k ∈ s.down.map (·.key) ↔ k ∈ s.seq.map (·.key) ∧ isVirtualKey k = false

omit hK in
theorem pressed_of_matched {l : KeySequence} (h : ∀ e ∈ l, e.state = .DownMatched) (s : S) (hs : s.seq = l) (k : Key) :
    isPhysicallyPressed s k = true ↔ k ∈ l.map (·.key) := by
  unfold isPhysicallyPressed rfindKey
  rw [hs]
  split
  · next e he =>
    have hm := List.mem_of_find?_eq_some he
    have hp := List.find?_some he
    simp only [beq_iff_eq] at hp
    simp only [List.mem_reverse] at hm
    rw [h e hm]
    constructor
    · intro _; exact List.mem_map.2 ⟨e, hm, hp⟩
    · intro _; rfl
  · next he =>
    rw [List.find?_eq_none] at he
    constructor
    · simp
    · intro hk
      obtain ⟨e, h1, h2⟩ := List.mem_map.1 hk
      have := he e (by simpa using h1)
      simp [h2] at this

omit hK in
theorem eraseP_key_keys {l : KeySequence} (h : (l.map (·.key)).Nodup) (k : Key) :
    (l.eraseP (·.key == k)).map (·.key) = (l.map (·.key)).erase k := by
  induction l with
  | nil => rfl
  | cons e l ih =>
    have ih := ih (List.nodup_cons.1 h).2
    rw [List.eraseP_cons, List.map_cons, List.erase_cons]
    by_cases hk : e.key = k
    · subst hk; simp
    · have : (e.key == k) = false := beq_eq_false_iff_ne.2 hk
      rw [this]; simp [ih]

omit hK in
theorem rEraseKey_keys {l : KeySequence} (h : (l.map (·.key)).Nodup) (k : Key) :
    ((rEraseKey l k).map (·.key)).Nodup ∧ ∀ x, x ∈ (rEraseKey l k).map (·.key) ↔ x ∈ l.map (·.key) ∧ x ≠ k := by
  have hr : (l.reverse.map (·.key)).Nodup := by
    rw [List.map_reverse]; exact List.pairwise_reverse.2 (h.imp fun a => a.symm)
  unfold rEraseKey
  rw [List.map_reverse, eraseP_key_keys hr]
  refine ⟨List.pairwise_reverse.2 ((hr.erase k).imp fun a => a.symm), ?_⟩
  intro x
  rw [List.mem_reverse, hr.mem_erase_iff]
  simp [And.comm]

omit hK in
theorem pressDown_inv {d : List OutputDown} (h : DownInv d) (k : Key) :
    DownInv (pressDown d k) ∧ ∀ x, x ∈ (pressDown d k).map (·.key) ↔ x ∈ d.map (·.key) ∨ x = k := by
  have hfind : (d.find? (·.key == k)).isNone = true ↔ k ∉ d.map (·.key) := by
    rw [Option.isNone_iff_eq_none, List.find?_eq_none]
    simp only [List.mem_map, not_exists, not_and, beq_iff_eq]
  unfold pressDown
  split
  · next hn =>
    have hn := hfind.1 hn
    refine ⟨⟨?_, ?_⟩, ?_⟩
    · intro o ho
      simp only [List.mem_append, List.mem_singleton] at ho
      rcases ho with ho | ho
      · exact h.own o ho
      · subst ho; exact ⟨rfl, rfl, rfl⟩
    · rw [List.map_append, List.nodup_append]
      refine ⟨h.nodup, by simp, ?_⟩
      intro a ha b hb
      simp only [List.map_cons, List.map_nil, List.mem_singleton] at hb
      subst hb
      intro hab; subst hab; exact hn ha
    · intro x; simp [List.map_append]
  · next hn =>
    have hn : k ∈ d.map (·.key) := by
      by_cases hk : k ∈ d.map (·.key)
      · exact hk
      · exact absurd (hfind.2 hk) hn
    have hmap : ∀ d : List OutputDown, (modFirst (·.key == k) (fun o => { o with temporarilyReleased := false, pressedTwice := true }) d).map (·.key) = d.map (·.key) := by
      intro d
      induction d with
      | nil => rfl
      | cons o d ih => unfold modFirst; split <;> simp [ih]
    have hmem : ∀ d : List OutputDown, ∀ o ∈ modFirst (·.key == k) (fun o => { o with temporarilyReleased := false, pressedTwice := true }) d,
        o ∈ d ∨ ∃ o' ∈ d, o = { o' with temporarilyReleased := false, pressedTwice := true } := by
      intro d
      induction d with
      | nil => intro o ho; simp [modFirst] at ho
      | cons a d ih =>
        intro o ho
        unfold modFirst at ho
        split at ho
        · simp only [List.mem_cons] at ho
          rcases ho with ho | ho
          · exact Or.inr ⟨a, by simp, ho⟩
          · exact Or.inl (by simp [ho])
        · simp only [List.mem_cons] at ho
          rcases ho with ho | ho
          · exact Or.inl (by simp [ho])
          · rcases ih o ho with h | ⟨o', h1, h2⟩
            · exact Or.inl (by simp [h])
            · exact Or.inr ⟨o', by simp [h1], h2⟩
    refine ⟨⟨?_, ?_⟩, ?_⟩
    · intro o ho
      rcases hmem d o ho with h1 | ⟨o', h1, h2⟩
      · exact h.own o h1
      · subst h2; have := h.own o' h1; exact ⟨this.1, rfl, this.2.2⟩
    · rw [hmap]; exact h.nodup
    · intro x
      rw [hmap]
      constructor
      · exact Or.inl
      · rintro (h | h)
        · exact h
        · rw [h]; exact hn

omit hK in
theorem unsuppress_inv {d : List OutputDown} (h : DownInv d) :
    DownInv (d.map (fun o => { o with suppressed := false })) ∧
      (d.map (fun o => { o with suppressed := false })).map (·.key) = d.map (·.key) := by
  have hm : (d.map (fun o => { o with suppressed := false })).map (·.key) = d.map (·.key) := by
    rw [List.map_map]; rfl
  refine ⟨⟨?_, by rw [hm]; exact h.nodup⟩, hm⟩
  intro o ho
  obtain ⟨o', h1, h2⟩ := List.mem_map.1 ho
  subst h2; exact h.own o' h1

omit hK in
theorem filter_inv {d : List OutputDown} (h : DownInv d) (k : Key) :
    DownInv (d.filter (fun o => o.key != k)) ∧
      ∀ x, x ∈ (d.filter (fun o => o.key != k)).map (·.key) ↔ x ∈ d.map (·.key) ∧ x ≠ k := by
  refine ⟨⟨fun o ho => h.own o (List.mem_filter.1 ho).1, ?_⟩, ?_⟩
  · exact h.nodup.sublist (List.filter_sublist.map _)
  · intro x
    simp only [List.mem_map, List.mem_filter, bne_iff_ne, ne_eq]
    constructor
    · rintro ⟨o, ⟨h1, h2⟩, h3⟩; exact ⟨⟨o, h1, h3⟩, h3 ▸ h2⟩
    · rintro ⟨⟨o, h1, h3⟩, h2⟩; exact ⟨o, ⟨h1, h3 ▸ h2⟩, h3⟩

omit hK in
/-- the end of `apply_input` -/
theorem finishInput_press {c : Cfg} {H : Nat → Prop} (hc : Harmless K H c) {s : S} {ev : KeyEvent} (hd : ev.state = .Down)
    (hseq : ∀ e ∈ s.seq, e.state = .DownMatched) (ht : s.timeout = none) (ha : ∀ i ∈ s.active, H i)
    (hcl : ∀ i ∈ s.activeClient, ∀ j, fallthroughContext c.contexts i = some j → H j) :
    ∃ r h b, (∀ i ∈ r, H i) ∧ (∀ e ∈ h, e ∈ s.history) ∧
      finishInput c s ev = { s with active := r, history := h, ub := b, reapplied := false } := by
  unfold finishInput
  simp only [hd]
  have : (KeyState.Down == KeyState.Up) = false := rfl
  rw [this]
  simp only [Bool.false_eq_true, if_false]
  obtain ⟨r, b, hr, he⟩ := updateActiveContexts_harmless hc s ha hcl
  rw [he]
  simp only []
  have hdw : s.seq.dropWhile (fun e => e.state == KeyState.UpMatched) = s.seq := by
    cases hq : s.seq with
    | nil => rfl
    | cons e l =>
      have := hseq e (by simp [hq])
      rw [List.dropWhile_cons, this]; rfl
  rw [hdw]
  have hif : (if s.seq.isEmpty = true then ({ s with active := r, ub := b, timeout := none } : S) else { s with active := r, ub := b }) =
      { s with active := r, ub := b } := by
    split
    · cases s; subst ht; rfl
    · rfl
  rw [hif]
  simp only []
  have hcm := cleanUpHistory_mem c r s.history
  generalize cleanUpHistory c r s.history = q at *
  obtain ⟨h, u⟩ := q
  exact ⟨r, h, b || u, hr, hcm, rfl⟩

omit hK in
theorem finishInput_released {c : Cfg} {H : Nat → Prop} (hc : Harmless K H c) {s : S} {ev : KeyEvent} (hd : ev.state = .Up)
    (hseq : ∀ e ∈ s.seq, e.state = .DownMatched) (ht : s.timeout = none) (ha : ∀ i ∈ s.active, H i)
    (hdn : DownInv s.down) (hk : ev.key ∉ s.down.map (·.key))
    (hcl : ∀ i ∈ s.activeClient, ∀ j, fallthroughContext c.contexts i = some j → H j) :
    ∃ r h b, (∀ i ∈ r, H i) ∧ (∀ e ∈ h, e ∈ s.history) ∧
      finishInput c s ev = { s with active := r, history := h, ub := b, reapplied := false } := by
  have : finishInput c s ev = finishInput c s ⟨ev.key, .Down, 0⟩ := by
    unfold finishInput
    simp only [hd, beq_self_eq_true, if_true]
    rw [releaseTriggered_eval hdn ht, releaseResult_of_not hk]
    rfl
  rw [this]
  exact finishInput_press hc rfl hseq ht ha hcl

/-- a repeat coming from another device than the one the key is repeated by -/
def swallowed (s : S) (dev : Int) : Prop := dev ≠ noDeviceIndex ∧ dev ≠ s.lastPressed ∧ dev ≠ s.lastRepeat

instance (s : S) (dev : Int) : Decidable (swallowed s dev) := inferInstanceAs (Decidable (_ ∧ _ ∧ _))

omit hK in
theorem mergeRepeat_press {H c} {s : S} (h : TInv K H c s) {ev : KeyEvent} (hd : ev.state = .Down) (dev : Int) :
    ∃ lp lr, lp = (if ev.key ∉ s.seq.map (·.key) ∧ dev ≠ noDeviceIndex then dev else s.lastPressed) ∧ mergeRepeat s ev dev =
      if ev.key ∈ s.seq.map (·.key) then
        if swallowed s dev then ({ s with lastPressed := lp, lastRepeat := lr }, true)
        else ({ s with lastPressed := lp, lastRepeat := lr, seq := rEraseKey s.seq ev.key }, false)
      else ({ s with lastPressed := lp, lastRepeat := lr }, false) := by
  unfold mergeRepeat
  have hp := pressed_of_matched (fun e he => (h.seq e he).1) s rfl ev.key
  have hm : ¬ s.might = true := by rw [h.might]; simp
  have hd' : (ev.state == KeyState.Down) = true := by rw [hd]; rfl
  rw [if_pos hd']
  by_cases hk : ev.key ∈ s.seq.map (·.key)
  · rw [if_pos (hp.2 hk), if_neg hm]
    simp only [if_pos hk]
    by_cases h1 : dev = noDeviceIndex
    · have hns : ¬ swallowed s dev := fun h => h.1 h1
      refine ⟨s.lastPressed, s.lastRepeat, by simp [hk], ?_⟩
      simp only [if_neg hns]
      subst h1
      simp
    · have h1' : (dev != noDeviceIndex) = true := by simpa using h1
      rw [h1']
      simp only [Bool.true_and]
      by_cases h2 : dev = s.lastPressed
      · refine ⟨s.lastPressed, dev, by simp [hk], ?_⟩
        have h2' : (dev == s.lastPressed) = true := by simpa using h2
        rw [if_pos h2', if_neg (by simp), if_neg (show ¬ swallowed s dev from fun h => h.2.1 h2)]
      · refine ⟨s.lastPressed, s.lastRepeat, by simp [hk], ?_⟩
        have h2' : ¬ (dev == s.lastPressed) = true := by simpa using h2
        rw [if_neg h2']
        by_cases h3 : dev = s.lastRepeat
        · rw [if_neg (by simp [h3]), if_neg (show ¬ swallowed s dev from fun h => h.2.2 h3)]
        · rw [if_pos (by simpa using h3), if_pos (show swallowed s dev from ⟨h1, h2, h3⟩)]
  · rw [if_neg (fun h => hk (hp.1 h))]
    simp only [if_neg hk]
    by_cases h1 : dev = noDeviceIndex
    · subst h1; exact ⟨s.lastPressed, s.lastRepeat, by simp, by simp⟩
    · refine ⟨dev, if dev == s.lastRepeat then noDeviceIndex else s.lastRepeat, by simp only [hk, not_false_eq_true, ne_eq, h1, and_self, if_true], ?_⟩
      simp [h1]

omit hK in
theorem TInv.congr {H c} {s s' : S} (h : TInv K H c s) (h1 : s'.active = s.active) (h2 : s'.activeClient = s.activeClient)
    (h3 : s'.might = s.might) (h4 : s'.timeout = s.timeout) (h5 : s'.onRelease = s.onRelease) (h6 : s'.buf = s.buf)
    (h7 : s'.reapplied = s.reapplied) (h8 : s'.seq = s.seq) (h9 : s'.history = s.history) (h10 : s'.down = s.down) :
    TInv K H c s' where
  act := by rw [h1]; exact h.act
  client := by rw [h2]; exact h.client
  might := by rw [h3]; exact h.might
  timeout := by rw [h4]; exact h.timeout
  onRel := by rw [h5]; exact h.onRel
  buf := by rw [h6]; exact h.buf
  reapplied := by rw [h7]; exact h.reapplied
  seq := by rw [h8]; exact h.seq
  nodup := by rw [h8]; exact h.nodup
  hist := by rw [h9]; exact h.hist
  down := by rw [h10]; exact h.down
  keys := by rw [h8, h10]; exact h.keys

/-- the part of `apply_input` after merging repeats, for a press -/
def pressTail (c : Cfg) (s : S) (ev : KeyEvent) (dev : Int) : S :=
  let s := { s with seq := s.seq ++ [ev] }
  let s := addToHistory c s ev
  let s := updateActiveContexts c s
  let s := beforeMatchUp s ev
  let s := { s with down := s.down.map (fun o => { o with suppressed := false }) }
  let isKeyUp := ev.state == .Up && ev.key != Key.timeout
  let s := mainLoop c ev dev isKeyUp s
  finishInput c s ev

omit hK in
theorem applyInput_eq (c : Cfg) (s : S) (ev : KeyEvent) (dev : Int) (ho : s.onRelease = []) (ht : s.timeout = none) :
    applyInput c s ev dev =
      match mergeRepeat { s with ub := if validInput ev then s.ub else true } ev dev with
      | (s, true) => s
      | (s, false) => pressTail c s ev dev := by
  have hco : continueOnRelease { s with ub := if validInput ev then s.ub else true } ev (-1) =
      ({ s with ub := if validInput ev then s.ub else true }, true) := by
    unfold continueOnRelease
    simp only [ho, List.find?_nil]
  have hsu : suppressTimeout { s with ub := if validInput ev then s.ub else true } ev =
      ({ s with ub := if validInput ev then s.ub else true }, false) := by
    unfold suppressTimeout
    simp only [ht]
  have : (if validInput ev = true then s else { s with ub := true }) =
      { s with ub := if validInput ev then s.ub else true } := by
    split <;> rfl
  unfold applyInput
  simp only [this]
  rw [hco]
  simp only []
  rw [hsu]
  rfl

/-- the state before the main loop -/
def loopStart (s : S) (q h : KeySequence) (r : List Nat) (b : Bool) : S :=
  { s with
    seq := q
    history := h
    active := r
    ub := b
    down := s.down.map (fun o => { o with suppressed := false }) }

theorem pressTail_spec {H c} (hc : Harmless K H c) {s : S} {ev : KeyEvent} (dev : Int) (hd : ev.state = .Down)
    (hk : K ev.key) (act : ∀ i ∈ s.active, H i)
    (client : ∀ i ∈ s.activeClient, ∀ j, fallthroughContext c.contexts i = some j → H j)
    (might : s.might = false) (timeout : s.timeout = none) (onRel : s.onRelease = []) (buf : s.buf = [])
    (reapplied : s.reapplied = false) (seq : ∀ e ∈ s.seq, e.state = .DownMatched ∧ K e.key)
    (nodup : (s.seq.map (·.key)).Nodup) (hist : ∀ e ∈ s.history, K e.key ∧ isNonOptional e = true)
    (down : DownInv s.down) (hn : ev.key ∉ s.seq.map (·.key))
    (keys : ∀ k, k ≠ ev.key → (k ∈ s.down.map (·.key) ↔ k ∈ s.seq.map (·.key) ∧ isVirtualKey k = false))
    (hv : isVirtualKey ev.key = true → ev.key ∉ s.down.map (·.key)) :
    let s' := pressTail c s ev dev
    TInv K H c { s' with buf := [] } ∧ (∀ x, x ∈ s'.seq.map (·.key) ↔ x ∈ s.seq.map (·.key) ∨ x = ev.key) ∧
      s'.buf = (if isVirtualKey ev.key then [] else [ev]) ∧ s'.lastPressed = s.lastPressed := by
  intro s'
  have hup : (ev.state == KeyState.Up) = false := by rw [hd]; rfl
  obtain ⟨h1, e1, m1⟩ := addToHistory_spec c { s with seq := s.seq ++ [ev] } ev
  have m1' : ∀ e ∈ h1, K e.key ∧ isNonOptional e = true := by
    intro e he
    rcases m1 e he with h | h
    · exact hist e h
    · subst h; exact ⟨hk, by simp [isNonOptional, hd]⟩
  obtain ⟨r2, b2, hr2, e2⟩ := updateActiveContexts_harmless hc { s with seq := s.seq ++ [ev], history := h1 } act client
  obtain ⟨hdn, hdk⟩ := unsuppress_inv down
  obtain ⟨a3, b3, e3⟩ := mainLoop_press hK hc (dev := dev) (u := (ev.state == .Up && ev.key != Key.timeout))
    (s := loopStart s (s.seq ++ [ev]) h1 r2 b2) rfl seq hd hk hr2 m1' might timeout reapplied
      (fun o ho => (hdn.own o ho).2.1)
  have hseq' : ∀ e ∈ s.seq ++ [{ ev with state := KeyState.DownMatched }], e.state = .DownMatched ∧ K e.key := by
    intro e he
    simp only [List.mem_append, List.mem_singleton] at he
    rcases he with he | he
    · exact seq e he
    · rw [he]; exact ⟨rfl, hk⟩
  have hs' : ∃ r h b, (∀ i ∈ r, H i) ∧ (∀ e ∈ h, e ∈ h1) ∧ s' =
      { pressResult (loopStart s (s.seq ++ [ev]) h1 r2 b2) ev s.seq a3 b3 with
        active := r
        history := h
        ub := b
        reapplied := false } := by
    have hb : ∀ s : S, beforeMatchUp s ev = s := by intro s; simp [beforeMatchUp, hup]
    have : s' = finishInput c (pressResult (loopStart s (s.seq ++ [ev]) h1 r2 b2) ev s.seq a3 b3) ev := by
      show pressTail c s ev dev = _
      unfold pressTail
      simp only [e1, e2, hb]
      rw [← e3]
      rfl
    rw [this]
    refine finishInput_press hc (s := pressResult (loopStart s (s.seq ++ [ev]) h1 r2 b2) ev s.seq a3 b3) hd ?_ ?_ ?_ ?_
    · exact fun e he => (hseq' e he).1
    · exact timeout
    · exact hr2
    · exact client
  obtain ⟨r, h, b, hr, hh, hs'⟩ := hs'
  rw [hs']
  have hkeys' : ∀ x, x ∈ (s.seq ++ [{ ev with state := KeyState.DownMatched }]).map (fun e : KeyEvent => e.key) ↔ x ∈ s.seq.map (·.key) ∨ x = ev.key := by
    intro x; simp [List.map_append]
  refine ⟨?_, hkeys', ?_, rfl⟩
  · refine ⟨hr, client, might, timeout, onRel, rfl, rfl, hseq', ?_, fun e he => m1' e (hh e he), ?_, ?_⟩
    · show ((s.seq ++ [{ ev with state := KeyState.DownMatched }]).map (fun e : KeyEvent => e.key)).Nodup
      rw [List.map_append, List.nodup_append]
      refine ⟨nodup, by simp, ?_⟩
      intro a ha b hb hab
      simp only [List.map_cons, List.map_nil, List.mem_singleton] at hb
      subst hb; subst hab; exact hn ha
    · show DownInv (pressed _ ev).1
      unfold pressed
      split
      · exact hdn
      · exact (pressDown_inv hdn ev.key).1
    · intro k
      show k ∈ (pressed _ ev).1.map (·.key) ↔ k ∈ (s.seq ++ [{ ev with state := KeyState.DownMatched }]).map (fun e : KeyEvent => e.key) ∧ _
      rw [hkeys']
      unfold pressed
      split
      · next hvv =>
        simp only [loopStart]
        rw [hdk]
        by_cases hke : k = ev.key
        · subst hke
          simp [hv hvv, hvv]
        · rw [keys k hke]; simp [hke]
      · next hvv =>
        simp only [loopStart]
        rw [(pressDown_inv hdn ev.key).2, hdk]
        by_cases hke : k = ev.key
        · subst hke
          simp [hvv]
        · rw [keys k hke]; simp [hke]
  · show (pressed _ ev).2 = _
    unfold pressed
    split <;> simp [buf, loopStart]

theorem update_press {H c} (hc : Harmless K H c) {s : S} (h : TInv K H c s) {ev : KeyEvent} (dev : Int)
    (hd : ev.state = .Down) (hk : K ev.key) :
    TInv K H c (update c s ev dev).1 ∧
      (∀ x, x ∈ (update c s ev dev).1.seq.map (·.key) ↔ x ∈ s.seq.map (·.key) ∨ x = ev.key) ∧
      (update c s ev dev).2 =
        (if isVirtualKey ev.key = true ∨ (ev.key ∈ s.seq.map (·.key) ∧ swallowed s dev) then [] else [ev]) ∧
      (update c s ev dev).1.lastPressed =
        if ev.key ∉ s.seq.map (·.key) ∧ dev ≠ noDeviceIndex then dev else s.lastPressed := by
  have hu : ∃ b, update c s ev dev =
      (match mergeRepeat { s with exitPos := advanceExit s.exitPos ev, ub := b } ev dev with
        | (s, true) => ({ s with buf := [] }, s.buf)
        | (s, false) => ({ pressTail c s ev dev with buf := [] }, (pressTail c s ev dev).buf)) := by
    refine ⟨if validInput ev then s.ub else true, ?_⟩
    unfold update
    simp only []
    rw [applyInput_eq c { s with exitPos := advanceExit s.exitPos ev } ev dev h.onRel h.timeout]
    simp only []
    generalize mergeRepeat _ ev dev = mr
    obtain ⟨s1, b1⟩ := mr
    cases b1 <;> rfl
  obtain ⟨b, hu⟩ := hu
  rw [hu]
  have h' : TInv K H c { s with exitPos := advanceExit s.exitPos ev, ub := b } :=
    h.congr rfl rfl rfl rfl rfl rfl rfl rfl rfl rfl
  obtain ⟨lp, lr, hlp, hm⟩ := mergeRepeat_press h' hd dev
  have hsw : swallowed { s with exitPos := advanceExit s.exitPos ev, ub := b } dev ↔ swallowed s dev := Iff.rfl
  rw [hm]
  simp only [hsw]
  by_cases hheld : ev.key ∈ s.seq.map (·.key)
  · simp only [if_pos hheld]
    by_cases hs : swallowed s dev
    · simp only [if_pos hs]
      refine ⟨h.congr rfl rfl rfl rfl rfl h.buf.symm rfl rfl rfl rfl, ?_, ?_, hlp⟩
      · intro x
        constructor
        · exact Or.inl
        · rintro (hx | hx)
          · exact hx
          · rw [hx]; exact hheld
      · rw [if_pos (Or.inr ⟨hheld, hs⟩)]; exact h.buf
    · simp only [if_neg hs]
      obtain ⟨hrn, hrk⟩ := rEraseKey_keys h.nodup ev.key
      have := pressTail_spec hK hc (s := { s with
          exitPos := advanceExit s.exitPos ev
          ub := b
          lastPressed := lp
          lastRepeat := lr
          seq := rEraseKey s.seq ev.key }) dev hd hk h.act h.client h.might h.timeout h.onRel h.buf h.reapplied
        (fun e he => h.seq e (mem_rEraseKey he)) hrn h.hist h.down
        (fun hx => ((hrk _).1 hx).2 rfl)
        (fun k hke => by rw [h.keys, hrk]; simp [hke])
        (fun hv hx => by have := ((h.keys _).1 hx).2; rw [hv] at this; simp at this)
      refine ⟨this.1, ?_, ?_, this.2.2.2.trans hlp⟩
      · intro x
        rw [this.2.1]
        show x ∈ (rEraseKey s.seq ev.key).map (·.key) ∨ _ ↔ _
        rw [hrk]
        by_cases hxe : x = ev.key
        · simp [hxe]
        · simp [hxe]
      · rw [this.2.2.1]
        simp [hs]
  · simp only [if_neg hheld]
    have := pressTail_spec hK hc (s := { s with
          exitPos := advanceExit s.exitPos ev
          ub := b
          lastPressed := lp
          lastRepeat := lr }) dev hd hk h.act h.client h.might h.timeout h.onRel h.buf h.reapplied
        h.seq h.nodup h.hist h.down hheld (fun k _ => h.keys k)
        (fun hv hx => by have := ((h.keys _).1 hx).2; rw [hv] at this; simp at this)
    refine ⟨this.1, this.2.1, ?_, this.2.2.2.trans hlp⟩
    rw [this.2.2.1]
    simp [hheld]

omit hK in
theorem beforeMatchUp_release {s : S} {l : KeySequence} {ev : KeyEvent} (hd : ev.state = .Up) (hs : s.seq = l ++ [ev])
    (hl : ∀ e ∈ l, e.state = .DownMatched) (ht : s.timeout = none) (hm : s.might = false) :
    beforeMatchUp s ev = { s with seq := l.eraseP (·.key == ev.key) ++ [ev] } := by
  unfold beforeMatchUp
  have h1 : (ev.state == KeyState.Up) = true := by rw [hd]; rfl
  rw [if_pos h1]
  simp only [ht, Option.bind_none, Option.isSome_none, Bool.false_eq_true, if_false, hm, Bool.not_false, if_true]
  unfold findKey
  rw [hs]
  by_cases hk : ∃ e ∈ l, (e.key == ev.key) = true
  · obtain ⟨e, h2, h3⟩ := hk
    have hf : ∃ x ∈ l, (l ++ [ev]).find? (·.key == ev.key) = some x := by
      rw [List.find?_append]
      cases hq : l.find? (·.key == ev.key) with
      | none => rw [List.find?_eq_none] at hq; exact absurd h3 (hq e h2)
      | some x => exact ⟨x, List.mem_of_find?_eq_some hq, rfl⟩
    obtain ⟨x, h4, h5⟩ := hf
    rw [h5]
    simp only [hl x h4, beq_self_eq_true, if_true]
    rw [List.eraseP_append_left (a := e) h3 _ h2]
  · have hn : ∀ e ∈ l, ¬ (e.key == ev.key) = true := fun e he h => hk ⟨e, he, h⟩
    have hf : (l ++ [ev]).find? (·.key == ev.key) = some ev := by
      rw [List.find?_append]
      rw [List.find?_eq_none.2 hn]
      simp
    rw [hf]
    have h6 : (ev.state == KeyState.DownMatched) = false := by rw [hd]; rfl
    simp only [h6, Bool.false_eq_true, if_false]
    rw [List.eraseP_of_forall_not hn, ← hs]
    cases s; simp only [] at ht hm; subst ht; subst hm; rfl

theorem releaseTail_spec {H c} (hc : Harmless K H c) {s : S} (h : TInv K H c s) {ev : KeyEvent} (dev : Int) (hd : ev.state = .Up)
    (hk : K ev.key) :
    let s' := pressTail c s ev dev
    TInv K H c { s' with buf := [] } ∧ (∀ x, x ∈ s'.seq.map (·.key) ↔ x ∈ s.seq.map (·.key) ∧ x ≠ ev.key) ∧
      s'.buf = (if isVirtualKey ev.key = false ∧ ev.key ∈ s.seq.map (·.key) then [⟨ev.key, .Up, 0⟩] else []) ∧
      s'.lastPressed = s.lastPressed := by
  intro s'
  obtain ⟨h1, e1, m1⟩ := addToHistory_spec c { s with seq := s.seq ++ [ev] } ev
  have m1' : ∀ e ∈ h1, K e.key ∧ isNonOptional e = true := by
    intro e he
    rcases m1 e he with hh | hh
    · exact h.hist e hh
    · subst hh; exact ⟨hk, by simp [isNonOptional, hd]⟩
  obtain ⟨r2, b2, hr2, e2⟩ := updateActiveContexts_harmless hc { s with seq := s.seq ++ [ev], history := h1 } h.act h.client
  obtain ⟨hdn, hdk⟩ := unsuppress_inv h.down
  have hl : ∀ e ∈ s.seq.eraseP (·.key == ev.key), e.state = .DownMatched ∧ K e.key :=
    fun e he => h.seq e (List.mem_of_mem_eraseP he)
  have hek := eraseP_key_keys h.nodup ev.key
  have hmem : ∀ x, x ∈ (s.seq.eraseP (·.key == ev.key)).map (·.key) ↔ x ∈ s.seq.map (·.key) ∧ x ≠ ev.key := by
    intro x; rw [hek, h.nodup.mem_erase_iff]; exact And.comm
  have hvd : isVirtualKey ev.key = true → ev.key ∉ (s.down.map (fun o => { o with suppressed := false })).map (·.key) := by
    intro hv hx
    rw [hdk] at hx
    have := ((h.keys _).1 hx).2; rw [hv] at this; simp at this
  obtain ⟨a3, b3, e3⟩ := mainLoop_release hK hc (dev := dev) (u := (ev.state == .Up && ev.key != Key.timeout))
    (s := loopStart s (s.seq.eraseP (·.key == ev.key) ++ [ev]) h1 r2 b2) rfl hl (fun hx => ((hmem _).1 hx).2 rfl)
    hd hk hr2 m1' h.might h.timeout hdn hvd
  obtain ⟨hfi, hfk⟩ := filter_inv hdn ev.key
  have hs' : ∃ r h b, (∀ i ∈ r, H i) ∧ (∀ e ∈ h, e ∈ h1) ∧ s' =
      { releaseResult (loopStart s (s.seq.eraseP (·.key == ev.key) ++ [ev]) h1 r2 b2) ev.key with
        seq := s.seq.eraseP (·.key == ev.key)
        anyM := a3
        active := r
        history := h
        ub := b
        reapplied := false } := by
    have : s' = finishInput c { releaseResult (loopStart s (s.seq.eraseP (·.key == ev.key) ++ [ev]) h1 r2 b2) ev.key with
        seq := s.seq.eraseP (·.key == ev.key)
        anyM := a3
        ub := b3 } ev := by
      show pressTail c s ev dev = _
      unfold pressTail
      simp only [e1, e2]
      rw [beforeMatchUp_release (l := s.seq)
        (s := { s with seq := s.seq ++ [ev], history := h1, active := r2, ub := b2 }) hd rfl (fun e he => (h.seq e he).1) h.timeout h.might]
      rw [← e3]
      rfl
    rw [this]
    refine finishInput_released hc (s := { releaseResult (loopStart s (s.seq.eraseP (·.key == ev.key) ++ [ev]) h1 r2 b2) ev.key with
        seq := s.seq.eraseP (·.key == ev.key)
        anyM := a3
        ub := b3 }) hd ?_ ?_ ?_ ?_ ?_ ?_
    · exact fun e he => (hl e he).1
    · exact h.timeout
    · exact hr2
    · exact hfi
    · exact fun hx => ((hfk _).1 hx).2 rfl
    · exact h.client
  obtain ⟨r, hq, b, hr, hh, hs'⟩ := hs'
  rw [hs']
  refine ⟨?_, hmem, ?_, rfl⟩
  · refine ⟨hr, h.client, h.might, h.timeout, h.onRel, rfl, rfl, hl, ?_, fun e he => m1' e (hh e he), hfi, ?_⟩
    · show ((s.seq.eraseP (·.key == ev.key)).map (fun e : KeyEvent => e.key)).Nodup
      rw [hek]; exact h.nodup.erase _
    · intro k
      refine (hfk k).trans ?_
      rw [hdk, h.keys]
      show _ ↔ k ∈ (s.seq.eraseP (·.key == ev.key)).map (fun e : KeyEvent => e.key) ∧ _
      rw [hmem]
      constructor
      · rintro ⟨⟨p1, p2⟩, p3⟩; exact ⟨⟨p1, p3⟩, p2⟩
      · rintro ⟨⟨p1, p3⟩, p2⟩; exact ⟨⟨p1, p2⟩, p3⟩
  · show s.buf ++ (if ev.key ∈ (s.down.map (fun o => { o with suppressed := false })).map (fun o : OutputDown => o.key) then _ else _) = _
    rw [hdk, h.buf, List.nil_append]
    have := h.keys ev.key
    by_cases hx : ev.key ∈ s.down.map (·.key)
    · rw [if_pos hx, if_pos ((this.1 hx).symm)]
    · rw [if_neg hx, if_neg (fun hy => hx (this.2 hy.symm))]

theorem update_release' {H c} (hc : Harmless K H c) {s : S} (h : TInv K H c s) {ev : KeyEvent} (dev : Int)
    (hd : ev.state = .Up) (hk : K ev.key) :
    TInv K H c (update c s ev dev).1 ∧
      (∀ x, x ∈ (update c s ev dev).1.seq.map (·.key) ↔ x ∈ s.seq.map (·.key) ∧ x ≠ ev.key) ∧
      (update c s ev dev).2 =
        (if isVirtualKey ev.key = false ∧ ev.key ∈ s.seq.map (·.key) then [⟨ev.key, .Up, 0⟩] else []) ∧
      (update c s ev dev).1.lastPressed = s.lastPressed := by
  have hu : ∃ b lr, update c s ev dev =
      ({ pressTail c { s with exitPos := advanceExit s.exitPos ev, ub := b, lastRepeat := lr } ev dev with buf := [] },
        (pressTail c { s with exitPos := advanceExit s.exitPos ev, ub := b, lastRepeat := lr } ev dev).buf) := by
    refine ⟨if validInput ev then s.ub else true, if dev == s.lastRepeat then noDeviceIndex else s.lastRepeat, ?_⟩
    unfold update
    simp only []
    rw [applyInput_eq c { s with exitPos := advanceExit s.exitPos ev } ev dev h.onRel h.timeout]
    have hd' : ¬ (ev.state == KeyState.Down) = true := by rw [hd]; decide
    unfold mergeRepeat
    rw [if_neg hd']
  obtain ⟨b, lr, hu⟩ := hu
  rw [hu]
  exact releaseTail_spec hK hc (s := { s with exitPos := advanceExit s.exitPos ev, ub := b, lastRepeat := lr }) (h.congr rfl rfl rfl rfl rfl rfl rfl rfl rfl rfl) dev hd hk

end

end KM
