import Verif.Lemmas.RemapLookup
/-!
# A stage whose mappings replace keys follows the specification
-/
set_option linter.unusedSimpArgs false
namespace KM

/-- a key held in the output and the key which holds it -/
def heldBy (o : OutputDown) : Key × Key := (o.key, o.trigger.keyOf)

private theorem modFirst_heldBy (p : OutputDown → Bool) (a b : Bool) (d : List OutputDown) :
    (modFirst p (fun o => { o with temporarilyReleased := a, pressedTwice := b }) d).map heldBy = d.map heldBy := by
  induction d with
  | nil => rfl
  | cons o d ih => unfold modFirst; split <;> simp [ih, heldBy]

private theorem modFirst_tr (p : OutputDown → Bool) (b : Bool) (d : List OutputDown) (h : ∀ o ∈ d, o.temporarilyReleased = false) :
    ∀ o ∈ modFirst p (fun o => { o with temporarilyReleased := false, pressedTwice := b }) d, o.temporarilyReleased = false := by
  induction d with
  | nil => intro o ho; simp [modFirst] at ho
  | cons a d ih =>
    intro o ho
    have ih := ih (fun o ho => h o (by simp [ho]))
    unfold modFirst at ho
    split at ho
    · simp only [List.mem_cons] at ho
      rcases ho with ho | ho
      · subst ho; rfl
      · exact h o (by simp [ho])
    · simp only [List.mem_cons] at ho
      rcases ho with ho | ho
      · subst ho; exact h o (by simp)
      · exact ih o ho

/-- pressing one key in the output -/
theorem updateOutput_pressAll {s : S} {ev : KeyEvent} (hd : ev.state = .Down) (ht : ev.key ≠ Key.timeout)
    (hr : s.reapplied = false) (h : ∀ o ∈ s.down, o.temporarilyReleased = false) (trig : Trigger) (ctx : Int) :
    ∃ D, updateOutput s ev trig ctx = { s with down := D, buf := s.buf ++ [ev] } ∧
      D.map heldBy = pressAll (s.down.map heldBy) trig.keyOf [ev] ∧ ∀ o ∈ D, o.temporarilyReleased = false := by
  have ht' : (ev.key != Key.timeout) = true := by simpa using ht
  have hfind : ((s.down.map heldBy).any (fun o => o.1 == ev.key)) = !(s.down.find? (·.key == ev.key)).isNone := by
    rw [List.any_map, Bool.eq_iff_iff]
    simp [heldBy]
  unfold updateOutput
  simp only [hd]
  unfold updateOutputDown
  rw [reapplyLoop_none _ _ _ _ h]
  simp only [Bool.false_eq_true, if_false, ht', if_true, hr]
  unfold pressAll
  rw [List.foldl_cons, List.foldl_nil, hfind]
  split
  · next hn =>
    refine ⟨s.down ++ [{ key := ev.key, trigger := trig, ctx := ctx }], ?_, ?_, ?_⟩
    · cases s; subst hr; rfl
    · rw [hn]; simp [heldBy]
    · intro o ho
      simp only [List.mem_append, List.mem_singleton] at ho
      rcases ho with ho | ho
      · exact h o ho
      · subst ho; rfl
  · next hn =>
    refine ⟨modFirst (·.key == ev.key) (fun o => { o with temporarilyReleased := false, pressedTwice := true }) s.down, ?_, ?_, ?_⟩
    · cases s; subst hr; rfl
    · rw [modFirst_heldBy]
      have : (s.down.find? (·.key == ev.key)).isNone = false := by simpa using hn
      rw [this]; simp
    · exact modFirst_tr _ _ _ h

/-- applying an output which only presses keys -/
theorem applyOutput_pressAll {out : KeySequence} (ho : OnlyPresses out) (trig : Trigger) (ctx : Int) (s : S)
    (hr : s.reapplied = false) (h : ∀ o ∈ s.down, o.temporarilyReleased = false) :
    ∃ D, applyOutput s out trig ctx = { s with down := D, buf := s.buf ++ out } ∧
      D.map heldBy = pressAll (s.down.map heldBy) trig.keyOf out ∧ ∀ o ∈ D, o.temporarilyReleased = false := by
  induction out generalizing s with
  | nil => exact ⟨s.down, by simp [applyOutput], rfl, h⟩
  | cons e out ih =>
    obtain ⟨h1, h2, h3⟩ := ho e (by simp)
    obtain ⟨D, e1, e2, e3⟩ := updateOutput_pressAll (s := s) h1 h3 hr h trig ctx
    have ih := ih (fun e he => ho e (by simp [he])) { s with down := D, buf := s.buf ++ [e] } hr e3
    obtain ⟨D', e4, e5, e6⟩ := ih
    have hk : (e.key == Key.any) = false := beq_eq_false_iff_ne.2 h2
    refine ⟨D', ?_, ?_, e6⟩
    · rw [applyOutput, hk, h1]
      simp only [Bool.false_eq_true, if_false, reduceCtorEq, beq_iff_eq, Bool.false_and, show (KeyState.Down == KeyState.Not) = false from rfl]
      rw [e1, e4]
      simp
    · rw [e5]
      simp only [e2]
      unfold pressAll
      simp only [List.foldl_cons, List.foldl_nil]

/-! ### looking up -/

/-- the mapping found, when a key is pressed or released -/
theorem matchGo_singleKey {c : Cfg} {ev : KeyEvent} (hx : Replaceable ev.key) (hev : ev.state = .Down ∨ ev.state = .Up)
    {l : KeySequence} (hl : ∀ e ∈ l, e.state = .DownMatched ∧ Replaceable e.key) (hn : ev.key ∉ l.map (·.key)) {dev : Int} {u : Bool}
    (cands : List (Nat × Context × Input)) (hc : ∀ x ∈ cands, ∃ k, Replaceable k ∧ x.2.2.input = singleKey k) (s : S) :
    ∃ a b r, matchGo c true (l ++ [ev]) dev u cands s = ({ s with anyM := a, ub := b }, r) ∧
      match (if ev.state = .Down then cands.findSome? (candidateOutput c s.active ev.key) else none) with
      | some out => ∃ ref ci, r = .matched ref out (singleKey ev.key) ci
      | none => r = .noMatch := by
  induction cands generalizing s with
  | nil => exact ⟨s.anyM, s.ub, .noMatch, rfl, by split <;> simp_all⟩
  | cons x cands ih =>
    obtain ⟨ci, ctx, inp⟩ := x
    have ih := ih (fun x hx => hc x (by simp [hx]))
    obtain ⟨k, hk, hi⟩ := hc (ci, ctx, inp) (by simp)
    simp only at hi
    obtain ⟨a, hm⟩ := matchSeq_singleKey hk hx hev l hl hn
    have hnm : isNoMightMatch inp.input = false := by rw [hi]; rfl
    unfold matchGo
    simp only [hnm, Bool.false_and, Bool.false_eq_true, if_false, matchTarget]
    rw [hi, hm]
    simp only [List.findSome?_cons]
    by_cases hh : ev.state = .Down ∧ ev.key = k
    · obtain ⟨hd, hek⟩ := hh
      have hco : candidateOutput c s.active ev.key (ci, ctx, inp) = (findOutput c.contexts s.active ci ctx inp.outputIndex).1.map (·.2) := by
        unfold candidateOutput
        rw [if_pos (by rw [hi, hek])]
      simp only [hd, hek, and_self, if_true, Bool.true_and, Bool.not_false] at hco ⊢
      rw [if_neg (by simp), if_pos (by simp)]
      rw [hco]
      cases hf : findOutput c.contexts s.active ci ctx inp.outputIndex with
      | mk o u' =>
        cases o with
        | some p =>
          obtain ⟨ref, out⟩ := p
          exact ⟨a, _, _, rfl, ref, ci, rfl⟩
        | none =>
          obtain ⟨a', b', r', h1, h2⟩ := ih { s with anyM := a, ub := (s.ub || false) || u' }
          refine ⟨a', b', r', h1, ?_⟩
          simp only [hd, hek, if_true] at h2
          exact h2
    · have hco : ev.state = .Down → candidateOutput c s.active ev.key (ci, ctx, inp) = none := by
        intro hd
        unfold candidateOutput
        rw [if_neg]
        rw [hi]
        intro h
        unfold singleKey at h
        simp only [List.cons.injEq, KeyEvent.mk.injEq, and_true] at h
        exact hh ⟨hd, h.1.symm⟩
      simp only [if_neg hh]
      rw [if_neg (by simp), if_neg (by simp)]
      obtain ⟨a', b', r', h1, h2⟩ := ih { s with anyM := a, ub := s.ub || false }
      refine ⟨a', b', r', h1, ?_⟩
      by_cases hd : ev.state = .Down
      · rw [if_pos hd] at h2 ⊢
        rw [hco hd]
        exact h2
      · rw [if_neg hd] at h2 ⊢
        exact h2

/-- the state of the stage and of the specification -/
structure RInv (c : Cfg) (s : S) (r : Remapper) : Prop where
  ctxs : c.contexts = r.contexts.map Context.sorted
  nmm : c.hasNoMightMatch = false
  repl : ∀ ctx ∈ r.contexts, ctx.OnlyReplaces
  uniq : CommandsUnique r.contexts
  stops : ∀ i < r.contexts.length, ∃ j, FallsTo r.contexts i j
  client : s.activeClient = r.client
  clientSorted : r.client.Pairwise (· ≤ ·)
  clientLt : ∀ i ∈ r.client, i < r.contexts.length
  might : s.might = false
  timeout : s.timeout = none
  onRel : s.onRelease = []
  buf : s.buf = []
  reapplied : s.reapplied = false
  hist : s.history = []
  seq : ∀ e ∈ s.seq, e.state = .DownMatched ∧ Replaceable e.key
  held : s.seq.map (·.key) = r.held
  nodup : r.held.Nodup
  down : s.down.map heldBy = r.outs
  tr : ∀ o ∈ s.down, o.temporarilyReleased = false
  lp : s.lastPressed = r.lastPressed
  lr : s.lastRepeat = r.lastRepeat

theorem RInv.harmless {c s r} (h : RInv c s r) : Harmless (fun _ => False) (fun _ => True) c := by
  intro j ctx _ hj inp hinp
  rw [h.ctxs, List.getElem?_map] at hj
  obtain ⟨c0, h1, h2⟩ := Option.map_eq_some_iff.1 hj
  subst h2
  obtain ⟨k, hk, hi⟩ := (h.repl c0 (List.mem_of_getElem? h1)).inputs inp hinp
  rw [hi]
  refine ⟨?_, ?_⟩
  · intro x hx
    simp only [singleKey, List.mem_cons, List.not_mem_nil, or_false] at hx
    rcases hx with rfl | rfl <;> exact ⟨fun h => h, hk.2.1⟩
  · simp only [singleKey, List.head?_cons, Option.map_some, ne_eq, Option.some.injEq]
    exact hk.2.2.2

private theorem updateActive_eq {c : Cfg} (hc : Harmless (fun _ => False) (fun _ => True) c) (s : S) {r : List Nat}
    (h : computeActive c.contexts s.seq s.activeClient [] = some r) :
    ∃ b, updateActiveContexts c s = { s with active := r, ub := b } := by
  unfold updateActiveContexts
  rw [h]
  simp only []
  generalize mergeContexts s.active r = da
  obtain ⟨d, a⟩ := da
  simp only []
  obtain ⟨b1, h1⟩ := foldContextActive_harmless hc ⟨Key.ContextActive, .Up, 0⟩ d (fun _ _ => trivial) { s with active := r }
  rw [h1]
  obtain ⟨b2, h2⟩ := foldContextActive_harmless hc ⟨Key.ContextActive, .Down, 0⟩ a (fun _ _ => trivial) { s with active := r, ub := b1 }
  exact ⟨b2, h2⟩

private theorem rEraseKey_erase {l : KeySequence} (h : (l.map (·.key)).Nodup) (k : Key) :
    (rEraseKey l k).map (·.key) = (l.map (·.key)).erase k := by
  have hr : (l.reverse.map (·.key)).Nodup := by
    rw [List.map_reverse]; exact List.pairwise_reverse.2 (h.imp fun a => a.symm)
  unfold rEraseKey
  rw [List.map_reverse, eraseP_key_keys hr, hr.erase_eq_filter, h.erase_eq_filter, List.map_reverse, List.filter_reverse,
    List.reverse_reverse]

/-- the main loop, when a key is pressed -/
private theorem mainLoop_replace {c : Cfg} {cs : List Context} (hcs : c.contexts = cs.map Context.sorted)
    (hrep : ∀ ctx ∈ cs, ctx.OnlyReplaces) (hu : CommandsUnique cs) {s : S} {ev : KeyEvent} {dev : Int} {u : Bool}
    (hin : ∀ j ∈ s.active, ∃ ctx, cs[j]? = some ctx ∧ ctx.fallthrough = false)
    {l : KeySequence} (hs : s.seq = l ++ [ev]) (hl : ∀ e ∈ l, e.state = .DownMatched ∧ Replaceable e.key)
    (hd : ev.state = .Down) (hx : Replaceable ev.key) (hn : ev.key ∉ l.map (·.key)) (hm : s.might = false)
    (ht : s.timeout = none) (hr : s.reapplied = false) (htr : ∀ o ∈ s.down, o.temporarilyReleased = false) :
    let out := match replacementFor cs s.active dev ev.key with
      | some out => out
      | none => if isVirtualKey ev.key then [] else [ev]
    ∃ a b D, mainLoop c ev dev u s = { s with
        anyM := a
        ub := b
        seq := l ++ [{ ev with state := .DownMatched }]
        down := D
        buf := s.buf ++ out } ∧
      D.map heldBy = pressAll (s.down.map heldBy) ev.key out ∧ ∀ o ∈ D, o.temporarilyReleased = false := by
  intro out
  have hsn : hasNonOptional s.seq = true := by
    rw [hs]; simp [hasNonOptional, isNonOptional, hd]
  have hnu : ∀ e ∈ l, (⟨e.key, .Up, 0⟩ : KeyEvent) ∉ [ev] := by
    intro e _ h
    simp only [List.mem_singleton] at h
    rw [← h] at hd; simp at hd
  have hce : [ev].contains (⟨ev.key, .Up, 0⟩ : KeyEvent) = false := by
    rw [List.contains_eq_mem]
    simp only [List.mem_singleton, decide_eq_false_iff_not]
    intro h; rw [← h] at hd; simp at hd
  have hafter : hasNonOptional (l ++ [{ ev with state := .DownMatched }]) = false := by
    apply hasNonOptional_matched
    intro e he
    simp only [List.mem_append, List.mem_singleton] at he
    rcases he with he | he
    · exact (hl e he).1
    · rw [he]
  have hfin : finishGo (l ++ [ev]).length (l ++ [ev]) = l ++ [{ ev with state := .DownMatched }] := by
    rw [List.length_append, finishGo_skip _ l [ev] (fun e he => (hl e he).1) hnu]
    have : finishGo [ev].length [ev] = [{ ev with state := .DownMatched }] := by
      rw [List.length_singleton, finishGo, hce, hd]; simp [finishGo]
    rw [this]
  have hto : (ev.key == Key.timeout) = false := beq_eq_false_iff_ne.2 hx.2.2.1
  have hcand : ∀ x ∈ candidates c.contexts s.active dev, ∃ k, Replaceable k ∧ x.2.2.input = singleKey k := by
    intro x hx'
    obtain ⟨h1, h2, _, h4⟩ := candidates_mem hx'
    rw [hcs, List.getElem?_map] at h2
    obtain ⟨c0, h5, h6⟩ := Option.map_eq_some_iff.1 h2
    rw [← h6] at h4
    exact (hrep c0 (List.mem_of_getElem? h5)).inputs x.2.2 h4
  have hmi : ∃ a b r, matchInput c s true (l ++ [ev]) dev u = ({ s with anyM := a, ub := b }, r) ∧
      match replacementFor cs s.active dev ev.key with
      | some out => ∃ ref ci, r = .matched ref out (singleKey ev.key) ci
      | none => r = .noMatch := by
    unfold matchInput
    simp only []
    obtain ⟨a, b, r, h1, h2⟩ := matchGo_singleKey (c := c) hx (Or.inl hd) hl hn (dev := dev) (u := u) _ hcand
      { s with ub := s.ub || ((!s.active.isEmpty && (decide (64 ≤ dev) || decide (dev < -2))) ||
        s.active.any (fun i => decide (c.contexts.length ≤ i))) }
    rw [if_pos hd, candidates_output hcs hu hin] at h2
    exact ⟨a, b, r, h1, h2⟩
  obtain ⟨a, b, r, hmi, hres⟩ := hmi
  rw [← hs] at hmi
  have hround : ∃ D cont, round c ev dev u s = ({ s with
        anyM := a
        ub := b
        seq := l ++ [{ ev with state := .DownMatched }]
        down := D
        buf := s.buf ++ out }, cont) ∧
      D.map heldBy = pressAll (s.down.map heldBy) ev.key out ∧ ∀ o ∈ D, o.temporarilyReleased = false := by
    unfold round
    rw [hmi]
    simp only []
    cases hrep' : replacementFor cs s.active dev ev.key with
    | some o =>
      have hout : out = o := by show (match replacementFor cs s.active dev ev.key with | some out => out | none => _) = o; rw [hrep']
      rw [hrep'] at hres
      obtain ⟨ref, ci, rfl⟩ := hres
      have hpress : OnlyPresses o := by
        unfold replacementFor at hrep'
        obtain ⟨j, hj, h1⟩ := List.exists_of_findSome?_eq_some hrep'
        obtain ⟨ctx, h2, h3⟩ := Option.bind_eq_some_iff.1 h1
        split at h3
        · obtain ⟨m, hm1, hm2⟩ := List.exists_of_findSome?_eq_some h3
          split at hm2
          · unfold mappingOutput at hm2
            split at hm2
            · exact (hrep ctx (List.mem_of_getElem? h2)).outputs _ (List.mem_of_getElem? hm2)
            · unfold commandOutput at hm2
              obtain ⟨j', _, h5⟩ := List.exists_of_findSome?_eq_some hm2
              obtain ⟨ctx', h6, h7⟩ := Option.bind_eq_some_iff.1 h5
              obtain ⟨co, h8, h9⟩ := Option.map_eq_some_iff.1 h7
              rw [← h9]
              exact (hrep ctx' (List.mem_of_getElem? h6)).commands _ (List.mem_of_find?_eq_some h8)
          · simp at hm2
        · simp at h3
      simp only [MIR.isMatched, Bool.not_true, Bool.and_false, Bool.false_eq_true, if_false]
      have hne : (MIR.matched ref o (singleKey ev.key) ci == MIR.might) = false := rfl
      rw [hne]
      simp only [Bool.false_eq_true, if_false, retryStart, timeoutMatched, ht, notTimeoutFailed, applyResult]
      have htrig : chooseTrigger { s with anyM := a, ub := b, timeout := none } ev o (singleKey ev.key) = .seq (singleKey ev.key) := by
        have hko : (Trigger.seq (singleKey ev.key)).keyOf = ev.key := rfl
        have hka : (ev.key == Key.any) = false := beq_eq_false_iff_ne.2 hx.2.1
        have hcause : causeOf { s with anyM := a, ub := b, timeout := none } ev (singleKey ev.key) = .seq (singleKey ev.key) := by
          unfold causeOf
          simp only [hko, hka, hto, Bool.or_self, Bool.false_eq_true, if_false]
        unfold chooseTrigger
        simp only [hcause, hko]
        have hp : isPhysicallyPressed { s with anyM := a, ub := b, timeout := none } ev.key = true := by
          unfold isPhysicallyPressed rfindKey
          simp [hs, hd]
        rw [hp]
        rfl
      rw [htrig]
      obtain ⟨D, e1, e2, e3⟩ := applyOutput_pressAll hpress (.seq (singleKey ev.key)) (ci : Int) { s with anyM := a, ub := b, timeout := none } hr htr
      refine ⟨D, true, ?_, ?_, e3⟩
      · rw [e1, hout]
        simp only [finishSequence, hs, hfin]
        simp [← ht, ← hm]
      · rw [hout]; exact e2
    | none =>
      have hout : out = if isVirtualKey ev.key then [] else [ev] := by
        show (match replacementFor cs s.active dev ev.key with | some out => out | none => _) = _; rw [hrep']
      rw [hrep'] at hres
      simp only at hres
      subst hres
      cases hv : isVirtualKey ev.key with
      | true =>
        simp only [MIR.isMatched, Bool.not_false, Bool.and_self, if_true]
        refine ⟨s.down, false, ?_, ?_, htr⟩
        · rw [hout, hv]
          unfold finishSequence
          simp only [hs, hfin, if_true, List.append_nil]
        · rw [hout, hv]; rfl
      | false =>
        simp only [MIR.isMatched, Bool.not_false, Bool.false_and, Bool.false_eq_true, if_false]
        have : (MIR.noMatch == MIR.might) = false := rfl
        rw [this]
        simp only [Bool.false_eq_true, if_false, retryStart, hm]
        simp only [timeoutMatched, ht, notTimeoutFailed, applyResult, forwardFromSequence, hs]
        rw [forwardGo_skip _ _ l [ev] (fun e he => (hl e he).1) hnu]
        unfold forwardGo
        simp only [hd, hce]
        obtain ⟨D, e1, e2, e3⟩ := updateOutput_pressAll (s := { s with anyM := a, ub := b }) hd hx.2.2.1 hr htr (.key ev.key) (-1)
        simp only [ht, hm, hs] at e1
        refine ⟨D, true, ?_, ?_, e3⟩
        · simp [e1, hout, hv, hm, ht]
        · rw [hout, hv]; exact e2
  obtain ⟨D, cont, hround, h1, h2⟩ := hround
  refine ⟨a, b, D, ?_, h1, h2⟩
  unfold mainLoop
  rw [dif_pos hsn, hround]
  cases cont with
  | false => simp
  | true =>
    simp only [dite_true]
    unfold mainLoop
    rw [dif_neg]
    show ¬ hasNonOptional (l ++ [{ ev with state := .DownMatched }]) = true
    rw [hafter]; simp

/-- a release, applied to the keys held in the output -/
private def releaseAll (s : S) (k : Key) : S :=
  { s with
    down := s.down.filter (fun o => o.trigger.keyOf != k)
    buf := s.buf ++ (((s.down.map heldBy).filter (fun o => o.2 == k)).reverse.map (fun o => ⟨o.1, .Up, 0⟩)) }

private theorem releaseTriggered_all {s : S} (htr : ∀ o ∈ s.down, o.temporarilyReleased = false) (ht : s.timeout = none)
    {k : Key} (hk : k ≠ Key.ContextActive) : releaseTriggered s k (-1) = releaseAll s k := by
  have hst : staysDown k (-1) = fun o : OutputDown => o.trigger.keyOf != k := by
    funext o
    unfold staysDown
    by_cases h : o.trigger.keyOf = k
    · have h1 : (o.trigger.keyOf == k) = true := by simpa using h
      have h2 : (k == Key.ContextActive) = false := beq_eq_false_iff_ne.2 hk
      simp [h1, h2, h]
    · have h1 : (o.trigger.keyOf == k) = false := beq_eq_false_iff_ne.2 h
      simp [h1, h]
  unfold releaseTriggered releaseAll
  simp only [hst, ht]
  have h1 : ∀ l : List OutputDown, (∀ o ∈ l, o.temporarilyReleased = false) → l.filter (fun o => !o.temporarilyReleased) = l := by
    intro l hl
    rw [List.filter_eq_self]
    intro o ho
    simp [hl o ho]
  rw [h1 _ (by
    intro o ho
    simp only [List.mem_reverse, List.mem_filter] at ho
    exact htr o ho.1)]
  congr 2
  rw [List.filter_map, ← List.map_reverse, List.map_map]
  rw [List.map_reverse, List.map_reverse]
  congr 1
  have : (fun o : OutputDown => !(o.trigger.keyOf != k)) = (fun o => o.2 == k) ∘ heldBy := by
    funext o; simp [heldBy, bne]
  rw [this]
  rfl

private theorem releaseAll_again (s : S) (k : Key) (l : KeySequence) (a : List Key) (b : Bool) :
    releaseAll { releaseAll s k with seq := l, anyM := a, ub := b } k = { releaseAll s k with seq := l, anyM := a, ub := b } := by
  unfold releaseAll
  simp only [List.filter_filter, Bool.and_self]
  have : ((s.down.filter (fun o => o.trigger.keyOf != k)).map heldBy).filter (fun o => o.2 == k) = [] := by
    rw [List.filter_eq_nil_iff]
    intro o ho
    obtain ⟨o', h1, h2⟩ := List.mem_map.1 ho
    have := (List.mem_filter.1 h1).2
    rw [← h2]
    simp only [heldBy, beq_iff_eq]
    simpa using this
  rw [this]
  simp

/-- the main loop, when a key is released -/
private theorem mainLoop_releaseAll {c : Cfg} {cs : List Context} (hcs : c.contexts = cs.map Context.sorted)
    (hrep : ∀ ctx ∈ cs, ctx.OnlyReplaces) {s : S} {ev : KeyEvent} {dev : Int} {u : Bool}
    {l : KeySequence} (hs : s.seq = l ++ [ev]) (hl : ∀ e ∈ l, e.state = .DownMatched ∧ Replaceable e.key)
    (hd : ev.state = .Up) (hx : Replaceable ev.key) (hn : ev.key ∉ l.map (·.key)) (hm : s.might = false)
    (ht : s.timeout = none) (htr : ∀ o ∈ s.down, o.temporarilyReleased = false) :
    ∃ a b, releaseTriggered (mainLoop c ev dev u s) ev.key (-1) = { releaseAll s ev.key with seq := l, anyM := a, ub := b } ∧
      (∀ e ∈ (mainLoop c ev dev u s).seq, e.state = .DownMatched) := by
  have hsn : hasNonOptional s.seq = true := by
    rw [hs]; simp [hasNonOptional, isNonOptional, hd]
  have hnu : ∀ e ∈ l, (⟨e.key, .Up, 0⟩ : KeyEvent) ∉ [ev] := by
    intro e he h
    simp only [List.mem_singleton] at h
    apply hn
    rw [← h]
    exact List.mem_map.2 ⟨e, he, rfl⟩
  have hafter : hasNonOptional l = false := hasNonOptional_matched (fun e he => (hl e he).1)
  have hto : (ev.key == Key.timeout) = false := beq_eq_false_iff_ne.2 hx.2.2.1
  have hcand : ∀ x ∈ candidates c.contexts s.active dev, ∃ k, Replaceable k ∧ x.2.2.input = singleKey k := by
    intro x hx'
    obtain ⟨h1, h2, _, h4⟩ := candidates_mem hx'
    rw [hcs, List.getElem?_map] at h2
    obtain ⟨c0, h5, h6⟩ := Option.map_eq_some_iff.1 h2
    rw [← h6] at h4
    exact (hrep c0 (List.mem_of_getElem? h5)).inputs x.2.2 h4
  have hmi : ∃ a b, matchInput c s true (l ++ [ev]) dev u = ({ s with anyM := a, ub := b }, .noMatch) := by
    unfold matchInput
    simp only []
    obtain ⟨a, b, r, h1, h2⟩ := matchGo_singleKey (c := c) hx (Or.inr hd) hl hn (dev := dev) (u := u) _ hcand
      { s with ub := s.ub || ((!s.active.isEmpty && (decide (64 ≤ dev) || decide (dev < -2))) ||
        s.active.any (fun i => decide (c.contexts.length ≤ i))) }
    rw [if_neg (by rw [hd]; simp)] at h2
    simp only at h2
    subst h2
    exact ⟨a, b, h1⟩
  obtain ⟨a, b, hmi⟩ := hmi
  rw [← hs] at hmi
  refine ⟨a, b, ?_⟩
  cases hv : isVirtualKey ev.key with
  | true =>
    have hround : round c ev dev u s = ({ s with seq := l, anyM := a, ub := b }, false) := by
      unfold round
      rw [hmi]
      simp only [hv, MIR.isMatched, Bool.not_false, Bool.and_self, if_true]
      unfold finishSequence
      simp only [hs, List.length_append]
      rw [finishGo_skip _ l [ev] (fun e he => (hl e he).1) hnu]
      have : finishGo [ev].length [ev] = [] := by
        rw [List.length_singleton, finishGo, hd, hto]; simp [finishGo]
      rw [this, List.append_nil]
    have hmain : mainLoop c ev dev u s = { s with seq := l, anyM := a, ub := b } := by
      unfold mainLoop
      rw [dif_pos hsn, hround]
      simp
    rw [hmain, releaseTriggered_all (by exact htr) (by exact ht) hx.2.2.2]
    exact ⟨rfl, fun e he => (hl e he).1⟩
  | false =>
    have hround : round c ev dev u s = ({ releaseAll s ev.key with seq := l, anyM := a, ub := b }, true) := by
      unfold round
      rw [hmi]
      simp only [hv, MIR.isMatched, Bool.not_false, Bool.false_and, Bool.false_eq_true, if_false]
      have : (MIR.noMatch == MIR.might) = false := rfl
      rw [this]
      simp only [Bool.false_eq_true, if_false, retryStart, hm]
      simp only [timeoutMatched, ht, notTimeoutFailed, applyResult, forwardFromSequence, hs]
      rw [forwardGo_skip _ _ l [ev] (fun e he => (hl e he).1) hnu]
      rw [forwardGo, hd]
      have hp := @releaseTriggered_all { s with anyM := a, ub := b } htr ht ev.key hx.2.2.2
      simp only [ht, hm, hs] at hp
      simp [hp, releaseAll, hm, ht]
    have hmain : mainLoop c ev dev u s = { releaseAll s ev.key with seq := l, anyM := a, ub := b } := by
      unfold mainLoop
      rw [dif_pos hsn, hround]
      simp only [dite_true]
      unfold mainLoop
      rw [dif_neg]
      rw [hafter]; simp
    rw [hmain, releaseTriggered_all (by
      intro o ho
      exact htr o (List.mem_filter.1 ho).1) (by exact ht) hx.2.2.2, releaseAll_again]
    exact ⟨rfl, fun e he => (hl e he).1⟩

/-! ### a whole input -/

/-- the end of `apply_input`, when nothing is released -/
private theorem finishInput_rest {c : Cfg} (hc : Harmless (fun _ => False) (fun _ => True) c) {s : S} {ev : KeyEvent}
    (hd : ev.state = .Down) (hseq : ∀ e ∈ s.seq, e.state = .DownMatched) (ht : s.timeout = none) (hh : s.history = []) :
    ∃ r b, finishInput c s ev = { s with active := r, ub := b, reapplied := false } := by
  obtain ⟨r, h, b, _, h1, h2⟩ := finishInput_press hc (s := s) hd hseq ht (fun _ _ => trivial) (fun _ _ _ _ => trivial)
  have : h = [] := by
    cases h with
    | nil => rfl
    | cons x _ => have := h1 x (by simp); rw [hh] at this; simp at this
  subst this
  refine ⟨r, b, ?_⟩
  rw [h2]
  cases s
  simp only at hh
  subst hh
  rfl

/-- pressing a key, after merging repeats -/
private theorem pressTail_remap {c : Cfg} {s : S} {r : Remapper} {ev : KeyEvent} {dev : Int} (hd : ev.state = .Down)
    (hx : Replaceable ev.key) (h : RInv c s { r with held := r.held.erase ev.key }) (hn : ev.key ∉ s.seq.map (·.key)) :
    RInv c { pressTail c s ev dev with buf := [] } (r.press ev dev).1 ∧ (pressTail c s ev dev).buf = (r.press ev dev).2 := by
  have hup : (ev.state == KeyState.Up) = false := by rw [hd]; rfl
  have e1 : addToHistory c { s with seq := s.seq ++ [ev] } ev = { s with seq := s.seq ++ [ev] } := by
    unfold addToHistory
    rw [h.nmm]; rfl
  have hca := computeActive_inUse (seq := s.seq ++ [ev]) h.stops h.clientSorted h.clientLt
  simp only at hca
  rw [← h.ctxs] at hca
  have hheld : (s.seq ++ [ev]).map (·.key) = r.held.erase ev.key ++ [ev.key] := by
    rw [List.map_append, h.held]; rfl
  rw [hheld] at hca
  obtain ⟨b2, e2⟩ := updateActive_eq h.harmless { s with seq := s.seq ++ [ev] } (by
    show computeActive c.contexts (s.seq ++ [ev]) s.activeClient [] = _
    rw [h.client]; exact hca)
  have hb : ∀ s : S, beforeMatchUp s ev = s := by intro s; simp [beforeMatchUp, hup]
  have hdown : (s.down.map (fun o => { o with suppressed := false })).map heldBy = r.outs := by
    rw [← h.down, List.map_map]; rfl
  have htr : ∀ o ∈ s.down.map (fun o => { o with suppressed := false }), o.temporarilyReleased = false := by
    intro o ho
    obtain ⟨o', h1, h2⟩ := List.mem_map.1 ho
    subst h2; exact h.tr o' h1
  obtain ⟨a3, b3, D, e3, e4, e5⟩ := mainLoop_replace h.ctxs h.repl h.uniq (dev := dev) (u := (ev.state == .Up && ev.key != Key.timeout))
    (s := loopStart s (s.seq ++ [ev]) s.history (contextsInUse r.contexts r.client (r.held.erase ev.key ++ [ev.key])) b2)
    (fun j hj => inUse_stops hj) rfl h.seq hd hx hn h.might h.timeout h.reapplied htr
  simp only [loopStart, hdown, h.buf, List.nil_append] at e3 e4
  have hseq' : ∀ e ∈ s.seq ++ [{ ev with state := KeyState.DownMatched }], e.state = .DownMatched ∧ Replaceable e.key := by
    intro e he
    simp only [List.mem_append, List.mem_singleton] at he
    rcases he with he | he
    · exact h.seq e he
    · rw [he]; exact ⟨rfl, hx⟩
  have hpt : pressTail c s ev dev = finishInput c (mainLoop c ev dev (ev.state == .Up && ev.key != Key.timeout)
      (loopStart s (s.seq ++ [ev]) s.history (contextsInUse r.contexts r.client (r.held.erase ev.key ++ [ev.key])) b2)) ev := by
    unfold pressTail
    simp only [e1, e2, hb]
    rfl
  rw [hpt]
  simp only [loopStart, h.buf] at e3 ⊢
  obtain ⟨r', b', e6⟩ := finishInput_rest h.harmless (ev := ev) hd (s := mainLoop c ev dev (ev.state == .Up && ev.key != Key.timeout)
    { s with
      seq := s.seq ++ [ev]
      active := contextsInUse r.contexts r.client (r.held.erase ev.key ++ [ev.key])
      ub := b2
      down := s.down.map (fun o => { o with suppressed := false })
      buf := [] }) (by rw [e3]; exact fun e he => (hseq' e he).1) (by rw [e3]; exact h.timeout) (by rw [e3]; exact h.hist)
  rw [e6, e3]
  refine ⟨?_, rfl⟩
  exact {
    ctxs := h.ctxs, nmm := h.nmm, repl := h.repl, uniq := h.uniq, stops := h.stops, client := h.client
    clientSorted := h.clientSorted, clientLt := h.clientLt, might := h.might, timeout := h.timeout, onRel := h.onRel
    buf := rfl, reapplied := rfl, hist := h.hist, seq := hseq'
    held := by
      show (s.seq ++ [{ ev with state := KeyState.DownMatched }]).map (fun e : KeyEvent => e.key) = _
      rw [List.map_append, h.held]; rfl
    nodup := by
      show (r.held.erase ev.key ++ [ev.key]).Nodup
      rw [List.nodup_append]
      refine ⟨h.nodup, by simp, ?_⟩
      intro a ha b hb hab
      simp only [List.mem_singleton] at hb
      subst hb; subst hab
      exact hn (by rw [h.held]; exact ha)
    down := e4, tr := e5, lp := h.lp, lr := h.lr }

theorem RInv.erase {c s r} (h : RInv c s r) {k : Key} (hk : k ∉ s.seq.map (·.key)) : RInv c s { r with held := r.held.erase k } := by
  have : r.held.erase k = r.held := List.erase_of_not_mem (by rw [← h.held]; exact hk)
  rw [this]; exact h

private theorem RInv.press' {c s r} (h : RInv c s r) {ev : KeyEvent} (dev : Int) (hd : ev.state = .Down) (hx : Replaceable ev.key) :
    RInv c { (match mergeRepeat s ev dev with
      | (s, true) => s
      | (s, false) => pressTail c s ev dev) with buf := [] } (r.step (.input ev dev)).1 ∧
    (match mergeRepeat s ev dev with
      | (s, true) => s
      | (s, false) => pressTail c s ev dev).buf = (r.step (.input ev dev)).2 := by
  have hp := pressed_of_matched (fun e he => (h.seq e he).1) s rfl ev.key
  have hmem : r.held.contains ev.key = true ↔ ev.key ∈ s.seq.map (·.key) := by rw [h.held]; simp
  have hm : ¬ s.might = true := by rw [h.might]; simp
  have hd' : (ev.state == KeyState.Down) = true := by rw [hd]; rfl
  simp only [Remapper.step, hd, if_true]
  unfold mergeRepeat
  rw [if_pos hd']
  by_cases hk : ev.key ∈ s.seq.map (·.key)
  · rw [if_pos (hp.2 hk), if_neg hm]
    have hc := hmem.2 hk
    have tail : ∀ lr', RInv c { s with lastRepeat := lr', seq := rEraseKey s.seq ev.key } { r with lastRepeat := lr', held := r.held.erase ev.key } := by
      intro lr'
      exact { h with
        seq := by
          intro e he
          unfold rEraseKey at he
          exact h.seq e (by simpa using List.mem_of_mem_eraseP (List.mem_reverse.1 he))
        held := by
          show (rEraseKey s.seq ev.key).map (·.key) = _
          rw [rEraseKey_erase (by rw [h.held]; exact h.nodup), h.held]
        nodup := h.nodup.erase _
        lr := rfl }
    have hnot : ev.key ∉ (rEraseKey s.seq ev.key).map (·.key) := by
      rw [(rEraseKey_keys (by rw [h.held]; exact h.nodup) ev.key).2]
      simp
    by_cases h1 : dev = noDeviceIndex
    · have hig : r.ignores ev dev = false := by simp [Remapper.ignores, h1]
      have hdev : r.device ev dev = r := by simp [Remapper.device, hd, h1]
      have hpt := pressTail_remap (r := r) (dev := dev) hd hx (by have := tail s.lastRepeat; rw [h.lr] at this; exact this) (by exact hnot)
      simp only [hig, hdev]
      simp only [h1, bne_self_eq_false, Bool.false_and, Bool.false_eq_true, if_false] at hpt ⊢
      have : ({ s with lastRepeat := r.lastRepeat, seq := rEraseKey s.seq ev.key } : S) = { s with seq := rEraseKey s.seq ev.key } := by
        rw [← h.lr]
      rw [this] at hpt
      exact hpt
    · have h1' : (dev != noDeviceIndex) = true := by simpa using h1
      by_cases h2 : dev = s.lastPressed
      · have h2r : dev = r.lastPressed := h2.trans h.lp
        have hig : r.ignores ev dev = false := by simp [Remapper.ignores, h2r]
        have hdev : r.device ev dev = { r with lastRepeat := dev } := by
          simp only [Remapper.device, hd, if_true, if_neg h1, hc, ← h2r]
        have hpt := pressTail_remap (r := { r with lastRepeat := dev }) (dev := dev) hd hx (tail dev) (by exact hnot)
        have h2' : (dev == s.lastPressed) = true := by simpa using h2
        simp only [hig, hdev]
        simp only [h1', h2', Bool.true_and, if_true, bne_self_eq_false, Bool.false_eq_true, if_false]
        exact hpt
      · have h2r : dev ≠ r.lastPressed := fun e => h2 (e.trans h.lp.symm)
        have h2' : (dev == s.lastPressed) = false := by simpa using h2
        by_cases h3 : dev = s.lastRepeat
        · have h3r : dev = r.lastRepeat := h3.trans h.lr
          have hig : r.ignores ev dev = false := by simp [Remapper.ignores, h3r]
          have hdev : r.device ev dev = r := by
            simp only [Remapper.device, hd, if_true, if_neg h1, hc, if_neg h2r]
          have hpt := pressTail_remap (r := r) (dev := dev) hd hx (by have := tail s.lastRepeat; rw [h.lr] at this; exact this) (by exact hnot)
          have : ({ s with lastRepeat := r.lastRepeat, seq := rEraseKey s.seq ev.key } : S) = { s with seq := rEraseKey s.seq ev.key } := by
            rw [← h.lr]
          rw [this] at hpt
          have h3' : (dev != s.lastRepeat) = false := by simpa using h3
          simp only [hig, hdev]
          simp only [h1', h2', h3', Bool.and_false, Bool.false_eq_true, if_false]
          exact hpt
        · have h3r : dev ≠ r.lastRepeat := fun e => h3 (e.trans h.lr.symm)
          have hig : r.ignores ev dev = true := by
            simp only [Remapper.ignores, hc, Bool.true_and, h1', Bool.and_eq_true, bne_iff_ne, ne_eq]
            exact ⟨h2r, h3r⟩
          have h3' : (dev != s.lastRepeat) = true := by simpa using h3
          simp only [hig]
          simp only [h1', h2', h3', Bool.and_false, Bool.and_true, Bool.false_eq_true, if_false, if_true]
          exact ⟨{ h with buf := rfl }, h.buf⟩
  · have hc : r.held.contains ev.key = false := by
      cases hh : r.held.contains ev.key with
      | false => rfl
      | true => exact absurd (hmem.1 hh) hk
    have hig : r.ignores ev dev = false := by simp only [Remapper.ignores, hc, Bool.false_and]
    rw [if_neg (fun h => hk (hp.1 h))]
    simp only [hig]
    by_cases h1 : dev = noDeviceIndex
    · have hdev : r.device ev dev = r := by simp [Remapper.device, hd, h1]
      have hpt := pressTail_remap (r := r) (dev := dev) hd hx (h.erase hk) hk
      simp only [hdev]
      simp only [h1, bne_self_eq_false, Bool.false_eq_true, if_false] at hpt ⊢
      exact hpt
    · have h1' : (dev != noDeviceIndex) = true := by simpa using h1
      have hdev : r.device ev dev = { r with lastPressed := dev, lastRepeat := if dev = r.lastRepeat then noDeviceIndex else r.lastRepeat } := by
        simp only [Remapper.device, hd, if_true, if_neg h1, hc, Bool.false_eq_true, if_false]
      have hpt := pressTail_remap (r := r.device ev dev) (dev := dev) (s := { s with
          lastRepeat := if dev == s.lastRepeat then noDeviceIndex else s.lastRepeat
          lastPressed := dev }) hd hx (by
        rw [hdev]
        exact { (h.erase hk) with
          lp := rfl
          lr := by simp only [beq_iff_eq, h.lr] }) hk
      simp only [h1', if_true, Bool.false_eq_true, if_false]
      exact hpt

theorem RInv.press {c s r} (h : RInv c s r) {ev : KeyEvent} (dev : Int) (hd : ev.state = .Down) (hx : Replaceable ev.key) :
    RInv c (update c s ev dev).1 (r.step (.input ev dev)).1 ∧ (update c s ev dev).2 = (r.step (.input ev dev)).2 := by
  have h0 : RInv c { s with exitPos := advanceExit s.exitPos ev, ub := if validInput ev then s.ub else true } r := { h with }
  have hai := applyInput_eq c { s with exitPos := advanceExit s.exitPos ev } ev dev h.onRel h.timeout
  unfold update
  simp only [hai]
  generalize ({ s with exitPos := advanceExit s.exitPos ev, ub := if validInput ev then s.ub else true } : S) = s0 at *
  clear h hai
  exact h0.press' dev hd hx

private theorem RInv.release' {c s r} (h : RInv c s r) {ev : KeyEvent} (dev : Int) (hd : ev.state = .Up) (hx : Replaceable ev.key) :
    RInv c { pressTail c s ev dev with buf := [] } (r.release ev.key).1 ∧ (pressTail c s ev dev).buf = (r.release ev.key).2 := by
  have e1 : addToHistory c { s with seq := s.seq ++ [ev] } ev = { s with seq := s.seq ++ [ev] } := by
    unfold addToHistory
    rw [h.nmm]; rfl
  have hca := computeActive_inUse (seq := s.seq ++ [ev]) h.stops h.clientSorted h.clientLt
  rw [← h.ctxs] at hca
  obtain ⟨b2, e2⟩ := updateActive_eq h.harmless { s with seq := s.seq ++ [ev] } (by
    show computeActive c.contexts (s.seq ++ [ev]) s.activeClient [] = _
    rw [h.client]; exact hca)
  have hdown : (s.down.map (fun o => { o with suppressed := false })).map heldBy = r.outs := by
    rw [← h.down, List.map_map]; rfl
  have htr : ∀ o ∈ s.down.map (fun o => { o with suppressed := false }), o.temporarilyReleased = false := by
    intro o ho
    obtain ⟨o', h1, h2⟩ := List.mem_map.1 ho
    subst h2; exact h.tr o' h1
  -- the key is removed from the sequence
  have hbm : ∃ l b, (∀ e ∈ l, e.state = .DownMatched ∧ Replaceable e.key) ∧ ev.key ∉ l.map (·.key) ∧ l.map (·.key) = r.held.erase ev.key ∧
      ∀ (act : List Nat), beforeMatchUp { s with seq := s.seq ++ [ev], active := act, ub := b2 } ev =
        { s with seq := l ++ [ev], active := act, ub := b } := by
    by_cases hk : ev.key ∈ s.seq.map (·.key)
    · refine ⟨s.seq.eraseP (·.key == ev.key), b2, ?_, ?_, ?_, ?_⟩
      · exact fun e he => h.seq e (List.mem_of_mem_eraseP he)
      · rw [eraseP_key_keys (by rw [h.held]; exact h.nodup), h.held]
        exact fun hm => ((h.nodup.mem_erase_iff).1 hm).1 rfl
      · rw [eraseP_key_keys (by rw [h.held]; exact h.nodup), h.held]
      · intro act
        obtain ⟨e, he1, he2⟩ := List.mem_map.1 hk
        have hf : ∃ e', s.seq.find? (·.key == ev.key) = some e' := by
          cases hf : s.seq.find? (·.key == ev.key) with
          | some e' => exact ⟨e', rfl⟩
          | none =>
            rw [List.find?_eq_none] at hf
            have := hf e he1
            simp [he2] at this
        obtain ⟨e', hf⟩ := hf
        unfold beforeMatchUp
        simp only [hd, beq_self_eq_true, if_true, h.timeout, Option.bind_none, Option.isSome_none, Bool.false_eq_true, if_false,
          h.might, Bool.not_false, findKey, List.find?_append, hf, Option.or_some, Option.some_or]
        rw [(h.seq e' (List.mem_of_find?_eq_some hf)).1]
        simp only [beq_self_eq_true, if_true]
        rw [List.eraseP_append_left (a := e) (by simp [he2]) _ he1]
    · refine ⟨s.seq, b2, h.seq, hk, ?_, ?_⟩
      · rw [h.held, List.erase_of_not_mem]; rw [← h.held]; exact hk
      · intro act
        have hf : s.seq.find? (·.key == ev.key) = none := by
          rw [List.find?_eq_none]
          intro e he
          simp only [beq_iff_eq]
          exact fun h' => hk (List.mem_map.2 ⟨e, he, h'⟩)
        unfold beforeMatchUp
        simp only [hd, beq_self_eq_true, if_true, h.timeout, Option.bind_none, Option.isSome_none, Bool.false_eq_true, if_false,
          h.might, Bool.not_false, findKey, List.find?_append, hf, Option.none_or, List.find?_cons, reduceCtorEq]
        rfl
  obtain ⟨l, b, hl, hn, hkeys, hbm⟩ := hbm
  generalize contextsInUse r.contexts r.client (List.map (fun x => x.key) (s.seq ++ [ev])) = act at *
  obtain ⟨a3, b3, e3, e4⟩ := mainLoop_releaseAll h.ctxs h.repl (dev := dev) (u := (ev.state == .Up && ev.key != Key.timeout))
    (s := loopStart s (l ++ [ev]) s.history act b) rfl hl hd hx hn h.might h.timeout htr
  have hpt : pressTail c s ev dev = finishInput c (mainLoop c ev dev (ev.state == .Up && ev.key != Key.timeout)
      (loopStart s (l ++ [ev]) s.history act b)) ev := by
    unfold pressTail
    simp only [e1, e2, hbm]
    rfl
  have hfi : ∀ s : S, finishInput c s ev = finishInput c (releaseTriggered s ev.key (-1)) ⟨ev.key, .Down, 0⟩ := by
    intro s
    unfold finishInput
    simp only [hd, beq_self_eq_true, if_true]
    rfl
  rw [hpt, hfi, e3]
  obtain ⟨r', b', e6⟩ := finishInput_rest h.harmless (ev := ⟨ev.key, .Down, 0⟩)
    (s := { releaseAll (loopStart s (l ++ [ev]) s.history act b) ev.key with seq := l, anyM := a3, ub := b3 }) rfl
    (fun e he => (hl e he).1) h.timeout h.hist
  rw [e6]
  unfold releaseAll loopStart Remapper.release
  simp only [hdown, h.buf, List.nil_append]
  refine ⟨?_, trivial⟩
  exact {
    ctxs := h.ctxs, nmm := h.nmm, repl := h.repl, uniq := h.uniq, stops := h.stops, client := h.client
    clientSorted := h.clientSorted, clientLt := h.clientLt, might := h.might, timeout := h.timeout, onRel := h.onRel
    buf := rfl, reapplied := rfl, hist := h.hist, seq := hl, held := hkeys, nodup := h.nodup.erase _
    down := by
      show ((s.down.map (fun o => { o with suppressed := false })).filter (fun o => o.trigger.keyOf != ev.key)).map heldBy = _
      show _ = r.outs.filter (fun o => o.2 != ev.key)
      rw [← hdown, List.filter_map (f := heldBy)]
      rfl
    tr := fun o ho => htr o (List.mem_filter.1 ho).1
    lp := h.lp, lr := h.lr }

theorem RInv.release {c s r} (h : RInv c s r) {ev : KeyEvent} (dev : Int) (hd : ev.state = .Up) (hx : Replaceable ev.key) :
    RInv c (update c s ev dev).1 (r.step (.input ev dev)).1 ∧ (update c s ev dev).2 = (r.step (.input ev dev)).2 := by
  have h0 : RInv c { s with exitPos := advanceExit s.exitPos ev, ub := if validInput ev then s.ub else true } r := { h with }
  have hai := applyInput_eq c { s with exitPos := advanceExit s.exitPos ev } ev dev h.onRel h.timeout
  unfold update
  simp only [hai]
  generalize ({ s with exitPos := advanceExit s.exitPos ev, ub := if validInput ev then s.ub else true } : S) = s0 at *
  clear h hai s
  have hd0 : (ev.state == KeyState.Down) = false := by rw [hd]; rfl
  have hstep : r.step (.input ev dev) = (r.device ev dev).release ev.key := by
    simp only [Remapper.step, hd, reduceCtorEq, if_false]
  rw [hstep]
  unfold mergeRepeat
  simp only [hd0, Bool.false_eq_true, if_false]
  have h1 : RInv c { s0 with lastRepeat := if dev == s0.lastRepeat then noDeviceIndex else s0.lastRepeat } (r.device ev dev) := by
    have : r.device ev dev = { r with lastRepeat := if dev = r.lastRepeat then noDeviceIndex else r.lastRepeat } := by
      simp only [Remapper.device, hd, reduceCtorEq, if_false]
    rw [this]
    exact { h0 with lr := by simp only [beq_iff_eq, h0.lr] }
  generalize ({ s0 with lastRepeat := if dev == s0.lastRepeat then noDeviceIndex else s0.lastRepeat } : S) = s at *
  generalize r.device ev dev = r' at *
  exact h1.release' dev hd hx

end KM
