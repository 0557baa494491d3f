import Verif.Lemmas.CombinationOutput
/-!
# A stage whose mappings are for combinations of keys follows the specification
-/
set_option linter.unusedSimpArgs false
namespace KM

/-! ### looking up -/

/-- what a candidate means for a key -/
def candidateMeaning (c : Cfg) (active : List Nat) (held : List Key) (k : Key) (x : Nat × Context × Input) : Option Meaning :=
  if triggers x.2.2.input held k then (findOutput c.contexts active x.1 x.2.1 x.2.2.outputIndex).1.map (fun p => .output p.2)
  else if continues x.2.2.input held k then some .waits else none

theorem candidates_at {c : Cfg} {cs : List Context} (hc : c.contexts = cs.map Context.sorted) (hu : CommandsUnique cs)
    {inUse : List Nat} (hl : ∀ j ∈ inUse, ∃ ctx, cs[j]? = some ctx ∧ ctx.fallthrough = false) (dev : Int) (held : List Key) (k : Key) (j : Nat) :
    (candidates c.contexts [j] dev).findSome? (candidateMeaning c inUse held k) = (mappingsFor cs [j] dev).findSome? (meaningOf cs inUse held k) := by
  unfold candidates mappingsFor
  rw [List.flatMap_cons, List.flatMap_nil, List.append_nil, List.flatMap_cons, List.flatMap_nil, List.append_nil]
  rw [hc, List.getElem?_map]
  cases hj : cs[j]? with
  | none => rfl
  | some ctx =>
    simp only [Option.map_some, acceptsDevice_eq]
    split
    · rw [List.findSome?_map, List.findSome?_map]
      apply findSome?_congr'
      intro m _
      unfold candidateMeaning meaningOf
      simp only [Function.comp]
      rw [← findOutput_eq hu hl j ctx m, hc, Option.map_map]
      rfl
    · rfl

/-- the context of the mapping found -/
theorem candidates_decided {c : Cfg} {cs : List Context} (hc : c.contexts = cs.map Context.sorted) (hu : CommandsUnique cs)
    {inUse : List Nat} (hl : ∀ j ∈ inUse, ∃ ctx, cs[j]? = some ctx ∧ ctx.fallthrough = false) (dev : Int) (held : List Key) (k : Key) :
    (candidates c.contexts inUse dev).findSome? (fun x => (candidateMeaning c inUse held k x).map (fun _ => x.1)) = decidedIn cs inUse dev held k := by
  have hat : ∀ j, (candidates c.contexts [j] dev).findSome? (fun x => (candidateMeaning c inUse held k x).map (fun _ => x.1)) =
      ((mappingsFor cs [j] dev).findSome? (meaningOf cs inUse held k)).map (fun _ => j) := by
    intro j
    rw [← candidates_at hc hu hl]
    have hj : ∀ x ∈ candidates c.contexts [j] dev, x.1 = j := by
      intro x hx
      unfold candidates at hx
      rw [List.flatMap_cons, List.flatMap_nil, List.append_nil] at hx
      split at hx
      · cases hx
      · split at hx
        · obtain ⟨m, _, rfl⟩ := List.mem_map.1 hx; rfl
        · cases hx
    generalize candidates c.contexts [j] dev = l at hj
    induction l with
    | nil => rfl
    | cons x l ih =>
      rw [List.findSome?_cons, List.findSome?_cons, ih (fun y hy => hj y (by simp [hy])), hj x (by simp)]
      cases candidateMeaning c inUse held k x <;> rfl
  unfold decidedIn
  have : ∀ l : List Nat, (candidates c.contexts l dev).findSome? (fun x => (candidateMeaning c inUse held k x).map (fun _ => x.1)) =
      l.find? (fun j => ((mappingsFor cs [j] dev).findSome? (meaningOf cs inUse held k)).isSome) := by
    intro l
    induction l with
    | nil => rfl
    | cons j l ih =>
      have hcons : candidates c.contexts (j :: l) dev = candidates c.contexts [j] dev ++ candidates c.contexts l dev := by
        unfold candidates
        rw [List.flatMap_cons, List.flatMap_cons, List.flatMap_nil, List.append_nil]
      rw [hcons, List.findSome?_append, hat, ih, List.find?_cons]
      cases (mappingsFor cs [j] dev).findSome? (meaningOf cs inUse held k) <;> rfl
  exact this inUse

theorem candidates_meaning {c : Cfg} {cs : List Context} (hc : c.contexts = cs.map Context.sorted) (hu : CommandsUnique cs)
    {inUse : List Nat} (hl : ∀ j ∈ inUse, ∃ ctx, cs[j]? = some ctx ∧ ctx.fallthrough = false) (dev : Int) (held : List Key) (k : Key) :
    (candidates c.contexts inUse dev).findSome? (candidateMeaning c inUse held k) = meaning cs inUse dev held k := by
  unfold candidates meaning mappingsFor
  rw [findSome?_flatMap_eq, findSome?_flatMap_eq]
  apply findSome?_congr'
  intro j _
  rw [hc, List.getElem?_map]
  cases hj : cs[j]? with
  | none => rfl
  | some ctx =>
    simp only [Option.map_some, acceptsDevice_eq]
    split
    · rw [List.findSome?_map, List.findSome?_map]
      apply findSome?_congr'
      intro m _
      unfold candidateMeaning meaningOf
      simp only [Function.comp]
      rw [← findOutput_eq hu hl j ctx m, hc, Option.map_map]
      rfl
    · rfl

theorem isNoMightMatch_combination {input : KeySequence} (hi : IsCombination input) : isNoMightMatch input = false := by
  obtain ⟨nots, downs, ups, rfl, h1, _⟩ := hi
  cases nots with
  | cons n nots => rfl
  | nil =>
    cases downs with
    | nil => exact absurd rfl h1
    | cons d downs => rfl

private theorem head_combination {input : KeySequence} (hi : IsCombination input) : (input.head?.map (·.key)) ≠ some Key.ContextActive ∧
    ∀ x ∈ input, x.key ≠ Key.any := by
  obtain ⟨nots, downs, ups, rfl, h1, _, h3, h4, h5⟩ := hi
  constructor
  · cases nots with
    | cons n nots =>
      simp only [List.map_cons, List.cons_append, List.head?_cons, Option.map_some, ne_eq, Option.some.injEq]
      exact (h5 n (by simp)).2.2.2
    | nil =>
      cases downs with
      | nil => exact absurd rfl h1
      | cons d downs =>
        simp only [List.map_nil, List.nil_append, List.map_cons, List.cons_append, List.head?_cons, Option.map_some, ne_eq, Option.some.injEq]
        exact (h4 d (by simp)).1.2.2.2
  · intro x hx
    simp only [List.mem_append, List.mem_map] at hx
    rcases hx with (⟨k, hk, rfl⟩ | ⟨k, hk, rfl⟩) | ⟨k, hk, rfl⟩
    · exact (h5 k hk).2.1
    · exact (h4 k hk).1.2.1
    · exact (h4 k (h3 k hk)).1.2.1

private theorem find?_reverse_none {α} (p : α → Bool) (l : List α) (h : ∀ x ∈ l, p x = false) (l' : List α) :
    (l' ++ l).reverse.find? p = l'.reverse.find? p := by
  rw [List.reverse_append, List.find?_append]
  have : l.reverse.find? p = none := by
    rw [List.find?_eq_none]
    intro x hx
    rw [h x (by simpa using hx)]; simp
  rw [this, Option.none_or]

private theorem event_combination {input : KeySequence} (hi : IsCombination input) {held : List Key} {k : Key} (h : triggers input held k = true) :
    (Trigger.seq input).event = ⟨k, .Down, 0⟩ := by
  unfold triggers at h
  simp only [Bool.and_eq_true, beq_iff_eq] at h
  have hl := h.1.1
  obtain ⟨nots, downs, ups, rfl, h1, _⟩ := hi
  have hd : keysToPress (nots.map (fun k => (⟨k, .Not, 0⟩ : KeyEvent)) ++ downs.map (fun k => (⟨k, .Down, 0⟩ : KeyEvent)) ++
      ups.map (fun k => (⟨k, .UpAsync, 0⟩ : KeyEvent))) = downs := by
    unfold keysToPress
    rw [List.filter_append, List.filter_append]
    have h1 : (nots.map (fun k => (⟨k, .Not, 0⟩ : KeyEvent))).filter (fun e => e.state == .Down) = [] := by simp
    have h2 : (ups.map (fun k => (⟨k, .UpAsync, 0⟩ : KeyEvent))).filter (fun e => e.state == .Down) = [] := by simp
    have h3 : (downs.map (fun k => (⟨k, .Down, 0⟩ : KeyEvent))).filter (fun e => e.state == .Down) = downs.map (fun k => (⟨k, .Down, 0⟩ : KeyEvent)) := by simp
    rw [h1, h2, h3]
    simp only [List.nil_append, List.append_nil, List.map_map]
    exact List.map_id _
  rw [hd] at hl
  have hsplit : downs = downs.dropLast ++ [k] := by
    rw [List.getLast?_eq_some_iff] at hl
    obtain ⟨ys, hys⟩ := hl
    rw [hys]; simp
  have hf : findLastNonOptional (nots.map (fun k => (⟨k, .Not, 0⟩ : KeyEvent)) ++ downs.map (fun k => (⟨k, .Down, 0⟩ : KeyEvent)) ++
      ups.map (fun k => (⟨k, .UpAsync, 0⟩ : KeyEvent))) = some ⟨k, .Down, 0⟩ := by
    unfold findLastNonOptional
    rw [find?_reverse_none _ _ (by intro x hx; obtain ⟨y, _, rfl⟩ := List.mem_map.1 hx; rfl), hsplit, List.map_append, ← List.append_assoc,
      List.reverse_append]
    rfl
  show (findLastNonOptional _).getD _ = _
  rw [hf]
  rfl

/-- the mapping found, when a key is pressed or released -/
theorem matchGo_combination {c : Cfg} {ev : KeyEvent} (hx : Replaceable ev.key) (hev : ev.state = .Down ∨ ev.state = .Up)
    {l : KeySequence} (hl : ∀ e ∈ l, e.state = .DownMatched ∧ Replaceable e.key) (hn : ev.key ∉ l.map (·.key)) {dev : Int} {u : Bool}
    (cands : List (Nat × Context × Input)) (hc : ∀ x ∈ cands, IsCombination x.2.2.input) (s : S) :
    ∃ a b r, matchGo c true (l ++ [ev]) dev u cands s = ({ s with anyM := a, ub := b }, r) ∧
      match (if ev.state = .Down then cands.findSome? (candidateMeaning c s.active (l.map (·.key)) ev.key) else none) with
      | some (.output out) => ∃ ref input ci, r = .matched ref out input ci ∧ (Trigger.seq input).event = ⟨ev.key, .Down, 0⟩ ∧
          cands.findSome? (fun x => (candidateMeaning c s.active (l.map (·.key)) ev.key x).map (fun _ => x.1)) = some ci
      | some .waits => r = .might
      | none => r = .noMatch := by
  induction cands generalizing s with
  | nil => exact ⟨s.anyM, s.ub, .noMatch, rfl, by split <;> simp_all⟩
  | cons x cands ih =>
    obtain ⟨ci, ctx, inp⟩ := x
    have ih := ih (fun x hx => hc x (by simp [hx]))
    have hi := hc (ci, ctx, inp) (by simp)
    simp only at hi
    have hm := matchSeq_combination hi hx hev l hl hn
    have hnm := isNoMightMatch_combination hi
    unfold matchGo
    simp only [hnm, Bool.false_and, Bool.false_eq_true, if_false, matchTarget]
    rw [hm]
    simp only [List.findSome?_cons]
    by_cases hd : ev.state = .Down
    · simp only [if_pos hd] at ih ⊢
      cases htr : triggers inp.input (l.map (·.key)) ev.key with
      | true =>
        have hco : candidateMeaning c s.active (l.map (·.key)) ev.key (ci, ctx, inp) =
            (findOutput c.contexts s.active ci ctx inp.outputIndex).1.map (fun p => .output p.2) := by
          unfold candidateMeaning
          rw [if_pos htr]
        simp only [if_true, Bool.true_and, Bool.not_false, hco]
        rw [if_neg (by simp), if_pos (by simp)]
        cases hf : findOutput c.contexts s.active ci ctx inp.outputIndex with
        | mk o u' =>
          cases o with
          | some p =>
            obtain ⟨ref, out⟩ := p
            exact ⟨[], _, _, rfl, ref, inp.input, ci, rfl, event_combination hi htr, rfl⟩
          | none =>
            obtain ⟨a', b', r', h1, h2⟩ := ih { s with anyM := [], ub := (s.ub || false) || u' }
            exact ⟨a', b', r', h1, h2⟩
      | false =>
        cases hct : continues inp.input (l.map (·.key)) ev.key with
        | true =>
          have hco : candidateMeaning c s.active (l.map (·.key)) ev.key (ci, ctx, inp) = some .waits := by
            unfold candidateMeaning
            rw [if_neg (by simp [htr]), if_pos hct]
          simp only [if_true, Bool.true_and, Bool.not_false, hco, Bool.false_eq_true, if_false]
          rw [if_pos (by simp)]
          exact ⟨[], _, .might, rfl, rfl⟩
        | false =>
          have hco : candidateMeaning c s.active (l.map (·.key)) ev.key (ci, ctx, inp) = none := by
            unfold candidateMeaning
            rw [if_neg (by simp [htr]), if_neg (by simp [hct])]
          simp only [if_true, Bool.true_and, Bool.not_false, hco, Bool.false_eq_true, if_false]
          rw [if_neg (by simp), if_neg (by simp)]
          obtain ⟨a', b', r', h1, h2⟩ := ih { s with anyM := [], ub := s.ub || false }
          exact ⟨a', b', r', h1, h2⟩
    · simp only [if_neg hd] at ih ⊢
      rw [if_neg (by simp), if_neg (by simp)]
      exact ih _

/-- what is kept for the release of a key -/
def Pending.kept (p : Pending) : OnRelease := ⟨p.key, p.out, (p.ctx : Int)⟩

/-- the state of the stage and of the specification -/
structure CombInv (c : Cfg) (s : S) (r : Combiner) : Prop where
  ctxs : c.contexts = r.contexts.map Context.sorted
  nmm : c.hasNoMightMatch = false
  comb : ∀ ctx ∈ r.contexts, ctx.OnlyCombines
  uniq : CommandsUnique r.contexts
  stops : ∀ i < r.contexts.length, ∃ j, FallsTo r.contexts i j
  client : s.activeClient = r.client
  clientSorted : r.client.Pairwise (· ≤ ·)
  clientLt : ∀ i ∈ r.client, i < r.contexts.length
  might : s.might = false
  timeout : s.timeout = none
  onRel : s.onRelease = r.pending.map Pending.kept
  pendingNodup : (r.pending.map (·.key)).Nodup
  pendingOut : ∀ p ∈ r.pending, IsKeyOutput p.out
  pendingHeld : ∀ p ∈ r.pending, p.key ∈ r.held
  buf : s.buf = []
  reapplied : s.reapplied = false
  hist : s.history = []
  seq : ∀ e ∈ s.seq, e.state = .DownMatched ∧ Replaceable e.key
  held : s.seq.map (·.key) = r.held
  nodup : r.held.Nodup
  down : s.down.map holdOf = r.holds
  nodupHolds : (r.holds.map (·.key)).Nodup
  sup : ∀ o ∈ s.down, o.suppressed = r.banned.contains o.key
  bannedHeld : ∀ b ∈ r.banned, b ∈ r.holds.map (·.key)
  lp : s.lastPressed = r.lastPressed
  lr : s.lastRepeat = r.lastRepeat

theorem CombInv.harmless {c s r} (h : CombInv c s r) : Harmless (fun _ => False) (fun _ => True) c := by
  intro j ctx _ hj inp hinp
  rw [h.ctxs, List.getElem?_map] at hj
  obtain ⟨c0, h1, h2⟩ := Option.map_eq_some_iff.1 hj
  subst h2
  have hi := head_combination ((h.comb c0 (List.mem_of_getElem? h1)).inputs inp hinp)
  exact ⟨fun x hx => ⟨fun h => h, hi.2 x hx⟩, hi.1⟩

private theorem updateActive_eq {c : Cfg} (hc : Harmless (fun _ => False) (fun _ => True) c) (s : S) {r : List Nat}
    (h : computeActive c.contexts s.seq s.activeClient [] = some r) :
    ∃ b, updateActiveContexts c s = { s with active := r, ub := b } := by
  unfold updateActiveContexts
  rw [h]
  simp only []
  generalize mergeContexts s.active r = da
  obtain ⟨d, a⟩ := da
  simp only []
  obtain ⟨b1, h1⟩ := foldContextActive_harmless hc ⟨Key.ContextActive, .Up, 0⟩ d (fun _ _ => trivial) { s with active := r }
  rw [h1]
  obtain ⟨b2, h2⟩ := foldContextActive_harmless hc ⟨Key.ContextActive, .Down, 0⟩ a (fun _ _ => trivial) { s with active := r, ub := b1 }
  exact ⟨b2, h2⟩

private theorem rEraseKey_erase {l : KeySequence} (h : (l.map (·.key)).Nodup) (k : Key) :
    (rEraseKey l k).map (·.key) = (l.map (·.key)).erase k := by
  have hr : (l.reverse.map (·.key)).Nodup := by
    rw [List.map_reverse]; exact List.pairwise_reverse.2 (h.imp fun a => a.symm)
  unfold rEraseKey
  rw [List.map_reverse, eraseP_key_keys hr, hr.erase_eq_filter, h.erase_eq_filter, List.map_reverse, List.filter_reverse,
    List.reverse_reverse]

/-- the output of a mapping of a context is one which is described -/
theorem meaning_output {cs : List Context} (hc : ∀ ctx ∈ cs, ctx.OnlyCombines) {inUse dev held k out}
    (h : meaning cs inUse dev held k = some (.output out)) : IsKeyOutput out := by
  unfold meaning at h
  obtain ⟨⟨ctx, m⟩, hm, h1⟩ := List.exists_of_findSome?_eq_some h
  have hctx : ctx ∈ cs := by
    unfold mappingsFor at hm
    obtain ⟨j, _, hj⟩ := List.mem_flatMap.1 hm
    split at hj
    · next ctx' hc' =>
      split at hj
      · obtain ⟨m', _, hm'⟩ := List.mem_map.1 hj
        simp only [Prod.mk.injEq] at hm'
        rw [← hm'.1]
        exact List.mem_of_getElem? hc'
      · simp at hj
    · simp at hj
  unfold meaningOf at h1
  split at h1
  · obtain ⟨o, h2, h3⟩ := Option.map_eq_some_iff.1 h1
    simp only [Meaning.output.injEq] at h3
    subst h3
    unfold mappingOutput at h2
    split at h2
    · exact (hc ctx hctx).outputs _ (List.mem_of_getElem? h2)
    · unfold commandOutput at h2
      obtain ⟨j', _, h5⟩ := List.exists_of_findSome?_eq_some h2
      obtain ⟨ctx', h6, h7⟩ := Option.bind_eq_some_iff.1 h5
      obtain ⟨co, h8, h9⟩ := Option.map_eq_some_iff.1 h7
      rw [← h9]
      exact (hc ctx' (List.mem_of_getElem? h6)).commands _ (List.mem_of_find?_eq_some h8)
  · split at h1 <;> simp at h1

/-- the output for a key -/
def outputOf (held : List Key) (m : Option Meaning) (k : Key) : KeySequence :=
  match m with
  | some (.output out) => settled held (onPress out)
  | _ => if isVirtualKey k then [] else [⟨k, .Down, 0⟩]

/-- what is kept for the release of a key -/
def keptOf (m : Option Meaning) (ci : Option Nat) (k : Key) : List OnRelease :=
  match m, ci with
  | some (.output out), some ci => keptFor k ci out
  | _, _ => []

/-- the main loop, when a key is pressed -/
private theorem mainLoop_combine {c : Cfg} {cs : List Context} (hcs : c.contexts = cs.map Context.sorted)
    (hcomb : ∀ ctx ∈ cs, ctx.OnlyCombines) (hu : CommandsUnique cs) {s : S} {ev : KeyEvent} {dev : Int} {u : Bool}
    (hin : ∀ j ∈ s.active, ∃ ctx, cs[j]? = some ctx ∧ ctx.fallthrough = false)
    {l : KeySequence} (hs : s.seq = l ++ [ev]) (hl : ∀ e ∈ l, e.state = .DownMatched ∧ Replaceable e.key)
    (hd : ev.state = .Down) (hval : ev.value = 0) (hx : Replaceable ev.key) (hn : ev.key ∉ l.map (·.key)) (hm : s.might = false)
    (ht : s.timeout = none) {sink : Sink} (hsk : SinkRel s sink)
    (hw : isVirtualKey ev.key = false → meaning cs s.active dev (l.map (·.key)) ev.key ≠ some .waits) :
    ∃ a b D B R, mainLoop c ev dev u s = { s with
        onRelease := s.onRelease ++ keptOf (meaning cs s.active dev (l.map (·.key)) ev.key) (decidedIn cs s.active dev (l.map (·.key)) ev.key) ev.key
        anyM := a
        ub := b
        seq := l ++ [{ ev with state := .DownMatched }]
        down := D
        buf := B
        reapplied := R } ∧
      SinkRel { s with down := D, buf := B, reapplied := R }
        ((outputOf (s.seq.map (·.key)) (meaning cs s.active dev (l.map (·.key)) ev.key) ev.key).foldl (Sink.put ev.key) sink) := by
  have hev : ev = ⟨ev.key, .Down, 0⟩ := by cases ev; simp only at hd hval; subst hd hval; rfl
  have hsn : hasNonOptional s.seq = true := by
    rw [hs]; simp [hasNonOptional, isNonOptional, hd]
  have hnu : ∀ e ∈ l, (⟨e.key, .Up, 0⟩ : KeyEvent) ∉ [ev] := by
    intro e _ h
    simp only [List.mem_singleton] at h
    rw [← h] at hd; simp at hd
  have hce : [ev].contains (⟨ev.key, .Up, 0⟩ : KeyEvent) = false := by
    rw [List.contains_eq_mem]
    simp only [List.mem_singleton, decide_eq_false_iff_not]
    intro h; rw [← h] at hd; simp at hd
  have hafter : hasNonOptional (l ++ [{ ev with state := .DownMatched }]) = false := by
    apply hasNonOptional_matched
    intro e he
    simp only [List.mem_append, List.mem_singleton] at he
    rcases he with he | he
    · exact (hl e he).1
    · rw [he]
  have hfin : finishGo (l ++ [ev]).length (l ++ [ev]) = l ++ [{ ev with state := .DownMatched }] := by
    rw [List.length_append, finishGo_skip _ l [ev] (fun e he => (hl e he).1) hnu]
    have : finishGo [ev].length [ev] = [{ ev with state := .DownMatched }] := by
      rw [List.length_singleton, finishGo, hce, hd]; simp [finishGo]
    rw [this]
  have hto : (ev.key == Key.timeout) = false := beq_eq_false_iff_ne.2 hx.2.2.1
  have hcand : ∀ x ∈ candidates c.contexts s.active dev, IsCombination x.2.2.input := by
    intro x hx'
    obtain ⟨h1, h2, _, h4⟩ := candidates_mem hx'
    rw [hcs, List.getElem?_map] at h2
    obtain ⟨c0, h5, h6⟩ := Option.map_eq_some_iff.1 h2
    rw [← h6] at h4
    exact (hcomb c0 (List.mem_of_getElem? h5)).inputs x.2.2 h4
  have hmi : ∃ a b r, matchInput c s true (l ++ [ev]) dev u = ({ s with anyM := a, ub := b }, r) ∧
      match meaning cs s.active dev (l.map (·.key)) ev.key with
      | some (.output out) => ∃ ref input ci, r = .matched ref out input ci ∧ (Trigger.seq input).event = ⟨ev.key, .Down, 0⟩ ∧
          decidedIn cs s.active dev (l.map (·.key)) ev.key = some ci
      | some .waits => r = .might
      | none => r = .noMatch := by
    unfold matchInput
    simp only []
    obtain ⟨a, b, r, h1, h2⟩ := matchGo_combination (c := c) hx (Or.inl hd) hl hn (dev := dev) (u := u) _ hcand
      { s with ub := s.ub || ((!s.active.isEmpty && (decide (64 ≤ dev) || decide (dev < -2))) ||
        s.active.any (fun i => decide (c.contexts.length ≤ i))) }
    rw [if_pos hd, candidates_meaning hcs hu hin, candidates_decided hcs hu hin] at h2
    exact ⟨a, b, r, h1, h2⟩
  obtain ⟨a, b, r, hmi, hres⟩ := hmi
  rw [← hs] at hmi
  have hround : ∃ D B R cont, round c ev dev u s = ({ s with
        onRelease := s.onRelease ++ keptOf (meaning cs s.active dev (l.map (·.key)) ev.key) (decidedIn cs s.active dev (l.map (·.key)) ev.key) ev.key
        anyM := a
        ub := b
        seq := l ++ [{ ev with state := .DownMatched }]
        down := D
        buf := B
        reapplied := R }, cont) ∧
      SinkRel { s with down := D, buf := B, reapplied := R }
        ((outputOf (s.seq.map (·.key)) (meaning cs s.active dev (l.map (·.key)) ev.key) ev.key).foldl (Sink.put ev.key) sink) := by
    unfold round
    rw [hmi]
    simp only []
    -- nothing is output
    have hnone : isVirtualKey ev.key = true → (∀ out, meaning cs s.active dev (l.map (·.key)) ev.key ≠ some (.output out)) →
        ∃ D B R cont, (finishSequence { s with anyM := a, ub := b } s.seq.length, false) = (({ s with
          onRelease := s.onRelease ++ keptOf (meaning cs s.active dev (l.map (·.key)) ev.key) (decidedIn cs s.active dev (l.map (·.key)) ev.key) ev.key
          anyM := a
          ub := b
          seq := l ++ [{ ev with state := .DownMatched }]
          down := D
          buf := B
          reapplied := R } : S), cont) ∧
        SinkRel { s with down := D, buf := B, reapplied := R }
          ((outputOf (s.seq.map (·.key)) (meaning cs s.active dev (l.map (·.key)) ev.key) ev.key).foldl (Sink.put ev.key) sink) := by
      intro hv hne
      have : outputOf (s.seq.map (·.key)) (meaning cs s.active dev (l.map (·.key)) ev.key) ev.key = [] := by
        unfold outputOf
        split
        · next out h => exact absurd h (hne out)
        · rw [hv]; rfl
      have hk : keptOf (meaning cs s.active dev (l.map (·.key)) ev.key) (decidedIn cs s.active dev (l.map (·.key)) ev.key) ev.key = [] := by
        unfold keptOf
        split
        · next out ci h _ => exact absurd h (hne out)
        · rfl
      rw [this, hk, List.append_nil]
      refine ⟨s.down, s.buf, s.reapplied, false, ?_, hsk⟩
      unfold finishSequence
      simp only [hs, hfin]
    cases hmean : meaning cs s.active dev (l.map (·.key)) ev.key with
    | some mm =>
      rw [hmean] at hres hw hnone
      cases mm with
      | output o =>
        simp only at hres
        obtain ⟨ref, input, ci, rfl, hev', hci⟩ := hres
        have hko : (Trigger.seq input).keyOf = ev.key := by unfold Trigger.keyOf; rw [hev']
        have hst : (Trigger.seq input).event.state = .Down := by rw [hev']
        have hkey : IsKeyOutput o := meaning_output hcomb hmean
        simp only [MIR.isMatched, Bool.not_true, Bool.and_false, Bool.false_eq_true, if_false]
        have hne : (MIR.matched ref o input ci == MIR.might) = false := rfl
        rw [hne]
        simp only [Bool.false_eq_true, if_false, retryStart, timeoutMatched, ht, notTimeoutFailed, applyResult]
        have htrig : chooseTrigger { s with anyM := a, ub := b, timeout := none } ev o input = .seq input := by
          have hka : (ev.key == Key.any) = false := beq_eq_false_iff_ne.2 hx.2.1
          have hcause : causeOf { s with anyM := a, ub := b, timeout := none } ev input = .seq input := by
            unfold causeOf
            simp only [hko, hka, hto, Bool.or_self, Bool.false_eq_true, if_false]
          unfold chooseTrigger
          simp only [hcause, hko]
          have hp : isPhysicallyPressed { s with anyM := a, ub := b, timeout := none } ev.key = true := by
            unfold isPhysicallyPressed rfindKey
            simp [hs, hd]
          rw [hp]
          rfl
        rw [htrig]
        obtain ⟨D, B, R, e1, e2⟩ := applyOutput_press hkey (.seq input) hst (ci : Int) { s with anyM := a, ub := b, timeout := none } sink
          ⟨hsk.down, hsk.sup, hsk.nodup, hsk.held, hsk.buf, hsk.reapplied⟩
        rw [hko] at e1 e2
        refine ⟨D, B, R, true, ?_, ⟨e2.down, e2.sup, e2.nodup, e2.held, e2.buf, e2.reapplied⟩⟩
        rw [e1, hci]
        simp only [finishSequence, hs, hfin, keptOf]
        simp [← ht, ← hm]
      | waits =>
        simp only at hres
        subst hres
        cases hv : isVirtualKey ev.key with
        | true =>
          simp only [MIR.isMatched, Bool.not_false, Bool.and_self, if_true]
          exact hnone hv (by simp)
        | false => exact absurd rfl (hw hv)
    | none =>
      rw [hmean] at hres hnone
      simp only at hres
      subst hres
      cases hv : isVirtualKey ev.key with
      | true =>
        simp only [MIR.isMatched, Bool.not_false, Bool.and_self, if_true]
        exact hnone hv (by simp)
      | false =>
        simp only [MIR.isMatched, Bool.not_false, Bool.false_and, Bool.false_eq_true, if_false]
        have : (MIR.noMatch == MIR.might) = false := rfl
        rw [this]
        simp only [Bool.false_eq_true, if_false, retryStart, hm]
        simp only [timeoutMatched, ht, notTimeoutFailed, applyResult, forwardFromSequence, hs]
        rw [forwardGo_skip _ _ l [ev] (fun e he => (hl e he).1) hnu]
        unfold forwardGo
        simp only [hd, hce]
        obtain ⟨D, B, R, e1, e2⟩ := updateOutput_put (s := { s with anyM := a, ub := b }) (k := sink)
          ⟨hsk.down, hsk.sup, hsk.nodup, hsk.held, hsk.buf, hsk.reapplied⟩ (e := ev)
          ⟨Or.inl hd, hval, hx.2.1, hx.2.2.1⟩ (.key ev.key) (-1)
        simp only [ht, hm, hs] at e1
        refine ⟨D, B, R, true, ?_, ?_⟩
        · simp [e1, hm, ht, keptOf]
        · have : outputOf ((l ++ [ev]).map (·.key)) (none : Option Meaning) ev.key = [ev] := by
            unfold outputOf
            simp only [hv, Bool.false_eq_true, if_false]
            rw [← hev]
          rw [this]
          exact ⟨e2.down, e2.sup, e2.nodup, e2.held, e2.buf, e2.reapplied⟩
  obtain ⟨D, B, R, cont, hround, h1⟩ := hround
  refine ⟨a, b, D, B, R, ?_, h1⟩
  unfold mainLoop
  rw [dif_pos hsn, hround]
  cases cont with
  | false => simp
  | true =>
    simp only [dite_true]
    unfold mainLoop
    rw [dif_neg]
    show ¬ hasNonOptional (l ++ [{ ev with state := .DownMatched }]) = true
    rw [hafter]; simp

/-- a release, applied to the keys held in the output -/
private def releaseHolds (s : S) (k : Key) : S :=
  { s with
    down := s.down.filter (fun o => o.trigger.keyOf != k)
    buf := s.buf ++ (((s.down.map holdOf).filter (fun h => h.cause == k && !h.lifted)).reverse.map (fun h => ⟨h.key, .Up, 0⟩)) }

private theorem releaseTriggered_holds {s : S} (ht : s.timeout = none)
    {k : Key} (hk : k ≠ Key.ContextActive) : releaseTriggered s k (-1) = releaseHolds s k := by
  have hst : staysDown k (-1) = fun o : OutputDown => o.trigger.keyOf != k := by
    funext o
    unfold staysDown
    by_cases h : o.trigger.keyOf = k
    · have h1 : (o.trigger.keyOf == k) = true := by simpa using h
      have h2 : (k == Key.ContextActive) = false := beq_eq_false_iff_ne.2 hk
      simp [h1, h2, h]
    · have h1 : (o.trigger.keyOf == k) = false := beq_eq_false_iff_ne.2 h
      simp [h1, h]
  unfold releaseTriggered releaseHolds
  simp only [hst, ht]
  congr 2
  rw [List.filter_map, ← List.map_reverse, List.map_map, List.filter_reverse, List.filter_filter]
  have : (fun o : OutputDown => (!o.temporarilyReleased) && !(o.trigger.keyOf != k)) = (fun h : Hold => h.cause == k && !h.lifted) ∘ holdOf := by
    funext o
    simp only [Function.comp, holdOf, bne, Bool.not_not]
    rw [Bool.and_comm]
  rw [this]
  rfl

private theorem releaseHolds_again (s : S) (k : Key) (l : KeySequence) (a : List Key) (b : Bool) :
    releaseHolds { releaseHolds s k with seq := l, anyM := a, ub := b } k = { releaseHolds s k with seq := l, anyM := a, ub := b } := by
  unfold releaseHolds
  simp only [List.filter_filter, Bool.and_self]
  have : ((s.down.filter (fun o => o.trigger.keyOf != k)).map holdOf).filter (fun h => h.cause == k && !h.lifted) = [] := by
    rw [List.filter_eq_nil_iff]
    intro o ho
    obtain ⟨o', h1, h2⟩ := List.mem_map.1 ho
    have := (List.mem_filter.1 h1).2
    rw [← h2]
    have h3 : (o'.trigger.keyOf == k) = false := by simpa using this
    simp only [holdOf, h3, Bool.false_and]
    simp
  rw [this]
  simp

/-- the main loop, when a key is released -/
private theorem mainLoop_releaseHolds {c : Cfg} {cs : List Context} (hcs : c.contexts = cs.map Context.sorted)
    (hcomb : ∀ ctx ∈ cs, ctx.OnlyCombines) {s : S} {ev : KeyEvent} {dev : Int} {u : Bool}
    {l : KeySequence} (hs : s.seq = l ++ [ev]) (hl : ∀ e ∈ l, e.state = .DownMatched ∧ Replaceable e.key)
    (hd : ev.state = .Up) (hx : Replaceable ev.key) (hn : ev.key ∉ l.map (·.key)) (hm : s.might = false)
    (ht : s.timeout = none) :
    ∃ a b, releaseTriggered (mainLoop c ev dev u s) ev.key (-1) = { releaseHolds s ev.key with seq := l, anyM := a, ub := b } ∧
      (∀ e ∈ (mainLoop c ev dev u s).seq, e.state = .DownMatched) := by
  have hsn : hasNonOptional s.seq = true := by
    rw [hs]; simp [hasNonOptional, isNonOptional, hd]
  have hnu : ∀ e ∈ l, (⟨e.key, .Up, 0⟩ : KeyEvent) ∉ [ev] := by
    intro e he h
    simp only [List.mem_singleton] at h
    apply hn
    rw [← h]
    exact List.mem_map.2 ⟨e, he, rfl⟩
  have hafter : hasNonOptional l = false := hasNonOptional_matched (fun e he => (hl e he).1)
  have hto : (ev.key == Key.timeout) = false := beq_eq_false_iff_ne.2 hx.2.2.1
  have hcand : ∀ x ∈ candidates c.contexts s.active dev, IsCombination x.2.2.input := by
    intro x hx'
    obtain ⟨h1, h2, _, h4⟩ := candidates_mem hx'
    rw [hcs, List.getElem?_map] at h2
    obtain ⟨c0, h5, h6⟩ := Option.map_eq_some_iff.1 h2
    rw [← h6] at h4
    exact (hcomb c0 (List.mem_of_getElem? h5)).inputs x.2.2 h4
  have hmi : ∃ a b, matchInput c s true (l ++ [ev]) dev u = ({ s with anyM := a, ub := b }, .noMatch) := by
    unfold matchInput
    simp only []
    obtain ⟨a, b, r, h1, h2⟩ := matchGo_combination (c := c) hx (Or.inr hd) hl hn (dev := dev) (u := u) _ hcand
      { s with ub := s.ub || ((!s.active.isEmpty && (decide (64 ≤ dev) || decide (dev < -2))) ||
        s.active.any (fun i => decide (c.contexts.length ≤ i))) }
    rw [if_neg (by rw [hd]; simp)] at h2
    simp only at h2
    subst h2
    exact ⟨a, b, h1⟩
  obtain ⟨a, b, hmi⟩ := hmi
  rw [← hs] at hmi
  refine ⟨a, b, ?_⟩
  cases hv : isVirtualKey ev.key with
  | true =>
    have hround : round c ev dev u s = ({ s with seq := l, anyM := a, ub := b }, false) := by
      unfold round
      rw [hmi]
      simp only [hv, MIR.isMatched, Bool.not_false, Bool.and_self, if_true]
      unfold finishSequence
      simp only [hs, List.length_append]
      rw [finishGo_skip _ l [ev] (fun e he => (hl e he).1) hnu]
      have : finishGo [ev].length [ev] = [] := by
        rw [List.length_singleton, finishGo, hd, hto]; simp [finishGo]
      rw [this, List.append_nil]
    have hmain : mainLoop c ev dev u s = { s with seq := l, anyM := a, ub := b } := by
      unfold mainLoop
      rw [dif_pos hsn, hround]
      simp
    rw [hmain, releaseTriggered_holds (by exact ht) hx.2.2.2]
    exact ⟨rfl, fun e he => (hl e he).1⟩
  | false =>
    have hround : round c ev dev u s = ({ releaseHolds s ev.key with seq := l, anyM := a, ub := b }, true) := by
      unfold round
      rw [hmi]
      simp only [hv, MIR.isMatched, Bool.not_false, Bool.false_and, Bool.false_eq_true, if_false]
      have : (MIR.noMatch == MIR.might) = false := rfl
      rw [this]
      simp only [Bool.false_eq_true, if_false, retryStart, hm]
      simp only [timeoutMatched, ht, notTimeoutFailed, applyResult, forwardFromSequence, hs]
      rw [forwardGo_skip _ _ l [ev] (fun e he => (hl e he).1) hnu]
      rw [forwardGo, hd]
      have hp := @releaseTriggered_holds { s with anyM := a, ub := b } ht ev.key hx.2.2.2
      simp only [ht, hm, hs] at hp
      simp [hp, releaseHolds, hm, ht]
    have hmain : mainLoop c ev dev u s = { releaseHolds s ev.key with seq := l, anyM := a, ub := b } := by
      unfold mainLoop
      rw [dif_pos hsn, hround]
      simp only [dite_true]
      unfold mainLoop
      rw [dif_neg]
      rw [hafter]; simp
    rw [hmain, releaseTriggered_holds (by exact ht) hx.2.2.2, releaseHolds_again]
    exact ⟨rfl, fun e he => (hl e he).1⟩

/-! ### a whole input -/

/-- the end of `apply_input`, when nothing is released -/
private theorem finishInput_rest {c : Cfg} (hc : Harmless (fun _ => False) (fun _ => True) c) {s : S} {ev : KeyEvent}
    (hd : ev.state = .Down) (hseq : ∀ e ∈ s.seq, e.state = .DownMatched) (ht : s.timeout = none) (hh : s.history = []) :
    ∃ r b, finishInput c s ev = { s with active := r, ub := b, reapplied := false } := by
  obtain ⟨r, h, b, _, h1, h2⟩ := finishInput_press hc (s := s) hd hseq ht (fun _ _ => trivial) (fun _ _ _ _ => trivial)
  have : h = [] := by
    cases h with
    | nil => rfl
    | cons x _ => have := h1 x (by simp); rw [hh] at this; simp at this
  subst this
  refine ⟨r, b, ?_⟩
  rw [h2]
  cases s
  simp only at hh
  subst hh
  rfl

/-- pressing a key, after merging repeats -/
private theorem pressTail_combine {c : Cfg} {s : S} {r : Combiner} {ev : KeyEvent} {dev : Int} (hd : ev.state = .Down) (hval : ev.value = 0)
    (hx : Replaceable ev.key) (h : CombInv c s { r with held := r.held.erase ev.key }) (hp : ∀ p ∈ r.pending, p.key ≠ ev.key) (hn : ev.key ∉ s.seq.map (·.key))
    (hw : isVirtualKey ev.key = false → r.meaning dev ev.key ≠ some .waits) :
    CombInv c { pressTail c s ev dev with buf := [] } (r.press ev dev).1 ∧ (pressTail c s ev dev).buf = (r.press ev dev).2 := by
  have hup : (ev.state == KeyState.Up) = false := by rw [hd]; rfl
  have e1 : addToHistory c { s with seq := s.seq ++ [ev] } ev = { s with seq := s.seq ++ [ev] } := by
    unfold addToHistory
    rw [h.nmm]; rfl
  have hca := computeActive_inUse (seq := s.seq ++ [ev]) h.stops h.clientSorted h.clientLt
  simp only at hca
  rw [← h.ctxs] at hca
  have hheld : (s.seq ++ [ev]).map (·.key) = r.held.erase ev.key ++ [ev.key] := by
    rw [List.map_append, h.held]; rfl
  rw [hheld] at hca
  obtain ⟨b2, e2⟩ := updateActive_eq h.harmless { s with seq := s.seq ++ [ev] } (by
    show computeActive c.contexts (s.seq ++ [ev]) s.activeClient [] = _
    rw [h.client]; exact hca)
  have hb : ∀ s : S, beforeMatchUp s ev = s := by intro s; simp [beforeMatchUp, hup]
  have hsk : SinkRel (loopStart s (s.seq ++ [ev]) s.history (contextsInUse r.contexts r.client (r.held.erase ev.key ++ [ev.key])) b2)
      { holds := r.holds } := {
    down := by
      show (s.down.map (fun o => { o with suppressed := false })).map holdOf = r.holds
      rw [← h.down, List.map_map]; rfl
    sup := by
      intro o ho
      obtain ⟨o', h1, h2⟩ := List.mem_map.1 ho
      subst h2; rfl
    nodup := h.nodupHolds
    held := by intro b hb; cases hb
    buf := h.buf
    reapplied := h.reapplied }
  have hmean : meaning r.contexts (contextsInUse r.contexts r.client (r.held.erase ev.key ++ [ev.key])) dev (s.seq.map (·.key)) ev.key =
      r.meaning dev ev.key := by
    rw [h.held]; rfl
  obtain ⟨a3, b3, D, B, R, e3, e4⟩ := mainLoop_combine h.ctxs h.comb h.uniq (dev := dev) (u := (ev.state == .Up && ev.key != Key.timeout))
    (s := loopStart s (s.seq ++ [ev]) s.history (contextsInUse r.contexts r.client (r.held.erase ev.key ++ [ev.key])) b2)
    (fun j hj => inUse_stops hj) rfl h.seq hd hval hx hn h.might h.timeout hsk (by
      intro hv
      show meaning r.contexts (contextsInUse r.contexts r.client (r.held.erase ev.key ++ [ev.key])) dev (s.seq.map (·.key)) ev.key ≠ _
      rw [hmean]; exact hw hv)
  have e4 : SinkRel { loopStart s (s.seq ++ [ev]) s.history (contextsInUse r.contexts r.client (r.held.erase ev.key ++ [ev.key])) b2 with
      down := D, buf := B, reapplied := R } ((outputOf ((s.seq ++ [ev]).map (·.key)) (r.meaning dev ev.key) ev.key).foldl (Sink.put ev.key) { holds := r.holds }) := by
    rw [← hmean]; exact e4
  have hof : outputOf ((s.seq ++ [ev]).map (·.key)) (r.meaning dev ev.key) ev.key = r.outputFor ev dev := by
    rw [hheld]
    unfold outputOf Combiner.outputFor
    rfl
  rw [hof] at e4
  have hseq' : ∀ e ∈ s.seq ++ [{ ev with state := KeyState.DownMatched }], e.state = .DownMatched ∧ Replaceable e.key := by
    intro e he
    simp only [List.mem_append, List.mem_singleton] at he
    rcases he with he | he
    · exact h.seq e he
    · rw [he]; exact ⟨rfl, hx⟩
  have hpt : pressTail c s ev dev = finishInput c (mainLoop c ev dev (ev.state == .Up && ev.key != Key.timeout)
      (loopStart s (s.seq ++ [ev]) s.history (contextsInUse r.contexts r.client (r.held.erase ev.key ++ [ev.key])) b2)) ev := by
    unfold pressTail
    simp only [e1, e2, hb]
    rfl
  have hkept : keptOf (meaning r.contexts (contextsInUse r.contexts r.client (r.held.erase ev.key ++ [ev.key])) dev (s.seq.map (·.key)) ev.key)
      (decidedIn r.contexts (contextsInUse r.contexts r.client (r.held.erase ev.key ++ [ev.key])) dev (s.seq.map (·.key)) ev.key) ev.key =
      (r.pendingFor ev dev).map Pending.kept := by
    rw [hmean, h.held]
    unfold Combiner.pendingFor keptOf keptFor
    generalize decidedIn r.contexts (contextsInUse r.contexts r.client (r.held.erase ev.key ++ [ev.key])) dev (r.held.erase ev.key) ev.key = d
    cases r.meaning dev ev.key with
    | none => rfl
    | some m =>
      cases m with
      | waits => rfl
      | output out =>
        cases d with
        | none => simp only []; cases onReleasePart out <;> rfl
        | some j => simp only []; cases onReleasePart out <;> rfl
  have hnew : ∀ p ∈ r.pendingFor ev dev, p.key = ev.key ∧ IsKeyOutput p.out := by
    intro p hp
    unfold Combiner.pendingFor at hp
    split at hp
    · next out hm =>
      split at hp
      · next rest j h1 _ =>
        rw [List.mem_singleton] at hp
        subst hp
        have ho : IsKeyOutput out := meaning_output h.comb (by unfold Combiner.meaning at hm; exact hm)
        exact ⟨rfl, fun e he => ho.states e (onReleasePart_mem h1 he), fun e he => ho.plain e (onReleasePart_mem h1 he)⟩
      · cases hp
    · cases hp
  have hlen : (r.pendingFor ev dev).length ≤ 1 := by
    unfold Combiner.pendingFor
    repeat' split
    all_goals simp
  have e3 : mainLoop c ev dev (ev.state == .Up && ev.key != Key.timeout)
      (loopStart s (s.seq ++ [ev]) s.history (contextsInUse r.contexts r.client (r.held.erase ev.key ++ [ev.key])) b2) =
      { loopStart s (s.seq ++ [ev]) s.history (contextsInUse r.contexts r.client (r.held.erase ev.key ++ [ev.key])) b2 with
        onRelease := s.onRelease ++ (r.pendingFor ev dev).map Pending.kept
        anyM := a3
        ub := b3
        seq := s.seq ++ [{ ev with state := .DownMatched }]
        down := D
        buf := B
        reapplied := R } := by
    rw [← hkept]; exact e3
  rw [hpt, e3]
  obtain ⟨r', b', e6⟩ := finishInput_rest h.harmless (ev := ev) hd (s := { loopStart s (s.seq ++ [ev]) s.history
      (contextsInUse r.contexts r.client (r.held.erase ev.key ++ [ev.key])) b2 with
        onRelease := s.onRelease ++ (r.pendingFor ev dev).map Pending.kept
        anyM := a3
        ub := b3
        seq := s.seq ++ [{ ev with state := .DownMatched }]
        down := D
        buf := B
        reapplied := R }) (fun e he => (hseq' e he).1) h.timeout h.hist
  rw [e6]
  refine ⟨?_, e4.buf⟩
  exact {
    ctxs := h.ctxs, nmm := h.nmm, comb := h.comb, uniq := h.uniq, stops := h.stops, client := h.client
    clientSorted := h.clientSorted, clientLt := h.clientLt, might := h.might, timeout := h.timeout
    onRel := by
      show s.onRelease ++ (r.pendingFor ev dev).map Pending.kept = (r.pending ++ r.pendingFor ev dev).map Pending.kept
      rw [h.onRel, List.map_append]
    pendingNodup := by
      show ((r.pending ++ r.pendingFor ev dev).map (·.key)).Nodup
      rw [List.map_append, List.nodup_append]
      refine ⟨h.pendingNodup, ?_, ?_⟩
      · revert hlen
        cases r.pendingFor ev dev with
        | nil => simp
        | cons a l => cases l <;> simp
      · intro a ha b hb hab
        obtain ⟨p, h1, rfl⟩ := List.mem_map.1 ha
        obtain ⟨q, h2, rfl⟩ := List.mem_map.1 hb
        exact hp p h1 (hab.trans (hnew q h2).1)
    pendingOut := by
      intro p hp
      rcases List.mem_append.1 hp with hp | hp
      · exact h.pendingOut p hp
      · exact (hnew p hp).2
    pendingHeld := by
      intro p hp
      show p.key ∈ r.held.erase ev.key ++ [ev.key]
      rcases List.mem_append.1 hp with hp | hp
      · exact List.mem_append_left _ (h.pendingHeld p hp)
      · rw [(hnew p hp).1]; simp
    buf := rfl, reapplied := rfl, hist := h.hist, seq := hseq'
    held := by
      show (s.seq ++ [{ ev with state := KeyState.DownMatched }]).map (fun e : KeyEvent => e.key) = _
      rw [List.map_append, h.held]; rfl
    nodup := by
      show (r.held.erase ev.key ++ [ev.key]).Nodup
      rw [List.nodup_append]
      refine ⟨h.nodup, by simp, ?_⟩
      intro a ha b hb hab
      simp only [List.mem_singleton] at hb
      subst hb; subst hab
      exact hn (by rw [h.held]; exact ha)
    down := e4.down, nodupHolds := e4.nodup, sup := e4.sup, bannedHeld := e4.held, lp := h.lp, lr := h.lr }

theorem CombInv.noPending {c s r} (h : CombInv c s r) {k : Key} (hk : k ∉ r.held) : ∀ p ∈ r.pending, p.key ≠ k := by
  intro p hp hpk
  exact hk (hpk ▸ h.pendingHeld p hp)

theorem CombInv.erase {c s r} (h : CombInv c s r) {k : Key} (hk : k ∉ s.seq.map (·.key)) : CombInv c s { r with held := r.held.erase k } := by
  have : r.held.erase k = r.held := List.erase_of_not_mem (by rw [← h.held]; exact hk)
  rw [this]; exact h

private theorem CombInv.press' {c s r} (h : CombInv c s r) {ev : KeyEvent} (dev : Int) (hd : ev.state = .Down) (hval : ev.value = 0) (hx : Replaceable ev.key)
    (hnp : r.pending.any (fun p => p.key == ev.key) = false)
    (hw : isVirtualKey ev.key = false → r.ignores ev dev = false → r.meaning dev ev.key ≠ some .waits) :
    CombInv c { (match mergeRepeat s ev dev with
      | (s, true) => s
      | (s, false) => pressTail c s ev dev) with buf := [] } (r.step (.input ev dev)).1 ∧
    (match mergeRepeat s ev dev with
      | (s, true) => s
      | (s, false) => pressTail c s ev dev).buf = (r.step (.input ev dev)).2 := by
  have hpn : ∀ p ∈ r.pending, p.key ≠ ev.key := by
    intro p hp hk
    rw [List.any_eq_false] at hnp
    exact hnp p hp (by simpa using hk)
  have hp := pressed_of_matched (fun e he => (h.seq e he).1) s rfl ev.key
  have hmem : r.held.contains ev.key = true ↔ ev.key ∈ s.seq.map (·.key) := by rw [h.held]; simp
  have hm : ¬ s.might = true := by rw [h.might]; simp
  have hd' : (ev.state == KeyState.Down) = true := by rw [hd]; rfl
  simp only [Combiner.step, hd, if_true]
  unfold mergeRepeat
  rw [if_pos hd']
  by_cases hk : ev.key ∈ s.seq.map (·.key)
  · rw [if_pos (hp.2 hk), if_neg hm]
    have hc := hmem.2 hk
    have tail : ∀ lr', CombInv c { s with lastRepeat := lr', seq := rEraseKey s.seq ev.key } { r with lastRepeat := lr', held := r.held.erase ev.key } := by
      intro lr'
      exact { h with
        seq := by
          intro e he
          unfold rEraseKey at he
          exact h.seq e (by simpa using List.mem_of_mem_eraseP (List.mem_reverse.1 he))
        held := by
          show (rEraseKey s.seq ev.key).map (·.key) = _
          rw [rEraseKey_erase (by rw [h.held]; exact h.nodup), h.held]
        nodup := h.nodup.erase _
        pendingHeld := fun p hp => (List.mem_erase_of_ne (hpn p hp)).2 (h.pendingHeld p hp)
        lr := rfl }
    have hnot : ev.key ∉ (rEraseKey s.seq ev.key).map (·.key) := by
      rw [(rEraseKey_keys (by rw [h.held]; exact h.nodup) ev.key).2]
      simp
    by_cases h1 : dev = noDeviceIndex
    · have hig : r.ignores ev dev = false := by simp [Combiner.ignores, hnp, h1]
      have hdev : r.device ev dev = r := by simp [Combiner.device, hd, h1]
      have hpt := pressTail_combine (r := r) (dev := dev) hd hval hx (by have := tail s.lastRepeat; rw [h.lr] at this; exact this) hpn (by exact hnot) (fun hv => hw hv hig)
      simp only [hig, hdev]
      simp only [h1, bne_self_eq_false, Bool.false_and, Bool.false_eq_true, if_false] at hpt ⊢
      have : ({ s with lastRepeat := r.lastRepeat, seq := rEraseKey s.seq ev.key } : S) = { s with seq := rEraseKey s.seq ev.key } := by
        rw [← h.lr]
      rw [this] at hpt
      exact hpt
    · have h1' : (dev != noDeviceIndex) = true := by simpa using h1
      by_cases h2 : dev = s.lastPressed
      · have h2r : dev = r.lastPressed := h2.trans h.lp
        have hig : r.ignores ev dev = false := by simp [Combiner.ignores, hnp, h2r]
        have hdev : r.device ev dev = { r with lastRepeat := dev } := by
          simp only [Combiner.device, hd, if_true, if_neg h1, hc, ← h2r]
        have hpt := pressTail_combine (r := { r with lastRepeat := dev }) (dev := dev) hd hval hx (tail dev) hpn (by exact hnot) (fun hv => hw hv hig)
        have h2' : (dev == s.lastPressed) = true := by simpa using h2
        simp only [hig, hdev]
        simp only [h1', h2', Bool.true_and, if_true, bne_self_eq_false, Bool.false_eq_true, if_false]
        exact hpt
      · have h2r : dev ≠ r.lastPressed := fun e => h2 (e.trans h.lp.symm)
        have h2' : (dev == s.lastPressed) = false := by simpa using h2
        by_cases h3 : dev = s.lastRepeat
        · have h3r : dev = r.lastRepeat := h3.trans h.lr
          have hig : r.ignores ev dev = false := by simp [Combiner.ignores, hnp, h3r]
          have hdev : r.device ev dev = r := by
            simp only [Combiner.device, hd, if_true, if_neg h1, hc, if_neg h2r]
          have hpt := pressTail_combine (r := r) (dev := dev) hd hval hx (by have := tail s.lastRepeat; rw [h.lr] at this; exact this) hpn (by exact hnot) (fun hv => hw hv hig)
          have : ({ s with lastRepeat := r.lastRepeat, seq := rEraseKey s.seq ev.key } : S) = { s with seq := rEraseKey s.seq ev.key } := by
            rw [← h.lr]
          rw [this] at hpt
          have h3' : (dev != s.lastRepeat) = false := by simpa using h3
          simp only [hig, hdev]
          simp only [h1', h2', h3', Bool.and_false, Bool.false_eq_true, if_false]
          exact hpt
        · have h3r : dev ≠ r.lastRepeat := fun e => h3 (e.trans h.lr.symm)
          have hig : r.ignores ev dev = true := by
            simp only [Combiner.ignores, hnp, Bool.false_or, hc, Bool.true_and, h1', Bool.and_eq_true, bne_iff_ne, ne_eq]
            exact ⟨h2r, h3r⟩
          have h3' : (dev != s.lastRepeat) = true := by simpa using h3
          simp only [hig]
          simp only [h1', h2', h3', Bool.and_false, Bool.and_true, Bool.false_eq_true, if_false, if_true]
          exact ⟨{ h with buf := rfl }, h.buf⟩
  · have hc : r.held.contains ev.key = false := by
      cases hh : r.held.contains ev.key with
      | false => rfl
      | true => exact absurd (hmem.1 hh) hk
    have hig : r.ignores ev dev = false := by simp only [Combiner.ignores, hnp, Bool.false_or, hc, Bool.false_and]
    rw [if_neg (fun h => hk (hp.1 h))]
    simp only [hig]
    by_cases h1 : dev = noDeviceIndex
    · have hdev : r.device ev dev = r := by simp [Combiner.device, hd, h1]
      have hpt := pressTail_combine (r := r) (dev := dev) hd hval hx (h.erase hk) hpn hk (fun hv => hw hv hig)
      simp only [hdev]
      simp only [h1, bne_self_eq_false, Bool.false_eq_true, if_false] at hpt ⊢
      exact hpt
    · have h1' : (dev != noDeviceIndex) = true := by simpa using h1
      have hdev : r.device ev dev = { r with lastPressed := dev, lastRepeat := if dev = r.lastRepeat then noDeviceIndex else r.lastRepeat } := by
        simp only [Combiner.device, hd, if_true, if_neg h1, hc, Bool.false_eq_true, if_false]
      have hpt := pressTail_combine (r := r.device ev dev) (dev := dev) (s := { s with
          lastRepeat := if dev == s.lastRepeat then noDeviceIndex else s.lastRepeat
          lastPressed := dev }) hd hval hx (by
        rw [hdev]
        exact { (h.erase hk) with
          lp := rfl
          lr := by simp only [beq_iff_eq, h.lr] }) (by rw [hdev]; exact hpn) hk (by rw [hdev]; exact fun hv => hw hv hig)
      simp only [h1', if_true, Bool.false_eq_true, if_false]
      exact hpt

private theorem isContinuedBy_kept {k : Key} (hk : k ≠ Key.ContextActive) (p : Pending) : isContinuedBy k (-1) p.kept = (p.key == k) := by
  unfold isContinuedBy Pending.kept
  simp only []
  by_cases h : p.key = k
  · have h1 : (p.key != Key.ContextActive) = true := by rw [h]; simpa using hk
    rw [h1]; simp
  · have h1 : (p.key == k) = false := beq_eq_false_iff_ne.2 h
    rw [h1]; rfl

private theorem find_kept {k : Key} (hk : k ≠ Key.ContextActive) (l : List Pending) :
    (l.map Pending.kept).find? (isContinuedBy k (-1)) = (l.find? (fun p => p.key == k)).map Pending.kept := by
  rw [List.find?_map]
  congr 2
  funext p
  exact isContinuedBy_kept hk p

/-- `apply_input`, after the output on release was continued -/
private theorem applyInput_continued {c : Cfg} {s s0 s1 : S} {ev : KeyEvent} {dev : Int} (h0 : s0 = { s with ub := if validInput ev then s.ub else true })
    (h : continueOnRelease s0 ev (-1) = (s1, true)) (ht : s1.timeout = none) :
    applyInput c s ev dev =
      match mergeRepeat s1 ev dev with
      | (s, true) => s
      | (s, false) => pressTail c s ev dev := by
  have hsu : suppressTimeout s1 ev = (s1, false) := by
    unfold suppressTimeout
    simp only [ht]
  have : (if validInput ev = true then s else { s with ub := true }) =
      { s with ub := if validInput ev then s.ub else true } := by
    split <;> rfl
  unfold applyInput
  simp only [this]
  rw [← h0, h]
  simp only []
  rw [hsu]
  rfl

private theorem applyInput_stopped {c : Cfg} {s s1 : S} {ev : KeyEvent} {dev : Int}
    (h : continueOnRelease { s with ub := if validInput ev then s.ub else true } ev (-1) = (s1, false)) : applyInput c s ev dev = s1 := by
  have : (if validInput ev = true then s else { s with ub := true }) =
      { s with ub := if validInput ev then s.ub else true } := by
    split <;> rfl
  unfold applyInput
  simp only [this]
  rw [h]

theorem CombInv.press {c s r} (h : CombInv c s r) {ev : KeyEvent} (dev : Int) (hd : ev.state = .Down) (hval : ev.value = 0) (hx : Replaceable ev.key)
    (hw : isVirtualKey ev.key = false → r.ignores ev dev = false → r.meaning dev ev.key ≠ some .waits) :
    CombInv c (update c s ev dev).1 (r.step (.input ev dev)).1 ∧ (update c s ev dev).2 = (r.step (.input ev dev)).2 := by
  have h0 : CombInv c { s with exitPos := advanceExit s.exitPos ev, ub := if validInput ev then s.ub else true } r := { h with }
  have hf : (s.onRelease).find? (isContinuedBy ev.key (-1)) = (r.pending.find? (fun p => p.key == ev.key)).map Pending.kept := by
    rw [h.onRel, find_kept hx.2.2.2]
  cases hp : r.pending.any (fun p => p.key == ev.key) with
  | true =>
    have hig : r.ignores ev dev = true := by unfold Combiner.ignores; rw [hp]; rfl
    have hstep : r.step (.input ev dev) = (r, []) := by
      simp only [Combiner.step, hd, if_true, hig]
    obtain ⟨p, hpf⟩ : ∃ p, r.pending.find? (fun p => p.key == ev.key) = some p := by
      rw [← Option.isSome_iff_exists, List.find?_isSome]
      obtain ⟨p, h1, h2⟩ := List.any_eq_true.1 hp
      exact ⟨p, h1, h2⟩
    rw [hpf] at hf
    have hai := applyInput_stopped (c := c) (s := { s with exitPos := advanceExit s.exitPos ev }) (ev := ev) (dev := dev)
      (s1 := { s with exitPos := advanceExit s.exitPos ev, ub := if validInput ev then s.ub else true }) (by
        unfold continueOnRelease
        simp only [hf, Option.map_some, hd, beq_self_eq_true, if_true])
    rw [hstep]
    unfold update
    simp only [hai]
    exact ⟨{ h0 with buf := rfl }, h.buf⟩
  | false =>
    have hnone : r.pending.find? (fun p => p.key == ev.key) = none := by
      rw [List.find?_eq_none]
      intro p h1
      exact List.any_eq_false.1 hp p h1
    rw [hnone] at hf
    have hai := applyInput_continued (c := c) (s := { s with exitPos := advanceExit s.exitPos ev }) (ev := ev) (dev := dev)
      (s1 := { s with exitPos := advanceExit s.exitPos ev, ub := if validInput ev then s.ub else true }) rfl (by
        unfold continueOnRelease
        simp only [hf, Option.map_none]) h.timeout
    unfold update
    simp only [hai]
    generalize ({ s with exitPos := advanceExit s.exitPos ev, ub := if validInput ev then s.ub else true } : S) = s0 at *
    clear h hai
    exact h0.press' dev hd hval hx hp hw

private theorem CombInv.release' {c s r} (h : CombInv c { s with buf := [], reapplied := false } r) {ev : KeyEvent} (dev : Int) (hd : ev.state = .Up) (hx : Replaceable ev.key)
    (hpn : ∀ p ∈ r.pending, p.key ≠ ev.key) :
    CombInv c { pressTail c s ev dev with buf := [] } { r with held := r.held.erase ev.key, holds := r.holds.filter (fun h => h.cause != ev.key), banned := [] } ∧
    (pressTail c s ev dev).buf = s.buf ++ ((r.holds.filter (fun h => h.cause == ev.key && !h.lifted)).reverse.map (fun h => ⟨h.key, .Up, 0⟩)) := by
  have hclient : s.activeClient = r.client := h.client
  have hsdown : s.down.map holdOf = r.holds := h.down
  have hsseq : ∀ e ∈ s.seq, e.state = .DownMatched ∧ Replaceable e.key := h.seq
  have hheld : s.seq.map (·.key) = r.held := h.held
  have hmight : s.might = false := h.might
  have htimeout : s.timeout = none := h.timeout
  have hhist : s.history = [] := h.hist
  have e1 : addToHistory c { s with seq := s.seq ++ [ev] } ev = { s with seq := s.seq ++ [ev] } := by
    unfold addToHistory
    rw [h.nmm]; rfl
  have hca := computeActive_inUse (seq := s.seq ++ [ev]) h.stops h.clientSorted h.clientLt
  rw [← h.ctxs] at hca
  obtain ⟨b2, e2⟩ := updateActive_eq h.harmless { s with seq := s.seq ++ [ev] } (by
    show computeActive c.contexts (s.seq ++ [ev]) s.activeClient [] = _
    rw [hclient]; exact hca)
  have hdown : (s.down.map (fun o => { o with suppressed := false })).map holdOf = r.holds := by
    rw [← hsdown, List.map_map]; rfl
  -- the key is removed from the sequence
  have hbm : ∃ l b, (∀ e ∈ l, e.state = .DownMatched ∧ Replaceable e.key) ∧ ev.key ∉ l.map (·.key) ∧ l.map (·.key) = r.held.erase ev.key ∧
      ∀ (act : List Nat), beforeMatchUp { s with seq := s.seq ++ [ev], active := act, ub := b2 } ev =
        { s with seq := l ++ [ev], active := act, ub := b } := by
    by_cases hk : ev.key ∈ s.seq.map (·.key)
    · refine ⟨s.seq.eraseP (·.key == ev.key), b2, ?_, ?_, ?_, ?_⟩
      · exact fun e he => hsseq e (List.mem_of_mem_eraseP he)
      · rw [eraseP_key_keys (by rw [hheld]; exact h.nodup), hheld]
        exact fun hm => ((h.nodup.mem_erase_iff).1 hm).1 rfl
      · rw [eraseP_key_keys (by rw [hheld]; exact h.nodup), hheld]
      · intro act
        obtain ⟨e, he1, he2⟩ := List.mem_map.1 hk
        have hf : ∃ e', s.seq.find? (·.key == ev.key) = some e' := by
          cases hf : s.seq.find? (·.key == ev.key) with
          | some e' => exact ⟨e', rfl⟩
          | none =>
            rw [List.find?_eq_none] at hf
            have := hf e he1
            simp [he2] at this
        obtain ⟨e', hf⟩ := hf
        unfold beforeMatchUp
        simp only [hd, beq_self_eq_true, if_true, htimeout, Option.bind_none, Option.isSome_none, Bool.false_eq_true, if_false,
          hmight, Bool.not_false, findKey, List.find?_append, hf, Option.or_some, Option.some_or]
        rw [(hsseq e' (List.mem_of_find?_eq_some hf)).1]
        simp only [beq_self_eq_true, if_true]
        rw [List.eraseP_append_left (a := e) (by simp [he2]) _ he1]
    · refine ⟨s.seq, b2, hsseq, hk, ?_, ?_⟩
      · rw [hheld, List.erase_of_not_mem]; rw [← hheld]; exact hk
      · intro act
        have hf : s.seq.find? (·.key == ev.key) = none := by
          rw [List.find?_eq_none]
          intro e he
          simp only [beq_iff_eq]
          exact fun h' => hk (List.mem_map.2 ⟨e, he, h'⟩)
        unfold beforeMatchUp
        simp only [hd, beq_self_eq_true, if_true, htimeout, Option.bind_none, Option.isSome_none, Bool.false_eq_true, if_false,
          hmight, Bool.not_false, findKey, List.find?_append, hf, Option.none_or, List.find?_cons, reduceCtorEq]
        rfl
  obtain ⟨l, b, hl, hn, hkeys, hbm⟩ := hbm
  generalize contextsInUse r.contexts r.client (List.map (fun x => x.key) (s.seq ++ [ev])) = act at *
  obtain ⟨a3, b3, e3, e4⟩ := mainLoop_releaseHolds h.ctxs h.comb (dev := dev) (u := (ev.state == .Up && ev.key != Key.timeout))
    (s := loopStart s (l ++ [ev]) s.history act b) rfl hl hd hx hn hmight htimeout
  have hpt : pressTail c s ev dev = finishInput c (mainLoop c ev dev (ev.state == .Up && ev.key != Key.timeout)
      (loopStart s (l ++ [ev]) s.history act b)) ev := by
    unfold pressTail
    simp only [e1, e2, hbm]
    rfl
  have hfi : ∀ s : S, finishInput c s ev = finishInput c (releaseTriggered s ev.key (-1)) ⟨ev.key, .Down, 0⟩ := by
    intro s
    unfold finishInput
    simp only [hd, beq_self_eq_true, if_true]
    rfl
  rw [hpt, hfi, e3]
  obtain ⟨r', b', e6⟩ := finishInput_rest h.harmless (ev := ⟨ev.key, .Down, 0⟩)
    (s := { releaseHolds (loopStart s (l ++ [ev]) s.history act b) ev.key with seq := l, anyM := a3, ub := b3 }) rfl
    (fun e he => (hl e he).1) htimeout hhist
  rw [e6]
  unfold releaseHolds loopStart
  simp only [hdown]
  refine ⟨?_, trivial⟩
  exact {
    ctxs := h.ctxs, nmm := h.nmm, comb := h.comb, uniq := h.uniq, stops := h.stops, client := h.client
    clientSorted := h.clientSorted, clientLt := h.clientLt, might := hmight, timeout := htimeout, onRel := h.onRel
    pendingNodup := h.pendingNodup, pendingOut := h.pendingOut
    pendingHeld := fun p hp => (List.mem_erase_of_ne (hpn p hp)).2 (h.pendingHeld p hp)
    buf := rfl, reapplied := rfl, hist := hhist, seq := hl, held := hkeys, nodup := h.nodup.erase _
    down := by
      show ((s.down.map (fun o => { o with suppressed := false })).filter (fun o => o.trigger.keyOf != ev.key)).map holdOf = _
      show _ = r.holds.filter (fun h => h.cause != ev.key)
      rw [← hdown, List.filter_map (f := holdOf)]
      rfl
    nodupHolds := h.nodupHolds.sublist (List.Sublist.map _ List.filter_sublist)
    sup := by
      intro o ho
      obtain ⟨o', h1, rfl⟩ := List.mem_map.1 (List.mem_filter.1 ho).1
      rfl
    bannedHeld := by intro b hb; cases hb
    lp := h.lp, lr := h.lr }

/-- the output on release is continued -/
private theorem continue_up {c s r} (h : CombInv c s r) {ev : KeyEvent} (hd : ev.state = .Up) (hx : Replaceable ev.key) :
    ∃ D B R, continueOnRelease s ev (-1) = ({ s with
        down := D
        buf := B
        reapplied := R
        onRelease := (r.pending.filter (fun p => p.key != ev.key)).map Pending.kept }, true) ∧
      SinkRel { s with down := D, buf := B, reapplied := R } ((r.releaseOutput ev.key).foldl (Sink.put ev.key) { holds := r.holds, banned := r.banned }) := by
  have hsk : SinkRel s { holds := r.holds, banned := r.banned } := ⟨h.down, h.sup, h.nodupHolds, h.bannedHeld, h.buf, h.reapplied⟩
  have hf : (s.onRelease).find? (isContinuedBy ev.key (-1)) = (r.pending.find? (fun p => p.key == ev.key)).map Pending.kept := by
    rw [h.onRel, find_kept hx.2.2.2]
  unfold continueOnRelease Combiner.releaseOutput
  cases hp : r.pending.find? (fun p => p.key == ev.key) with
  | none =>
    rw [hp] at hf
    simp only [hf, Option.map_none]
    refine ⟨s.down, s.buf, s.reapplied, ?_, hsk⟩
    have : r.pending.filter (fun p => p.key != ev.key) = r.pending := by
      rw [List.filter_eq_self]
      intro p h1
      have := List.find?_eq_none.1 hp p h1
      simpa using this
    rw [this, ← h.onRel]
  | some p =>
    rw [hp] at hf
    have hd' : (ev.state == KeyState.Down) = false := by rw [hd]; rfl
    simp only [hf, Option.map_some, hd', Bool.false_eq_true, if_false]
    obtain ⟨D, B, R, h1, h2⟩ := applyOutput_release (h.pendingOut p (List.mem_of_find?_eq_some hp)) (.ev ev) (by show ev.state ≠ _; rw [hd]; decide) p.kept.ctx s _ hsk
    refine ⟨D, B, R, ?_, by rw [← h.held]; exact h2⟩
    have he : s.onRelease.eraseP (isContinuedBy ev.key (-1)) = (r.pending.filter (fun p => p.key != ev.key)).map Pending.kept := by
      rw [h.onRel]
      have hnd := h.pendingNodup
      generalize r.pending = l at hnd
      induction l with
      | nil => rfl
      | cons q l ih =>
        rw [List.map_cons, List.nodup_cons] at hnd
        rw [List.map_cons]
        by_cases hq : q.key = ev.key
        · rw [List.eraseP_cons_of_pos (by rw [isContinuedBy_kept hx.2.2.2]; simpa using hq), List.filter_cons_of_neg (by simp [hq])]
          rw [List.filter_eq_self.2]
          intro p' h3
          simp only [bne_iff_ne, ne_eq]
          intro h4
          exact hnd.1 (List.mem_map.2 ⟨p', h3, h4.trans hq.symm⟩)
        · rw [List.eraseP_cons_of_neg (by rw [isContinuedBy_kept hx.2.2.2]; simpa using hq), List.filter_cons_of_pos (by simpa using hq), ih hnd.2, List.map_cons]
    have hseq : p.kept.sequence = p.out := rfl
    rw [hseq, h1]
    simp only [he]

theorem CombInv.release {c s r} (h : CombInv c s r) {ev : KeyEvent} (dev : Int) (hd : ev.state = .Up) (hx : Replaceable ev.key) :
    CombInv c (update c s ev dev).1 (r.step (.input ev dev)).1 ∧ (update c s ev dev).2 = (r.step (.input ev dev)).2 := by
  have h0 : CombInv c { s with exitPos := advanceExit s.exitPos ev, ub := if validInput ev then s.ub else true } r := { h with }
  obtain ⟨s0, hs0⟩ : ∃ s0, s0 = ({ s with exitPos := advanceExit s.exitPos ev, ub := if validInput ev then s.ub else true } : S) := ⟨_, rfl⟩
  rw [← hs0] at h0
  obtain ⟨D, B, R, hco, hsk⟩ := continue_up h0 hd hx
  have hai := applyInput_continued (c := c) (s := { s with exitPos := advanceExit s.exitPos ev }) (dev := dev) hs0 hco h0.timeout
  unfold update
  simp only [hai]
  clear h hai hco hs0 s
  have hd0 : (ev.state == KeyState.Down) = false := by rw [hd]; rfl
  have hstep : r.step (.input ev dev) = (r.device ev dev).release ev.key := by
    simp only [Combiner.step, hd, reduceCtorEq, if_false]
  have hdev : r.device ev dev = { r with lastRepeat := if dev = r.lastRepeat then noDeviceIndex else r.lastRepeat } := by
    simp only [Combiner.device, hd, reduceCtorEq, if_false]
  rw [hstep, hdev]
  unfold mergeRepeat
  simp only [hd0, Bool.false_eq_true, if_false]
  obtain ⟨sink, hsink⟩ : ∃ sink, sink = (r.releaseOutput ev.key).foldl (Sink.put ev.key) { holds := r.holds, banned := r.banned } := ⟨_, rfl⟩
  have hrel : Combiner.release { r with lastRepeat := if dev = r.lastRepeat then noDeviceIndex else r.lastRepeat } ev.key =
      ({ r with
          lastRepeat := if dev = r.lastRepeat then noDeviceIndex else r.lastRepeat
          held := r.held.erase ev.key
          holds := sink.holds.filter (fun h => h.cause != ev.key)
          banned := []
          pending := r.pending.filter (fun p => p.key != ev.key) },
        sink.sent ++ ((sink.holds.filter (fun h => h.cause == ev.key && !h.lifted)).reverse.map (fun h => ⟨h.key, .Up, 0⟩))) := by
    rw [hsink]; rfl
  rw [← hsink] at hsk
  rw [hrel]
  have hB : B = sink.sent := hsk.buf
  rw [← hB]
  exact CombInv.release' (s := { s0 with
      down := D
      buf := B
      reapplied := R
      onRelease := (r.pending.filter (fun p => p.key != ev.key)).map Pending.kept
      lastRepeat := if dev == s0.lastRepeat then noDeviceIndex else s0.lastRepeat })
    (r := { r with
      holds := sink.holds
      banned := sink.banned
      pending := r.pending.filter (fun p => p.key != ev.key)
      lastRepeat := if dev = r.lastRepeat then noDeviceIndex else r.lastRepeat })
    { h0 with
      onRel := rfl
      pendingNodup := h0.pendingNodup.sublist (List.Sublist.map _ List.filter_sublist)
      pendingOut := fun p hp => h0.pendingOut p (List.mem_filter.1 hp).1
      pendingHeld := fun p hp => h0.pendingHeld p (List.mem_filter.1 hp).1
      down := hsk.down
      nodupHolds := hsk.nodup
      sup := hsk.sup
      bannedHeld := hsk.held
      buf := rfl
      reapplied := rfl
      lr := by simp only [beq_iff_eq, h0.lr] } dev hd hx (fun p hp => by simpa using (List.mem_filter.1 hp).2)

/-- a context which does not fall through -/
private theorem fallthrough_sorted_self {cs : List Context} {i : Nat} (h : ∃ ctx, cs[i]? = some ctx ∧ ctx.fallthrough = false) :
    fallthroughContext (cs.map Context.sorted) i = some i := by
  obtain ⟨ctx, h1, h2⟩ := h
  have h3 : (cs.map Context.sorted)[i]? = some ctx.sorted := by rw [List.getElem?_map, h1]; rfl
  obtain ⟨h4, h5⟩ := List.getElem?_eq_some_iff.1 h3
  unfold fallthroughContext
  rw [List.drop_eq_getElem_cons h4, fallthroughGo, h5]
  have : ctx.sorted.fallthrough = false := h2
  rw [this]
  rfl

/-- contexts become active -/
theorem CombInv.contexts {c s r} (h : CombInv c s r) {l : List Nat} (h1 : l.Pairwise (· ≤ ·)) (h2 : ∀ i ∈ l, i < r.contexts.length) :
    CombInv c (setActiveClientContexts c s l).1 (r.step (.contexts l)).1 ∧ (setActiveClientContexts c s l).2 = (r.step (.contexts l)).2 := by
  have hca := computeActive_inUse (seq := s.seq) h.stops h1 h2
  rw [← h.ctxs, h.held] at hca
  have hs : ∃ b, setActiveClientContexts c s l = ({ s with
      activeClient := l
      active := contextsInUse r.contexts l r.held
      onRelease := (r.pending.filter (fun p => (contextsInUse r.contexts l r.held).contains p.ctx)).map Pending.kept
      ub := b }, []) := by
    unfold setActiveClientContexts
    simp only []
    generalize hq : (if (decide (l.Pairwise (· ≤ ·)) && l.all (fun i => decide (i < c.contexts.length))) = true
      then s else { s with ub := true }) = s1
    have hs1 : ∃ b, s1 = { s with ub := b } := by
      rw [← hq]; split
      · exact ⟨s.ub, rfl⟩
      · exact ⟨true, rfl⟩
    obtain ⟨b, hs1⟩ := hs1
    subst hs1
    obtain ⟨b', he⟩ := updateActive_eq h.harmless { s with ub := b, activeClient := l } hca
    rw [he]
    refine ⟨b', ?_⟩
    unfold cancelInactiveOnRelease
    simp only [h.buf, h.onRel]
    have : (r.pending.map Pending.kept).filter (fun o => isContextActive c.contexts (contextsInUse r.contexts l r.held) o.ctx) =
        (r.pending.filter (fun p => (contextsInUse r.contexts l r.held).contains p.ctx)).map Pending.kept := by
      rw [List.filter_map]
      congr 1
      apply List.filter_congr
      intro p _
      simp only [Function.comp, Pending.kept]
      unfold isContextActive
      rw [Bool.eq_iff_iff, List.any_eq_true, List.contains_iff_mem]
      have hft : ∀ i ∈ contextsInUse r.contexts l r.held, fallthroughContext c.contexts i = some i := by
        intro i hi
        rw [h.ctxs]
        exact fallthrough_sorted_self (inUse_stops hi)
      constructor
      · rintro ⟨i, hi, h3⟩
        rw [hft i hi] at h3
        simp only [Bool.or_self, beq_iff_eq] at h3
        have : i = p.ctx := by omega
        rw [← this]; exact hi
      · intro hi
        exact ⟨p.ctx, hi, by simp⟩
    rw [this]
  obtain ⟨b, hs⟩ := hs
  rw [hs]
  exact ⟨{ h with
    client := rfl
    clientSorted := h1
    clientLt := h2
    onRel := rfl
    pendingNodup := h.pendingNodup.sublist (List.Sublist.map _ List.filter_sublist)
    pendingOut := fun p hp => h.pendingOut p (List.mem_filter.1 hp).1
    pendingHeld := fun p hp => h.pendingHeld p (List.mem_filter.1 hp).1 }, rfl⟩

end KM
