import Verif.Lemmas.ExcludeMatch
import Verif.Lemmas.Transparent
import Verif.Lemmas.Context
/-!
# A stage while an application is excluded
-/
namespace KM

/-! ### active contexts -/

/-- no context has a mapping of its activation -/
private theorem onContextActiveEvent_none {c : Cfg} (hc : ∀ ctx ∈ c.contexts, ∀ m ∈ ctx.inputs, OrdinaryMapping m.input) (s : S) (ev : KeyEvent) (i : Nat) :
    ∃ b, onContextActiveEvent c s ev i = { s with ub := b } := by
  unfold onContextActiveEvent
  split
  · exact ⟨true, rfl⟩
  · next ctx hctx =>
    simp only []
    have hf : ctx.inputs.find? (fun i => i.input.head?.map (·.key) == some Key.ContextActive) = none := by
      rw [List.find?_eq_none]
      intro x hx
      have := (hc ctx (List.mem_of_getElem? hctx) x hx).active
      rw [beq_iff_eq]; exact this
    rw [hf]
    simp only []
    split
    · exact ⟨true, rfl⟩
    · exact ⟨s.ub, rfl⟩

private theorem foldContextActive_none {c : Cfg} (hc : ∀ ctx ∈ c.contexts, ∀ m ∈ ctx.inputs, OrdinaryMapping m.input) (ev : KeyEvent) (l : List Nat) (s : S) :
    ∃ b, l.foldl (fun s i => onContextActiveEvent c s ev i) s = { s with ub := b } := by
  induction l generalizing s with
  | nil => exact ⟨s.ub, rfl⟩
  | cons a l ih =>
    obtain ⟨b, hb⟩ := onContextActiveEvent_none hc s ev a
    rw [List.foldl_cons, hb]
    obtain ⟨b', hb'⟩ := ih { s with ub := b }
    exact ⟨b', hb'⟩

/-- an excluding context comes first, whichever keys are held -/
structure FirstExcludes (c : Cfg) (l : List Nat) (j : Nat) : Prop where
  active : ∀ seq, ∃ r, computeActive c.contexts seq l [] = some (j :: r)
  ctx : ∃ ctx, c.contexts[j]? = some ctx ∧ ctx.Excludes ∧ ctx.matchingDeviceBits = allDeviceBits

theorem updateActive_excluded {c : Cfg} (hc : ∀ ctx ∈ c.contexts, ∀ m ∈ ctx.inputs, OrdinaryMapping m.input) (s : S) {j : Nat}
    (h : FirstExcludes c s.activeClient j) : ∃ r b, updateActiveContexts c s = { s with active := j :: r, ub := b } := by
  obtain ⟨r, hr⟩ := h.active s.seq
  unfold updateActiveContexts
  rw [hr]
  simp only []
  generalize mergeContexts s.active (j :: r) = da
  obtain ⟨d, a⟩ := da
  simp only []
  obtain ⟨b1, h1⟩ := foldContextActive_none hc ⟨Key.ContextActive, .Up, 0⟩ d { s with active := j :: r }
  rw [h1]
  obtain ⟨b2, h2⟩ := foldContextActive_none hc ⟨Key.ContextActive, .Down, 0⟩ a { s with active := j :: r, ub := b1 }
  exact ⟨r, b2, h2⟩

/-! ### matching -/

private theorem allBits (dev : Int) (h1 : -2 ≤ dev) (h2 : dev < 64) {ctx : Context} (h : ctx.matchingDeviceBits = allDeviceBits) :
    deviceMatchesFilter ctx dev = true := by
  unfold deviceMatchesFilter
  rw [h]
  split
  · rfl
  · split
    · simp
    · next h3 h4 =>
      have h3 : dev ≠ -2 := by simpa [anyDeviceIndex] using h3
      have h4 : dev ≠ -1 := by simpa [noDeviceIndex] using h4
      have : dev.toNat < 64 := by omega
      rw [BitVec.getLsbD_ushiftRight, Nat.add_zero, allDeviceBits, BitVec.getLsbD_allOnes]
      simpa using this

/-- `Any >> Any` is the mapping of every key which is pressed -/
theorem matchInput_excluded {c : Cfg} {s : S} {ev : KeyEvent} (hk : isKeyboardKey ev.key = true) (hd : ev.state = .Down) {l : KeySequence}
    (hl : ∀ e ∈ l, e.state = .DownMatched) {dev : Int} (h1 : -2 ≤ dev) (h2 : dev < 64) {u : Bool} {j : Nat} {r : List Nat} (ha : s.active = j :: r)
    (hj : ∃ ctx, c.contexts[j]? = some ctx ∧ ctx.Excludes ∧ ctx.matchingDeviceBits = allDeviceBits) :
    ∃ b ref, matchInput c s true (l ++ [ev]) dev u = ({ s with anyM := [ev.key], ub := b }, .matched ref [⟨Key.any, .Down, 0⟩] (singleKey Key.any) j) := by
  obtain ⟨ctx, hctx, hex, hbits⟩ := hj
  obtain ⟨m, ms, hin, hm, hidx, hout⟩ := hex.first
  unfold matchInput
  simp only []
  have hcand : ∃ rest, candidates c.contexts s.active dev = (j, ctx, m) :: rest := by
    unfold candidates
    rw [ha, List.flatMap_cons, hctx]
    simp only [allBits dev h1 h2 hbits, if_true, hin, List.map_cons, List.cons_append]
    exact ⟨_, rfl⟩
  obtain ⟨rest, hcand⟩ := hcand
  rw [hcand]
  unfold matchGo
  have hnm : isNoMightMatch m.input = false := by rw [hm]; rfl
  simp only [hnm, Bool.false_and, Bool.false_eq_true, if_false, matchTarget]
  rw [hm, matchSeq_any hk hd l hl]
  simp only [Bool.or_false]
  rw [if_neg (by simp), if_pos (by rfl)]
  have hfo : ∀ s' : S, findOutput c.contexts s'.active j ctx m.outputIndex = (some (⟨j, false, m.outputIndex.toNat⟩, [⟨Key.any, .Down, 0⟩]), false) := by
    intro s'
    unfold findOutput
    rw [if_pos hidx, hout]
  rw [hfo]
  exact ⟨_, _, rfl⟩

/-- nothing matches a release -/
theorem matchInput_excludedRelease {c : Cfg} (hc : ∀ ctx ∈ c.contexts, ∀ m ∈ ctx.inputs, OrdinaryMapping m.input) {s : S} {ev : KeyEvent}
    (hk : isKeyboardKey ev.key = true) (hu : ev.state = .Up) {l : KeySequence}
    (hl : ∀ e ∈ l, e.state = .DownMatched ∧ isKeyboardKey e.key = true) (hn : ev.key ∉ l.map (·.key)) {dev : Int} {u : Bool} :
    ∃ a b, matchInput c s true (l ++ [ev]) dev u = ({ s with anyM := a, ub := b }, .noMatch) := by
  unfold matchInput
  simp only []
  have hgo : ∀ (cands : List (Nat × Context × Input)), (∀ x ∈ cands, OrdinaryMapping x.2.2.input) → ∀ s : S,
      ∃ a b, matchGo c true (l ++ [ev]) dev u cands s = ({ s with anyM := a, ub := b }, .noMatch) := by
    intro cands hcs
    induction cands with
    | nil => intro s; exact ⟨s.anyM, s.ub, rfl⟩
    | cons x cands ih =>
      intro s
      obtain ⟨ci, ctx, inp⟩ := x
      have ih := ih (fun x hx => hcs x (by simp [hx]))
      have ho := hcs (ci, ctx, inp) (by simp)
      simp only at ho
      have hnm : isNoMightMatch inp.input = false := by
        unfold isNoMightMatch
        cases hq : inp.input with
        | nil => rfl
        | cons e es =>
          have := ho.states e (by rw [hq]; simp)
          simp only [beq_eq_false_iff_ne, ne_eq]
          intro h
          rw [h] at this
          simp at this
      have hres := matchSeq_release ho hk hu hl hn
      unfold matchGo
      simp only [hnm, Bool.false_and, Bool.false_eq_true, if_false, matchTarget]
      generalize matchSeq inp.input (l ++ [ev]) = r at *
      rw [hres]
      rw [if_neg (by simp), if_neg (by simp)]
      obtain ⟨a, b, h⟩ := ih { s with anyM := r.any, ub := s.ub || r.ub }
      exact ⟨a, b, h⟩
  obtain ⟨a, b, h⟩ := hgo (candidates c.contexts s.active dev) (by
    intro x hx
    obtain ⟨_, h2, _, h4⟩ := candidates_mem hx
    exact hc x.2.1 (List.mem_of_getElem? h2) x.2.2 h4) { s with ub := s.ub || ((!s.active.isEmpty && (decide (64 ≤ dev) || decide (dev < -2))) ||
        s.active.any (fun i => decide (c.contexts.length ≤ i))) }
  exact ⟨a, b, h⟩

/-! ### the output -/

/-- the output keys which are tracked: each one because its own key is held -/
structure OwnKeys (d : List OutputDown) : Prop where
  own : ∀ o ∈ d, o.trigger.keyOf = o.key ∧ o.temporarilyReleased = false
  nodup : (d.map (·.key)).Nodup

/-- the tracked output keys after a press -/
def pressOwn (d : List OutputDown) (ev : KeyEvent) (ctx : Int) : List OutputDown :=
  if (d.find? (·.key == ev.key)).isNone then d ++ [{ key := ev.key, trigger := .ev ev, ctx := ctx }]
  else modFirst (·.key == ev.key) (fun o => { o with temporarilyReleased := false, pressedTwice := true }) d

private theorem updateOutput_own {s : S} {ev : KeyEvent} (ht : ev.key ≠ Key.timeout)
    (hr : s.reapplied = true → s.down = []) (h : ∀ o ∈ s.down, o.temporarilyReleased = false) (ctx : Int) :
    updateOutput s ⟨ev.key, .Down, 0⟩ (.ev ev) ctx = { s with down := pressOwn s.down ev ctx, buf := s.buf ++ [⟨ev.key, .Down, 0⟩] } := by
  have ht' : (ev.key != Key.timeout) = true := by simpa using ht
  unfold updateOutput
  simp only []
  unfold updateOutputDown
  rw [reapplyLoop_none _ _ _ _ h]
  simp only [Bool.false_eq_true, if_false, ht', if_true]
  unfold pressOwn
  split
  · rfl
  · next hn =>
    have hr : s.reapplied = false := by
      cases hq : s.reapplied with
      | false => rfl
      | true => rw [hr hq] at hn; simp at hn
    rw [hr]
    simp only [Bool.false_eq_true, if_false, Bool.not_false]

private theorem pressOwn_inv {d : List OutputDown} (h : OwnKeys d) (ev : KeyEvent) (ctx : Int) :
    OwnKeys (pressOwn d ev ctx) ∧ ∀ x, x ∈ (pressOwn d ev ctx).map (·.key) ↔ x ∈ d.map (·.key) ∨ x = ev.key := by
  have hfind : (d.find? (·.key == ev.key)).isNone = true ↔ ev.key ∉ d.map (·.key) := by
    rw [Option.isNone_iff_eq_none, List.find?_eq_none]
    simp only [List.mem_map, not_exists, not_and, beq_iff_eq]
  unfold pressOwn
  split
  · next hn =>
    have hn := hfind.1 hn
    refine ⟨⟨?_, ?_⟩, ?_⟩
    · intro o ho
      simp only [List.mem_append, List.mem_singleton] at ho
      rcases ho with ho | ho
      · exact h.own o ho
      · subst ho; exact ⟨rfl, rfl⟩
    · rw [List.map_append, List.nodup_append]
      refine ⟨h.nodup, by simp, ?_⟩
      intro a ha b hb
      simp only [List.map_cons, List.map_nil, List.mem_singleton] at hb
      subst hb
      intro hab; subst hab; exact hn ha
    · intro x; simp [List.map_append]
  · next hn =>
    have hn : ev.key ∈ d.map (·.key) := by
      by_cases hk : ev.key ∈ d.map (·.key)
      · exact hk
      · exact absurd (hfind.2 hk) hn
    have hmap : ∀ d : List OutputDown, (modFirst (·.key == ev.key) (fun o => { o with temporarilyReleased := false, pressedTwice := true }) d).map (·.key) = d.map (·.key) := by
      intro d
      induction d with
      | nil => rfl
      | cons o d ih => unfold modFirst; split <;> simp [ih]
    have hmem : ∀ d : List OutputDown, (∀ o ∈ d, o.trigger.keyOf = o.key ∧ o.temporarilyReleased = false) →
        ∀ o ∈ modFirst (·.key == ev.key) (fun o => { o with temporarilyReleased := false, pressedTwice := true }) d,
        o.trigger.keyOf = o.key ∧ o.temporarilyReleased = false := by
      intro d hd
      induction d with
      | nil => intro o ho; simp [modFirst] at ho
      | cons a d ih =>
        intro o ho
        unfold modFirst at ho
        split at ho
        · simp only [List.mem_cons] at ho
          rcases ho with ho | ho
          · subst ho; exact ⟨(hd a (by simp)).1, rfl⟩
          · exact hd o (by simp [ho])
        · simp only [List.mem_cons] at ho
          rcases ho with ho | ho
          · subst ho; exact hd _ (by simp)
          · exact ih (fun o ho => hd o (by simp [ho])) o ho
    refine ⟨⟨hmem d h.own, by rw [hmap]; exact h.nodup⟩, ?_⟩
    intro x
    rw [hmap]
    constructor
    · exact Or.inl
    · rintro (h | h)
      · exact h
      · rw [h]; exact hn

private theorem unsuppress_own {d : List OutputDown} (h : OwnKeys d) :
    OwnKeys (d.map (fun o => { o with suppressed := false })) ∧
      (d.map (fun o => { o with suppressed := false })).map (·.key) = d.map (·.key) := by
  have hm : (d.map (fun o => { o with suppressed := false })).map (·.key) = d.map (·.key) := by
    rw [List.map_map]; rfl
  refine ⟨⟨?_, by rw [hm]; exact h.nodup⟩, hm⟩
  intro o ho
  obtain ⟨o', h1, h2⟩ := List.mem_map.1 ho
  subst h2; exact h.own o' h1

private theorem filter_own {d : List OutputDown} (h : OwnKeys d) (k : Key) :
    OwnKeys (d.filter (fun o => o.key != k)) ∧
      ∀ x, x ∈ (d.filter (fun o => o.key != k)).map (·.key) ↔ x ∈ d.map (·.key) ∧ x ≠ k := by
  refine ⟨⟨fun o ho => h.own o (List.mem_filter.1 ho).1, ?_⟩, ?_⟩
  · exact h.nodup.sublist (List.filter_sublist.map _)
  · intro x
    simp only [List.mem_map, List.mem_filter, bne_iff_ne, ne_eq]
    constructor
    · rintro ⟨o, ⟨h1, h2⟩, h3⟩; exact ⟨⟨o, h1, h3⟩, h3 ▸ h2⟩
    · rintro ⟨⟨o, h1, h3⟩, h2⟩; exact ⟨o, ⟨h1, h3 ▸ h2⟩, h3⟩

private theorem staysDown_own {o : OutputDown} {k : Key} (h : o.trigger.keyOf = o.key) (hk : k ≠ Key.ContextActive) :
    staysDown k (-1) o = (o.key != k) := by
  have hk : (k == Key.ContextActive) = false := beq_eq_false_iff_ne.2 hk
  unfold staysDown
  rw [h, hk]
  cases hok : (o.key == k) with
  | true => simp [bne, hok]
  | false => simp [bne, hok]

private theorem releaseTriggered_own {s : S} (h : OwnKeys s.down) (ht : s.timeout = none) {k : Key} (hk : k ≠ Key.ContextActive) :
    releaseTriggered s k (-1) = releaseResult s k := by
  have hf : ∀ d, OwnKeys d → (d.filter (fun o => !staysDown k (-1) o)).map (·.key) = if k ∈ d.map (·.key) then [k] else [] := by
    intro d h
    induction d with
    | nil => simp
    | cons o d ih =>
      have ih := ih ⟨fun o ho => h.own o (by simp [ho]), (List.nodup_cons.1 h.nodup).2⟩
      rw [List.filter_cons, staysDown_own (h.own o (by simp)).1 hk]
      have hnd := (List.nodup_cons.1 h.nodup).1
      by_cases hok : o.key = k
      · subst hok
        rw [if_neg hnd] at ih
        simp only [bne_self_eq_false, Bool.not_false, if_true, List.map_cons, ih, List.mem_cons, true_or]
      · have h1 : (o.key != k) = true := by simpa using hok
        have h2 : ¬ k = o.key := fun h => hok h.symm
        simp only [h1, Bool.not_true, Bool.false_eq_true, if_false, ih, List.map_cons, List.mem_cons, h2, false_or]
  have hev : (((s.down.filter (fun o => !staysDown k (-1) o)).reverse.filter (fun o => !o.temporarilyReleased)).map
      (fun o => (⟨o.key, .Up, 0⟩ : KeyEvent))) = if k ∈ s.down.map (·.key) then [⟨k, .Up, 0⟩] else [] := by
    have h1 : ((s.down.filter (fun o => !staysDown k (-1) o)).reverse.filter (fun o => !o.temporarilyReleased)) =
        (s.down.filter (fun o => !staysDown k (-1) o)).reverse := by
      rw [List.filter_eq_self]
      intro o ho
      simp only [List.mem_reverse, List.mem_filter] at ho
      simp [(h.own o ho.1).2]
    rw [h1]
    have h2 : (fun o : OutputDown => (⟨o.key, .Up, 0⟩ : KeyEvent)) = (fun k : Key => (⟨k, .Up, 0⟩ : KeyEvent)) ∘ (·.key) := rfl
    rw [h2, ← List.map_map, List.map_reverse, hf _ h]
    split <;> simp
  unfold releaseTriggered releaseResult
  simp only [hev, ht]
  have : s.down.filter (staysDown k (-1)) = s.down.filter (fun o => o.key != k) := by
    apply List.filter_congr
    intro o ho
    exact staysDown_own (h.own o ho).1 hk
  rw [this]

/-! ### the main loop -/

/-- the state after the main loop, for a press -/
def excludedPress (s : S) (ev : KeyEvent) (l : KeySequence) (j : Nat) (b : Bool) : S :=
  { s with
    anyM := [ev.key]
    ub := b
    seq := l ++ [{ ev with state := .DownMatched }]
    down := pressOwn s.down ev j
    buf := s.buf ++ [⟨ev.key, .Down, 0⟩] }

private theorem mainLoop_excluded {c : Cfg} {s : S} {ev : KeyEvent} {dev : Int} {u : Bool} {l : KeySequence} (hs : s.seq = l ++ [ev])
    (hl : ∀ e ∈ l, e.state = .DownMatched) (hd : ev.state = .Down) (hk : isKeyboardKey ev.key = true)
    (h1 : -2 ≤ dev) (h2 : dev < 64) {j : Nat} {r : List Nat} (ha : s.active = j :: r)
    (hj : ∃ ctx, c.contexts[j]? = some ctx ∧ ctx.Excludes ∧ ctx.matchingDeviceBits = allDeviceBits)
    (hm : s.might = false) (ht : s.timeout = none)
    (hr : s.reapplied = true → s.down = []) (hdn : ∀ o ∈ s.down, o.temporarilyReleased = false) :
    ∃ b, mainLoop c ev dev u s = excludedPress s ev l j b := by
  have hreal := keyboard_real hk
  have hsn : hasNonOptional s.seq = true := by
    rw [hs]; simp [hasNonOptional, isNonOptional, hd]
  have hnu : ∀ e ∈ l, (⟨e.key, .Up, 0⟩ : KeyEvent) ∉ [ev] := by
    intro e _ h
    simp only [List.mem_singleton] at h
    rw [← h] at hd; simp at hd
  have hce : [ev].contains (⟨ev.key, .Up, 0⟩ : KeyEvent) = false := by
    rw [List.contains_eq_mem]
    simp only [List.mem_singleton, decide_eq_false_iff_not]
    intro h; rw [← h] at hd; simp at hd
  have hafter : hasNonOptional (l ++ [{ ev with state := .DownMatched }]) = false := by
    apply hasNonOptional_matched
    intro e he
    simp only [List.mem_append, List.mem_singleton] at he
    rcases he with he | he
    · exact hl e he
    · rw [he]
  obtain ⟨b, ref, hmi⟩ := matchInput_excluded (c := c) (s := s) hk hd hl h1 h2 (u := u) ha hj
  rw [← hs] at hmi
  refine ⟨b, ?_⟩
  have htrig : ∀ a : List Key, chooseTrigger { s with anyM := a, ub := b } ev [⟨Key.any, .Down, 0⟩] (singleKey Key.any) = .ev ev := by
    intro a
    have hcause : causeOf { s with anyM := a, ub := b } ev (singleKey Key.any) = .ev ev := by
      unfold causeOf
      simp only [ht]
      rfl
    have hpp : isPhysicallyPressed { s with anyM := a, ub := b } ev.key = true := by
      unfold isPhysicallyPressed rfindKey
      simp only [hs, List.reverse_append, List.reverse_cons, List.reverse_nil, List.nil_append, List.singleton_append, List.find?_cons, beq_self_eq_true]
      simp [hd]
    unfold chooseTrigger
    simp only [hcause]
    have : Trigger.keyOf (.ev ev) = ev.key := rfl
    rw [this, hpp]
    simp
  have hround : round c ev dev u s = (excludedPress s ev l j b, true) := by
    unfold round
    rw [hmi]
    simp only [MIR.isMatched, Bool.not_true, Bool.and_false, Bool.false_eq_true, if_false, hreal.2.2.2.2]
    rw [if_neg (by simp)]
    simp only [retryStart, timeoutMatched, ht, notTimeoutFailed, applyResult]
    have ht' := htrig [ev.key]
    rw [ht] at ht'
    rw [ht']
    have hao : ∀ s' : S, s'.anyM = [ev.key] → applyOutput s' [⟨Key.any, .Down, 0⟩] (.ev ev) j = updateOutput s' ⟨ev.key, .Down, 0⟩ (.ev ev) j := by
      intro s' h
      simp [applyOutput, h]
    rw [hao _ rfl]
    rw [updateOutput_own (s := { s with anyM := [ev.key], ub := b, timeout := none }) hreal.2.2.1 hr hdn]
    unfold finishSequence excludedPress
    simp only [hs, List.length_append, Bool.false_eq_true, if_false]
    rw [finishGo_skip _ l [ev] hl hnu]
    have : finishGo [ev].length [ev] = [{ ev with state := .DownMatched }] := by
      rw [List.length_singleton, finishGo, hce, hd]; simp [finishGo]
    rw [this]
    simp [hm, ht]
  unfold mainLoop
  rw [dif_pos hsn, hround]
  simp only [dite_true]
  unfold mainLoop
  rw [dif_neg]
  show ¬ hasNonOptional (l ++ [{ ev with state := .DownMatched }]) = true
  rw [hafter]; simp

private theorem mainLoop_excludedRelease {c : Cfg} (hc : ∀ ctx ∈ c.contexts, ∀ m ∈ ctx.inputs, OrdinaryMapping m.input) {s : S} {ev : KeyEvent} {dev : Int} {u : Bool}
    {l : KeySequence} (hs : s.seq = l ++ [ev]) (hl : ∀ e ∈ l, e.state = .DownMatched ∧ isKeyboardKey e.key = true)
    (hnl : ev.key ∉ l.map (·.key)) (hd : ev.state = .Up) (hk : isKeyboardKey ev.key = true)
    (hm : s.might = false) (ht : s.timeout = none) (hdn : OwnKeys s.down) :
    ∃ a b, mainLoop c ev dev u s = { releaseResult s ev.key with seq := l, anyM := a, ub := b } := by
  have hreal := keyboard_real hk
  have hsn : hasNonOptional s.seq = true := by
    rw [hs]; simp [hasNonOptional, isNonOptional, hd]
  have hnu : ∀ e ∈ l, (⟨e.key, .Up, 0⟩ : KeyEvent) ∉ [ev] := by
    intro e he h
    simp only [List.mem_singleton] at h
    apply hnl
    rw [← h]
    exact List.mem_map.2 ⟨e, he, rfl⟩
  have hafter : hasNonOptional l = false := hasNonOptional_matched (fun e he => (hl e he).1)
  obtain ⟨a, b, hmi⟩ := matchInput_excludedRelease hc (s := s) hk hd hl hnl (dev := dev) (u := u)
  rw [← hs] at hmi
  refine ⟨a, b, ?_⟩
  have hround : round c ev dev u s = ({ releaseResult s ev.key with seq := l, anyM := a, ub := b }, true) := by
    unfold round
    rw [hmi]
    simp only [MIR.isMatched, Bool.not_false, Bool.false_and, Bool.false_eq_true, if_false, hreal.2.2.2.2]
    have : (MIR.noMatch == MIR.might) = false := rfl
    rw [this]
    simp only [Bool.false_eq_true, if_false, retryStart, hm]
    simp only [timeoutMatched, ht, notTimeoutFailed, applyResult, forwardFromSequence, hs]
    rw [forwardGo_skip _ _ l [ev] (fun e he => (hl e he).1) hnu]
    rw [forwardGo, hd]
    have hp := releaseTriggered_own (s := { s with anyM := a, ub := b }) hdn ht hreal.2.2.2.1
    simp only [ht] at hp
    simp only [hm, hs] at hp ⊢
    simp [hp, releaseResult, hm, ht]
  unfold mainLoop
  rw [dif_pos hsn, hround]
  simp only [dite_true]
  unfold mainLoop
  rw [dif_neg]
  rw [hafter]; simp

/-! ### the invariant -/

/-- the state of a stage while an application is excluded -/
structure EInv (c : Cfg) (s : S) : Prop where
  client : ∃ j, FirstExcludes c s.activeClient j
  might : s.might = false
  timeout : s.timeout = none
  onRel : s.onRelease = []
  buf : s.buf = []
  reapplied : s.reapplied = true → s.down = []
  seq : ∀ e ∈ s.seq, e.state = .DownMatched ∧ isKeyboardKey e.key = true
  nodup : (s.seq.map (·.key)).Nodup
  down : OwnKeys s.down
  keys : ∀ k, k ∈ s.down.map (·.key) ↔ k ∈ s.seq.map (·.key)

theorem EInv.congr {c} {s s' : S} (h : EInv c s) (h2 : s'.activeClient = s.activeClient)
    (h3 : s'.might = s.might) (h4 : s'.timeout = s.timeout) (h5 : s'.onRelease = s.onRelease) (h6 : s'.buf = s.buf)
    (h7 : s'.reapplied = s.reapplied) (h8 : s'.seq = s.seq) (h10 : s'.down = s.down) : EInv c s' where
  client := by rw [h2]; exact h.client
  might := by rw [h3]; exact h.might
  timeout := by rw [h4]; exact h.timeout
  onRel := by rw [h5]; exact h.onRel
  buf := by rw [h6]; exact h.buf
  reapplied := by rw [h7, h10]; exact h.reapplied
  seq := by rw [h8]; exact h.seq
  nodup := by rw [h8]; exact h.nodup
  down := by rw [h10]; exact h.down
  keys := by rw [h8, h10]; exact h.keys

/-- the end of `apply_input` -/
private theorem finishInput_excluded {c : Cfg} (hc : ∀ ctx ∈ c.contexts, ∀ m ∈ ctx.inputs, OrdinaryMapping m.input) {s : S} {ev : KeyEvent}
    (hd : ev.state = .Down ∨ (ev.state = .Up ∧ ev.key ∉ s.down.map (·.key) ∧ ev.key ≠ Key.ContextActive))
    (hdn : OwnKeys s.down) (hseq : ∀ e ∈ s.seq, e.state = .DownMatched) (ht : s.timeout = none) {j : Nat} (hj : FirstExcludes c s.activeClient j) :
    ∃ r h b, finishInput c s ev = { s with active := j :: r, history := h, ub := b, reapplied := false } := by
  have hrel : (if ev.state == .Up then releaseTriggered s ev.key (-1) else s) = s := by
    rcases hd with hd | ⟨hd, hn, hca⟩
    · rw [hd]; rfl
    · rw [hd]
      simp only [beq_self_eq_true, if_true]
      rw [releaseTriggered_own hdn ht hca, releaseResult_of_not hn]
  unfold finishInput
  simp only [hrel]
  obtain ⟨r, b, he⟩ := updateActive_excluded hc s hj
  rw [he]
  simp only []
  have hdw : s.seq.dropWhile (fun e => e.state == KeyState.UpMatched) = s.seq := by
    cases hq : s.seq with
    | nil => rfl
    | cons e l =>
      have := hseq e (by simp [hq])
      rw [List.dropWhile_cons, this]; rfl
  rw [hdw]
  have hif : (if s.seq.isEmpty = true then ({ s with active := j :: r, ub := b, timeout := none } : S) else { s with active := j :: r, ub := b }) =
      { s with active := j :: r, ub := b } := by
    split
    · cases s; subst ht; rfl
    · rfl
  rw [hif]
  simp only []
  generalize cleanUpHistory c (j :: r) s.history = q
  obtain ⟨h, u⟩ := q
  exact ⟨r, h, b || u, rfl⟩

private theorem excluded_mergeRepeat {c} {s : S} (h : EInv c s) {ev : KeyEvent} (hd : ev.state = .Down) (dev : Int) :
    ∃ lp lr, lp = (if ev.key ∉ s.seq.map (·.key) ∧ dev ≠ noDeviceIndex then dev else s.lastPressed) ∧ mergeRepeat s ev dev =
      if ev.key ∈ s.seq.map (·.key) then
        if swallowed s dev then ({ s with lastPressed := lp, lastRepeat := lr }, true)
        else ({ s with lastPressed := lp, lastRepeat := lr, seq := rEraseKey s.seq ev.key }, false)
      else ({ s with lastPressed := lp, lastRepeat := lr }, false) := by
  unfold mergeRepeat
  have hp := pressed_of_matched (fun e he => (h.seq e he).1) s rfl ev.key
  have hm : ¬ s.might = true := by rw [h.might]; simp
  have hd' : (ev.state == KeyState.Down) = true := by rw [hd]; rfl
  rw [if_pos hd']
  by_cases hk : ev.key ∈ s.seq.map (·.key)
  · rw [if_pos (hp.2 hk), if_neg hm]
    simp only [if_pos hk]
    by_cases h1 : dev = noDeviceIndex
    · have hns : ¬ swallowed s dev := fun h => h.1 h1
      refine ⟨s.lastPressed, s.lastRepeat, by simp [hk], ?_⟩
      simp only [if_neg hns]
      subst h1
      simp
    · have h1' : (dev != noDeviceIndex) = true := by simpa using h1
      rw [h1']
      simp only [Bool.true_and]
      by_cases h2 : dev = s.lastPressed
      · refine ⟨s.lastPressed, dev, by simp [hk], ?_⟩
        have h2' : (dev == s.lastPressed) = true := by simpa using h2
        rw [if_pos h2', if_neg (by simp), if_neg (show ¬ swallowed s dev from fun h => h.2.1 h2)]
      · refine ⟨s.lastPressed, s.lastRepeat, by simp [hk], ?_⟩
        have h2' : ¬ (dev == s.lastPressed) = true := by simpa using h2
        rw [if_neg h2']
        by_cases h3 : dev = s.lastRepeat
        · rw [if_neg (by simp [h3]), if_neg (show ¬ swallowed s dev from fun h => h.2.2 h3)]
        · rw [if_pos (by simpa using h3), if_pos (show swallowed s dev from ⟨h1, h2, h3⟩)]
  · rw [if_neg (fun h => hk (hp.1 h))]
    simp only [if_neg hk]
    by_cases h1 : dev = noDeviceIndex
    · subst h1; exact ⟨s.lastPressed, s.lastRepeat, by simp, by simp⟩
    · refine ⟨dev, if dev == s.lastRepeat then noDeviceIndex else s.lastRepeat, by simp only [hk, not_false_eq_true, ne_eq, h1, and_self, if_true], ?_⟩
      simp [h1]

private theorem excluded_pressTail {c : Cfg} (hc : ∀ ctx ∈ c.contexts, ∀ m ∈ ctx.inputs, OrdinaryMapping m.input) {s : S} {ev : KeyEvent} {dev : Int} (hd : ev.state = .Down)
    (hk : isKeyboardKey ev.key = true) (hd1 : -2 ≤ dev) (hd2 : dev < 64) (client : ∃ j, FirstExcludes c s.activeClient j)
    (might : s.might = false) (timeout : s.timeout = none) (onRel : s.onRelease = []) (buf : s.buf = [])
    (reapplied : s.reapplied = true → s.down = []) (seq : ∀ e ∈ s.seq, e.state = .DownMatched ∧ isKeyboardKey e.key = true)
    (nodup : (s.seq.map (·.key)).Nodup) (down : OwnKeys s.down) (hn : ev.key ∉ s.seq.map (·.key))
    (keys : ∀ k, k ≠ ev.key → (k ∈ s.down.map (·.key) ↔ k ∈ s.seq.map (·.key))) :
    let s' := pressTail c s ev dev
    EInv c { s' with buf := [] } ∧ (∀ x, x ∈ s'.seq.map (·.key) ↔ x ∈ s.seq.map (·.key) ∨ x = ev.key) ∧
      s'.buf = [⟨ev.key, .Down, 0⟩] ∧ s'.lastPressed = s.lastPressed := by
  intro s'
  obtain ⟨j, hj⟩ := client
  have hup : (ev.state == KeyState.Up) = false := by rw [hd]; rfl
  obtain ⟨h1, e1, m1⟩ := addToHistory_spec c { s with seq := s.seq ++ [ev] } ev
  obtain ⟨r2, b2, e2⟩ := updateActive_excluded hc { s with seq := s.seq ++ [ev], history := h1 } hj
  obtain ⟨hdn, hdk⟩ := unsuppress_own down
  obtain ⟨b3, e3⟩ := mainLoop_excluded (c := c) (dev := dev) (u := (ev.state == .Up && ev.key != Key.timeout))
    (s := loopStart s (s.seq ++ [ev]) h1 (j :: r2) b2) (j := j) (r := r2) rfl (fun e he => (seq e he).1) hd hk hd1 hd2 rfl hj.ctx might timeout
      (fun h => by simp [loopStart, reapplied h]) (fun o ho => (hdn.own o ho).2)
  have hseq' : ∀ e ∈ s.seq ++ [{ ev with state := KeyState.DownMatched }], e.state = .DownMatched ∧ isKeyboardKey e.key = true := by
    intro e he
    simp only [List.mem_append, List.mem_singleton] at he
    rcases he with he | he
    · exact seq e he
    · rw [he]; exact ⟨rfl, hk⟩
  obtain ⟨hpo, hpk⟩ := pressOwn_inv hdn ev j
  have hs' : ∃ r h b, s' =
      { excludedPress (loopStart s (s.seq ++ [ev]) h1 (j :: r2) b2) ev s.seq j b3 with
        active := r
        history := h
        ub := b
        reapplied := false } := by
    have hb : ∀ s : S, beforeMatchUp s ev = s := by intro s; simp [beforeMatchUp, hup]
    have : s' = finishInput c (excludedPress (loopStart s (s.seq ++ [ev]) h1 (j :: r2) b2) ev s.seq j b3) ev := by
      show pressTail c s ev dev = _
      unfold pressTail
      simp only [e1, e2, hb]
      rw [← e3]
      rfl
    rw [this]
    obtain ⟨r, h, b, hh⟩ := finishInput_excluded hc (s := excludedPress (loopStart s (s.seq ++ [ev]) h1 (j :: r2) b2) ev s.seq j b3)
      (Or.inl hd) hpo (fun e he => (hseq' e he).1) timeout hj
    exact ⟨_, h, b, hh⟩
  obtain ⟨r, h, b, hs'⟩ := hs'
  rw [hs']
  have hkeys' : ∀ x, x ∈ (s.seq ++ [{ ev with state := KeyState.DownMatched }]).map (fun e : KeyEvent => e.key) ↔ x ∈ s.seq.map (·.key) ∨ x = ev.key := by
    intro x; simp [List.map_append]
  refine ⟨?_, hkeys', ?_, rfl⟩
  · refine ⟨⟨j, hj⟩, might, timeout, onRel, rfl, (fun h => by simp at h), hseq', ?_, hpo, ?_⟩
    · show ((s.seq ++ [{ ev with state := KeyState.DownMatched }]).map (fun e : KeyEvent => e.key)).Nodup
      rw [List.map_append, List.nodup_append]
      refine ⟨nodup, by simp, ?_⟩
      intro a ha b hb hab
      simp only [List.map_cons, List.map_nil, List.mem_singleton] at hb
      subst hb; subst hab; exact hn ha
    · intro k
      refine (hpk k).trans ?_
      refine Iff.trans ?_ (hkeys' k).symm
      rw [hdk]
      by_cases hke : k = ev.key
      · simp [hke]
      · rw [keys k hke]
  · show s.buf ++ _ = _
    rw [buf]; rfl

theorem excluded_press {c : Cfg} (hc : ∀ ctx ∈ c.contexts, ∀ m ∈ ctx.inputs, OrdinaryMapping m.input) {s : S} (h : EInv c s) {ev : KeyEvent} {dev : Int}
    (hd : ev.state = .Down) (hk : isKeyboardKey ev.key = true) (hd1 : -2 ≤ dev) (hd2 : dev < 64) :
    EInv c (update c s ev dev).1 ∧
      (∀ x, x ∈ (update c s ev dev).1.seq.map (·.key) ↔ x ∈ s.seq.map (·.key) ∨ x = ev.key) ∧
      (update c s ev dev).2 = (if ev.key ∈ s.seq.map (·.key) ∧ swallowed s dev then [] else [⟨ev.key, .Down, 0⟩]) ∧
      (update c s ev dev).1.lastPressed =
        if ev.key ∉ s.seq.map (·.key) ∧ dev ≠ noDeviceIndex then dev else s.lastPressed := by
  have hu : ∃ b, update c s ev dev =
      (match mergeRepeat { s with exitPos := advanceExit s.exitPos ev, ub := b } ev dev with
        | (s, true) => ({ s with buf := [] }, s.buf)
        | (s, false) => ({ pressTail c s ev dev with buf := [] }, (pressTail c s ev dev).buf)) := by
    refine ⟨if validInput ev then s.ub else true, ?_⟩
    unfold update
    simp only []
    rw [applyInput_eq c { s with exitPos := advanceExit s.exitPos ev } ev dev h.onRel h.timeout]
    simp only []
    generalize mergeRepeat _ ev dev = mr
    obtain ⟨s1, b1⟩ := mr
    cases b1 <;> rfl
  obtain ⟨b, hu⟩ := hu
  rw [hu]
  have h' : EInv c { s with exitPos := advanceExit s.exitPos ev, ub := b } :=
    h.congr rfl rfl rfl rfl rfl rfl rfl rfl
  obtain ⟨lp, lr, hlp, hm⟩ := excluded_mergeRepeat h' hd dev
  have hsw : swallowed { s with exitPos := advanceExit s.exitPos ev, ub := b } dev ↔ swallowed s dev := Iff.rfl
  rw [hm]
  simp only [hsw]
  by_cases hheld : ev.key ∈ s.seq.map (·.key)
  · simp only [if_pos hheld]
    by_cases hs : swallowed s dev
    · simp only [if_pos hs]
      refine ⟨h.congr rfl rfl rfl rfl h.buf.symm rfl rfl rfl, ?_, ?_, hlp⟩
      · intro x
        constructor
        · exact Or.inl
        · rintro (hx | hx)
          · exact hx
          · rw [hx]; exact hheld
      · rw [if_pos ⟨hheld, hs⟩]; exact h.buf
    · simp only [if_neg hs]
      obtain ⟨hrn, hrk⟩ := rEraseKey_keys h.nodup ev.key
      have := excluded_pressTail hc (s := { s with
          exitPos := advanceExit s.exitPos ev
          ub := b
          lastPressed := lp
          lastRepeat := lr
          seq := rEraseKey s.seq ev.key }) hd hk hd1 hd2 h.client h.might h.timeout h.onRel h.buf h.reapplied
        (fun e he => h.seq e (mem_rEraseKey he)) hrn h.down
        (fun hx => ((hrk _).1 hx).2 rfl)
        (fun k hke => by rw [h.keys, hrk]; simp [hke])
      refine ⟨this.1, ?_, ?_, this.2.2.2.trans hlp⟩
      · intro x
        rw [this.2.1]
        show x ∈ (rEraseKey s.seq ev.key).map (·.key) ∨ _ ↔ _
        rw [hrk]
        by_cases hxe : x = ev.key
        · simp [hxe]
        · simp [hxe]
      · rw [this.2.2.1]
        simp [hs]
  · simp only [if_neg hheld]
    have := excluded_pressTail hc (s := { s with
          exitPos := advanceExit s.exitPos ev
          ub := b
          lastPressed := lp
          lastRepeat := lr }) hd hk hd1 hd2 h.client h.might h.timeout h.onRel h.buf h.reapplied
        h.seq h.nodup h.down hheld (fun k _ => h.keys k)
    refine ⟨this.1, this.2.1, ?_, this.2.2.2.trans hlp⟩
    rw [this.2.2.1]
    simp [hheld]

private theorem excluded_releaseTail {c : Cfg} (hc : ∀ ctx ∈ c.contexts, ∀ m ∈ ctx.inputs, OrdinaryMapping m.input) {s : S} (h : EInv c s) {ev : KeyEvent} (dev : Int)
    (hd : ev.state = .Up) (hk : isKeyboardKey ev.key = true) :
    let s' := pressTail c s ev dev
    EInv c { s' with buf := [] } ∧ (∀ x, x ∈ s'.seq.map (·.key) ↔ x ∈ s.seq.map (·.key) ∧ x ≠ ev.key) ∧
      s'.buf = (if ev.key ∈ s.seq.map (·.key) then [⟨ev.key, .Up, 0⟩] else []) ∧ s'.lastPressed = s.lastPressed := by
  intro s'
  obtain ⟨j, hj⟩ := h.client
  obtain ⟨h1, e1, m1⟩ := addToHistory_spec c { s with seq := s.seq ++ [ev] } ev
  obtain ⟨r2, b2, e2⟩ := updateActive_excluded hc { s with seq := s.seq ++ [ev], history := h1 } hj
  obtain ⟨hdn, hdk⟩ := unsuppress_own h.down
  have hl : ∀ e ∈ s.seq.eraseP (·.key == ev.key), e.state = .DownMatched ∧ isKeyboardKey e.key = true :=
    fun e he => h.seq e (List.mem_of_mem_eraseP he)
  have hek := eraseP_key_keys h.nodup ev.key
  have hmem : ∀ x, x ∈ (s.seq.eraseP (·.key == ev.key)).map (·.key) ↔ x ∈ s.seq.map (·.key) ∧ x ≠ ev.key := by
    intro x; rw [hek, h.nodup.mem_erase_iff]; exact And.comm
  obtain ⟨a3, b3, e3⟩ := mainLoop_excludedRelease hc (dev := dev) (u := (ev.state == .Up && ev.key != Key.timeout))
    (s := loopStart s (s.seq.eraseP (·.key == ev.key) ++ [ev]) h1 (j :: r2) b2) rfl hl (fun hx => ((hmem _).1 hx).2 rfl)
    hd hk h.might h.timeout hdn
  obtain ⟨hfi, hfk⟩ := filter_own hdn ev.key
  have hs' : ∃ r h b, s' =
      { releaseResult (loopStart s (s.seq.eraseP (·.key == ev.key) ++ [ev]) h1 (j :: r2) b2) ev.key with
        seq := s.seq.eraseP (·.key == ev.key)
        anyM := a3
        active := r
        history := h
        ub := b
        reapplied := false } := by
    have : s' = finishInput c { releaseResult (loopStart s (s.seq.eraseP (·.key == ev.key) ++ [ev]) h1 (j :: r2) b2) ev.key with
        seq := s.seq.eraseP (·.key == ev.key)
        anyM := a3
        ub := b3 } ev := by
      show pressTail c s ev dev = _
      unfold pressTail
      simp only [e1, e2]
      rw [beforeMatchUp_release (l := s.seq)
        (s := { s with seq := s.seq ++ [ev], history := h1, active := j :: r2, ub := b2 }) hd rfl (fun e he => (h.seq e he).1) h.timeout h.might]
      rw [← e3]
      rfl
    rw [this]
    obtain ⟨r, h', b, hh⟩ := finishInput_excluded hc (s := { releaseResult (loopStart s (s.seq.eraseP (·.key == ev.key) ++ [ev]) h1 (j :: r2) b2) ev.key with
        seq := s.seq.eraseP (·.key == ev.key)
        anyM := a3
        ub := b3 }) (Or.inr ⟨hd, fun hx => ((hfk _).1 hx).2 rfl, (keyboard_real hk).2.2.2.1⟩) hfi (fun e he => (hl e he).1) h.timeout hj
    exact ⟨_, h', b, hh⟩
  obtain ⟨r, hq, b, hs'⟩ := hs'
  rw [hs']
  refine ⟨?_, hmem, ?_, rfl⟩
  · refine ⟨⟨j, hj⟩, h.might, h.timeout, h.onRel, rfl, (fun h => by simp at h), hl, ?_, hfi, ?_⟩
    · show ((s.seq.eraseP (·.key == ev.key)).map (fun e : KeyEvent => e.key)).Nodup
      rw [hek]; exact h.nodup.erase _
    · intro k
      refine (hfk k).trans ?_
      rw [hdk, h.keys]
      exact (hmem k).symm
  · show s.buf ++ (if ev.key ∈ (s.down.map (fun o => { o with suppressed := false })).map (fun o : OutputDown => o.key) then _ else _) = _
    rw [hdk, h.buf, List.nil_append]
    have := h.keys ev.key
    by_cases hx : ev.key ∈ s.down.map (·.key)
    · rw [if_pos hx, if_pos (this.1 hx)]
    · rw [if_neg hx, if_neg (fun hy => hx (this.2 hy))]

theorem excluded_release {c : Cfg} (hc : ∀ ctx ∈ c.contexts, ∀ m ∈ ctx.inputs, OrdinaryMapping m.input) {s : S} (h : EInv c s) {ev : KeyEvent} (dev : Int)
    (hd : ev.state = .Up) (hk : isKeyboardKey ev.key = true) :
    EInv c (update c s ev dev).1 ∧
      (∀ x, x ∈ (update c s ev dev).1.seq.map (·.key) ↔ x ∈ s.seq.map (·.key) ∧ x ≠ ev.key) ∧
      (update c s ev dev).2 = (if ev.key ∈ s.seq.map (·.key) then [⟨ev.key, .Up, 0⟩] else []) ∧
      (update c s ev dev).1.lastPressed = s.lastPressed := by
  have hu : ∃ b lr, update c s ev dev =
      ({ pressTail c { s with exitPos := advanceExit s.exitPos ev, ub := b, lastRepeat := lr } ev dev with buf := [] },
        (pressTail c { s with exitPos := advanceExit s.exitPos ev, ub := b, lastRepeat := lr } ev dev).buf) := by
    refine ⟨if validInput ev then s.ub else true, if dev == s.lastRepeat then noDeviceIndex else s.lastRepeat, ?_⟩
    unfold update
    simp only []
    rw [applyInput_eq c { s with exitPos := advanceExit s.exitPos ev } ev dev h.onRel h.timeout]
    have hd' : ¬ (ev.state == KeyState.Down) = true := by rw [hd]; decide
    unfold mergeRepeat
    rw [if_neg hd']
  obtain ⟨b, lr, hu⟩ := hu
  rw [hu]
  exact excluded_releaseTail hc (s := { s with exitPos := advanceExit s.exitPos ev, ub := b, lastRepeat := lr }) (h.congr rfl rfl rfl rfl rfl rfl rfl rfl) dev hd hk

end KM
