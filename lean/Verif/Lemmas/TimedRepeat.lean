import Verif.Lemmas.TimedRun
import Verif.Lemmas.Kept
import Verif.Spec.TimedRepeats
/-!
# A key which is held gets repeated
-/
namespace KM

section
variable {tcs : List (List TimedMapping)} {c : Cfg} {q : KeySequence} {dev : Int} {u : Bool} {cur : List Nat}

/-- which of the mappings is applied -/
theorem matchGo_ref {first : Bool} (l : List (Nat × TimedMapping × Nat)) (s : S)
    (hf : ∀ x ∈ l, findOutput c.contexts s.active (candidateOf tcs x).1 (candidateOf tcs x).2.1 (candidateOf tcs x).2.2.outputIndex =
      (some (⟨x.1, false, x.2.2⟩, x.2.1.out), false)) {x : Nat × TimedMapping × Nat}
    (hm : l.find? (fun x => endsSearch first q x.2.1) = some x) (hr : (matchSeq x.2.1.input q).res = .matched) :
    ∃ a b, matchGo c first q dev u (l.map (candidateOf tcs)) s = ({ s with anyM := a, ub := b }, .matched ⟨x.1, false, x.2.2⟩ x.2.1.out x.2.1.input x.1) := by
  induction l generalizing s with
  | nil => simp at hm
  | cons y l ih =>
    rw [List.map_cons]
    have h1 := timed_notNMM y.2.1
    cases hy : endsSearch first q y.2.1 with
    | false =>
      rw [List.find?_cons, hy] at hm
      simp only [] at hm
      obtain ⟨a, b, ih⟩ := ih { s with anyM := (matchSeq y.2.1.input q).any, ub := s.ub || (matchSeq y.2.1.input q).ub } (fun z hz => hf z (by simp [hz])) hm
      refine ⟨a, b, Eq.trans ?_ ih⟩
      unfold endsSearch at hy
      rw [Bool.or_eq_false_iff] at hy
      show matchGo c first q dev u ((y.1, timedContext ((tcs[y.1]?).getD []), ⟨y.2.1.input, y.2.2⟩) :: l.map (candidateOf tcs)) s = _
      rw [matchGo]
      simp only [h1, matchTarget, Bool.false_and, Bool.false_eq_true, if_false, Bool.not_false, Bool.and_true, hy.1, hy.2]
    | true =>
      rw [List.find?_cons, hy] at hm
      simp only [Option.some.injEq] at hm
      subst hm
      have hfx := hf y (by simp)
      unfold candidateOf at hfx
      simp only at hfx
      refine ⟨(matchSeq y.2.1.input q).any, s.ub || (matchSeq y.2.1.input q).ub, ?_⟩
      show matchGo c first q dev u ((y.1, timedContext ((tcs[y.1]?).getD []), ⟨y.2.1.input, y.2.2⟩) :: l.map (candidateOf tcs)) s = _
      rw [matchGo]
      have e1 : (MatchResult.matched == MatchResult.might_match) = false := rfl
      simp only [h1, matchTarget, Bool.false_and, Bool.false_eq_true, if_false, Bool.not_false, Bool.and_true, hfx, hr, e1, Bool.and_false,
        beq_self_eq_true, if_true, Bool.or_false]

theorem matchInput_ref (h : TimedCfg tcs c) {s : S} (ha : s.active = cur) (hlt : ∀ i ∈ cur, i < tcs.length) (hd : ValidDevice dev)
    {first : Bool} {x : Nat × TimedMapping × Nat} (hm : (numberedInUse tcs cur).find? (fun x => endsSearch first q x.2.1) = some x)
    (hr : (matchSeq x.2.1.input q).res = .matched) :
    ∃ a b, matchInput c s first q dev u = ({ s with anyM := a, ub := b }, .matched ⟨x.1, false, x.2.2⟩ x.2.1.out x.2.1.input x.1) := by
  unfold matchInput
  simp only []
  have hcand : candidates c.contexts s.active dev = (numberedInUse tcs cur).map (candidateOf tcs) := by
    rw [ha]; exact candidates_timed h hlt hd
  rw [hcand]
  exact matchGo_ref (tcs := tcs) (c := c) (q := q) (dev := dev) (u := u) (first := first) (numberedInUse tcs cur) _
    (fun x hx => findOutput_timed cur hx _) hm hr

/-- the number of a mapping determines it -/
theorem numbered_det {x : Nat × TimedMapping × Nat} (hx : x ∈ numberedInUse tcs cur) : ((tcs[x.1]?).getD [])[x.2.2]? = some x.2.1 := by
  unfold numberedInUse at hx
  obtain ⟨i, hi, h1⟩ := List.mem_flatMap.1 hx
  obtain ⟨p, h2, h3⟩ := List.mem_map.1 h1
  subst h3
  have h4 := List.mem_zipIdx' h2
  show ((tcs[i]?).getD [])[p.2]? = some p.1
  rw [List.getElem?_eq_getElem h4.1, ← h4.2]

/-- does the mapping fit, also when the key was already replaced -/
def TimedMapping.fitsAgain (m : TimedMapping) (ds : KeyState) (v : Nat) : Bool := m.fits v && (ds == .Down || m.asks.isSome)

theorem match_again {m : TimedMapping} (hm : m.Valid) (ht : m.isTap = false) {ds : KeyState} (hds : ds = .Down ∨ ds = .DownMatched) (v : Nat) :
    (matchSeq m.input [⟨m.key, ds, 0⟩, ⟨Key.timeout, .Up, v⟩]).res = if m.fitsAgain ds v then .matched else .no_match := by
  unfold TimedMapping.fitsAgain
  rcases hds with rfl | rfl
  · have := (match_elapsed hm (base := []) (by simp) v).1
    rw [ht] at this
    simpa using this
  have := matchTimed_skip hm (base := []) (rest := [⟨m.key, .DownMatched, 0⟩, ⟨Key.timeout, .Up, v⟩]) (by simp) (by simp)
  rw [List.nil_append] at this
  rw [this]
  obtain ⟨h1, h2, h3⟩ := (deviceKey_proper hm.1).1
  have h3' : Key.timeout ≠ m.key := fun h => h3 h.symm
  have hta : Key.timeout ≠ Key.any := by decide
  have htn : Key.timeout ≠ Key.none := by decide
  obtain ⟨mk, tm, out⟩ := m
  simp only at h1 h2 h3 h3' ⊢
  unfold TimedMapping.input TimedMapping.fits TimedMapping.asks
  cases tm with
  | press =>
    have := mLoop_of_N (n := 4) (m := mInit [⟨mk, .Down, 0⟩, ⟨mk, .UpAsync, 0⟩] [⟨mk, .DownMatched, 0⟩, ⟨Key.timeout, .Up, v⟩])
      (r := { res := .no_match, any := [] }) (by eval_match [h1, h2, h3, h3', hta, htn])
    rw [this]; rfl
  | hold t =>
    by_cases hv : t ≤ v
    · have := mLoop_of_N (n := 4) (m := mInit [⟨mk, .Down, 0⟩, ⟨Key.timeout, .Up, t⟩, ⟨mk, .UpAsync, 0⟩] [⟨mk, .DownMatched, 0⟩, ⟨Key.timeout, .Up, v⟩])
        (r := { res := .matched, any := [] }) (by eval_match [h1, h2, h3, h3', hta, htn, hv])
      rw [this]; simp [hv]
    · have := mLoop_of_N (n := 4) (m := mInit [⟨mk, .Down, 0⟩, ⟨Key.timeout, .Up, t⟩, ⟨mk, .UpAsync, 0⟩] [⟨mk, .DownMatched, 0⟩, ⟨Key.timeout, .Up, v⟩])
        (r := { res := .no_match, any := [] }) (by eval_match [h1, h2, h3, h3', hta, htn, hv])
      rw [this]; simp [hv]
  | tap t => cases ht

theorem match_again_other {m : TimedMapping} (hm : m.Valid) {k : Key} (hk : isDeviceKey k = true) (hne : m.key ≠ k) {ds : KeyState}
    (hds : ds = .Down ∨ ds = .DownMatched) (v : Nat) :
    (matchSeq m.input [⟨k, ds, 0⟩, ⟨Key.timeout, .Up, v⟩]).res = .no_match := by
  have hp := (deviceKey_proper hk).1
  rcases hds with rfl | rfl
  · refine match_other hm (x := ⟨k, .Down, 0⟩) hp hne rfl (by simp) ?_
    intro y hy
    simp only [List.mem_cons, List.not_mem_nil, or_false] at hy
    rcases hy with rfl | rfl
    · intro he; exact hp.1 (congrArg KeyEvent.key he)
    · intro he
      have he : Key.timeout = Key.none := congrArg KeyEvent.key he
      exact absurd he (by decide)
  have := matchTimed_skip hm (base := [⟨k, .DownMatched, 0⟩]) (rest := [⟨Key.timeout, .Up, v⟩]) (by
    intro e he
    rw [List.mem_singleton] at he
    subst he
    exact ⟨Or.inl rfl, fun h => hne h.symm, hp.2.1⟩) (by simp)
  rw [List.singleton_append] at this
  rw [this]
  obtain ⟨h1, h2, h3⟩ := (deviceKey_proper hm.1).1
  have h3' : Key.timeout ≠ m.key := fun h => h3 h.symm
  have hta : Key.timeout ≠ Key.any := by decide
  have htn : Key.timeout ≠ Key.none := by decide
  obtain ⟨e', he⟩ := timedInput_cons m
  rw [he]
  have := mLoop_of_N (n := 1) (m := mInit (⟨m.key, .Down, 0⟩ :: e') [⟨Key.timeout, .Up, v⟩])
    (r := { res := .no_match, any := [] }) (by eval_match [h1, h2, h3, h3', hta, htn])
  rw [this]

/-- which of the mappings fits, when a key was pressed and some time passed -/
theorem find_again (h : TimedCfg tcs c) {k : Key} (hk : isDeviceKey k = true)
    (htap : ∀ m ∈ mappingsInUse tcs cur, m.key = k → m.isTap = false) {ds : KeyState} (hds : ds = .Down ∨ ds = .DownMatched) (first : Bool) (v : Nat) :
    (numberedInUse tcs cur).find? (fun x => endsSearch first [⟨k, ds, 0⟩, ⟨Key.timeout, .Up, v⟩] x.2.1) =
      (numberedInUse tcs cur).find? (fun x => x.2.1.key == k && x.2.1.fitsAgain ds v) := by
  apply find?_congr'
  intro x hx
  have hx : x.2.1 ∈ mappingsInUse tcs cur := by rw [← numbered_mappings]; exact List.mem_map.2 ⟨x, hx, rfl⟩
  have hv := mappingsInUse_valid h _ hx
  unfold endsSearch
  by_cases hmk : x.2.1.key = k
  · have := match_again hv (htap _ hx hmk) hds v
    rw [hmk] at this
    rw [this, show (x.2.1.key == k) = true by simpa using hmk]
    cases x.2.1.fitsAgain ds v <;> simp
  · rw [match_again_other hv hk hmk hds, beq_eq_false_iff_ne.2 hmk]
    simp

theorem finishGo_again {k : Key} (hk : k ≠ Key.timeout) {ds : KeyState} (hds : ds = .Down ∨ ds = .DownMatched) (v : Nat) :
    finishGo 2 [⟨k, ds, 0⟩, ⟨Key.timeout, .Up, v⟩] = [⟨k, .DownMatched, 0⟩, ⟨Key.timeout, .UpMatched, v⟩] := by
  have : ([(⟨k, ds, 0⟩ : KeyEvent), ⟨Key.timeout, .Up, v⟩].contains (⟨k, .Up, 0⟩ : KeyEvent)) = false := by
    rw [List.contains_eq_mem, decide_eq_false_iff_not]
    intro hm
    simp only [List.mem_cons, KeyEvent.mk.injEq, List.not_mem_nil, or_false] at hm
    rcases hm with hm | hm
    · rcases hds with hds | hds <;> rw [hds] at hm <;> simp at hm
    · exact hk hm.1
  rw [finishGo, this]
  rcases hds with hds | hds <;> rw [hds] <;> simp [finishGo]

theorem chooseTrigger_again {s1 : S} {k : Key} {v : Nat} (hk : isDeviceKey k = true) {ds : KeyState} (hds : ds = .Down ∨ ds = .DownMatched)
    (hs : s1.seq = [⟨k, ds, 0⟩, ⟨Key.timeout, .Up, v⟩])
    (htg : s1.timeout.map (·.trigger) = some k) (o i : KeySequence) : (chooseTrigger s1 ⟨Key.timeout, .Up, v⟩ o i).keyOf = k := by
  have hprop := (deviceKey_proper hk).1
  obtain ⟨t, ht1, ht2⟩ := Option.map_eq_some_iff.1 htg
  have hcause : causeOf s1 ⟨Key.timeout, .Up, v⟩ i = .key k := by
    unfold causeOf
    have : (Trigger.ev ⟨Key.timeout, .Up, v⟩).keyOf = Key.timeout := rfl
    simp only [beq_self_eq_true, Bool.or_true, if_true, ht1, this, ht2]
  have hkk : (Trigger.key k).keyOf = k := rfl
  have hpp : isPhysicallyPressed s1 k = true := by
    have hne : (Key.timeout == k) = false := beq_eq_false_iff_ne.2 (fun h => hprop.2.2 h.symm)
    unfold isPhysicallyPressed rfindKey
    rw [hs]
    rcases hds with hds | hds <;> rw [hds] <;> simp [hne]
  unfold chooseTrigger
  simp only [hcause, hkk, hpp, Bool.not_true, Bool.false_eq_true, if_false]

/-- the time which was asked for -/
def timeFor (k : Key) (t : Nat) (mo : Option OutRef) : CurrentTimeout := { ev := ⟨Key.timeout, .Up, t⟩, trigger := k, matchedOutput := mo }

/-- the mapping is applied, for the first time or again -/
theorem loop_again_matched (h : TimedCfg tcs c) (hcur : Cur tcs cur) (hd : ValidDevice dev) {k : Key} (hk : isDeviceKey k = true)
    (htap : ∀ m ∈ mappingsInUse tcs cur, m.key = k → m.isTap = false) {ds : KeyState} (hds : ds = .Down ∨ ds = .DownMatched) {t v : Nat} {mo : Option OutRef}
    {mg outs out} {s : S} (hts : TS cur [⟨k, ds, 0⟩, ⟨Key.timeout, .Up, v⟩] mg outs out (some k) s) (ht : s.timeout = some (timeFor k t mo))
    {x : Nat × TimedMapping × Nat} (hx : (numberedInUse tcs cur).find? (fun x => x.2.1.key == k && x.2.1.fitsAgain ds v) = some x)
    (hmo : mo = none ∨ mo = some ⟨x.1, false, x.2.2⟩) :
    TS cur [⟨k, .DownMatched, 0⟩, ⟨Key.timeout, .UpMatched, v⟩] false (pressAll outs k x.2.1.out) (out ++ x.2.1.out) (some k)
        (mainLoop c ⟨Key.timeout, .Up, v⟩ dev u s) ∧
      (mainLoop c ⟨Key.timeout, .Up, v⟩ dev u s).timeout = some (timeFor k t (some ⟨x.1, false, x.2.2⟩)) := by
  have hmem : x.2.1 ∈ mappingsInUse tcs cur := by
    rw [← numbered_mappings]; exact List.mem_map.2 ⟨x, List.mem_of_find?_eq_some hx, rfl⟩
  have hvalid := mappingsInUse_valid h _ hmem
  have hxp := List.find?_some hx
  rw [Bool.and_eq_true, beq_iff_eq] at hxp
  have hres := match_again hvalid (htap _ hmem hxp.1) hds v
  rw [hxp.1, hxp.2, if_pos rfl] at hres
  obtain ⟨a, b, h1⟩ := matchInput_ref (u := u) h hts.active hcur.lt hd (first := true) (by rw [find_again h hk htap hds]; exact hx) hres
  have hts1 := hts.withMatch a b
  have ht1 : ({ s with anyM := a, ub := b } : S).timeout = some (timeFor k t mo) := ht
  generalize ({ s with anyM := a, ub := b } : S) = s1 at h1 hts1 ht1
  have htm : ∃ s2, timeoutMatched s1 ⟨Key.timeout, .Up, v⟩ (.matched ⟨x.1, false, x.2.2⟩ x.2.1.out x.2.1.input x.1) false =
      (s2, .matched ⟨x.1, false, x.2.2⟩ x.2.1.out x.2.1.input x.1) ∧ TS cur [⟨k, ds, 0⟩, ⟨Key.timeout, .Up, v⟩] mg outs out (some k) s2 ∧
      s2.timeout = some (timeFor k t (some ⟨x.1, false, x.2.2⟩)) := by
    unfold timeoutMatched
    rw [ht1]
    simp only [timeFor]
    simp only [show KeyState.Up.isNotTimeout = false from rfl, beq_self_eq_true, Bool.false_eq_true, if_false, if_true]
    rcases hmo with hmo | hmo
    · rw [hmo]
      simp only []
      refine ⟨_, rfl, ⟨hts1.active, hts1.client, hts1.onRel, hts1.reapplied, hts1.hist, hts1.seq, hts1.might, hts1.down, hts1.tr, hts1.buf, rfl, ?_⟩, rfl⟩
      intro t' ht' hn'
      simp only [Option.some.injEq] at ht'
      rw [← ht'] at hn'
      exact absurd (show KeyState.Up.isNotTimeout = true from hn') (by decide)
    · rw [hmo] at ht1 ⊢
      refine ⟨s1, ?_, hts1, ht1⟩
      simp
  obtain ⟨s2, h2, hts2, ht2⟩ := htm
  have hnf : notTimeoutFailed s2 (.matched ⟨x.1, false, x.2.2⟩ x.2.1.out x.2.1.input x.1) = s2 := by
    unfold notTimeoutFailed; cases s2.timeout <;> rfl
  obtain ⟨hp, hpt⟩ := hts2.put hvalid.2 (chooseTrigger s2 ⟨Key.timeout, .Up, v⟩ x.2.1.out x.2.1.input) x.1
  rw [chooseTrigger_again hk hds hts2.seq hts2.tg] at hp
  have hround : round c ⟨Key.timeout, .Up, v⟩ dev u s =
      ({ finishSequence (applyOutput s2 x.2.1.out (chooseTrigger s2 ⟨Key.timeout, .Up, v⟩ x.2.1.out x.2.1.input) x.1) 2 with might := false }, true) := by
    unfold round
    rw [hts.seq, h1]
    simp only [MIR.isMatched, Bool.not_true, Bool.and_false, Bool.false_eq_true, if_false]
    rw [show (MIR.matched ⟨x.1, false, x.2.2⟩ x.2.1.out x.2.1.input x.1 == MIR.might) = false from rfl]
    simp only [Bool.false_eq_true, if_false, retryStart]
    rw [h2]
    simp only []
    rw [hnf, hts1.seq]
    rfl
  have hn : hasNonOptional s.seq = true := by rw [hts.seq]; rcases hds with hds | hds <;> rw [hds] <;> rfl
  have hfin : TS cur [⟨k, .DownMatched, 0⟩, ⟨Key.timeout, .UpMatched, v⟩] false (pressAll outs k x.2.1.out) (out ++ x.2.1.out) (some k)
      { finishSequence (applyOutput s2 x.2.1.out (chooseTrigger s2 ⟨Key.timeout, .Up, v⟩ x.2.1.out x.2.1.input) x.1) 2 with might := false } := by
    unfold finishSequence
    rw [hp.seq, finishGo_again (deviceKey_proper hk).1.2.2 hds]
    exact (hp.withSeq _).withMight _
  rw [mainLoop_twice hn hround (by rw [hfin.seq]; rfl)]
  refine ⟨hfin, ?_⟩
  show (applyOutput s2 x.2.1.out (chooseTrigger s2 ⟨Key.timeout, .Up, v⟩ x.2.1.out x.2.1.input) x.1).timeout = _
  rw [hpt, ht2]

/-- less time passed than before: nothing else is applied -/
theorem loop_again_short (h : TimedCfg tcs c) (hcur : Cur tcs cur) (hd : ValidDevice dev) {k : Key} (hk : isDeviceKey k = true)
    (htap : ∀ m ∈ mappingsInUse tcs cur, m.key = k → m.isTap = false) {t v : Nat} {ref : OutRef}
    {outs out} {s : S} (hts : TS cur [⟨k, .DownMatched, 0⟩, ⟨Key.timeout, .Up, v⟩] true outs out (some k) s) (ht : s.timeout = some (timeFor k t (some ref)))
    (hc : Causes outs (some k))
    (hx : ∀ x, (numberedInUse tcs cur).find? (fun x => x.2.1.key == k && x.2.1.fitsAgain .DownMatched v) = some x → ref ≠ ⟨x.1, false, x.2.2⟩) :
    TS cur [⟨k, .DownMatched, 0⟩] false outs out (some k) (mainLoop c ⟨Key.timeout, .Up, v⟩ dev u s) ∧
      (mainLoop c ⟨Key.timeout, .Up, v⟩ dev u s).timeout = some (timeFor k t (some ref)) := by
  have hkt := (deviceKey_proper hk).1.2.2
  have hds : KeyState.DownMatched = .Down ∨ KeyState.DownMatched = .DownMatched := Or.inr rfl
  -- nothing matches
  have hno : ∃ (s2 : S) (n : Nat), TS cur [⟨k, .DownMatched, 0⟩, ⟨Key.timeout, .Up, v⟩] true outs out (some k) s2 ∧ s2.timeout = some (timeFor k t (some ref)) ∧
      round c ⟨Key.timeout, .Up, v⟩ dev u s = (applyResult s2 ⟨Key.timeout, .Up, v⟩ .noMatch n false, true) := by
    have hnf : ∀ s2 : S, s2.timeout = some (timeFor k t (some ref)) → notTimeoutFailed s2 .noMatch = s2 := by
      intro s2 h2
      unfold notTimeoutFailed; rw [h2]; rfl
    cases hf : (numberedInUse tcs cur).find? (fun x => x.2.1.key == k && x.2.1.fitsAgain .DownMatched v) with
    | some x =>
      have hmem : x.2.1 ∈ mappingsInUse tcs cur := by
        rw [← numbered_mappings]; exact List.mem_map.2 ⟨x, List.mem_of_find?_eq_some hf, rfl⟩
      have hvalid := mappingsInUse_valid h _ hmem
      have hxp := List.find?_some hf
      rw [Bool.and_eq_true, beq_iff_eq] at hxp
      have hres := match_again hvalid (htap _ hmem hxp.1) hds v
      rw [hxp.1, hxp.2, if_pos rfl] at hres
      obtain ⟨a, b, h1⟩ := matchInput_ref (u := u) h hts.active hcur.lt hd (first := true) (by rw [find_again h hk htap hds]; exact hf) hres
      have hts1 := hts.withMatch a b
      have ht1 : ({ s with anyM := a, ub := b } : S).timeout = some (timeFor k t (some ref)) := ht
      generalize ({ s with anyM := a, ub := b } : S) = s1 at h1 hts1 ht1
      have htm : timeoutMatched s1 ⟨Key.timeout, .Up, v⟩ (.matched ⟨x.1, false, x.2.2⟩ x.2.1.out x.2.1.input x.1) false = (s1, .noMatch) := by
        unfold timeoutMatched
        rw [ht1]
        simp only [timeFor]
        simp only [show KeyState.Up.isNotTimeout = false from rfl, beq_self_eq_true, Bool.false_eq_true, if_false, if_true]
        have := hx x hf
        simp [this]
      refine ⟨s1, 2, hts1, ht1, ?_⟩
      unfold round
      rw [hts.seq, h1]
      simp only [MIR.isMatched, Bool.not_true, Bool.and_false, Bool.false_eq_true, if_false]
      rw [show (MIR.matched ⟨x.1, false, x.2.2⟩ x.2.1.out x.2.1.input x.1 == MIR.might) = false from rfl]
      simp only [Bool.false_eq_true, if_false, retryStart]
      rw [htm]
      simp only []
      rw [hnf _ ht1, hts1.seq]
      rfl
    | none =>
      obtain ⟨a, b, h1⟩ := matchInput_timed_none (u := u) h hts.active hcur.lt hd (first := true) (q := [⟨k, .DownMatched, 0⟩, ⟨Key.timeout, .Up, v⟩]) (by
        intro m hm
        left
        rw [List.find?_eq_none] at hf
        by_cases hmk : m.key = k
        · have hm' := hm
          rw [← numbered_mappings] at hm'
          obtain ⟨x, hx1, hx2⟩ := List.mem_map.1 hm'
          have := hf x hx1
          rw [hx2] at this
          have := match_again (mappingsInUse_valid h m hm) (htap m hm hmk) hds v
          rw [hmk] at this
          rw [this]
          simp_all
        · exact match_again_other (mappingsInUse_valid h m hm) hk hmk hds v)
      have hts1 := hts.withMatch a b
      have ht1 : ({ s with anyM := a, ub := b } : S).timeout = some (timeFor k t (some ref)) := ht
      generalize ({ s with anyM := a, ub := b } : S) = s1 at h1 hts1 ht1
      have htm : timeoutMatched s1 ⟨Key.timeout, .Up, v⟩ .noMatch false = (s1, .noMatch) := by
        unfold timeoutMatched
        rw [ht1]
        simp only [timeFor]
        simp only [show KeyState.Up.isNotTimeout = false from rfl, beq_self_eq_true, Bool.false_eq_true, if_false, if_true]
      have hre : retryStart c s1 .noMatch dev u = (s1, .noMatch, 1, false) := by
        unfold retryStart
        simp only [hts1.might, if_true, hts1.seq]
        show (match matchStart c dev u 2 s1 with
          | (s, .matched ref out trig ctx, n) => (s, MIR.matched ref out trig ctx, n, true)
          | (s, r, n) => (s, r, n, false)) = _
        have : matchStart c dev u 2 s1 = (s1, .noMatch, 1) := by
          rw [matchStart, if_neg (by decide), hts1.seq]
          rfl
        rw [this]
      refine ⟨s1, 1, hts1, ht1, ?_⟩
      unfold round
      rw [hts.seq, h1]
      simp only [show isVirtualKey Key.timeout = false by decide, Bool.false_and, Bool.false_eq_true, if_false]
      rw [show (MIR.noMatch == MIR.might) = false from rfl]
      simp only [Bool.false_eq_true, if_false]
      rw [hre]
      simp only []
      rw [htm]
      simp only []
      rw [hnf _ ht1]
  obtain ⟨s2, n, hts2, ht2, hround⟩ := hno
  have hfw : forwardFromSequence s2 = { releaseTriggered s2 Key.timeout (-1) with seq := [⟨k, .DownMatched, 0⟩] } := by
    unfold forwardFromSequence
    have hcont : ([(⟨k, .DownMatched, 0⟩ : KeyEvent), ⟨Key.timeout, .Up, v⟩].contains (⟨k, .Up, 0⟩ : KeyEvent)) = false := by
      rw [List.contains_eq_mem, decide_eq_false_iff_not]
      intro hm
      simp only [List.mem_cons, KeyEvent.mk.injEq, reduceCtorEq, false_and, and_false, List.not_mem_nil, or_false, false_or] at hm
      exact hkt hm.1
    rw [hts2.seq, forwardGo, hcont]
    simp [forwardGo]
  have hrel := hts2.release (k := Key.timeout) (by decide)
  obtain ⟨c1, c2, c3⟩ := hc.timeout
  rw [c1, c2, c3, List.append_nil] at hrel
  have hrt : (releaseTriggered s2 Key.timeout (-1)).timeout = some (timeFor k t (some ref)) := by
    unfold releaseTriggered
    rw [ht2]
    simp [timeFor, hkt]
  have hres : applyResult s2 ⟨Key.timeout, .Up, v⟩ .noMatch n false =
      { releaseTriggered s2 Key.timeout (-1) with seq := [⟨k, .DownMatched, 0⟩], might := false } := by
    unfold applyResult
    simp only [hfw]
    rw [show (releaseTriggered s2 Key.timeout (-1)).might = true from hrel.might]
    rfl
  rw [hres] at hround
  have hn : hasNonOptional s.seq = true := by rw [hts.seq]; rfl
  rw [mainLoop_twice hn hround rfl]
  exact ⟨(hrel.withSeq _).withMight _, hrt⟩

theorem finishInput_lastPressed (c : Cfg) (s : S) (ev : KeyEvent) : (finishInput c s ev).lastPressed = s.lastPressed := by
  unfold finishInput
  simp only []
  generalize hs1 : (if (ev.state == KeyState.Up) = true then releaseTriggered s ev.key (-1) else s) = s1
  have h1 : s1.lastPressed = s.lastPressed := by subst hs1; split <;> rfl
  have h2 : (updateActiveContexts c s1).lastPressed = s1.lastPressed := congrArg (fun p => p.2.2.2.1) (updateActiveContexts_kept c s1)
  generalize updateActiveContexts c s1 = s2 at *
  rw [← h1, ← h2]
  split <;> rfl

theorem finished_lastPressed (c : Cfg) (s : S) (ev : KeyEvent) (dev : Int) : (finished c s ev dev).lastPressed = s.lastPressed := by
  unfold finished
  rw [finishInput_lastPressed]
  have h1 : (mainLoop c ev dev (ev.state == .Up && ev.key != Key.timeout) (prepared s ev)).lastPressed = (prepared s ev).lastPressed :=
    congrArg (fun p => p.2.2.2.1) (mainLoop_kept c ev dev _ _)
  rw [h1]
  show (beforeMatchUp s ev).lastPressed = _
  unfold beforeMatchUp
  simp only []
  repeat' split
  all_goals rfl

/-- an event, when it is known what is done with repeats -/
theorem update_plain (h : TimedCfg tcs c) (hcur : Cur tcs cur) {q mg outs out tg} {s : S} (hts : TS cur q mg outs out tg s)
    (hnt : ∀ t, s.timeout = some t → t.ev.state.isNotTimeout = false) {ev : KeyEvent} {q' : KeySequence} {P : Int → Prop}
    (hm : ∀ xp b, ∃ lp lr, P lp ∧ mergeRepeat { s with exitPos := xp, ub := b } ev dev =
      ({ s with exitPos := xp, ub := b, lastPressed := lp, lastRepeat := lr, seq := q' }, false)) :
    ∃ s1, TS cur (q' ++ [ev]) mg outs out tg s1 ∧ s1.timeout = s.timeout ∧ P s1.lastPressed ∧
      update c s ev dev = ({ finished c s1 ev dev with buf := [] }, (finished c s1 ev dev).buf) := by
  obtain ⟨b, hx⟩ : ∃ b, (if validInput ev then { s with exitPos := advanceExit s.exitPos ev } else { s with exitPos := advanceExit s.exitPos ev, ub := true }) =
      { s with exitPos := advanceExit s.exitPos ev, ub := b } := by
    by_cases hv : validInput ev = true
    · exact ⟨s.ub, by rw [if_pos hv]⟩
    · exact ⟨true, by rw [if_neg hv]⟩
  obtain ⟨lp, lr, hP, hm⟩ := hm (advanceExit s.exitPos ev) b
  have hts1 : TS cur (q' ++ [ev]) mg outs out tg
      { s with exitPos := advanceExit s.exitPos ev, ub := b, lastPressed := lp, lastRepeat := lr, seq := q' ++ [ev] } :=
    ⟨hts.active, hts.client, hts.onRel, hts.reapplied, hts.hist, rfl, hts.might, hts.down, hts.tr, hts.buf, hts.tg, hts.nt⟩
  refine ⟨_, hts1, rfl, hP, ?_⟩
  have hco : continueOnRelease { s with exitPos := advanceExit s.exitPos ev, ub := b } ev (-1) = ({ s with exitPos := advanceExit s.exitPos ev, ub := b }, true) := by
    unfold continueOnRelease
    rw [show ({ s with exitPos := advanceExit s.exitPos ev, ub := b } : S).onRelease = [] from hts.onRel]; rfl
  have hsu : suppressTimeout { s with exitPos := advanceExit s.exitPos ev, ub := b } ev = ({ s with exitPos := advanceExit s.exitPos ev, ub := b }, false) := by
    unfold suppressTimeout
    cases ht : s.timeout with
    | none => rfl
    | some t => simp only [hnt t ht, Bool.false_eq_true, if_false]
  have hah : ∀ y : S, addToHistory c y ev = y := by
    intro y
    unfold addToHistory; rw [h.nmm]; simp
  unfold update applyInput
  simp only []
  rw [hx, hco]
  simp only []
  rw [hsu]
  simp only []
  rw [hm]
  simp only []
  rw [hah, hts1.updateActive h hcur]
  rfl

/-- the key is held, its mapping was applied -/
structure Repeating (cur : List Nat) (k : Key) (t : Nat) (ref : OutRef) (dev : Int) (q : KeySequence) (mg : Bool) (outs : List (Key × Key)) (s : S) : Prop where
  ts : TS cur q mg outs [] (some k) s
  time : s.timeout = some (timeFor k t (some ref))
  device : dev = noDeviceIndex ∨ s.lastPressed = dev

theorem timeFor_plain {k : Key} {t : Nat} {mo : Option OutRef} {s : S} (h : s.timeout = some (timeFor k t mo)) :
    ∀ t, s.timeout = some t → t.ev.state.isNotTimeout = false := by
  intro t' ht'
  rw [h] at ht'
  simp only [Option.some.injEq] at ht'
  rw [← ht']; rfl

/-- the time is asked for again -/
theorem loop_repeat_asks (h : TimedCfg tcs c) (hcur : Cur tcs cur) (hd : ValidDevice dev) {s : S} {b : KeySequence} {k : Key} {mg outs out tg}
    (hts : TS cur (b ++ [⟨k, .Down, 0⟩]) mg outs out tg s) (hb : Base b) (hk : isDeviceKey k = true) (hkb : k ∉ bodyKeys b) {t : Nat} {mo : Option OutRef}
    (ht : s.timeout = some (timeFor k t mo))
    (hreq : ((mappingsInUse tcs cur).find? (fun m => m.key == k)).bind (·.asks) = some ⟨Key.timeout, .Up, t⟩) :
    TS cur (b ++ [⟨k, .Down, 0⟩]) true outs (out ++ [⟨Key.timeout, .Up, t⟩]) tg (mainLoop c ⟨k, .Down, 0⟩ dev false s) ∧
      (mainLoop c ⟨k, .Down, 0⟩ dev false s).timeout = some (timeFor k t mo) := by
  obtain ⟨m, hm1, hm2⟩ := Option.bind_eq_some_iff.1 hreq
  have hmem := List.mem_of_find?_eq_some hm1
  have hkm : m.key = k := by simpa using List.find?_some hm1
  have hsk := hb.skipped hk hkb
  have hpressed : ∀ m ∈ mappingsInUse tcs cur, m.key = k → _ := fun m hm hmk =>
    match_pressed (mappingsInUse_valid h m hm) (base := b) (by rw [hmk]; exact hsk)
  have hf : (mappingsInUse tcs cur).find? (endsSearch true (b ++ [⟨k, .Down, 0⟩])) = some m := by
    rw [← hm1]
    apply find?_congr'
    intro m' hm'
    unfold endsSearch
    by_cases hmk : m'.key = k
    · have := hpressed m' hm' hmk
      rw [hmk] at this
      rw [this.1]
      rw [show (m'.key == k) = true by simpa using hmk]
      cases m'.asks.isSome <;> rfl
    · rw [match_press_other h hb hk m' hm' hmk, beq_eq_false_iff_ne.2 hmk]
      rfl
  have hp := hpressed m hmem hkm
  rw [hkm, hm2] at hp
  obtain ⟨a, b1, _, _, h1⟩ := matchInput_timed_some h hts.active hcur.lt hd (first := true) (u := false) hf
  have h1 := h1 ⟨Key.timeout, .Up, t⟩ hp.1 hp.2
  have hts1 := hts.withMatch a b1
  have ht1 : ({ s with anyM := a, ub := b1 } : S).timeout = some (timeFor k t mo) := ht
  generalize ({ s with anyM := a, ub := b1 } : S) = s1 at h1 hts1 ht1
  have htrack : trackTimeout s1 ⟨Key.timeout, .Up, t⟩ (b ++ [⟨k, .Down, 0⟩]) false = { s1 with buf := s1.buf ++ [⟨Key.timeout, .Up, t⟩] } := by
    unfold trackTimeout findLastDown
    rw [List.reverse_append]
    simp [ht1, keepsTimeout, timeFor]
  have hround : round c ⟨k, .Down, 0⟩ dev false s = ({ s1 with buf := s1.buf ++ [⟨Key.timeout, .Up, t⟩], might := true }, false) := by
    unfold round
    rw [hts.seq, h1, htrack]
    simp only [(deviceKey_proper hk).2.2, Bool.false_and, Bool.false_eq_true, if_false, beq_self_eq_true, if_true]
  have hn : hasNonOptional s.seq = true := by rw [hts.seq]; exact hasNonOptional_last (Or.inl rfl)
  rw [mainLoop_once hn hround]
  refine ⟨⟨hts1.active, hts1.client, hts1.onRel, hts1.reapplied, hts1.hist, hts1.seq, rfl, hts1.down, hts1.tr, ?_, hts1.tg, hts1.nt⟩, ht1⟩
  show s1.buf ++ [_] = _
  rw [hts1.buf]

/-- the key is repeated: it is asked again -/
theorem step_repeat (h : TimedCfg tcs c) (hcur : Cur tcs cur) (hd : ValidDevice dev) {k : Key} (hk : isDeviceKey k = true) {t : Nat} {ref : OutRef}
    {q outs} {s : S} (hr : Repeating cur k t ref dev q false outs s) (hq : q = [⟨k, .DownMatched, 0⟩] ∨ ∃ v, q = [⟨k, .DownMatched, 0⟩, ⟨Key.timeout, .UpMatched, v⟩])
    (hreq : ((mappingsInUse tcs cur).find? (fun m => m.key == k)).bind (·.asks) = some ⟨Key.timeout, .Up, t⟩) :
    Repeating cur k t ref dev [⟨k, .Down, 0⟩] true outs (update c s ⟨k, .Down, 0⟩ dev).1 ∧
      (update c s ⟨k, .Down, 0⟩ dev).2 = [⟨Key.timeout, .Up, t⟩] := by
  have hprop := deviceKey_proper hk
  have hkt := hprop.1.2.2
  have htk : (Key.timeout == k) = false := beq_eq_false_iff_ne.2 (fun h => hkt h.symm)
  obtain ⟨b, hb, hbk, hbase, hpp⟩ : ∃ b, rEraseKey s.seq k = b ∧ (b = [] ∨ ∃ v, b = [⟨Key.timeout, .UpMatched, v⟩]) ∧ Base b ∧ isPhysicallyPressed s k = true := by
    rcases hq with hq | ⟨v, hq⟩
    · refine ⟨[], ?_, Or.inl rfl, base_nil, ?_⟩
      · rw [hr.ts.seq, hq]; simp [rEraseKey]
      · unfold isPhysicallyPressed rfindKey; rw [hr.ts.seq, hq]; simp
    · refine ⟨_, ?_, Or.inr ⟨v, rfl⟩, base_time v, ?_⟩
      · rw [hr.ts.seq, hq]; simp [rEraseKey, htk]
      · unfold isPhysicallyPressed rfindKey; rw [hr.ts.seq, hq]; simp [htk]
  have hbkeys : bodyKeys b = [] := by
    rcases hbk with rfl | ⟨v, rfl⟩ <;> rfl
  obtain ⟨s1, h1, h2, h3, h4⟩ := update_plain (dev := dev) h hcur hr.ts (timeFor_plain hr.time) (ev := ⟨k, .Down, 0⟩) (q' := b)
    (P := fun lp => dev = noDeviceIndex ∨ lp = dev) (by
      intro xp ub
      have hpp' : isPhysicallyPressed { s with exitPos := xp, ub := ub } k = true := hpp
      have hmi := hr.ts.might
      unfold mergeRepeat
      rw [if_pos (by rfl), if_pos hpp', if_neg (by simp [hmi])]
      rcases hr.device with hdev | hdev
      · refine ⟨s.lastPressed, s.lastRepeat, Or.inl hdev, ?_⟩
        simp [hdev, hb]
      · by_cases hno : dev = noDeviceIndex
        · refine ⟨s.lastPressed, s.lastRepeat, Or.inl hno, ?_⟩
          simp [hno, hb]
        · refine ⟨dev, dev, Or.inr rfl, ?_⟩
          simp [hno, hdev, hb])
  rw [h4]
  obtain ⟨hp, _, hpt⟩ := h1.prepared (ev := ⟨k, .Down, 0⟩) (Or.inl rfl)
  rw [h2, hr.time] at hpt
  obtain ⟨h5, h6⟩ := loop_repeat_asks h hcur hd hp hbase hk (by rw [hbkeys]; simp) hpt hreq
  have hdrop : (b ++ [(⟨k, .Down, 0⟩ : KeyEvent)]).dropWhile (fun e => e.state == KeyState.UpMatched) = [⟨k, .Down, 0⟩] := by
    rcases hbk with rfl | ⟨v, rfl⟩ <;> simp
  obtain ⟨tg', _, h8, h9, h10⟩ := h5.finish_down h hcur (ev := ⟨k, .Down, 0⟩) rfl hprop.2.1 hdrop
  have h8 := h8 (by simp)
  rw [h8] at h9
  have h11 := finished_lastPressed c s1 ⟨k, .Down, 0⟩ dev
  refine ⟨⟨h9.cleared, (h10 (by simp)).trans h6, ?_⟩, h9.buf⟩
  rcases h3 with h3 | h3
  · exact Or.inl h3
  · exact Or.inr (h11.trans h3)

theorem timeout_stays (c : Cfg) {k : Key} (hk : k ≠ Key.timeout) {t v : Nat} {mo : Option OutRef} (h : TimedCfg tcs c) (hcur : Cur tcs cur) {mg outs out tg} {s : S}
    (hts : TS cur q mg outs out tg s) (hq : q.dropWhile (fun e => e.state == KeyState.UpMatched) ≠ []) (ht : s.timeout = some (timeFor k t mo)) :
    (finishInput c s ⟨Key.timeout, .Up, v⟩).timeout = some (timeFor k t mo) := by
  have hrt : (releaseTriggered s Key.timeout (-1)).timeout = some (timeFor k t mo) := by
    unfold releaseTriggered
    rw [ht]
    simp [timeFor, hk]
  have h1 := hts.release (k := Key.timeout) (by decide)
  unfold finishInput
  simp only [show (KeyState.Up == KeyState.Up) = true from rfl, if_true]
  generalize releaseTriggered s Key.timeout (-1) = s1 at h1 hrt ⊢
  rw [h1.updateActive h hcur, h1.seq]
  cases hqe : q.dropWhile (fun e => e.state == KeyState.UpMatched) with
  | nil => exact absurd hqe hq
  | cons e l =>
    simp only [List.isEmpty_cons, Bool.false_eq_true, if_false, h1.hist]
    exact hrt

/-- some time passed -/
theorem update_elapsed (h : TimedCfg tcs c) (hcur : Cur tcs cur) {k : Key} {t : Nat} {mo : Option OutRef} {outs : List (Key × Key)} {s : S} (v : Nat)
    (hts : TS cur [⟨k, .Down, 0⟩] true outs [] (some k) s) (ht : s.timeout = some (timeFor k t mo)) :
    ∃ s1, TS cur [⟨k, if mo.isSome then .DownMatched else .Down, 0⟩, ⟨Key.timeout, .Up, v⟩] true outs [] (some k) (prepared s1 ⟨Key.timeout, .Up, v⟩) ∧
      (prepared s1 ⟨Key.timeout, .Up, v⟩).timeout = some (timeFor k t mo) ∧ s1.lastPressed = s.lastPressed ∧
      update c s ⟨Key.timeout, .Up, v⟩ dev = ({ finished c s1 ⟨Key.timeout, .Up, v⟩ dev with buf := [] }, (finished c s1 ⟨Key.timeout, .Up, v⟩ dev).buf) := by
  obtain ⟨s1, h1, h2, h3, h4⟩ := update_plain (dev := dev) h hcur hts (timeFor_plain ht) (ev := ⟨Key.timeout, .Up, v⟩) (q' := [⟨k, .Down, 0⟩])
    (P := fun lp => lp = s.lastPressed) (by
      intro xp ub
      have hs := hts.seq
      unfold mergeRepeat
      rw [if_neg (by simp)]
      refine ⟨s.lastPressed, if dev == s.lastRepeat then noDeviceIndex else s.lastRepeat, rfl, ?_⟩
      rw [← hs])
  refine ⟨s1, ?_, ?_, h3, h4⟩
  all_goals
    have hbm : beforeMatchUp s1 ⟨Key.timeout, .Up, v⟩ = { s1 with seq := [⟨k, if mo.isSome then .DownMatched else .Down, 0⟩, ⟨Key.timeout, .Up, v⟩] } := by
      unfold beforeMatchUp
      simp only [show (KeyState.Up == KeyState.Up) = true from rfl, if_true]
      have hmi := h1.might
      have hsq := h1.seq
      have hti := h2.trans ht
      have hmo : s1.timeout.bind (·.matchedOutput) = mo := by rw [hti]; rfl
      rw [hmo]
      cases mo with
      | none =>
        simp only [Option.isSome_none, Bool.false_eq_true, if_false, hmi, Bool.not_true]
        cases s1
        simp only at hsq hmi
        subst hsq hmi
        rfl
      | some r =>
        simp only [Option.isSome_some, if_true, hmi, Bool.not_true, Bool.false_eq_true, if_false, hsq]
        simp
    unfold KM.prepared
    rw [hbm]
  · exact (h1.withSeq _).unsuppressed
  · exact h2.trans ht

/-- enough time passed: the mapping is applied, for the first time or again -/
theorem step_again (h : TimedCfg tcs c) (hcur : Cur tcs cur) (hd : ValidDevice dev) {k : Key} (hk : isDeviceKey k = true)
    (htap : ∀ m ∈ mappingsInUse tcs cur, m.key = k → m.isTap = false) {t v : Nat} {mo : Option OutRef} {outs : List (Key × Key)} {s : S}
    (hc : Causes outs (some k)) (hts : TS cur [⟨k, .Down, 0⟩] true outs [] (some k) s) (ht : s.timeout = some (timeFor k t mo))
    (hdev : dev = noDeviceIndex ∨ s.lastPressed = dev) {x : Nat × TimedMapping × Nat}
    (hx : (numberedInUse tcs cur).find? (fun x => x.2.1.key == k && x.2.1.fitsAgain (if mo.isSome then .DownMatched else .Down) v) = some x)
    (hmo : mo = none ∨ mo = some ⟨x.1, false, x.2.2⟩) :
    Repeating cur k t ⟨x.1, false, x.2.2⟩ dev [⟨k, .DownMatched, 0⟩, ⟨Key.timeout, .UpMatched, v⟩] false (pressAll outs k x.2.1.out)
        (update c s ⟨Key.timeout, .Up, v⟩ dev).1 ∧ (update c s ⟨Key.timeout, .Up, v⟩ dev).2 = x.2.1.out := by
  have hkt := (deviceKey_proper hk).1.2.2
  obtain ⟨s1, h1, h2, h3, h4⟩ := update_elapsed (dev := dev) h hcur v hts ht
  rw [h4]
  have hds : (if mo.isSome = true then KeyState.DownMatched else KeyState.Down) = .Down ∨ (if mo.isSome = true then KeyState.DownMatched else KeyState.Down) = .DownMatched := by
    cases mo <;> simp
  obtain ⟨h5, h6⟩ := loop_again_matched (u := false) h hcur hd hk htap hds h1 h2 hx hmo
  have hdrop : ([(⟨k, .DownMatched, 0⟩ : KeyEvent), ⟨Key.timeout, .UpMatched, v⟩]).dropWhile (fun e => e.state == KeyState.UpMatched) =
      [⟨k, .DownMatched, 0⟩, ⟨Key.timeout, .UpMatched, v⟩] := by simp
  obtain ⟨tg', _, h8, h9, _⟩ := h5.finish_up h hcur (ev := ⟨Key.timeout, .Up, v⟩) rfl (show Key.timeout ≠ Key.ContextActive by decide) hdrop
  have h8 := h8 (by simp)
  obtain ⟨c1, c2, c3⟩ := (hc.press hk x.2.1.out).timeout
  rw [show (⟨Key.timeout, .Up, v⟩ : KeyEvent).key = Key.timeout from rfl] at h8 h9
  rw [h8, c1, c2, c3] at h9
  have h10 := timeout_stays (v := v) c hkt h hcur h5 (by rw [hdrop]; simp) h6
  have h11 := finished_lastPressed c s1 ⟨Key.timeout, .Up, v⟩ dev
  refine ⟨⟨h9.cleared, h10, ?_⟩, ?_⟩
  · rcases hdev with hdev | hdev
    · exact Or.inl hdev
    · exact Or.inr ((h11.trans h3).trans hdev)
  · exact h9.buf.trans (by simp)

/-- less time passed: nothing is applied -/
theorem step_short (h : TimedCfg tcs c) (hcur : Cur tcs cur) (hd : ValidDevice dev) {k : Key} (hk : isDeviceKey k = true)
    (htap : ∀ m ∈ mappingsInUse tcs cur, m.key = k → m.isTap = false) {t v : Nat} {ref : OutRef} {outs : List (Key × Key)} {s : S}
    (hc : Causes outs (some k)) (hr : Repeating cur k t ref dev [⟨k, .Down, 0⟩] true outs s)
    (hx : ∀ x, (numberedInUse tcs cur).find? (fun x => x.2.1.key == k && x.2.1.fitsAgain .DownMatched v) = some x → ref ≠ ⟨x.1, false, x.2.2⟩) :
    Repeating cur k t ref dev [⟨k, .DownMatched, 0⟩] false outs (update c s ⟨Key.timeout, .Up, v⟩ dev).1 ∧
      (update c s ⟨Key.timeout, .Up, v⟩ dev).2 = [] := by
  have hkt := (deviceKey_proper hk).1.2.2
  obtain ⟨s1, h1, h2, h3, h4⟩ := update_elapsed (dev := dev) h hcur v hr.ts hr.time
  rw [h4]
  obtain ⟨h5, h6⟩ := loop_again_short (u := false) h hcur hd hk htap h1 h2 hc hx
  have hdrop : ([(⟨k, .DownMatched, 0⟩ : KeyEvent)]).dropWhile (fun e => e.state == KeyState.UpMatched) = [⟨k, .DownMatched, 0⟩] := by simp
  obtain ⟨tg', _, h8, h9, _⟩ := h5.finish_up h hcur (ev := ⟨Key.timeout, .Up, v⟩) rfl (show Key.timeout ≠ Key.ContextActive by decide) hdrop
  have h8 := h8 (by simp)
  obtain ⟨c1, c2, c3⟩ := hc.timeout
  rw [show (⟨Key.timeout, .Up, v⟩ : KeyEvent).key = Key.timeout from rfl] at h8 h9
  rw [h8, c1, c2, c3] at h9
  have h10 := timeout_stays (v := v) c hkt h hcur h5 (by rw [hdrop]; simp) h6
  have h11 := finished_lastPressed c s1 ⟨Key.timeout, .Up, v⟩ dev
  refine ⟨⟨h9.cleared, h10, ?_⟩, ?_⟩
  · rcases hr.device with hdev | hdev
    · exact Or.inl hdev
    · exact Or.inr ((h11.trans h3).trans hdev)
  · exact h9.buf.trans (by simp)

/-- the key is pressed: it is asked for the time -/
theorem step_asks (h : TimedCfg tcs c) (hcur : Cur tcs cur) (hd : ValidDevice dev) {k : Key} (hk : isDeviceKey k = true) {outs : List (Key × Key)} {tg} {s : S} {b : KeySequence}
    (hb : Base b) (hbk : bodyKeys b = []) (hts : TS cur b false outs [] tg s) (htg : tg = none) {t : Nat}
    (hreq : ((mappingsInUse tcs cur).find? (fun m => m.key == k)).bind (·.asks) = some ⟨Key.timeout, .Up, t⟩) :
    TS cur [⟨k, .Down, 0⟩] true outs [] (some k) (update c s ⟨k, .Down, 0⟩ dev).1 ∧
      (update c s ⟨k, .Down, 0⟩ dev).1.timeout = some (timeFor k t none) ∧ (dev = noDeviceIndex ∨ (update c s ⟨k, .Down, 0⟩ dev).1.lastPressed = dev) ∧
      (update c s ⟨k, .Down, 0⟩ dev).2 = [⟨Key.timeout, .Up, t⟩] := by
  have hprop := deviceKey_proper hk
  have hkb : k ∉ bodyKeys b := by rw [hbk]; simp
  have hnone : s.timeout = none := by
    have := hts.tg
    rw [htg] at this
    simpa using this
  obtain ⟨s1, h1, h2, h3, h4⟩ := update_plain (dev := dev) h hcur hts (by rw [hnone]; intro t ht; simp at ht) (ev := ⟨k, .Down, 0⟩) (q' := b)
    (P := fun lp => dev = noDeviceIndex ∨ lp = dev) (by
      intro xp ub
      have hpp : isPhysicallyPressed { s with exitPos := xp, ub := ub } k = false := notPressed_of (by
        show ∀ e ∈ s.seq, e.key ≠ k
        rw [hts.seq]; exact base_key_ne hb hk hkb)
      have hs := hts.seq
      unfold mergeRepeat
      rw [if_pos (by rfl), if_neg (by rw [hpp]; simp)]
      by_cases hno : dev = noDeviceIndex
      · refine ⟨s.lastPressed, s.lastRepeat, Or.inl hno, ?_⟩
        simp [hno, ← hs]
      · rw [if_pos (by simpa using hno)]
        refine ⟨dev, if dev == s.lastRepeat then noDeviceIndex else s.lastRepeat, Or.inr rfl, ?_⟩
        rw [← hs])
  rw [h4]
  obtain ⟨hp, _, hpt⟩ := h1.prepared (ev := ⟨k, .Down, 0⟩) (Or.inl rfl)
  obtain ⟨h5, h6⟩ := loop_press_asks (u := false) (dev := dev) h hcur hd hp hb hk hkb (by rw [htg]; simp) hreq
  have hbd : b.dropWhile (fun e => e.state == KeyState.UpMatched) = [] := by
    have : ∀ e ∈ b, e.state = .UpMatched := by
      intro e he
      rcases hb.state e he with h1 | h1
      · have := mem_keysOf he h1
        have : e.key ∈ bodyKeys b := this
        rw [hbk] at this
        simp at this
      · exact h1
    clear hb hbk hts hkb h1 hp h5
    induction b with
    | nil => rfl
    | cons e b ih =>
      rw [List.dropWhile_cons, if_pos (by simpa using this e (by simp))]
      exact ih (fun x hx => this x (by simp [hx]))
  have hdrop := dropWhile_before (b := b) (⟨k, .Down, 0⟩ : KeyEvent) (by simp) []
  rw [hbd, List.nil_append] at hdrop
  obtain ⟨tg', _, h8, h9, h10⟩ := h5.finish_down h hcur (ev := ⟨k, .Down, 0⟩) rfl hprop.2.1 hdrop
  have h8 := h8 (by simp)
  rw [h8] at h9
  have h11 := finished_lastPressed c s1 ⟨k, .Down, 0⟩ dev
  refine ⟨h9.cleared, (h10 (by simp)).trans h6, ?_, h9.buf⟩
  rcases h3 with h3 | h3
  · exact Or.inl h3
  · exact Or.inr (h11.trans h3)

/-- the keys which are already held remain held -/
theorem pressAll_held {k : Key} (l : KeySequence) : ∀ {outs : List (Key × Key)}, (∀ e ∈ l, outs.any (fun o => o.1 == e.key) = true) → pressAll outs k l = outs := by
  induction l with
  | nil => intro outs _; rfl
  | cons e l ih =>
    intro outs h
    have : pressAll outs k (e :: l) = pressAll (if outs.any (fun o => o.1 == e.key) then outs else outs ++ [(e.key, k)]) k l := rfl
    rw [this, if_pos (h e (by simp))]
    exact ih (fun x hx => h x (by simp [hx]))

theorem pressAll_any {k : Key} (l : KeySequence) : ∀ {outs : List (Key × Key)} (x : Key), (outs.any (fun o => o.1 == x) = true ∨ ∃ e ∈ l, e.key = x) →
    (pressAll outs k l).any (fun o => o.1 == x) = true := by
  induction l with
  | nil =>
    intro outs x h
    rcases h with h | ⟨e, he, _⟩
    · exact h
    · simp at he
  | cons e l ih =>
    intro outs x h
    have : pressAll outs k (e :: l) = pressAll (if outs.any (fun o => o.1 == e.key) then outs else outs ++ [(e.key, k)]) k l := rfl
    rw [this]
    apply ih
    rcases h with h | ⟨y, hy, hyx⟩
    · left
      split
      · exact h
      · rw [List.any_append, h]; rfl
    · rcases List.mem_cons.1 hy with rfl | hy
      · left
        split
        · next h => rw [← hyx]; exact h
        · rw [List.any_append, hyx]; simp
      · exact Or.inr ⟨y, hy, hyx⟩

theorem pressAll_again {outs : List (Key × Key)} {k : Key} (l : KeySequence) : pressAll (pressAll outs k l) k l = pressAll outs k l :=
  pressAll_held l (fun e he => pressAll_any l e.key (Or.inr ⟨e, he, rfl⟩))

/-- the first mapping of the key -/
theorem first_numbered {k : Key} {m : TimedMapping} (hm : (mappingsInUse tcs cur).find? (fun m => m.key == k) = some m) :
    ∃ x, (numberedInUse tcs cur).find? (fun x => x.2.1.key == k) = some x ∧ x.2.1 = m := by
  rw [← numbered_mappings, List.find?_map] at hm
  obtain ⟨x, h1, h2⟩ := Option.map_eq_some_iff.1 hm
  exact ⟨x, h1, h2⟩

theorem find_and {α : Type} (l : List α) (p r : α → Bool) {x : α} (h : l.find? p = some x) (hr : r x = true) : l.find? (fun a => p a && r a) = some x := by
  induction l with
  | nil => simp at h
  | cons a l ih =>
    rw [List.find?_cons] at h ⊢
    cases hp : p a with
    | true =>
      rw [hp] at h
      simp only [Option.some.injEq] at h
      subst h
      rw [hr]; rfl
    | false =>
      rw [hp] at h
      exact ih h

/-- a key which is held is repeated -/
theorem repeats_run (h : TimedCfg tcs c) (hcur : Cur tcs cur) (hd : ValidDevice dev) {k : Key} (hk : isDeviceKey k = true)
    (htap : ∀ m ∈ mappingsInUse tcs cur, m.key = k → m.isTap = false) {t : Nat} {x : Nat × TimedMapping × Nat}
    (hx : (numberedInUse tcs cur).find? (fun x => x.2.1.key == k) = some x) (hxt : x.2.1.timing = .hold t) (ws : List Nat) :
    ∀ {outs : List (Key × Key)} {q : KeySequence} {s : S}, Causes outs (some k) → pressAll outs k x.2.1.out = outs →
      Repeating cur k t ⟨x.1, false, x.2.2⟩ dev q false outs s → (q = [⟨k, .DownMatched, 0⟩] ∨ ∃ v, q = [⟨k, .DownMatched, 0⟩, ⟨Key.timeout, .UpMatched, v⟩]) →
      ∃ s' q', Repeating cur k t ⟨x.1, false, x.2.2⟩ dev q' false outs s' ∧ (q' = [⟨k, .DownMatched, 0⟩] ∨ ∃ v, q' = [⟨k, .DownMatched, 0⟩, ⟨Key.timeout, .UpMatched, v⟩]) ∧
        ∀ rest, stageOutputs (c, s) (repeats k dev ws ++ rest) =
          repeated t x.2.1.out ws ++ stageOutputs (c, s') rest := by
  induction ws with
  | nil => intro outs q s _ _ hr hq; exact ⟨s, q, hr, hq, fun _ => rfl⟩
  | cons w ws ih =>
    intro outs q s hc hpa hr hq
    have hreq : ((mappingsInUse tcs cur).find? (fun m => m.key == k)).bind (·.asks) = some ⟨Key.timeout, .Up, t⟩ := by
      rw [← numbered_mappings, List.find?_map, show (((fun m : TimedMapping => m.key == k) ∘ fun x : Nat × TimedMapping × Nat => x.2.1)) = (fun x => x.2.1.key == k) from rfl, hx]
      simp [TimedMapping.asks, hxt]
    obtain ⟨h1, h2⟩ := step_repeat h hcur hd hk hr hq hreq
    generalize hs1 : (update c s ⟨k, .Down, 0⟩ dev).1 = s1 at h1
    have hfit : x.2.1.fitsAgain .DownMatched w = decide (t ≤ w) := by
      simp [TimedMapping.fitsAgain, TimedMapping.fits, TimedMapping.asks, hxt]
    obtain ⟨q2, h3, h4, h5⟩ : ∃ q2, Repeating cur k t ⟨x.1, false, x.2.2⟩ dev q2 false outs (update c s1 ⟨Key.timeout, .Up, w⟩ dev).1 ∧
        (q2 = [⟨k, .DownMatched, 0⟩] ∨ ∃ v, q2 = [⟨k, .DownMatched, 0⟩, ⟨Key.timeout, .UpMatched, v⟩]) ∧
        (update c s1 ⟨Key.timeout, .Up, w⟩ dev).2 = if t ≤ w then x.2.1.out else [] := by
      by_cases hw : t ≤ w
      · obtain ⟨h3, h4⟩ := step_again h hcur hd hk htap (v := w) hc h1.ts h1.time h1.device (x := x)
          (find_and _ _ _ hx (by rw [Option.isSome_some, if_pos rfl, hfit]; simpa using hw)) (Or.inr rfl)
        rw [hpa] at h3
        exact ⟨_, h3, Or.inr ⟨w, rfl⟩, by rw [h4, if_pos hw]⟩
      · obtain ⟨h3, h4⟩ := step_short h hcur hd hk htap (v := w) hc h1 (by
          intro y hy he
          have h6 := numbered_det (List.mem_of_find?_eq_some hx)
          have h7 := numbered_det (List.mem_of_find?_eq_some hy)
          simp only [OutRef.mk.injEq, true_and] at he
          rw [← he.1, ← he.2, h6] at h7
          simp only [Option.some.injEq] at h7
          have h8 := List.find?_some hy
          rw [← h7, hfit] at h8
          simp [hw] at h8)
        exact ⟨_, h3, Or.inl rfl, by rw [h4, if_neg hw]⟩
    obtain ⟨s', q', h6, h7, h8⟩ := ih hc hpa h3 h4
    refine ⟨s', q', h6, h7, fun rest => ?_⟩
    have hops : repeats k dev (w :: ws) ++ rest = .input ⟨k, .Down, 0⟩ dev :: .input ⟨Key.timeout, .Up, w⟩ dev :: (repeats k dev ws ++ rest) := rfl
    rw [hops, stageOutputs, stageOutputs]
    show (update c s ⟨k, .Down, 0⟩ dev).2 :: (update c (update c s ⟨k, .Down, 0⟩ dev).1 ⟨Key.timeout, .Up, w⟩ dev).2 ::
      stageOutputs (c, (update c (update c s ⟨k, .Down, 0⟩ dev).1 ⟨Key.timeout, .Up, w⟩ dev).1) (repeats k dev ws ++ rest) = _
    rw [hs1, h2, h5, h8]
    rfl

/-- a key is pressed and held until its mapping is applied, then it is repeated -/
theorem held_repeats (h : TimedCfg tcs c) {st : TimedState} {s : S} (hi : TimedInv tcs st s) (hw : st.waiting = .idle) (hheld : st.held = []) (hd : ValidDevice dev)
    {k : Key} (hk : isDeviceKey k = true) {t : Nat} {o : KeySequence}
    (hm : (mappingsInUse tcs st.current).find? (fun m => m.key == k) = some ⟨k, .hold t, o⟩)
    (htap : ∀ m ∈ mappingsInUse tcs st.current, m.key = k → m.isTap = false) {v : Nat} (hv : t ≤ v) (ws : List Nat) :
    ∃ s', TimedInv tcs { st with held := [k], outs := pressAll st.outs k o } s' ∧
      ∀ rest, stageOutputs (c, s) (.input ⟨k, .Down, 0⟩ dev :: .input ⟨Key.timeout, .Up, v⟩ dev :: (repeats k dev ws ++ rest)) =
        [⟨Key.timeout, .Up, t⟩] :: o :: (repeated t o ws ++ stageOutputs (c, s') rest) := by
  have hstate := hi.state
  rw [hw] at hstate
  obtain ⟨b, tg, hb, hkeys, hts, htg⟩ := hstate
  rw [hheld] at hkeys htg
  have htn : tg = none := by
    cases tg with
    | none => rfl
    | some j => exact absurd (htg j rfl) (by simp)
  obtain ⟨x, hx, hxm⟩ := first_numbered hm
  have hxt : x.2.1.timing = .hold t := by rw [hxm]
  have hxo : x.2.1.out = o := by rw [hxm]
  have hc : Causes st.outs (some k) := ⟨hi.causes, fun j hj => by simp only [Option.some.injEq] at hj; rw [← hj]; exact hk⟩
  obtain ⟨h1, h2, h3, h4⟩ := step_asks (dev := dev) h hi.cur hd hk hb hkeys hts htn (t := t) (by rw [hm]; rfl)
  generalize hs1 : (update c s ⟨k, .Down, 0⟩ dev).1 = s1 at h1 h2 h3
  obtain ⟨h5, h6⟩ := step_again h hi.cur hd hk htap (v := v) hc h1 h2 h3 (x := x)
    (find_and _ _ _ hx (by simp [TimedMapping.fitsAgain, TimedMapping.fits, hxt, hv])) (Or.inl rfl)
  rw [hxo] at h5 h6
  have hc2 := hc.press hk o
  obtain ⟨s', q', h7, h8, h9⟩ := repeats_run h hi.cur hd hk htap hx hxt ws hc2 (by rw [hxo]; exact pressAll_again o) h5 (Or.inr ⟨v, rfl⟩)
  refine ⟨s', ⟨hi.cur, by simp, hc2.outs, ?_⟩, fun rest => ?_⟩
  · show match st.waiting with
      | .idle => _
      | .answer _ => _
      | .undecided _ _ => _
    rw [hw]
    rcases h8 with h8 | ⟨w, h8⟩
    · refine ⟨q', some k, by rw [h8]; exact base_down hk, by rw [h8]; rfl, h7.ts, by simp⟩
    · refine ⟨q', some k, by rw [h8]; exact (base_down hk).append (base_time w), by rw [h8]; rfl, h7.ts, by simp⟩
  · rw [stageOutputs, stageOutputs]
    show (update c s ⟨k, .Down, 0⟩ dev).2 :: (update c (update c s ⟨k, .Down, 0⟩ dev).1 ⟨Key.timeout, .Up, v⟩ dev).2 ::
      stageOutputs (c, (update c (update c s ⟨k, .Down, 0⟩ dev).1 ⟨Key.timeout, .Up, v⟩ dev).1) (repeats k dev ws ++ rest) = _
    rw [hs1, h4, h6, h9, hxo]

end

end KM
