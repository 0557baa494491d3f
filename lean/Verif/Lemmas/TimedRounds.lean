import Verif.Lemmas.TimedLoop
set_option linter.unusedSimpArgs false
/-!
# The main loop for each kind of event
-/
namespace KM

theorem finishGo_base {b : KeySequence} (hb : Base b) (n : Nat) {rest : KeySequence} (hup : ∀ k ∈ bodyKeys b, (⟨k, .Up, 0⟩ : KeyEvent) ∉ rest) :
    finishGo (b.length + n) (b ++ rest) = b ++ finishGo n rest := by
  induction b with
  | nil => simp
  | cons e b ih =>
    have hb' : Base b := hb.sub (fun x hx => by simp [hx])
    have ih := ih hb' (fun k hk => hup k (by
      unfold bodyKeys cleaned at hk ⊢
      obtain ⟨x, h1, h2⟩ := List.mem_map.1 hk
      refine List.mem_map.2 ⟨x, ?_, h2⟩
      rw [List.mem_filter] at h1 ⊢
      exact ⟨by simp [h1.1], h1.2⟩))
    have hlen : (e :: b).length + n = (b.length + n) + 1 := by simp; omega
    rw [hlen, List.cons_append, finishGo]
    rcases hb e (by simp) with h1 | h1
    · have hcond : (e.state == KeyState.Down || e.state == KeyState.DownMatched) = true := by rw [h1.1]; rfl
      have hcont : (e :: (b ++ rest)).contains (⟨e.key, .Up, 0⟩ : KeyEvent) = false := by
        rw [List.contains_eq_mem, decide_eq_false_iff_not]
        simp only [List.mem_cons, List.mem_append]
        rintro (hm | hm | hm)
        · have := h1.1; rw [← hm] at this; simp at this
        · have := hb'.state _ hm; simp at this
        · exact hup e.key (mem_keysOf (by simp) h1.1) hm
      rw [if_pos hcond, hcont, ih]
      simp only [Bool.false_eq_true, if_false, List.cons_append]
      have : ({ e with state := .DownMatched } : KeyEvent) = e := by rw [← h1.1]
      rw [this]
    · rw [if_neg (by rw [h1.1]; decide), if_pos (by rw [h1.2]; decide), ih]
      have : ({ e with state := .UpMatched } : KeyEvent) = e := by rw [← h1.1]
      rw [this]; rfl

section
variable {tcs : List (List TimedMapping)} {c : Cfg} {cur : List Nat} {mg : Bool} {outs : List (Key × Key)} {out : KeySequence} {tg : Option Key}
  {dev : Int} {u : Bool}

/-- a mapping applies to the sequence -/
theorem round_matched (h : TimedCfg tcs c) (hcur : Cur tcs cur) (hd : ValidDevice dev) {s : S} {q : KeySequence}
    (hts : TS cur q mg outs out tg s) {m : TimedMapping} (hf : (mappingsInUse tcs cur).find? (endsSearch true q) = some m)
    (hres : (matchSeq m.input q).res = .matched) {ev : KeyEvent} (hm : ev.key ≠ Key.timeout ∨ s.matchedTime = none) {k : Key}
    (hk : ∀ s1 : S, s1.seq = q → s1.timeout.map (·.trigger) = tg → (chooseTrigger s1 ev m.out m.input).keyOf = k) :
    ∃ s', round c ev dev u s = (s', true) ∧ TS cur (finishGo q.length q) false (pressAll outs k m.out) (out ++ m.out) tg s' := by
  have hvalid := mappingsInUse_valid h m (List.mem_of_find?_eq_some hf)
  obtain ⟨a, b, h1, _, _⟩ := matchInput_timed_some h hts.active hcur.lt hd (first := true) (u := u) hf
  obtain ⟨ref, ci, h1⟩ := h1 hres
  have hts1 := hts.withMatch a b
  have hm1 : ev.key ≠ Key.timeout ∨ ({ s with anyM := a, ub := b } : S).matchedTime = none := hm
  generalize ({ s with anyM := a, ub := b } : S) = s1 at h1 hts1 hm1
  have htm : ∃ s2, timeoutMatched s1 ev (.matched ref m.out m.input ci) false = (s2, .matched ref m.out m.input ci) ∧ TS cur q mg outs out tg s2 := by
    unfold timeoutMatched
    cases ht : s1.timeout with
    | none => exact ⟨s1, rfl, hts1⟩
    | some t =>
      simp only []
      by_cases hnt : t.ev.state.isNotTimeout = true
      · rw [if_pos hnt]; exact ⟨s1, rfl, hts1⟩
      · rw [if_neg hnt]
        by_cases hek : ev.key = Key.timeout
        · rw [if_pos (by simpa using hek)]
          have : t.matchedOutput = none := by
            rcases hm1 with h1 | h1
            · exact absurd hek h1
            · unfold S.matchedTime at h1; rw [ht] at h1; exact h1
          rw [this]
          simp only [Bool.false_eq_true, if_false]
          refine ⟨_, rfl, ⟨hts1.active, hts1.client, hts1.onRel, hts1.reapplied, hts1.hist, hts1.seq, hts1.might, hts1.down, hts1.tr, hts1.buf, ?_, ?_⟩⟩
          · rw [← hts1.tg, ht]; rfl
          · intro t' ht' hn'
            simp only [Option.some.injEq] at ht'
            rw [← ht'] at hn'
            exact absurd hn' hnt
        · rw [if_neg (by simpa using hek)]
          exact ⟨s1, rfl, hts1⟩
  obtain ⟨s2, h2, hts2⟩ := htm
  have hnf : notTimeoutFailed s2 (.matched ref m.out m.input ci) = s2 := by
    unfold notTimeoutFailed; cases s2.timeout <;> rfl
  obtain ⟨hp, _⟩ := hts2.put hvalid.2 (chooseTrigger s2 ev m.out m.input) ci
  rw [hk s2 hts2.seq hts2.tg] at hp
  refine ⟨{ finishSequence (applyOutput s2 m.out (chooseTrigger s2 ev m.out m.input) ci) q.length with might := false }, ?_, ?_⟩
  · unfold round
    rw [hts.seq, h1]
    simp only [MIR.isMatched, Bool.not_true, Bool.and_false, Bool.false_eq_true, if_false]
    rw [show (MIR.matched ref m.out m.input ci == MIR.might) = false from rfl]
    simp only [Bool.false_eq_true, if_false, retryStart]
    rw [h2]
    simp only []
    rw [hnf, hts1.seq]
    rfl
  · unfold finishSequence
    rw [hp.seq]
    exact (hp.withSeq _).withMight _

/-- only the beginning of the sequence is replaced -/
theorem round_start (h : TimedCfg tcs c) (hcur : Cur tcs cur) (hd : ValidDevice dev) {s : S} {q : KeySequence} {x : KeyEvent}
    (hts : TS cur (q ++ [x]) true outs out tg s) (hdn : hasUnmatchedDown q = true)
    (hno : ∀ m ∈ mappingsInUse tcs cur, (matchSeq m.input (q ++ [x])).res = .no_match)
    {m : TimedMapping} (hf : (mappingsInUse tcs cur).find? (endsSearch false q) = some m) {ev : KeyEvent} (hv : isVirtualKey ev.key = false)
    (hek : ev.key ≠ Key.timeout) {k : Key}
    (hk : ∀ s1 : S, s1.seq = q ++ [x] → s1.timeout.map (·.trigger) = tg → (chooseTrigger s1 ev m.out m.input).keyOf = k) :
    ∃ s', round c ev dev u s = (s', true) ∧ TS cur (finishGo q.length (q ++ [x])) true (pressAll outs k m.out) (out ++ m.out) tg s' := by
  have hvalid := mappingsInUse_valid h m (List.mem_of_find?_eq_some hf)
  have hq : q ≠ [] := by rintro rfl; simp [hasUnmatchedDown] at hdn
  have hres : (matchSeq m.input q).res = .matched := by
    have := List.find?_some hf
    simpa [endsSearch] using this
  obtain ⟨a0, b0, h0⟩ := matchInput_timed_none h hts.active hcur.lt hd (first := true) (q := s.seq) (u := u) (by
    intro m hm'; rw [hts.seq]; exact Or.inl (hno m hm'))
  have hts0 := hts.withMatch a0 b0
  obtain ⟨s0, hs0⟩ : ∃ s0 : S, s0 = { s with anyM := a0, ub := b0 } := ⟨_, rfl⟩
  rw [← hs0] at h0 hts0
  obtain ⟨a, b, h1, _, _⟩ := matchInput_timed_some h hts0.active hcur.lt hd (first := false) (u := u) hf
  obtain ⟨ref, ci, h1⟩ := h1 hres
  have hts1 := hts0.withMatch a b
  obtain ⟨s1, hs1⟩ : ∃ s1 : S, s1 = { s0 with anyM := a, ub := b } := ⟨_, rfl⟩
  rw [← hs1] at h1 hts1
  have htm : timeoutMatched s1 ev (.matched ref m.out m.input ci) true = (s1, .matched ref m.out m.input ci) := by
    unfold timeoutMatched
    cases ht : s1.timeout with
    | none => rfl
    | some t =>
      simp only []
      split
      · rfl
      · rw [if_neg (by simpa using hek)]
  have hnf : notTimeoutFailed s1 (.matched ref m.out m.input ci) = s1 := by
    unfold notTimeoutFailed; cases s1.timeout <;> rfl
  obtain ⟨hp, _⟩ := hts1.put hvalid.2 (chooseTrigger s1 ev m.out m.input) ci
  rw [hk s1 hts1.seq hts1.tg] at hp
  have hstart : matchStart c dev u s0.seq.length s0 = (s1, .matched ref m.out m.input ci, q.length) := by
    rw [hts0.seq, List.length_append, List.length_singleton, matchStart, if_neg (by simp [hq]), hts0.seq, List.take_left' rfl, hdn]
    simp only [Bool.not_true, Bool.false_eq_true, if_false]
    rw [h1]
  refine ⟨finishSequence (applyOutput s1 m.out (chooseTrigger s1 ev m.out m.input) ci) q.length, ?_, ?_⟩
  · unfold round
    rw [h0]
    simp only [hv, Bool.false_and, Bool.false_eq_true, if_false]
    rw [show (MIR.noMatch == MIR.might) = false from rfl]
    simp only [Bool.false_eq_true, if_false, retryStart]
    rw [if_pos (hts0.might), hstart]
    simp only []
    rw [htm]
    simp only []
    rw [hnf]
    rfl
  · unfold finishSequence
    rw [hp.seq]
    exact hp.withSeq _

/-! ### a key is pressed -/

theorem match_press_other (h : TimedCfg tcs c) {b : KeySequence} (hb : Base b) {k : Key} (hk : isDeviceKey k = true) :
    ∀ m ∈ mappingsInUse tcs cur, m.key ≠ k → (matchSeq m.input (b ++ [⟨k, .Down, 0⟩])).res = .no_match := by
  intro m hm hne
  have hkp := (deviceKey_proper hk).1
  refine match_other (mappingsInUse_valid h m hm) (x := ⟨k, .Down, 0⟩) hkp hne rfl (by simp) ?_
  intro y hy
  rcases List.mem_append.1 hy with hy | hy
  · exact hb.notZero y hy
  · simp only [List.mem_singleton] at hy
    rw [hy]; intro h0
    exact hkp.1 (congrArg KeyEvent.key h0)

theorem rfindKey_pressed (b : KeySequence) (k : Key) : rfindKey (b ++ [⟨k, .Down, 0⟩]) k = some ⟨k, .Down, 0⟩ := by
  unfold rfindKey
  rw [List.reverse_append]
  simp

theorem noUp_press {ks : List Key} {k : Key} : ∀ j ∈ ks, (⟨j, .Up, 0⟩ : KeyEvent) ∉ [(⟨k, .Down, 0⟩ : KeyEvent)] := by
  intro j _ hm
  simp at hm

theorem loop_press_asks (h : TimedCfg tcs c) (hcur : Cur tcs cur) (hd : ValidDevice dev) {s : S} {b : KeySequence} {k : Key}
    (hts : TS cur (b ++ [⟨k, .Down, 0⟩]) mg outs out tg s) (hb : Base b) (hk : isDeviceKey k = true) (hkb : k ∉ bodyKeys b) (htg : tg ≠ some k)
    {req : KeyEvent} (hreq : ((mappingsInUse tcs cur).find? (fun m => m.key == k)).bind (·.asks) = some req) :
    TS cur (b ++ [⟨k, .Down, 0⟩]) true outs (out ++ [req]) (some k) (mainLoop c ⟨k, .Down, 0⟩ dev u s) ∧
      (mainLoop c ⟨k, .Down, 0⟩ dev u s).timeout = some { ev := req, trigger := k } := by
  obtain ⟨m, hm1, hm2⟩ := Option.bind_eq_some_iff.1 hreq
  have hmem := List.mem_of_find?_eq_some hm1
  have hkm : m.key = k := by simpa using List.find?_some hm1
  have hsk := hb.skipped hk hkb
  have hpressed : ∀ m ∈ mappingsInUse tcs cur, m.key = k → _ := fun m hm hmk =>
    match_pressed (mappingsInUse_valid h m hm) (base := b) (by rw [hmk]; exact hsk)
  have hf : (mappingsInUse tcs cur).find? (endsSearch true (b ++ [⟨k, .Down, 0⟩])) = some m := by
    rw [← hm1]
    apply find?_congr'
    intro m' hm'
    unfold endsSearch
    by_cases hmk : m'.key = k
    · have := hpressed m' hm' hmk
      rw [hmk] at this
      rw [this.1]
      rw [show (m'.key == k) = true by simpa using hmk]
      cases m'.asks.isSome <;> rfl
    · rw [match_press_other h hb hk m' hm' hmk, beq_eq_false_iff_ne.2 hmk]
      rfl
  have hp := hpressed m hmem hkm
  rw [hkm, hm2] at hp
  obtain ⟨a, b1, _, _, h1⟩ := matchInput_timed_some h hts.active hcur.lt hd (first := true) (u := u) hf
  have h1 := h1 req hp.1 hp.2
  have hts1 := hts.withMatch a b1
  obtain ⟨s1, hs1⟩ : ∃ s1 : S, s1 = { s with anyM := a, ub := b1 } := ⟨_, rfl⟩
  rw [← hs1] at h1 hts1
  have hkeep : keepsTimeout s1.timeout req k = false := by
    unfold keepsTimeout
    cases ht : s1.timeout with
    | none => rfl
    | some t =>
      have : t.trigger ≠ k := by
        rintro rfl
        have := hts1.tg
        rw [ht] at this
        exact htg this.symm
      simp [this]
  have htrack : trackTimeout s1 req (b ++ [⟨k, .Down, 0⟩]) u = { s1 with buf := s1.buf ++ [req], timeout := some { ev := req, trigger := k } } := by
    unfold trackTimeout findLastDown
    rw [List.reverse_append]
    simp [hkeep]
  have hround : round c ⟨k, .Down, 0⟩ dev u s = ({ s1 with buf := s1.buf ++ [req], timeout := some { ev := req, trigger := k }, might := true }, false) := by
    unfold round
    rw [hts.seq, h1, htrack]
    simp only [(deviceKey_proper hk).2.2, Bool.false_and, Bool.false_eq_true, if_false, beq_self_eq_true, if_true]
  have hn : hasNonOptional s.seq = true := by rw [hts.seq]; exact hasNonOptional_last (Or.inl rfl)
  rw [mainLoop_once hn hround]
  refine ⟨⟨hts1.active, hts1.client, hts1.onRel, hts1.reapplied, hts1.hist, hts1.seq, rfl, hts1.down, hts1.tr, ?_, rfl, ?_⟩, rfl⟩
  · show s1.buf ++ [req] = _
    rw [hts1.buf]
  · intro t ht _
    simp only [Option.some.injEq] at ht
    rw [← ht]

theorem chooseTrigger_press {s1 : S} {b : KeySequence} {k : Key} (hk : isDeviceKey k = true) (hs : s1.seq = b ++ [⟨k, .Down, 0⟩])
    {m : TimedMapping} (hmk : m.key = k) (hp : m.asks = none) : (chooseTrigger s1 ⟨k, .Down, 0⟩ m.out m.input).keyOf = k := by
  have hprop := (deviceKey_proper hk).1
  have hin : m.input = [⟨k, .Down, 0⟩, ⟨k, .UpAsync, 0⟩] := by
    unfold TimedMapping.asks at hp
    unfold TimedMapping.input
    rw [← hmk]
    cases htm : m.timing <;> rw [htm] at hp <;> simp_all
  have hko : (Trigger.seq m.input).keyOf = k := by rw [hin]; rfl
  have hcause : causeOf s1 ⟨k, .Down, 0⟩ m.input = .seq m.input := by
    unfold causeOf
    simp only [hko, beq_eq_false_iff_ne.2 hprop.2.1, beq_eq_false_iff_ne.2 hprop.2.2, Bool.or_self, Bool.false_eq_true, if_false]
    cases s1.timeout <;> rfl
  have hpp : isPhysicallyPressed s1 k = true := by
    unfold isPhysicallyPressed
    rw [hs, rfindKey_pressed]; rfl
  unfold chooseTrigger
  simp only [hcause, hko, hpp, Bool.not_true, Bool.false_eq_true, if_false]

theorem loop_press_put (h : TimedCfg tcs c) (hcur : Cur tcs cur) (hd : ValidDevice dev) {s : S} {b : KeySequence} {k : Key}
    (hts : TS cur (b ++ [⟨k, .Down, 0⟩]) mg outs out tg s) (hb : Base b) (hk : isDeviceKey k = true) (hkb : k ∉ bodyKeys b) (hc : Causes outs tg)
    (hreq : ((mappingsInUse tcs cur).find? (fun m => m.key == k)).bind (·.asks) = none) (o : KeySequence)
    (ho : o = match (mappingsInUse tcs cur).find? (fun m => m.key == k) with | some m => m.out | none => [⟨k, .Down, 0⟩]) :
    ∃ b', Base b' ∧ bodyKeys b' = bodyKeys b ++ [k] ∧ b' ≠ [] ∧
      TS cur b' false (pressAll outs k o) (out ++ o) tg (mainLoop c ⟨k, .Down, 0⟩ dev u s) := by
  have hprop := deviceKey_proper hk
  have hsk := hb.skipped hk hkb
  have hn : hasNonOptional s.seq = true := by rw [hts.seq]; exact hasNonOptional_last (Or.inl rfl)
  cases hfind : (mappingsInUse tcs cur).find? (fun m => m.key == k) with
  | some m =>
    rw [hfind] at ho hreq
    simp only [Option.bind_some] at hreq
    simp only [] at ho
    have hmem := List.mem_of_find?_eq_some hfind
    have hkm : m.key = k := by simpa using List.find?_some hfind
    have hf : (mappingsInUse tcs cur).find? (endsSearch true (b ++ [⟨k, .Down, 0⟩])) = some m := by
      rw [← hfind]
      apply find?_congr'
      intro m' hm'
      unfold endsSearch
      by_cases hmk : m'.key = k
      · have := match_pressed (mappingsInUse_valid h m' hm') (base := b) (by rw [hmk]; exact hsk)
        rw [hmk] at this
        rw [this.1]
        rw [show (m'.key == k) = true by simpa using hmk]
        cases m'.asks.isSome <;> rfl
      · rw [match_press_other h hb hk m' hm' hmk, beq_eq_false_iff_ne.2 hmk]
        rfl
    have hres : (matchSeq m.input (b ++ [⟨k, .Down, 0⟩])).res = .matched := by
      have := match_pressed (mappingsInUse_valid h m hmem) (base := b) (by rw [hkm]; exact hsk)
      rw [hkm, hreq] at this
      simpa using this.1
    obtain ⟨s', h1, h2⟩ := round_matched (u := u) h hcur hd hts hf hres (ev := ⟨k, .Down, 0⟩) (Or.inl hprop.1.2.2) (k := k)
      (fun s1 hs1 _ => chooseTrigger_press hk hs1 hkm hreq)
    have hfin : finishGo (b ++ [(⟨k, .Down, 0⟩ : KeyEvent)]).length (b ++ [⟨k, .Down, 0⟩]) = b ++ [⟨k, .DownMatched, 0⟩] := by
      rw [List.length_append, finishGo_base hb _ noUp_press]
      simp [finishGo]
    rw [hfin] at h2
    have hb' : Base (b ++ [⟨k, .DownMatched, 0⟩]) := hb.append (base_down hk)
    refine ⟨_, hb', by rw [bodyKeys_append]; rfl, by simp, ?_⟩
    rw [mainLoop_twice hn h1 (by rw [h2.seq]; exact hb'.matched), ho]
    exact h2
  | none =>
    rw [hfind] at ho
    simp only [] at ho
    have hne : ∀ m ∈ mappingsInUse tcs cur, m.key ≠ k := by
      intro m hm
      have := List.find?_eq_none.1 hfind m hm
      simpa using this
    have hno : NoWay (mappingsInUse tcs cur) (bodyKeys b) [⟨k, .Down, 0⟩] mg := by
      intro b1 hb1 _
      refine ⟨fun m hm => match_press_other h hb1 hk m hm (hne m hm), ?_⟩
      intro _ i hi hdn
      simp only [List.length_singleton] at hi
      have : i = 0 := by omega
      rw [this] at hdn
      simp [hasUnmatchedDown] at hdn
    obtain ⟨s', h1, h2, h3⟩ := loop_clean (u := u) h hcur hd (ev := ⟨k, .Down, 0⟩) hprop.2.2 (hasNonOptional_last (l := []) (Or.inl rfl)) hc b.length
      (Nat.le_refl _) hts hb hno noUp_press (Or.inl hprop.1.2.2)
    rw [h3]
    obtain ⟨s1, hs1, hm1, hr⟩ := round_forward (u := u) h hcur hd h1 hb.cleaned (by rw [bodyKeys_cleaned]; exact hno) (ev := ⟨k, .Down, 0⟩) hprop.2.2 h2
    obtain ⟨h4, _⟩ := hs1.forwardPress cleaned_state (fun x _ => noUp_press (ks := [x.key]) x.key (by simp)) (by simp) hk hm1
    obtain ⟨h5, _⟩ := h4.afterForward
    have hb' : Base (cleaned b ++ [⟨k, .DownMatched, 0⟩]) := hb.cleaned.append (base_down hk)
    rw [hb'.matched, Bool.and_false] at h5
    refine ⟨_, hb', by rw [bodyKeys_append, bodyKeys_cleaned]; rfl, by simp, ?_⟩
    rw [mainLoop_twice (by rw [h1.seq]; exact hasNonOptional_last (Or.inl rfl)) hr (by rw [h5.seq]; exact hb'.matched), ho]
    exact h5

end

end KM
