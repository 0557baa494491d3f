import Verif.Lemmas.TimedRounds
set_option linter.unusedSimpArgs false
/-!
# Releases and times
-/
namespace KM

section
variable {tcs : List (List TimedMapping)} {c : Cfg} {cur : List Nat} {mg : Bool} {outs : List (Key × Key)} {out : KeySequence} {tg : Option Key}
  {dev : Int} {u : Bool}

theorem noUp_of {ks : List Key} {tail : KeySequence} (h : ∀ e ∈ tail, e.state = .Up → e.key ∉ ks) : ∀ j ∈ ks, (⟨j, .Up, 0⟩ : KeyEvent) ∉ tail := by
  intro j hj hm
  exact h _ hm rfl hj

theorem timeout_notDevice {b : KeySequence} (hb : Base b) : Key.timeout ∉ bodyKeys b := by
  intro hm
  exact absurd (bodyKeys_device hb _ hm) (by decide)

theorem notZero_append {b tail : KeySequence} (hb : Base b) (ht : ∀ e ∈ tail, e.key ≠ Key.none) : ∀ y ∈ b ++ tail, y ≠ KeyEvent.zero := by
  intro y hy
  rcases List.mem_append.1 hy with hy | hy
  · exact hb.notZero y hy
  · intro h0
    exact ht y hy (congrArg KeyEvent.key h0)

/-- a key is released -/
theorem loop_release (h : TimedCfg tcs c) (hcur : Cur tcs cur) (hd : ValidDevice dev) {s : S} {b : KeySequence} {k : Key}
    (hts : TS cur (b ++ [⟨k, .Up, 0⟩]) mg outs out tg s) (hb : Base b) (hk : isDeviceKey k = true) (hkb : k ∉ bodyKeys b) (hc : Causes outs tg) :
    TS cur (cleaned b) false (outs.filter (fun o => o.2 != k)) (out ++ releasesOf outs k) (tg.filter (· != k))
      (mainLoop c ⟨k, .Up, 0⟩ dev u s) := by
  have hprop := deviceKey_proper hk
  have hno : NoWay (mappingsInUse tcs cur) (bodyKeys b) [⟨k, .Up, 0⟩] mg := by
    intro b1 hb1 hkeys
    refine ⟨?_, by
      intro _ i hi hdn
      simp only [List.length_cons, List.length_nil] at hi
      have : i = 0 := by omega
      subst this
      simp [hasUnmatchedDown] at hdn⟩
    intro m hm
    have hv := mappingsInUse_valid h m hm
    by_cases hmk : m.key = k
    · refine match_notPressed hv (base := b1) (rest := []) (by rw [hmk]; exact hb1.skipped hk (by rw [hkeys]; exact hkb)) rfl hprop.1.1 hprop.1.2.1
    · exact match_other hv (x := ⟨k, .Up, 0⟩) hprop.1 hmk rfl (by simp) (notZero_append hb1 (by simpa using hprop.1.1))
  have hup : ∀ j ∈ bodyKeys b, (⟨j, .Up, 0⟩ : KeyEvent) ∉ [(⟨k, .Up, 0⟩ : KeyEvent)] := noUp_of (by simpa using hkb)
  obtain ⟨s', h1, h2, h3⟩ := loop_clean (u := u) h hcur hd (ev := ⟨k, .Up, 0⟩) hprop.2.2 (hasNonOptional_last (l := []) (Or.inr rfl)) hc b.length
    (Nat.le_refl _) hts hb hno hup (Or.inl hprop.1.2.2)
  rw [h3]
  obtain ⟨s1, hs1, hm1, hr⟩ := round_forward (u := u) h hcur hd h1 hb.cleaned (by rw [bodyKeys_cleaned]; exact hno) (ev := ⟨k, .Up, 0⟩) hprop.2.2 h2
  obtain ⟨h4, _⟩ := hs1.forwardRelease (e := ⟨k, .Up, 0⟩) (rest := []) cleaned_state (by
    intro x hx
    exact hup x.key (by unfold bodyKeys; exact List.mem_map.2 ⟨x, hx, rfl⟩)) (Or.inl rfl) hprop.2.1 hm1
  obtain ⟨h5, _⟩ := h4.afterForward
  rw [List.append_nil, hb.cleaned.matched, Bool.and_false] at h5
  rw [mainLoop_twice (by rw [h1.seq]; exact hasNonOptional_last (Or.inr rfl)) hr (by rw [h5.seq]; exact hb.cleaned.matched)]
  exact h5

/-! ### so much time passed -/

theorem elapsed_other (h : TimedCfg tcs c) {b : KeySequence} (hb : Base b) {k : Key} (hk : isDeviceKey k = true) {rest : KeySequence}
    (hr : ∀ e ∈ rest, e.key ≠ Key.none) :
    ∀ m ∈ mappingsInUse tcs cur, m.key ≠ k → (matchSeq m.input (b ++ ⟨k, .Down, 0⟩ :: rest)).res = .no_match := by
  intro m hm hne
  have hkp := (deviceKey_proper hk).1
  refine match_other (mappingsInUse_valid h m hm) (x := ⟨k, .Down, 0⟩) hkp hne rfl (by simp) (notZero_append hb ?_)
  intro e he
  simp only [List.mem_cons] at he
  rcases he with he | he
  · rw [he]; exact hkp.1
  · exact hr e he

theorem timeout_key (v : Nat) : ∀ e ∈ [(⟨Key.timeout, .Up, v⟩ : KeyEvent)], e.key ≠ Key.none := by
  intro e he
  simp only [List.mem_singleton] at he
  rw [he]; show Key.timeout ≠ Key.none; decide

/-- which mapping ends the search, when so much time passed -/
theorem find_elapsed (h : TimedCfg tcs c) {b : KeySequence} (hb : Base b) {k : Key} (hk : isDeviceKey k = true) (hkb : k ∉ bodyKeys b) (v : Nat) :
    (mappingsInUse tcs cur).find? (endsSearch true (b ++ [⟨k, .Down, 0⟩, ⟨Key.timeout, .Up, v⟩])) =
      (mappingsInUse tcs cur).find? (fun m => m.key == k && m.fits v) := by
  apply find?_congr'
  intro m hm
  unfold endsSearch
  by_cases hmk : m.key = k
  · have := (match_elapsed (mappingsInUse_valid h m hm) (base := b) (by rw [hmk]; exact hb.skipped hk hkb) v).1
    rw [hmk] at this
    rw [this, show (m.key == k) = true by simpa using hmk]
    cases m.fits v <;> cases m.isTap <;> rfl
  · rw [elapsed_other h hb hk (timeout_key v) m hm hmk, beq_eq_false_iff_ne.2 hmk]
    rfl

/-- which mapping matches the beginning, when so much time passed -/
theorem find_elapsed_start (h : TimedCfg tcs c) {b : KeySequence} (hb : Base b) {k : Key} (hk : isDeviceKey k = true) (hkb : k ∉ bodyKeys b) (v : Nat) :
    (mappingsInUse tcs cur).find? (endsSearch false (b ++ [⟨k, .Down, 0⟩, ⟨Key.timeout, .Up, v⟩])) =
      (mappingsInUse tcs cur).find? (fun m => m.key == k && (m.fits v && !m.isTap)) := by
  apply find?_congr'
  intro m hm
  unfold endsSearch
  by_cases hmk : m.key = k
  · have := (match_elapsed (mappingsInUse_valid h m hm) (base := b) (by rw [hmk]; exact hb.skipped hk hkb) v).1
    rw [hmk] at this
    rw [this, show (m.key == k) = true by simpa using hmk]
    cases m.fits v <;> cases m.isTap <;> rfl
  · rw [elapsed_other h hb hk (timeout_key v) m hm hmk, beq_eq_false_iff_ne.2 hmk]
    rfl

theorem elapsed_append (b : KeySequence) (k : Key) (v : Nat) :
    b ++ [(⟨k, .Down, 0⟩ : KeyEvent), ⟨Key.timeout, .Up, v⟩] = (b ++ [⟨k, .Down, 0⟩]) ++ [⟨Key.timeout, .Up, v⟩] := by simp

/-- the key has to be released -/
theorem loop_elapsed_tap (h : TimedCfg tcs c) (hcur : Cur tcs cur) (hd : ValidDevice dev) {s : S} {b : KeySequence} {k : Key} {v : Nat}
    (hts : TS cur (b ++ [⟨k, .Down, 0⟩, ⟨Key.timeout, .Up, v⟩]) true outs out tg s) (hb : Base b) (hk : isDeviceKey k = true) (hkb : k ∉ bodyKeys b)
    {m : TimedMapping} (hf : (mappingsInUse tcs cur).find? (fun m => m.key == k && m.fits v) = some m) (ht : m.isTap = true) :
    TS cur (b ++ [⟨k, .Down, 0⟩, ⟨Key.timeout, .Up, v⟩]) true outs out tg (mainLoop c ⟨Key.timeout, .Up, v⟩ dev u s) ∧
      (mainLoop c ⟨Key.timeout, .Up, v⟩ dev u s).timeout = s.timeout := by
  have hfm := List.find?_some hf
  rw [Bool.and_eq_true, beq_iff_eq] at hfm
  rw [← find_elapsed h hb hk hkb v] at hf
  have hmem := List.mem_of_find?_eq_some hf
  have hme := match_elapsed (mappingsInUse_valid h m hmem) (base := b) (by rw [hfm.1]; exact hb.skipped hk hkb) v
  rw [hfm.1, hfm.2, ht] at hme
  obtain ⟨a, b1, _, h1, _⟩ := matchInput_timed_some h hts.active hcur.lt hd (first := true) (u := u) hf
  have h1 := h1 hme.1 hme.2
  have hround : round c ⟨Key.timeout, .Up, v⟩ dev u s = ({ s with anyM := a, ub := b1, might := true }, false) := by
    unfold round
    rw [hts.seq, h1]
    simp only [show isVirtualKey Key.timeout = false by decide, Bool.false_and, Bool.false_eq_true, if_false, beq_self_eq_true, if_true, hts.seq]
  have hn : hasNonOptional s.seq = true := by rw [hts.seq, elapsed_append]; exact hasNonOptional_last (Or.inr rfl)
  rw [mainLoop_once hn hround]
  exact ⟨(hts.withMatch a b1).withMight true, rfl⟩

theorem chooseTrigger_elapsed {s1 : S} {b : KeySequence} {k : Key} {v : Nat} (hk : isDeviceKey k = true)
    (hs : s1.seq = b ++ [⟨k, .Down, 0⟩, ⟨Key.timeout, .Up, v⟩])
    (htg : s1.timeout.map (·.trigger) = some k) (o i : KeySequence) : (chooseTrigger s1 ⟨Key.timeout, .Up, v⟩ o i).keyOf = k := by
  have hprop := (deviceKey_proper hk).1
  obtain ⟨t, ht1, ht2⟩ := Option.map_eq_some_iff.1 htg
  have hcause : causeOf s1 ⟨Key.timeout, .Up, v⟩ i = .key k := by
    unfold causeOf
    have : (Trigger.ev ⟨Key.timeout, .Up, v⟩).keyOf = Key.timeout := rfl
    simp only [beq_self_eq_true, Bool.or_true, if_true, ht1, this, ht2]
  have hkk : (Trigger.key k).keyOf = k := rfl
  have hpp : isPhysicallyPressed s1 k = true := by
    have hne : (Key.timeout == k) = false := beq_eq_false_iff_ne.2 (fun h => hprop.2.2 h.symm)
    unfold isPhysicallyPressed rfindKey
    rw [hs, List.reverse_append]
    simp [hne]
  unfold chooseTrigger
  simp only [hcause, hkk, hpp, Bool.not_true, Bool.false_eq_true, if_false]

theorem finishGo_elapsed {b : KeySequence} (hb : Base b) (k : Key) (v : Nat) :
    finishGo (b ++ [(⟨k, .Down, 0⟩ : KeyEvent), ⟨Key.timeout, .Up, v⟩]).length (b ++ [⟨k, .Down, 0⟩, ⟨Key.timeout, .Up, v⟩]) =
      if k = Key.timeout then finishGo (b ++ [(⟨k, .Down, 0⟩ : KeyEvent), ⟨Key.timeout, .Up, v⟩]).length (b ++ [⟨k, .Down, 0⟩, ⟨Key.timeout, .Up, v⟩])
      else b ++ [⟨k, .DownMatched, 0⟩, ⟨Key.timeout, .UpMatched, v⟩] := by
  split
  · rfl
  · next hne =>
    rw [List.length_append, finishGo_base hb _ (noUp_of (by
      intro e he hst
      simp only [List.mem_cons, List.not_mem_nil, or_false] at he
      rcases he with he | he
      · rw [he] at hst; simp at hst
      · rw [he]; exact timeout_notDevice hb))]
    congr 1
    have : ([(⟨k, .Down, 0⟩ : KeyEvent), ⟨Key.timeout, .Up, v⟩].contains (⟨k, .Up, 0⟩ : KeyEvent)) = false := by
      rw [List.contains_eq_mem, decide_eq_false_iff_not]
      intro hm
      simp only [List.mem_cons, KeyEvent.mk.injEq, reduceCtorEq, false_and, and_false, List.not_mem_nil, or_false, false_or] at hm
      exact hne hm.1
    show finishGo 2 _ = _
    rw [finishGo, this]
    simp [finishGo]

/-- a mapping is applied -/
theorem loop_elapsed_matched (h : TimedCfg tcs c) (hcur : Cur tcs cur) (hd : ValidDevice dev) {s : S} {b : KeySequence} {k : Key} {v : Nat}
    (hts : TS cur (b ++ [⟨k, .Down, 0⟩, ⟨Key.timeout, .Up, v⟩]) mg outs out (some k) s) (hm : s.matchedTime = none)
    (hb : Base b) (hk : isDeviceKey k = true) (hkb : k ∉ bodyKeys b)
    {m : TimedMapping} (hf : (mappingsInUse tcs cur).find? (fun m => m.key == k && m.fits v) = some m) (ht : m.isTap = false) :
    TS cur (b ++ [⟨k, .DownMatched, 0⟩, ⟨Key.timeout, .UpMatched, v⟩]) false (pressAll outs k m.out) (out ++ m.out) (some k)
      (mainLoop c ⟨Key.timeout, .Up, v⟩ dev u s) := by
  have hfm := List.find?_some hf
  rw [Bool.and_eq_true, beq_iff_eq] at hfm
  rw [← find_elapsed h hb hk hkb v] at hf
  have hmem := List.mem_of_find?_eq_some hf
  have hme := match_elapsed (mappingsInUse_valid h m hmem) (base := b) (by rw [hfm.1]; exact hb.skipped hk hkb) v
  rw [hfm.1, hfm.2, ht] at hme
  obtain ⟨s', h1, h2⟩ := round_matched (u := u) h hcur hd hts hf hme.1 (ev := ⟨Key.timeout, .Up, v⟩) (Or.inr hm) (k := k)
    (fun s1 hs1 ht1 => chooseTrigger_elapsed hk hs1 ht1 _ _)
  rw [finishGo_elapsed hb, if_neg (deviceKey_proper hk).1.2.2] at h2
  have hb' : Base (b ++ [⟨k, .DownMatched, 0⟩, ⟨Key.timeout, .UpMatched, v⟩]) := hb.append ((base_down hk).append (base_time v))
  have hn : hasNonOptional s.seq = true := by rw [hts.seq, elapsed_append]; exact hasNonOptional_last (Or.inr rfl)
  rw [mainLoop_twice hn h1 (by rw [h2.seq]; exact hb'.matched)]
  exact h2

/-- no mapping of the key applies any more -/
theorem noWay_elapsed (h : TimedCfg tcs c) {ks : List Key} {k : Key} {v : Nat} (hk : isDeviceKey k = true) (hkb : k ∉ ks)
    (hf : (mappingsInUse tcs cur).find? (fun m => m.key == k && m.fits v) = none) :
    NoWay (mappingsInUse tcs cur) ks [⟨k, .Down, 0⟩, ⟨Key.timeout, .Up, v⟩] mg := by
  intro b hb hkeys
  rw [List.find?_eq_none] at hf
  have hsk := hb.skipped hk (by rw [hkeys]; exact hkb)
  refine ⟨?_, ?_⟩
  · intro m hm
    by_cases hmk : m.key = k
    · have := (match_elapsed (mappingsInUse_valid h m hm) (base := b) (by rw [hmk]; exact hsk) v).1
      rw [hmk] at this
      rw [this, if_neg]
      intro hfit
      exact hf m hm (by simp [hmk, hfit])
    · exact elapsed_other h hb hk (timeout_key v) m hm hmk
  · intro _ i hi hdn m hm
    simp only [List.length_cons, List.length_nil] at hi
    have hi' : i = 0 ∨ i = 1 := by omega
    rcases hi' with rfl | rfl
    · simp [hasUnmatchedDown] at hdn
    · simp only [List.take_succ_cons, List.take_zero]
      by_cases hmk : m.key = k
      · have := (match_pressed (mappingsInUse_valid h m hm) (base := b) (by rw [hmk]; exact hsk)).1
        rw [hmk] at this
        rw [this]
        have hno : m.fits v = false := by
          cases hfit : m.fits v with
          | false => rfl
          | true => exact absurd (by simp [hmk, hfit]) (hf m hm)
        have : m.asks.isSome = true := by
          unfold TimedMapping.fits at hno
          unfold TimedMapping.asks
          cases htm : m.timing <;> rw [htm] at hno <;> simp_all
        rw [this]; simp
      · rw [match_press_other h hb hk m hm hmk]; simp

theorem untimed_asks {ms : List TimedMapping} {k : Key} (h : isTimed ms k = false) {m : TimedMapping} (hm : m ∈ ms) (hk : m.key = k) : m.asks = none := by
  unfold isTimed at h
  rw [List.any_eq_false] at h
  have := h m hm
  cases ha : m.asks with
  | none => rfl
  | some x => rw [ha] at this; simp [hk] at this

theorem timeoutUp_notIn {ks : List Key} (hdev : ∀ k ∈ ks, isDeviceKey k = true) (v : Nat) :
    ∀ j ∈ ks, (⟨j, .Up, 0⟩ : KeyEvent) ∉ [(⟨Key.timeout, .Up, v⟩ : KeyEvent)] := by
  apply noUp_of
  intro e he _ hm
  simp only [List.mem_singleton] at he
  rw [he] at hm
  exact absurd (show isDeviceKey Key.timeout = true from hdev _ hm) (by decide)

/-- after the key is forwarded, nothing applies -/
theorem noWay_forwarded (h : TimedCfg tcs c) {ks : List Key} {k : Key} {v : Nat} (hk : isDeviceKey k = true) (hkb : k ∉ ks) (hnd : ks.Nodup)
    (hf : (mappingsInUse tcs cur).find? (fun m => m.key == k && m.fits v) = none)
    (hun : ∀ j ∈ ks, isTimed (mappingsInUse tcs cur) j = false) {b : KeySequence} (hb : Base b) (hkeys : bodyKeys b = ks)
    {m : TimedMapping} (hm : m ∈ mappingsInUse tcs cur) :
    (matchSeq m.input (b ++ [⟨k, .DownMatched, 0⟩, ⟨Key.timeout, .Up, v⟩])).res = .no_match := by
  rw [List.find?_eq_none] at hf
  have hv := mappingsInUse_valid h m hm
  by_cases hmk : m.key = k
  · have hno : m.fits v = false := by
      cases hfit : m.fits v with
      | false => rfl
      | true => exact absurd (by simp [hmk, hfit]) (hf m hm)
    have := match_forwarded hv (base := b) (by rw [hmk]; exact hb.skipped hk (by rw [hkeys]; exact hkb)) hno
    rw [hmk] at this
    exact this
  · by_cases hmb : m.key ∈ ks
    · have hp := untimed_asks (hun _ hmb) hm rfl
      rw [← hkeys] at hmb
      unfold bodyKeys cleaned at hmb
      obtain ⟨e, he1, he2⟩ := List.mem_map.1 hmb
      rw [List.mem_filter] at he1
      obtain ⟨b1, b2, rfl⟩ := List.append_of_mem he1.1
      have hes : e.state = .DownMatched := by simpa using he1.2
      have hee : e = ⟨m.key, .DownMatched, 0⟩ := by
        rcases hb e (by simp) with h1 | h1
        · obtain ⟨ek, es, evv⟩ := e
          simp only at h1 he2
          rw [h1.1, h1.2.2, he2]
        · rw [hes] at h1; simp at h1
      have hb1 : Base b1 := hb.sub (fun x hx => by simp [hx])
      have hb2 : Base b2 := hb.sub (fun x hx => by simp [hx])
      have hnot : m.key ∉ bodyKeys b1 := by
        rw [← hkeys, show b1 ++ e :: b2 = b1 ++ ([e] ++ b2) from rfl, bodyKeys_append, List.nodup_append] at hnd
        intro hin
        refine hnd.2.2 _ hin _ ?_ rfl
        rw [bodyKeys_append, List.mem_append]
        left
        rw [hee]
        simp [bodyKeys, cleaned]
      have := match_pressedBefore hv hp (base := b1) (rest := b2 ++ [⟨k, .DownMatched, 0⟩]) (hb1.skipped hv.1 hnot) (by
        intro x hx
        simp only [List.mem_append, List.mem_singleton] at hx
        rcases hx with hx | hx
        · exact hb2.state x hx
        · rw [hx]; exact Or.inl rfl) v
      rw [hee]
      simpa using this
    · have hb' : Base (b ++ [⟨k, .DownMatched, 0⟩]) := hb.append (base_down hk)
      have := match_notPressed hv (base := b ++ [⟨k, .DownMatched, 0⟩]) (rest := []) (hb'.skipped hv.1 (by
        rw [bodyKeys_append, hkeys, List.mem_append]
        rintro (h1 | h1)
        · exact hmb h1
        · simp [bodyKeys, cleaned] at h1
          exact hmk h1)) (x := ⟨Key.timeout, .Up, v⟩) rfl (show Key.timeout ≠ Key.none by decide) (show Key.timeout ≠ Key.any by decide)
      simpa using this

/-- the key is output itself -/
theorem loop_elapsed_none (h : TimedCfg tcs c) (hcur : Cur tcs cur) (hd : ValidDevice dev) {s : S} {b : KeySequence} {k : Key} {v : Nat}
    (hts : TS cur (b ++ [⟨k, .Down, 0⟩, ⟨Key.timeout, .Up, v⟩]) true outs out tg s) (hm : s.matchedTime = none)
    (hb : Base b) (hk : isDeviceKey k = true) (hkb : k ∉ bodyKeys b) (hnd : (bodyKeys b).Nodup) (hc : Causes outs tg)
    (hf : (mappingsInUse tcs cur).find? (fun m => m.key == k && m.fits v) = none)
    (hun : ∀ j ∈ bodyKeys b, isTimed (mappingsInUse tcs cur) j = false) :
    TS cur (cleaned b ++ [⟨k, .DownMatched, 0⟩]) false (pressAll outs k [⟨k, .Down, 0⟩]) (out ++ [⟨k, .Down, 0⟩]) tg
      (mainLoop c ⟨Key.timeout, .Up, v⟩ dev u s) := by
  have hprop := deviceKey_proper hk
  have hv : isVirtualKey Key.timeout = false := by decide
  have hno := noWay_elapsed (mg := true) h hk hkb hf
  have hup : ∀ j ∈ bodyKeys b, (⟨j, .Up, 0⟩ : KeyEvent) ∉ [(⟨k, .Down, 0⟩ : KeyEvent), ⟨Key.timeout, .Up, v⟩] := by
    intro j hj hmem
    simp only [List.mem_cons, KeyEvent.mk.injEq, reduceCtorEq, false_and, and_false, List.not_mem_nil, or_false, false_or] at hmem
    rw [hmem.1] at hj
    exact timeout_notDevice hb hj
  obtain ⟨s', h1, h2, h3⟩ := loop_clean (u := u) h hcur hd (ev := ⟨Key.timeout, .Up, v⟩) hv (tail := [⟨k, .Down, 0⟩, ⟨Key.timeout, .Up, v⟩])
    (hasNonOptional_last (l := [⟨k, .Down, 0⟩]) (ev := ⟨Key.timeout, .Up, v⟩) (Or.inr rfl)) hc b.length (Nat.le_refl _) hts hb hno hup (Or.inr hm)
  rw [h3]
  obtain ⟨s1, hs1, hm1, hr⟩ := round_forward (u := u) h hcur hd h1 hb.cleaned (by rw [bodyKeys_cleaned]; exact hno) (ev := ⟨Key.timeout, .Up, v⟩) hv h2
  have hcu : ∀ x ∈ cleaned b, x.key ∈ bodyKeys b := fun x hx => by unfold bodyKeys; exact List.mem_map.2 ⟨x, hx, rfl⟩
  obtain ⟨h4, h4m⟩ := hs1.forwardPress cleaned_state (fun x hx => hup x.key (hcu x hx)) (by
    intro hmem
    simp only [List.mem_singleton, KeyEvent.mk.injEq] at hmem
    exact hprop.1.2.2 hmem.1) hk hm1
  obtain ⟨h5, h5t⟩ := h4.afterForward
  have hb' : Base (cleaned b ++ [⟨k, .DownMatched, 0⟩]) := hb.cleaned.append (base_down hk)
  rw [show cleaned b ++ [(⟨k, .DownMatched, 0⟩ : KeyEvent), ⟨Key.timeout, .Up, v⟩] = (cleaned b ++ [⟨k, .DownMatched, 0⟩]) ++ [⟨Key.timeout, .Up, v⟩] by simp,
    hasNonOptional_last (Or.inr rfl), Bool.and_true] at h5
  rw [mainLoop_next (by rw [h1.seq, elapsed_append]; exact hasNonOptional_last (Or.inr rfl)) hr]
  have hkb' : bodyKeys (cleaned b ++ [(⟨k, .DownMatched, 0⟩ : KeyEvent)]) = bodyKeys b ++ [k] := by rw [bodyKeys_append, bodyKeys_cleaned]; rfl
  have hc' := hc.press hk [⟨k, .Down, 0⟩]
  -- the time is dropped as well
  have hm5 : (afterForward (forwardFromSequence s1)).matchedTime = none := by
    unfold S.matchedTime at *; rw [h5t]; exact h4m
  have hround := round_forward_plain (u := u) h hcur hd h5 hb' (ev := ⟨Key.timeout, .Up, v⟩) hv (Or.inr hm5) (by
    intro m hm'
    rw [List.append_assoc]
    exact noWay_forwarded h hk hkb hnd hf hun hb.cleaned (bodyKeys_cleaned b) hm') rfl
  obtain ⟨s6, h6, h6m, h6r⟩ := hround
  obtain ⟨h7, _⟩ := h6.forwardRelease (e := ⟨Key.timeout, .Up, v⟩) (rest := []) (by
    intro x hx
    simp only [List.mem_append, List.mem_singleton] at hx
    rcases hx with hx | hx
    · exact cleaned_state x hx
    · rw [hx]) (by
    intro x hx
    refine timeoutUp_notIn (ks := bodyKeys b ++ [k]) ?_ v x.key ?_
    · intro j hj
      rw [← hkb'] at hj
      exact bodyKeys_device hb' j hj
    · simp only [List.mem_append, List.mem_singleton] at hx ⊢
      rcases hx with hx | hx
      · exact Or.inl (hcu x hx)
      · rw [hx]; exact Or.inr rfl) (Or.inl rfl) (show Key.timeout ≠ Key.ContextActive by decide) h6m
  rw [hc'.timeout.1, hc'.timeout.2.1, hc'.timeout.2.2, List.append_nil, List.append_nil] at h7
  obtain ⟨h8, _⟩ := h7.afterForward
  rw [hb'.matched, Bool.and_false] at h8
  rw [mainLoop_twice (by rw [h5.seq]; exact hasNonOptional_last (Or.inr rfl)) h6r (by rw [h8.seq]; exact hb'.matched)]
  exact h8

/-! ### what happens after the time -/

theorem chooseTrigger_tapped {s1 : S} {b : KeySequence} {k : Key} {v : Nat} (hk : isDeviceKey k = true)
    (hs : s1.seq = b ++ [⟨k, .Down, 0⟩, ⟨Key.timeout, .Up, v⟩, ⟨k, .Up, 0⟩]) {m : TimedMapping} (hmk : m.key = k) (ht : m.isTap = true) (o : KeySequence) :
    (chooseTrigger s1 ⟨k, .Up, 0⟩ o m.input).keyOf = k := by
  have hprop := (deviceKey_proper hk).1
  have hko : (Trigger.seq m.input).keyOf = k := by
    obtain ⟨mk, tm, out⟩ := m
    simp only at hmk
    subst hmk
    cases tm with
    | press => simp [TimedMapping.isTap] at ht
    | hold t => simp [TimedMapping.isTap] at ht
    | tap t => rfl
  have hcause : causeOf s1 ⟨k, .Up, 0⟩ m.input = .seq m.input := by
    unfold causeOf
    simp only [hko, beq_eq_false_iff_ne.2 hprop.2.1, beq_eq_false_iff_ne.2 hprop.2.2, Bool.or_self, Bool.false_eq_true, if_false]
    cases s1.timeout <;> rfl
  unfold chooseTrigger
  simp only [hcause]
  split
  · split
    · exact hko
    · rfl
  · exact hko

/-- the key is released within the time -/
theorem loop_tapped (h : TimedCfg tcs c) (hcur : Cur tcs cur) (hd : ValidDevice dev) {s : S} {b : KeySequence} {k : Key} {v : Nat}
    (hts : TS cur (b ++ [⟨k, .Down, 0⟩, ⟨Key.timeout, .Up, v⟩, ⟨k, .Up, 0⟩]) mg outs out tg s)
    (hb : Base b) (hk : isDeviceKey k = true) (hkb : k ∉ bodyKeys b)
    {m : TimedMapping} (hf : (mappingsInUse tcs cur).find? (fun m => m.key == k && m.fits v) = some m) (ht : m.isTap = true) :
    TS cur (b ++ [⟨Key.timeout, .UpMatched, v⟩]) false (pressAll outs k m.out) (out ++ m.out) tg (mainLoop c ⟨k, .Up, 0⟩ dev u s) := by
  have hprop := deviceKey_proper hk
  have hfm := List.find?_some hf
  rw [Bool.and_eq_true, beq_iff_eq] at hfm
  have hsk := hb.skipped hk hkb
  have hf' : (mappingsInUse tcs cur).find? (endsSearch true (b ++ [⟨k, .Down, 0⟩, ⟨Key.timeout, .Up, v⟩, ⟨k, .Up, 0⟩])) = some m := by
    rw [← hf]
    apply find?_congr'
    intro m' hm'
    unfold endsSearch
    by_cases hmk : m'.key = k
    · have := match_tapped (mappingsInUse_valid h m' hm') (base := b) (by rw [hmk]; exact hsk) v
      rw [hmk] at this
      rw [this, show (m'.key == k) = true by simpa using hmk]
      cases m'.fits v <;> rfl
    · rw [elapsed_other h hb hk (by
        intro e he
        simp only [List.mem_cons, List.not_mem_nil, or_false] at he
        rcases he with he | he
        · rw [he]; show Key.timeout ≠ Key.none; decide
        · rw [he]; exact hprop.1.1) m' hm' hmk, beq_eq_false_iff_ne.2 hmk]
      rfl
  have hmem := List.mem_of_find?_eq_some hf
  have hres : (matchSeq m.input (b ++ [⟨k, .Down, 0⟩, ⟨Key.timeout, .Up, v⟩, ⟨k, .Up, 0⟩])).res = .matched := by
    have := match_tapped (mappingsInUse_valid h m hmem) (base := b) (by rw [hfm.1]; exact hsk) v
    rw [hfm.1, hfm.2] at this
    exact this
  obtain ⟨s', h1, h2⟩ := round_matched (u := u) h hcur hd hts hf' hres (ev := ⟨k, .Up, 0⟩) (Or.inl hprop.1.2.2) (k := k)
    (fun s1 hs1 _ => chooseTrigger_tapped hk hs1 hfm.1 ht _)
  have hfin : finishGo (b ++ [(⟨k, .Down, 0⟩ : KeyEvent), ⟨Key.timeout, .Up, v⟩, ⟨k, .Up, 0⟩]).length
      (b ++ [⟨k, .Down, 0⟩, ⟨Key.timeout, .Up, v⟩, ⟨k, .Up, 0⟩]) = b ++ [⟨Key.timeout, .UpMatched, v⟩] := by
    rw [List.length_append, finishGo_base hb _ (noUp_of (by
      intro e he hst
      simp only [List.mem_cons, List.not_mem_nil, or_false] at he
      rcases he with he | he | he
      · rw [he] at hst; simp at hst
      · rw [he]; exact timeout_notDevice hb
      · rw [he]; exact hkb))]
    congr 1
    have : ([(⟨k, .Down, 0⟩ : KeyEvent), ⟨Key.timeout, .Up, v⟩, ⟨k, .Up, 0⟩].contains (⟨k, .Up, 0⟩ : KeyEvent)) = true := by
      rw [List.contains_eq_mem]; simp
    show finishGo 3 _ = _
    rw [finishGo, this]
    have hkt : (k == Key.timeout) = false := beq_eq_false_iff_ne.2 hprop.1.2.2
    simp [finishGo, hkt]
  rw [hfin] at h2
  have hb' : Base (b ++ [⟨Key.timeout, .UpMatched, v⟩]) := hb.append (base_time v)
  have hn : hasNonOptional s.seq = true := by
    rw [hts.seq, show b ++ [(⟨k, .Down, 0⟩ : KeyEvent), ⟨Key.timeout, .Up, v⟩, ⟨k, .Up, 0⟩] = (b ++ [⟨k, .Down, 0⟩, ⟨Key.timeout, .Up, v⟩]) ++ [⟨k, .Up, 0⟩] by simp]
    exact hasNonOptional_last (Or.inr rfl)
  rw [mainLoop_twice hn h1 (by rw [h2.seq]; exact hb'.matched)]
  exact h2

theorem chooseTrigger_start {s1 : S} {b : KeySequence} {k x : Key} {xs : KeyState} {v : Nat} (hk : isDeviceKey k = true) (hx : isDeviceKey x = true) (hxk : x ≠ k)
    (hs : s1.seq = (b ++ [⟨k, .Down, 0⟩, ⟨Key.timeout, .Up, v⟩]) ++ [⟨x, xs, 0⟩])
    (htg : s1.timeout.map (·.trigger) = some k) {m : TimedMapping} (hmk : m.key = k) (ht : m.isTap = false) (o : KeySequence) :
    (chooseTrigger s1 ⟨x, xs, 0⟩ o m.input).keyOf = k := by
  have hprop := (deviceKey_proper hk).1
  have hpx := (deviceKey_proper hx).1
  obtain ⟨t, ht1, ht2⟩ := Option.map_eq_some_iff.1 htg
  have hpp : isPhysicallyPressed s1 k = true := by
    have hne : (Key.timeout == k) = false := beq_eq_false_iff_ne.2 (fun h => hprop.2.2 h.symm)
    have hne2 : (x == k) = false := beq_eq_false_iff_ne.2 hxk
    unfold isPhysicallyPressed rfindKey
    rw [hs, List.reverse_append, List.reverse_append]
    simp [hne, hne2]
  have hcause : (causeOf s1 ⟨x, xs, 0⟩ m.input).keyOf = k := by
    obtain ⟨mk, tm, out⟩ := m
    simp only at hmk
    subst hmk
    have hxt : (x == Key.timeout) = false := beq_eq_false_iff_ne.2 hpx.2.2
    have hka : (mk == Key.any) = false := beq_eq_false_iff_ne.2 hprop.2.1
    have hkt : (mk == Key.timeout) = false := beq_eq_false_iff_ne.2 hprop.2.2
    cases tm with
    | press =>
      have hko : (Trigger.seq (TimedMapping.input ⟨mk, .press, out⟩)).keyOf = mk := rfl
      unfold causeOf
      simp only [hko, hka, hxt, hkt, Bool.or_self, Bool.false_eq_true, if_false, ht1]
    | hold n =>
      have hko : (Trigger.seq (TimedMapping.input ⟨mk, .hold n, out⟩)).keyOf = Key.timeout := rfl
      unfold causeOf
      simp only [hko, hxt, show (Key.timeout == Key.any) = false by decide, Bool.or_self, Bool.false_eq_true, if_false, ht1, beq_self_eq_true, if_true, ht2]
      rfl
    | tap n => simp [TimedMapping.isTap] at ht
  unfold chooseTrigger
  simp only [hcause, hpp, Bool.not_true, Bool.false_eq_true, if_false]

theorem noWay_interrupted (h : TimedCfg tcs c) {ks : List Key} {k x : Key} {xs : KeyState} {v : Nat} (hxs : xs = .Down ∨ xs = .Up)
    (hk : isDeviceKey k = true) (hkb : k ∉ ks) (hx : isDeviceKey x = true) (hxk : x ≠ k)
    (hfind : (mappingsInUse tcs cur).find? (fun m => m.key == k && (m.fits v && !m.isTap)) = none) :
    NoWay (mappingsInUse tcs cur) ks [⟨k, .Down, 0⟩, ⟨Key.timeout, .Up, v⟩, ⟨x, xs, 0⟩] true := by
  have hprop := deviceKey_proper hk
  have hpx := deviceKey_proper hx
  have hnx : isNonOptional ⟨x, xs, 0⟩ = true := by rcases hxs with h1 | h1 <;> rw [h1] <;> rfl
  have hkeys2 : ∀ e ∈ [(⟨k, .Down, 0⟩ : KeyEvent), ⟨Key.timeout, .Up, v⟩, ⟨x, xs, 0⟩], e.key ≠ Key.none := by
    intro e he
    simp only [List.mem_cons, List.not_mem_nil, or_false] at he
    rcases he with he | he | he
    · rw [he]; exact hprop.1.1
    · rw [he]; show Key.timeout ≠ Key.none; decide
    · rw [he]; exact hpx.1.1
  have hall : ∀ b, Base b → ∀ m ∈ mappingsInUse tcs cur, (matchSeq m.input (b ++ [⟨k, .Down, 0⟩, ⟨Key.timeout, .Up, v⟩, ⟨x, xs, 0⟩])).res = .no_match := by
    intro b hb m hm
    have hv := mappingsInUse_valid h m hm
    by_cases hmk : m.key = k
    · exact match_other hv (x := ⟨x, xs, 0⟩) hpx.1 (by rw [hmk]; exact fun h => hxk h.symm) hnx (by simp) (notZero_append hb hkeys2)
    · exact match_other hv (x := ⟨k, .Down, 0⟩) hprop.1 hmk rfl (by simp) (notZero_append hb hkeys2)
  rw [List.find?_eq_none] at hfind
  intro b1 hb1 hkeys
  have hsk := hb1.skipped hk (by rw [hkeys]; exact hkb)
  refine ⟨hall b1 hb1, ?_⟩
  intro _ i hi hdn m hm
  have hfm := hfind m hm
  simp only [List.length_cons, List.length_nil] at hi
  have hi' : i = 0 ∨ i = 1 ∨ i = 2 := by omega
  rcases hi' with rfl | rfl | rfl
  · simp [hasUnmatchedDown] at hdn
  · simp only [List.take_succ_cons, List.take_zero]
    by_cases hmk : m.key = k
    · have := (match_pressed (mappingsInUse_valid h m hm) (base := b1) (by rw [hmk]; exact hsk)).1
      rw [hmk] at this
      rw [this]
      have : m.asks.isSome = true := by
        unfold TimedMapping.fits TimedMapping.isTap at hfm
        unfold TimedMapping.asks
        cases htm : m.timing with
        | press => rw [htm] at hfm; simp [hmk] at hfm
        | hold n => rfl
        | tap n => rfl
      rw [this]; simp
    · rw [match_press_other h hb1 hk m hm hmk]; simp
  · simp only [List.take_succ_cons, List.take_zero]
    by_cases hmk : m.key = k
    · have := (match_elapsed (mappingsInUse_valid h m hm) (base := b1) (by rw [hmk]; exact hsk) v).1
      rw [hmk] at this
      rw [this]
      simp only [hmk, beq_self_eq_true, Bool.true_and] at hfm
      cases hfit : m.fits v <;> cases htap : m.isTap <;> rw [hfit, htap] at hfm <;> simp at hfm ⊢
    · rw [elapsed_other h hb1 hk (timeout_key v) m hm hmk]; simp

/-- another key is pressed: the key is decided first -/
theorem loop_interrupted (h : TimedCfg tcs c) (hcur : Cur tcs cur) (hd : ValidDevice dev) {s : S} {b : KeySequence} {k x : Key} {xs : KeyState} {v : Nat} (hxs : xs = .Down ∨ xs = .Up)
    (hts : TS cur (b ++ [⟨k, .Down, 0⟩, ⟨Key.timeout, .Up, v⟩, ⟨x, xs, 0⟩]) true outs out (some k) s)
    (hb : Base b) (hk : isDeviceKey k = true) (hkb : k ∉ bodyKeys b) (hx : isDeviceKey x = true) (hxk : x ≠ k) (hxb : x ∉ bodyKeys b)
    (hc : Causes outs (some k)) (o : KeySequence)
    (ho : o = match (mappingsInUse tcs cur).find? (fun m => m.key == k && (m.fits v && !m.isTap)) with | some m => m.out | none => [⟨k, .Down, 0⟩]) :
    ∃ b' s', Base b' ∧ bodyKeys b' = bodyKeys b ++ [k] ∧ TS cur (b' ++ [⟨x, xs, 0⟩]) true (pressAll outs k o) (out ++ o) (some k) s' ∧
      mainLoop c ⟨x, xs, 0⟩ dev u s = mainLoop c ⟨x, xs, 0⟩ dev u s' := by
  have hprop := deviceKey_proper hk
  have hpx := deviceKey_proper hx
  have hnx : isNonOptional ⟨x, xs, 0⟩ = true := by rcases hxs with h1 | h1 <;> rw [h1] <;> rfl
  have happ : ∀ b : KeySequence, b ++ [(⟨k, .Down, 0⟩ : KeyEvent), ⟨Key.timeout, .Up, v⟩, ⟨x, xs, 0⟩] =
      (b ++ [⟨k, .Down, 0⟩, ⟨Key.timeout, .Up, v⟩]) ++ [⟨x, xs, 0⟩] := by intro b; simp
  have hkeys2 : ∀ e ∈ [(⟨k, .Down, 0⟩ : KeyEvent), ⟨Key.timeout, .Up, v⟩, ⟨x, xs, 0⟩], e.key ≠ Key.none := by
    intro e he
    simp only [List.mem_cons, List.not_mem_nil, or_false] at he
    rcases he with he | he | he
    · rw [he]; exact hprop.1.1
    · rw [he]; show Key.timeout ≠ Key.none; decide
    · rw [he]; exact hpx.1.1
  have hall : ∀ b, Base b → ∀ m ∈ mappingsInUse tcs cur, (matchSeq m.input (b ++ [⟨k, .Down, 0⟩, ⟨Key.timeout, .Up, v⟩, ⟨x, xs, 0⟩])).res = .no_match := by
    intro b hb m hm
    have hv := mappingsInUse_valid h m hm
    by_cases hmk : m.key = k
    · exact match_other hv (x := ⟨x, xs, 0⟩) hpx.1 (by rw [hmk]; exact fun h => hxk h.symm) hnx (by simp) (notZero_append hb hkeys2)
    · exact match_other hv (x := ⟨k, .Down, 0⟩) hprop.1 hmk rfl (by simp) (notZero_append hb hkeys2)
  have hn : hasNonOptional s.seq = true := by
    rw [hts.seq, happ]; exact hasNonOptional_last hxs
  cases hfind : (mappingsInUse tcs cur).find? (fun m => m.key == k && (m.fits v && !m.isTap)) with
  | some m =>
    rw [hfind] at ho
    simp only [] at ho
    have hfm := List.find?_some hfind
    simp only [Bool.and_eq_true, beq_iff_eq, Bool.not_eq_true'] at hfm
    rw [happ] at hts
    have hdn : hasUnmatchedDown (b ++ [(⟨k, .Down, 0⟩ : KeyEvent), ⟨Key.timeout, .Up, v⟩]) = true := by
      unfold hasUnmatchedDown; simp
    obtain ⟨s', h1, h2⟩ := round_start (u := u) h hcur hd hts hdn (by rw [← happ]; exact hall b hb)
      (by rw [find_elapsed_start h hb hk hkb v]; exact hfind) (ev := ⟨x, xs, 0⟩) hpx.2.2 hpx.1.2.2 (k := k)
      (fun s1 hs1 ht1 => chooseTrigger_start hk hx hxk hs1 ht1 hfm.1 hfm.2.2 _)
    have hfin : finishGo (b ++ [(⟨k, .Down, 0⟩ : KeyEvent), ⟨Key.timeout, .Up, v⟩]).length
        ((b ++ [⟨k, .Down, 0⟩, ⟨Key.timeout, .Up, v⟩]) ++ [⟨x, xs, 0⟩]) = (b ++ [⟨k, .DownMatched, 0⟩, ⟨Key.timeout, .UpMatched, v⟩]) ++ [⟨x, xs, 0⟩] := by
      rw [List.length_append, List.append_assoc, finishGo_base hb _ (noUp_of (by
        intro e he hst
        simp only [List.cons_append, List.nil_append, List.mem_cons, List.not_mem_nil, or_false] at he
        rcases he with he | he | he
        · rw [he] at hst; simp at hst
        · rw [he]; exact timeout_notDevice hb
        · rw [he]; exact hxb))]
      rw [List.append_assoc]
      congr 1
      have : ([(⟨k, .Down, 0⟩ : KeyEvent), ⟨Key.timeout, .Up, v⟩, ⟨x, xs, 0⟩].contains (⟨k, .Up, 0⟩ : KeyEvent)) = false := by
        rw [List.contains_eq_mem, decide_eq_false_iff_not]
        intro hm
        simp only [List.mem_cons, KeyEvent.mk.injEq, reduceCtorEq, false_and, and_false, List.not_mem_nil, or_false, false_or] at hm
        rcases hm with hm | hm
        · exact hprop.1.2.2 hm.1
        · exact hxk hm.1.symm
      show finishGo 2 [(⟨k, .Down, 0⟩ : KeyEvent), ⟨Key.timeout, .Up, v⟩, ⟨x, xs, 0⟩] = _
      rw [finishGo, this]
      simp [finishGo]
    rw [hfin] at h2
    refine ⟨_, s', hb.append ((base_down hk).append (base_time v)), ?_, ?_, mainLoop_next hn h1⟩
    · rw [bodyKeys_append]; rfl
    · rw [ho]; exact h2
  | none =>
    rw [hfind] at ho
    simp only [] at ho
    have hno := noWay_interrupted (v := v) (xs := xs) h hxs hk hkb hx hxk hfind
    have hup : ∀ j ∈ bodyKeys b, (⟨j, .Up, 0⟩ : KeyEvent) ∉ [(⟨k, .Down, 0⟩ : KeyEvent), ⟨Key.timeout, .Up, v⟩, ⟨x, xs, 0⟩] := by
      apply noUp_of
      intro e he hst
      simp only [List.mem_cons, List.not_mem_nil, or_false] at he
      rcases he with he | he | he
      · rw [he] at hst; simp at hst
      · rw [he]; exact timeout_notDevice hb
      · rw [he]; exact hxb
    have htn : hasNonOptional [(⟨k, .Down, 0⟩ : KeyEvent), ⟨Key.timeout, .Up, v⟩, ⟨x, xs, 0⟩] = true := by
      simp [hasNonOptional, isNonOptional]
    obtain ⟨s', h1, h2, h3⟩ := loop_clean (u := u) h hcur hd (ev := ⟨x, xs, 0⟩) hpx.2.2 htn hc b.length (Nat.le_refl _) hts hb hno hup (Or.inl hpx.1.2.2)
    rw [h3]
    obtain ⟨s1, hs1, hm1, hr⟩ := round_forward (u := u) h hcur hd h1 hb.cleaned (by rw [bodyKeys_cleaned]; exact hno) (ev := ⟨x, xs, 0⟩) hpx.2.2 h2
    have hcu : ∀ y ∈ cleaned b, y.key ∈ bodyKeys b := fun y hy => by unfold bodyKeys; exact List.mem_map.2 ⟨y, hy, rfl⟩
    obtain ⟨h4, h4m⟩ := hs1.forwardPress cleaned_state (fun y hy => hup y.key (hcu y hy)) (by
      intro hmem
      simp only [List.mem_cons, KeyEvent.mk.injEq, reduceCtorEq, false_and, and_false, List.not_mem_nil, or_false] at hmem
      rcases hmem with hmem | hmem
      · exact hprop.1.2.2 hmem.1
      · exact hxk hmem.1.symm) hk hm1
    obtain ⟨h5, h5t⟩ := h4.afterForward
    have hb' : Base (cleaned b ++ [⟨k, .DownMatched, 0⟩]) := hb.cleaned.append (base_down hk)
    have hkb' : bodyKeys (cleaned b ++ [(⟨k, .DownMatched, 0⟩ : KeyEvent)]) = bodyKeys b ++ [k] := by rw [bodyKeys_append, bodyKeys_cleaned]; rfl
    have happ2 : cleaned b ++ [(⟨k, .DownMatched, 0⟩ : KeyEvent), ⟨Key.timeout, .Up, v⟩, ⟨x, xs, 0⟩] =
        (cleaned b ++ [⟨k, .DownMatched, 0⟩]) ++ [⟨Key.timeout, .Up, v⟩, ⟨x, xs, 0⟩] := by simp
    rw [happ2, show hasNonOptional ((cleaned b ++ [(⟨k, .DownMatched, 0⟩ : KeyEvent)]) ++ [⟨Key.timeout, .Up, v⟩, ⟨x, xs, 0⟩]) = true by
      rw [hasNonOptional_base hb']; simp [hasNonOptional, isNonOptional], Bool.and_true] at h5
    have hc' := hc.press hk [⟨k, .Down, 0⟩]
    obtain ⟨s6, h6, h6m, h6r⟩ := round_forward_plain (u := u) h hcur hd h5 hb' (ev := ⟨x, xs, 0⟩) hpx.2.2 (Or.inl hpx.1.2.2) (by
      intro m hm'
      have hv := mappingsInUse_valid h m hm'
      by_cases hmx : m.key = x
      · refine match_notPressed hv (x := ⟨Key.timeout, .Up, v⟩) (rest := [⟨x, xs, 0⟩]) ?_ rfl (show Key.timeout ≠ Key.none by decide) (show Key.timeout ≠ Key.any by decide)
        rw [hmx]
        exact hb'.skipped hx (by
          rw [hkb', List.mem_append, List.mem_singleton]
          rintro (h1 | h1)
          · exact hxb h1
          · exact hxk h1)
      · refine match_other hv (x := ⟨x, xs, 0⟩) hpx.1 hmx hnx (by simp) (notZero_append hb' ?_)
        intro e he
        exact hkeys2 e (by simp only [List.mem_cons] at he ⊢; exact Or.inr he)) rfl
    obtain ⟨h7, _⟩ := h6.forwardRelease (e := ⟨Key.timeout, .Up, v⟩) (rest := [⟨x, xs, 0⟩]) (by
      intro y hy
      simp only [List.mem_append, List.mem_singleton] at hy
      rcases hy with hy | hy
      · exact cleaned_state y hy
      · rw [hy]) (by
      intro y hy hmem
      have hyd : isDeviceKey y.key = true := by
        apply bodyKeys_device hb'
        refine mem_keysOf hy ?_
        simp only [List.mem_append, List.mem_singleton] at hy
        rcases hy with hy | hy
        · exact cleaned_state y hy
        · rw [hy]
      simp only [List.mem_cons, KeyEvent.mk.injEq, reduceCtorEq, false_and, and_false, List.not_mem_nil, or_false] at hmem
      rcases hmem with hmem | hmem
      · exact (deviceKey_proper hyd).1.2.2 hmem.1
      · have hyk := mem_keysOf hy (by
          simp only [List.mem_append, List.mem_singleton] at hy
          rcases hy with hy | hy
          · exact cleaned_state y hy
          · rw [hy])
        rw [hkb', hmem.1, List.mem_append, List.mem_singleton] at hyk
        rcases hyk with h1 | h1
        · exact hxb h1
        · exact hxk h1) (Or.inl rfl) (show Key.timeout ≠ Key.ContextActive by decide) h6m
    rw [hc'.timeout.1, hc'.timeout.2.1, hc'.timeout.2.2, List.append_nil] at h7
    obtain ⟨h8, _⟩ := h7.afterForward
    rw [hasNonOptional_last hxs, Bool.and_true] at h8
    refine ⟨_, _, hb', hkb', by rw [ho]; exact h8, ?_⟩
    rw [mainLoop_next (by rw [h1.seq, happ]; exact hasNonOptional_last hxs) hr]
    rw [mainLoop_next (by rw [h5.seq, hasNonOptional_base hb']; simp [hasNonOptional, isNonOptional]) h6r]

/-! ### a key held before is released -/

theorem split_first_drop {b : KeySequence} (hb : Base b) {x : Key} (hx : x ∈ bodyKeys b) :
    ∃ d e b2, b = d ++ e :: b2 ∧ (∀ y ∈ d, y.state = .DownMatched ∧ y.key ≠ x) ∧
      ((e.state = .UpMatched ∧ e.key = Key.timeout) ∨ (e.state = .DownMatched ∧ e.key = x)) := by
  induction b with
  | nil => simp [bodyKeys, cleaned] at hx
  | cons e b ih =>
    rcases hb e (by simp) with h1 | h1
    · by_cases hek : e.key = x
      · exact ⟨[], e, b, rfl, by simp, Or.inr ⟨h1.1, hek⟩⟩
      · have hx' : x ∈ bodyKeys b := by
          unfold bodyKeys cleaned at hx ⊢
          rw [List.filter_cons, if_pos (by simp [h1.1]), List.map_cons, List.mem_cons] at hx
          rcases hx with hx | hx
          · exact absurd hx.symm hek
          · exact hx
        obtain ⟨d, y, b2, h2, h3, h4⟩ := ih (hb.sub (fun x hx => by simp [hx])) hx'
        refine ⟨e :: d, y, b2, by rw [h2]; rfl, ?_, h4⟩
        intro z hz
        simp only [List.mem_cons] at hz
        rcases hz with hz | hz
        · rw [hz]; exact ⟨h1.1, hek⟩
        · exact h3 z hz
    · exact ⟨[], e, b, rfl, by simp, Or.inl h1⟩

/-- a press which was matched and is released is forgotten -/
theorem TS.forwardDrop {d rest : KeySequence} {e : KeyEvent} {s : S} {q} (h : TS cur q mg outs out tg s) (hq : q = d ++ e :: rest)
    (hd : ∀ x ∈ d, x.state = .DownMatched) (hn : ∀ x ∈ d, (⟨x.key, .Up, 0⟩ : KeyEvent) ∉ e :: rest)
    (he : e.state = .DownMatched) (hk : (⟨e.key, .Up, 0⟩ : KeyEvent) ∈ rest) (hm : s.matchedTime = none) :
    TS cur (d ++ rest) mg outs out tg (forwardFromSequence s) ∧ (forwardFromSequence s).matchedTime = none := by
  have hf : forwardFromSequence s = { s with seq := d ++ rest } := by
    unfold forwardFromSequence
    rw [h.seq, hq, forwardGo_skip s [] d (e :: rest) hd hn, forwardGo]
    have h1 : (e.state == KeyState.Down || e.state == KeyState.DownMatched) = true := by rw [he]; rfl
    have h2 : (e :: rest).contains (⟨e.key, .Up, 0⟩ : KeyEvent) = true := by
      rw [List.contains_eq_mem, decide_eq_true_iff]; simp [hk]
    have h3 : updateOutput s e (.key e.key) (-1) = s := by unfold updateOutput; rw [he]
    rw [h1, h2, h3]
    simp
  rw [hf]
  exact ⟨h.withSeq _, hm⟩

/-- the press of a key which is released is forgotten, when nothing applies -/
theorem loop_drop (h : TimedCfg tcs c) (hcur : Cur tcs cur) (hd : ValidDevice dev) {ev : KeyEvent} (hv : isVirtualKey ev.key = false)
    {tail : KeySequence} (ht : hasNonOptional tail = true) (hc : Causes outs tg) {x : Key} (hxt : (⟨x, .Up, 0⟩ : KeyEvent) ∈ tail)
    (n : Nat) {s : S} {b : KeySequence} (hn : b.length ≤ n)
    (hts : TS cur (b ++ tail) mg outs out tg s) (hb : Base b) (hx : x ∈ bodyKeys b) (hno : NoWay (mappingsInUse tcs cur) (bodyKeys b) tail mg)
    (hup : ∀ k ∈ bodyKeys b, k ≠ x → (⟨k, .Up, 0⟩ : KeyEvent) ∉ tail) (hm : ev.key ≠ Key.timeout ∨ s.matchedTime = none) :
    ∃ b' s', Base b' ∧ bodyKeys b' = (bodyKeys b).erase x ∧ TS cur (b' ++ tail) mg outs out tg s' ∧ (ev.key ≠ Key.timeout ∨ s'.matchedTime = none) ∧
      mainLoop c ev dev u s = mainLoop c ev dev u s' := by
  induction n generalizing s b with
  | zero =>
    have : b = [] := List.eq_nil_of_length_eq_zero (by omega)
    subst this
    simp [bodyKeys, cleaned] at hx
  | succ n ih =>
    obtain ⟨d, e, b2, h1, h2, h3⟩ := split_first_drop hb hx
    obtain ⟨s1, hs1, hm1, hr⟩ := round_forward (u := u) h hcur hd hts hb hno hv hm
    have hb' : Base (d ++ b2) := hb.sub (fun x hx => by
      rw [h1]; simp only [List.mem_append, List.mem_cons] at hx ⊢
      rcases hx with hx | hx
      · exact Or.inl hx
      · exact Or.inr (Or.inr hx))
    have hnup : ∀ y ∈ d, (⟨y.key, .Up, 0⟩ : KeyEvent) ∉ e :: (b2 ++ tail) := by
      intro y hy hmem
      have hyd := h2 y hy
      simp only [List.mem_cons, List.mem_append] at hmem
      rcases hmem with hmem | hmem | hmem
      · rcases h3 with h3 | h3 <;> rw [← hmem] at h3 <;> simp at h3
      · have := hb'.state ⟨y.key, .Up, 0⟩ (by simp [hmem])
        simp at this
      · refine hup y.key ?_ hyd.2 hmem
        rw [h1]
        exact mem_keysOf (by simp [hy]) hyd.1
    have hdd : ∀ y ∈ d, y.state = .DownMatched := fun y hy => (h2 y hy).1
    have happ : b ++ tail = d ++ e :: (b2 ++ tail) := by rw [h1]; simp
    have hnon : hasNonOptional s.seq = true := by rw [hts.seq, hasNonOptional_base hb]; exact ht
    rcases h3 with ⟨h3, h4⟩ | ⟨h3, h4⟩
    · have hcl : cleaned (d ++ b2) = cleaned b := by
        rw [h1]; unfold cleaned
        rw [List.filter_append, List.filter_append, List.filter_cons, if_neg (by rw [h3]; decide)]
      have hk' : bodyKeys (d ++ b2) = bodyKeys b := by unfold bodyKeys; rw [hcl]
      rw [happ] at hs1
      obtain ⟨h5, h6⟩ := hs1.forwardRelease hdd hnup (Or.inr h3) (by rw [h4]; decide) hm1
      rw [h4, hc.timeout.1, hc.timeout.2.1, hc.timeout.2.2, List.append_nil] at h5
      obtain ⟨h7, h8⟩ := h5.afterForward
      rw [← List.append_assoc, hasNonOptional_base hb', ht, Bool.and_true] at h7
      obtain ⟨b', s', e0, e1, e2, e3, e4⟩ := ih (s := afterForward (forwardFromSequence s1)) (b := d ++ b2) (by
        rw [h1] at hn; simp at hn ⊢; omega) h7 hb' (by rw [hk']; exact hx) (by rw [hk']; exact hno) (by rw [hk']; exact hup) (Or.inr (by
          unfold S.matchedTime at *; rw [h8]; exact h6))
      rw [hk'] at e1
      exact ⟨b', s', e0, e1, e2, e3, by rw [← e4]; exact mainLoop_next hnon hr⟩
    · obtain ⟨h5, h6⟩ := hs1.forwardDrop happ hdd hnup h3 (by rw [h4]; simp [hxt]) hm1
      obtain ⟨h7, h8⟩ := h5.afterForward
      rw [← List.append_assoc, hasNonOptional_base hb', ht, Bool.and_true] at h7
      refine ⟨d ++ b2, _, hb', ?_, h7, Or.inr (by unfold S.matchedTime at *; rw [h8]; exact h6), mainLoop_next hnon hr⟩
      have hkd : x ∉ bodyKeys d := by
        intro hmem
        unfold bodyKeys cleaned at hmem
        obtain ⟨y, hy, hyx⟩ := List.mem_map.1 hmem
        exact (h2 y (List.mem_filter.1 hy).1).2 hyx
      have hke : bodyKeys (e :: b2) = x :: bodyKeys b2 := by
        unfold bodyKeys cleaned
        rw [List.filter_cons, if_pos (by simp [h3]), List.map_cons, h4]
      rw [h1, bodyKeys_append, bodyKeys_append, hke, List.erase_append_right _ hkd, List.erase_cons_head]

theorem finishGo_drop {b : KeySequence} (hb : Base b) (n : Nat) {rest : KeySequence} {x : Key} (hxt : (⟨x, .Up, 0⟩ : KeyEvent) ∈ rest)
    (hup : ∀ k ∈ bodyKeys b, k ≠ x → (⟨k, .Up, 0⟩ : KeyEvent) ∉ rest) (hnt : x ≠ Key.timeout) :
    finishGo (b.length + n) (b ++ rest) = b.filter (fun e => e.key != x) ++ finishGo n rest := by
  induction b with
  | nil => simp
  | cons e b ih =>
    have hb' : Base b := hb.sub (fun x hx => by simp [hx])
    have ih := ih hb' (fun k hk => hup k (by
      unfold bodyKeys cleaned at hk ⊢
      obtain ⟨x, h1, h2⟩ := List.mem_map.1 hk
      refine List.mem_map.2 ⟨x, ?_, h2⟩
      rw [List.mem_filter] at h1 ⊢
      exact ⟨by simp [h1.1], h1.2⟩))
    have hlen : (e :: b).length + n = (b.length + n) + 1 := by simp; omega
    rw [hlen, List.cons_append, finishGo]
    rcases hb e (by simp) with h1 | h1
    · have hcond : (e.state == KeyState.Down || e.state == KeyState.DownMatched) = true := by rw [h1.1]; rfl
      by_cases hex : e.key = x
      · have hcont : (e :: (b ++ rest)).contains (⟨e.key, .Up, 0⟩ : KeyEvent) = true := by
          rw [List.contains_eq_mem, decide_eq_true_iff, hex]
          simp [hxt]
        rw [if_pos hcond, hcont, ih]
        simp [hex]
      · have hcont : (e :: (b ++ rest)).contains (⟨e.key, .Up, 0⟩ : KeyEvent) = false := by
          rw [List.contains_eq_mem, decide_eq_false_iff_not]
          simp only [List.mem_cons, List.mem_append]
          rintro (hm | hm | hm)
          · have := h1.1; rw [← hm] at this; simp at this
          · have := hb'.state _ hm; simp at this
          · exact hup e.key (mem_keysOf (by simp) h1.1) hex hm
        rw [if_pos hcond, hcont, ih]
        have : ({ e with state := .DownMatched } : KeyEvent) = e := by rw [← h1.1]
        rw [this]
        simp [hex]
    · rw [if_neg (by rw [h1.1]; decide), if_pos (by rw [h1.2]; decide), ih]
      have : ({ e with state := .UpMatched } : KeyEvent) = e := by rw [← h1.1]
      rw [this, List.filter_cons, if_pos (by rw [h1.2]; simpa using hnt.symm)]
      rfl

theorem bodyKeys_filter (b : KeySequence) (x : Key) : bodyKeys (b.filter (fun e => e.key != x)) = (bodyKeys b).filter (fun k => k != x) := by
  unfold bodyKeys cleaned
  rw [List.filter_map, List.filter_filter, List.filter_filter]
  congr 1
  apply List.filter_congr
  intro e _
  exact Bool.and_comm _ _

/-- another key is released: the key is decided first -/
theorem loop_interrupted_up (h : TimedCfg tcs c) (hcur : Cur tcs cur) (hd : ValidDevice dev) {s : S} {b : KeySequence} {k x : Key} {v : Nat}
    (hts : TS cur (b ++ [⟨k, .Down, 0⟩, ⟨Key.timeout, .Up, v⟩, ⟨x, .Up, 0⟩]) true outs out (some k) s)
    (hb : Base b) (hk : isDeviceKey k = true) (hkb : k ∉ bodyKeys b) (hxb : x ∈ bodyKeys b) (hnd : (bodyKeys b).Nodup)
    (hc : Causes outs (some k)) (o : KeySequence)
    (ho : o = match (mappingsInUse tcs cur).find? (fun m => m.key == k && (m.fits v && !m.isTap)) with | some m => m.out | none => [⟨k, .Down, 0⟩]) :
    ∃ b' s', Base b' ∧ bodyKeys b' = (bodyKeys b).erase x ++ [k] ∧ TS cur (b' ++ [⟨x, .Up, 0⟩]) true (pressAll outs k o) (out ++ o) (some k) s' ∧
      mainLoop c ⟨x, .Up, 0⟩ dev u s = mainLoop c ⟨x, .Up, 0⟩ dev u s' := by
  have hx := bodyKeys_device hb x hxb
  have hxk : x ≠ k := by rintro rfl; exact hkb hxb
  have hprop := deviceKey_proper hk
  have hpx := deviceKey_proper hx
  have happ : ∀ b : KeySequence, b ++ [(⟨k, .Down, 0⟩ : KeyEvent), ⟨Key.timeout, .Up, v⟩, ⟨x, .Up, 0⟩] =
      (b ++ [⟨k, .Down, 0⟩, ⟨Key.timeout, .Up, v⟩]) ++ [⟨x, .Up, 0⟩] := by intro b; simp
  have hupx : ∀ j ∈ bodyKeys b, j ≠ x → (⟨j, .Up, 0⟩ : KeyEvent) ∉ [(⟨k, .Down, 0⟩ : KeyEvent), ⟨Key.timeout, .Up, v⟩, ⟨x, .Up, 0⟩] := by
    intro j hj hjx hmem
    simp only [List.mem_cons, KeyEvent.mk.injEq, reduceCtorEq, false_and, and_false, List.not_mem_nil, or_false, false_or] at hmem
    rcases hmem with hmem | hmem
    · rw [hmem.1] at hj; exact timeout_notDevice hb hj
    · exact hjx hmem.1
  cases hfind : (mappingsInUse tcs cur).find? (fun m => m.key == k && (m.fits v && !m.isTap)) with
  | none =>
    have hno := noWay_interrupted (v := v) (xs := .Up) h (Or.inr rfl) hk hkb hx hxk hfind
    obtain ⟨b1, s1, e1, e2, e3, _, e4⟩ := loop_drop (u := u) h hcur hd (ev := ⟨x, .Up, 0⟩) hpx.2.2 (by simp [hasNonOptional, isNonOptional]) hc
      (x := x) (by simp) b.length (Nat.le_refl _) hts hb hxb hno hupx (Or.inl hpx.1.2.2)
    have hxb1 : x ∉ bodyKeys b1 := by rw [e2, hnd.mem_erase_iff]; simp
    have hkb1 : k ∉ bodyKeys b1 := by rw [e2, hnd.mem_erase_iff]; exact fun h => hkb h.2
    obtain ⟨b', s', g1, g2, g3, g4⟩ := loop_interrupted (u := u) (xs := .Up) h hcur hd (Or.inr rfl) e3 e1 hk hkb1 hx hxk hxb1 hc o ho
    exact ⟨b', s', g1, by rw [g2, e2], g3, by rw [e4, g4]⟩
  | some m =>
    rw [hfind] at ho
    simp only [] at ho
    have hfm := List.find?_some hfind
    simp only [Bool.and_eq_true, beq_iff_eq, Bool.not_eq_true'] at hfm
    rw [happ] at hts
    have hdn : hasUnmatchedDown (b ++ [(⟨k, .Down, 0⟩ : KeyEvent), ⟨Key.timeout, .Up, v⟩]) = true := by
      unfold hasUnmatchedDown; simp
    obtain ⟨s', h1, h2⟩ := round_start (u := u) h hcur hd hts hdn (by
        rw [← happ]
        intro m hm
        have hv := mappingsInUse_valid h m hm
        have hkeys2 : ∀ e ∈ [(⟨k, .Down, 0⟩ : KeyEvent), ⟨Key.timeout, .Up, v⟩, ⟨x, .Up, 0⟩], e.key ≠ Key.none := by
          intro e he
          simp only [List.mem_cons, List.not_mem_nil, or_false] at he
          rcases he with he | he | he
          · rw [he]; exact hprop.1.1
          · rw [he]; show Key.timeout ≠ Key.none; decide
          · rw [he]; exact hpx.1.1
        by_cases hmk : m.key = k
        · exact match_other hv (x := ⟨x, .Up, 0⟩) hpx.1 (by rw [hmk]; exact fun h => hxk h.symm) rfl (by simp) (notZero_append hb hkeys2)
        · exact match_other hv (x := ⟨k, .Down, 0⟩) hprop.1 hmk rfl (by simp) (notZero_append hb hkeys2))
      (by rw [find_elapsed_start h hb hk hkb v]; exact hfind) (ev := ⟨x, .Up, 0⟩) hpx.2.2 hpx.1.2.2 (k := k)
      (fun s1 hs1 ht1 => chooseTrigger_start hk hx hxk hs1 ht1 hfm.1 hfm.2.2 _)
    have hfin : finishGo (b ++ [(⟨k, .Down, 0⟩ : KeyEvent), ⟨Key.timeout, .Up, v⟩]).length
        ((b ++ [⟨k, .Down, 0⟩, ⟨Key.timeout, .Up, v⟩]) ++ [⟨x, .Up, 0⟩]) =
          (b.filter (fun e => e.key != x) ++ [⟨k, .DownMatched, 0⟩, ⟨Key.timeout, .UpMatched, v⟩]) ++ [⟨x, .Up, 0⟩] := by
      rw [List.length_append, List.append_assoc]
      refine (finishGo_drop hb 2 (x := x) (by simp) hupx hpx.1.2.2).trans ?_
      rw [List.append_assoc]
      congr 1
      have : ([(⟨k, .Down, 0⟩ : KeyEvent), ⟨Key.timeout, .Up, v⟩, ⟨x, .Up, 0⟩].contains (⟨k, .Up, 0⟩ : KeyEvent)) = false := by
        rw [List.contains_eq_mem, decide_eq_false_iff_not]
        intro hm
        simp only [List.mem_cons, KeyEvent.mk.injEq, reduceCtorEq, false_and, and_false, List.not_mem_nil, or_false, false_or] at hm
        rcases hm with hm | hm
        · exact hprop.1.2.2 hm.1
        · exact hxk hm.1.symm
      show finishGo 2 [(⟨k, .Down, 0⟩ : KeyEvent), ⟨Key.timeout, .Up, v⟩, ⟨x, .Up, 0⟩] = _
      rw [finishGo, this]
      simp [finishGo]
    rw [hfin] at h2
    have hbf : Base (b.filter (fun e => e.key != x)) := hb.sub (fun e he => (List.mem_filter.1 he).1)
    refine ⟨_, s', hbf.append ((base_down hk).append (base_time v)), ?_, ?_, mainLoop_next (by
      rw [hts.seq]; exact hasNonOptional_last (Or.inr rfl)) h1⟩
    · rw [bodyKeys_append, bodyKeys_filter, hnd.erase_eq_filter]; rfl
    · rw [ho]; exact h2

end

end KM
