import Verif.Lemmas.TimedStep
import Verif.Lemmas.WordRun
set_option linter.unusedSimpArgs false
/-!
# The main loop, with mappings of keys which are held or tapped
-/
namespace KM

/-- what is kept about the keys which are held and the time which passed -/
def Base (b : KeySequence) : Prop :=
  ∀ e ∈ b, (e.state = .DownMatched ∧ isDeviceKey e.key = true ∧ e.value = 0) ∨ (e.state = .UpMatched ∧ e.key = Key.timeout)

/-- without the times which passed -/
def cleaned (b : KeySequence) : KeySequence := b.filter (fun e => e.state == .DownMatched)

/-- the keys held -/
def bodyKeys (b : KeySequence) : List Key := (cleaned b).map (·.key)

theorem Base.append {a b : KeySequence} (ha : Base a) (hb : Base b) : Base (a ++ b) := by
  intro e he
  rcases List.mem_append.1 he with h | h
  · exact ha e h
  · exact hb e h

theorem Base.sub {a b : KeySequence} (hb : Base b) (h : ∀ e ∈ a, e ∈ b) : Base a := fun e he => hb e (h e he)

theorem base_nil : Base [] := by intro e he; simp at he

theorem base_down {k : Key} (hk : isDeviceKey k = true) : Base [⟨k, .DownMatched, 0⟩] := by
  intro e he; simp only [List.mem_singleton] at he; subst he; exact Or.inl ⟨rfl, hk, rfl⟩

theorem base_time (v : Nat) : Base [⟨Key.timeout, .UpMatched, v⟩] := by
  intro e he; simp only [List.mem_singleton] at he; subst he; exact Or.inr ⟨rfl, rfl⟩

theorem bodyKeys_append (a b : KeySequence) : bodyKeys (a ++ b) = bodyKeys a ++ bodyKeys b := by
  unfold bodyKeys cleaned; rw [List.filter_append, List.map_append]

theorem bodyKeys_cleaned (b : KeySequence) : bodyKeys (cleaned b) = bodyKeys b := by
  unfold bodyKeys cleaned; rw [List.filter_filter]; simp

theorem Base.cleaned {b : KeySequence} (h : Base b) : Base (cleaned b) := h.sub (fun e he => by
  unfold KM.cleaned at he; exact (List.mem_filter.1 he).1)

theorem cleaned_state {b : KeySequence} : ∀ e ∈ cleaned b, e.state = .DownMatched := by
  intro e he
  unfold cleaned at he
  simpa using (List.mem_filter.1 he).2

theorem mem_keysOf {b : KeySequence} {e : KeyEvent} (he : e ∈ b) (hd : e.state = .DownMatched) : e.key ∈ bodyKeys b := by
  unfold bodyKeys cleaned
  exact List.mem_map.2 ⟨e, List.mem_filter.2 ⟨he, by simp [hd]⟩, rfl⟩

theorem bodyKeys_device {b : KeySequence} (h : Base b) : ∀ k ∈ bodyKeys b, isDeviceKey k = true := by
  intro k hk
  unfold bodyKeys at hk
  obtain ⟨e, h1, h2⟩ := List.mem_map.1 hk
  have hs := cleaned_state e h1
  rcases h.cleaned e h1 with h3 | h3
  · rw [← h2]; exact h3.2.1
  · rw [hs] at h3; simp at h3

theorem Base.state {b : KeySequence} (h : Base b) : ∀ e ∈ b, e.state = .DownMatched ∨ e.state = .UpMatched := by
  intro e he
  rcases h e he with h1 | h1
  · exact Or.inl h1.1
  · exact Or.inr h1.1

theorem Base.matched {b : KeySequence} (h : Base b) : hasNonOptional b = false := by
  unfold hasNonOptional
  rw [List.any_eq_false]
  intro e he
  rcases h.state e he with h1 | h1 <;> simp [isNonOptional, h1]

theorem Base.noDown {b : KeySequence} (h : Base b) : hasUnmatchedDown b = false := by
  unfold hasUnmatchedDown
  rw [List.any_eq_false]
  intro e he
  rcases h.state e he with h1 | h1 <;> simp [h1]

theorem Base.skipped {b : KeySequence} (h : Base b) {k : Key} (hk : isDeviceKey k = true) (hn : k ∉ bodyKeys b) : ∀ e ∈ b, Skipped k e := by
  intro e he
  refine ⟨h.state e he, ?_, ?_⟩
  · rintro rfl
    rcases h e he with h1 | h1
    · exact hn (mem_keysOf he h1.1)
    · rw [h1.2] at hk; exact absurd hk (by decide)
  · rcases h e he with h1 | h1
    · exact (deviceKey_proper h1.2.1).1.2.1
    · rw [h1.2]; decide

theorem Base.notZero {b : KeySequence} (h : Base b) : ∀ e ∈ b, e ≠ KeyEvent.zero := by
  rintro e he rfl
  rcases h _ he with h1 | h1 <;> exact absurd h1.1 (by decide)

/-- the contexts are the ones of the configuration -/
structure Cur (tcs : List (List TimedMapping)) (cur : List Nat) : Prop where
  sorted : cur.Pairwise (· < ·)
  lt : ∀ i ∈ cur, i < tcs.length

/-- The state of the stage: the active contexts, the sequence, whether something might match, the keys held in the output,
what was output and the key for which the time was asked. -/
structure TS (cur : List Nat) (q : KeySequence) (mg : Bool) (outs : List (Key × Key)) (out : KeySequence) (tg : Option Key) (s : S) : Prop where
  active : s.active = cur
  client : s.activeClient = cur
  onRel : s.onRelease = []
  reapplied : s.reapplied = false
  hist : s.history = []
  seq : s.seq = q
  might : s.might = mg
  down : s.down.map heldBy = outs
  tr : ∀ o ∈ s.down, o.temporarilyReleased = false
  buf : s.buf = out
  tg : s.timeout.map (·.trigger) = tg
  nt : ∀ t, s.timeout = some t → t.ev.state.isNotTimeout = true → t.matchedOutput = none

/-- a timeout was already matched -/
def S.matchedTime (s : S) : Option OutRef := s.timeout.bind (·.matchedOutput)

/-- the causes of the keys in the output are keys -/
structure Causes (outs : List (Key × Key)) (tg : Option Key) : Prop where
  outs : ∀ o ∈ outs, isDeviceKey o.2 = true
  tg : ∀ k, tg = some k → isDeviceKey k = true

theorem pressAll_causes {outs : List (Key × Key)} {k : Key} (l : KeySequence) : ∀ o ∈ pressAll outs k l, o ∈ outs ∨ o.2 = k := by
  induction l generalizing outs with
  | nil => intro o ho; exact Or.inl ho
  | cons e l ih =>
    intro o ho
    unfold pressAll at ho
    rw [List.foldl_cons] at ho
    rcases ih o ho with h | h
    · split at h
      · exact Or.inl h
      · simp only [List.mem_append, List.mem_singleton] at h
        rcases h with h | h
        · exact Or.inl h
        · exact Or.inr (by rw [h])
    · exact Or.inr h

theorem Causes.press {outs tg} (h : Causes outs tg) {k : Key} (hk : isDeviceKey k = true) (l : KeySequence) : Causes (pressAll outs k l) tg := by
  refine ⟨?_, h.tg⟩
  intro o ho
  rcases pressAll_causes l o ho with h1 | h1
  · exact h.outs o h1
  · rw [h1]; exact hk

section
variable {cur : List Nat} {q : KeySequence} {mg : Bool} {outs : List (Key × Key)} {out : KeySequence} {tg : Option Key} {s : S}

theorem TS.withMatch (h : TS cur q mg outs out tg s) (a : List Key) (b : Bool) : TS cur q mg outs out tg { s with anyM := a, ub := b } :=
  ⟨h.active, h.client, h.onRel, h.reapplied, h.hist, h.seq, h.might, h.down, h.tr, h.buf, h.tg, h.nt⟩

/-- the events which release what a key caused -/
def releasesOf (outs : List (Key × Key)) (k : Key) : KeySequence := (outs.filter (fun o => o.2 == k)).reverse.map (fun o => ⟨o.1, .Up, 0⟩)

theorem TS.release (h : TS cur q mg outs out tg s) {k : Key} (hk : k ≠ Key.ContextActive) :
    TS cur q mg (outs.filter (fun o => o.2 != k)) (out ++ releasesOf outs k) (tg.filter (· != k)) (releaseTriggered s k (-1)) := by
  have hst : staysDown k (-1) = fun o : OutputDown => o.trigger.keyOf != k := by
    funext o
    unfold staysDown
    by_cases h : o.trigger.keyOf = k
    · have h1 : (o.trigger.keyOf == k) = true := by simpa using h
      have h2 : (k == Key.ContextActive) = false := beq_eq_false_iff_ne.2 hk
      simp [h1, h2, h]
    · have h1 : (o.trigger.keyOf == k) = false := beq_eq_false_iff_ne.2 h
      simp [h1, h]
  have hfil : ∀ l : List OutputDown, (∀ o ∈ l, o.temporarilyReleased = false) → l.filter (fun o => !o.temporarilyReleased) = l := by
    intro l hl
    rw [List.filter_eq_self]
    intro o ho
    simp [hl o ho]
  refine ⟨h.active, h.client, h.onRel, h.reapplied, h.hist, h.seq, h.might, ?_, ?_, ?_, ?_, ?_⟩
  · unfold releaseTriggered
    simp only [hst]
    rw [← h.down, List.filter_map]
    rfl
  · intro o ho
    unfold releaseTriggered at ho
    exact h.tr o (List.mem_filter.1 ho).1
  · unfold releaseTriggered releasesOf
    simp only [hst]
    rw [hfil _ (by
      intro o ho
      simp only [List.mem_reverse, List.mem_filter] at ho
      exact h.tr o ho.1), h.buf, ← h.down]
    congr 1
    rw [List.filter_map, ← List.map_reverse, List.map_map]
    rw [List.map_reverse, List.map_reverse]
    congr 1
    have : (fun o : OutputDown => !(o.trigger.keyOf != k)) = (fun o => o.2 == k) ∘ heldBy := by
      funext o; simp [heldBy, bne]
    rw [this]
    rfl
  · unfold releaseTriggered
    simp only []
    rw [← h.tg]
    cases s.timeout with
    | none => rfl
    | some t =>
      simp only [Option.map_some]
      by_cases ht : t.trigger = k
      · simp [ht, Option.filter]
      · have : (t.trigger == k) = false := beq_eq_false_iff_ne.2 ht
        rw [this]
        simp [ht, Option.filter]
  · intro t ht
    unfold releaseTriggered at ht
    simp only [] at ht
    cases hs : s.timeout with
    | none => rw [hs] at ht; simp at ht
    | some t' =>
      rw [hs] at ht
      simp only [] at ht
      split at ht
      · simp at ht
      · simp only [Option.some.injEq] at ht
        rw [← ht]; exact h.nt t' hs

theorem releaseTriggered_matchedTime {k : Key} (h : s.matchedTime = none) : (releaseTriggered s k (-1)).matchedTime = none := by
  unfold S.matchedTime at *
  unfold releaseTriggered
  simp only []
  cases hs : s.timeout with
  | none => rfl
  | some t =>
    rw [hs] at h
    simp only []
    split
    · rfl
    · exact h

/-- nothing is caused by a time -/
theorem Causes.timeout (h : Causes outs tg) : outs.filter (fun o => o.2 != Key.timeout) = outs ∧ releasesOf outs Key.timeout = [] ∧
    tg.filter (· != Key.timeout) = tg := by
  have hne : ∀ k, isDeviceKey k = true → k ≠ Key.timeout := fun k hk => (deviceKey_proper hk).1.2.2
  refine ⟨?_, ?_, ?_⟩
  · rw [List.filter_eq_self]
    intro o ho
    simpa using hne _ (h.outs o ho)
  · unfold releasesOf
    have : outs.filter (fun o => o.2 == Key.timeout) = [] := by
      rw [List.filter_eq_nil_iff]
      intro o ho
      simpa using hne _ (h.outs o ho)
    rw [this]; rfl
  · cases htg : tg with
    | none => rfl
    | some k =>
      have := hne k (h.tg k htg)
      simp [this]

theorem Causes.filter (h : Causes outs tg) (k : Key) : Causes (outs.filter (fun o => o.2 != k)) (tg.filter (· != k)) := by
  refine ⟨fun o ho => h.outs o (List.mem_filter.1 ho).1, ?_⟩
  intro j hj
  apply h.tg
  cases tg with
  | none => simp at hj
  | some x =>
    simp only [Option.filter] at hj
    split at hj
    · exact hj
    · simp at hj

/-- forwarding stops being undecided when nothing is left to decide -/
def afterForward (s : S) : S := if s.might && !hasNonOptional s.seq then { s with might := false } else s

theorem TS.afterForward (h : TS cur q mg outs out tg s) : TS cur q (mg && hasNonOptional q) outs out tg (afterForward s) ∧
    (KM.afterForward s).timeout = s.timeout := by
  unfold KM.afterForward
  rw [h.might, h.seq]
  cases mg <;> cases hn : hasNonOptional q <;> simp only [Bool.not_true, Bool.not_false, Bool.and_true, Bool.and_false, Bool.false_eq_true, if_false, if_true]
  all_goals refine ⟨?_, trivial⟩
  · exact h
  · exact h
  · exact ⟨h.active, h.client, h.onRel, h.reapplied, h.hist, rfl, rfl, h.down, h.tr, h.buf, h.tg, h.nt⟩
  · exact h

theorem TS.withSeq (h : TS cur q mg outs out tg s) (q' : KeySequence) : TS cur q' mg outs out tg { s with seq := q' } :=
  ⟨h.active, h.client, h.onRel, h.reapplied, h.hist, rfl, h.might, h.down, h.tr, h.buf, h.tg, h.nt⟩

theorem TS.withMight (h : TS cur q mg outs out tg s) (b : Bool) : TS cur q b outs out tg { s with might := b } :=
  ⟨h.active, h.client, h.onRel, h.reapplied, h.hist, h.seq, rfl, h.down, h.tr, h.buf, h.tg, h.nt⟩

/-- outputting keys -/
theorem TS.put (h : TS cur q mg outs out tg s) {o : KeySequence} (ho : OnlyPresses o) (trig : Trigger) (ctx : Int) :
    TS cur q mg (pressAll outs trig.keyOf o) (out ++ o) tg (applyOutput s o trig ctx) ∧ (applyOutput s o trig ctx).timeout = s.timeout := by
  obtain ⟨D, h1, h2, h3⟩ := applyOutput_pressAll ho trig ctx s h.reapplied h.tr
  rw [h1]
  refine ⟨⟨h.active, h.client, h.onRel, h.reapplied, h.hist, h.seq, h.might, ?_, h3, ?_, h.tg, h.nt⟩, rfl⟩
  · rw [← h.down]; exact h2
  · show s.buf ++ o = _; rw [h.buf]

theorem TS.putKey (h : TS cur q mg outs out tg s) {k : Key} (hk : isDeviceKey k = true) :
    TS cur q mg (pressAll outs k [⟨k, .Down, 0⟩]) (out ++ [⟨k, .Down, 0⟩]) tg (updateOutput s ⟨k, .Down, 0⟩ (.key k) (-1)) ∧
      (updateOutput s ⟨k, .Down, 0⟩ (.key k) (-1)).timeout = s.timeout := by
  obtain ⟨D, h1, h2, h3⟩ := updateOutput_pressAll (s := s) (ev := ⟨k, .Down, 0⟩) rfl (deviceKey_proper hk).1.2.2 h.reapplied h.tr (.key k) (-1)
  rw [h1]
  refine ⟨⟨h.active, h.client, h.onRel, h.reapplied, h.hist, h.seq, h.might, ?_, h3, ?_, h.tg, h.nt⟩, rfl⟩
  · rw [← h.down]; exact h2
  · show s.buf ++ _ = _; rw [h.buf]

/-- a release or a time is removed -/
theorem TS.forwardRelease {d rest : KeySequence} {e : KeyEvent} (h : TS cur (d ++ e :: rest) mg outs out tg s)
    (hd : ∀ x ∈ d, x.state = .DownMatched) (hn : ∀ x ∈ d, (⟨x.key, .Up, 0⟩ : KeyEvent) ∉ e :: rest)
    (he : e.state = .Up ∨ e.state = .UpMatched) (hk : e.key ≠ Key.ContextActive) (hm : s.matchedTime = none) :
    TS cur (d ++ rest) mg (outs.filter (fun o => o.2 != e.key)) (out ++ releasesOf outs e.key) (tg.filter (· != e.key)) (forwardFromSequence s) ∧
      (forwardFromSequence s).matchedTime = none := by
  have hf : forwardFromSequence s = { releaseTriggered s e.key (-1) with seq := d ++ rest } := by
    unfold forwardFromSequence
    rw [h.seq, forwardGo_skip s [] d (e :: rest) hd hn, forwardGo]
    have : (e.state == KeyState.Down || e.state == KeyState.DownMatched) = false := by
      rcases he with he | he <;> rw [he] <;> rfl
    rw [this]
    simp
  rw [hf]
  exact ⟨(h.release hk).withSeq _, releaseTriggered_matchedTime hm⟩

/-- a press is output -/
theorem TS.forwardPress {d rest : KeySequence} {k : Key} (h : TS cur (d ++ ⟨k, .Down, 0⟩ :: rest) mg outs out tg s)
    (hd : ∀ x ∈ d, x.state = .DownMatched) (hn : ∀ x ∈ d, (⟨x.key, .Up, 0⟩ : KeyEvent) ∉ (⟨k, .Down, 0⟩ : KeyEvent) :: rest)
    (hu : (⟨k, .Up, 0⟩ : KeyEvent) ∉ rest) (hk : isDeviceKey k = true) (hm : s.matchedTime = none) :
    TS cur (d ++ ⟨k, .DownMatched, 0⟩ :: rest) mg (pressAll outs k [⟨k, .Down, 0⟩]) (out ++ [⟨k, .Down, 0⟩]) tg (forwardFromSequence s) ∧
      (forwardFromSequence s).matchedTime = none := by
  have hf : forwardFromSequence s = { updateOutput s ⟨k, .Down, 0⟩ (.key k) (-1) with seq := d ++ ⟨k, .DownMatched, 0⟩ :: rest } := by
    unfold forwardFromSequence
    rw [h.seq, forwardGo_skip s [] d _ hd hn, forwardGo]
    have : ((⟨k, .Down, 0⟩ :: rest).contains (⟨k, .Up, 0⟩ : KeyEvent)) = false := by
      rw [List.contains_eq_mem, decide_eq_false_iff_not]
      simp [hu]
    rw [this]
    have hm' : (s.timeout.bind (·.matchedOutput)).isNone = true := by
      unfold S.matchedTime at hm; rw [hm]; rfl
    simp only [hm', show (KeyState.Down == KeyState.Down) = true from rfl, Bool.true_or, if_true, Bool.false_eq_true, if_false, List.nil_append]
  rw [hf]
  obtain ⟨h1, h2⟩ := h.putKey hk
  refine ⟨h1.withSeq _, ?_⟩
  unfold S.matchedTime at *
  rw [← hm]
  show Option.bind (updateOutput s ⟨k, .Down, 0⟩ (.key k) (-1)).timeout _ = _
  rw [h2]

end

/-! ### rounds of the main loop -/

/-- no mapping applies to the events `tail`, whatever else was kept about the held keys -/
def NoWay (ms : List TimedMapping) (ks : List Key) (tail : KeySequence) (mg : Bool) : Prop :=
  ∀ b, Base b → bodyKeys b = ks →
    (∀ m ∈ ms, (matchSeq m.input (b ++ tail)).res = .no_match) ∧
    (mg = true → ∀ i < tail.length, hasUnmatchedDown (tail.take i) = true → ∀ m ∈ ms, (matchSeq m.input (b ++ tail.take i)).res ≠ .matched)

section
variable {tcs : List (List TimedMapping)} {c : Cfg} {cur : List Nat} {mg : Bool} {outs : List (Key × Key)} {out : KeySequence} {tg : Option Key}
  {dev : Int} {u : Bool}

theorem matchStart_none (h : TimedCfg tcs c) (hcur : Cur tcs cur) (hd : ValidDevice dev) (n : Nat) {s : S} (ha : s.active = cur)
    (hno : ∀ i < n, hasUnmatchedDown (s.seq.take i) = true → ∀ m ∈ mappingsInUse tcs cur, (matchSeq m.input (s.seq.take i)).res ≠ .matched) :
    ∃ a b k, matchStart c dev u n s = ({ s with anyM := a, ub := b }, .noMatch, k) := by
  induction n generalizing s with
  | zero => exact ⟨s.anyM, s.ub, 0, rfl⟩
  | succ n ih =>
    unfold matchStart
    split
    · exact ⟨s.anyM, s.ub, _, rfl⟩
    · split
      · exact ⟨s.anyM, s.ub, _, rfl⟩
      · next hdn =>
        have hm := hno n (by omega) (by simpa using hdn)
        obtain ⟨a, b, h1⟩ := matchInput_timed_none h ha hcur.lt hd (first := false) (q := s.seq.take n) (u := u) (by
          intro m hm'
          have := hm m hm'
          cases hr : (matchSeq m.input (s.seq.take n)).res with
          | no_match => exact Or.inl rfl
          | might_match => exact Or.inr ⟨rfl, rfl⟩
          | matched => exact absurd hr this)
        rw [h1]
        obtain ⟨a', b', k, h2⟩ := ih (s := { s with anyM := a, ub := b }) ha (fun i hi => hno i (by omega))
        exact ⟨a', b', k, h2⟩

/-- nothing applies: the beginning of the sequence is forwarded -/
theorem round_forward_at (h : TimedCfg tcs c) (hcur : Cur tcs cur) (hd : ValidDevice dev) {s : S} {b tail : KeySequence}
    (hts : TS cur (b ++ tail) mg outs out tg s) (hb : Base b)
    (hno1 : ∀ m ∈ mappingsInUse tcs cur, (matchSeq m.input (b ++ tail)).res = .no_match)
    (hno2 : mg = true → ∀ i < tail.length, hasUnmatchedDown (tail.take i) = true → ∀ m ∈ mappingsInUse tcs cur, (matchSeq m.input (b ++ tail.take i)).res ≠ .matched)
    {ev : KeyEvent} (hv : isVirtualKey ev.key = false) (hm : ev.key ≠ Key.timeout ∨ s.matchedTime = none) :
    ∃ s1, TS cur (b ++ tail) mg outs out tg s1 ∧ s1.matchedTime = none ∧
      round c ev dev u s = (afterForward (forwardFromSequence s1), true) := by
  obtain ⟨a, b1, hmi⟩ := matchInput_timed_none h hts.active hcur.lt hd (first := true) (q := s.seq) (u := u) (by
    intro m hm'; rw [hts.seq]; exact Or.inl (hno1 m hm'))
  have hretry : ∃ a' b' n, retryStart c { s with anyM := a, ub := b1 } .noMatch dev u = ({ s with anyM := a', ub := b' }, .noMatch, n, false) := by
    unfold retryStart
    simp only []
    cases hmg : mg with
    | false =>
      refine ⟨a, b1, s.seq.length, ?_⟩
      rw [if_neg]
      show ¬ s.might = true
      rw [hts.might, hmg]; simp
    | true =>
      rw [if_pos (show s.might = true by rw [hts.might, hmg])]
      obtain ⟨a', b', k, h2⟩ := matchStart_none h hcur hd (u := u) s.seq.length (s := { s with anyM := a, ub := b1 }) hts.active (by
        intro i hi hdn m hm'
        simp only [] at hdn ⊢
        rw [hts.seq] at hdn hi ⊢
        rw [List.take_append] at hdn ⊢
        by_cases hl : i ≤ b.length
        · have : i - b.length = 0 := by omega
          rw [this] at hdn
          simp only [List.take_zero, List.append_nil] at hdn
          rw [(hb.sub (fun e he => List.mem_of_mem_take he)).noDown] at hdn
          simp at hdn
        · have htb : b.take i = b := List.take_of_length_le (by omega)
          rw [htb] at hdn ⊢
          refine hno2 hmg _ (by rw [List.length_append] at hi; omega) ?_ m hm'
          unfold hasUnmatchedDown at hdn ⊢
          rw [List.any_append, Bool.or_eq_true] at hdn
          rcases hdn with hdn | hdn
          · have := hb.noDown; unfold hasUnmatchedDown at this; rw [this] at hdn; simp at hdn
          · exact hdn)
      refine ⟨a', b', k, ?_⟩
      rw [show matchStart c dev u s.seq.length { s with anyM := a, ub := b1 } = _ from h2]
  obtain ⟨a', b', n, hretry⟩ := hretry
  have hts' := hts.withMatch a' b'
  obtain ⟨s2, hs2⟩ : ∃ s2 : S, s2 = { s with anyM := a', ub := b' } := ⟨_, rfl⟩
  rw [← hs2] at hretry hts'
  have hm2 : ev.key ≠ Key.timeout ∨ s2.matchedTime = none := by rw [hs2]; exact hm
  have htm : ∃ s3, timeoutMatched s2 ev .noMatch false = (s3, .noMatch) ∧ TS cur (b ++ tail) mg outs out tg s3 ∧ s3.matchedTime = none := by
    unfold timeoutMatched
    cases ht : s2.timeout with
    | none => exact ⟨s2, rfl, hts', by unfold S.matchedTime; rw [ht]; rfl⟩
    | some t =>
      simp only []
      by_cases hnt : t.ev.state.isNotTimeout = true
      · rw [if_pos hnt]
        exact ⟨s2, rfl, hts', by unfold S.matchedTime; rw [ht]; exact hts'.nt t ht hnt⟩
      · rw [if_neg hnt]
        by_cases hek : ev.key = Key.timeout
        · rw [if_pos (by simpa using hek)]
          refine ⟨s2, rfl, hts', ?_⟩
          rcases hm2 with h1 | h1
          · exact absurd hek h1
          · exact h1
        · rw [if_neg (by simpa using hek)]
          refine ⟨_, rfl, ⟨hts'.active, hts'.client, hts'.onRel, hts'.reapplied, hts'.hist, hts'.seq, hts'.might, hts'.down, hts'.tr, hts'.buf, ?_, ?_⟩, rfl⟩
          · rw [← hts'.tg, ht]; rfl
          · intro t' ht' _
            simp only [Option.some.injEq] at ht'
            rw [← ht']
  obtain ⟨s3, h3, hts3, hm3⟩ := htm
  have hnf : ∃ s4, notTimeoutFailed s3 .noMatch = s4 ∧ TS cur (b ++ tail) mg outs out tg s4 ∧ s4.matchedTime = none := by
    unfold notTimeoutFailed
    cases ht : s3.timeout with
    | none => exact ⟨s3, rfl, hts3, hm3⟩
    | some t =>
      simp only []
      by_cases hnt : t.ev.state.isNotTimeout = true
      · rw [if_pos hnt]
        refine ⟨_, rfl, ⟨hts3.active, hts3.client, hts3.onRel, hts3.reapplied, hts3.hist, hts3.seq, hts3.might, hts3.down, hts3.tr, hts3.buf, ?_, ?_⟩, ?_⟩
        · rw [← hts3.tg, ht]; rfl
        · intro t' ht' _
          simp only [Option.some.injEq] at ht'
          rw [← ht']
          exact hts3.nt t ht hnt
        · unfold S.matchedTime at *
          rw [ht] at hm3
          exact hm3
      · rw [if_neg hnt]
        exact ⟨s3, rfl, hts3, hm3⟩
  obtain ⟨s4, h4, hts4, hm4⟩ := hnf
  refine ⟨s4, hts4, hm4, ?_⟩
  unfold round
  rw [hmi]
  simp only [hv, Bool.false_and, Bool.false_eq_true, if_false]
  rw [show ((MIR.noMatch == MIR.might) = false) from rfl]
  simp only [Bool.false_eq_true, if_false]
  rw [hretry]
  simp only []
  rw [h3]
  simp only []
  rw [h4]
  rfl

theorem round_forward (h : TimedCfg tcs c) (hcur : Cur tcs cur) (hd : ValidDevice dev) {s : S} {b tail : KeySequence}
    (hts : TS cur (b ++ tail) mg outs out tg s) (hb : Base b) (hno : NoWay (mappingsInUse tcs cur) (bodyKeys b) tail mg) {ev : KeyEvent}
    (hv : isVirtualKey ev.key = false) (hm : ev.key ≠ Key.timeout ∨ s.matchedTime = none) :
    ∃ s1, TS cur (b ++ tail) mg outs out tg s1 ∧ s1.matchedTime = none ∧
      round c ev dev u s = (afterForward (forwardFromSequence s1), true) :=
  round_forward_at h hcur hd hts hb (hno b hb rfl).1 (hno b hb rfl).2 hv hm

/-- nothing was pressed since -/
theorem round_forward_plain (h : TimedCfg tcs c) (hcur : Cur tcs cur) (hd : ValidDevice dev) {s : S} {b tail : KeySequence}
    (hts : TS cur (b ++ tail) mg outs out tg s) (hb : Base b) {ev : KeyEvent}
    (hv : isVirtualKey ev.key = false) (hm : ev.key ≠ Key.timeout ∨ s.matchedTime = none)
    (hno : ∀ m ∈ mappingsInUse tcs cur, (matchSeq m.input (b ++ tail)).res = .no_match) (hdn : hasUnmatchedDown tail.dropLast = false) :
    ∃ s1, TS cur (b ++ tail) mg outs out tg s1 ∧ s1.matchedTime = none ∧
      round c ev dev u s = (afterForward (forwardFromSequence s1), true) := by
  refine round_forward_at h hcur hd hts hb hno ?_ hv hm
  intro _ i hi hd'
  exfalso
  unfold hasUnmatchedDown at hdn hd'
  rw [List.any_eq_false] at hdn
  rw [List.any_eq_true] at hd'
  obtain ⟨x, hx, hs⟩ := hd'
  refine hdn x ?_ hs
  rw [List.dropLast_eq_take]
  exact List.mem_of_mem_take (i := i) (by rw [List.take_take, Nat.min_eq_left (by omega)]; exact hx)

theorem mainLoop_next {ev : KeyEvent} {s s' : S} (hn : hasNonOptional s.seq = true) (hr : round c ev dev u s = (s', true)) :
    mainLoop c ev dev u s = mainLoop c ev dev u s' := by
  rw [mainLoop, dif_pos hn, dif_pos (by rw [hr]), hr]

theorem mainLoop_done {ev : KeyEvent} {s : S} (hn : hasNonOptional s.seq = false) : mainLoop c ev dev u s = s := by
  rw [mainLoop, dif_neg (by rw [hn]; simp)]

theorem hasNonOptional_tail {b tail : KeySequence} (h : hasNonOptional tail = true) : hasNonOptional (b ++ tail) = true := by
  unfold hasNonOptional at *
  rw [List.any_append, h, Bool.or_true]

theorem hasNonOptional_base {b tail : KeySequence} (hb : Base b) : hasNonOptional (b ++ tail) = hasNonOptional tail := by
  have := hb.matched
  unfold hasNonOptional at *
  rw [List.any_append, this, Bool.false_or]

theorem split_first_time {b : KeySequence} (hb : Base b) : cleaned b = b ∨
    ∃ d e b2, b = d ++ e :: b2 ∧ (∀ x ∈ d, x.state = .DownMatched) ∧ e.state = .UpMatched ∧ e.key = Key.timeout := by
  induction b with
  | nil => exact Or.inl rfl
  | cons e b ih =>
    rcases hb e (by simp) with h1 | h1
    · rcases ih (hb.sub (fun x hx => by simp [hx])) with h2 | ⟨d, x, b2, h2, h3, h4⟩
      · left
        unfold cleaned at *
        rw [List.filter_cons, if_pos (by simp [h1.1]), h2]
      · refine Or.inr ⟨e :: d, x, b2, by rw [h2]; rfl, ?_, h4⟩
        intro y hy
        simp only [List.mem_cons] at hy
        rcases hy with hy | hy
        · rw [hy]; exact h1.1
        · exact h3 y hy
    · exact Or.inr ⟨[], e, b, rfl, by simp, h1.1, h1.2⟩

/-- the times which passed before are forgotten when nothing applies -/
theorem loop_clean (h : TimedCfg tcs c) (hcur : Cur tcs cur) (hd : ValidDevice dev) {ev : KeyEvent} (hv : isVirtualKey ev.key = false)
    {tail : KeySequence} (ht : hasNonOptional tail = true) (hc : Causes outs tg) (n : Nat) {s : S} {b : KeySequence} (hn : b.length ≤ n)
    (hts : TS cur (b ++ tail) mg outs out tg s) (hb : Base b) (hno : NoWay (mappingsInUse tcs cur) (bodyKeys b) tail mg)
    (hup : ∀ k ∈ bodyKeys b, (⟨k, .Up, 0⟩ : KeyEvent) ∉ tail) (hm : ev.key ≠ Key.timeout ∨ s.matchedTime = none) :
    ∃ s', TS cur (cleaned b ++ tail) mg outs out tg s' ∧ (ev.key ≠ Key.timeout ∨ s'.matchedTime = none) ∧ mainLoop c ev dev u s = mainLoop c ev dev u s' := by
  induction n generalizing s b with
  | zero =>
    have : b = [] := List.eq_nil_of_length_eq_zero (by omega)
    subst this
    exact ⟨s, hts, hm, rfl⟩
  | succ n ih =>
    rcases split_first_time hb with h1 | ⟨d, e, b2, h1, h2, h3, h4⟩
    · exact ⟨s, by rw [h1]; exact hts, hm, rfl⟩
    · obtain ⟨s1, hs1, hm1, hr⟩ := round_forward (u := u) h hcur hd hts hb hno hv hm
      have hb' : Base (d ++ b2) := hb.sub (fun x hx => by
        rw [h1]; simp only [List.mem_append, List.mem_cons] at hx ⊢
        rcases hx with hx | hx
        · exact Or.inl hx
        · exact Or.inr (Or.inr hx))
      have hcl : cleaned (d ++ b2) = cleaned b := by
        rw [h1]; unfold cleaned
        rw [List.filter_append, List.filter_append, List.filter_cons, if_neg (by rw [h3]; decide)]
      have hk' : bodyKeys (d ++ b2) = bodyKeys b := by unfold bodyKeys; rw [hcl]
      rw [h1, List.append_assoc, List.cons_append] at hs1
      obtain ⟨h5, h6⟩ := hs1.forwardRelease h2 (by
        intro x hx hmem
        simp only [List.mem_cons, List.mem_append] at hmem
        rcases hmem with hmem | hmem | hmem
        · rw [← hmem] at h3; simp at h3
        · have := hb'.state ⟨x.key, .Up, 0⟩ (by simp [hmem])
          simp at this
        · refine hup x.key ?_ hmem
          rw [h1]
          exact mem_keysOf (by simp [hx]) (h2 x hx)) (Or.inr h3) (by rw [h4]; decide) hm1
      rw [h4, hc.timeout.1, hc.timeout.2.1, hc.timeout.2.2, List.append_nil] at h5
      obtain ⟨h7, h8⟩ := h5.afterForward
      rw [← List.append_assoc, hasNonOptional_base hb', ht, Bool.and_true] at h7
      obtain ⟨s', e1, e2, e3⟩ := ih (s := afterForward (forwardFromSequence s1)) (b := d ++ b2) (by
        rw [h1] at hn; simp at hn ⊢; omega) h7 hb' (by rw [hk']; exact hno) (by rw [hk']; exact hup) (Or.inr (by
          unfold S.matchedTime at *; rw [h8]; exact h6))
      rw [hcl] at e1
      refine ⟨s', e1, e2, ?_⟩
      rw [← e3]
      refine mainLoop_next ?_ hr
      rw [hts.seq, hasNonOptional_base hb]; exact ht

end

end KM
