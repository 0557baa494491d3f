import Verif.Lemmas.WordStep
/-!
# Typing a word and releasing its keys
-/
namespace KM

/-- an event which is not a repeat -/
theorem update_tail (c : Cfg) {s : S} {ev : KeyEvent} (dev : Int) (ho : s.onRelease = []) (ht : s.timeout = none)
    (hp : ev.state = .Up ∨ (ev.state = .Down ∧ isPhysicallyPressed s ev.key = false)) :
    ∃ x b lp lr, update c s ev dev =
      ({ pressTail c { s with exitPos := x, ub := b, lastPressed := lp, lastRepeat := lr } ev dev with buf := [] },
        (pressTail c { s with exitPos := x, ub := b, lastPressed := lp, lastRepeat := lr } ev dev).buf) := by
  have hm : ∀ x b, ∃ lp lr, mergeRepeat { s with exitPos := x, ub := b } ev dev =
      ({ s with exitPos := x, ub := b, lastPressed := lp, lastRepeat := lr }, false) := by
    intro x b
    unfold mergeRepeat
    rcases hp with hp | ⟨hp, hq⟩
    · rw [if_neg (by rw [hp]; decide)]
      exact ⟨_, _, rfl⟩
    · rw [if_pos (by rw [hp]; rfl)]
      have hq' : ¬ isPhysicallyPressed { s with exitPos := x, ub := b } ev.key = true := by
        show ¬ isPhysicallyPressed s ev.key = true
        rw [hq]; simp
      rw [if_neg hq']
      split
      · exact ⟨_, _, rfl⟩
      · exact ⟨_, _, rfl⟩
  unfold update
  simp only []
  rw [applyInput_eq c { s with exitPos := advanceExit s.exitPos ev } ev dev ho ht]
  obtain ⟨lp, lr, h⟩ := hm (advanceExit s.exitPos ev) (if validInput ev then s.ub else true)
  simp only []
  rw [h]
  exact ⟨_, _, lp, lr, rfl⟩

theorem pressTail_words {cs c} (h : WordCfg cs c) {s : S} (hs : Steady cs s) (ev : KeyEvent) (dev : Int) :
    pressTail c s ev dev = finishInput c (mainLoop c ev dev (ev.state == .Up && ev.key != Key.timeout)
      { beforeMatchUp { s with seq := s.seq ++ [ev] } ev with
        down := (beforeMatchUp { s with seq := s.seq ++ [ev] } ev).down.map (fun o => { o with suppressed := false }) }) ev := by
  have h1 : addToHistory c { s with seq := s.seq ++ [ev] } ev = { s with seq := s.seq ++ [ev] } := by
    unfold addToHistory; rw [h.nmm]; simp
  have h2 : updateActiveContexts c { s with seq := s.seq ++ [ev] } = { s with seq := s.seq ++ [ev] } :=
    updateActive_steady h ⟨hs.eq, hs.sorted, hs.lt⟩
  unfold pressTail
  simp only [h1, h2]

theorem finishInput_words {cs c} (h : WordCfg cs c) {s : S} (hs : Steady cs s) (ev : KeyEvent)
    (hq : ∀ e ∈ s.seq, e.state ≠ .UpMatched) (ht : s.timeout = none)
    (hrel : ev.state = .Up → releaseTriggered s ev.key (-1) = s) :
    ∃ hist b, (∀ e ∈ hist, e ∈ s.history) ∧ finishInput c s ev = { s with history := hist, ub := b, reapplied := false } := by
  unfold finishInput
  simp only []
  have h1 : (if (ev.state == KeyState.Up) = true then releaseTriggered s ev.key (-1) else s) = s := by
    split
    · next hu => exact hrel (by simpa using hu)
    · rfl
  rw [h1, updateActive_steady h hs]
  have hdw : s.seq.dropWhile (fun e => e.state == KeyState.UpMatched) = s.seq := by
    cases hq' : s.seq with
    | nil => rfl
    | cons e l =>
      have := hq e (by simp [hq'])
      rw [List.dropWhile_cons, if_neg (by simpa using this)]
  rw [hdw]
  have hif : (if s.seq.isEmpty = true then ({ s with timeout := none } : S) else s) = s := by
    split
    · cases s; subst ht; rfl
    · rfl
  have hss : ({ s with seq := s.seq } : S) = s := by cases s; rfl
  rw [hss, hif]
  have hcm := cleanUpHistory_mem c s.active s.history
  generalize cleanUpHistory c s.active s.history = q at *
  obtain ⟨hist, u⟩ := q
  exact ⟨hist, s.ub || u, hcm, rfl⟩

/-- The state while a word is typed: `p` are the events so far, `base` are the held keys which are
passed through. -/
structure TypingState (cs : List Context) (base p : KeySequence) (s : S) : Prop where
  steady : Steady cs s
  timeout : s.timeout = none
  onRel : s.onRelease = []
  buf : s.buf = []
  reapplied : s.reapplied = false
  hist : s.history = []
  seq : s.seq = base ++ p
  hbase : ∀ e ∈ base, e.state = .DownMatched ∧ isDeviceKey e.key = true
  nodup : (base.map (·.key)).Nodup
  down : DownInv s.down
  keys : ∀ k, k ∈ s.down.map (·.key) ↔ k ∈ base.map (·.key) ∧ isVirtualKey k = false
  might : p ≠ [] → s.might = true

theorem replacedBy_keys {cs c} (h : WordCfg cs c) {cur : List Nat} {pat : Pattern} {out : KeySequence}
    (hr : ReplacedBy cs cur pat out) : pat.Proper ∧ ∀ k ∈ pat.keys, isDeviceKey k = true ∧ ¬ Unmentioned cs k := by
  obtain ⟨pre, i, post, ctx, before, m, after, rfl, hctx, hin, hm, _⟩ := hr
  have hmem := List.mem_of_getElem? hctx
  have hmm : m ∈ ctx.inputs := by rw [hin]; simp
  obtain ⟨q, h2, h3⟩ := (h.words ctx hmem).inputs m hmm
  have : q = pat := pattern_inj h2 (h3.symm.trans hm)
  subst this
  refine ⟨h2, fun k hk => ⟨h2.2.1 k hk, ?_⟩⟩
  intro hu
  exact hu.2 ctx hmem m hmm ⟨k, .Down, 0⟩ (by rw [hm]; exact pattern_mem hk) rfl

theorem rfindKey_none {l : KeySequence} {k : Key} (h : k ∉ l.map (·.key)) : rfindKey l k = none := by
  unfold rfindKey
  rw [List.find?_eq_none]
  intro x hx
  simp only [beq_iff_eq]
  intro hxk
  exact h (List.mem_map.2 ⟨x, by simpa using hx, hxk⟩)

/-- a key which is pressed next was not pressed -/
theorem TypingState.notPressed {cs base p} {s : S} (ht : TypingState cs base p s) (hbu : ∀ e ∈ base, Unmentioned cs e.key)
    {ev : KeyEvent} (hT : Typed [] (p ++ [ev])) (hd : ev.state = .Down) (hn : ¬ Unmentioned cs ev.key) : isPhysicallyPressed s ev.key = false := by
  rw [typed_append] at hT
  have hnp : ev.key ∉ keysDown [] p := by
    have := hT.2
    simp only [Typed] at this
    rcases this with ⟨_, _, h, _⟩ | ⟨h, _⟩
    · exact h
    · rw [hd] at h; simp at h
  have hb : rfindKey base ev.key = none := by
    apply rfindKey_none
    intro hm
    obtain ⟨e, h1, h2⟩ := List.mem_map.1 hm
    exact hn (h2 ▸ hbu e h1)
  unfold isPhysicallyPressed
  rw [ht.seq, rfindKey_append, hb]
  rcases (rfindKey_keysDown hT.1 ev.key).2 hnp with ⟨e, h1, h2⟩ | ⟨h1, _⟩
  · rw [h1]; simp [h2]
  · rw [h1]; simp

theorem unsup_keys (d : List OutputDown) : (d.map (fun o => { o with suppressed := false })).map (·.key) = d.map (·.key) := by
  rw [List.map_map]; rfl

theorem hasNonOptional_last {l : KeySequence} {ev : KeyEvent} (h : ev.state = .Down ∨ ev.state = .Up) :
    hasNonOptional (l ++ [ev]) = true := by
  unfold hasNonOptional
  rw [List.any_append]
  rcases h with h | h <;> simp [isNonOptional, h]

theorem mainLoop_once {c : Cfg} {ev : KeyEvent} {dev : Int} {u : Bool} {s s' : S} (hn : hasNonOptional s.seq = true)
    (hr : round c ev dev u s = (s', false)) : mainLoop c ev dev u s = s' := by
  rw [mainLoop, dif_pos hn, dif_neg (by rw [hr]; simp), hr]

theorem mainLoop_twice {c : Cfg} {ev : KeyEvent} {dev : Int} {u : Bool} {s s' : S} (hn : hasNonOptional s.seq = true)
    (hr : round c ev dev u s = (s', true)) (hn' : hasNonOptional s'.seq = false) : mainLoop c ev dev u s = s' := by
  rw [mainLoop, dif_pos hn, dif_pos (by rw [hr]), hr, mainLoop, dif_neg (by rw [hn']; simp)]

/-- another event of a word which is not complete yet: nothing is output -/
theorem typing_step {cs c} (h : WordCfg cs c) {base p : KeySequence} {s : S} (ht : TypingState cs base p s)
    (hbu : ∀ e ∈ base, Unmentioned cs e.key) {pat : Pattern}
    {out : KeySequence} (hr : ReplacedBy cs s.active pat out) {ev : KeyEvent} (hT : Typed [] (p ++ [ev]))
    (hbegun : pat.Begun (p ++ [ev])) {dev : Int} (hd : ValidDevice dev) :
    TypingState cs base (p ++ [ev]) (update c s ev dev).1 ∧ (update c s ev dev).2 = [] ∧
      (update c s ev dev).1.active = s.active := by
  obtain ⟨hpat, hkeys⟩ := replacedBy_keys h hr
  have hkey : isDeviceKey ev.key = true ∧ ¬ Unmentioned cs ev.key := hkeys _ (begun_keys hT hbegun ev (by simp))
  obtain ⟨hprop, _, hvirt⟩ := deviceKey_proper hkey.1
  have hstate := typed_state hT ev (by simp)
  have hkb : ev.key ∉ base.map (·.key) := by
    intro hm
    obtain ⟨e, h1, h2⟩ := List.mem_map.1 hm
    exact hkey.2 (h2 ▸ hbu e h1)
  have hkd : ev.key ∉ s.down.map (·.key) := fun hm => hkb ((ht.keys _).1 hm).1
  obtain ⟨x, b, lp, lr, hu⟩ := update_tail c dev ht.onRel ht.timeout (ev := ev) (by
    rcases hstate with h1 | h1
    · exact Or.inr ⟨h1, ht.notPressed hbu hT h1 hkey.2⟩
    · exact Or.inl h1)
  obtain ⟨s1, hs1⟩ : ∃ s1 : S, s1 = { s with exitPos := x, ub := b, lastPressed := lp, lastRepeat := lr } := ⟨_, rfl⟩
  rw [← hs1] at hu
  have hst1 : Steady cs s1 := by rw [hs1]; exact ⟨ht.steady.eq, ht.steady.sorted, ht.steady.lt⟩
  have hbm : beforeMatchUp { s1 with seq := s1.seq ++ [ev] } ev = { s1 with seq := s1.seq ++ [ev] } := by
    unfold beforeMatchUp
    rcases hstate with h1 | h1
    · rw [if_neg (by rw [h1]; decide)]
    · rw [if_pos (by rw [h1]; rfl)]
      have hp : p ≠ [] := by
        rintro rfl
        simp only [List.nil_append, Typed, List.not_mem_nil, h1, reduceCtorEq, false_and, and_false, or_self] at hT
      have hm : s1.might = true := by rw [hs1]; exact ht.might hp
      have htt : s1.timeout = none := by rw [hs1]; exact ht.timeout
      simp only [htt, Option.bind_none, Option.isSome_none, Bool.false_eq_true, if_false, hm, Bool.not_true]
  obtain ⟨s2, hs2⟩ : ∃ s2 : S, s2 = { s1 with seq := base ++ (p ++ [ev]), down := s1.down.map (fun o => { o with suppressed := false }) } := ⟨_, rfl⟩
  have hst2 : Steady cs s2 := by rw [hs2]; exact ⟨hst1.eq, hst1.sorted, hst1.lt⟩
  have hseq1 : s1.seq ++ [ev] = base ++ (p ++ [ev]) := by rw [hs1]; simp [ht.seq]
  have htail : pressTail c s1 ev dev = finishInput c (mainLoop c ev dev (ev.state == .Up && ev.key != Key.timeout) s2) ev := by
    rw [pressTail_words h hst1, hbm, hs2, hseq1]
  obtain ⟨a, b2, hmi⟩ := matchInput_typing h hst2 (out := out) hpat (by rw [hs2, hs1]; exact hr) (fun e he => ⟨(ht.hbase e he).1, hbu e he⟩) (p := p ++ [ev])
    (by simp) hT hbegun (fun e he => (deviceKey_proper (hkeys _ (begun_keys hT hbegun e he)).1).1) hd (ev.state == .Up && ev.key != Key.timeout)
  have hround : round c ev dev (ev.state == .Up && ev.key != Key.timeout) s2 = ({ s2 with anyM := a, ub := b2, might := true }, false) := by
    unfold round
    have hq : s2.seq = base ++ (p ++ [ev]) := by rw [hs2]
    have hmi' : matchInput c s2 true s2.seq dev (ev.state == .Up && ev.key != Key.timeout) = ({ s2 with anyM := a, ub := b2 }, .might) := by
      rw [← hmi, hq]
    rw [hmi', hvirt]
    rfl
  have hloop := mainLoop_once (by rw [hs2]; show hasNonOptional (base ++ (p ++ [ev])) = true; rw [← List.append_assoc]; exact hasNonOptional_last hstate) hround
  obtain ⟨s3, hs3⟩ : ∃ s3 : S, s3 = { s2 with anyM := a, ub := b2, might := true } := ⟨_, rfl⟩
  rw [← hs3] at hloop
  obtain ⟨hun1, hun2⟩ := unsuppress_inv ht.down
  have hd3 : s3.down = s.down.map (fun o => { o with suppressed := false }) := by rw [hs3, hs2, hs1]
  obtain ⟨hist, b3, hh, hfin⟩ := finishInput_words h (s := s3) (by rw [hs3]; exact ⟨hst2.eq, hst2.sorted, hst2.lt⟩) ev (by
      intro e he
      have he' : e ∈ base ++ (p ++ [ev]) := by rw [hs3, hs2] at he; exact he
      rw [List.mem_append] at he'
      rcases he' with he' | he'
      · rw [(ht.hbase e he').1]; simp
      · rcases typed_state hT e he' with h1 | h1 <;> (rw [h1]; simp)) (by rw [hs3, hs2, hs1]; exact ht.timeout) (by
      intro _
      rw [releaseTriggered_eval (by rw [hd3]; exact hun1) (by rw [hs3, hs2, hs1]; exact ht.timeout), releaseResult_of_not]
      rw [hd3, hun2]; exact hkd)
  rw [hu, htail, hloop, hfin, hs3, hs2, hs1]
  refine ⟨⟨⟨ht.steady.eq, ht.steady.sorted, ht.steady.lt⟩, ht.timeout, ht.onRel, rfl, rfl, ?_, rfl, ht.hbase, ht.nodup, hun1, ?_, fun _ => rfl⟩, ht.buf, rfl⟩
  · have hh' : ∀ e ∈ hist, e ∈ s.history := by
      intro e he
      have := hh e he
      rw [hs3, hs2, hs1] at this
      exact this
    rw [ht.hist] at hh'
    exact List.eq_nil_iff_forall_not_mem.2 (fun e he => absurd (hh' e he) (by simp))
  · intro k
    show k ∈ (s.down.map (fun o => { o with suppressed := false })).map (·.key) ↔ _
    rw [hun2]; exact ht.keys k

/-! ### the output -/

theorem filter_ne_erase {l : List Key} (h : l.Nodup) (k : Key) : l.filter (fun x => decide (x ≠ k)) = l.erase k := by
  rw [h.erase_eq_filter]
  congr 1
  funext x
  rw [Bool.eq_iff_iff]; simp

/-- the keys pressed by an output -/
structure PressedBy (trig : Trigger) (P : List Key) (E : List OutputDown) : Prop where
  keys : E.map (·.key) = P.reverse
  own : ∀ o ∈ E, o.trigger.keyOf = trig.keyOf ∧ o.temporarilyReleased = false ∧ o.pressedTwice = false

theorem applyOutput_typed {out : KeySequence} (trig : Trigger) (ctx : Int) (D : List OutputDown)
    (hD : ∀ o ∈ D, o.temporarilyReleased = false) :
    ∀ (P : List Key) (E : List OutputDown) (s : S), Typed P out → P.Nodup → (∀ k ∈ P, ProperKey k ∧ k ∉ D.map (·.key)) →
    (∀ e ∈ out, e.key ∉ D.map (·.key)) → PressedBy trig P E → s.down = D ++ E → s.reapplied = false →
    ∃ E', applyOutput s out trig ctx = { s with down := D ++ E', buf := s.buf ++ out } ∧ PressedBy trig (keysDown P out) E' := by
  induction out with
  | nil =>
    intro P E s _ _ _ _ hE hs _
    refine ⟨E, ?_, hE⟩
    unfold applyOutput
    rw [← hs]; simp
  | cons e out ih =>
    intro P E s hT hP hPD hO hE hs hr
    have hT' := hT
    simp only [Typed] at hT
    rcases hT with ⟨h1, h2, h3, h4⟩ | ⟨h1, h2, h3⟩
    · have hk : (e.key == Key.any) = false := beq_eq_false_iff_ne.2 h2.2.1
      have hto : (e.key != Key.timeout) = true := by simpa using h2.2.2
      have hnf : (s.down.find? (·.key == e.key)).isNone = true := by
        rw [Option.isNone_iff_eq_none, List.find?_eq_none]
        intro o ho
        simp only [beq_iff_eq]
        intro hoe
        rw [hs, List.mem_append] at ho
        rcases ho with ho | ho
        · exact hO e (by simp) (List.mem_map.2 ⟨o, ho, hoe⟩)
        · have : e.key ∈ P.reverse := by rw [← hE.keys]; exact List.mem_map.2 ⟨o, ho, hoe⟩
          exact h3 (by simpa using this)
      have hstep : updateOutput s e trig ctx = { s with down := D ++ (E ++ [{ key := e.key, trigger := trig, ctx := ctx }]), buf := s.buf ++ [e] } := by
        unfold updateOutput
        simp only [h1]
        unfold updateOutputDown
        rw [reapplyLoop_none _ _ _ _ (by
          intro o ho
          rw [hs, List.mem_append] at ho
          rcases ho with ho | ho
          · exact hD o ho
          · exact (hE.own o ho).2.1)]
        simp only [Bool.false_eq_true, if_false, hnf, hto, if_true]
        rw [hs]; simp
      have hnext := ih (e.key :: P) (E ++ [{ key := e.key, trigger := trig, ctx := ctx }])
        { s with down := D ++ (E ++ [{ key := e.key, trigger := trig, ctx := ctx }]), buf := s.buf ++ [e] } h4
        (List.nodup_cons.2 ⟨h3, hP⟩) (by
          intro k hk'
          simp only [List.mem_cons] at hk'
          rcases hk' with rfl | hk'
          · exact ⟨h2, hO e (by simp)⟩
          · exact hPD k hk') (fun x hx => hO x (by simp [hx])) ⟨by simp [hE.keys], by
            intro o ho
            simp only [List.mem_append, List.mem_singleton] at ho
            rcases ho with ho | rfl
            · exact hE.own o ho
            · exact ⟨rfl, rfl, rfl⟩⟩ rfl hr
      obtain ⟨E', h5, h6⟩ := hnext
      refine ⟨E', ?_, ?_⟩
      · rw [applyOutput, hk, h1]
        have e1 : (KeyState.Down == KeyState.OutputOnRelease) = false := rfl
        have e2 : (KeyState.Down == KeyState.Not) = false := rfl
        simp only [e1, e2, Bool.false_eq_true, if_false, Bool.false_and]
        rw [hstep, h5]; simp
      · simp only [keysDown, if_pos h1]; exact h6
    · obtain ⟨h2p, h2d⟩ := hPD _ h2
      have hk : (e.key == Key.any) = false := beq_eq_false_iff_ne.2 h2p.2.1
      have hmem : e.key ∈ E.map (·.key) := by rw [hE.keys]; simpa using h2
      have hDn : D.find? (fun o => o.key == e.key) = none := by
        rw [List.find?_eq_none]
        intro o ho
        simp only [beq_iff_eq]
        intro hoe
        exact h2d (List.mem_map.2 ⟨o, ho, hoe⟩)
      obtain ⟨o0, ho0, hoe0⟩ := List.mem_map.1 hmem
      obtain ⟨o, ho⟩ : ∃ o, E.find? (fun o => o.key == e.key) = some o := by
        cases hf : E.find? (fun o => o.key == e.key) with
        | some o => exact ⟨o, rfl⟩
        | none => rw [List.find?_eq_none] at hf; exact absurd (beq_iff_eq.2 hoe0) (hf o0 ho0)
      have hoE := List.mem_of_find?_eq_some ho
      obtain ⟨o1, o2, o3⟩ := hE.own o hoE
      have hfind : s.down.find? (fun o => o.key == e.key) = some o := by
        rw [hs, List.find?_append, hDn, ho]; rfl
      have hera : s.down.eraseP (fun o => o.key == e.key) = D ++ E.eraseP (fun o => o.key == e.key) := by
        rw [hs, List.eraseP_append_right]
        intro x hx hxe
        exact h2d (List.mem_map.2 ⟨x, hx, by simpa using hxe⟩)
      have hstep : updateOutput s e trig ctx = { s with down := D ++ E.eraseP (fun o => o.key == e.key), buf := s.buf ++ [e] } := by
        unfold updateOutput
        simp only [h1]
        unfold updateOutputUp
        rw [hfind]
        simp only [o3, Bool.false_and, Bool.false_eq_true, if_false, o1, beq_self_eq_true, if_true]
        rw [hera]
      have hEn : (E.map (·.key)).Nodup := by rw [hE.keys]; exact List.pairwise_reverse.2 (hP.imp fun a => a.symm)
      have hkeys : (E.eraseP (fun o => o.key == e.key)).map (·.key) = (P.filter (· ≠ e.key)).reverse := by
        have : ∀ l : List OutputDown, (l.map (·.key)).Nodup → (l.eraseP (fun o => o.key == e.key)).map (·.key) = (l.map (·.key)).erase e.key := by
          intro l hl
          induction l with
          | nil => rfl
          | cons a l ih =>
            have ih := ih (List.nodup_cons.1 hl).2
            rw [List.eraseP_cons, List.map_cons, List.erase_cons]
            by_cases hk : a.key = e.key
            · simp [hk]
            · have : (a.key == e.key) = false := beq_eq_false_iff_ne.2 hk
              rw [this]; simp [ih]
        rw [this E hEn, hE.keys]
        rw [← filter_ne_erase (by rw [← hE.keys]; exact hEn), List.filter_reverse]
      have hnext := ih (P.filter (· ≠ e.key)) (E.eraseP (fun o => o.key == e.key))
        { s with down := D ++ E.eraseP (fun o => o.key == e.key), buf := s.buf ++ [e] } h3 (hP.filter _)
        (fun k hk' => hPD k (List.mem_filter.1 hk').1) (fun x hx => hO x (by simp [hx]))
        ⟨hkeys, fun o ho => hE.own o (List.mem_of_mem_eraseP ho)⟩ rfl hr
      obtain ⟨E', h5, h6⟩ := hnext
      refine ⟨E', ?_, ?_⟩
      · rw [applyOutput, hk, h1]
        have e1 : (KeyState.Up == KeyState.OutputOnRelease) = false := rfl
        have e2 : (KeyState.Up == KeyState.Not) = false := rfl
        simp only [e1, e2, Bool.false_eq_true, if_false, Bool.false_and]
        rw [hstep, h5]; simp
      · simp only [keysDown, if_neg (show ¬ e.state = .Down by rw [h1]; simp)]; exact h6

end KM
