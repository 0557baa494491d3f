import Verif.Lemmas.WordRun
/-!
# The last key of a word, and releasing its keys
-/
namespace KM

theorem typingExpr_last (ks : List Key) (k : Key) : (Trigger.seq (typingExpr (ks ++ [k]))).keyOf = k := by
  have : typingExpr (ks ++ [k]) = typingExpr ks ++ [⟨k, .Down, 0⟩, ⟨k, .UpAsync, 0⟩] := by
    unfold typingExpr; rw [List.flatMap_append]; simp
  rw [this]
  show (((typingExpr ks ++ [(⟨k, .Down, 0⟩ : KeyEvent), ⟨k, .UpAsync, 0⟩]).reverse.find? isNonOptional).getD _).key = k
  rw [List.reverse_append]
  simp [isNonOptional]

/-- the key the output belongs to -/
theorem pattern_trigger {pat : Pattern} {k : Key} (hk : pat.keys.getLast? = some k) : (Trigger.seq pat.expr).keyOf = k := by
  obtain ⟨l, hl⟩ := List.getLast?_eq_some_iff.1 hk
  cases pat with
  | word ks =>
    have hl : ks = l ++ [k] := hl
    subst hl
    exact typingExpr_last l k
  | chord ks =>
    have hl : ks = l ++ [k] := hl
    subst hl
    have hups : ∀ u : List Key, (u.map (fun k => (⟨k, .UpAsync, 0⟩ : KeyEvent))).reverse.find? isNonOptional = none := by
      intro u
      rw [List.find?_eq_none]
      intro x hx
      rw [List.mem_reverse] at hx
      obtain ⟨y, _, rfl⟩ := List.mem_map.1 hx
      simp [isNonOptional]
    show (((chordExpr (l ++ [k])).reverse.find? isNonOptional).getD _).key = k
    unfold chordExpr
    rw [List.reverse_append, List.find?_append, hups]
    simp [isNonOptional]

theorem releaseTriggered_split {s : S} {D E : List OutputDown} {k : Key} (hs : s.down = D ++ E) (ht : s.timeout = none)
    (hk : k ≠ Key.ContextActive) (hD : ∀ o ∈ D, o.trigger.keyOf ≠ k)
    (hE : ∀ o ∈ E, o.trigger.keyOf = k ∧ o.temporarilyReleased = false) :
    releaseTriggered s k (-1) = { s with down := D, buf := s.buf ++ ((E.map (·.key)).reverse).map (fun k => ⟨k, .Up, 0⟩) } := by
  have hk' : (k == Key.ContextActive) = false := beq_eq_false_iff_ne.2 hk
  have h1 : D.filter (staysDown k (-1)) = D := by
    rw [List.filter_eq_self]
    intro o ho
    unfold staysDown
    rw [if_neg (by simpa using hD o ho)]
  have h2 : E.filter (staysDown k (-1)) = [] := by
    rw [List.filter_eq_nil_iff]
    intro o ho
    unfold staysDown
    rw [if_pos (by simpa using (hE o ho).1), hk']
    simp
  have h3 : D.filter (fun o => !staysDown k (-1) o) = [] := by
    rw [List.filter_eq_nil_iff]
    intro o ho
    unfold staysDown
    rw [if_neg (by simpa using hD o ho)]
    simp
  have h4 : E.filter (fun o => !staysDown k (-1) o) = E := by
    rw [List.filter_eq_self]
    intro o ho
    unfold staysDown
    rw [if_pos (by simpa using (hE o ho).1), hk']
    simp
  have h5 : E.reverse.filter (fun o => !o.temporarilyReleased) = E.reverse := by
    rw [List.filter_eq_self]
    intro o ho
    simp [(hE o (by simpa using ho)).2]
  unfold releaseTriggered
  simp only [hs, List.filter_append, h1, h2, h3, h4, List.append_nil, List.nil_append, h5, ht]
  have : E.reverse.map (fun o => (⟨o.key, .Up, 0⟩ : KeyEvent)) = ((E.map (·.key)).reverse).map (fun k => ⟨k, .Up, 0⟩) := by
    rw [← List.map_reverse, List.map_map]; rfl
  rw [this]

theorem releaseTriggered_none {s : S} {k : Key} (ht : s.timeout = none) (hk : k ≠ Key.ContextActive)
    (hD : ∀ o ∈ s.down, o.trigger.keyOf ≠ k) : releaseTriggered s k (-1) = s := by
  rw [releaseTriggered_split (D := s.down) (E := []) (by simp) ht hk hD (by simp)]
  simp

/-- The state while the keys of a word are released: the ones in `F` are still held, `ek` is what the replacement
left pressed until `k` is released. -/
structure ReleasingState (cs : List Context) (base F : KeySequence) (k : Key) (ek : List Key) (s : S) : Prop where
  steady : Steady cs s
  timeout : s.timeout = none
  onRel : s.onRelease = []
  buf : s.buf = []
  reapplied : s.reapplied = false
  might : s.might = false
  hist : s.history = []
  seq : s.seq = base ++ F
  hbase : ∀ e ∈ base, e.state = .DownMatched ∧ Unmentioned cs e.key
  nodup : (base.map (·.key)).Nodup
  word : ∀ e ∈ F, e.state = .DownMatched ∧ isDeviceKey e.key = true ∧ ¬ Unmentioned cs e.key
  nodupF : (F.map (·.key)).Nodup
  down : ∃ D E, s.down = D ++ E ∧ DownInv D ∧ (∀ x, x ∈ D.map (·.key) ↔ x ∈ base.map (·.key) ∧ isVirtualKey x = false) ∧
    (∀ o ∈ E, o.trigger.keyOf = k ∧ o.temporarilyReleased = false) ∧ E.map (·.key) = ek

/-- the last key of a word is pressed: its replacement is output -/
theorem word_step {cs c} (h : WordCfg cs c) {base p : KeySequence} {s : S} (ht : TypingState cs base p s)
    (hbu : ∀ e ∈ base, Unmentioned cs e.key) {pat : Pattern}
    {out : KeySequence} (hr : ReplacedBy cs s.active pat out) {ev : KeyEvent} (hT : Typed [] (p ++ [ev]))
    (hz : ∀ e ∈ p ++ [ev], e.state = .Up → e.value = 0)
    (hdone : pat.CompletedBy (p ++ [ev])) {last : Key} (hlast : pat.keys.getLast? = some last) (hdown : ev.state = .Down) (hO : Typed [] out) (hOb : ∀ e ∈ out, e.key ∉ base.map (·.key))
    {dev : Int} (hd : ValidDevice dev) :
    ∃ F, (∀ x, x ∈ F.map (·.key) ↔ x ∈ keysDown [] (p ++ [ev])) ∧
      ReleasingState cs base F last (keysDown [] out).reverse (update c s ev dev).1 ∧ (update c s ev dev).2 = out ∧
      (update c s ev dev).1.active = s.active := by
  obtain ⟨hpat, hkall⟩ := replacedBy_keys h hr
  have hkeyall : ∀ e ∈ p ++ [ev], e.key ∈ pat.keys := completed_keys hT hdone
  have hlastmem : last ∈ pat.keys := List.mem_of_mem_getLast? hlast
  have hkey := hkall ev.key (hkeyall ev (by simp))
  obtain ⟨hprop, hca, hvirt⟩ := deviceKey_proper hkey.1
  have hkb : ∀ e ∈ p ++ [ev], e.key ∉ base.map (·.key) := by
    intro x hx hm
    obtain ⟨e, h1, h2⟩ := List.mem_map.1 hm
    exact (hkall _ (hkeyall x hx)).2 (h2 ▸ hbu e h1)
  obtain ⟨x, b, lp, lr, hu⟩ := update_tail c dev ht.onRel ht.timeout (ev := ev) (Or.inr ⟨hdown, ht.notPressed hbu hT hdown hkey.2⟩)
  obtain ⟨s1, hs1⟩ : ∃ s1 : S, s1 = { s with exitPos := x, ub := b, lastPressed := lp, lastRepeat := lr } := ⟨_, rfl⟩
  rw [← hs1] at hu
  have hst1 : Steady cs s1 := by rw [hs1]; exact ⟨ht.steady.eq, ht.steady.sorted, ht.steady.lt⟩
  have hbm : beforeMatchUp { s1 with seq := s1.seq ++ [ev] } ev = { s1 with seq := s1.seq ++ [ev] } := by
    unfold beforeMatchUp
    rw [if_neg (by rw [hdown]; decide)]
  obtain ⟨s2, hs2⟩ : ∃ s2 : S, s2 = { s1 with seq := base ++ (p ++ [ev]), down := s1.down.map (fun o => { o with suppressed := false }) } := ⟨_, rfl⟩
  have hst2 : Steady cs s2 := by rw [hs2]; exact ⟨hst1.eq, hst1.sorted, hst1.lt⟩
  have hseq1 : s1.seq ++ [ev] = base ++ (p ++ [ev]) := by rw [hs1]; simp [ht.seq]
  have htail : pressTail c s1 ev dev = finishInput c (mainLoop c ev dev (ev.state == .Up && ev.key != Key.timeout) s2) ev := by
    rw [pressTail_words h hst1, hbm, hs2, hseq1]
  obtain ⟨a, b2, ref, ci, hmi⟩ := matchInput_word h hst2 (out := out) hpat (by rw [hs2, hs1]; exact hr) (fun e he => ⟨(ht.hbase e he).1, hbu e he⟩) (p := p ++ [ev])
    (by simp) hT hdone (fun e he => (deviceKey_proper (hkall _ (hkeyall e he)).1).1) hd (ev.state == .Up && ev.key != Key.timeout)
  -- the trigger
  obtain ⟨tr, htr⟩ : ∃ tr : Trigger, tr = .seq pat.expr := ⟨_, rfl⟩
  have hkey_tr : tr.keyOf = last := by rw [htr]; exact pattern_trigger hlast
  have hlprop := (deviceKey_proper (hkall last hlastmem).1).1
  obtain ⟨s3, hs3⟩ : ∃ s3 : S, s3 = { s2 with anyM := a, ub := b2 } := ⟨_, rfl⟩
  have h3t : s3.timeout = none := by rw [hs3, hs2, hs1]; exact ht.timeout
  have h3q : s3.seq = base ++ (p ++ [ev]) := by rw [hs3, hs2]
  have hcause : causeOf s3 ev pat.expr = tr := by
    unfold causeOf
    simp only [← htr, hkey_tr, h3t]
    rw [if_neg]
    simp only [Bool.or_eq_true, beq_iff_eq, not_or]
    exact ⟨hlprop.2.1, hprop.2.2⟩
  have hpressed : isPhysicallyPressed s3 last = true := by
    unfold isPhysicallyPressed
    rw [h3q, rfindKey_append]
    rcases (rfindKey_keysDown hT last).1 (completed_last hdown hdone hlast) with ⟨e, h1, h2⟩ | ⟨_, h1⟩
    · rw [h1]
      simp [h2]
    · simp at h1
  have hchoose : chooseTrigger s3 ev out pat.expr = tr := by
    unfold chooseTrigger
    simp only [hcause, hkey_tr, hpressed]
    simp
  -- the output
  obtain ⟨hun1, hun2⟩ := unsuppress_inv ht.down
  obtain ⟨D, hDdef⟩ : ∃ D, D = s.down.map (fun o => { o with suppressed := false }) := ⟨_, rfl⟩
  rw [← hDdef] at hun1 hun2
  have h3d : s3.down = D := by rw [hs3, hs2, hs1, hDdef]
  have hDk : ∀ x, x ∈ D.map (·.key) ↔ x ∈ base.map (·.key) ∧ isVirtualKey x = false := by
    intro x; rw [hun2]; exact ht.keys x
  obtain ⟨E, hap, hE⟩ := applyOutput_typed (out := out) tr ci D (fun o ho => (hun1.own o ho).2.1) [] [] s3 hO List.nodup_nil (by simp)
    (fun e he hm => hOb e he ((hDk _).1 hm).1) ⟨rfl, by simp⟩ (by rw [h3d]; simp) (by rw [hs3, hs2, hs1]; exact ht.reapplied)
  -- the sequence
  obtain ⟨F, hF⟩ : ∃ F, F = finishGo (p ++ [ev]).length (p ++ [ev]) := ⟨_, rfl⟩
  obtain ⟨f1, f2, f3⟩ := finishGo_typed hT hz (fun e he => (deviceKey_proper (hkall _ (hkeyall e he)).1).1.2.2)
  rw [← hF] at f1 f2 f3
  have hfin : finishGo (base ++ (p ++ [ev])).length (base ++ (p ++ [ev])) = base ++ F := by
    rw [List.length_append, finishGo_skip _ _ _ (fun e he => (ht.hbase e he).1), hF]
    intro e he hm
    exact hkb _ hm (List.mem_map.2 ⟨e, he, rfl⟩)
  have hround : round c ev dev (ev.state == .Up && ev.key != Key.timeout) s2 =
      ({ s3 with down := D ++ E, buf := s3.buf ++ out, seq := base ++ F, might := false }, true) := by
    unfold round
    have hq : s2.seq = base ++ (p ++ [ev]) := by rw [hs2]
    have hmi' : matchInput c s2 true s2.seq dev (ev.state == .Up && ev.key != Key.timeout) = (s3, .matched ref out pat.expr ci) := by
      rw [hs3, ← hmi, hq]
    rw [hmi', hvirt]
    have hre : retryStart c s3 (.matched ref out pat.expr ci) dev (ev.state == .Up && ev.key != Key.timeout) =
      (s3, .matched ref out pat.expr ci, s3.seq.length, false) := rfl
    have htm : timeoutMatched s3 ev (.matched ref out pat.expr ci) false = (s3, .matched ref out pat.expr ci) := by
      unfold timeoutMatched; simp only [h3t]
    have hnt : notTimeoutFailed s3 (.matched ref out pat.expr ci) = s3 := by
      unfold notTimeoutFailed; simp only [h3t]
    have hne : (MIR.matched ref out pat.expr ci == MIR.might) = false := by
      rw [beq_eq_false_iff_ne]; simp
    simp only [Bool.false_and, Bool.false_eq_true, if_false, hne, hre, htm, hnt]
    unfold applyResult
    simp only [hchoose, hap, Bool.false_eq_true, if_false]
    unfold finishSequence
    simp only [h3q, hfin]
  have hallDM : ∀ e ∈ base ++ F, e.state = .DownMatched := by
    intro e he
    rw [List.mem_append] at he
    rcases he with he | he
    · exact (ht.hbase e he).1
    · exact (f1 e he).1
  have hloop := mainLoop_twice (s := s2) (by rw [hs2]; show hasNonOptional (base ++ (p ++ [ev])) = true; rw [← List.append_assoc]; exact hasNonOptional_last (Or.inl hdown)) hround
    (hasNonOptional_matched hallDM)
  obtain ⟨s4, hs4⟩ : ∃ s4 : S, s4 = { s3 with down := D ++ E, buf := s3.buf ++ out, seq := base ++ F, might := false } := ⟨_, rfl⟩
  rw [← hs4] at hloop
  obtain ⟨hist, b3, hh, hfi⟩ := finishInput_words h (s := s4)
    (by rw [hs4, hs3]; exact ⟨hst2.eq, hst2.sorted, hst2.lt⟩) ev (by
      intro e he
      have he' : e ∈ base ++ F := by rw [hs4] at he; exact he
      rw [hallDM e he']; simp) (by rw [hs4]; exact h3t) (by intro hup; rw [hdown] at hup; simp at hup)
  refine ⟨F, ?_, ?_⟩
  · intro x
    rw [f3]; simp
  rw [hu, htail, hloop, hfi, hs4, hs3, hs2, hs1]
  refine ⟨⟨⟨ht.steady.eq, ht.steady.sorted, ht.steady.lt⟩, ht.timeout, ht.onRel, rfl, rfl, rfl, ?_, rfl, fun e he => ⟨(ht.hbase e he).1, hbu e he⟩, ht.nodup, ?_, f2,
    ⟨D, E, rfl, hun1, hDk, ?_, hE.keys⟩⟩, ?_, rfl⟩
  · have hh' : ∀ e ∈ hist, e ∈ s.history := by
      intro e he
      have := hh e he
      rw [hs4, hs3, hs2, hs1] at this
      exact this
    rw [ht.hist] at hh'
    exact List.eq_nil_iff_forall_not_mem.2 (fun e he => absurd (hh' e he) (by simp))
  · intro e he
    obtain ⟨g1, g2⟩ := f1 e he
    obtain ⟨e', h1, h2, _⟩ := mem_presses g2
    exact ⟨g1, hkall _ (h2 ▸ hkeyall e' h1)⟩
  · intro o ho
    have := hE.own o ho
    exact ⟨this.1.trans hkey_tr, this.2.1⟩
  · show s.buf ++ out = out
    rw [ht.buf]; rfl

theorem eraseP_right {l F : KeySequence} {k : Key} (h : k ∉ l.map (·.key)) :
    (l ++ F).eraseP (·.key == k) = l ++ F.eraseP (·.key == k) := by
  rw [List.eraseP_append_right]
  intro x hx hxe
  exact h (List.mem_map.2 ⟨x, hx, by simpa using hxe⟩)

/-- a key of a word is released -/
theorem wordRelease_step {cs c} (h : WordCfg cs c) {base F : KeySequence} {k : Key} {ek : List Key} {s : S}
    (ht : ReleasingState cs base F k ek s) {j : Key} (hj : j ∈ F.map (·.key)) (dev : Int) :
    ReleasingState cs base (F.eraseP (·.key == j)) k (if j = k then [] else ek) (update c s ⟨j, .Up, 0⟩ dev).1 ∧
      (update c s ⟨j, .Up, 0⟩ dev).2 = (if j = k then ek.reverse.map (fun k => ⟨k, .Up, 0⟩) else []) ∧
      (update c s ⟨j, .Up, 0⟩ dev).1.active = s.active := by
  obtain ⟨e0, he0, hek0⟩ := List.mem_map.1 hj
  have hkey := (ht.word e0 he0).2
  rw [hek0] at hkey
  obtain ⟨hprop, hca, hvirt⟩ := deviceKey_proper hkey.1
  have hkb : j ∉ base.map (·.key) := by
    intro hm
    obtain ⟨e, h1, h2⟩ := List.mem_map.1 hm
    exact hkey.2 (h2 ▸ (ht.hbase e h1).2)
  obtain ⟨ev, hev⟩ : ∃ ev : KeyEvent, ev = ⟨j, .Up, 0⟩ := ⟨_, rfl⟩
  rw [← hev]
  have hup : ev.state = .Up := by rw [hev]
  have hevk : ev.key = j := by rw [hev]
  obtain ⟨x, b, lp, lr, hu⟩ := update_tail c dev ht.onRel ht.timeout (ev := ev) (Or.inl hup)
  obtain ⟨s1, hs1⟩ : ∃ s1 : S, s1 = { s with exitPos := x, ub := b, lastPressed := lp, lastRepeat := lr } := ⟨_, rfl⟩
  rw [← hs1] at hu
  have hst1 : Steady cs s1 := by rw [hs1]; exact ⟨ht.steady.eq, ht.steady.sorted, ht.steady.lt⟩
  obtain ⟨F', hF'⟩ : ∃ F', F' = F.eraseP (·.key == j) := ⟨_, rfl⟩
  have hF'mem : ∀ e ∈ F', e ∈ F := by rw [hF']; exact fun e he => List.mem_of_mem_eraseP he
  have hF'k : F'.map (·.key) = (F.map (·.key)).erase j := by rw [hF']; exact eraseP_key_keys ht.nodupF j
  have hjF' : j ∉ F'.map (·.key) := by rw [hF'k]; exact fun hm => (ht.nodupF.mem_erase_iff.1 hm).1 rfl
  have hallF : ∀ e ∈ base ++ F, e.state = .DownMatched := by
    intro e he
    rw [List.mem_append] at he
    rcases he with he | he
    · exact (ht.hbase e he).1
    · exact (ht.word e he).1
  have hallDM : ∀ e ∈ base ++ F', e.state = .DownMatched := by
    intro e he
    rw [List.mem_append] at he
    rcases he with he | he
    · exact (ht.hbase e he).1
    · exact (ht.word e (hF'mem e he)).1
  have hjall : ∀ e ∈ base ++ F', e.key ≠ j := by
    intro e he hej
    rw [List.mem_append] at he
    rcases he with he | he
    · exact hkb (List.mem_map.2 ⟨e, he, hej⟩)
    · exact hjF' (List.mem_map.2 ⟨e, he, hej⟩)
  have hbm : beforeMatchUp { s1 with seq := s1.seq ++ [ev] } ev = { s1 with seq := (base ++ F') ++ [ev] } := by
    have hq1 : s1.seq = base ++ F := by rw [hs1]; exact ht.seq
    rw [beforeMatchUp_release (l := base ++ F) hup (by rw [← hq1]) hallF (by rw [hs1]; exact ht.timeout) (by rw [hs1]; exact ht.might),
      hevk, eraseP_right hkb, hF']
  obtain ⟨s2, hs2⟩ : ∃ s2 : S, s2 = { s1 with seq := (base ++ F') ++ [ev], down := s1.down.map (fun o => { o with suppressed := false }) } := ⟨_, rfl⟩
  have hst2 : Steady cs s2 := by rw [hs2]; exact ⟨hst1.eq, hst1.sorted, hst1.lt⟩
  have htail : pressTail c s1 ev dev = finishInput c (mainLoop c ev dev (ev.state == .Up && ev.key != Key.timeout) s2) ev := by
    rw [pressTail_words h hst1, hbm, hs2]
  obtain ⟨a, b2, hmi⟩ := matchInput_released h s2 (D := base ++ F') hprop (by
    intro e he
    refine ⟨hallDM e he, ?_, hjall e he⟩
    rw [List.mem_append] at he
    rcases he with he | he
    · exact (deviceKey_proper (ht.hbase e he).2.1).1
    · exact (deviceKey_proper (ht.word e (hF'mem e he)).2.1).1) dev (ev.state == .Up && ev.key != Key.timeout)
  rw [← hev] at hmi
  obtain ⟨s3, hs3⟩ : ∃ s3 : S, s3 = { s2 with anyM := a, ub := b2 } := ⟨_, rfl⟩
  have h3t : s3.timeout = none := by rw [hs3, hs2, hs1]; exact ht.timeout
  have h3m : s3.might = false := by rw [hs3, hs2, hs1]; exact ht.might
  have h3q : s3.seq = (base ++ F') ++ [ev] := by rw [hs3, hs2]
  obtain ⟨D0, E0, hd0, hdi, hdk, heo, hek⟩ := ht.down
  obtain ⟨hun1, hun2⟩ := unsuppress_inv hdi
  obtain ⟨D, hDdef⟩ : ∃ D, D = D0.map (fun o => { o with suppressed := false }) := ⟨_, rfl⟩
  obtain ⟨E, hEdef⟩ : ∃ E, E = E0.map (fun o => { o with suppressed := false }) := ⟨_, rfl⟩
  rw [← hDdef] at hun1 hun2
  have hEk : E.map (·.key) = ek := by rw [← hek, hEdef]; exact unsup_keys _
  have hEo : ∀ o ∈ E, o.trigger.keyOf = k ∧ o.temporarilyReleased = false := by
    intro o ho
    rw [hEdef] at ho
    obtain ⟨o', h1, h2⟩ := List.mem_map.1 ho
    rw [← h2]; exact heo o' h1
  have hDk : ∀ x, x ∈ D.map (·.key) ↔ x ∈ base.map (·.key) ∧ isVirtualKey x = false := by
    intro x; rw [hun2]; exact hdk x
  have hDj : ∀ o ∈ D, o.trigger.keyOf ≠ j := by
    intro o ho hoj
    have : o.key = j := by
      have := (hun1.own o ho).1
      rw [this] at hoj
      exact hoj
    exact hkb (((hDk j).1 (List.mem_map.2 ⟨o, ho, this⟩)).1)
  have h3d : s3.down = D ++ E := by rw [hs3, hs2, hs1, hDdef, hEdef]; simp [hd0]
  obtain ⟨E', hE'⟩ : ∃ E', E' = if j = k then [] else E := ⟨_, rfl⟩
  obtain ⟨o', ho'⟩ : ∃ o', o' = if j = k then ek.reverse.map (fun k => (⟨k, .Up, 0⟩ : KeyEvent)) else [] := ⟨_, rfl⟩
  have hrel : releaseTriggered s3 j (-1) = { s3 with down := D ++ E', buf := s3.buf ++ o' } := by
    rw [hE', ho']
    by_cases hjk : j = k
    · rw [if_pos hjk, if_pos hjk, releaseTriggered_split h3d h3t hca hDj (fun o ho => ⟨(hEo o ho).1.trans hjk.symm, (hEo o ho).2⟩), hEk]
      simp
    · rw [if_neg hjk, if_neg hjk, releaseTriggered_none h3t hca]
      · rw [← h3d]; simp
      · intro o ho
        rw [h3d, List.mem_append] at ho
        rcases ho with ho | ho
        · exact hDj o ho
        · rw [(hEo o ho).1]; exact fun h => hjk h.symm
  have hE'o : ∀ o ∈ E', o.trigger.keyOf = k ∧ o.temporarilyReleased = false ∧ o.trigger.keyOf ≠ j := by
    intro o ho
    rw [hE'] at ho
    split at ho
    · simp at ho
    · next hjk => exact ⟨(hEo o ho).1, (hEo o ho).2, by rw [(hEo o ho).1]; exact fun h => hjk h.symm⟩
  have hround : round c ev dev (ev.state == .Up && ev.key != Key.timeout) s2 =
      ({ s3 with down := D ++ E', buf := s3.buf ++ o', seq := base ++ F' }, true) := by
    unfold round
    have hq : s2.seq = (base ++ F') ++ [ev] := by rw [hs2]
    have hmi' : matchInput c s2 true s2.seq dev (ev.state == .Up && ev.key != Key.timeout) = (s3, .noMatch) := by
      rw [hs3, ← hmi, hq]
    have hvirt' : isVirtualKey ev.key = false := by rw [hevk]; exact hvirt
    rw [hmi', hvirt']
    have hre : retryStart c s3 .noMatch dev (ev.state == .Up && ev.key != Key.timeout) = (s3, .noMatch, s3.seq.length, false) := by
      unfold retryStart
      simp only [h3m, Bool.false_eq_true, if_false]
    have htm : timeoutMatched s3 ev .noMatch false = (s3, .noMatch) := by
      unfold timeoutMatched; simp only [h3t]
    have hnt : notTimeoutFailed s3 .noMatch = s3 := by
      unfold notTimeoutFailed; simp only [h3t]
    have hne : (MIR.noMatch == MIR.might) = false := rfl
    have hfw : forwardFromSequence s3 = { s3 with down := D ++ E', buf := s3.buf ++ o', seq := base ++ F' } := by
      unfold forwardFromSequence
      rw [h3q, forwardGo_skip _ _ _ _ hallDM (by
        intro e he hm
        rw [List.mem_singleton, hev] at hm
        exact hjall e he (congrArg KeyEvent.key hm))]
      unfold forwardGo
      rw [hup]
      have e1 : (KeyState.Up == KeyState.Down || KeyState.Up == KeyState.DownMatched) = false := rfl
      rw [e1, if_neg (by simp), hevk, hrel]
      simp
    simp only [Bool.false_and, Bool.false_eq_true, if_false, hne, hre, htm, hnt]
    unfold applyResult
    simp only [hfw, h3m, Bool.false_and, Bool.false_eq_true, if_false]
  have hloop := mainLoop_twice (s := s2) (by rw [hs2]; exact hasNonOptional_last (Or.inr hup)) hround (hasNonOptional_matched hallDM)
  obtain ⟨s4, hs4⟩ : ∃ s4 : S, s4 = { s3 with down := D ++ E', buf := s3.buf ++ o', seq := base ++ F' } := ⟨_, rfl⟩
  rw [← hs4] at hloop
  obtain ⟨hist, b3, hh, hfi⟩ := finishInput_words h (s := s4)
    (by rw [hs4, hs3]; exact ⟨hst2.eq, hst2.sorted, hst2.lt⟩) ev (by
      intro e he
      have he' : e ∈ base ++ F' := by rw [hs4] at he; exact he
      rw [hallDM e he']; simp) (by rw [hs4]; exact h3t) (by
      intro _
      rw [hevk]
      apply releaseTriggered_none (by rw [hs4]; exact h3t) hca
      intro o ho
      have ho2 : o ∈ D ++ E' := by rw [hs4] at ho; exact ho
      rw [List.mem_append] at ho2
      rcases ho2 with ho2 | ho2
      · exact hDj o ho2
      · exact (hE'o o ho2).2.2)
  rw [hu, htail, hloop, hfi, hs4, hs3, hs2, hs1, ← hF']
  refine ⟨⟨⟨ht.steady.eq, ht.steady.sorted, ht.steady.lt⟩, ht.timeout, ht.onRel, rfl, rfl, ht.might, ?_, rfl, ht.hbase, ht.nodup, ?_, ?_,
    ⟨D, E', rfl, hun1, hDk, fun o ho => ⟨(hE'o o ho).1, (hE'o o ho).2.1⟩, ?_⟩⟩, ?_, rfl⟩
  · have hh' : ∀ e ∈ hist, e ∈ s.history := by
      intro e he
      have := hh e he
      rw [hs4, hs3, hs2, hs1] at this
      exact this
    rw [ht.hist] at hh'
    exact List.eq_nil_iff_forall_not_mem.2 (fun e he => absurd (hh' e he) (by simp))
  · exact fun e he => ht.word e (hF'mem e he)
  · rw [hF'k]; exact ht.nodupF.erase _
  · rw [hE']; split <;> simp_all
  · show s.buf ++ o' = _
    rw [ht.buf, ho']; rfl

end KM
