import Verif.Lemmas.AbandonMatch
import Verif.Lemmas.Active
import Verif.Lemmas.Frozen
import Verif.Model.ParseConfig
import Verif.Model.StringTyper
/-!
# C79: what is typed is replaced
-/
namespace KM

/-- pressing keys one after the other -/
private theorem typed_order {l P : List Key} : l.Nodup → (∀ x ∈ l, ProperKey x) → (∀ x ∈ l, x ∉ P) →
    Typed P (l.map (fun k => ⟨k, .Down, 0⟩)) ∧ ∀ x, x ∈ keysDown P (l.map (fun k => ⟨k, .Down, 0⟩)) ↔ x ∈ l ∨ x ∈ P := by
  induction l generalizing P with
  | nil => intro _ _ _; exact ⟨trivial, by simp [keysDown]⟩
  | cons x l ih =>
    intro h1 h2 h3
    rw [List.nodup_cons] at h1
    obtain ⟨i1, i2⟩ := ih (P := x :: P) h1.2 (fun y hy => h2 y (by simp [hy])) (by
      intro y hy hm
      rcases List.mem_cons.1 hm with hm | hm
      · exact h1.1 (hm ▸ hy)
      · exact h3 y (by simp [hy]) hm)
    refine ⟨Or.inl ⟨rfl, h2 x (by simp), h3 x (by simp), i1⟩, ?_⟩
    intro y
    simp only [List.map_cons, keysDown, if_true]
    rw [i2]
    simp only [List.mem_cons]
    constructor
    · rintro (h | h | h)
      · exact Or.inl (Or.inr h)
      · exact Or.inl (Or.inl h)
      · exact Or.inr h
    · rintro ((h | h) | h)
      · exact Or.inr (Or.inl h)
      · exact Or.inl h
      · exact Or.inr (Or.inr h)

private theorem keysDown_word {held : List Key} {j : Key} {l : KeySequence} :
    keysDown held (⟨j, .Up, 0⟩ :: l) = keysDown (held.filter (· ≠ j)) l := by
  simp [keysDown]

/-- the events while a word or chord is not completed -/
private theorem typing_run {cs c} (h : WordCfg cs c) {base : KeySequence} (hbu : ∀ e ∈ base, Unmentioned cs e.key) {pat : Pattern}
    {out : KeySequence} (rest : List StageOp) :
    ∀ (evs : List (KeyEvent × Int)) (p : KeySequence) (s : S), TypingState cs base p s → ReplacedBy cs s.active pat out →
      Typed [] (p ++ evs.map Prod.fst) → pat.Begun (p ++ evs.map Prod.fst) → (∀ q ∈ evs, ValidDevice q.2) →
      ∃ s', TypingState cs base (p ++ evs.map Prod.fst) s' ∧ s'.active = s.active ∧ (evs = [] → s' = s) ∧
        stageOutputs (c, s) (evs.map typeOn ++ rest) = evs.map (fun _ => []) ++ stageOutputs (c, s') rest := by
  intro evs
  induction evs with
  | nil =>
    intro p s hs _ _ _ _
    exact ⟨s, by simpa using hs, rfl, fun _ => rfl, by simp⟩
  | cons q evs ih =>
    obtain ⟨ev, dev⟩ := q
    intro p s hs hr hT hks hd
    have hT' : Typed [] ((p ++ [ev]) ++ evs.map Prod.fst) := by simpa using hT
    have hks' : pat.Begun ((p ++ [ev]) ++ evs.map Prod.fst) := by simpa using hks
    obtain ⟨g1, g2, g3⟩ := typing_step h hs hbu hr (ev := ev) (typed_append.1 hT').1 (begun_prefix hks') (hd (ev, dev) (by simp))
    obtain ⟨s', k1, k2, _, k3⟩ := ih (p ++ [ev]) (update c s ev dev).1 g1 (by rw [g3]; exact hr) hT' hks'
      (fun q hq => hd q (by simp [hq]))
    refine ⟨s', by simpa using k1, k2.trans g3, by simp, ?_⟩
    show (update c s ev dev).2 :: stageOutputs (c, (update c s ev dev).1) (evs.map typeOn ++ rest) = _
    rw [g2, k3]; rfl

/-- the releases after the last press of a word -/
private theorem release_run {cs c} (h : WordCfg cs c) {base : KeySequence} {k : Key} {ek0 : List Key} (rest : List StageOp) :
    ∀ (rels : List (KeyEvent × Int)) (F : KeySequence) (ek : List Key) (H : List Key) (s : S), ReleasingState cs base F k ek s →
      (∀ x, x ∈ F.map (·.key) ↔ x ∈ H) → Typed H (rels.map Prod.fst) → (∀ q ∈ rels, q.1.state = .Up ∧ q.1.value = 0) →
      ek = (if k ∈ H then ek0 else []) →
      ∃ s' F', ReleasingState cs base F' k (if k ∈ keysDown H (rels.map Prod.fst) then ek0 else []) s' ∧
        (∀ x, x ∈ F'.map (·.key) ↔ x ∈ keysDown H (rels.map Prod.fst)) ∧ s'.active = s.active ∧
        stageOutputs (c, s) (rels.map typeOn ++ rest) =
          rels.map (fun p => if p.1.key = k then ek0.reverse.map (fun k => ⟨k, .Up, 0⟩) else []) ++ stageOutputs (c, s') rest := by
  intro rels
  induction rels with
  | nil =>
    intro F ek H s hs hF _ _ hek
    exact ⟨s, F, by simpa [keysDown, ← hek] using hs, by simpa [keysDown] using hF, rfl, by simp⟩
  | cons q rels ih =>
    obtain ⟨ev, dev⟩ := q
    intro F ek H s hs hF hT hup hek
    obtain ⟨hu, hv⟩ := hup (ev, dev) (by simp)
    obtain ⟨j, hj⟩ : ∃ j, j = ev.key := ⟨_, rfl⟩
    have hev : ev = ⟨j, .Up, 0⟩ := by
      obtain ⟨a, b, d⟩ := ev
      simp only at hu hv hj
      subst hu hv hj; rfl
    subst hev
    simp only [List.map_cons, Typed, reduceCtorEq, false_and, true_and, false_or] at hT
    obtain ⟨hjH, hT⟩ := hT
    have hjF : j ∈ F.map (·.key) := (hF j).2 hjH
    obtain ⟨g1, g2, g3⟩ := wordRelease_step h hs hjF dev
    obtain ⟨s', F', k1, k2, k3, k4⟩ := ih (F.eraseP (·.key == j)) (if j = k then [] else ek) (H.filter (· ≠ j)) _ g1 (by
        intro x
        rw [eraseP_key_keys hs.nodupF, hs.nodupF.mem_erase_iff, List.mem_filter, hF]
        simp [and_comm]) hT (fun q hq => hup q (by simp [hq])) (by
        by_cases hjk : j = k
        · subst hjk; simp
        · have hkj : k ≠ j := fun hh => hjk hh.symm
          rw [if_neg hjk, hek]; simp [List.mem_filter, hkj])
    refine ⟨s', F', ?_, ?_, k3.trans g3, ?_⟩
    · rw [List.map_cons, keysDown_word]; exact k1
    · rw [List.map_cons, keysDown_word]; exact k2
    · show (update c s ⟨j, .Up, 0⟩ dev).2 :: stageOutputs (c, (update c s ⟨j, .Up, 0⟩ dev).1) (rels.map typeOn ++ rest) = _
      rw [g2, k4]
      simp only [List.map_cons, List.cons_append]
      congr 1
      by_cases hjk : j = k
      · have : ek = ek0 := by rw [hek, if_pos (hjk ▸ hjH)]
        rw [if_pos hjk, if_pos hjk, this]
      · rw [if_neg hjk, if_neg hjk]

/-- between two words -/
private structure Idle (cs : List Context) (held : List Key) (current : List Nat) (s : S) : Prop where
  state : ∃ base, TypingState cs base [] s ∧ ∀ x, x ∈ base.map (·.key) ↔ x ∈ held
  might : s.might = false
  current : s.active = current

private theorem unmentioned_base {cs : List Context} {base : KeySequence} {held : List Key} (hb : ∀ x, x ∈ base.map (·.key) ↔ x ∈ held)
    (hh : ∀ x ∈ held, Unmentioned cs x) : ∀ e ∈ base, Unmentioned cs e.key :=
  fun e he => hh _ ((hb _).1 (List.mem_map.2 ⟨e, he, rfl⟩))

private theorem Idle.word {cs held current c s} (h : WordCfg cs c) (hi : Idle cs held current s) (hh : ∀ x ∈ held, Unmentioned cs x) {pat : Pattern}
    {replacement : KeySequence} {evs : List (KeyEvent × Int)} {e : KeyEvent} {dev : Int} {rels : List (KeyEvent × Int)} (rest : List StageOp)
    (hr : ReplacedBy cs current pat replacement) (hO : Typed [] replacement) (hOb : ∀ x ∈ replacement, x.key ∉ held)
    (hw : TypesPattern pat (evs.map Prod.fst ++ [e]) (rels.map Prod.fst)) (hd : ∀ p ∈ evs ++ (e, dev) :: rels, ValidDevice p.2) :
    ∃ s', Idle cs held current s' ∧
      stageOutputs (c, s) (evs.map typeOn ++ typeOn (e, dev) :: (rels.map typeOn ++ rest)) =
        evs.map (fun _ => []) ++ replacement ::
          (rels.map (fun p => if some p.1.key = pat.keys.getLast? then (keysDown [] replacement).map (fun k => ⟨k, .Up, 0⟩) else []) ++
            stageOutputs (c, s') rest) := by
  obtain ⟨w1, w2, w3, w4, w5, w6⟩ := hw
  have he : e.state = .Down := by simpa using w3
  obtain ⟨last, hlast⟩ : ∃ k, pat.keys.getLast? = some k := by
    cases hh : pat.keys.getLast? with
    | none => exact absurd (List.getLast?_eq_none_iff.1 hh) (replacedBy_keys h hr).1.1
    | some k => exact ⟨k, rfl⟩
  have hT := typed_append.1 w1
  obtain ⟨base, t0, hb⟩ := hi.state
  have hbu := unmentioned_base hb hh
  obtain ⟨s1, a1, a2, _, a3⟩ := typing_run h hbu (typeOn (e, dev) :: (rels.map typeOn ++ rest)) evs [] s t0 (by rw [hi.current]; exact hr)
    (by simpa using (typed_append.1 hT.1).1) (by simpa using completed_begun (l := []) he w2 hT.1) (fun q hq => hd q (by simp [hq]))
  rw [List.nil_append] at a1
  obtain ⟨F, b1, b2, b3, b4⟩ := word_step h a1 hbu (by rw [a2, hi.current]; exact hr) hT.1
    (fun x hx => w5 x (by rw [List.mem_append]; exact Or.inl hx)) w2 hlast he hO (fun x hx hm => hOb x hx ((hb _).1 hm)) (hd (e, dev) (by simp))
  have hekd : last ∈ keysDown [] (evs.map Prod.fst ++ [e]) := completed_last he w2 hlast
  obtain ⟨s', F', d1, d2, d3, d4⟩ := release_run h (ek0 := (keysDown [] replacement).reverse) rest rels F _ _ _ b2 b1 hT.2
    (fun q hq => ⟨w4 q.1 (List.mem_map_of_mem hq), w5 q.1 (by rw [List.mem_append]; exact Or.inr (List.mem_map_of_mem hq)) (w4 q.1 (List.mem_map_of_mem hq))⟩)
    (by rw [if_pos hekd])
  rw [← keysDown_append, w6] at d1 d2
  have hF' : F' = [] := by
    cases F' with
    | nil => rfl
    | cons f F' => exact absurd ((d2 f.key).1 (by simp)) (by simp)
  subst hF'
  simp only [List.not_mem_nil, if_false] at d1
  obtain ⟨D, E, hdn, hdi, hdk, _, hE⟩ := d1.down
  have hE' : E = [] := by simpa using hE
  rw [hE', List.append_nil] at hdn
  refine ⟨s', ⟨⟨base, ⟨d1.steady, d1.timeout, d1.onRel, d1.buf, d1.reapplied, d1.hist, d1.seq, t0.hbase, d1.nodup, ?_, ?_, fun hh => absurd rfl hh⟩, hb⟩,
    d1.might, ?_⟩, ?_⟩
  · rw [hdn]; exact hdi
  · intro k; rw [hdn]; exact hdk k
  · rw [d3, b4, a2, hi.current]
  · rw [a3]
    congr 1
    show (update c s1 e dev).2 :: stageOutputs (c, (update c s1 e dev).1) (rels.map typeOn ++ rest) = _
    rw [b3, d4, List.reverse_reverse, hlast]
    simp only [Option.some.injEq]

private theorem evaluate_words {cs c} (h : WordCfg cs c) (rx : Regex) (ds : List DeviceDesc) : c.evaluateDeviceFilters rx ds = c := by
  unfold Cfg.evaluateDeviceFilters
  have : c.contexts.map (fun ctx => { ctx with matchingDeviceBits :=
          if ctx.hasDeviceFilter then deviceBits rx ctx ds 0 1 else allDeviceBits }) = c.contexts := by
    rw [h.ctxs, List.map_map]
    apply List.map_congr_left
    intro ctx hctx
    have hw := (h.words ctx hctx).noDevices
    have h1 : ctx.sorted.hasDeviceFilter = false := hw.1
    have h2 : ctx.sorted.matchingDeviceBits = allDeviceBits := hw.2
    show ({ ctx.sorted with matchingDeviceBits := if ctx.sorted.hasDeviceFilter then _ else allDeviceBits } : Context) = ctx.sorted
    rw [h1, if_neg (by simp), ← h2]
  rw [this]

private theorem session {cs c} (h : WordCfg cs c) {held : List Key} {current : List Nat} {ops : List StageOp} {out : List KeySequence}
    (ht : TypingSession cs held current ops out) : ∀ s, Idle cs held current s → stageOutputs (c, s) ops = out := by
  have hc := h.harmless
  induction ht with
  | done => intro s _; rfl
  | @contexts held current l ops out hl1 hl2 _ ih =>
    intro s hi
    obtain ⟨base, t0, hb⟩ := hi.state
    have hcomp : computeActive c.contexts s.seq l [] = some l := by
      rw [computeActive_words h _ _ _ hl1 hl2 (by simp)]; rfl
    have hs : ∃ r b, setActiveClientContexts c s l = ({ s with activeClient := l, active := r, ub := b }, []) := by
      unfold setActiveClientContexts
      simp only []
      generalize hq : (if (decide (l.Pairwise (· ≤ ·)) && l.all (fun i => decide (i < c.contexts.length))) = true
        then s else { s with ub := true }) = s1
      have hs1 : ∃ b, s1 = { s with ub := b } := by
        rw [← hq]; split
        · exact ⟨s.ub, rfl⟩
        · exact ⟨true, rfl⟩
      obtain ⟨b, hs1⟩ := hs1
      subst hs1
      obtain ⟨r, b', hr, he⟩ := updateActiveContexts_harmless hc { s with ub := b, activeClient := l } (fun _ _ => trivial) (fun _ _ _ _ => trivial)
      rw [he]
      refine ⟨r, b', ?_⟩
      unfold cancelInactiveOnRelease
      simp only [t0.onRel, t0.buf, List.filter_nil]
    obtain ⟨r, b, hs⟩ := hs
    have hr : r = l := by
      have := setActiveClientContexts_active c s l hcomp
      rw [hs] at this; exact this
    show (setActiveClientContexts c s l).2 :: stageOutputs (c, (setActiveClientContexts c s l).1) ops = _
    rw [hs, hr]
    congr 1
    apply ih
    exact ⟨⟨base, ⟨⟨rfl, hl1, hl2⟩, t0.timeout, t0.onRel, t0.buf, t0.reapplied, t0.hist, t0.seq, t0.hbase, t0.nodup, t0.down, t0.keys,
      fun hh => absurd rfl hh⟩, hb⟩, hi.might, rfl⟩
  | @devices held current rx ds ops out _ ih =>
    intro s hi
    show [] :: stageOutputs (c.evaluateDeviceFilters rx ds, s) ops = _
    rw [evaluate_words h, ih s hi]
  | @press held current k v dev ops out hk hkh _ ih =>
    intro s hi
    obtain ⟨base, t0, hb⟩ := hi.state
    obtain ⟨base', h1, h2, h3, h4, h5⟩ := abandon_step h t0 (fun _ => hi.might) (ev := ⟨k, .Down, v⟩) (dev := dev)
      (Or.inl ⟨rfl, (deviceKey_proper hk.1).1, by simp, trivial⟩) (by simp) (by simpa using hk.1)
      (by simpa using fun x hx hxk => hkh ((hb k).1 (List.mem_map.2 ⟨x, hx, hxk⟩))) (by
        intro F' q' g1 g2 _
        obtain ⟨r, rfl, _⟩ := suffix_concat g1 g2
        exact nothing_unmentioned h (y := ⟨k, .Down, v⟩) (Or.inl rfl) hk (by simp)) (fun hp => absurd rfl hp)
    show (update c s ⟨k, .Down, v⟩ dev).2 :: stageOutputs (c, (update c s ⟨k, .Down, v⟩ dev).1) ops = _
    rw [h4, ih _ ⟨⟨base', h1, ?_⟩, h2, h5.trans hi.current⟩]
    · rfl
    · intro x
      rw [h3, hb]
      simp [keysDown, or_comm]
  | @release held current k dev ops out hkh _ ih =>
    intro s hi
    obtain ⟨base, t0, hb⟩ := hi.state
    obtain ⟨base', h1, h2, h3, h4, h5⟩ := looseRelease_step h t0 hi.might ((hb k).2 hkh) dev
    show (update c s ⟨k, .Up, 0⟩ dev).2 :: stageOutputs (c, (update c s ⟨k, .Up, 0⟩ dev).1) ops = _
    rw [h4, ih _ ⟨⟨base', h1, ?_⟩, h2, h5.trans hi.current⟩]
    intro x
    rw [h3, hb, List.mem_filter]
    simp
  | @typed held current pat replacement evs e dev rels ops out hh hr hO hOb hw hd _ ih =>
    intro s hi
    obtain ⟨s', g1, g2⟩ := hi.word h hh ops hr hO hOb hw hd
    rw [g2, ih s' g1]
  | @abandoned held current pat replacement evs k v dev ops out hh hr hT hbegun hev hmiss hk hkh _ ih =>
    intro s hi
    obtain ⟨base, t0, hb⟩ := hi.state
    have hbu := unmentioned_base hb hh
    obtain ⟨hpat, hkeys⟩ := replacedBy_keys h hr
    have hek : ∀ e ∈ evs.map Prod.fst, isDeviceKey e.key = true ∧ ¬ Unmentioned cs e.key := fun e he => hkeys _ (begun_keys hT hbegun e he)
    have hkn : k ∉ (evs.map Prod.fst).map (·.key) := by
      intro hm
      obtain ⟨e, h1, h2⟩ := List.mem_map.1 hm
      exact (hek e h1).2 (h2 ▸ hk)
    have hkd : k ∉ keysDown [] (evs.map Prod.fst) := by
      intro hm
      rcases keysDown_mem hm with hm | hm
      · simp at hm
      · obtain ⟨e, h1, h2, _⟩ := mem_presses hm
        exact hkn (List.mem_map.2 ⟨e, h1, h2⟩)
    obtain ⟨s1, a1, a2, a3, a4⟩ := typing_run h hbu (typeOn (⟨k, .Down, v⟩, dev) :: ops) evs [] s t0 (by rw [hi.current]; exact hr)
      (by simpa using hT) (by simpa using hbegun) (fun q hq => (hev q hq).1)
    rw [List.nil_append] at a1
    have hall : ∀ e ∈ evs.map Prod.fst ++ [(⟨k, .Down, v⟩ : KeyEvent)], isDeviceKey e.key = true ∧ e.key ∉ base.map (·.key) := by
      intro e he
      rcases List.mem_append.1 he with he | he
      · refine ⟨(hek e he).1, fun hm => ?_⟩
        obtain ⟨x, hx, hxe⟩ := List.mem_map.1 hm
        exact (hek e he).2 (hxe ▸ hbu x hx)
      · rw [List.mem_singleton] at he
        subst he
        exact ⟨hk.1, fun hm => hkh ((hb k).1 hm)⟩
    obtain ⟨base', h1, h2, h3, h4, h5⟩ := abandon_step h a1 (by
        intro hp
        rw [a3 (by simpa using hp)]
        exact hi.might) (ev := ⟨k, .Down, v⟩) (dev := dev)
      (typed_append.2 ⟨hT, Or.inl ⟨rfl, (deviceKey_proper hk.1).1, hkd, trivial⟩⟩) (by
        intro e he
        rcases List.mem_append.1 he with he | he
        · obtain ⟨q, h1, h2⟩ := List.mem_map.1 he
          exact h2 ▸ (hev q h1).2
        · rw [List.mem_singleton] at he
          subst he
          simp) (fun e he => (hall e he).1) (fun e he => (hall e he).2) (by
        intro F' q' g1 g2 _
        obtain ⟨r, rfl, _⟩ := suffix_concat g1 g2
        exact nothing_unmentioned h (y := ⟨k, .Down, v⟩) (Or.inl rfl) hk (by simp)) (by
        intro _
        refine ⟨fun x => x ∈ base.map (·.key) ∨ x ∈ (evs.map Prod.fst ++ [(⟨k, .Down, v⟩ : KeyEvent)]).map (·.key), (· ∈ s1.active), ?_, ?_,
          fun i hi => hi, fun x hx => hx⟩
        · intro x hx
          rcases hx with hx | hx
          · obtain ⟨e, g1, g2⟩ := List.mem_map.1 hx
            exact g2 ▸ (deviceKey_proper (hbu e g1).1).1
          · obtain ⟨e, g1, g2⟩ := List.mem_map.1 hx
            exact g2 ▸ (deviceKey_proper (hall e g1).1).1
        · refine words_stuck h ?_
          intro i hi' ctx hctx m hm p hp hmp
          rw [a2, hi.current] at hi'
          obtain ⟨e, g1, g2⟩ := hmiss i hi' ctx hctx m hm
          refine ⟨e.key, (mem_pattern (hmp ▸ g1)).1, ?_⟩
          have hnu : ¬ Unmentioned cs e.key := fun hu => hu.2 ctx (List.mem_of_getElem? hctx) m hm e g1 rfl
          rintro (hx | hx)
          · obtain ⟨x, g3, g4⟩ := List.mem_map.1 hx
            exact hnu (g4 ▸ hbu x g3)
          · rw [List.map_append, List.mem_append] at hx
            rcases hx with hx | hx
            · obtain ⟨x, g3, g4⟩ := List.mem_map.1 hx
              rcases typed_keys hT x g3 with g5 | g5
              · simp at g5
              · exact g2 (g4 ▸ g5)
            · have : e.key = k := by simpa using hx
              exact hnu (this ▸ hk))
    rw [a4]
    congr 1
    show (update c s1 ⟨k, .Down, v⟩ dev).2 :: stageOutputs (c, (update c s1 ⟨k, .Down, v⟩ dev).1) ops = _
    rw [h4, ih _ ⟨⟨base', h1, ?_⟩, h2, h5.trans (a2.trans hi.current)⟩]
    intro x
    rw [h3, hb, keysDown_append]
    simp only [keysDown, if_true, List.mem_cons, List.mem_append]
    constructor
    · rintro (g | g | g)
      · exact Or.inr (Or.inr g)
      · exact Or.inl g
      · exact Or.inr (Or.inl g)
    · rintro (g | g | g)
      · exact Or.inr (Or.inl g)
      · exact Or.inr (Or.inr g)
      · exact Or.inl g
  | @released held current ks replacement evs k dev ops out hh hr hbegun hev hk hneeds _ ih =>
    intro s hi
    obtain ⟨base, t0, hb⟩ := hi.state
    have hbu := unmentioned_base hb hh
    obtain ⟨hpat, hkeys⟩ := replacedBy_keys h hr
    have hbegun' := hbegun
    obtain ⟨order, o1, o2, o3, o4⟩ := hbegun'
    have hpo : presses (evs.map Prod.fst) = order := by rw [o4]; exact presses_downs order
    rw [hpo] at hk hneeds
    have hok : ∀ x ∈ order, isDeviceKey x = true ∧ ¬ Unmentioned cs x := fun x hx => hkeys x (o2 x hx)
    obtain ⟨d1, d2⟩ := typed_order (P := []) o1 (fun x hx => (deviceKey_proper (hok x hx).1).1) (by simp)
    rw [← o4] at d1 d2
    have hek : ∀ e ∈ evs.map Prod.fst, isDeviceKey e.key = true ∧ ¬ Unmentioned cs e.key := by
      intro e he
      rw [o4] at he
      obtain ⟨x, hx, rfl⟩ := List.mem_map.1 he
      exact hok x hx
    obtain ⟨s1, a1, a2, a3, a4⟩ := typing_run h hbu (typeOn (⟨k, .Up, 0⟩, dev) :: ops) evs [] s t0 (by rw [hi.current]; exact hr)
      (by simpa using d1) (by simpa using hbegun) hev
    rw [List.nil_append] at a1
    have hall : ∀ e ∈ evs.map Prod.fst ++ [(⟨k, .Up, 0⟩ : KeyEvent)], isDeviceKey e.key = true ∧ ¬ Unmentioned cs e.key ∧ e.key ∈ order := by
      intro e he
      rcases List.mem_append.1 he with he | he
      · refine ⟨(hek e he).1, (hek e he).2, ?_⟩
        rw [o4] at he
        obtain ⟨x, hx, rfl⟩ := List.mem_map.1 he
        exact hx
      · rw [List.mem_singleton] at he
        subst he
        exact ⟨(hok k hk).1, (hok k hk).2, hk⟩
    obtain ⟨base', h1, h2, h3, h4, h5⟩ := abandon_step h a1 (by
        intro hp
        rw [a3 (by simpa using hp)]
        exact hi.might) (ev := ⟨k, .Up, 0⟩) (dev := dev)
      (typed_append.2 ⟨d1, Or.inr ⟨rfl, (d2 k).2 (Or.inl hk), trivial⟩⟩) (by
        intro e he
        rcases List.mem_append.1 he with he | he
        · rw [o4] at he
          obtain ⟨x, hx, rfl⟩ := List.mem_map.1 he
          simp
        · rw [List.mem_singleton] at he
          subst he
          simp) (fun e he => (hall e he).1) (by
        intro e he hm
        obtain ⟨x, hx, hxe⟩ := List.mem_map.1 hm
        exact (hall e he).2.1 (hxe ▸ hbu x hx)) (by
        intro F' q' g1 g2 g3
        rw [a2, hi.current]
        rw [o4] at g1
        refine nothing_released h hk (fun x hx => (hok x hx).1) hneeds g1 g2 ?_
        intro e he
        obtain ⟨g4, g5, g6, _⟩ := g3 e he
        refine ⟨g4, g5, ?_⟩
        rcases g6 with g6 | g6
        · obtain ⟨x, hx, hxe⟩ := List.mem_map.1 g6
          exact Or.inl (hxe ▸ hbu x hx)
        · obtain ⟨x, hx, hxe⟩ := List.mem_map.1 g6
          exact Or.inr (hxe ▸ (hall x hx).2.2)) (by
        intro _
        refine ⟨fun x => x ∈ base.map (·.key) ∨ x ∈ (evs.map Prod.fst ++ [(⟨k, .Up, 0⟩ : KeyEvent)]).map (·.key), (· ∈ s1.active), ?_, ?_,
          fun i hi => hi, fun x hx => hx⟩
        · intro x hx
          rcases hx with hx | hx
          · obtain ⟨e, g1, g2⟩ := List.mem_map.1 hx
            exact g2 ▸ (deviceKey_proper (hbu e g1).1).1
          · obtain ⟨e, g1, g2⟩ := List.mem_map.1 hx
            exact g2 ▸ (deviceKey_proper (hall e g1).1).1
        · refine words_stuck h ?_
          intro i hi' ctx hctx m hm p hp hmp
          rw [a2, hi.current] at hi'
          have hz : ∃ z ∈ p.keys, z ∉ order := by
            have := hneeds i hi' ctx hctx m hm p hp hmp
            cases p with
            | word l =>
              obtain ⟨k1, l, hl⟩ := List.exists_cons_of_ne_nil hp.1
              have hl : _ = k1 :: l := hl
              subst hl
              exact ⟨k1, by simp [Pattern.keys], this k1 (by simp)⟩
            | chord l => exact this
          obtain ⟨z, g1, g2⟩ := hz
          refine ⟨z, g1, ?_⟩
          rintro (hx | hx)
          · obtain ⟨x, g3, g4⟩ := List.mem_map.1 hx
            exact (hbu x g3).2 ctx (List.mem_of_getElem? hctx) m hm ⟨z, .Down, 0⟩ (by rw [hmp]; exact pattern_mem g1) g4.symm
          · obtain ⟨x, g3, g4⟩ := List.mem_map.1 hx
            exact g2 (g4 ▸ (hall x g3).2.2))
    rw [a4]
    congr 1
    show (update c s1 ⟨k, .Up, 0⟩ dev).2 :: stageOutputs (c, (update c s1 ⟨k, .Up, 0⟩ dev).1) ops = _
    rw [h4, ih _ ⟨⟨base', h1, ?_⟩, h2, h5.trans (a2.trans hi.current)⟩]
    intro x
    rw [h3, hb, List.mem_append]
    exact or_comm

/-- **C79** What is typed is replaced: for a configuration all mappings of which are for keys typed one after the other or pressed
together, the output is exactly the one of the specification. While a word or chord is typed nothing is output, also when the keys of a
word overlap, are typed on several devices and while other keys are held. When its last key is pressed, its replacement is output; which
does not depend on the order in which the keys of a chord are pressed, nor on when the keys are released. Keys which the replacement
leaves pressed are released together with the key which is the last one of the input in the configuration. Keys which no mapping
mentions are output as they are pressed and released. What is begun and not completed is output as it was typed. -/
theorem C79_words_are_replaced (contexts : List Context) (hw : ∀ ctx ∈ contexts, ctx.OnlyWords) (hu : CommandsUnique contexts)
    (ops : List StageOp) (out : List KeySequence) (ht : TypingSession contexts [] [] ops out) :
    stageOutputs (stageInit contexts) ops = out := by
  have hcfg : WordCfg contexts (Cfg.make contexts) := by
    refine ⟨rfl, ?_, hw, hu⟩
    show ctxsHaveNoMightMatch (contexts.map _) = false
    unfold ctxsHaveNoMightMatch
    rw [List.any_eq_false]
    intro ctx hc
    obtain ⟨c0, h1, h2⟩ := List.mem_map.1 hc
    subst h2
    rw [Bool.not_eq_true, List.any_eq_false]
    intro m hm
    obtain ⟨pat, hpat, hi⟩ := (hw c0 h1).inputs m hm
    rw [hi]
    cases pat with
    | word ks =>
      obtain ⟨k, l, rfl⟩ : ∃ k l, ks = k :: l := List.exists_cons_of_ne_nil hpat.1
      simp [isNoMightMatch, typingExpr, Pattern.expr]
    | chord ks =>
      obtain ⟨k, l, rfl⟩ : ∃ k l, ks = k :: l := List.exists_cons_of_ne_nil hpat.1
      simp [isNoMightMatch, chordExpr, Pattern.expr]
  exact session hcfg ht {} ⟨⟨[], ⟨⟨rfl, List.Pairwise.nil, fun _ h => (by cases h)⟩, rfl, rfl, rfl, rfl, rfl, rfl, fun _ h => (by cases h), List.nodup_nil,
    ⟨fun _ h => (by cases h), List.nodup_nil⟩, fun k => by simp, fun hh => absurd rfl hh⟩, fun x => by simp⟩, rfl, rfl⟩

/-- **C79** In particular, keys which are mapped when pressed together are replaced in whatever order they are pressed. Nothing is output
before the last of them is pressed. -/
theorem C79_any_order (contexts : List Context) (hw : ∀ ctx ∈ contexts, ctx.OnlyWords) (hu : CommandsUnique contexts)
    (current : List Nat) (hc1 : current.Pairwise (· < ·)) (hc2 : ∀ i ∈ current, i < contexts.length) (ks : List Key) (out : KeySequence)
    (hr : ReplacedBy contexts current (.chord ks) out) (hO : Typed [] out) (first : List Key) (k : Key) (horder : (first ++ [k]).Perm ks)
    (dev : Int) (hd : ValidDevice dev) :
    stageOutputs (stageInit contexts) (.contexts current :: (first ++ [k]).map (fun k => .input ⟨k, .Down, 0⟩ dev)) =
      [] :: (first.map (fun _ => []) ++ [out]) := by
  have hkeys : ks.Nodup ∧ ∀ k ∈ ks, isDeviceKey k = true := by
    obtain ⟨pre, i, post, ctx, before, m, after, rfl, hctx, hin, hm, _⟩ := hr
    obtain ⟨q, h2, h3⟩ := (hw ctx (List.mem_of_getElem? hctx)).inputs m (by rw [hin]; simp)
    have : q = .chord ks := pattern_inj h2 (h3.symm.trans hm)
    subst this
    exact ⟨h2.2.2 ks rfl, h2.2.1⟩
  have hnd : (first ++ [k]).Nodup := horder.nodup_iff.2 hkeys.1
  have hpr : ∀ x ∈ first ++ [k], ProperKey x := fun x hx => (deviceKey_proper (hkeys.2 x (horder.mem_iff.1 hx))).1
  -- pressing the keys, and releasing them in the same order
  have hdown := fun (l P : List Key) h1 h2 h3 => typed_order (l := l) (P := P) h1 h2 h3
  have hup : ∀ (l P : List Key), l.Nodup → (∀ x, x ∈ P ↔ x ∈ l) →
      Typed P (l.map (fun k => ⟨k, .Up, 0⟩)) ∧ keysDown P (l.map (fun k => ⟨k, .Up, 0⟩)) = [] := by
    intro l
    induction l with
    | nil =>
      intro P _ h
      refine ⟨trivial, ?_⟩
      cases P with
      | nil => rfl
      | cons y P => exact absurd ((h y).1 (by simp)) (by simp)
    | cons x l ih =>
      intro P h1 h2
      rw [List.nodup_cons] at h1
      obtain ⟨i1, i2⟩ := ih (P.filter (· ≠ x)) h1.2 (by
        intro y
        rw [List.mem_filter, h2, List.mem_cons]
        simp only [ne_eq, decide_eq_true_eq]
        constructor
        · rintro ⟨h | h, hne⟩
          · exact absurd h hne
          · exact h
        · intro h
          refine ⟨Or.inr h, ?_⟩
          rintro rfl; exact h1.1 h)
      refine ⟨Or.inr ⟨rfl, (h2 x).2 (by simp), i1⟩, ?_⟩
      simp only [List.map_cons, keysDown, reduceCtorEq, if_false]
      exact i2
  obtain ⟨d1, d2⟩ := hdown (first ++ [k]) [] hnd hpr (by simp)
  obtain ⟨u1, u2⟩ := hup (first ++ [k]) (keysDown [] ((first ++ [k]).map (fun k => ⟨k, .Down, 0⟩))) hnd (by
    intro x; rw [d2]; simp)
  have hrels : ((first ++ [k]).map (fun k => ((⟨k, .Up, 0⟩ : KeyEvent), dev))).map Prod.fst = (first ++ [k]).map (fun k => ⟨k, .Up, 0⟩) := by
    rw [List.map_map]; rfl
  have hses := C79_words_are_replaced contexts hw hu _ _ (.contexts (held := []) (current := []) hc1 hc2
    (.typed (p := .chord ks) (replacement := out) (evs := first.map (fun k => (⟨k, .Down, 0⟩, dev))) (e := ⟨k, .Down, 0⟩) (dev := dev)
      (rels := (first ++ [k]).map (fun k => (⟨k, .Up, 0⟩, dev))) (by simp) hr hO (by simp) ⟨?_, ?_, by simp, ?_, ?_, ?_⟩ ?_ .done))
  · have happ : ∀ (st : Cfg × S) (a b : List StageOp) , (stageOutputs st (a ++ b)).take a.length = stageOutputs st a := by
      intro st a
      induction a generalizing st with
      | nil => intro b; simp [stageOutputs]
      | cons x a ih => intro b; simp only [List.cons_append, stageOutputs, List.length_cons, List.take_succ_cons]; rw [ih]
    have h1 := congrArg (List.take ((StageOp.contexts current :: (first ++ [k]).map (fun k => StageOp.input ⟨k, .Down, 0⟩ dev)).length)) hses
    have h2 : StageOp.contexts current :: ((first.map (fun k => ((⟨k, .Down, 0⟩ : KeyEvent), dev))).map typeOn ++ typeOn (⟨k, .Down, 0⟩, dev) ::
        (((first ++ [k]).map (fun k => ((⟨k, .Up, 0⟩ : KeyEvent), dev))).map typeOn ++ [])) =
        (StageOp.contexts current :: (first ++ [k]).map (fun k => StageOp.input ⟨k, .Down, 0⟩ dev)) ++
          (first ++ [k]).map (fun k => StageOp.input ⟨k, .Up, 0⟩ dev) := by
      simp [typeOn]
      rfl
    rw [h2, happ] at h1
    have htake : ∀ T : List KeySequence, List.take (first.length + 1 + 1)
        ([] :: ((first.map (fun k => ((⟨k, .Down, 0⟩ : KeyEvent), dev))).map (fun _ => []) ++ out :: T)) = [] :: (first.map (fun _ => []) ++ [out]) := by
      intro T
      rw [List.take_succ_cons, List.map_map, List.take_append]
      rw [List.take_of_length_le (by rw [List.length_map]; exact Nat.le_succ _), List.length_map, Nat.add_sub_cancel_left]
      rfl
    have hlen : (StageOp.contexts current :: (first ++ [k]).map (fun k => StageOp.input ⟨k, .Down, 0⟩ dev)).length = first.length + 1 + 1 := by
      simp
    rw [h1, hlen]
    exact htake _
  · have : (first.map (fun k => ((⟨k, .Down, 0⟩ : KeyEvent), dev))).map Prod.fst ++ [⟨k, .Down, 0⟩] = (first ++ [k]).map (fun k => ⟨k, .Down, 0⟩) := by
      simp
    rw [this, typed_append, hrels]
    exact ⟨d1, u1⟩
  · exact ⟨first ++ [k], horder, by simp⟩
  · rw [hrels]
    intro e he
    obtain ⟨x, _, rfl⟩ := List.mem_map.1 he
    rfl
  · rw [hrels]
    intro e he hs
    simp only [List.mem_append, List.mem_map, List.mem_singleton] at he
    rcases he with (⟨q, ⟨x, _, rfl⟩, rfl⟩ | rfl) | ⟨x, _, rfl⟩ <;> rfl
  · have : (first.map (fun k => ((⟨k, .Down, 0⟩ : KeyEvent), dev))).map Prod.fst ++ [⟨k, .Down, 0⟩] = (first ++ [k]).map (fun k => ⟨k, .Down, 0⟩) := by
      simp
    rw [this, keysDown_append, hrels]
    exact u2
  · intro q hq
    simp at hq
    rcases hq with ⟨_, _, rfl⟩ | rfl | ⟨_, _, rfl⟩ | rfl <;> exact hd

/-- **C79** The keys of a chord can still be used on their own: when one of them is pressed and released, with no mapping which consists
of this key alone or begins by typing it, then it is input unchanged, the press with the release. -/
theorem C79_tapped (contexts : List Context) (hw : ∀ ctx ∈ contexts, ctx.OnlyWords) (hu : CommandsUnique contexts)
    (current : List Nat) (hc1 : current.Pairwise (· < ·)) (hc2 : ∀ i ∈ current, i < contexts.length)
    (ks : List Key) (out : KeySequence) (hr : ReplacedBy contexts current (.chord ks) out) (k : Key) (hk : k ∈ ks)
    (hother : ∀ i ∈ current, ∀ ctx, contexts[i]? = some ctx → ∀ m ∈ ctx.inputs, ∀ p : Pattern, p.Proper → m.input = p.expr → p.NeedsOther [k])
    (dev dev' : Int) (hd : ValidDevice dev) :
    stageOutputs (stageInit contexts) [.contexts current, .input ⟨k, .Down, 0⟩ dev, .input ⟨k, .Up, 0⟩ dev'] =
      [[], [], [⟨k, .Down, 0⟩, ⟨k, .Up, 0⟩]] := by
  have hlen : ∃ x ∈ ks, x ∉ [k] := by
    obtain ⟨c1, i, c2, ctx, _, m, _, hcur, hi, hin, hmp, _⟩ := hr
    have hm : m ∈ ctx.inputs := by rw [hin]; simp
    obtain ⟨p, hp, hpe⟩ := (hw ctx (List.mem_of_getElem? hi)).1 m hm
    have heq := pattern_inj hp (hpe.symm.trans hmp)
    exact hother i (by rw [hcur]; simp) ctx hi m hm (.chord ks) (heq ▸ hp) hmp
  exact C79_words_are_replaced contexts hw hu _ _ (.contexts (held := []) (current := []) hc1 hc2
    (.released (ks := ks) (replacement := out) (evs := [(⟨k, .Down, 0⟩, dev)]) (k := k) (dev := dev') (by simp) hr
      ⟨[k], by simp, by simpa using hk, hlen, rfl⟩ (by simpa using hd) (by simp [presses]) (by simpa [presses] using hother) .done))

/-- `A >> Z` and `B T W >> D E` -/
private def abbreviations : Context :=
  { inputs := [⟨typingExpr [Key.KeyA], 0⟩, ⟨typingExpr [Key.KeyB, Key.KeyT, Key.KeyW], 1⟩]
    outputs := [[⟨Key.KeyZ, .Down, 0⟩], [⟨Key.KeyD, .Down, 0⟩, ⟨Key.KeyD, .Up, 0⟩, ⟨Key.KeyE, .Down, 0⟩]] }

/-- While `X` is held, `B T W` is typed with overlapping keys, then `A`. -/
example : stageOutputs (stageInit [abbreviations]) [.contexts [0],
      .input ⟨Key.KeyX, .Down, 0⟩ 0,
      .input ⟨Key.KeyB, .Down, 0⟩ 0, .input ⟨Key.KeyT, .Down, 0⟩ 1, .input ⟨Key.KeyB, .Up, 0⟩ 0, .input ⟨Key.KeyW, .Down, 0⟩ 0,
      .input ⟨Key.KeyT, .Up, 0⟩ 1, .input ⟨Key.KeyW, .Up, 0⟩ 0,
      .input ⟨Key.KeyX, .Up, 0⟩ 0] =
    [[], [⟨Key.KeyX, .Down, 0⟩], [], [], [], [⟨Key.KeyD, .Down, 0⟩, ⟨Key.KeyD, .Up, 0⟩, ⟨Key.KeyE, .Down, 0⟩], [], [⟨Key.KeyE, .Up, 0⟩],
      [⟨Key.KeyX, .Up, 0⟩]] := by
  refine C79_words_are_replaced _ ?_ ?_ _ _ ?_
  · intro ctx hc
    rw [List.mem_singleton] at hc
    subst hc
    refine ⟨?_, ⟨rfl, rfl⟩, ⟨rfl, rfl⟩, rfl⟩
    intro m hm
    simp only [abbreviations, List.mem_cons, List.not_mem_nil, or_false] at hm
    rcases hm with rfl | rfl
    · exact ⟨.word [Key.KeyA], ⟨by simp [Pattern.keys], by decide, by simp⟩, rfl⟩
    · exact ⟨.word [Key.KeyB, Key.KeyT, Key.KeyW], ⟨by simp [Pattern.keys], by decide, by simp⟩, rfl⟩
  · intro ctx hc
    rw [List.mem_singleton] at hc
    subst hc
    intro a ha; cases ha
  · refine .contexts (by simp) (by simp) (.press ⟨by decide, by decide⟩ (by simp) ?_)
    refine .typed (evs := [(⟨Key.KeyB, .Down, 0⟩, 0), (⟨Key.KeyT, .Down, 0⟩, 1), (⟨Key.KeyB, .Up, 0⟩, 0)]) (e := ⟨Key.KeyW, .Down, 0⟩)
      (rels := [(⟨Key.KeyT, .Up, 0⟩, 1), (⟨Key.KeyW, .Up, 0⟩, 0)]) (p := .word [Key.KeyB, Key.KeyT, Key.KeyW])
      (ops := [.input ⟨Key.KeyX, .Up, 0⟩ 0]) (out := [[⟨Key.KeyX, .Up, 0⟩]])
      (replacement := [⟨Key.KeyD, .Down, 0⟩, ⟨Key.KeyD, .Up, 0⟩, ⟨Key.KeyE, .Down, 0⟩])
      (fun x hx => (by rw [List.mem_singleton] at hx; subst hx; exact ⟨by decide, by decide⟩)) ?_ ?_ (by decide) ?_ ?_ (.release (by simp) .done)
    · refine ⟨[], 0, [], abbreviations, [⟨typingExpr [Key.KeyA], 0⟩], ⟨typingExpr [Key.KeyB, Key.KeyT, Key.KeyW], 1⟩, [], rfl, rfl, rfl, rfl, by decide,
        by simp, ?_⟩
      intro m hm q hq hqe
      rw [List.mem_singleton] at hm
      subst hm
      rw [pattern_inj (q := .word [Key.KeyA]) hq hqe.symm]
      show ¬ _ ∧ ¬ _
      decide
    · simp [Typed, ProperKey]; decide
    · exact ⟨by simp [Typed, ProperKey]; decide, (by decide : presses _ = _), rfl, by decide, by decide, by decide⟩
    · unfold ValidDevice; decide

/-- `B T W >> D`, `(J K L) >> Z` and `(A K) >> E` -/
private def chords : Context :=
  { inputs := [⟨typingExpr [Key.KeyB, Key.KeyT, Key.KeyW], 0⟩, ⟨chordExpr [Key.KeyJ, Key.KeyK, Key.KeyL], 1⟩, ⟨chordExpr [Key.KeyA, Key.KeyK], 2⟩]
    outputs := [[⟨Key.KeyD, .Down, 0⟩], [⟨Key.KeyZ, .Down, 0⟩], [⟨Key.KeyE, .Down, 0⟩]] }

example : (parseConfig { typer := genericTyper, validRegex := fun _ => true, files := fun _ => none }
      "B T W >> D\n(J K L) >> Z\n(A K) >> E".toList).map (fun c => c.contexts.map (fun x => (x.inputs, x.outputs))) =
    some [(chords.inputs, chords.outputs)] := by decide +kernel

private theorem chords_only : ∀ ctx ∈ [chords], ctx.OnlyWords := by
  intro ctx hc
  rw [List.mem_singleton] at hc
  subst hc
  refine ⟨?_, ⟨rfl, rfl⟩, ⟨rfl, rfl⟩, rfl⟩
  intro m hm
  simp only [chords, List.mem_cons, List.not_mem_nil, or_false] at hm
  rcases hm with rfl | rfl | rfl
  · exact ⟨.word [Key.KeyB, Key.KeyT, Key.KeyW], ⟨by simp [Pattern.keys], by decide, by simp⟩, rfl⟩
  · exact ⟨.chord [Key.KeyJ, Key.KeyK, Key.KeyL], ⟨by simp [Pattern.keys], by decide, by simp; decide⟩, rfl⟩
  · exact ⟨.chord [Key.KeyA, Key.KeyK], ⟨by simp [Pattern.keys], by decide, by simp; decide⟩, rfl⟩

/-- the keys of the second chord: the mappings in front of it do not get in the way -/
private theorem chords_replaced : ReplacedBy [chords] [0] (.chord [Key.KeyA, Key.KeyK]) [⟨Key.KeyE, .Down, 0⟩] := by
  refine ⟨[], 0, [], chords, chords.inputs.take 2, ⟨chordExpr [Key.KeyA, Key.KeyK], 2⟩, [], rfl, rfl, rfl, rfl, by decide, by simp, ?_⟩
  intro m hm q hq hqe
  simp only [chords, List.take_succ_cons, List.take_zero, List.mem_cons, List.not_mem_nil, or_false] at hm
  rcases hm with rfl | rfl
  · rw [pattern_inj (q := .word [Key.KeyB, Key.KeyT, Key.KeyW]) hq hqe.symm]
    exact ⟨⟨Key.KeyB, by decide, by decide⟩, Key.KeyA, by decide, by decide⟩
  · rw [pattern_inj (q := .chord [Key.KeyJ, Key.KeyK, Key.KeyL]) hq hqe.symm]
    exact ⟨⟨Key.KeyJ, by decide, by decide⟩, Key.KeyA, by decide, by decide⟩

/-- `K` and then `A`: what the chord leaves pressed is released when `K` is, which is the last key in the configuration. -/
example : stageOutputs (stageInit [chords]) [.contexts [0],
      .input ⟨Key.KeyX, .Down, 0⟩ 0,
      .input ⟨Key.KeyK, .Down, 0⟩ 0, .input ⟨Key.KeyA, .Down, 0⟩ 1, .input ⟨Key.KeyA, .Up, 0⟩ 1, .input ⟨Key.KeyK, .Up, 0⟩ 0,
      .input ⟨Key.KeyX, .Up, 0⟩ 0] =
    [[], [⟨Key.KeyX, .Down, 0⟩], [], [⟨Key.KeyE, .Down, 0⟩], [], [⟨Key.KeyE, .Up, 0⟩], [⟨Key.KeyX, .Up, 0⟩]] := by
  refine C79_words_are_replaced _ chords_only ?_ _ _ ?_
  · intro ctx hc
    rw [List.mem_singleton] at hc
    subst hc
    intro a ha; cases ha
  · refine .contexts (by simp) (by simp) (.press ⟨by decide, by decide⟩ (by simp) ?_)
    refine .typed (evs := [(⟨Key.KeyK, .Down, 0⟩, 0)]) (e := ⟨Key.KeyA, .Down, 0⟩)
      (rels := [(⟨Key.KeyA, .Up, 0⟩, 1), (⟨Key.KeyK, .Up, 0⟩, 0)]) (p := .chord [Key.KeyA, Key.KeyK])
      (ops := [.input ⟨Key.KeyX, .Up, 0⟩ 0]) (out := [[⟨Key.KeyX, .Up, 0⟩]])
      (replacement := [⟨Key.KeyE, .Down, 0⟩])
      (fun x hx => (by rw [List.mem_singleton] at hx; subst hx; exact ⟨by decide, by decide⟩)) chords_replaced ?_ (by decide) ?_ ?_ (.release (by simp) .done)
    · simp [Typed, ProperKey]; decide
    · exact ⟨by simp [Typed, ProperKey]; decide, ⟨[Key.KeyK, Key.KeyA], List.Perm.swap _ _ _, rfl⟩, rfl, by decide, by decide, by decide⟩
    · unfold ValidDevice; decide

/-- either order -/
example (first : List Key) (k : Key) (h : (first ++ [k]).Perm [Key.KeyA, Key.KeyK]) :
    stageOutputs (stageInit [chords]) (.contexts [0] :: (first ++ [k]).map (fun k => .input ⟨k, .Down, 0⟩ 0)) =
      [] :: (first.map (fun _ => []) ++ [[⟨Key.KeyE, .Down, 0⟩]]) := by
  refine C79_any_order _ chords_only ?_ [0] (by simp) (by simp) _ _ chords_replaced ?_ first k h 0 ?_
  · intro ctx hc
    rw [List.mem_singleton] at hc
    subst hc
    intro a ha; cases ha
  · simp [Typed, ProperKey]; decide
  · unfold ValidDevice; decide

/-- `A` is tapped -/
example : stageOutputs (stageInit [chords]) [.contexts [0], .input ⟨Key.KeyA, .Down, 0⟩ 0, .input ⟨Key.KeyA, .Up, 0⟩ 0] =
    [[], [], [⟨Key.KeyA, .Down, 0⟩, ⟨Key.KeyA, .Up, 0⟩]] := by
  refine C79_tapped _ chords_only ?_ [0] (by simp) (by simp) _ _ chords_replaced _ (by decide) ?_ 0 0 ?_
  · intro ctx hc
    rw [List.mem_singleton] at hc
    subst hc
    intro a ha; cases ha
  · intro i hi ctx hc m hm p hp hpe
    rw [List.mem_singleton] at hi
    subst hi
    cases hc
    simp only [chords, List.mem_cons, List.not_mem_nil, or_false] at hm
    rcases hm with rfl | rfl | rfl
    · rw [pattern_inj (q := .word [Key.KeyB, Key.KeyT, Key.KeyW]) hp hpe.symm]
      simp only [Pattern.NeedsOther]; decide
    · rw [pattern_inj (q := .chord [Key.KeyJ, Key.KeyK, Key.KeyL]) hp hpe.symm]
      exact ⟨Key.KeyJ, by decide, by decide⟩
    · rw [pattern_inj (q := .chord [Key.KeyA, Key.KeyK]) hp hpe.symm]
      exact ⟨Key.KeyK, by decide, by decide⟩
  · unfold ValidDevice; decide

/-- `A` is held back until `X` is pressed, which is not mentioned; `A` is still down then, and released like any other key -/
example : stageOutputs (stageInit [chords]) [.contexts [0], .input ⟨Key.KeyA, .Down, 0⟩ 0, .input ⟨Key.KeyX, .Down, 0⟩ 0,
      .input ⟨Key.KeyA, .Up, 0⟩ 0, .input ⟨Key.KeyX, .Up, 0⟩ 0] =
    [[], [], [⟨Key.KeyA, .Down, 0⟩, ⟨Key.KeyX, .Down, 0⟩], [⟨Key.KeyA, .Up, 0⟩], [⟨Key.KeyX, .Up, 0⟩]] := by
  refine C79_words_are_replaced _ chords_only ?_ _ _ ?_
  · intro ctx hc
    rw [List.mem_singleton] at hc
    subst hc
    intro a ha; cases ha
  · refine .contexts (by simp) (by simp) ?_
    refine .abandoned (evs := [(⟨Key.KeyA, .Down, 0⟩, 0)]) (p := .chord [Key.KeyA, Key.KeyK]) (by simp) chords_replaced ?_ ?_ ?_ ?_
      ⟨by decide, by decide⟩ (by simp) (.release (by decide) (.release (by decide) .done))
    · simp [Typed, ProperKey]; decide
    · exact ⟨[Key.KeyA], by simp, by decide, by decide, rfl⟩
    · unfold ValidDevice; decide
    · intro i hi ctx hc m hm
      rw [List.mem_singleton] at hi
      subst hi
      cases hc
      revert m
      decide

/-- The chord has to be apart from the mappings in front of it: a chord which contains another one in front of it does not get typed,
since the other one is complete before. -/
example : (stageOutputs (stageInit [{ chords with inputs := [⟨chordExpr [Key.KeyJ, Key.KeyK], 0⟩, ⟨chordExpr [Key.KeyJ, Key.KeyK, Key.KeyL], 1⟩] }])
      [.contexts [0], .input ⟨Key.KeyJ, .Down, 0⟩ 0, .input ⟨Key.KeyK, .Down, 0⟩ 0, .input ⟨Key.KeyL, .Down, 0⟩ 0]) ≠
    [[], [], [], [⟨Key.KeyZ, .Down, 0⟩]] := by decide +kernel

end KM
