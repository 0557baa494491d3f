import Verif.Lemmas.TimedEvents
set_option linter.unusedSimpArgs false
/-!
# Operations on a stage with mappings of keys which are held or tapped
-/
namespace KM

section
variable {tcs : List (List TimedMapping)} {c : Cfg} {cur : List Nat} {q : KeySequence} {mg : Bool} {outs : List (Key × Key)} {out : KeySequence} {tg : Option Key}
  {dev : Int} {s : S}

theorem TS.updateActive (h : TimedCfg tcs c) (hcur : Cur tcs cur) (hts : TS cur q mg outs out tg s) : updateActiveContexts c s = s := by
  unfold updateActiveContexts
  rw [hts.client, computeActive_timed h s.seq cur [] hcur.sorted hcur.lt (by simp)]
  simp only [List.nil_append]
  rw [hts.active, mergeContexts_self]
  simp only [List.foldl_nil]
  have h1 := hts.active
  have h2 := hts.client
  cases s
  simp only at h1 h2
  subst h1
  rw [h2]

/-- the state in which the main loop begins -/
def prepared (s : S) (ev : KeyEvent) : S :=
  { beforeMatchUp s ev with down := (beforeMatchUp s ev).down.map (fun o => { o with suppressed := false }) }

/-- the state after an event -/
def finished (c : Cfg) (s : S) (ev : KeyEvent) (dev : Int) : S :=
  finishInput c (mainLoop c ev dev (ev.state == .Up && ev.key != Key.timeout) (prepared s ev)) ev

theorem update_timed (h : TimedCfg tcs c) (hcur : Cur tcs cur) (hts : TS cur q mg outs out tg s) (ev : KeyEvent) (dev : Int)
    (hp : ev.state = .Up ∨ (ev.state = .Down ∧ isPhysicallyPressed s ev.key = false))
    (hsup : ev.key = Key.timeout → ∀ t, s.timeout = some t → t.notExceeded = false) :
    ∃ s1, TS cur (q ++ [ev]) mg outs out tg s1 ∧ s1.matchedTime = s.matchedTime ∧
      update c s ev dev = ({ finished c s1 ev dev with buf := [] }, (finished c s1 ev dev).buf) := by
  have hsx : ∃ x : S, TS cur q mg outs out tg x ∧ x.matchedTime = s.matchedTime ∧ x.seq = s.seq ∧
      x = (if validInput ev then { s with exitPos := advanceExit s.exitPos ev } else { s with exitPos := advanceExit s.exitPos ev, ub := true }) ∧
      x.timeout = s.timeout := by
    refine ⟨_, ?_, ?_, ?_, rfl, ?_⟩
    · split <;> exact ⟨hts.active, hts.client, hts.onRel, hts.reapplied, hts.hist, hts.seq, hts.might, hts.down, hts.tr, hts.buf, hts.tg, hts.nt⟩
    · split <;> rfl
    · split <;> rfl
    · split <;> rfl
  obtain ⟨x, hx, hxm, hxs, hxe, hxt⟩ := hsx
  have hco : continueOnRelease x ev (-1) = (x, true) := by
    unfold continueOnRelease
    rw [hx.onRel]; rfl
  have hsu : ∃ y, suppressTimeout x ev = (y, false) ∧ TS cur q mg outs out tg y ∧ y.matchedTime = x.matchedTime ∧ y.seq = x.seq := by
    unfold suppressTimeout
    cases ht : x.timeout with
    | none => exact ⟨x, rfl, hx, rfl, rfl⟩
    | some t =>
      have hmod : ∀ b, TS cur q mg outs out tg { x with timeout := some { t with notExceeded := b } } ∧
          ({ x with timeout := some { t with notExceeded := b } } : S).matchedTime = x.matchedTime := by
        intro b
        refine ⟨⟨hx.active, hx.client, hx.onRel, hx.reapplied, hx.hist, hx.seq, hx.might, hx.down, hx.tr, hx.buf, ?_, ?_⟩, ?_⟩
        · rw [← hx.tg, ht]; rfl
        · intro t' ht'
          simp only [Option.some.injEq] at ht'
          rw [← ht']
          exact hx.nt t ht
        · unfold S.matchedTime
          rw [ht]; rfl
      simp only []
      split
      · split
        · next hek =>
          split
          · exact ⟨_, rfl, (hmod true).1, (hmod true).2, rfl⟩
          · have := hsup (by simpa using hek) t (by rw [← hxt, ht])
            exact ⟨x, by rw [this], hx, rfl, rfl⟩
        · split
          · exact ⟨_, rfl, (hmod false).1, (hmod false).2, rfl⟩
          · exact ⟨x, rfl, hx, rfl, rfl⟩
      · exact ⟨x, rfl, hx, rfl, rfl⟩
  obtain ⟨y, hsu, hy, hym, hys⟩ := hsu
  have hm : ∃ z, mergeRepeat y ev dev = (z, false) ∧ TS cur q mg outs out tg z ∧ z.matchedTime = y.matchedTime := by
    unfold mergeRepeat
    have hlr : ∀ a b, TS cur q mg outs out tg { y with lastPressed := a, lastRepeat := b } := fun a b =>
      ⟨hy.active, hy.client, hy.onRel, hy.reapplied, hy.hist, hy.seq, hy.might, hy.down, hy.tr, hy.buf, hy.tg, hy.nt⟩
    rcases hp with hp | ⟨hp, hq⟩
    · rw [if_neg (by rw [hp]; decide)]
      exact ⟨_, rfl, hlr _ _, rfl⟩
    · rw [if_pos (by rw [hp]; rfl)]
      have hq' : isPhysicallyPressed y ev.key = false := by
        unfold isPhysicallyPressed at hq ⊢
        rw [hys, hxs]; exact hq
      rw [hq']
      simp only [Bool.false_eq_true, if_false]
      split
      · exact ⟨_, rfl, hlr _ _, rfl⟩
      · exact ⟨y, rfl, hy, rfl⟩
  obtain ⟨z, hm, hz, hzm⟩ := hm
  have hz1 := hz.withSeq (q ++ [ev])
  refine ⟨{ z with seq := q ++ [ev] }, hz1, ?_, ?_⟩
  · exact hzm.trans (hym.trans hxm)
  · have hah : addToHistory c { z with seq := q ++ [ev] } ev = { z with seq := q ++ [ev] } := by
      unfold addToHistory; rw [h.nmm]; simp
    unfold update applyInput
    simp only []
    rw [← hxe, hco]
    simp only []
    rw [hsu]
    simp only []
    rw [hm]
    simp only []
    rw [hz.seq, hah, hz1.updateActive h hcur]
    rfl

theorem TS.unsuppressed (hts : TS cur q mg outs out tg s) : TS cur q mg outs out tg { s with down := s.down.map (fun o => { o with suppressed := false }) } := by
  refine ⟨hts.active, hts.client, hts.onRel, hts.reapplied, hts.hist, hts.seq, hts.might, ?_, ?_, hts.buf, hts.tg, hts.nt⟩
  · rw [← hts.down]
    show (s.down.map (fun o => { o with suppressed := false })).map heldBy = _
    rw [List.map_map]; rfl
  · intro o ho
    obtain ⟨o', h1, h2⟩ := List.mem_map.1 ho
    rw [← h2]; exact hts.tr o' h1

theorem TS.prepared (hts : TS cur q mg outs out tg s) {ev : KeyEvent} (h : ev.state = .Down ∨ (mg = true ∧ s.matchedTime = none)) :
    TS cur q mg outs out tg (prepared s ev) ∧ (KM.prepared s ev).matchedTime = s.matchedTime ∧ (KM.prepared s ev).timeout = s.timeout := by
  have hb : beforeMatchUp s ev = s := by
    unfold beforeMatchUp
    rcases h with h | ⟨h, h2⟩
    · rw [if_neg (by rw [h]; decide)]
    · split
      · have hm : (s.timeout.bind (·.matchedOutput)).isSome = false := by
          unfold S.matchedTime at h2; rw [h2]; rfl
        simp only [hm, Bool.false_eq_true, if_false]
        have hmi : s.might = true := by rw [hts.might, h]
        rw [hmi]; rfl
      · rfl
  unfold KM.prepared
  rw [hb]
  exact ⟨hts.unsuppressed, rfl, rfl⟩

theorem map_matched_id {l : KeySequence} (h : ∀ e ∈ l, e.state ≠ .Down) : l.map (fun e => if e.state == .Down then { e with state := .DownMatched } else e) = l := by
  induction l with
  | nil => rfl
  | cons e l ih =>
    rw [List.map_cons, ih (fun x hx => h x (by simp [hx])), if_neg (by simpa using h e (by simp))]

/-- a key which was held is released -/
theorem TS.preparedUp {b : KeySequence} {k : Key} (hts : TS cur (b ++ [⟨k, .Up, 0⟩]) false outs out tg s) (hb : Base b) (hk : k ∈ bodyKeys b) :
    TS cur (b.eraseP (·.key == k) ++ [⟨k, .Up, 0⟩]) false outs out tg (KM.prepared s ⟨k, .Up, 0⟩) := by
  have hkd := bodyKeys_device hb k hk
  have hmem : ∃ e ∈ b, (e.key == k) = true := by
    unfold bodyKeys cleaned at hk
    obtain ⟨e, h1, h2⟩ := List.mem_map.1 hk
    exact ⟨e, (List.mem_filter.1 h1).1, by simpa using h2⟩
  have hfind : ∃ e, b.find? (·.key == k) = some e := by
    cases hf : b.find? (·.key == k) with
    | some e => exact ⟨e, rfl⟩
    | none =>
      rw [List.find?_eq_none] at hf
      obtain ⟨e, h1, h2⟩ := hmem
      exact absurd h2 (hf e h1)
  obtain ⟨e, hfe⟩ := hfind
  have hek : e.key = k := by simpa using List.find?_some hfe
  have hes : e.state = .DownMatched := by
    rcases hb e (List.mem_of_find?_eq_some hfe) with h1 | h1
    · exact h1.1
    · rw [h1.2] at hek; rw [← hek] at hkd; exact absurd hkd (by decide)
  have hbm : beforeMatchUp s ⟨k, .Up, 0⟩ = { s with seq := b.eraseP (·.key == k) ++ [⟨k, .Up, 0⟩] } := by
    unfold beforeMatchUp
    simp only [show (KeyState.Up == KeyState.Up) = true from rfl, if_true]
    have hid : (if (s.timeout.bind (·.matchedOutput)).isSome = true then
        { s with seq := s.seq.map (fun e => if e.state == .Down then { e with state := .DownMatched } else e) } else s) = s := by
      split
      · rw [hts.seq, map_matched_id]
        · rw [← hts.seq]
        · intro x hx
          simp only [List.mem_append, List.mem_singleton] at hx
          rcases hx with hx | hx
          · rcases hb.state x hx with h1 | h1 <;> rw [h1] <;> simp
          · rw [hx]; simp
      · rfl
    rw [hid, hts.might]
    simp only [Bool.not_false, if_true]
    have hfk : findKey s.seq k = some e := by
      unfold findKey
      rw [hts.seq, List.find?_append, hfe]; rfl
    rw [hfk]
    simp only [hes, beq_self_eq_true, if_true]
    rw [hts.seq, List.eraseP_append_left (a := e) (by simpa using hek) _ (List.mem_of_find?_eq_some hfe)]
  unfold KM.prepared
  rw [hbm]
  exact (hts.withSeq _).unsuppressed

theorem bodyKeys_erase {b : KeySequence} (hb : Base b) {k : Key} (hk : isDeviceKey k = true) : bodyKeys (b.eraseP (·.key == k)) = (bodyKeys b).erase k := by
  induction b with
  | nil => rfl
  | cons e b ih =>
    have hb' : Base b := hb.sub (fun x hx => by simp [hx])
    have ih := ih hb'
    rcases hb e (by simp) with h1 | h1
    · have hcons : ∀ l : KeySequence, bodyKeys (e :: l) = e.key :: bodyKeys l := by
        intro l; unfold bodyKeys cleaned
        rw [List.filter_cons, if_pos (by simp [h1.1])]; rfl
      by_cases hek : e.key = k
      · rw [List.eraseP_cons_of_pos (by simpa using hek), hcons, hek, List.erase_cons_head]
      · rw [List.eraseP_cons_of_neg (by simpa using hek), hcons, hcons, ih, List.erase_cons_tail (by simpa using hek)]
    · have hcons : ∀ l : KeySequence, bodyKeys (e :: l) = bodyKeys l := by
        intro l; unfold bodyKeys cleaned
        rw [List.filter_cons, if_neg (by rw [h1.1]; decide)]
      have hek : e.key ≠ k := by
        rintro rfl; rw [h1.2] at hk; exact absurd hk (by decide)
      rw [List.eraseP_cons_of_neg (by simpa using hek), hcons, hcons, ih]

theorem bodyKeys_dropWhile {b : KeySequence} : bodyKeys (b.dropWhile (fun e => e.state == KeyState.UpMatched)) = bodyKeys b := by
  induction b with
  | nil => rfl
  | cons e b ih =>
    rw [List.dropWhile_cons]
    split
    · next h =>
      rw [ih]
      unfold bodyKeys cleaned
      rw [List.filter_cons, if_neg (by rw [show e.state = .UpMatched by simpa using h]; decide)]
    · rfl

theorem Base.dropped {b : KeySequence} (hb : Base b) : Base (b.dropWhile (fun e => e.state == KeyState.UpMatched)) :=
  hb.sub (fun _ he => (List.dropWhile_sublist _).mem he)

/-- after the main loop -/
theorem TS.finish (h : TimedCfg tcs c) (hcur : Cur tcs cur) (hts : TS cur q mg outs out tg s) {ev : KeyEvent} (hk : ev.key ≠ Key.ContextActive)
    {q' : KeySequence} (hq' : q.dropWhile (fun e => e.state == KeyState.UpMatched) = q') :
    ∃ outs' out' tg1 tg', (ev.state = .Down → outs' = outs ∧ out' = out ∧ tg1 = tg) ∧
      (ev.state = .Up → outs' = outs.filter (fun o => o.2 != ev.key) ∧ out' = out ++ releasesOf outs ev.key ∧ tg1 = tg.filter (· != ev.key)) ∧
      tg' = (if q' = [] then none else tg1) ∧ ((ev.state = .Down ∨ ev.state = .Up) →
      (TS cur q' mg outs' out' tg' (finishInput c s ev) ∧ (s.matchedTime = none → (finishInput c s ev).matchedTime = none) ∧
        (ev.state = .Down → q' ≠ [] → (finishInput c s ev).timeout = s.timeout))) := by
  by_cases hst : ev.state = .Up
  · refine ⟨outs.filter (fun o => o.2 != ev.key), out ++ releasesOf outs ev.key, tg.filter (· != ev.key), _, fun h => by rw [hst] at h; simp at h,
      fun _ => ⟨rfl, rfl, rfl⟩, rfl, fun _ => ?_⟩
    have h1 := hts.release hk
    have hm1 : s.matchedTime = none → (releaseTriggered s ev.key (-1)).matchedTime = none := releaseTriggered_matchedTime
    unfold finishInput
    simp only [hst, show (KeyState.Up == KeyState.Up) = true from rfl, if_true]
    generalize releaseTriggered s ev.key (-1) = s1 at h1 hm1 ⊢
    rw [h1.updateActive h hcur, h1.seq, hq']
    have h2 := h1.withSeq q'
    cases hqe : q' with
    | nil =>
      simp only [List.isEmpty_nil, if_true, h1.hist, cleanUpHistory]
      rw [hqe] at h2
      exact ⟨⟨h2.active, h2.client, h2.onRel, rfl, rfl, rfl, h2.might, h2.down, h2.tr, h2.buf, rfl, by intro t ht; simp at ht⟩, fun _ => rfl, by intro h; simp at h⟩
    | cons e l =>
      simp only [List.isEmpty_cons, Bool.false_eq_true, if_false, h1.hist, cleanUpHistory]
      rw [hqe] at h2
      refine ⟨⟨h2.active, h2.client, h2.onRel, rfl, rfl, rfl, h2.might, h2.down, h2.tr, h2.buf, ?_, h2.nt⟩, hm1, by intro h; simp at h⟩
      rw [if_neg (by simp)]; exact h2.tg
  · refine ⟨outs, out, tg, _, fun _ => ⟨rfl, rfl, rfl⟩, fun h => absurd h hst, rfl, fun hor => ?_⟩
    have hdn : ev.state = .Down := by rcases hor with h | h; exact h; exact absurd h hst
    unfold finishInput
    simp only [hdn, show (KeyState.Down == KeyState.Up) = false from rfl, Bool.false_eq_true, if_false]
    rw [hts.updateActive h hcur, hts.seq, hq']
    have h2 := hts.withSeq q'
    cases hqe : q' with
    | nil =>
      simp only [List.isEmpty_nil, if_true, hts.hist, cleanUpHistory]
      rw [hqe] at h2
      exact ⟨⟨h2.active, h2.client, h2.onRel, rfl, rfl, rfl, h2.might, h2.down, h2.tr, h2.buf, rfl, by intro t ht; simp at ht⟩, fun _ => rfl, by intro _ h; simp at h⟩
    | cons e l =>
      simp only [List.isEmpty_cons, Bool.false_eq_true, if_false, hts.hist, cleanUpHistory]
      rw [hqe] at h2
      refine ⟨⟨h2.active, h2.client, h2.onRel, rfl, rfl, rfl, h2.might, h2.down, h2.tr, h2.buf, ?_, h2.nt⟩, fun h => h, by intro _ _; trivial⟩
      rw [if_neg (by simp)]; exact h2.tg

theorem TS.finish_down (h : TimedCfg tcs c) (hcur : Cur tcs cur) (hts : TS cur q mg outs out tg s) {ev : KeyEvent} (hd : ev.state = .Down)
    (hk : ev.key ≠ Key.ContextActive) {q' : KeySequence} (hq' : q.dropWhile (fun e => e.state == KeyState.UpMatched) = q') :
    ∃ tg', (tg' = none ∨ tg' = tg) ∧ (q' ≠ [] → tg' = tg) ∧ TS cur q' mg outs out tg' (finishInput c s ev) ∧
      (q' ≠ [] → (finishInput c s ev).timeout = s.timeout) := by
  obtain ⟨outs', out', tg1, tg', h1, _, h2, h3⟩ := hts.finish h hcur hk hq'
  obtain ⟨rfl, rfl, rfl⟩ := h1 hd
  obtain ⟨h4, _, h5⟩ := h3 (Or.inl hd)
  refine ⟨tg', ?_, ?_, h4, h5 hd⟩
  · rw [h2]; split
    · exact Or.inl rfl
    · exact Or.inr rfl
  · intro hne; rw [h2, if_neg hne]

theorem TS.finish_up (h : TimedCfg tcs c) (hcur : Cur tcs cur) (hts : TS cur q mg outs out tg s) {ev : KeyEvent} (hd : ev.state = .Up)
    (hk : ev.key ≠ Key.ContextActive) {q' : KeySequence} (hq' : q.dropWhile (fun e => e.state == KeyState.UpMatched) = q') :
    ∃ tg', (tg' = none ∨ tg' = tg.filter (· != ev.key)) ∧ (q' ≠ [] → tg' = tg.filter (· != ev.key)) ∧
      TS cur q' mg (outs.filter (fun o => o.2 != ev.key)) (out ++ releasesOf outs ev.key) tg' (finishInput c s ev) ∧
      (s.matchedTime = none → (finishInput c s ev).matchedTime = none) := by
  obtain ⟨outs', out', tg1, tg', _, h1, h2, h3⟩ := hts.finish h hcur hk hq'
  obtain ⟨rfl, rfl, rfl⟩ := h1 hd
  obtain ⟨h4, h5, _⟩ := h3 (Or.inr hd)
  refine ⟨tg', ?_, ?_, h4, h5⟩
  · rw [h2]; split
    · exact Or.inl rfl
    · exact Or.inr rfl
  · intro hne; rw [h2, if_neg hne]

theorem TS.cleared (hts : TS cur q mg outs out tg s) : TS cur q mg outs [] tg { s with buf := [] } :=
  ⟨hts.active, hts.client, hts.onRel, hts.reapplied, hts.hist, hts.seq, hts.might, hts.down, hts.tr, rfl, hts.tg, hts.nt⟩

theorem dropWhile_before {b : KeySequence} (x : KeyEvent) (hx : x.state ≠ .UpMatched) (l : KeySequence) :
    (b ++ x :: l).dropWhile (fun e => e.state == KeyState.UpMatched) = b.dropWhile (fun e => e.state == KeyState.UpMatched) ++ x :: l := by
  induction b with
  | nil => rw [List.nil_append, List.dropWhile_cons, if_neg (by simpa using hx)]; rfl
  | cons e b ih =>
    rw [List.cons_append, List.dropWhile_cons, List.dropWhile_cons]
    split
    · exact ih
    · rfl

theorem notPressed_of {s : S} {k : Key} (h : ∀ e ∈ s.seq, e.key ≠ k) : isPhysicallyPressed s k = false := by
  have : rfindKey s.seq k = none := by
    unfold rfindKey
    rw [List.find?_eq_none]
    intro e he
    simpa using h e (List.mem_reverse.1 he)
  unfold isPhysicallyPressed
  rw [this]

theorem base_key_ne {b : KeySequence} (hb : Base b) {k : Key} (hk : isDeviceKey k = true) (hkb : k ∉ bodyKeys b) : ∀ e ∈ b, e.key ≠ k := by
  intro e he hek
  rcases hb e he with h1 | h1
  · exact hkb (hek ▸ mem_keysOf he h1.1)
  · rw [h1.2] at hek
    rw [← hek] at hk
    exact absurd hk (by decide)

/-- the stage is in the state described -/
structure TimedInv (tcs : List (List TimedMapping)) (st : TimedState) (s : S) : Prop where
  cur : Cur tcs st.current
  nodup : st.held.Nodup
  causes : ∀ o ∈ st.outs, isDeviceKey o.2 = true
  state : match st.waiting with
    | .idle => ∃ b tg, Base b ∧ bodyKeys b = st.held ∧ TS st.current b false st.outs [] tg s ∧ ∀ j, tg = some j → j ∈ st.held
    | .answer k => ∃ b, Base b ∧ st.held = bodyKeys b ++ [k] ∧ isDeviceKey k = true ∧ TS st.current (b ++ [⟨k, .Down, 0⟩]) true st.outs [] (some k) s ∧
        s.matchedTime = none ∧ (∀ t, s.timeout = some t → t.notExceeded = false) ∧ ∀ j ∈ bodyKeys b, isTimed (mappingsInUse tcs st.current) j = false
    | .undecided k v => ∃ b m, Base b ∧ st.held = bodyKeys b ++ [k] ∧ isDeviceKey k = true ∧
        TS st.current (b ++ [⟨k, .Down, 0⟩, ⟨Key.timeout, .Up, v⟩]) true st.outs [] (some k) s ∧ s.matchedTime = none ∧
        (mappingsInUse tcs st.current).find? (fun m => m.key == k && m.fits v) = some m ∧ m.isTap = true

theorem nodup_snoc {l : List Key} {k : Key} (h : l.Nodup) (hk : k ∉ l) : (l ++ [k]).Nodup := by
  rw [List.nodup_append]
  refine ⟨h, by simp, ?_⟩
  intro a ha b hb
  simp only [List.mem_singleton] at hb
  rw [hb]
  rintro rfl
  exact hk ha

theorem untimed_first {ms : List TimedMapping} {k : Key} (h : isTimed ms k = false) : (ms.find? (fun m => m.key == k)).bind (·.asks) = none := by
  cases hf : ms.find? (fun m => m.key == k) with
  | none => rfl
  | some m =>
    have hm := List.mem_of_find?_eq_some hf
    have hk := List.find?_some hf
    unfold isTimed at h
    rw [List.any_eq_false] at h
    have := h m hm
    rw [Option.bind_some]
    cases ha : m.asks with
    | none => rfl
    | some r => rw [ha] at this; simp at this hk; exact absurd hk this

theorem asks_timed {ms : List TimedMapping} {k : Key} {r : KeyEvent} (h : (ms.find? (fun m => m.key == k)).bind (·.asks) = some r) : isTimed ms k = true := by
  cases hi : isTimed ms k with
  | true => rfl
  | false => rw [untimed_first hi] at h; simp at h

/-- what a mapping outputs -/
def outOf (k : Key) (m : Option TimedMapping) : KeySequence :=
  match m with
  | some m => m.out
  | none => [⟨k, .Down, 0⟩]

/-- after a press whose output is decided -/
theorem put_inv (h : TimedCfg tcs c) (hcur : Cur tcs cur) {x : Key} {st : TimedState} {b' : KeySequence} {F : S} (hF : TS cur b' false outs out tg F)
    (hb' : Base b') (hx : isDeviceKey x = true) (hd : ∀ o ∈ outs, isDeviceKey o.2 = true) (hheld : bodyKeys b' = st.held) (hnd : st.held.Nodup)
    (htg : ∀ j, tg = some j → j ∈ st.held) (hst : st.current = cur ∧ st.outs = outs ∧ st.waiting = .idle) :
    TimedInv tcs st { finishInput c F ⟨x, .Down, 0⟩ with buf := [] } ∧ (finishInput c F ⟨x, .Down, 0⟩).buf = out := by
  obtain ⟨tg', h1, _, h3, _⟩ := hF.finish_down h hcur (ev := ⟨x, .Down, 0⟩) rfl (deviceKey_proper hx).2.1 rfl
  refine ⟨⟨by rw [hst.1]; exact hcur, hnd, by rw [hst.2.1]; exact hd, ?_⟩, h3.buf⟩
  rw [hst.2.2]
  refine ⟨_, tg', hb'.dropped, ?_, ?_, ?_⟩
  · rw [bodyKeys_dropWhile, hheld]
  · rw [hst.1, hst.2.1]; exact h3.cleared
  · intro j hj
    rcases h1 with h1 | h1
    · rw [h1] at hj; simp at hj
    · rw [h1] at hj; exact htg j hj

/-- a key is pressed -/
theorem step_press (h : TimedCfg tcs c) {st : TimedState} (hi : TimedInv tcs st s) (hw : st.waiting = .idle) {k : Key} (hd : ValidDevice dev)
    (hk : isDeviceKey k = true) (hkh : k ∉ st.held)
    (hun : isTimed (mappingsInUse tcs st.current) k = true → ∀ j ∈ st.held, isTimed (mappingsInUse tcs st.current) j = false) :
    TimedInv tcs (st.press (mappingsInUse tcs st.current) k).1 (update c s ⟨k, .Down, 0⟩ dev).1 ∧
      (update c s ⟨k, .Down, 0⟩ dev).2 = (st.press (mappingsInUse tcs st.current) k).2 := by
  have hstate := hi.state
  rw [hw] at hstate
  obtain ⟨b, tg, hb, hkeys, hts, htg⟩ := hstate
  have hkb : k ∉ bodyKeys b := by rw [hkeys]; exact hkh
  have hprop := deviceKey_proper hk
  obtain ⟨s1, h1, _, h3⟩ := update_timed h hi.cur hts ⟨k, .Down, 0⟩ dev
    (Or.inr ⟨rfl, notPressed_of (by rw [hts.seq]; exact base_key_ne hb hk hkb)⟩) (fun he => absurd he hprop.1.2.2)
  rw [h3]
  have hp := (h1.prepared (ev := ⟨k, .Down, 0⟩) (Or.inl rfl)).1
  have hc : Causes st.outs tg := ⟨hi.causes, fun j hj => bodyKeys_device hb j (by rw [hkeys]; exact htg j hj)⟩
  unfold finished TimedState.press
  generalize hu : ((⟨k, KeyState.Down, 0⟩ : KeyEvent).state == KeyState.Up && (⟨k, KeyState.Down, 0⟩ : KeyEvent).key != Key.timeout) = u
  cases hreq : ((mappingsInUse tcs st.current).find? (fun m => m.key == k)).bind (·.asks) with
  | some req =>
    obtain ⟨h5, h6⟩ := loop_press_asks (u := u) h hi.cur hd hp hb hk hkb (by intro h; exact hkh (htg k h)) hreq
    obtain ⟨tg', _, h8, h9, h10⟩ := h5.finish_down h hi.cur (ev := ⟨k, .Down, 0⟩) rfl hprop.2.1 (dropWhile_before ⟨k, .Down, 0⟩ (by simp) [])
    have hne : b.dropWhile (fun e => e.state == KeyState.UpMatched) ++ [(⟨k, .Down, 0⟩ : KeyEvent)] ≠ [] := by simp
    rw [h8 hne] at h9
    have h10 := (h10 hne).trans h6
    refine ⟨⟨hi.cur, nodup_snoc hi.nodup hkh, hi.causes, ?_⟩, by simpa using h9.buf⟩
    refine ⟨_, hb.dropped, by rw [bodyKeys_dropWhile, hkeys], hk, h9.cleared, ?_, ?_, ?_⟩
    · show ((finishInput c _ _).timeout.bind _) = none
      rw [h10]; rfl
    · intro t ht
      have ht : (finishInput c _ _).timeout = some t := ht
      rw [h10] at ht
      simp only [Option.some.injEq] at ht
      rw [← ht]
    · rw [bodyKeys_dropWhile, hkeys]
      exact hun (asks_timed hreq)
  | none =>
    obtain ⟨b', h5, h6, _, h7⟩ := loop_press_put (u := u) h hi.cur hd hp hb hk hkb hc hreq _ rfl
    obtain ⟨h8, h9⟩ := put_inv (st := ({ st with held := st.held ++ [k] }.replace k ((mappingsInUse tcs st.current).find? (fun m => m.key == k))).1)
      h hi.cur h7 h5 hk (hc.press hk _).outs
      (by rw [h6, hkeys]; rfl) (nodup_snoc hi.nodup hkh) (fun j hj => List.mem_append_left _ (htg j hj)) ⟨rfl, rfl, rfl⟩
    exact ⟨h8, by rw [h9]; rfl⟩

/-- a key is released -/
theorem step_release (h : TimedCfg tcs c) {st : TimedState} (hi : TimedInv tcs st s) (hw : st.waiting = .idle) {k : Key} (hd : ValidDevice dev)
    (hkh : k ∈ st.held) :
    TimedInv tcs (st.release k).1 (update c s ⟨k, .Up, 0⟩ dev).1 ∧ (update c s ⟨k, .Up, 0⟩ dev).2 = (st.release k).2 := by
  have hstate := hi.state
  rw [hw] at hstate
  obtain ⟨b, tg, hb, hkeys, hts, htg⟩ := hstate
  have hkb : k ∈ bodyKeys b := by rw [hkeys]; exact hkh
  have hk := bodyKeys_device hb k hkb
  have hprop := deviceKey_proper hk
  obtain ⟨s1, h1, _, h3⟩ := update_timed h hi.cur hts ⟨k, .Up, 0⟩ dev (Or.inl rfl) (fun he => absurd he hprop.1.2.2)
  rw [h3]
  have hp := h1.preparedUp hb hkb
  have hc : Causes st.outs tg := ⟨hi.causes, fun j hj => bodyKeys_device hb j (by rw [hkeys]; exact htg j hj)⟩
  have hbe : Base (b.eraseP (·.key == k)) := hb.sub (fun e he => List.eraseP_sublist.mem he)
  have hke : bodyKeys (b.eraseP (·.key == k)) = st.held.erase k := by rw [bodyKeys_erase hb hk, hkeys]
  have hnot : k ∉ bodyKeys (b.eraseP (·.key == k)) := by
    rw [hke, hi.nodup.mem_erase_iff]
    simp
  unfold finished TimedState.release
  generalize hu : ((⟨k, KeyState.Up, 0⟩ : KeyEvent).state == KeyState.Up && (⟨k, KeyState.Up, 0⟩ : KeyEvent).key != Key.timeout) = u
  have h4 := loop_release (u := u) h hi.cur hd hp hbe hk hnot hc
  obtain ⟨tg', h5, _, h7, _⟩ := h4.finish_up h hi.cur (ev := ⟨k, .Up, 0⟩) rfl hprop.2.1 rfl
  have hff : (st.outs.filter (fun o => o.2 != k)).filter (fun o => o.2 != k) = st.outs.filter (fun o => o.2 != k) := by
    rw [List.filter_filter]; simp
  have hrr : releasesOf (st.outs.filter (fun o => o.2 != k)) k = [] := by
    unfold releasesOf
    rw [List.filter_filter]
    simp
  rw [hff, hrr] at h7
  refine ⟨⟨hi.cur, hi.nodup.erase _, (hc.filter k).outs, ?_⟩, by rw [h7.buf]; simp [releasesOf]⟩
  refine ⟨_, tg', hbe.cleaned.dropped, by rw [bodyKeys_dropWhile, bodyKeys_cleaned, hke], h7.cleared, ?_⟩
  intro j hj
  rcases h5 with h5 | h5
  · rw [h5] at hj; simp at hj
  · rw [h5] at hj
    have hj : ((tg.filter (· != k)).filter (· != k)) = some j := hj
    cases tg with
    | none => simp at hj
    | some i =>
      by_cases hik : i = k
      · simp [Option.filter, hik] at hj
      · have hik' : (i != k) = true := by simpa using hik
        simp only [Option.filter, hik', if_true, Option.some.injEq] at hj
        rw [← hj]
        exact (hi.nodup.mem_erase_iff).2 ⟨hik, htg i rfl⟩

/-- it is known how much time passed -/
theorem step_elapse (h : TimedCfg tcs c) {st : TimedState} (hi : TimedInv tcs st s) {k : Key} (hw : st.waiting = .answer k) (hd : ValidDevice dev) (v : Nat) :
    TimedInv tcs (st.elapse (mappingsInUse tcs st.current) k v).1 (update c s ⟨Key.timeout, .Up, v⟩ dev).1 ∧
      (update c s ⟨Key.timeout, .Up, v⟩ dev).2 = (st.elapse (mappingsInUse tcs st.current) k v).2 := by
  have hstate := hi.state
  rw [hw] at hstate
  obtain ⟨b, hb, hheld, hk, hts, hmt, hne, hun⟩ := hstate
  have hnd := hi.nodup
  rw [hheld, List.nodup_append] at hnd
  have hkb : k ∉ bodyKeys b := fun hm => hnd.2.2 k hm k (by simp) rfl
  have hprop := deviceKey_proper hk
  obtain ⟨s1, h1, h2, h3⟩ := update_timed h hi.cur hts ⟨Key.timeout, .Up, v⟩ dev (Or.inl rfl) (fun _ => hne)
  rw [h3]
  rw [hmt] at h2
  obtain ⟨hp, hpm, _⟩ := h1.prepared (ev := ⟨Key.timeout, .Up, v⟩) (Or.inr ⟨rfl, h2⟩)
  rw [h2] at hpm
  have hc : Causes st.outs (some k) := ⟨hi.causes, fun j hj => by simp only [Option.some.injEq] at hj; rw [← hj]; exact hk⟩
  rw [show (b ++ [(⟨k, .Down, 0⟩ : KeyEvent)]) ++ [⟨Key.timeout, .Up, v⟩] = b ++ [⟨k, .Down, 0⟩, ⟨Key.timeout, .Up, v⟩] by simp] at hp
  unfold finished TimedState.elapse
  generalize hu : ((⟨Key.timeout, KeyState.Up, v⟩ : KeyEvent).state == KeyState.Up && (⟨Key.timeout, KeyState.Up, v⟩ : KeyEvent).key != Key.timeout) = u
  have hca : Key.timeout ≠ Key.ContextActive := by decide
  -- the output is decided
  have hput : ∀ (o : KeySequence) (q : KeySequence) (F : S), TS st.current q false (pressAll st.outs k o) ([] ++ o) (some k) F → Base q → bodyKeys q = st.held →
      TimedInv tcs (st.put k o).1 { finishInput c F ⟨Key.timeout, .Up, v⟩ with buf := [] } ∧
        (finishInput c F ⟨Key.timeout, .Up, v⟩).buf = (st.put k o).2 := by
    intro o q F hF hbq hkq
    obtain ⟨tg', h5, _, h7, _⟩ := hF.finish_up h hi.cur (ev := ⟨Key.timeout, .Up, v⟩) rfl hca rfl
    have hc2 := hc.press hk o
    obtain ⟨t1, t2, t3⟩ := hc2.timeout
    rw [show (⟨Key.timeout, .Up, v⟩ : KeyEvent).key = Key.timeout from rfl] at h5 h7
    rw [t1, t2] at h7
    rw [t3] at h5
    refine ⟨⟨hi.cur, hi.nodup, hc2.outs, ?_⟩, by rw [h7.buf]; simp [TimedState.put]⟩
    refine ⟨_, tg', hbq.dropped, by rw [bodyKeys_dropWhile]; exact hkq, h7.cleared, ?_⟩
    intro j hj
    rcases h5 with h5 | h5
    · rw [h5] at hj; simp at hj
    · rw [h5] at hj
      simp only [Option.some.injEq] at hj
      show j ∈ st.held
      rw [hheld, ← hj]; simp
  cases hf : (mappingsInUse tcs st.current).find? (fun m => m.key == k && m.fits v) with
  | none =>
    have h4 := loop_elapsed_none (u := u) h hi.cur hd hp hpm hb hk hkb hnd.1 hc hf hun
    exact hput _ _ _ h4 (hb.cleaned.append (base_down hk)) (by rw [bodyKeys_append, bodyKeys_cleaned, hheld]; rfl)
  | some m =>
    cases ht : m.isTap with
    | false =>
      have h4 := loop_elapsed_matched (u := u) h hi.cur hd hp hpm hb hk hkb hf ht
      simp only [Option.map_some, Option.getD_some, ht, Bool.false_eq_true, if_false]
      refine hput _ _ _ h4 ?_ ?_
      · have := (hb.append (base_down hk)).append (base_time v)
        simpa using this
      · rw [bodyKeys_append, hheld]; rfl
    | true =>
      obtain ⟨h4, h4t⟩ := loop_elapsed_tap (u := u) h hi.cur hd hp hb hk hkb hf ht
      simp only [Option.map_some, Option.getD_some, ht, if_true]
      obtain ⟨tg', _, h6, h7, h8⟩ := h4.finish_up h hi.cur (ev := ⟨Key.timeout, .Up, v⟩) rfl hca (dropWhile_before ⟨k, .Down, 0⟩ (by simp) _)
      obtain ⟨t1, t2, t3⟩ := hc.timeout
      rw [show (⟨Key.timeout, .Up, v⟩ : KeyEvent).key = Key.timeout from rfl] at h6 h7
      rw [h6 (by simp), t1, t2, t3] at h7
      refine ⟨⟨hi.cur, hi.nodup, hi.causes, ?_⟩, by simpa using h7.buf⟩
      refine ⟨_, m, hb.dropped, by rw [bodyKeys_dropWhile]; exact hheld, hk, h7.cleared, ?_, hf, ht⟩
      apply h8
      unfold S.matchedTime at hpm ⊢
      rw [h4t]; exact hpm

/-- the key is released within the time -/
theorem step_tapped (h : TimedCfg tcs c) {st : TimedState} (hi : TimedInv tcs st s) {k : Key} {v : Nat} (hw : st.waiting = .undecided k v) (hd : ValidDevice dev) :
    TimedInv tcs (st.tapped (mappingsInUse tcs st.current) k v).1 (update c s ⟨k, .Up, 0⟩ dev).1 ∧
      (update c s ⟨k, .Up, 0⟩ dev).2 = (st.tapped (mappingsInUse tcs st.current) k v).2 := by
  have hstate := hi.state
  rw [hw] at hstate
  obtain ⟨b, m, hb, hheld, hk, hts, hmt, hf, ht⟩ := hstate
  have hnd := hi.nodup
  rw [hheld, List.nodup_append] at hnd
  have hkb : k ∉ bodyKeys b := fun hm => hnd.2.2 k hm k (by simp) rfl
  have hprop := deviceKey_proper hk
  obtain ⟨s1, h1, h2, h3⟩ := update_timed h hi.cur hts ⟨k, .Up, 0⟩ dev (Or.inl rfl) (fun he => absurd he hprop.1.2.2)
  rw [h3]
  rw [hmt] at h2
  obtain ⟨hp, _, _⟩ := h1.prepared (ev := ⟨k, .Up, 0⟩) (Or.inr ⟨rfl, h2⟩)
  have hc : Causes st.outs (some k) := ⟨hi.causes, fun j hj => by simp only [Option.some.injEq] at hj; rw [← hj]; exact hk⟩
  rw [show (b ++ [(⟨k, .Down, 0⟩ : KeyEvent), ⟨Key.timeout, .Up, v⟩]) ++ [⟨k, .Up, 0⟩] = b ++ [⟨k, .Down, 0⟩, ⟨Key.timeout, .Up, v⟩, ⟨k, .Up, 0⟩] by simp] at hp
  unfold finished TimedState.tapped TimedState.replace TimedState.put TimedState.release
  rw [hf]
  generalize hu : ((⟨k, KeyState.Up, 0⟩ : KeyEvent).state == KeyState.Up && (⟨k, KeyState.Up, 0⟩ : KeyEvent).key != Key.timeout) = u
  have h4 := loop_tapped (u := u) h hi.cur hd hp hb hk hkb hf ht
  obtain ⟨tg', h5, _, h7, _⟩ := h4.finish_up h hi.cur (ev := ⟨k, .Up, 0⟩) rfl hprop.2.1 rfl
  have hb2 : Base (b ++ [⟨Key.timeout, .UpMatched, v⟩]) := hb.append (base_time v)
  refine ⟨⟨hi.cur, hi.nodup.erase _, ((hc.press hk _).filter k).outs, ?_⟩, by rw [h7.buf]; simp [releasesOf]⟩
  refine ⟨_, tg', hb2.dropped, ?_, h7.cleared, ?_⟩
  · rw [bodyKeys_dropWhile, bodyKeys_append]
    show bodyKeys b ++ [] = st.held.erase k
    rw [hheld, List.erase_append_right _ hkb]
    simp
  · intro j hj
    rcases h5 with h5 | h5
    · rw [h5] at hj; simp at hj
    · rw [h5] at hj
      simp [Option.filter] at hj

/-- another key is pressed -/
theorem step_interrupted (h : TimedCfg tcs c) {st : TimedState} (hi : TimedInv tcs st s) {k : Key} {v : Nat} (hw : st.waiting = .undecided k v) (hd : ValidDevice dev)
    {x : Key} (hx : isDeviceKey x = true) (hxh : x ∉ st.held) (hxt : isTimed (mappingsInUse tcs st.current) x = false) :
    TimedInv tcs (st.interrupted (mappingsInUse tcs st.current) k v x).1 (update c s ⟨x, .Down, 0⟩ dev).1 ∧
      (update c s ⟨x, .Down, 0⟩ dev).2 = (st.interrupted (mappingsInUse tcs st.current) k v x).2 := by
  have hstate := hi.state
  rw [hw] at hstate
  obtain ⟨b, m, hb, hheld, hk, hts, hmt, hf, ht⟩ := hstate
  have hnd := hi.nodup
  rw [hheld, List.nodup_append] at hnd
  have hkb : k ∉ bodyKeys b := fun hm => hnd.2.2 k hm k (by simp) rfl
  have hxb : x ∉ bodyKeys b := fun hm => hxh (by rw [hheld]; exact List.mem_append_left _ hm)
  have hxk : x ≠ k := fun hm => hxh (by rw [hheld, hm]; simp)
  have hprop := deviceKey_proper hx
  have hphys : isPhysicallyPressed s x = false := by
    apply notPressed_of
    rw [hts.seq]
    intro e he
    simp only [List.mem_append, List.mem_cons, List.not_mem_nil, or_false] at he
    rcases he with he | he | he
    · exact base_key_ne hb hx hxb e he
    · rw [he]; exact hxk.symm
    · rw [he]; exact hprop.1.2.2.symm
  obtain ⟨s1, h1, _, h3⟩ := update_timed h hi.cur hts ⟨x, .Down, 0⟩ dev (Or.inr ⟨rfl, hphys⟩) (fun he => absurd he hprop.1.2.2)
  rw [h3]
  obtain ⟨hp, _, _⟩ := h1.prepared (ev := ⟨x, .Down, 0⟩) (Or.inl rfl)
  have hc : Causes st.outs (some k) := ⟨hi.causes, fun j hj => by simp only [Option.some.injEq] at hj; rw [← hj]; exact hk⟩
  rw [show (b ++ [(⟨k, .Down, 0⟩ : KeyEvent), ⟨Key.timeout, .Up, v⟩]) ++ [⟨x, .Down, 0⟩] = b ++ [⟨k, .Down, 0⟩, ⟨Key.timeout, .Up, v⟩, ⟨x, .Down, 0⟩] by simp] at hp
  have hreq := untimed_first hxt
  unfold finished TimedState.interrupted TimedState.press
  generalize hu : ((⟨x, KeyState.Down, 0⟩ : KeyEvent).state == KeyState.Up && (⟨x, KeyState.Down, 0⟩ : KeyEvent).key != Key.timeout) = u
  obtain ⟨b', s', hb', hkeys', hts', heq⟩ := loop_interrupted (u := u) h hi.cur hd (Or.inl rfl) hp hb hk hkb hx hxk hxb hc _ rfl
  rw [heq]
  have hkx : x ∉ bodyKeys b' := by
    rw [hkeys']
    simp only [List.mem_append, List.mem_singleton, not_or]
    exact ⟨hxb, hxk⟩
  have hc2 := hc.press hk (match (mappingsInUse tcs st.current).find? (fun m => m.key == k && (m.fits v && !m.isTap)) with | some m => m.out | none => [⟨k, .Down, 0⟩])
  obtain ⟨b2, h5, h6, _, h7⟩ := loop_press_put (u := u) h hi.cur hd hts' hb' hx hkx hc2 hreq _ rfl
  simp only [hreq]
  obtain ⟨h8, h9⟩ := put_inv (x := x)
    (st := ({ (st.replace k ((mappingsInUse tcs st.current).find? (fun m => m.key == k && (m.fits v && !m.isTap)))).1 with held := st.held ++ [x] }.replace x
      ((mappingsInUse tcs st.current).find? (fun m => m.key == x))).1)
    h hi.cur h7 h5 hx (hc2.press hx _).outs (by rw [h6, hkeys', ← hheld]; rfl) (nodup_snoc hi.nodup hxh)
    (fun j hj => by
      simp only [Option.some.injEq] at hj
      refine List.mem_append_left _ ?_
      show j ∈ st.held
      rw [hheld, ← hj]; simp) ⟨rfl, rfl, rfl⟩
  exact ⟨h8, by rw [h9]; rfl⟩

/-- another key is released -/
theorem step_interruptedUp (h : TimedCfg tcs c) {st : TimedState} (hi : TimedInv tcs st s) {k : Key} {v : Nat} (hw : st.waiting = .undecided k v) (hd : ValidDevice dev)
    {x : Key} (hxh : x ∈ st.held) (hxk : x ≠ k) :
    TimedInv tcs (st.interruptedUp (mappingsInUse tcs st.current) k v x).1 (update c s ⟨x, .Up, 0⟩ dev).1 ∧
      (update c s ⟨x, .Up, 0⟩ dev).2 = (st.interruptedUp (mappingsInUse tcs st.current) k v x).2 := by
  have hstate := hi.state
  rw [hw] at hstate
  obtain ⟨b, m, hb, hheld, hk, hts, hmt, hf, ht⟩ := hstate
  have hnd := hi.nodup
  rw [hheld, List.nodup_append] at hnd
  have hkb : k ∉ bodyKeys b := fun hm => hnd.2.2 k hm k (by simp) rfl
  have hxb : x ∈ bodyKeys b := by
    rw [hheld, List.mem_append, List.mem_singleton] at hxh
    rcases hxh with h1 | h1
    · exact h1
    · exact absurd h1 hxk
  have hx := bodyKeys_device hb x hxb
  have hprop := deviceKey_proper hx
  obtain ⟨s1, h1, h2, h3⟩ := update_timed h hi.cur hts ⟨x, .Up, 0⟩ dev (Or.inl rfl) (fun he => absurd he hprop.1.2.2)
  rw [h3]
  rw [hmt] at h2
  obtain ⟨hp, _, _⟩ := h1.prepared (ev := ⟨x, .Up, 0⟩) (Or.inr ⟨rfl, h2⟩)
  have hc : Causes st.outs (some k) := ⟨hi.causes, fun j hj => by simp only [Option.some.injEq] at hj; rw [← hj]; exact hk⟩
  rw [show (b ++ [(⟨k, .Down, 0⟩ : KeyEvent), ⟨Key.timeout, .Up, v⟩]) ++ [⟨x, .Up, 0⟩] = b ++ [⟨k, .Down, 0⟩, ⟨Key.timeout, .Up, v⟩, ⟨x, .Up, 0⟩] by simp] at hp
  unfold finished TimedState.interruptedUp TimedState.replace TimedState.put TimedState.release
  generalize hu : ((⟨x, KeyState.Up, 0⟩ : KeyEvent).state == KeyState.Up && (⟨x, KeyState.Up, 0⟩ : KeyEvent).key != Key.timeout) = u
  obtain ⟨b', s', hb', hkeys', hts', heq⟩ := loop_interrupted_up (u := u) h hi.cur hd hp hb hk hkb hxb hnd.1 hc _ rfl
  rw [heq]
  have hkx : x ∉ bodyKeys b' := by
    rw [hkeys', List.mem_append, List.mem_singleton, hnd.1.mem_erase_iff]
    rintro (h1 | h1)
    · exact h1.1 rfl
    · exact hxk h1
  have h4 := loop_release (u := u) h hi.cur hd hts' hb' hx hkx (hc.press hk _)
  obtain ⟨tg', h5, _, h7, _⟩ := h4.finish_up h hi.cur (ev := ⟨x, .Up, 0⟩) rfl hprop.2.1 rfl
  have hff : ∀ l : List (Key × Key), (l.filter (fun o => o.2 != x)).filter (fun o => o.2 != x) = l.filter (fun o => o.2 != x) := by
    intro l; rw [List.filter_filter]; simp
  have hrr : ∀ l : List (Key × Key), releasesOf (l.filter (fun o => o.2 != x)) x = [] := by
    intro l
    unfold releasesOf
    rw [List.filter_filter]
    simp
  rw [hff, hrr] at h7
  have hke : st.held.erase x = (bodyKeys b).erase x ++ [k] := by rw [hheld, List.erase_append_left _ hxb]
  refine ⟨⟨hi.cur, hi.nodup.erase _, ((hc.press hk _).filter x).outs, ?_⟩, by rw [h7.buf, List.append_nil, List.nil_append]; rfl⟩
  refine ⟨_, tg', hb'.cleaned.dropped, ?_, h7.cleared, ?_⟩
  · rw [bodyKeys_dropWhile, bodyKeys_cleaned, hkeys']
    exact hke.symm
  · intro j hj
    show j ∈ st.held.erase x
    rw [hke]
    rcases h5 with h5 | h5
    · rw [h5] at hj; simp at hj
    · rw [h5] at hj
      have hkx' : (k != x) = true := by simpa using hxk.symm
      simp only [Option.filter, hkx', if_true, Option.some.injEq] at hj
      rw [← hj]; simp

theorem timedCfg_harmless (h : TimedCfg tcs c) : Harmless (fun _ => False) (fun _ => True) c := by
  intro j ctx _ hctx inp hinp
  rw [h.ctxs, List.getElem?_map] at hctx
  obtain ⟨tc, h1, h2⟩ := Option.map_eq_some_iff.1 hctx
  rw [← h2] at hinp
  unfold timedContext at hinp
  obtain ⟨p, h3, h4⟩ := List.mem_map.1 hinp
  have hv := h.valid tc (List.mem_of_getElem? h1) p.1 (List.fst_mem_of_mem_zipIdx h3)
  have hprop := deviceKey_proper hv.1
  rw [← h4]
  have hta : Key.timeout ≠ Key.any := by decide
  refine ⟨?_, ?_⟩
  · intro e he
    refine ⟨fun h => h, ?_⟩
    simp only [TimedMapping.input] at he
    split at he <;> simp only [List.mem_cons, List.not_mem_nil, or_false] at he
    · rcases he with he | he <;> rw [he] <;> exact hprop.1.2.1
    · rcases he with he | he | he <;> rw [he]
      · exact hprop.1.2.1
      · exact hta
      · exact hprop.1.2.1
    · rcases he with he | he | he | he <;> rw [he]
      · exact hprop.1.2.1
      · exact hta
      · exact hprop.1.2.1
      · exact hprop.1.2.1
  · have : p.1.input.head?.map (·.key) = some p.1.key := by
      unfold TimedMapping.input
      split <;> rfl
    rw [this]
    intro hc
    simp only [Option.some.injEq] at hc
    exact hprop.2.1 hc

/-- the active contexts change -/
theorem step_contexts (h : TimedCfg tcs c) {st : TimedState} (hi : TimedInv tcs st s) (hw : st.waiting = .idle) {l : List Nat} (hl : Cur tcs l) :
    TimedInv tcs { st with current := l } (setActiveClientContexts c s l).1 ∧ (setActiveClientContexts c s l).2 = [] := by
  have hstate := hi.state
  rw [hw] at hstate
  obtain ⟨b, tg, hb, hkeys, hts, htg⟩ := hstate
  have hset : ∃ b1, updateActiveContexts c { s with activeClient := l } = { s with activeClient := l, active := l, ub := b1 } := by
    unfold updateActiveContexts
    simp only []
    rw [computeActive_timed h s.seq l [] hl.sorted hl.lt (by simp), List.nil_append]
    simp only []
    generalize mergeContexts s.active l = da
    obtain ⟨d, a⟩ := da
    simp only []
    obtain ⟨b1, h1⟩ := foldContextActive_harmless (timedCfg_harmless h) ⟨Key.ContextActive, .Up, 0⟩ d (fun _ _ => trivial) { s with activeClient := l, active := l }
    rw [h1]
    obtain ⟨b2, h2⟩ := foldContextActive_harmless (timedCfg_harmless h) ⟨Key.ContextActive, .Down, 0⟩ a (fun _ _ => trivial)
      { s with activeClient := l, active := l, ub := b1 }
    exact ⟨b2, h2⟩
  have hok : (decide (l.Pairwise (· ≤ ·)) && l.all (fun i => decide (i < c.contexts.length))) = true := by
    rw [Bool.and_eq_true, decide_eq_true_iff, List.all_eq_true]
    refine ⟨hl.sorted.imp (fun h => Nat.le_of_lt h), ?_⟩
    intro i hm
    rw [decide_eq_true_iff, h.ctxs]
    simpa using hl.lt i hm
  obtain ⟨b1, hset⟩ := hset
  unfold setActiveClientContexts
  simp only []
  rw [if_pos hok, hset]
  unfold cancelInactiveOnRelease
  simp only [hts.onRel, List.filter_nil]
  refine ⟨⟨hl, hi.nodup, hi.causes, ?_⟩, hts.buf⟩
  simp only [hw]
  exact ⟨b, tg, hb, hkeys, ⟨rfl, rfl, rfl, hts.reapplied, hts.hist, hts.seq, hts.might, hts.down, hts.tr, rfl, hts.tg, hts.nt⟩, htg⟩

end

end KM
