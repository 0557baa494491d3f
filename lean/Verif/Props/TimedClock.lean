import Verif.Props.Clock
import Verif.Props.Timed
import Verif.Lemmas.ClockSim
/-!
# Holding and tapping keys, by the clock

**C82** What the mappings `A >> X`, `A{500ms} >> X` and `A{!500ms} >> X` do, from the configuration file to the virtual device.
-/
namespace KM

theorem acceptsAll_snoc {tcs : List (List TimedMapping)} (ops : List StageOp) : ∀ {st : TimedState} {op : StageOp} {log : List StageOp}, st.acceptsAll tcs log → ops ++ [op] <+: log →
    (stateAfter (TimedState.step tcs) st ops).accepts tcs op := by
  induction ops with
  | nil =>
    rintro st op log h ⟨t, rfl⟩
    exact h.1
  | cons o ops ih =>
    rintro st op log h ⟨t, rfl⟩
    exact ih h.2 ⟨t, rfl⟩

/-- a stage outputs what is specified -/
theorem timed_simulates {tcs : List (List TimedMapping)} {c : Cfg} (h : TimedCfg tcs c) {log : List StageOp} (ha : TimedState.acceptsAll tcs {} log) :
    Simulates stageStep (TimedState.step tcs) {} log (fun p st => p.1 = c ∧ TimedInv tcs st p.2) := by
  refine ⟨?_⟩
  rintro ops op hp ⟨c', s⟩ ⟨rfl, hi⟩
  obtain ⟨s', h1, h2⟩ := timed_step h hi (acceptsAll_snoc ops ha hp)
  rw [h1]
  exact ⟨rfl, rfl, h2⟩

/-- **C82** A configuration file, the mappings of which are for keys which are pressed, held for some time or released within some time, is read by the client and sent to the
server. Then the keys which are typed on the grabbed keyboards result in exactly the specified output on the virtual device (`TimedState.step`), where the time which matters is
the one which passes, by the clock of the server, from pressing a key to the next event. -/
theorem C82_by_the_clock {env : ClientEnv} {fs : FileSys} {filename : Str} {upd : Option Window} {config : Config} {chunks : List Bytes}
    (h : SentConfig env fs filename upd config chunks) {tcs : List (List TimedMapping)} (hcfg : config.contexts.map contextOf = tcs.map timedContext)
    (hv : ∀ tc ∈ tcs, ∀ m ∈ tc, m.Valid) (rx : Regex) (isDown : Key → Bool) (ds : List DeviceDesc) (its : List Iteration) (hi : ∀ it ∈ its, it.Ordinary true)
    {first : List StageOp} (hfirst : first = [.contexts (matchingContexts env.rx config (upd.getD {}))])
    (htime : ((⟨{}, none, .zero, []⟩ : Clocked TimedState).apply (TimedState.step tcs) first).1.Timely (TimedState.step tcs) tcs.length its)
    {log : List StageOp} (hlog : log = ((⟨{}, none, .zero, []⟩ : Clocked TimedState).session (TimedState.step tcs) tcs.length first its).1.log)
    {out : KeySequence} (hout : out = ((⟨{}, none, .zero, []⟩ : Clocked TimedState).session (TimedState.step tcs) tcs.length first its).2)
    (ha : TimedState.acceptsAll tcs {} log) (hsend : ∀ e ∈ out, Sendable e) (hexit : NoExit log) :
    (({} : Srv).connection rx (receivedMessages isDown chunks) ds its).out = out.map Eff.sendKey := by
  have hlen : config.contexts.length = tcs.length := by
    have := congrArg List.length hcfg
    simpa using this
  have hsync : Synchron (TimedState.step tcs) {} (fun p st => p.1 = Cfg.make (tcs.map timedContext) ∧ TimedInv tcs st p.2)
      (⟨stageInit (tcs.map timedContext), none, .zero, []⟩ : Clocked (Cfg × S)) (⟨{}, none, .zero, []⟩ : Clocked TimedState) :=
    ⟨⟨rfl, timed_init tcs⟩, rfl, rfl, rfl, rfl⟩
  obtain ⟨h1, h2, h3⟩ := sync_session (timed_simulates (timedCfg_make hv) ha) tcs.length first its hsync (by rw [hlog]; exact List.prefix_refl _) htime
  rw [← hlog] at h1
  rw [← hout] at h2
  refine C81_measures_time h rx isDown ds its hi rfl hfirst ?_ (log := log) ?_ (out := out) ?_ hsend hexit
  · rw [hcfg, hlen]; exact h3
  · rw [hcfg, hlen]; exact h1.symm
  · rw [hcfg, hlen]; exact h2.symm

/-! ### keys with two functions -/

/-- the server is woken up at some time, by a key or since the time is over -/
def wakeAt (now : Int) (read : Read) : Iteration := { now := now, read := read }

/-- nothing happens but that a key is repeated -/
def OnlyWaits (k : Key) (dev : Int) (r : Read) : Prop := r = .nothing ∨ r = .key ⟨k, .Down, 0⟩ dev

theorem noExit_two {ops : List StageOp} {a b : Key} (h : ∀ e ∈ strokes ops, e.1 = a ∨ e.1 = b) : NoExit ops := by
  rintro before last after hs ⟨i, j, l, rfl⟩
  have hm : ∀ e : Key × KeyState, e ∈ List.replicate (i + 1) (Key.ShiftLeft, KeyState.Down) ++ List.replicate (j + 1) (Key.Escape, .Down) ++
      List.replicate (l + 1) (Key.KeyK, .Down) → e.1 = a ∨ e.1 = b := by
    intro e he
    refine h e ?_
    rw [hs]
    exact List.mem_append_left _ (List.mem_append_right _ he)
  have h1 := hm (Key.ShiftLeft, .Down) (by simp)
  have h2 := hm (Key.Escape, .Down) (by simp)
  have h3 := hm (Key.KeyK, .Down) (by simp)
  simp only at h1 h2 h3
  rcases h1 with rfl | rfl <;> rcases h2 with e2 | e2 <;> first | exact absurd e2 (by decide) | skip
  all_goals subst e2
  all_goals rcases h3 with e3 | e3 <;> exact absurd e3 (by decide)

/-- The mappings of a key with two functions, like `A{!200ms} >> X` and `A >> Y`, among the mappings of the active contexts -/
structure TwoFunctions (tcs : List (List TimedMapping)) (l : List Nat) (k : Key) (t : Nat) (X Y : KeySequence) : Prop where
  mappings : (mappingsInUse tcs l).filter (fun m => m.key == k) = [⟨k, .tap t, X⟩, ⟨k, .press, Y⟩]
  pos : 0 < t
  lt : t < 4096

theorem TwoFunctions.first (h : TwoFunctions tcs l k t X Y) : (mappingsInUse tcs l).find? (fun m => m.key == k) = some ⟨k, .tap t, X⟩ := by
  have := find_filter (mappingsInUse tcs l) (fun m => m.key == k) (fun _ => true)
  simp only [Bool.and_true] at this
  rw [this, h.mappings]; rfl

theorem TwoFunctions.early (h : TwoFunctions tcs l k t X Y) {v : Nat} (hv : v < t) :
    (mappingsInUse tcs l).find? (fun m => m.key == k && m.fits v) = some ⟨k, .tap t, X⟩ := by
  rw [find_filter, h.mappings]
  simp [TimedMapping.fits, hv]

theorem TwoFunctions.late (h : TwoFunctions tcs l k t X Y) {v : Nat} (hv : t ≤ v) :
    (mappingsInUse tcs l).find? (fun m => m.key == k && m.fits v) = some ⟨k, .press, Y⟩ := by
  rw [find_filter, h.mappings]
  have : ¬ v < t := by omega
  simp [TimedMapping.fits, this]

theorem TwoFunctions.other (h : TwoFunctions tcs l k t X Y) (v : Nat) :
    (mappingsInUse tcs l).find? (fun m => m.key == k && (m.fits v && !m.isTap)) = some ⟨k, .press, Y⟩ := by
  rw [find_filter, h.mappings]
  simp [TimedMapping.fits, TimedMapping.isTap]

/-- nothing is asked for -/
theorem askedTime_none {out : KeySequence} (h : ∀ e ∈ out, e.key ≠ Key.timeout) : askedTime out = none := by
  unfold askedTime
  cases hl : out.getLast? with
  | none => rfl
  | some e =>
    have := h e (List.mem_of_mem_getLast? hl)
    simp [this]

theorem pressAll_keys (P : Key → Prop) (out : KeySequence) : ∀ {outs : List (Key × Key)} {k : Key}, (∀ o ∈ outs, P o.1) → (∀ e ∈ out, P e.key) →
    ∀ o ∈ pressAll outs k out, P o.1 := by
  induction out with
  | nil => intro outs k h _; exact h
  | cons e out ih =>
    intro outs k h he
    unfold pressAll
    refine ih ?_ (fun d hd => he d (by simp [hd]))
    simp only []
    split
    · exact h
    · intro o ho
      rw [List.mem_append, List.mem_singleton] at ho
      rcases ho with ho | rfl
      · exact h o ho
      · exact he e (by simp)

theorem releasesAfter_keys (P : Key → Prop) {out : KeySequence} {k : Key} (h : ∀ e ∈ out, P e.key) : ∀ e ∈ releasesAfter k out, P e.key := by
  intro e he
  unfold releasesAfter at he
  obtain ⟨o, ho, rfl⟩ := List.mem_map.1 he
  exact pressAll_keys P out (by simp) h o (List.mem_reverse.1 ho)

section

variable {tcs : List (List TimedMapping)} {l : List Nat} {k : Key} {t : Nat} {X Y : KeySequence}

/-- the state while time is measured -/
def measuringFor (l : List Nat) (k : Key) (t : Nat) (t0 : Int) (dev : Int) : Clocked TimedState :=
  { state := { current := l, held := [k], waiting := .answer k }
    since := some (t0, ⟨Key.timeout, .NotTimeout_cancel_on_up_down, t⟩)
    last := ⟨k, .Down, 0⟩
    log := [.contexts l, .input ⟨k, .Down, 0⟩ dev] }

theorem two_press (h : TwoFunctions tcs l k t X Y) (n : Nat) (t0 dev : Int) :
    ((⟨{}, none, .zero, []⟩ : Clocked TimedState).apply (TimedState.step tcs) [.contexts l]).1.wake (TimedState.step tcs) n (wakeAt t0 (.key ⟨k, .Down, 0⟩ dev)) =
      (measuringFor l k t t0 dev, []) := by
  have hpos := h.pos
  have h1 : ¬ (t0 + (t : Int) ≤ t0) := by omega
  have hstep : TimedState.step tcs { current := l } (.input ⟨k, .Down, 0⟩ dev) =
      ({ current := l, held := [k], waiting := .answer k }, [⟨Key.timeout, .NotTimeout_cancel_on_up_down, t⟩]) := by
    simp [TimedState.step, TimedState.press, h.first, TimedMapping.asks]
  have hc : TimedState.step tcs {} (.contexts l) = ({ current := l }, []) := rfl
  have hq : askedTime [⟨Key.timeout, .NotTimeout_cancel_on_up_down, t⟩] = some ⟨Key.timeout, .NotTimeout_cancel_on_up_down, t⟩ := rfl
  simp [Clocked.apply, Clocked.wake, wakeAt, Clocked.read, Clocked.key, Clocked.interrupt, Clocked.input, hc, hstep, hq, Clocked.expire, h1, measuringFor]

theorem two_wait (n : Nat) (t0 dev : Int) {now : Int} {r : Read} (hr : OnlyWaits k dev r) (ht : now < t0 + (t : Int)) :
    (measuringFor l k t t0 dev).wake (TimedState.step tcs) n (wakeAt now r) = (measuringFor l k t t0 dev, []) := by
  have h1 : ¬ (t0 + (t : Int) ≤ now) := by omega
  rcases hr with rfl | rfl <;> simp [Clocked.wake, wakeAt, Clocked.read, Clocked.key, Clocked.expire, measuringFor, h1, Clocked.apply]

/-- the state after the second function was triggered -/
def secondFunction (l : List Nat) (k : Key) (Y : KeySequence) : TimedState :=
  { current := l, held := [k], outs := pressAll [] k Y }

theorem two_elapsed_late (h : TwoFunctions tcs l k t X Y) (hY : ∀ e ∈ Y, Ordinary e.key) (t0 dev now : Int) {ms : Int} (hms : (t : Int) ≤ ms) (dev' : Int) :
    (measuringFor l k t t0 dev).elapsed (TimedState.step tcs) now ms dev' =
      (⟨secondFunction l k Y, none, ⟨k, .Down, 0⟩, [.contexts l, .input ⟨k, .Down, 0⟩ dev, .input ⟨Key.timeout, .Up, measured ms⟩ dev']⟩, Y) := by
  have hlt := h.lt
  have hm : t ≤ measured ms := by unfold measured; omega
  have hstep : TimedState.step tcs { current := l, held := [k], waiting := .answer k } (.input ⟨Key.timeout, .Up, measured ms⟩ dev') = (secondFunction l k Y, Y) := by
    simp [TimedState.step, TimedState.elapse, h.late hm, TimedMapping.isTap, TimedState.replace, TimedState.put, secondFunction]
  have hn : askedTime Y = none := askedTime_none (fun e he => (ordinary_noWheel (hY e he)).2.1)
  simp only [Clocked.elapsed, measuringFor, Clocked.input, hstep, hn]
  rfl

theorem two_elapsed_early (h : TwoFunctions tcs l k t X Y) (t0 dev now : Int) {ms : Int} (hms : ms < (t : Int)) (dev' : Int) :
    (measuringFor l k t t0 dev).elapsed (TimedState.step tcs) now ms dev' =
      (⟨{ current := l, held := [k], waiting := .undecided k (measured ms) }, none, ⟨k, .Down, 0⟩,
        [.contexts l, .input ⟨k, .Down, 0⟩ dev, .input ⟨Key.timeout, .Up, measured ms⟩ dev']⟩, []) := by
  have hpos := h.pos
  have hm : measured ms < t := by unfold measured; omega
  have hstep : TimedState.step tcs { current := l, held := [k], waiting := .answer k } (.input ⟨Key.timeout, .Up, measured ms⟩ dev') =
      ({ current := l, held := [k], waiting := .undecided k (measured ms) }, []) := by
    simp [TimedState.step, TimedState.elapse, h.early hm, TimedMapping.isTap]
  simp only [Clocked.elapsed, measuringFor, Clocked.input, hstep]
  rfl

theorem two_interrupt (t0 dev now : Int) (ev : KeyEvent) (dev' : Int) :
    (measuringFor l k t t0 dev).interrupt (TimedState.step tcs) now ev dev' = (measuringFor l k t t0 dev).elapsed (TimedState.step tcs) now (now - t0) dev' := by
  simp [Clocked.interrupt, measuringFor]

/-- the time is over -/
theorem two_expire (h : TwoFunctions tcs l k t X Y) (hY : ∀ e ∈ Y, Ordinary e.key) (n : Nat) (t0 dev : Int) {now : Int} {r : Read} (hr : OnlyWaits k dev r) (ht : t0 + (t : Int) ≤ now) :
    (measuringFor l k t t0 dev).wake (TimedState.step tcs) n (wakeAt now r) =
      (⟨secondFunction l k Y, none, ⟨k, .Down, 0⟩, [.contexts l, .input ⟨k, .Down, 0⟩ dev, .input ⟨Key.timeout, .Up, measured t⟩ anyDeviceIndex]⟩, Y) := by
  have hread : (measuringFor l k t t0 dev).read (TimedState.step tcs) now r = (measuringFor l k t t0 dev, []) := by
    rcases hr with rfl | rfl
    · rfl
    · simp [Clocked.read, Clocked.key, measuringFor]
  have hexp : (measuringFor l k t t0 dev).expire (TimedState.step tcs) now = (measuringFor l k t t0 dev).elapsed (TimedState.step tcs) now t anyDeviceIndex := by
    simp [Clocked.expire, measuringFor, ht]
  have hno : r ≠ .other := by rcases hr with rfl | rfl <;> simp
  simp only [Clocked.wake, wakeAt, if_neg hno, hread, hexp, two_elapsed_late h hY t0 dev now (Int.le_refl _) anyDeviceIndex]
  simp [Clocked.apply]

theorem second_release (hY : ∀ e ∈ Y, Ordinary e.key) (n : Nat) (now dev : Int) (log : List StageOp) (last : KeyEvent) :
    ((⟨secondFunction l k Y, none, last, log⟩ : Clocked TimedState).wake (TimedState.step tcs) n (wakeAt now (.key ⟨k, .Up, 0⟩ dev))) =
      (⟨{ current := l }, none, ⟨k, .Up, 0⟩, log ++ [.input ⟨k, .Up, 0⟩ dev]⟩, releasesAfter k Y) := by
  have hrel : (pressAll [] k Y).filter (fun o => o.2 == k) = pressAll [] k Y := release_all (pressAll_cause Y)
  have hrel' : (pressAll [] k Y).filter (fun o => o.2 != k) = [] := by
    rw [List.filter_eq_nil_iff]
    intro o ho
    simp [pressAll_cause Y o ho]
  have hstep : TimedState.step tcs (secondFunction l k Y) (.input ⟨k, .Up, 0⟩ dev) = ({ current := l }, releasesAfter k Y) := by
    simp [TimedState.step, secondFunction, TimedState.release, hrel, hrel', releasesAfter]
  have hn : askedTime (releasesAfter k Y) = none := askedTime_none (fun e he => (ordinary_noWheel (releasesAfter_keys Ordinary hY e he)).2.1)
  simp [Clocked.wake, wakeAt, Clocked.read, Clocked.key, Clocked.interrupt, Clocked.input, hstep, hn, Clocked.expire, Clocked.apply]

theorem second_release_since (hY : ∀ e ∈ Y, Ordinary e.key) (now dev : Int) (log : List StageOp) (last : KeyEvent) :
    ((⟨secondFunction l k Y, none, last, log⟩ : Clocked TimedState).key (TimedState.step tcs) now ⟨k, .Up, 0⟩ dev).1.since = none := by
  have hrel : (pressAll [] k Y).filter (fun o => o.2 == k) = pressAll [] k Y := release_all (pressAll_cause Y)
  have hstep : (TimedState.step tcs (secondFunction l k Y) (.input ⟨k, .Up, 0⟩ dev)).2 = releasesAfter k Y := by
    simp [TimedState.step, secondFunction, TimedState.release, hrel, releasesAfter]
  have hn : askedTime (releasesAfter k Y) = none := askedTime_none (fun e he => (ordinary_noWheel (releasesAfter_keys Ordinary hY e he)).2.1)
  simp [Clocked.key, Clocked.interrupt, Clocked.input, hstep, hn]

/-- it is released within the time -/
theorem two_tap (h : TwoFunctions tcs l k t X Y) (hX : ∀ e ∈ X, Ordinary e.key) (n : Nat) (t0 dev : Int) {now : Int} (ht : now < t0 + (t : Int)) (dev' : Int) :
    (measuringFor l k t t0 dev).wake (TimedState.step tcs) n (wakeAt now (.key ⟨k, .Up, 0⟩ dev')) =
      (⟨{ current := l }, none, ⟨k, .Up, 0⟩,
        [.contexts l, .input ⟨k, .Down, 0⟩ dev, .input ⟨Key.timeout, .Up, measured (now - t0)⟩ dev', .input ⟨k, .Up, 0⟩ dev']⟩, X ++ releasesAfter k X) ∧
    ((measuringFor l k t t0 dev).key (TimedState.step tcs) now ⟨k, .Up, 0⟩ dev').1.since = none := by
  have hpos := h.pos
  have hm : measured (now - t0) < t := by unfold measured; omega
  have hrel : (pressAll [] k X).filter (fun o => o.2 == k) = pressAll [] k X := release_all (pressAll_cause X)
  have hrel' : (pressAll [] k X).filter (fun o => o.2 != k) = [] := by
    rw [List.filter_eq_nil_iff]
    intro o ho
    simp [pressAll_cause X o ho]
  have hstep : TimedState.step tcs { current := l, held := [k], waiting := .undecided k (measured (now - t0)) } (.input ⟨k, .Up, 0⟩ dev') =
      ({ current := l }, X ++ releasesAfter k X) := by
    simp [TimedState.step, TimedState.tapped, h.early hm, TimedState.replace, TimedState.put, TimedState.release, hrel, hrel', releasesAfter]
  have hn : askedTime (X ++ releasesAfter k X) = none := by
    refine askedTime_none ?_
    intro e he
    rcases List.mem_append.1 he with he | he
    · exact (ordinary_noWheel (hX e he)).2.1
    · exact (ordinary_noWheel (releasesAfter_keys Ordinary hX e he)).2.1
  have hkey : (measuringFor l k t t0 dev).key (TimedState.step tcs) now ⟨k, .Up, 0⟩ dev' =
      (⟨{ current := l }, none, ⟨k, .Up, 0⟩,
        [.contexts l, .input ⟨k, .Down, 0⟩ dev, .input ⟨Key.timeout, .Up, measured (now - t0)⟩ dev', .input ⟨k, .Up, 0⟩ dev']⟩, X ++ releasesAfter k X) := by
    unfold Clocked.key
    rw [if_neg (by simp [measuringFor]), two_interrupt, two_elapsed_early h t0 dev now (by omega) dev']
    simp [Clocked.input, hstep, hn]
  refine ⟨?_, by rw [hkey]⟩
  simp [Clocked.wake, wakeAt, Clocked.read, hkey, Clocked.expire, Clocked.apply]

/-- another key is pressed within the time -/
theorem two_other (h : TwoFunctions tcs l k t X Y) (hY : ∀ e ∈ Y, Ordinary e.key) (n : Nat) (t0 dev : Int) {now : Int} (ht : now < t0 + (t : Int)) (dev' : Int) {x : Key}
    (hx : Ordinary x) (hxk : x ≠ k) (hxm : ∀ m ∈ mappingsInUse tcs l, m.key ≠ x) :
    ∃ c, (measuringFor l k t t0 dev).wake (TimedState.step tcs) n (wakeAt now (.key ⟨x, .Down, 0⟩ dev')) = (c, Y ++ [⟨x, .Down, 0⟩]) ∧ 
      c.log = [.contexts l, .input ⟨k, .Down, 0⟩ dev, .input ⟨Key.timeout, .Up, measured (now - t0)⟩ dev', .input ⟨x, .Down, 0⟩ dev'] ∧
      ((measuringFor l k t t0 dev).key (TimedState.step tcs) now ⟨x, .Down, 0⟩ dev').1.since = none := by
  have hpos := h.pos
  have hm : measured (now - t0) < t := by unfold measured; omega
  have hfx : (mappingsInUse tcs l).find? (fun m => m.key == x) = none := by
    rw [List.find?_eq_none]
    intro m hm
    simpa using hxm m hm
  obtain ⟨st, hst⟩ : ∃ st, TimedState.step tcs { current := l, held := [k], waiting := .undecided k (measured (now - t0)) } (.input ⟨x, .Down, 0⟩ dev') =
      (st, Y ++ [⟨x, .Down, 0⟩]) := by
    refine ⟨(TimedState.step tcs { current := l, held := [k], waiting := .undecided k (measured (now - t0)) } (.input ⟨x, .Down, 0⟩ dev')).1, ?_⟩
    simp [TimedState.step, TimedState.interrupted, h.other, TimedState.replace, TimedState.put, TimedState.press, hfx]
  have hn : askedTime (Y ++ [⟨x, .Down, 0⟩]) = none := by
    refine askedTime_none ?_
    intro e he
    rcases List.mem_append.1 he with he | he
    · exact (ordinary_noWheel (hY e he)).2.1
    · rw [List.mem_singleton.1 he]; exact (ordinary_noWheel hx).2.1
  have hkey : (measuringFor l k t t0 dev).key (TimedState.step tcs) now ⟨x, .Down, 0⟩ dev' =
      (⟨st, none, ⟨x, .Down, 0⟩,
        [.contexts l, .input ⟨k, .Down, 0⟩ dev, .input ⟨Key.timeout, .Up, measured (now - t0)⟩ dev', .input ⟨x, .Down, 0⟩ dev']⟩, Y ++ [⟨x, .Down, 0⟩]) := by
    unfold Clocked.key
    rw [if_neg (by simp [measuringFor, hxk]), two_interrupt, two_elapsed_early h t0 dev now (by omega) dev']
    simp [Clocked.input, hst, hn]
  refine ⟨⟨st, none, ⟨x, .Down, 0⟩,
        [.contexts l, .input ⟨k, .Down, 0⟩ dev, .input ⟨Key.timeout, .Up, measured (now - t0)⟩ dev', .input ⟨x, .Down, 0⟩ dev']⟩, ?_, rfl, by rw [hkey]⟩
  simp [Clocked.wake, wakeAt, Clocked.read, hkey, Clocked.expire, Clocked.apply]

/-- it is released after the time -/
theorem two_late_release (h : TwoFunctions tcs l k t X Y) (hY : ∀ e ∈ Y, Ordinary e.key) (n : Nat) (t0 dev : Int) {now : Int} (ht : t0 + (t : Int) ≤ now) (dev' : Int) :
    (measuringFor l k t t0 dev).wake (TimedState.step tcs) n (wakeAt now (.key ⟨k, .Up, 0⟩ dev')) =
      (⟨{ current := l }, none, ⟨k, .Up, 0⟩,
        [.contexts l, .input ⟨k, .Down, 0⟩ dev, .input ⟨Key.timeout, .Up, measured (now - t0)⟩ dev', .input ⟨k, .Up, 0⟩ dev']⟩, Y ++ releasesAfter k Y) ∧
    ((measuringFor l k t t0 dev).key (TimedState.step tcs) now ⟨k, .Up, 0⟩ dev').1.since = none := by
  have hw := second_release (tcs := tcs) (l := l) (k := k) hY n now dev' [.contexts l, .input ⟨k, .Down, 0⟩ dev, .input ⟨Key.timeout, .Up, measured (now - t0)⟩ dev'] ⟨k, .Down, 0⟩
  have hk2 : ((⟨secondFunction l k Y, none, ⟨k, .Up, 0⟩, [.contexts l, .input ⟨k, .Down, 0⟩ dev, .input ⟨Key.timeout, .Up, measured (now - t0)⟩ dev']⟩ : Clocked TimedState).input
      (TimedState.step tcs) now ⟨k, .Up, 0⟩ dev') = (⟨{ current := l }, none, ⟨k, .Up, 0⟩,
        [.contexts l, .input ⟨k, .Down, 0⟩ dev, .input ⟨Key.timeout, .Up, measured (now - t0)⟩ dev', .input ⟨k, .Up, 0⟩ dev']⟩, releasesAfter k Y) := by
    have hrel : (pressAll [] k Y).filter (fun o => o.2 == k) = pressAll [] k Y := release_all (pressAll_cause Y)
    have hrel' : (pressAll [] k Y).filter (fun o => o.2 != k) = [] := by
      rw [List.filter_eq_nil_iff]
      intro o ho
      simp [pressAll_cause Y o ho]
    have hstep : TimedState.step tcs (secondFunction l k Y) (.input ⟨k, .Up, 0⟩ dev') = ({ current := l }, releasesAfter k Y) := by
      simp [TimedState.step, secondFunction, TimedState.release, hrel, hrel', releasesAfter]
    have hn : askedTime (releasesAfter k Y) = none := askedTime_none (fun e he => (ordinary_noWheel (releasesAfter_keys Ordinary hY e he)).2.1)
    simp [Clocked.input, hstep, hn]
  have hkey : (measuringFor l k t t0 dev).key (TimedState.step tcs) now ⟨k, .Up, 0⟩ dev' =
      (⟨{ current := l }, none, ⟨k, .Up, 0⟩,
        [.contexts l, .input ⟨k, .Down, 0⟩ dev, .input ⟨Key.timeout, .Up, measured (now - t0)⟩ dev', .input ⟨k, .Up, 0⟩ dev']⟩, Y ++ releasesAfter k Y) := by
    unfold Clocked.key
    rw [if_neg (by simp [measuringFor]), two_interrupt, two_elapsed_late h hY t0 dev now (by omega) dev']
    simp only [hk2]
  refine ⟨?_, by rw [hkey]⟩
  simp [Clocked.wake, wakeAt, Clocked.read, hkey, Clocked.expire, Clocked.apply]

theorem run_waits (n : Nat) (t0 dev : Int) (waits : List (Int × Read)) (hw : ∀ w ∈ waits, OnlyWaits k dev w.2 ∧ t0 ≤ w.1 ∧ w.1 < t0 + (t : Int)) (its : List Iteration) :
    (measuringFor l k t t0 dev).run (TimedState.step tcs) n (waits.map (fun w => wakeAt w.1 w.2) ++ its) = (measuringFor l k t t0 dev).run (TimedState.step tcs) n its ∧
    (t < 4096 → (measuringFor l k t t0 dev).Timely (TimedState.step tcs) n its → (measuringFor l k t t0 dev).Timely (TimedState.step tcs) n (waits.map (fun w => wakeAt w.1 w.2) ++ its)) := by
  induction waits with
  | nil => exact ⟨rfl, fun _ h => h⟩
  | cons w ws ih =>
    obtain ⟨h1, h2, h3⟩ := hw w (by simp)
    obtain ⟨h4, h5⟩ := ih (fun x hx => hw x (by simp [hx]))
    have hwk := two_wait (tcs := tcs) (l := l) (k := k) (t := t) n t0 dev h1 h3
    constructor
    · rw [List.map_cons, List.cons_append, Clocked.run]
      simp only [hwk, List.nil_append, h4]
    · intro ht4 ht
      rw [List.map_cons, List.cons_append, Clocked.Timely]
      have hread : ((measuringFor l k t t0 dev).read (TimedState.step tcs) w.1 w.2).1 = measuringFor l k t t0 dev := by
        rcases h1 with h | h <;> rw [h]
        · rfl
        · simp [Clocked.read, Clocked.key, measuringFor]
      refine ⟨?_, ?_, ?_⟩
      · intro start request he
        simp only [measuringFor, Option.some.injEq, Prod.mk.injEq] at he
        rw [← he.1]
        show t0 ≤ w.1 ∧ w.1 - t0 < _
        omega
      · intro start request he
        have he : ((measuringFor l k t t0 dev).read (TimedState.step tcs) w.1 w.2).1.since = some (start, request) := he
        rw [hread] at he
        simp only [measuringFor, Option.some.injEq, Prod.mk.injEq] at he
        rw [← he.2]; exact ht4
      · rw [hwk]; exact h5 ht4 ht

end

/-- what the server outputs -/
def serverOutput (rx : Regex) (isDown : Key → Bool) (ds : List DeviceDesc) (chunks : List Bytes) (its : List Iteration) : List Eff :=
  (({} : Srv).connection rx (receivedMessages isDown chunks) ds its).out

/-- **C82** A key with two functions, like `A{!200ms} >> X` followed by `A >> Y`, from the configuration file to the virtual device. It is pressed at some time, then the
server may be woken up meanwhile and the key may repeat. When it is released within the time, then `X` is output (and released). When it is still held
when the time has passed, then `Y` is output as soon as the server is woken up, and `Y` is held until the key is released. When another key is
pressed within the time, then `Y` is output, followed by the other key. -/
theorem C82_two_functions {env : ClientEnv} {fs : FileSys} {filename : Str} {upd : Option Window} {config : Config} {chunks : List Bytes}
    (h : SentConfig env fs filename upd config chunks) {tcs : List (List TimedMapping)} (hcfg : config.contexts.map contextOf = tcs.map timedContext)
    (hv : ∀ tc ∈ tcs, ∀ m ∈ tc, m.Valid) (rx : Regex) (isDown : Key → Bool) (ds : List DeviceDesc) {k : Key} (hk : Ordinary k) {t : Nat} {X Y : KeySequence}
    (htwo : TwoFunctions tcs (matchingContexts env.rx config (upd.getD {})) k t X Y) (hX : ∀ e ∈ X, Ordinary e.key) (hY : ∀ e ∈ Y, Ordinary e.key)
    {dev : Int} (hd : ValidDevice dev) (t0 : Int) (waits : List (Int × Read)) (hw : ∀ w ∈ waits, OnlyWaits k dev w.2 ∧ t0 ≤ w.1 ∧ w.1 < t0 + (t : Int)) {its : List Iteration}
    (hits : its = wakeAt t0 (.key ⟨k, .Down, 0⟩ dev) :: waits.map (fun w => wakeAt w.1 w.2)) (t1 : Int) (h01 : t0 ≤ t1) (h01' : t1 - t0 < 2 ^ 31) :
    serverOutput rx isDown ds chunks its = [] ∧
    (t1 < t0 + (t : Int) → serverOutput rx isDown ds chunks (its ++ [wakeAt t1 (.key ⟨k, .Up, 0⟩ dev)]) = (X ++ releasesAfter k X).map Eff.sendKey) ∧
    (t0 + (t : Int) ≤ t1 → ∀ r, OnlyWaits k dev r → serverOutput rx isDown ds chunks (its ++ [wakeAt t1 r]) = Y.map Eff.sendKey) ∧
    (t0 + (t : Int) ≤ t1 → ∀ r, OnlyWaits k dev r → ∀ t2, t1 ≤ t2 →
      serverOutput rx isDown ds chunks (its ++ [wakeAt t1 r, wakeAt t2 (.key ⟨k, .Up, 0⟩ dev)]) = (Y ++ releasesAfter k Y).map Eff.sendKey) ∧
    (t0 + (t : Int) ≤ t1 → serverOutput rx isDown ds chunks (its ++ [wakeAt t1 (.key ⟨k, .Up, 0⟩ dev)]) = (Y ++ releasesAfter k Y).map Eff.sendKey) ∧
    (t1 < t0 + (t : Int) → ∀ x, Ordinary x → x ≠ k → (∀ m ∈ mappingsInUse tcs (matchingContexts env.rx config (upd.getD {})), m.key ≠ x) →
      serverOutput rx isDown ds chunks (its ++ [wakeAt t1 (.key ⟨x, .Down, 0⟩ dev)]) = (Y ++ [(⟨x, .Down, 0⟩ : KeyEvent)]).map Eff.sendKey) := by
  obtain ⟨l, hl⟩ : ∃ l, l = matchingContexts env.rx config (upd.getD {}) := ⟨_, rfl⟩
  rw [← hl] at htwo ⊢
  have hlen : config.contexts.length = tcs.length := by
    have := congrArg List.length hcfg
    simpa using this
  have hl1 : l.Pairwise (· < ·) := by
    rw [hl]; unfold matchingContexts
    exact List.Pairwise.filter _ List.pairwise_lt_range
  have hl2 : ∀ i ∈ l, i < tcs.length := by
    intro i hi
    rw [hl] at hi
    unfold matchingContexts at hi
    have := (List.mem_filter.1 hi).1
    rw [List.mem_range] at this
    omega
  -- what happens at last
  have hmain : ∀ (rest : List Iteration) (out : KeySequence) (c : Clocked TimedState), (∀ it ∈ rest, it.Ordinary true) →
      (measuringFor l k t t0 dev).run (TimedState.step tcs) tcs.length rest = (c, out) → (measuringFor l k t t0 dev).Timely (TimedState.step tcs) tcs.length rest →
      TimedState.acceptsAll tcs {} c.log → (∀ e ∈ out, Ordinary e.key) → NoExit c.log → serverOutput rx isDown ds chunks (its ++ rest) = out.map Eff.sendKey := by
    intro rest out c hi hrun ht ha hout hexit
    obtain ⟨hrw, htw⟩ := run_waits (tcs := tcs) (l := l) (k := k) (t := t) tcs.length t0 dev waits hw rest
    have hpress := two_press htwo tcs.length t0 dev
    have hsess : (⟨{}, none, .zero, []⟩ : Clocked TimedState).session (TimedState.step tcs) tcs.length [.contexts l] (its ++ rest) = (c, out) := by
      rw [hits, List.cons_append, Clocked.session, Clocked.run]
      simp only [hpress, List.nil_append, hrw, hrun]
      rfl
    refine C82_by_the_clock h hcfg hv rx isDown ds (its ++ rest) ?_ rfl ?_ (log := c.log) ?_ (out := out) ?_ ha (fun e he => ordinary_sendable (hout e he)) hexit
    · intro it hit
      rw [hits] at hit
      simp only [List.cons_append, List.mem_cons, List.mem_append, List.mem_map] at hit
      rcases hit with rfl | ⟨w, hwm, rfl⟩ | hit
      · refine ⟨?_, rfl, .inl rfl, (by intro m hm; cases hm), rfl⟩
        intro ev d he
        cases he; exact hk
      · refine ⟨?_, rfl, .inl rfl, (by intro m hm; cases hm), rfl⟩
        intro ev d he
        rcases (hw w hwm).1 with h1 | h1 <;> rw [wakeAt, h1] at he <;> cases he
        exact hk
      · exact hi it hit
    · rw [← hl, hits, List.cons_append]
      refine ⟨fun _ _ he => (by cases he), ?_, ?_⟩
      · intro start request he
        have hpos := htwo.pos
        have hstep : TimedState.step tcs { current := l } (.input ⟨k, .Down, 0⟩ dev) =
            ({ current := l, held := [k], waiting := .answer k }, [⟨Key.timeout, .NotTimeout_cancel_on_up_down, t⟩]) := by
          simp [TimedState.step, TimedState.press, htwo.first, TimedMapping.asks]
        have hc : TimedState.step tcs {} (.contexts l) = ({ current := l }, []) := rfl
        have hq : askedTime [⟨Key.timeout, .NotTimeout_cancel_on_up_down, t⟩] = some ⟨Key.timeout, .NotTimeout_cancel_on_up_down, t⟩ := rfl
        simp [Clocked.apply, wakeAt, Clocked.read, Clocked.key, Clocked.interrupt, Clocked.input, hc, hstep, hq] at he
        rw [← he.2]; exact htwo.lt
      · rw [hpress]; exact htw htwo.lt ht
    · rw [← hl, hsess]
    · rw [← hl, hsess]
  -- accepted
  have hap : ∀ ops, TimedState.acceptsAll tcs { current := l, held := [k], waiting := .answer k } ops →
      TimedState.acceptsAll tcs {} (.contexts l :: .input ⟨k, .Down, 0⟩ dev :: ops) := by
    intro ops ho
    refine ⟨⟨rfl, hl1, hl2⟩, ⟨hd, Or.inl ⟨k, rfl, hk.1, by simp [TimedState.step], by simp [TimedState.step]⟩⟩, ?_⟩
    have hstep : TimedState.step tcs { current := l } (.input ⟨k, .Down, 0⟩ dev) =
        ({ current := l, held := [k], waiting := .answer k }, [⟨Key.timeout, .NotTimeout_cancel_on_up_down, t⟩]) := by
      simp [TimedState.step, TimedState.press, htwo.first, TimedMapping.asks]
    show TimedState.acceptsAll tcs (TimedState.step tcs { current := l } (.input ⟨k, .Down, 0⟩ dev)).1 ops
    rw [hstep]; exact ho
  have hne : ∀ (ops : List StageOp) (x : Key), (∀ op ∈ ops, ∃ ev d, op = .input ev d ∧ (ev.key = k ∨ ev.key = x ∨ ev.key = Key.timeout)) → NoExit (.contexts l :: ops) := by
    intro ops x ho
    refine noExit_two (a := k) (b := x) ?_
    show ∀ e ∈ strokes ops, _
    clear hap hmain
    induction ops with
    | nil => intro e he; cases he
    | cons op ops ih =>
      obtain ⟨ev, d, rfl, h1⟩ := ho op (by simp)
      intro e he
      rw [strokes] at he
      split at he
      · next hkb =>
        rcases List.mem_cons.1 he with rfl | he
        · rcases h1 with h1 | h1 | h1
          · exact Or.inl h1
          · exact Or.inr h1
          · rw [h1] at hkb; exact absurd hkb (by decide)
        · exact ih (fun op' hop' => ho op' (by simp [hop'])) e he
      · exact ih (fun op' hop' => ho op' (by simp [hop'])) e he
  have hord : ∀ now r, (∀ ev d, r = .key ev d → Ordinary ev.key) → (wakeAt now r).Ordinary true :=
    fun now r hr => ⟨hr, rfl, .inl rfl, (by intro m hm; cases hm), rfl⟩
  have hwo : ∀ r, OnlyWaits k dev r → ∀ ev d, r = .key ev d → Ordinary ev.key := by
    rintro r (rfl | rfl) ev d he <;> cases he
    exact hk
  have hko : ∀ s : KeyState, ∀ ev d, Read.key ⟨k, s, 0⟩ dev = .key ev d → Ordinary ev.key := by
    intro s ev d he; cases he; exact hk
  have hrel : ∀ Z : KeySequence, (∀ e ∈ Z, Ordinary e.key) → ∀ e ∈ Z ++ releasesAfter k Z, Ordinary e.key := by
    intro Z hZ e he
    rcases List.mem_append.1 he with he | he
    · exact hZ e he
    · exact releasesAfter_keys Ordinary hZ e he
  have hlt := htwo.lt
  -- time
  have htm : ∀ r rest, (∀ start request, ((measuringFor l k t t0 dev).read (TimedState.step tcs) t1 r).1.since = some (start, request) → request.value < 4096) →
      ((measuringFor l k t t0 dev).wake (TimedState.step tcs) tcs.length (wakeAt t1 r)).1.Timely (TimedState.step tcs) tcs.length rest →
      (measuringFor l k t t0 dev).Timely (TimedState.step tcs) tcs.length (wakeAt t1 r :: rest) := by
    intro r rest h1 h2
    refine ⟨?_, h1, h2⟩
    intro start request he
    simp only [measuringFor, Option.some.injEq, Prod.mk.injEq] at he
    rw [← he.1]
    exact ⟨h01, h01'⟩
  have hreadw : ∀ r, OnlyWaits k dev r → ∀ start request, ((measuringFor l k t t0 dev).read (TimedState.step tcs) t1 r).1.since = some (start, request) → request.value < 4096 := by
    intro r hr start request he
    have hread : ((measuringFor l k t t0 dev).read (TimedState.step tcs) t1 r).1 = measuringFor l k t t0 dev := by
      rcases hr with h | h <;> rw [h]
      · rfl
      · simp [Clocked.read, Clocked.key, measuringFor]
    rw [hread] at he
    simp only [measuringFor, Option.some.injEq, Prod.mk.injEq] at he
    rw [← he.2]; exact hlt
  have hreadk : ∀ ev, ((measuringFor l k t t0 dev).key (TimedState.step tcs) t1 ev dev).1.since = none →
      ∀ start request, ((measuringFor l k t t0 dev).read (TimedState.step tcs) t1 (.key ev dev)).1.since = some (start, request) → request.value < 4096 := by
    intro ev h1 start request he
    have he : ((measuringFor l k t t0 dev).key (TimedState.step tcs) t1 ev dev).1.since = some (start, request) := he
    rw [h1] at he
    cases he
  have hrun1 : ∀ it c out, (measuringFor l k t t0 dev).wake (TimedState.step tcs) tcs.length it = (c, out) →
      (measuringFor l k t t0 dev).run (TimedState.step tcs) tcs.length [it] = (c, out) := by
    intro it c out h1
    simp [Clocked.run, h1]
  have hmeasure : ∀ ms : Int, ms < (t : Int) → measured ms < t := by
    intro ms h1
    have := htwo.pos
    unfold measured; omega
  have hmeasure' : ∀ ms : Int, (t : Int) ≤ ms → t ≤ measured ms := by
    intro ms h1
    unfold measured; omega
  have hany : ValidDevice anyDeviceIndex := by unfold ValidDevice anyDeviceIndex; omega
  -- the state after the time has passed
  have hlate : ∀ v d, t ≤ v → TimedState.step tcs { current := l, held := [k], waiting := .answer k } (.input ⟨Key.timeout, .Up, v⟩ d) = (secondFunction l k Y, Y) := by
    intro v d hv
    simp [TimedState.step, TimedState.elapse, htwo.late hv, TimedMapping.isTap, TimedState.replace, TimedState.put, secondFunction]
  have hearly : ∀ v d, v < t → TimedState.step tcs { current := l, held := [k], waiting := .answer k } (.input ⟨Key.timeout, .Up, v⟩ d) =
      ({ current := l, held := [k], waiting := .undecided k v }, []) := by
    intro v d hv
    simp [TimedState.step, TimedState.elapse, htwo.early hv, TimedMapping.isTap]
  refine ⟨?_, fun ht => ?_, fun ht r hr => ?_, fun ht r hr t2 h12 => ?_, fun ht => ?_, fun ht x hx hxk hxm => ?_⟩
  · have := hmain [] [] (measuringFor l k t t0 dev) (by simp) rfl trivial (hap [] trivial) (by simp) (hne _ k (by
      intro op hop
      rw [List.mem_singleton] at hop
      exact ⟨_, _, hop, .inl rfl⟩))
    rwa [List.append_nil] at this
  · obtain ⟨h1, h2⟩ := two_tap htwo hX tcs.length t0 dev ht dev
    refine hmain _ _ _ (by simpa using hord t1 _ (hko .Up)) (hrun1 _ _ _ h1) (htm _ [] (hreadk _ h2) trivial) (hap _ ?_) (hrel X hX) (hne _ k (by
      intro op hop
      simp only [List.mem_cons, List.not_mem_nil, or_false] at hop
      rcases hop with rfl | rfl | rfl
      · exact ⟨_, _, rfl, .inl rfl⟩
      · exact ⟨_, _, rfl, .inr (.inr rfl)⟩
      · exact ⟨_, _, rfl, .inl rfl⟩))
    refine ⟨⟨hd, ⟨_, rfl⟩⟩, ?_⟩
    rw [hearly _ _ (hmeasure _ (by omega))]
    exact ⟨⟨hd, Or.inr ⟨k, by simp, rfl⟩⟩, trivial⟩
  · have h1 := two_expire htwo hY tcs.length t0 dev hr ht
    refine hmain _ _ _ (by simpa using hord t1 r (hwo r hr)) (hrun1 _ _ _ h1) (htm _ [] (hreadw r hr) trivial) (hap _ ?_) hY (hne _ k (by
      intro op hop
      simp only [List.mem_cons, List.not_mem_nil, or_false] at hop
      rcases hop with rfl | rfl
      · exact ⟨_, _, rfl, .inl rfl⟩
      · exact ⟨_, _, rfl, .inr (.inr rfl)⟩))
    exact ⟨⟨hany, ⟨_, rfl⟩⟩, trivial⟩
  · have h1 := two_expire htwo hY tcs.length t0 dev hr ht
    have h2 := second_release (tcs := tcs) (l := l) (k := k) hY tcs.length t2 dev
      [.contexts l, .input ⟨k, .Down, 0⟩ dev, .input ⟨Key.timeout, .Up, measured t⟩ anyDeviceIndex] ⟨k, .Down, 0⟩
    have h3 := second_release_since (tcs := tcs) (l := l) (k := k) hY t2 dev
      [.contexts l, .input ⟨k, .Down, 0⟩ dev, .input ⟨Key.timeout, .Up, measured t⟩ anyDeviceIndex] ⟨k, .Down, 0⟩
    refine hmain _ _ ⟨{ current := l }, none, ⟨k, .Up, 0⟩, [.contexts l, .input ⟨k, .Down, 0⟩ dev, .input ⟨Key.timeout, .Up, measured t⟩ anyDeviceIndex,
      .input ⟨k, .Up, 0⟩ dev]⟩ ?_ ?_ (htm _ _ (hreadw r hr) ?_) (hap _ ?_) (hrel Y hY) (hne _ k (by
      intro op hop
      simp only [List.mem_cons, List.not_mem_nil, or_false] at hop
      rcases hop with rfl | rfl | rfl
      · exact ⟨_, _, rfl, .inl rfl⟩
      · exact ⟨_, _, rfl, .inr (.inr rfl)⟩
      · exact ⟨_, _, rfl, .inl rfl⟩))
    · intro it hit
      simp only [List.mem_cons, List.not_mem_nil, or_false] at hit
      rcases hit with rfl | rfl
      · exact hord t1 r (hwo r hr)
      · exact hord t2 _ (hko .Up)
    · simp only [Clocked.run, h1, h2]
      simp
    · rw [h1]
      refine ⟨fun _ _ he => (by cases he), ?_, trivial⟩
      intro start request he
      exact absurd (h3.symm.trans he) (by simp)
    · refine ⟨⟨hany, ⟨_, rfl⟩⟩, ?_⟩
      rw [hlate _ _ (hmeasure' _ (Int.le_refl _))]
      exact ⟨⟨hd, Or.inr ⟨k, by simp [secondFunction], rfl⟩⟩, trivial⟩
  · obtain ⟨h1, h2⟩ := two_late_release htwo hY tcs.length t0 dev ht dev
    refine hmain _ _ _ (by simpa using hord t1 _ (hko .Up)) (hrun1 _ _ _ h1) (htm _ [] (hreadk _ h2) trivial) (hap _ ?_) (hrel Y hY) (hne _ k (by
      intro op hop
      simp only [List.mem_cons, List.not_mem_nil, or_false] at hop
      rcases hop with rfl | rfl | rfl
      · exact ⟨_, _, rfl, .inl rfl⟩
      · exact ⟨_, _, rfl, .inr (.inr rfl)⟩
      · exact ⟨_, _, rfl, .inl rfl⟩))
    refine ⟨⟨hd, ⟨_, rfl⟩⟩, ?_⟩
    rw [hlate _ _ (hmeasure' _ (by omega))]
    exact ⟨⟨hd, Or.inr ⟨k, by simp [secondFunction], rfl⟩⟩, trivial⟩
  · obtain ⟨c, h1, h2, h3⟩ := two_other htwo hY tcs.length t0 dev ht dev hx hxk hxm
    have hun : isTimed (mappingsInUse tcs l) x = false := by
      unfold isTimed
      rw [List.any_eq_false]
      intro m hm
      simp [hxm m hm]
    refine hmain _ _ _ ?_ (hrun1 _ _ _ h1) (htm _ [] (hreadk _ h3) trivial) ?_ ?_ ?_
    · have := hord t1 (.key ⟨x, .Down, 0⟩ dev) (by intro ev d he; cases he; exact hx)
      simpa using this
    · rw [h2]
      refine hap _ ⟨⟨hd, ⟨_, rfl⟩⟩, ?_⟩
      rw [hearly _ _ (hmeasure _ (by omega))]
      exact ⟨⟨hd, Or.inl ⟨x, rfl, hx.1, by simpa using hxk, hun⟩⟩, trivial⟩
    · intro e he
      rcases List.mem_append.1 he with he | he
      · exact hY e he
      · rw [List.mem_singleton.1 he]; exact hx
    · rw [h2]
      refine hne _ x ?_
      intro op hop
      simp only [List.mem_cons, List.not_mem_nil, or_false] at hop
      rcases hop with rfl | rfl | rfl
      · exact ⟨_, _, rfl, .inl rfl⟩
      · exact ⟨_, _, rfl, .inr (.inr rfl)⟩
      · exact ⟨_, _, rfl, .inr (.inl rfl)⟩

/-! ### an example -/

section TwoFunctionsExample

instance {α : Type} {p : α → Prop} [DecidablePred p] (l : List α) : Decidable (Fits p l) := by unfold Fits; infer_instance
instance : DecidablePred FitsEvent := fun e => by unfold FitsEvent; infer_instance
instance : DecidablePred FitsInt := fun e => by unfold FitsInt; infer_instance
instance : DecidablePred FitsStr := fun e => by unfold FitsStr; infer_instance
instance : DecidablePred FitsFilter := fun e => by unfold FitsFilter; infer_instance
instance : DecidablePred FitsContext := fun c => decidable_of_iff (Fits (fun i => Fits FitsEvent i.input ∧ FitsInt i.outputIndex) c.inputs ∧ Fits (Fits FitsEvent) c.outputs ∧
    Fits (fun o => Fits FitsEvent o.output ∧ FitsInt o.index) c.commandOutputs ∧ FitsFilter c.deviceFilter ∧ FitsFilter c.deviceIdFilter ∧ Fits FitsEvent c.modifierFilter)
  ⟨fun ⟨a, b, c, d, e, f⟩ => ⟨a, b, c, d, e, f⟩, fun ⟨a, b, c, d, e, f⟩ => ⟨a, b, c, d, e, f⟩⟩
instance : DecidablePred FitsConfig := fun c => decidable_of_iff (Fits (fun f => FitsFilter f.toFilter) c.grabDeviceFilters ∧ Fits FitsContext c.contexts ∧
    Fits FitsStr c.serverDirectives) ⟨fun ⟨a, b, c⟩ => ⟨a, b, c⟩, fun ⟨a, b, c⟩ => ⟨a, b, c⟩⟩

private def dualText : Str := "A{!200ms} >> X\nA >> ShiftLeft".toList

private def dualFiles : FileSys :=
  { mtime := fun _ => 1, content := fun f => if f = ['c'] then some dualText else none, resolve := fun _ f => f, noName := rfl }

private def dualEnv : ClientEnv := { typer := genericTyper, validRegex := fun _ => true, rx := fun _ _ => true }

private def dualConfig : Config := (readConfigFile dualEnv dualFiles ['c']).getD {}

private def dualMappings : List (List TimedMapping) :=
  [[⟨Key.KeyA, .tap 200, [⟨Key.KeyX, .Down, 0⟩]⟩, ⟨Key.KeyA, .press, [⟨Key.ShiftLeft, .Down, 0⟩]⟩]]

private theorem dual_read : readConfigFile dualEnv dualFiles ['c'] = some dualConfig := by decide +kernel

/-- everything is sent in pieces of one byte -/
private def dualChunks : List Bytes := (sentBytes ((Client.start dualEnv dualFiles ['c']).run dualEnv [.connect none]).out).map (fun b => [b])

private theorem dual_sent : SentConfig dualEnv dualFiles ['c'] none dualConfig dualChunks := by
  refine ⟨by decide, by decide, dual_read, by decide +kernel, by decide +kernel, by decide +kernel, by decide +kernel, by decide +kernel, ?_⟩
  have hfl : ∀ bytes : Bytes, (bytes.map (fun b => [b])).flatten = bytes := by
    intro bytes
    induction bytes with
    | nil => rfl
    | cons b l ih => simp only [List.map_cons, List.flatten_cons, ih]; rfl
  exact hfl _

private theorem dual_valid : ∀ tc ∈ dualMappings, ∀ m ∈ tc, m.Valid := by
  intro tc htc m hm
  simp only [dualMappings, List.mem_singleton] at htc
  subst htc
  simp only [List.mem_cons, List.not_mem_nil, or_false] at hm
  rcases hm with rfl | rfl <;> refine ⟨by decide, ?_⟩ <;> intro e he <;> rw [List.mem_singleton] at he <;> rw [he] <;> exact ⟨rfl, by decide, by decide⟩

private theorem dual_two : TwoFunctions dualMappings (matchingContexts dualEnv.rx dualConfig (Option.none.getD {})) Key.KeyA 200 [⟨Key.KeyX, .Down, 0⟩] [⟨Key.ShiftLeft, .Down, 0⟩] :=
  ⟨by decide +kernel, by decide, by decide⟩

/-- `A{!200ms} >> X` and `A >> ShiftLeft`: `A` is pressed, it repeats. When it is released after 199 milliseconds then it is `X`. When it is released after 200 milliseconds, then it
was Shift. When `B` is pressed while `A` is held for 150 milliseconds, then that is Shift and `B`. -/
example (rx : Regex) (isDown : Key → Bool) (ds : List DeviceDesc) :
    serverOutput rx isDown ds dualChunks [wakeAt 1000 (.key ⟨Key.KeyA, .Down, 0⟩ 0), wakeAt 1100 (.key ⟨Key.KeyA, .Down, 0⟩ 0), wakeAt 1199 (.key ⟨Key.KeyA, .Up, 0⟩ 0)] =
      [.sendKey ⟨Key.KeyX, .Down, 0⟩, .sendKey ⟨Key.KeyX, .Up, 0⟩] ∧
    serverOutput rx isDown ds dualChunks [wakeAt 1000 (.key ⟨Key.KeyA, .Down, 0⟩ 0), wakeAt 1100 (.key ⟨Key.KeyA, .Down, 0⟩ 0), wakeAt 1200 (.key ⟨Key.KeyA, .Up, 0⟩ 0)] =
      [.sendKey ⟨Key.ShiftLeft, .Down, 0⟩, .sendKey ⟨Key.ShiftLeft, .Up, 0⟩] ∧
    serverOutput rx isDown ds dualChunks [wakeAt 1000 (.key ⟨Key.KeyA, .Down, 0⟩ 0), wakeAt 1100 (.key ⟨Key.KeyA, .Down, 0⟩ 0), wakeAt 1150 (.key ⟨Key.KeyB, .Down, 0⟩ 0)] =
      [.sendKey ⟨Key.ShiftLeft, .Down, 0⟩, .sendKey ⟨Key.KeyB, .Down, 0⟩] := by
  have hX : ∀ e ∈ ([⟨Key.KeyX, .Down, 0⟩] : KeySequence), Ordinary e.key := by
    intro e he; rw [List.mem_singleton.1 he]; exact ⟨by decide, by decide⟩
  have hY : ∀ e ∈ ([⟨Key.ShiftLeft, .Down, 0⟩] : KeySequence), Ordinary e.key := by
    intro e he; rw [List.mem_singleton.1 he]; exact ⟨by decide, by decide⟩
  have h := fun t1 => C82_two_functions dual_sent (tcs := dualMappings) (by decide +kernel) dual_valid rx isDown ds (k := Key.KeyA) ⟨by decide, by decide⟩ dual_two hX hY
    (dev := 0) ⟨by decide, by decide⟩ 1000 [(1100, .key ⟨Key.KeyA, .Down, 0⟩ 0)] (by
      intro w hw; rw [List.mem_singleton.1 hw]; exact ⟨.inr rfl, by decide, by decide⟩) rfl t1
  refine ⟨?_, ?_, ?_⟩
  · exact ((h 1199 (by decide) (by decide)).2.1 (by decide)).trans (by decide +kernel)
  · exact ((h 1200 (by decide) (by decide)).2.2.2.2.1 (by decide)).trans (by decide +kernel)
  · exact ((h 1150 (by decide) (by decide)).2.2.2.2.2 (by decide) Key.KeyB ⟨by decide, by decide⟩ (by decide) (by decide +kernel)).trans (by decide +kernel)

end TwoFunctionsExample

end KM
