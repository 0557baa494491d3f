import Verif.Spec.Flush
import Verif.Lemmas.ServerRel
/-!
# C28: timeouts of the server
-/
namespace KM

private theorem ignores_false {s : Srv} {ev : KeyEvent} (h : ev ≠ s.last) : s.ignoresRepeat ev = false := by
  unfold Srv.ignoresRepeat
  rw [beq_eq_false_iff_ne.2 h]
  rfl

private theorem timeout_not_device (ev : KeyEvent) (h : ev.key = Key.timeout) : isDeviceKey ev.key = false ∧ isMouseWheel ev.key = false := by
  rw [h]; decide

private theorem makeInput_key (t : Int) : (makeInputTimeoutEvent t).key = Key.timeout := rfl

/-- The server is given the event of a timeout while no timeout is pending. -/
private theorem translate_timeout {rx : Regex} {flush : Srv → Srv} {s : Srv} (ht : s.timeoutStart = none) (ev : KeyEvent) (hk : ev.key = Key.timeout) (dev : Int) :
    s.translateWith rx flush ev dev = s.translateTimeout rx flush ev dev := by
  have h := timeout_not_device ev hk
  unfold Srv.translateWith Srv.translateTimeout
  have hr : s.repliesKeyInfo ev = false := by unfold Srv.repliesKeyInfo; rw [h.1]; simp
  have hi : s.injectElapsed rx flush ev dev = s := by unfold Srv.injectElapsed; rw [ht]
  rw [hr, hi, h.2]
  rfl

/-- time passes only between operations; a timeout is pending since before, was cancelled, or was
requested now -/
private def TimeRel (a b : Srv) : Prop :=
  b.now = a.now ∧ ((b.timeoutStart = a.timeoutStart ∧ b.timeout = a.timeout ∧ b.cancelOnUp = a.cancelOnUp) ∨
    b.timeoutStart = none ∨ b.timeoutStart = some a.now)

private theorem timeRel : SrvRelAll TimeRel := by
  have h : SrvRel TimeRel :=
    { refl := fun s => ⟨rfl, Or.inl ⟨rfl, rfl, rfl⟩⟩
      trans := by
        intro a b c ⟨h1, h2⟩ ⟨h3, h4⟩
        refine ⟨h3.trans h1, ?_⟩
        rcases h4 with ⟨h4, h5, h6⟩ | h4 | h4
        · rcases h2 with ⟨k1, k2, k3⟩ | h2 | h2
          · exact Or.inl ⟨h4.trans k1, h5.trans k2, h6.trans k3⟩
          · exact Or.inr (Or.inl (h4.trans h2))
          · exact Or.inr (Or.inr (h4.trans h2))
        · exact Or.inr (Or.inl h4)
        · exact Or.inr (Or.inr (by rw [h4, h1]))
      other := fun h1 h2 h3 h4 _ _ => ⟨h1, Or.inl ⟨h2, h3, h4⟩⟩
      clear := fun _ => ⟨rfl, Or.inr (Or.inl rfl)⟩
      cancel := fun _ => ⟨rfl, Or.inr (Or.inl rfl)⟩
      schedule := fun _ _ _ => ⟨rfl, Or.inr (Or.inr rfl)⟩ }
  exact h.all (fun _ _ => ⟨rfl, Or.inl ⟨rfl, rfl, rfl⟩⟩) (fun _ _ => ⟨rfl, Or.inl ⟨rfl, rfl, rfl⟩⟩)

/-- what a timeout event does not touch -/
private theorem core_timeout {rx : Regex} {flush : Srv → Srv} (s : Srv) (hq : s.Quiet) (ev : KeyEvent) (hk : ev.key = Key.timeout) (dev : Int) :
    (s.translateCore rx flush ev dev).last = s.last ∧ (s.translateCore rx flush ev dev).nextKeyInfo = s.nextKeyInfo ∧
      (s.translateCore rx flush ev dev).flushAt = s.flushAt := by
  have hkb : isKeyboardKey ev.key = false := by rw [hk]; decide
  have hx : (s.ms.update ev dev).1.shouldExit = false := by rw [MS.update_shouldExit hq.2 hkb, hq.1]
  have hn : s.noteEvent ev = s := by unfold Srv.noteEvent; rw [hk]; rfl
  unfold Srv.translateCore
  rw [hn]
  simp only [hx]
  show (Srv.sendOutput { s with ms := (s.ms.update ev dev).1 } ev _).last = _ ∧ _ ∧ _
  unfold Srv.sendOutput
  split <;> exact ⟨rfl, rfl, rfl⟩

/-- The state after the pending timeout, which started at `start`, was answered with the time elapsed
since then -/
def Srv.answered (rx : Regex) (s : Srv) (start : Int) (dev : Int) : Srv :=
  Srv.translateInput rx { s with timeoutStart := none, timeout := 0 } (makeInputTimeoutEvent (s.now - start)) dev

/-- **C28**: an event which cancels the pending timeout (a press, or also a release when this was
requested) is processed exactly as if the event of the timeout, with the time elapsed, and then the
event itself had been input. (The theorem is about the case in which answering the timeout does not
request another one.) -/
theorem C28_cancelled_by_event (rx : Regex) (s : Srv) (hq : s.Quiet) (start : Int) (ht : s.timeoutStart = some start) (ev : KeyEvent) (dev : Int)
    (hc : ev.state = .Down ∨ s.cancelOnUp = true) (hrep : ev ≠ s.last) (hn : s.nextKeyInfo = false)
    (hd : (s.answered rx start dev).timeoutStart = none) :
    s.translateInput rx ev dev = (s.answered rx start dev).translateInput rx ev dev := by
  have hc' : (ev.state == .Down || s.cancelOnUp) = true := by
    rcases hc with h | h
    · rw [h]; rfl
    · rw [h]; simp
  have hr : ∀ (s : Srv) ev, s.nextKeyInfo = false → s.repliesKeyInfo ev = false := by
    intro s ev h; unfold Srv.repliesKeyInfo; rw [h]; rfl
  have ha : s.injectElapsed rx (Srv.flush rx) ev dev = s.answered rx start dev := by
    unfold Srv.injectElapsed
    rw [ht]
    simp only [hc', if_true]
    exact (translate_timeout rfl _ (makeInput_key _) dev).symm
  have hs1 : (s.answered rx start dev).last = s.last ∧ (s.answered rx start dev).nextKeyInfo = false := by
    unfold Srv.answered Srv.translateInput
    rw [translate_timeout rfl _ (makeInput_key _) dev]
    unfold Srv.translateTimeout
    split
    · exact ⟨rfl, hn⟩
    · have := core_timeout (rx := rx) (flush := Srv.flush rx) { s with timeoutStart := none, timeout := 0 } hq
        (makeInputTimeoutEvent (s.now - start)) (makeInput_key _) dev
      exact ⟨this.1, this.2.1.trans hn⟩
  have hi2 : (s.answered rx start dev).injectElapsed rx (Srv.flush rx) ev dev = s.answered rx start dev := by
    unfold Srv.injectElapsed; rw [hd]
  have lhs : s.translateInput rx ev dev = (let s1 := s.answered rx start dev
      let s1 := if isMouseWheel ev.key && ev.state == .Up then s1.translateNoWheel rx (Srv.flush rx) ⟨ev.key, .Down, ev.value⟩ dev else s1
      s1.translateCore rx (Srv.flush rx) ev dev) := by
    unfold Srv.translateInput Srv.translateWith
    rw [ignores_false hrep, hr s ev hn, ha]
    rfl
  rw [lhs]
  generalize s.answered rx start dev = s1 at *
  unfold Srv.translateInput Srv.translateWith
  rw [ignores_false (by rw [hs1.1]; exact hrep), hr s1 ev hs1.2, hi2]
  rfl

/-- **C28**: the release of a key does not cancel a pending timeout which is only cancelled by a
press: it remains pending unchanged, unless the release makes the stages request a new timeout, which
replaces it. -/
theorem C28_release_keeps (rx : Regex) (s : Srv) (start : Int) (ht : s.timeoutStart = some start) (hc : s.cancelOnUp = false)
    (ev : KeyEvent) (hu : ev.state = .Up) (hw : isMouseWheel ev.key = false) (dev : Int)
    (hreq : ∀ e, (s.ms.update ev dev).2.getLast? = some e → e.key ≠ 0xF001) (hexit : (s.ms.update ev dev).1.shouldExit = false) :
    let s' := s.translateInput rx ev dev
    s'.timeoutStart = some start ∧ s'.timeout = s.timeout ∧ s'.cancelOnUp = s.cancelOnUp := by
  intro s'
  show (s.translateWith rx (Srv.flush rx) ev dev).timeoutStart = _ ∧ (s.translateWith rx (Srv.flush rx) ev dev).timeout = _ ∧
    (s.translateWith rx (Srv.flush rx) ev dev).cancelOnUp = _
  unfold Srv.translateWith
  split
  · exact ⟨ht, rfl, rfl⟩
  · split
    · exact ⟨ht, rfl, rfl⟩
    · have hi : s.injectElapsed rx (Srv.flush rx) ev dev = s := by
        unfold Srv.injectElapsed
        rw [ht, hu, hc]
        rfl
      have hr : timeoutRequest (s.ms.update ev dev).2 = none := by
        unfold timeoutRequest
        split
        · next e h => rw [if_neg]; simpa using hreq e h
        · rfl
      simp only [hi, hw, Bool.false_and, Bool.false_eq_true, if_false]
      have hn : (s.noteEvent ev).ms = s.ms ∧ (s.noteEvent ev).timeoutStart = s.timeoutStart ∧ (s.noteEvent ev).timeout = s.timeout ∧
          (s.noteEvent ev).cancelOnUp = s.cancelOnUp := by
        unfold Srv.noteEvent
        split <;> exact ⟨rfl, rfl, rfl, rfl⟩
      unfold Srv.translateCore
      simp only [hn.1, hexit, Bool.false_eq_true, if_false]
      unfold Srv.sendOutput
      simp only [hr]
      exact ⟨hn.2.1.trans ht, hn.2.2.1, hn.2.2.2⟩

/-- **C28**: an iteration of the main loop in which a timeout elapsed (and nothing is read) is exactly
one in which the event of the timeout, with the requested time, is input first, and no timeout is
pending. (The theorem is about the case in which answering the timeout does not request another one.) -/
theorem C28_answered_when_elapsed (rx : Regex) (s : Srv) (hq : s.Quiet) (it : Iteration) (hr : it.read = .nothing) (start : Int)
    (ht : s.timeoutStart = some start) (he : start + (s.timeout : Int) ≤ it.now) :
    let s1 := Srv.translateInput rx { s with timeoutStart := none, timeout := 0, now := it.now, sendResults := it.sendResults }
      (makeInputTimeoutEvent s.timeout) anyDeviceIndex
    s1.timeoutStart = none → s.iterate rx it = s1.iterate rx it := by
  intro s1 hd
  have hkeep : s1.now = it.now ∧ s1.sendResults = it.sendResults := by
    have h : s1 = Srv.translateTimeout rx (Srv.flush rx) { s with timeoutStart := none, timeout := 0, now := it.now, sendResults := it.sendResults }
      (makeInputTimeoutEvent s.timeout) anyDeviceIndex := translate_timeout rfl _ (makeInput_key _) _
    rw [h]
    unfold Srv.translateTimeout
    split
    · exact ⟨rfl, rfl⟩
    · generalize hs0 : ({ s with timeoutStart := none, timeout := 0, now := it.now, sendResults := it.sendResults } : Srv) = s0
      have hn0 : s0.now = it.now := by subst hs0; rfl
      have hr0 : s0.sendResults = it.sendResults := by subst hs0; rfl
      have hq0 : s0.Quiet := by subst hs0; exact hq
      have hx : (s0.ms.update (makeInputTimeoutEvent s.timeout) anyDeviceIndex).1.shouldExit = false := by
        rw [MS.update_shouldExit hq0.2 (by rfl), hq0.1]
      have hn : s0.noteEvent (makeInputTimeoutEvent s.timeout) = s0 := rfl
      unfold Srv.translateCore
      rw [hn]
      simp only [hx]
      show (Srv.sendOutput { s0 with ms := _ } _ _).now = _ ∧ (Srv.sendOutput { s0 with ms := _ } _ _).sendResults = _
      unfold Srv.sendOutput
      split <;> exact ⟨hn0, hr0⟩
  have h0 : ∀ s : Srv, s.iterate rx it = (let s := ((s.iterStart it).processRead rx it.read).answerTimeout rx
      let (s, ok) := s.flushWhenDue rx
      if !ok then (s, false)
      else
        let s := s.updateDevices rx it.devices
        let s := it.messages.foldl (Srv.onMessage rx) s
        if it.regrab || s.ms.stages.isEmpty then (s, false)
        else (s, !s.ms.shouldExit)) := by
    intro s
    unfold Srv.iterate Srv.iterStart
    rw [if_neg (by rw [hr]; exact Read.noConfusion)]
  have hp : ∀ s : Srv, s.processRead rx it.read = s := by intro s; rw [hr]; rfl
  have hl : (s.iterStart it).answerTimeout rx = s1 := by
    unfold Srv.answerTimeout Srv.timeoutElapsed
    have : (s.iterStart it).timeoutStart = some start := ht
    rw [this]
    simp only []
    have : decide (start + ((s.iterStart it).timeout : Int) ≤ (s.iterStart it).now) = true := decide_eq_true he
    rw [if_pos this]
    rfl
  have hr1 : (s1.iterStart it).answerTimeout rx = s1 := by
    have hs : s1.iterStart it = s1 := by unfold Srv.iterStart; rw [← hkeep.1, ← hkeep.2]
    rw [hs]
    unfold Srv.answerTimeout Srv.timeoutElapsed
    rw [hd]
    rfl
  rw [h0 s, h0 s1, hp, hp, hl, hr1]

/-- **C28**: a timeout is not answered before it elapsed: as long as nothing happens, it remains
pending. -/
theorem C28_not_before (rx : Regex) (s : Srv) (start : Int) (ht : s.timeoutStart = some start) (now : Int) (he : now < start + (s.timeout : Int))
    (hs : s.sending = false) (hb : s.sendBuf = []) :
    let s' := (s.iterate rx { now := now }).1
    s'.timeoutStart = some start ∧ s'.timeout = s.timeout ∧ s'.cancelOnUp = s.cancelOnUp ∧ s'.ms = s.ms ∧ s'.out = s.out := by
  intro s'
  have ha : (s.iterStart { now := now }).answerTimeout rx = s.iterStart { now := now } := by
    unfold Srv.answerTimeout Srv.timeoutElapsed
    have : (s.iterStart { now := now }).timeoutStart = some start := ht
    rw [this]
    simp only []
    have : decide (start + ((s.iterStart { now := now }).timeout : Int) ≤ (s.iterStart { now := now }).now) = false :=
      decide_eq_false (Int.not_le.2 he)
    rw [if_neg (by rw [this]; exact Bool.false_ne_true)]
  have hf : ∀ a : Srv, a.sending = false → a.sendBuf = [] → (a.flushWhenDue rx).1 = a ∨ (a.flushWhenDue rx).1 = { a with flushAt := none } := by
    intro a h1 h2
    unfold Srv.flushWhenDue
    split
    · right
      unfold Srv.flushSendBuffer Srv.flushLoop
      simp only [h1, h2, Bool.false_eq_true, if_false]
      rfl
    · exact Or.inl rfl
  have hi : (s.iterFlush rx { now := now }).1 = s.iterStart { now := now } ∨
      (s.iterFlush rx { now := now }).1 = { s.iterStart { now := now } with flushAt := none } := by
    have hq : s.iterFlush rx { now := now } = ((s.iterStart { now := now }).answerTimeout rx).flushWhenDue rx := rfl
    rw [hq, ha]
    exact hf (s.iterStart { now := now }) hs hb
  have hend : ∀ a : Srv, a = s.iterStart { now := now } ∨ a = { s.iterStart { now := now } with flushAt := none } →
      a.timeoutStart = some start ∧ a.timeout = s.timeout ∧ a.cancelOnUp = s.cancelOnUp ∧ a.ms = s.ms ∧ a.out = s.out := by
    intro a h
    rcases h with h | h <;> (rw [h]; exact ⟨ht, rfl, rfl, rfl, rfl⟩)
  rcases iterate_cases rx s { now := now } with h | ⟨_, h⟩ | ⟨_, h⟩
  · exact hend s' (Or.inl h)
  · exact hend s' (by rw [← h] at hi; exact hi)
  · have h2 : s' = (s.iterFlush rx { now := now }).1 := h
    exact hend s' (by rw [← h2] at hi; exact hi)

/-- **C28**: after each iteration of the main loop which did not only forward an event, a timeout which
is still pending was requested in it, or is not yet over. -/
theorem C28_none_overdue (rx : Regex) (s : Srv) (it : Iteration) (hr : it.read ≠ .other) (t : Int)
    (ht : (s.iterate rx it).1.timeoutStart = some t) :
    t = it.now ∨ it.now < t + ((s.iterate rx it).1.timeout : Int) := by
  let Ok : Srv → Prop := fun s => ∀ t, s.timeoutStart = some t → t = s.now ∨ s.now < t + (s.timeout : Int)
  have hrel : ∀ {a b : Srv}, TimeRel a b → a.now = it.now ∧ Ok a → b.now = it.now ∧ Ok b := by
    intro a b ⟨h1, h2⟩ ⟨h3, h4⟩
    refine ⟨h1.trans h3, ?_⟩
    intro t hb
    rcases h2 with ⟨k1, k2, _⟩ | h2 | h2
    · rw [h1, k2]; exact h4 t (k1 ▸ hb)
    · rw [h2] at hb; cases hb
    · rw [h2] at hb; injection hb with hb; left; rw [h1]; exact hb.symm
  have h1 : ((s.iterStart it).processRead rx it.read).now = it.now := (timeRel.processRead rx (s.iterStart it) it.read).1
  have h2 : (((s.iterStart it).processRead rx it.read).answerTimeout rx).now = it.now ∧ Ok (((s.iterStart it).processRead rx it.read).answerTimeout rx) := by
    generalize (s.iterStart it).processRead rx it.read = a at h1 ⊢
    unfold Srv.answerTimeout
    split
    · exact hrel (timeRel.translateInput rx _ _ _) ⟨h1, fun t h => by cases h⟩
    · next h =>
      refine ⟨h1, fun t hta => ?_⟩
      unfold Srv.timeoutElapsed at h
      rw [hta] at h
      right
      exact Int.not_le.1 (by simpa using h)
  have h3 : (s.iterFlush rx it).1.now = it.now ∧ Ok (s.iterFlush rx it).1 := hrel (timeRel.flushWhenDue rx _) h2
  have h4 : (s.iterate rx it).1.now = it.now ∧ Ok (s.iterate rx it).1 := by
    have hfirst : (s.iterate rx it).1 = (s.iterFlush rx it).1 ∨ (s.iterate rx it).1 = (s.iterFlush rx it).1.iterEnd rx it := by
      unfold Srv.iterate Srv.iterFlush Srv.iterEnd Srv.iterStart
      rw [if_neg hr]
      simp only []
      generalize Srv.flushWhenDue rx _ = r
      obtain ⟨s2, ok⟩ := r
      cases ok with
      | false => exact Or.inl rfl
      | true =>
        right
        simp only [Bool.not_true, Bool.false_eq_true, if_false]
        split <;> rfl
    rcases hfirst with h | h
    · rw [h]; exact h3
    · rw [h]; exact hrel (timeRel.trans (timeRel.updateDevices rx _ _) (timeRel.messages rx _ _)) h3
  have := h4.2 t ht
  rw [h4.1] at this
  exact this

/-- **C28**: the main loop does not wait for input beyond the end of the pending timeout or the time at
which output is due, and waits for ever only when there is neither. -/
theorem C28_wakes_in_time (s : Srv) (now : Int) :
    (s.waitFor now = none ↔ s.timeoutStart = none ∧ s.flushAt = none) ∧
    (∀ w start, s.waitFor now = some w → s.timeoutStart = some start → now + w ≤ start + (s.timeout : Int)) ∧
    (∀ w t, s.waitFor now = some w → s.flushAt = some t → now + w ≤ t) := by
  unfold Srv.waitFor
  cases hf : s.flushAt with
  | none =>
    cases ht : s.timeoutStart with
    | none => simp
    | some start =>
      refine ⟨by simp, ?_, by simp⟩
      intro w st h1 h2
      simp at h1 h2
      omega
  | some t =>
    cases ht : s.timeoutStart with
    | none =>
      refine ⟨by simp, by simp, ?_⟩
      intro w t' h1 h2
      simp at h1 h2
      omega
    | some start =>
      simp only [Option.map_some]
      refine ⟨by simp, ?_, ?_⟩
      · intro w st h1 h2
        injection h1 with h1
        injection h2 with h2
        split at h1 <;> omega
      · intro w st h1 h2
        injection h1 with h1
        injection h2 with h2
        split at h1 <;> omega

/-- `A{200ms} >> B`, `A >> C`: `A` is held for 300ms, or `X` is pressed after 100ms -/
private def exTimeout : List SrvOp :=
  [.message (.configuration [Cfg.make [{ inputs := [⟨[⟨30, .Down, 0⟩, ⟨Key.timeout, .Down, 200⟩], 0⟩, ⟨[⟨30, .Down, 0⟩], 1⟩], outputs :=
      [[⟨48, .Down, 0⟩], [⟨46, .Down, 0⟩]] }]]),
   .message (.activeContexts [0]), .loop { now := 0, read := .key ⟨30, .Down, 0⟩ 0 }]

example : (srvRun (fun _ _ => false) {} exTimeout).timeoutStart = some 0 ∧ (srvRun (fun _ _ => false) {} exTimeout).timeout = 200 ∧
    (srvRun (fun _ _ => false) {} exTimeout).Quiet ∧ (srvRun (fun _ _ => false) {} exTimeout).sendBuf = [] := by
  refine ⟨by decide +kernel, by decide +kernel, ?_, by decide +kernel⟩
  exact srvRun_quiet _ _ _ ⟨rfl, rfl⟩

example : (srvRun (fun _ _ => false) {} (exTimeout ++ [.loop { now := 199 }])).out = [] ∧
    (srvRun (fun _ _ => false) {} (exTimeout ++ [.loop { now := 200 }])).out = [.sendKey ⟨48, .Down, 0⟩] ∧
    (srvRun (fun _ _ => false) {} (exTimeout ++ [.loop { now := 100, read := .key ⟨45, .Down, 0⟩ 0 }])).out =
      [.sendKey ⟨46, .Down, 0⟩, .sendKey ⟨45, .Down, 0⟩] := by decide +kernel

/-- the hypothesis of `C28_cancelled_by_event` -/
example : (Srv.answered (fun _ _ => false) { srvRun (fun _ _ => false) {} exTimeout with now := 100 } 0 0).timeoutStart = none := by decide +kernel

end KM
