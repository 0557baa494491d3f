import Verif.Spec.Flush
import Verif.Lemmas.ServerRel
/-!
# C27: the mouse wheel
-/
namespace KM

private theorem withDistance_eq (v : Nat) (e : KeyEvent) :
    (if isMouseWheel e.key && e.value == 0 then { e with value := v } else e) = withDistance v e := by
  unfold withDistance
  have h : (isMouseWheel e.key && e.value == 0) = decide (336 ≤ e.key ∧ e.key ≤ 339 ∧ e.value = 0) := by
    unfold isMouseWheel
    by_cases h3 : e.value = 0
    · simp [h3]
    · simp [h3]
  rw [h]
  simp only [decide_eq_true_eq]

private theorem sendOutput_wheel (s : Srv) (ev : KeyEvent) (hk : isMouseWheel ev.key = true) (l : KeySequence) :
    (s.sendOutput ev l).sendBuf = s.sendBuf ++ (withoutRequest l).map (withDistance ev.value) ∧
    (s.sendOutput ev l).ms = s.ms.reuseBuffer ∧ (s.sendOutput ev l).out = s.out ∧ (s.sendOutput ev l).nextKeyInfo = s.nextKeyInfo ∧
    (s.sendOutput ev l).flushAt = s.flushAt ∧ (s.sendOutput ev l).last = s.last ∧
    (s.sendOutput ev l).virtualDown = s.virtualDown ∧ (s.sendOutput ev l).now = s.now := by
  have hcopy : ∀ l, copyWheelDelta ev l = l.map (withDistance ev.value) := by
    intro l
    unfold copyWheelDelta
    rw [if_pos hk]
    exact List.map_congr_left (fun e _ => withDistance_eq ev.value e)
  have hreq : (match timeoutRequest l with | some _ => l.dropLast | none => l) = withoutRequest l := by
    unfold timeoutRequest withoutRequest
    rcases List.eq_nil_or_concat l with h | ⟨rest, e, h⟩
    · subst h; rfl
    · subst h
      rw [List.concat_eq_append, List.getLast?_append, List.reverse_append]
      simp only [List.getLast?_singleton, Option.some_or, List.reverse_singleton, List.singleton_append]
      by_cases he : e.key = 0xF001
      · have : (e.key == Key.timeout) = true := beq_iff_eq.2 he
        rw [this, if_pos he]
        simp
      · have : (e.key == Key.timeout) = false := beq_eq_false_iff_ne.2 he
        rw [this, if_neg he]
        rfl
  unfold Srv.sendOutput
  split
  · next r h =>
    rw [h] at hreq
    simp only [] at hreq
    rw [hreq, hcopy]
    exact ⟨rfl, rfl, rfl, rfl, rfl, rfl, rfl, rfl⟩
  · next h =>
    rw [h] at hreq
    simp only [] at hreq
    rw [hcopy, ← hreq]
    exact ⟨rfl, rfl, rfl, rfl, rfl, rfl, rfl, rfl⟩

private theorem core_wheel {rx : Regex} {flush : Srv → Srv} (s : Srv) (hq : s.Quiet) (ev : KeyEvent) (hk : isMouseWheel ev.key = true) (dev : Int) :
    let s' := s.translateCore rx flush ev dev
    s'.sendBuf = s.sendBuf ++ (withoutRequest (s.ms.update ev dev).2).map (withDistance ev.value) ∧
    s'.ms = (s.ms.update ev dev).1.reuseBuffer ∧ s'.out = s.out ∧ s'.nextKeyInfo = s.nextKeyInfo ∧
    s'.flushAt = s.flushAt ∧ s'.last = ev ∧ s'.virtualDown = s.virtualDown ∧ s'.now = s.now := by
  intro s'
  have h339 : ev.key ≤ 339 := by unfold isMouseWheel at hk; simp only [Bool.and_eq_true, decide_eq_true_eq] at hk; exact hk.2
  have hkb : isKeyboardKey ev.key = false := by
    unfold isKeyboardKey; rw [hk]; simp
  have ht : (ev.key != Key.timeout) = true := bne_iff_ne.2 (fun h => by rw [h] at h339; exact absurd h339 (by decide))
  have hn : s.noteEvent ev = { s with last := ev } := by unfold Srv.noteEvent; rw [if_pos ht]
  have hx : (s.ms.update ev dev).1.shouldExit = false := by rw [MS.update_shouldExit hq.2 hkb, hq.1]
  have he : s' = Srv.sendOutput { s with last := ev, ms := (s.ms.update ev dev).1 } ev (s.ms.update ev dev).2 := by
    show s.translateCore rx flush ev dev = _
    unfold Srv.translateCore
    rw [hn]
    simp only [hx]
    rfl
  rw [he]
  exact sendOutput_wheel { s with last := ev, ms := (s.ms.update ev dev).1 } ev hk _

/-- **C27**: a turn of the mouse wheel is processed by the stages as a press followed by a release,
both with the distance of the turn; what they output is added to the buffer in this order, and wheel
events among it which have no distance of their own get the one of the turn. (In every state between
events; a repetition is ignored while output is pending, a requested next key is the subject of C26
and a pending timeout the one of C28.) -/
theorem C27_press_and_release (rx : Regex) (s : Srv) (hq : s.Quiet) (k : Key) (hk : isMouseWheel k = true) (v : Nat) (dev : Int)
    (h1 : s.flushAt = none ∨ s.last ≠ ⟨k, .Up, v⟩ ∧ s.last ≠ ⟨k, .Down, v⟩) (ht : s.timeoutStart = none) (hn : s.nextKeyInfo = false) :
    let press := s.ms.update ⟨k, .Down, v⟩ dev
    let release := press.1.reuseBuffer.update ⟨k, .Up, v⟩ dev
    let s' := s.translateInput rx ⟨k, .Up, v⟩ dev
    s'.ms = release.1.reuseBuffer ∧
      s'.sendBuf = s.sendBuf ++ (withoutRequest press.2 ++ withoutRequest release.2).map (withDistance v) ∧
      s'.out = s.out := by
  intro press release s'
  have hi : ∀ st, (s.flushAt = none ∨ s.last ≠ ⟨k, st, v⟩) → s.ignoresRepeat ⟨k, st, v⟩ = false := by
    intro st h
    unfold Srv.ignoresRepeat
    rcases h with h | h
    · rw [h, ht]; simp
    · rw [beq_eq_false_iff_ne.2 (Ne.symm h)]; rfl
  have hr : ∀ st, s.repliesKeyInfo ⟨k, st, v⟩ = false := by
    intro st; unfold Srv.repliesKeyInfo; rw [hn]; rfl
  have hinj : ∀ ev, s.injectElapsed rx (Srv.flush rx) ev dev = s := by
    intro ev; unfold Srv.injectElapsed; rw [ht]
  have he : s' = (s.translateCore rx (Srv.flush rx) ⟨k, .Down, v⟩ dev).translateCore rx (Srv.flush rx) ⟨k, .Up, v⟩ dev := by
    show s.translateWith rx (Srv.flush rx) ⟨k, .Up, v⟩ dev = _
    unfold Srv.translateWith
    rw [hi _ (h1.imp id (·.1)), hr]
    have : s.translateNoWheel rx (Srv.flush rx) ⟨k, .Down, v⟩ dev = s.translateCore rx (Srv.flush rx) ⟨k, .Down, v⟩ dev := by
      unfold Srv.translateNoWheel
      rw [hi _ (h1.imp id (·.2)), hr, hinj]
      rfl
    simp only [Bool.false_eq_true, if_false, hinj, hk, Bool.true_and, this]
    rfl
  have c1 := core_wheel (rx := rx) (flush := Srv.flush rx) s hq ⟨k, .Down, v⟩ hk dev
  have q1 := translateCore_quiet (rx := rx) (flush_quiet rx) s ⟨k, .Down, v⟩ dev
  have c2 := core_wheel (rx := rx) (flush := Srv.flush rx) _ q1 ⟨k, .Up, v⟩ hk dev
  rw [← he] at c2
  simp only [] at c1 c2
  rw [c1.1, c1.2.1, c1.2.2.1] at c2
  refine ⟨c2.2.1, ?_, c2.2.2.1⟩
  rw [c2.1, List.map_append, List.append_assoc]

/-- **C27**: over every history of the server, the press of a mouse wheel never is sent to the
output device; neither are actions, virtual keys and delays. -/
theorem C27_press_never_sent (rx : Regex) (ops : List SrvOp) (e : KeyEvent) (h : Eff.sendKey e ∈ (srvRun rx {} ops).out) :
    ¬ (336 ≤ e.key ∧ e.key ≤ 339 ∧ e.state = .Down) ∧ ¬ (0xF200 ≤ e.key ∧ e.key ≤ 0xF2FF) ∧ ¬ IsVirtual e ∧ ¬ IsDelay e := by
  have hp : ∀ a b, SrvPrim a b → (∀ e, Eff.sendKey e ∈ a.out → isSent e = true) → (∀ e, Eff.sendKey e ∈ b.out → isSent e = true) := by
    intro a b h ha e he
    cases h with
    | internal _ h2 => rw [h2] at he; exact ha e he
    | press => exact ha e he
    | release => exact ha e he
    | clear => exact ha e he
    | send e' h' =>
      rcases List.mem_append.1 he with he | he
      · exact ha e he
      · have := List.mem_singleton.1 he
        injection this with this
        subst this
        exact h'
    | _ =>
      rcases List.mem_append.1 he with he | he
      · exact ha e he
      · have := List.mem_singleton.1 he
        cases this
  have hall : ∀ (ops : List SrvOp) (s : Srv), (∀ e, Eff.sendKey e ∈ s.out → isSent e = true) →
      (∀ e, Eff.sendKey e ∈ (srvRun rx s ops).out → isSent e = true) := by
    intro ops
    induction ops with
    | nil => exact fun s h => h
    | cons op ops ih => exact fun s h => ih _ (srvStep_preserves hp (fun _ h => h) rx s op h)
  have hs := hall ops {} (fun e h => by cases h) e h
  unfold isSent at hs
  simp only [Bool.and_eq_true, Bool.not_eq_true', isMouseWheel, isActionKey, isVirtualKey] at hs
  obtain ⟨⟨⟨h1, h2⟩, h3⟩, h4⟩ := hs
  refine ⟨?_, ?_, ?_, beq_eq_false_iff_ne.1 h4⟩
  · intro h; rw [decide_eq_true h.1, decide_eq_true h.2.1, h.2.2] at h1; cases h1
  · intro h; rw [decide_eq_true h.1, decide_eq_true h.2] at h2; cases h2
  · intro h; rw [decide_eq_true h.1, decide_eq_true h.2] at h3; cases h3

/-- `WheelUp >> A WheelDown` -/
private def exWheel : List SrvOp :=
  [.message (.configuration [Cfg.make [{ inputs := [⟨[⟨336, .Down, 0⟩], 0⟩], outputs := [[⟨30, .Down, 0⟩, ⟨337, .Down, 0⟩, ⟨337, .Up, 0⟩]] }]]),
   .message (.activeContexts [0]), .loop { now := 0, read := .key ⟨336, .Up, 120⟩ 0 }]

example : (srvRun (fun _ _ => false) {} exWheel).out =
    [.sendKey ⟨30, .Down, 0⟩, .sendKey ⟨337, .Up, 120⟩, .sendKey ⟨30, .Up, 0⟩] := by decide +kernel

/-- `WheelUp >> A 100ms B` -/
private def exWheelDelay : List SrvOp :=
  [.message (.configuration [Cfg.make [{ inputs := [⟨[⟨336, .Down, 0⟩], 0⟩], outputs :=
      [[⟨30, .Down, 0⟩, ⟨30, .Up, 0⟩, ⟨Key.timeout, .Down, 100⟩, ⟨48, .Down, 0⟩]] }]]),
   .message (.activeContexts [0]), .loop { now := 0, read := .key ⟨336, .Up, 120⟩ 0 }, .loop { now := 10, read := .key ⟨336, .Up, 120⟩ 0 },
   .loop { now := 101 }, .loop { now := 202 }, .loop { now := 303 }]

/-- **C27**, a disagreement: while output is pending (here a delay of the output), turning the wheel
again by the same distance is taken for a key repeat and ignored: of two turns only one is output. -/
theorem C27_turn_ignored : (srvRun (fun _ _ => false) {} exWheelDelay).out =
    [.sendKey ⟨30, .Down, 0⟩, .sendKey ⟨30, .Up, 0⟩, .sendKey ⟨48, .Down, 0⟩, .sendKey ⟨48, .Up, 0⟩] := by decide +kernel

end KM
