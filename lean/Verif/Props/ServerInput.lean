import Verif.Spec.Flush
import Verif.Lemmas.ServerRel
/-!
# C26, C27, C28: requested keys, the mouse wheel, timeouts
-/
namespace KM

/-! ### C26 the next key -/

/-- **C26**: when the next key was requested, the press of a device key other than the left mouse
button is reported and has no other effect. (A repetition is ignored while a flush or a timeout is
pending, whether a key was requested or not.) -/
theorem C26_reported_and_swallowed (rx : Regex) (s : Srv) (ev : KeyEvent) (dev : Int)
    (hrep : ¬ (ev = s.last ∧ (s.flushAt ≠ none ∨ s.timeoutStart ≠ none)))
    (hreq : s.nextKeyInfo = true) (hk : isDeviceKey ev.key = true) (hb : ev.key ≠ Key.ButtonLeft) (hd : ev.state = .Down) :
    s.translateInput rx ev dev =
      { s with out := s.out ++ [.nextKeyInfo ev.key (if 0 ≤ dev then s.devices[dev.toNat]? else none)], nextKeyInfo := false } := by
  have h1 : s.ignoresRepeat ev = false := by
    unfold Srv.ignoresRepeat
    by_cases he : ev = s.last
    · have h2 := fun h => hrep ⟨he, h⟩
      cases hf : s.flushAt with
      | some t => exact absurd (Or.inl (by rw [hf]; simp)) h2
      | none =>
        cases ht : s.timeoutStart with
        | some t => exact absurd (Or.inr (by rw [ht]; simp)) h2
        | none => simp
    · rw [beq_eq_false_iff_ne.2 he]; rfl
  have h2 : s.repliesKeyInfo ev = true := by
    unfold Srv.repliesKeyInfo
    rw [hreq, hk, hd, bne_iff_ne.2 hb]
    rfl
  unfold Srv.translateInput Srv.translateWith
  rw [h1, h2]
  rfl

/-- set if a key is requested -/
private def ask (b : Bool) (s : Srv) : Srv := { s with nextKeyInfo := b }

/-- contexts were activated, nothing was sent yet -/
private def activated (s : Srv) (l : List Int) : Srv :=
  let (ms, output) := s.ms.setActiveClientContexts l
  let s := { s with ms := ms }.sendKeySequence output
  { s with ms := s.ms.reuseBuffer }

section
variable {rx : Regex} {flush : Srv → Srv} {b : Bool} (hf : ∀ s, flush (ask b s) = ask b (flush s))
include hf

private theorem setActiveContexts_ask (s : Srv) (l : List Int) : (ask b s).setActiveContexts flush l = ask b (s.setActiveContexts flush l) := by
  have h : ∀ s : Srv, s.setActiveContexts flush l = if (activated s l).flushAt.isNone then flush (activated s l) else activated s l := fun _ => rfl
  rw [h, h]
  have h2 : activated (ask b s) l = ask b (activated s l) := rfl
  rw [h2]
  have h3 : (ask b (activated s l)).flushAt = (activated s l).flushAt := rfl
  rw [h3]
  split
  · exact hf _
  · rfl

private theorem evaluateDeviceFilters_ask (s : Srv) : (ask b s).evaluateDeviceFilters rx flush = ask b (s.evaluateDeviceFilters rx flush) := by
  unfold Srv.evaluateDeviceFilters
  have h : (!(ask b s).ms.hasDeviceFilters || (ask b s).devices.isEmpty) = (!s.ms.hasDeviceFilters || s.devices.isEmpty) := rfl
  rw [h]
  split
  · rfl
  · exact setActiveContexts_ask hf { s with ms := s.ms.evaluateDeviceFilters rx s.devices } _

private theorem resetConfiguration_ask (s : Srv) (ms : MS) : (ask b s).resetConfiguration rx flush ms = ask b (s.resetConfiguration rx flush ms) := by
  unfold Srv.resetConfiguration
  simp only []
  have h : flush (ask b s).releaseAllKeys = ask b (flush s.releaseAllKeys) := hf s.releaseAllKeys
  rw [h]
  generalize flush s.releaseAllKeys = s1
  exact evaluateDeviceFilters_ask hf { s1 with ms := ms, virtualDown := [], flushAt := none, timeoutStart := none }

private theorem exit_ask (s : Srv) : (ask b s).exit rx flush = ask b (s.exit rx flush) := by
  unfold Srv.exit
  simp only []
  rw [resetConfiguration_ask hf]
  rfl

omit hf in
private theorem sendOutput_ask (s : Srv) (ev : KeyEvent) (l : KeySequence) : (ask b s).sendOutput ev l = ask b (s.sendOutput ev l) := by
  unfold Srv.sendOutput
  split <;> rfl

omit hf in
private theorem noteEvent_ask (s : Srv) (ev : KeyEvent) : (ask b s).noteEvent ev = ask b (s.noteEvent ev) := by
  unfold Srv.noteEvent
  split <;> rfl

private theorem translateCore_ask (s : Srv) (ev : KeyEvent) (dev : Int) : (ask b s).translateCore rx flush ev dev = ask b (s.translateCore rx flush ev dev) := by
  unfold Srv.translateCore
  simp only []
  rw [noteEvent_ask]
  generalize s.noteEvent ev = s1
  show (if (s1.ms.update ev dev).1.shouldExit then _ else _) = _
  split
  · exact exit_ask (rx := rx) hf { s1 with ms := (s1.ms.update ev dev).1 }
  · exact sendOutput_ask { s1 with ms := (s1.ms.update ev dev).1 } ev _

private theorem translateTimeout_ask (s : Srv) (ev : KeyEvent) (dev : Int) : (ask b s).translateTimeout rx flush ev dev = ask b (s.translateTimeout rx flush ev dev) := by
  unfold Srv.translateTimeout
  have : (ask b s).ignoresRepeat ev = s.ignoresRepeat ev := rfl
  rw [this]
  split
  · rfl
  · exact translateCore_ask hf s ev dev

private theorem injectElapsed_ask (s : Srv) (ev : KeyEvent) (dev : Int) : (ask b s).injectElapsed rx flush ev dev = ask b (s.injectElapsed rx flush ev dev) := by
  unfold Srv.injectElapsed
  have : (ask b s).timeoutStart = s.timeoutStart := rfl
  rw [this]
  have : (ask b s).cancelOnUp = s.cancelOnUp := rfl
  rw [this]
  split
  · split
    · exact translateTimeout_ask (rx := rx) hf s.cancelTimeout _ dev
    · rfl
  · rfl

private theorem translateWith_ask (s : Srv) (ev : KeyEvent) (dev : Int) (hk : ¬ (isDeviceKey ev.key = true ∧ ev.key ≠ Key.ButtonLeft ∧ ev.state = .Down))
    (hw : ¬ (isMouseWheel ev.key = true ∧ ev.state = .Up)) :
    (ask b s).translateWith rx flush ev dev = ask b (s.translateWith rx flush ev dev) := by
  have hr : ∀ s : Srv, s.repliesKeyInfo ev = false := by
    intro s
    unfold Srv.repliesKeyInfo
    rw [Bool.eq_false_iff]
    intro h
    simp only [Bool.and_eq_true, bne_iff_ne, beq_iff_eq] at h
    exact hk ⟨h.1.1.2, h.1.2, h.2⟩
  have hw' : (isMouseWheel ev.key && ev.state == .Up) = false := by
    rw [Bool.eq_false_iff]
    intro h
    simp only [Bool.and_eq_true, beq_iff_eq] at h
    exact hw h
  unfold Srv.translateWith
  have : (ask b s).ignoresRepeat ev = s.ignoresRepeat ev := rfl
  rw [this]
  split
  · rfl
  · simp only [hr, hw', Bool.false_eq_true, if_false]
    rw [injectElapsed_ask hf, translateCore_ask hf]

end

private theorem virtual_not_device {k : Key} (hk : isVirtualKey k = true) : isDeviceKey k = false ∧ isMouseWheel k = false := by
  unfold isVirtualKey at hk
  simp only [Bool.and_eq_true, decide_eq_true_eq] at hk
  have hw : isMouseWheel k = false := by
    unfold isMouseWheel
    have : ¬ k ≤ 339 := Nat.not_le.2 (Nat.lt_of_lt_of_le (by decide) hk.1)
    simp [this]
  have hb : isMouseButton k = false := by
    unfold isMouseButton
    have : ¬ k ≤ 276 := Nat.not_le.2 (Nat.lt_of_lt_of_le (by decide) hk.1)
    simp [this]
  have hkb : isKeyboardKey k = false := by
    unfold isKeyboardKey
    have : ¬ k ≤ 61439 := Nat.not_le.2 (Nat.lt_of_lt_of_le (by decide) hk.1)
    simp [this]
  exact ⟨by unfold isDeviceKey; rw [hw, hb, hkb]; rfl, hw⟩

private theorem toggle_ask {rx : Regex} {b : Bool} (s : Srv) (k : Key) (hk : isVirtualKey k = true) :
    (ask b s).toggleVirtualKey rx k = ask b (s.toggleVirtualKey rx k) := by
  have hn := virtual_not_device hk
  have ht : ∀ (s : Srv) st, (ask b s).translateSending rx ⟨k, st, 0⟩ anyDeviceIndex = ask b (s.translateSending rx ⟨k, st, 0⟩ anyDeviceIndex) := by
    intro s st
    refine translateWith_ask (flush := id) (fun _ => rfl) s _ _ ?_ ?_
    · intro h; have := h.1; rw [hn.1] at this; cases this
    · intro h; have := h.1; rw [hn.2] at this; cases this
  unfold Srv.toggleVirtualKey Srv.setVirtualKeyState
  have hv : (ask b s).virtualDown = s.virtualDown := rfl
  simp only [hv, hk, if_true]
  split
  · have := ht { s with virtualDown := s.virtualDown ++ [k] } .Down
    show (let s1 := Srv.translateSending rx (ask b { s with virtualDown := s.virtualDown ++ [k] }) ⟨k, .Down, 0⟩ anyDeviceIndex
      ({ s1 with out := s1.out ++ [.virtualKeyState k .Down] } : Srv)) = _
    simp only []
    rw [this]
    rfl
  · split
    · have := ht { s with virtualDown := s.virtualDown.erase k } .Up
      show (let s1 := Srv.translateSending rx (ask b { s with virtualDown := s.virtualDown.erase k }) ⟨k, .Up, 0⟩ anyDeviceIndex
        ({ s1 with out := s1.out ++ [.virtualKeyState k .Up] } : Srv)) = _
      simp only []
      rw [this]
      rfl
    · rfl

private def askR (b : Bool) (r : Srv × Bool) : Srv × Bool := (ask b r.1, r.2)

private theorem flushItems_ask {rx : Regex} {b : Bool} (next : Option (Srv → Srv × Bool))
    (hn : ∀ f, next = some f → ∀ s, f (ask b s) = askR b (f s)) (l : KeySequence) (s : Srv) :
    Srv.flushItems rx next l (ask b s) = askR b (Srv.flushItems rx next l s) := by
  induction l generalizing s with
  | nil => rfl
  | cons e rest ih =>
    unfold Srv.flushItems
    simp only []
    split
    · exact ih { s with sendBuf := rest }
    · split
      · split
        · exact ih { s with sendBuf := rest, out := s.out ++ [.action (e.key - Key.first_action)] }
        · exact ih { s with sendBuf := rest }
      · split
        · next hv =>
          split
          · cases next with
            | none => exact ih { s with sendBuf := rest }
            | some f =>
              show f ((ask b { s with sendBuf := rest }).toggleVirtualKey rx e.key) = _
              rw [toggle_ask _ _ hv]
              exact hn f rfl _
          · exact ih { s with sendBuf := rest }
        · split
          · show ((ask b { s with sendBuf := rest }).scheduleFlush e.value, true) = _
            unfold Srv.scheduleFlush
            have : (ask b { s with sendBuf := rest }).flushAt = s.flushAt := rfl
            rw [this]
            split <;> rfl
          · have : Srv.sendSucceeds { ask b s with sendBuf := rest } = Srv.sendSucceeds { s with sendBuf := rest } := rfl
            rw [this]
            split
            · exact ih ({ s with sendBuf := rest }.send e)
            · rfl

private theorem flushLoop_ask {rx : Regex} {b : Bool} (n : Nat) (s : Srv) : Srv.flushLoop rx n (ask b s) = askR b (Srv.flushLoop rx n s) := by
  induction n generalizing s with
  | zero => exact flushItems_ask none (fun f h => by cases h) s.sendBuf s
  | succ n ih =>
    exact flushItems_ask (some (Srv.flushLoop rx n)) (fun f h s => by injection h with h; subst h; exact ih s) s.sendBuf s

private theorem flush_ask {rx : Regex} {b : Bool} (s : Srv) : (ask b s).flush rx = ask b (s.flush rx) := by
  unfold Srv.flush Srv.flushSendBuffer
  have : (ask b s).sending = s.sending := rfl
  rw [this]
  split
  · rfl
  · show (let r := Srv.flushLoop rx 9 (ask b { s with sending := true, flushAt := none }); (({ r.1 with sending := false } : Srv), r.2)).1 = _
    simp only [flushLoop_ask]
    rfl

/-- **C26**: all other events are processed as if nothing had been requested: everything the server
does and remembers is the same, only that the request remains. (Excluded is turning a mouse wheel,
which is a press and a release: the press is the reply.) -/
theorem C26_others_unaffected (rx : Regex) (s : Srv) (ev : KeyEvent) (dev : Int)
    (hk : ¬ (isDeviceKey ev.key = true ∧ ev.key ≠ Key.ButtonLeft ∧ ev.state = .Down))
    (hw : ¬ (isMouseWheel ev.key = true ∧ ev.state = .Up)) :
    Srv.translateInput rx { s with nextKeyInfo := true } ev dev =
      { Srv.translateInput rx { s with nextKeyInfo := false } ev dev with nextKeyInfo := true } := by
  have h1 := translateWith_ask (rx := rx) (b := true) (flush_ask (rx := rx)) s ev dev hk hw
  have h2 := translateWith_ask (rx := rx) (b := false) (flush_ask (rx := rx)) s ev dev hk hw
  unfold Srv.translateInput
  show (ask true s).translateWith rx (Srv.flush rx) ev dev = ask true ((ask false s).translateWith rx (Srv.flush rx) ev dev)
  rw [h1, h2]
  rfl

/-- replies so far, and a pending request -/
private def answered (n : Nat) (s : Srv) : Prop := s.out.countP Eff.isReply + (if s.nextKeyInfo then 1 else 0) ≤ n

private theorem answered_prim (n : Nat) : ∀ a b, SrvPrim a b → answered n a → answered n b := by
  intro a b h ha
  unfold answered at *
  cases h with
  | internal _ h2 h3 => rw [h2, h3]; exact ha
  | reply k d h =>
    rw [h] at ha
    simp only [List.countP_append, List.countP_singleton] at *
    simpa [Eff.isReply] using ha
  | press => exact ha
  | release => exact ha
  | clear => exact ha
  | _ => simpa [List.countP_append, Eff.isReply] using ha

/-- **C26**: over every history of the server, there are at most as many replies as requests; none
without request. -/
theorem C26_one_reply_per_request (rx : Regex) (ops : List SrvOp) :
    (srvRun rx {} ops).out.countP Eff.isReply ≤ keyRequests ops := by
  have hm : ∀ n (s : Srv) m, answered n s → answered (n + (if Msg.isKeyRequest m then 1 else 0)) (s.onMessage rx m) := by
    intro n s m h
    refine SrvSteps.preserves (answered_prim _) (onMessage_steps rx s m) ?_
    cases m <;> first
      | (simp only [Msg.isKeyRequest, Bool.false_eq_true, if_false, Nat.add_zero]; exact h)
      | (unfold answered at *; simp only [Msg.isKeyRequest, if_true]; omega)
  have hl : ∀ (l : List Msg) n (s : Srv), answered n s → answered (n + l.countP Msg.isKeyRequest) (l.foldl (Srv.onMessage rx) s) := by
    intro l
    induction l with
    | nil => intro n s h; exact h
    | cons m l ih =>
      intro n s h
      rw [List.foldl_cons, List.countP_cons, Nat.add_comm (l.countP _), ← Nat.add_assoc]
      exact ih _ _ (hm n s m h)
  have hmono : ∀ n k (s : Srv), answered n s → answered (n + k) s := by
    intro n k s h; unfold answered at *; omega
  have hs : ∀ n (s : Srv) op, answered n s → answered (n + op.messages.countP Msg.isKeyRequest) (srvStep rx s op) := by
    intro n s op h
    cases op with
    | loop it =>
      have h0 : answered n (s.iterStart it) := h
      have h1 : answered n (s.iterFlush rx it).1 :=
        SrvSteps.preserves (answered_prim n) ((processRead_steps rx _ it.read).trans ((answerTimeout_steps rx _).trans (flushWhenDue_steps rx _))) h0
      show answered _ (s.iterate rx it).1
      rcases iterate_cases rx s it with h | ⟨_, h⟩ | ⟨_, h⟩
      · rw [h]; exact hmono _ _ _ h0
      · rw [h]; exact hmono _ _ _ h1
      · rw [h]; exact hl _ _ _ (SrvSteps.preserves (answered_prim n) (updateDevices_steps rx _ _) h1)
    | message m =>
      have := hm n s m h
      simpa [SrvOp.messages, List.countP_cons, srvStep] using this
    | devices l => exact SrvSteps.preserves (answered_prim n) (updateDevices_steps rx s (some l)) h
    | reset => exact SrvSteps.preserves (answered_prim n) (resetConfiguration_steps (flush_steps rx) s {}) h
  have : ∀ (ops : List SrvOp) n (s : Srv), answered n s → answered (n + keyRequests ops) (srvRun rx s ops) := by
    intro ops
    induction ops with
    | nil => intro n s h; exact h
    | cons op ops ih =>
      intro n s h
      have he : keyRequests (op :: ops) = op.messages.countP Msg.isKeyRequest + keyRequests ops := by
        unfold keyRequests; rw [List.flatMap_cons, List.countP_append]
      rw [he, ← Nat.add_assoc]
      exact ih _ _ (hs n s op h)
  have h := this ops 0 {} (Nat.le_refl 0)
  unfold answered at h
  omega

/-- **C26**, the excluded case: turning a mouse wheel also is reported, once. -/
theorem C26_wheel_reported (rx : Regex) (s : Srv) (k : Key) (v : Nat) (dev : Int) (hk : isMouseWheel k = true)
    (h1 : s.last ≠ ⟨k, .Up, v⟩) (h2 : s.last ≠ ⟨k, .Down, v⟩) (ht : s.timeoutStart = none) (hreq : s.nextKeyInfo = true) :
    let s' := s.translateInput rx ⟨k, .Up, v⟩ dev
    (∃ l, s'.out = s.out ++ [.nextKeyInfo k (if 0 ≤ dev then s.devices[dev.toNat]? else none)] ++ l ∧ ∀ e ∈ l, e.isReply = false) ∧
      s'.nextKeyInfo = false := by
  intro s'
  have hdev : isDeviceKey k = true := by unfold isDeviceKey; rw [hk]; simp
  have hb : k ≠ Key.ButtonLeft := by intro h; rw [h] at hk; exact absurd hk (by decide)
  have hi : ∀ st, s.last ≠ ⟨k, st, v⟩ → s.ignoresRepeat ⟨k, st, v⟩ = false := by
    intro st h
    unfold Srv.ignoresRepeat
    rw [beq_eq_false_iff_ne.2 (Ne.symm h)]
    rfl
  have hr1 : s.repliesKeyInfo ⟨k, .Up, v⟩ = false := by unfold Srv.repliesKeyInfo; simp
  have hr2 : s.repliesKeyInfo ⟨k, .Down, v⟩ = true := by
    unfold Srv.repliesKeyInfo
    simp only [hreq, hdev, bne_iff_ne.2 hb]
    rfl
  have hinj : s.injectElapsed rx (Srv.flush rx) ⟨k, .Up, v⟩ dev = s := by unfold Srv.injectElapsed; rw [ht]
  have he : s' = (s.replyKeyInfo ⟨k, .Down, v⟩ dev).translateCore rx (Srv.flush rx) ⟨k, .Up, v⟩ dev := by
    show s.translateWith rx (Srv.flush rx) ⟨k, .Up, v⟩ dev = _
    unfold Srv.translateWith
    rw [hi _ h1, hr1]
    simp only [Bool.false_eq_true, if_false, hinj, hk, Bool.true_and]
    have : s.translateNoWheel rx (Srv.flush rx) ⟨k, .Down, v⟩ dev = s.replyKeyInfo ⟨k, .Down, v⟩ dev := by
      unfold Srv.translateNoWheel
      rw [hi _ h2, hr2]
      rfl
    rw [this]
    rfl
  have hsteps := translateCore_steps (rx := rx) (flush_steps rx) (s.replyKeyInfo ⟨k, .Down, v⟩ dev) ⟨k, .Up, v⟩ dev
  rw [← he] at hsteps
  have hP := SrvSteps.preserves (P := fun s' : Srv => (∃ l, s'.out = s.out ++ [.nextKeyInfo k (if 0 ≤ dev then s.devices[dev.toNat]? else none)] ++ l ∧
    ∀ e ∈ l, e.isReply = false) ∧ s'.nextKeyInfo = false) ?_ hsteps ⟨⟨[], (List.append_nil _).symm, by simp⟩, rfl⟩
  · exact hP
  · intro a b h ⟨⟨l, ha, hl⟩, hn⟩
    have hone : ∀ e : Eff, e.isReply = false → ∃ l', a.out ++ [e] =
        s.out ++ [.nextKeyInfo k (if 0 ≤ dev then s.devices[dev.toNat]? else none)] ++ l' ∧ ∀ e ∈ l', e.isReply = false := by
      intro e he
      refine ⟨l ++ [e], by rw [ha, List.append_assoc], ?_⟩
      intro x hx
      rcases List.mem_append.1 hx with hx | hx
      · exact hl x hx
      · cases List.mem_singleton.1 hx; exact he
    cases h with
    | internal _ h2 h3 => exact ⟨⟨l, h2.trans ha, hl⟩, h3.trans hn⟩
    | reply k d h => rw [hn] at h; cases h
    | press => exact ⟨⟨l, ha, hl⟩, hn⟩
    | release => exact ⟨⟨l, ha, hl⟩, hn⟩
    | clear => exact ⟨⟨l, ha, hl⟩, hn⟩
    | _ => exact ⟨hone _ rfl, hn⟩

example : ((srvRun (fun _ _ => false) {} [.message (.configuration [Cfg.make []]), .message .requestNextKeyInfo,
      .loop { now := 0, read := .key ⟨336, .Up, 120⟩ 0 }, .loop { now := 1, read := .key ⟨336, .Up, 120⟩ 0 }]).out =
    [.nextKeyInfo 336 none, .sendKey ⟨336, .Up, 120⟩]) := by decide +kernel

/-- `A` is requested and reported; then it is output again -/
example : ((srvRun (fun _ _ => false) {} [.message (.configuration [Cfg.make []]), .message .requestNextKeyInfo,
      .loop { now := 0, read := .key ⟨Key.ButtonLeft, .Down, 0⟩ 0 }, .loop { now := 0, read := .key ⟨30, .Down, 0⟩ 0 },
      .loop { now := 1, read := .key ⟨30, .Down, 0⟩ 0 }]).out =
    [.sendKey ⟨Key.ButtonLeft, .Down, 0⟩, .nextKeyInfo 30 none, .sendKey ⟨30, .Down, 0⟩]) := by decide +kernel

end KM
