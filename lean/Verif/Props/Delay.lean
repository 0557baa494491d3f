import Verif.Lemmas.Delay
import Verif.Lemmas.ServerRel
import Verif.Props.Flush
/-!
# Delays in the output

**C68** What follows a delay in the output is sent when the delay is over, and not before. (That the delay
starts when sending reaches it is C24.)
-/
namespace KM

/-- **C68**: as long as a delay is not over (`t` is the time at which it is), nothing is output: whatever is
read, injected or told by the client only adds output behind what is waiting, and does not change when
the delay is over. Unless the configuration is replaced or the exit sequence is read. -/
theorem C68_delay_kept (rx : Regex) (s : Srv) (t : Int) (hs : s.flushAt = some t) (ops : List SrvOp)
    (hk : ∀ op ∈ ops, op.keepsConfiguration = true) (hb : ∀ op ∈ ops, op.until t)
    (he : exitsOf (srvRun rx s ops).out = exitsOf s.out) :
    (srvRun rx s ops).out.filter Eff.isOutput = s.out.filter Eff.isOutput ∧ (srvRun rx s ops).flushAt = some t ∧
      ∃ more, (srvRun rx s ops).sendBuf = s.sendBuf ++ more := by
  have hx : ∀ (ops : List SrvOp) (s : Srv), exitsOf s.out ≤ exitsOf (srvRun rx s ops).out := by
    intro ops
    induction ops with
    | nil => intro s; exact Nat.le_refl _
    | cons op ops ih => intro s; exact Nat.le_trans (srvStep_exits rx s op) (ih _)
  induction ops generalizing s with
  | nil => exact ⟨rfl, hs, [], by simp [srvRun]⟩
  | cons op ops ih =>
    have he : exitsOf (srvRun rx (srvStep rx s op) ops).out = exitsOf s.out := he
    have h1 := srvStep_exits rx s op
    have h2 := hx ops (srvStep rx s op)
    obtain ⟨k1, k2, m, k3⟩ := srvStep_kept rx s t hs op (hk op List.mem_cons_self) (hb op List.mem_cons_self) (by omega)
    obtain ⟨l1, l2, m', l3⟩ := ih (srvStep rx s op) k2 (fun o h => hk o (List.mem_cons_of_mem _ h))
      (fun o h => hb o (List.mem_cons_of_mem _ h)) (by omega)
    exact ⟨l1.trans k1, l2, m ++ m', by
      show (srvRun rx (srvStep rx s op) ops).sendBuf = _
      rw [l3, k3, List.append_assoc]⟩

theorem SrvSteps.grows {a b : Srv} (h : SrvSteps a b) : ∃ new, b.out = a.out ++ new := by
  refine SrvSteps.preserves (P := fun s => ∃ new, s.out = a.out ++ new) ?_ h ⟨[], by simp⟩
  intro x y hp ⟨new, hx⟩
  cases hp with
  | internal h1 h2 h3 => exact ⟨new, h2.trans hx⟩
  | press k h => exact ⟨new, hx⟩
  | release k h => exact ⟨new, hx⟩
  | clear => exact ⟨new, hx⟩
  | _ => exact ⟨new ++ [_], by rw [← List.append_assoc, ← hx]⟩

theorem messages_grow (rx : Regex) (l : List Msg) : ∀ s : Srv, ∃ new, (l.foldl (Srv.onMessage rx) s).out = s.out ++ new := by
  induction l with
  | nil => intro s; exact ⟨[], by simp⟩
  | cons m l ih =>
    intro s
    have h1 : ∃ new, (s.onMessage rx m).out = s.out ++ new := by
      have h := (onMessage_steps rx s m).grows
      cases m <;> exact h
    obtain ⟨n1, h1⟩ := h1
    obtain ⟨n2, h2⟩ := ih (s.onMessage rx m)
    exact ⟨n1 ++ n2, by rw [List.foldl_cons, h2, h1, List.append_assoc]⟩

theorem iterate_eq (rx : Regex) (s : Srv) (it : Iteration) (hr : it.read ≠ .other) :
    (s.iterate rx it).1 = (if (s.iterFlush rx it).2 then (s.iterFlush rx it).1.iterEnd rx it else (s.iterFlush rx it).1) := by
  unfold Srv.iterate Srv.iterFlush Srv.iterEnd
  simp only []
  rw [if_neg hr]
  unfold Srv.iterStart
  generalize Srv.flushWhenDue rx _ = r
  obtain ⟨s2, ok⟩ := r
  cases ok with
  | false => rfl
  | true =>
    simp only [Bool.not_true, Bool.false_eq_true, if_false, if_true]
    split <;> rfl

/-- **C68**: the first iteration of the loop after the delay is over outputs what was waiting, followed by
what the iteration added, in order: all of it, or up to the next delay - which then lasts from now - or
to where sending failed. -/
theorem C68_sent (rx : Regex) (ops : List SrvOp) (t : Int) (hs : (srvRun rx {} ops).flushAt = some t) (it : Iteration)
    (ht : t < it.now) (hr : it.read ≠ .other) (hk : (SrvOp.loop it).keepsConfiguration = true)
    (he : exitsOf (srvStep rx (srvRun rx {} ops) (.loop it)).out = exitsOf (srvRun rx {} ops).out) :
    let s := srvRun rx {} ops
    let r := srvStep rx s (.loop it)
    ∃ added done left more, s.sendBuf ++ added = done ++ left ∧
      r.out.filter Eff.isOutput = s.out.filter Eff.isOutput ++ effectsOf done ++ more ∧
      (left = [] ∨ (∃ d rest later, left = d :: rest ∧ IsDelay d ∧ more = [] ∧ r.sendBuf = rest ++ later ∧
        r.flushAt = some (it.now + d.value)) ∨
        (∃ e rest later, left = e :: rest ∧ effectOf e = [.sendKey e] ∧ more = [.sendKey e] ∧ r.sendBuf = left ++ later)) := by
  intro s r
  have hq : s.sending = false := srvRun_sending rx ops
  replace hs : s.flushAt = some t := hs
  replace he : exitsOf (s.iterate rx it).1.out = exitsOf s.out := he
  have hrr : r = (s.iterate rx it).1 := rfl
  clear_value s r
  subst hrr
  generalize hx : ((s.iterStart it).processRead rx it.read).answerTimeout rx = x
  have hrd : DelayKept (s.iterStart it) x := by rw [← hx]; exact iterRead_kept rx _ _
  have hfl := SrvSteps.exits (flushWhenDue_steps rx x)
  have hif : s.iterFlush rx it = x.flushWhenDue rx := by unfold Srv.iterFlush; rw [hx]
  have hu := SrvSteps.exits (updateDevices_steps rx (s.iterFlush rx it).1 it.devices)
  have hmm := messages_exits rx it.messages ((s.iterFlush rx it).1.updateDevices rx it.devices)
  have h0 : exitsOf (s.iterStart it).out = exitsOf s.out := rfl
  have h1 := hrd.exits
  have hall : (s.iterate rx it).1 = (if (s.iterFlush rx it).2 then (s.iterFlush rx it).1.iterEnd rx it else (s.iterFlush rx it).1) := by
    rw [iterate_eq rx s it hr]
  rw [hall] at he ⊢
  have hxe : exitsOf x.out = exitsOf (s.iterStart it).out ∧ exitsOf (s.iterFlush rx it).1.out = exitsOf x.out := by
    rw [hif] at he hu hmm ⊢
    cases h2 : (x.flushWhenDue rx).2 with
    | false =>
      rw [h2] at he
      have he : exitsOf (x.flushWhenDue rx).1.out = exitsOf s.out := he
      omega
    | true =>
      rw [h2] at he
      have he : exitsOf (it.messages.foldl (Srv.onMessage rx) ((x.flushWhenDue rx).1.updateDevices rx it.devices)).out = exitsOf s.out := he
      omega
  obtain ⟨k1, k2, k3, k4, added, k5⟩ := hrd.kept hxe.1
  have hdue : x.flushDue = true := by
    unfold Srv.flushDue
    rw [k2, k4]
    show (match s.flushAt with | some t => decide (t < it.now) | none => true) = true
    rw [hs]
    exact decide_eq_true ht
  have hfe : s.iterFlush rx it = x.flushSendBuffer rx := by
    rw [hif]
    unfold Srv.flushWhenDue
    rw [hdue]
    rfl
  rw [hfe] at he hxe ⊢
  obtain ⟨done, left, more, f1, f2, f3⟩ := C24_flush_order_virtual rx x (k3.trans hq)
  rw [k1, show x.now = it.now from k4] at *
  have hsb : s.sendBuf ++ added = done ++ left := by rw [← f1, k5]; rfl
  cases hok : (x.flushSendBuffer rx).2 with
  | false =>
    rw [if_neg (by simp)]
    refine ⟨added, done, left, more, hsb, f2, ?_⟩
    rcases f3 with h | h | ⟨e, rest, later, g1, g2, g3, g4, g5⟩
    · exact Or.inl h
    · exact Or.inr (Or.inl h)
    · exact Or.inr (Or.inr ⟨e, rest, later, g1, g2, g3, g5⟩)
  | true =>
    rw [if_pos rfl]
    rw [hok, if_pos rfl] at he
    rcases f3 with h | ⟨d, rest, later, g1, g2, g3, g4, g5⟩ | ⟨e, rest, later, g1, g2, g3, g4, g5⟩
    · obtain ⟨n1, o1⟩ := (updateDevices_steps rx (x.flushSendBuffer rx).1 it.devices).grows
      obtain ⟨n2, o2⟩ := messages_grow rx it.messages ((x.flushSendBuffer rx).1.updateDevices rx it.devices)
      refine ⟨added, done, left, more ++ (n1 ++ n2).filter Eff.isOutput, hsb, ?_, Or.inl h⟩
      show (it.messages.foldl (Srv.onMessage rx) ((x.flushSendBuffer rx).1.updateDevices rx it.devices)).out.filter _ = _
      rw [o2, o1, List.append_assoc, List.filter_append, f2, List.append_assoc]
      rfl
    · have hm : ∀ m ∈ it.messages, m.isConfiguration = false := by
        intro m hm
        have := List.all_eq_true.1 (show it.messages.all (fun m => !m.isConfiguration) = true from hk) m hm
        simpa using this
      rw [hfe] at hu hmm
      have he : exitsOf (it.messages.foldl (Srv.onMessage rx) ((x.flushSendBuffer rx).1.updateDevices rx it.devices)).out = exitsOf s.out := he
      have u1 := updateDevices_kept rx (x.flushSendBuffer rx).1 it.devices (by rw [g5]; rfl)
      have u2 := messages_kept rx it.messages _ (isSome_of_kept u1 (by omega) (by rw [g5]; rfl)) hm
      obtain ⟨w1, w2, -, -, m1, w3⟩ := (u1.trans u2.exits (fun _ => u2)).kept (by omega)
      refine ⟨added, done, left, more, hsb, w1.trans f2, Or.inr (Or.inl ⟨d, rest, later ++ m1, g1, g2, g3, ?_, w2.trans g5⟩)⟩
      show (it.messages.foldl (Srv.onMessage rx) ((x.flushSendBuffer rx).1.updateDevices rx it.devices)).sendBuf = _
      rw [w3, g4, List.append_assoc]
    · rw [hok] at g4; cases g4

/-- `A >> B 500ms C`, `X >> Y`: while the delay is not over, X only adds to what is waiting (and to what
the following iterations send). -/
private def exOps : List SrvOp :=
  [.message (.configuration [Cfg.make [{
      inputs := [⟨[⟨30, .Down, 0⟩], 0⟩, ⟨[⟨45, .Down, 0⟩], 1⟩]
      outputs := [[⟨48, .Down, 0⟩, ⟨48, .Up, 0⟩, ⟨Key.timeout, .Down, 500⟩, ⟨46, .Down, 0⟩], [⟨21, .Down, 0⟩]] }]]),
   .message (.activeContexts [0]), .loop { now := 100, read := .key ⟨30, .Down, 0⟩ 0 }]
private def exDelay : Srv := srvRun (fun _ _ => false) {} exOps
private def exWaiting : List SrvOp :=
  [.loop { now := 200, read := .key ⟨45, .Down, 0⟩ 0 }, .message (.activeContexts [0]), .loop { now := 600 }]

example : exDelay.flushAt = some 600 ∧ exDelay.out = [.sendKey ⟨48, .Down, 0⟩, .sendKey ⟨48, .Up, 0⟩] ∧
    (∀ op ∈ exWaiting, op.keepsConfiguration = true) ∧
    exitsOf (srvRun (fun _ _ => false) exDelay exWaiting).out = exitsOf exDelay.out ∧
    (srvRun (fun _ _ => false) exDelay exWaiting).out = exDelay.out ∧
    (srvRun (fun _ _ => false) exDelay exWaiting).sendBuf = [⟨46, .Down, 0⟩, ⟨21, .Down, 0⟩] ∧
    (srvRun (fun _ _ => false) exDelay (exWaiting ++ [.loop { now := 601 }])).out =
      exDelay.out ++ [.sendKey ⟨46, .Down, 0⟩, .sendKey ⟨21, .Down, 0⟩] := by decide +kernel

example : ∀ op ∈ exWaiting, op.until 600 := by
  intro op h
  simp only [exWaiting, List.mem_cons, List.not_mem_nil, or_false] at h
  rcases h with rfl | rfl | rfl <;> simp [SrvOp.until]

end KM
