import Verif.Spec.Flush
import Verif.Lemmas.ServerQuiet
/-!
# C24, C25: sending buffered output, replacing the configuration
-/
namespace KM

theorem effectOf_sent {e : KeyEvent} (h : isSent e = true) : effectOf e = [.sendKey e] ∧ e.key ≠ 0xF001 := by
  unfold isSent at h
  simp only [Bool.and_eq_true, Bool.not_eq_true', isMouseWheel, isActionKey, isVirtualKey] at h
  obtain ⟨⟨⟨h1, h2⟩, h3⟩, h4⟩ := h
  have h2' : ¬ (0xF200 ≤ e.key ∧ e.key ≤ 0xF2FF) := by intro h; rw [decide_eq_true h.1, decide_eq_true h.2] at h2; cases h2
  have h3' : ¬ (0xF100 ≤ e.key ∧ e.key ≤ 0xF1FF) := by intro h; rw [decide_eq_true h.1, decide_eq_true h.2] at h3; cases h3
  have h4' : e.key ≠ 0xF001 := beq_eq_false_iff_ne.1 h4
  have h1' : ¬ (336 ≤ e.key ∧ e.key ≤ 339 ∧ e.state = .Down) := by
    intro h; rw [decide_eq_true h.1, decide_eq_true h.2.1, h.2.2] at h1; cases h1
  refine ⟨?_, h4'⟩
  unfold effectOf
  rw [if_neg h2', if_neg]
  rintro (h | h | h)
  · exact h4' h
  · exact h3' h
  · exact h1' h

theorem effectOf_dropped {n : Nat} {e : KeyEvent} (h : isDropped n e = true) : effectOf e = [] ∧ e.key ≠ 0xF001 := by
  unfold isDropped at h
  simp only [Bool.or_eq_true, Bool.and_eq_true, isMouseWheel, isActionKey, isVirtualKey, decide_eq_true_eq] at h
  unfold effectOf
  rcases h with (⟨⟨h1, h2⟩, h3⟩ | ⟨⟨h1, h2⟩, h3⟩) | ⟨⟨h1, h2⟩, h3⟩
  · have hd : e.state = .Down := by simpa using h3
    have h4 : ¬ (0xF200 ≤ e.key ∧ e.key ≤ 0xF2FF) := fun h => absurd (Nat.le_trans h.1 h2) (by decide)
    rw [if_neg h4, if_pos (Or.inr (Or.inr ⟨h1, h2, hd⟩))]
    exact ⟨rfl, fun h => by rw [h] at h2; exact absurd h2 (by decide)⟩
  · have hd : e.state ≠ .Down := by simpa using h3
    rw [if_pos ⟨h1, h2⟩, if_neg hd]
    exact ⟨rfl, fun h => by rw [h] at h1; exact absurd h1 (by decide)⟩
  · have h4 : ¬ (0xF200 ≤ e.key ∧ e.key ≤ 0xF2FF) := fun h => absurd (Nat.le_trans h.1 h2) (by decide)
    rw [if_neg h4, if_pos (Or.inr (Or.inl ⟨h1, h2⟩))]
    exact ⟨rfl, fun h => by rw [h] at h1; exact absurd h1 (by decide)⟩

theorem effectOf_action {e : KeyEvent} (h : isActionKey e.key = true) (hd : e.state = .Down) :
    effectOf e = [.action (e.key - Key.first_action)] ∧ e.key ≠ 0xF001 := by
  unfold isActionKey at h
  simp only [Bool.and_eq_true, decide_eq_true_eq] at h
  unfold effectOf
  rw [if_pos h, if_pos hd]
  exact ⟨rfl, fun hq => by rw [hq] at h; exact absurd h.1 (by decide)⟩

theorem effectOf_virtual {e : KeyEvent} (h : isVirtualKey e.key = true) : effectOf e = [] ∧ e.key ≠ 0xF001 := by
  unfold isVirtualKey at h
  simp only [Bool.and_eq_true, decide_eq_true_eq] at h
  have h4 : ¬ (0xF200 ≤ e.key ∧ e.key ≤ 0xF2FF) := fun hq => absurd (Nat.le_trans hq.1 h.2) (by decide)
  unfold effectOf
  rw [if_neg h4, if_pos (Or.inr (Or.inl h))]
  exact ⟨rfl, fun hq => by rw [hq] at h; exact absurd h.1 (by decide)⟩

/-- What flushing did: `done` was sent, `left` was not. -/
private structure Flushed (s : Srv) (r : Srv × Bool) (done left : KeySequence) : Prop where
  buffer : s.sendBuf = done ++ left
  noDelay : ∀ e ∈ done, ¬ IsDelay e
  accepted : ∀ i < keysOf done, s.sendResults.getD i true = true
  ms : r.1.ms = s.ms
  virtual : r.1.virtualDown = s.virtualDown
  ended :
    (r.2 = true ∧ left = [] ∧ r.1.sendBuf = [] ∧ r.1.out = s.out ++ effectsOf done ∧ r.1.flushAt = none) ∨
    (r.2 = true ∧ ∃ d rest, left = d :: rest ∧ IsDelay d ∧ r.1.sendBuf = rest ∧ r.1.out = s.out ++ effectsOf done ∧
      r.1.flushAt = some (s.now + d.value)) ∨
    (r.2 = false ∧ ∃ e rest, left = e :: rest ∧ effectOf e = [.sendKey e] ∧ r.1.sendBuf = left ∧
      r.1.out = s.out ++ effectsOf done ++ [.sendKey e] ∧ r.1.flushAt = none ∧ s.sendResults.getD (keysOf done) true = false)

private theorem effectsOf_cons (e : KeyEvent) (l : KeySequence) : effectsOf (e :: l) = effectOf e ++ effectsOf l := rfl

private theorem flushed_skip {s : Srv} {r : Srv × Bool} {e : KeyEvent} {rest : KeySequence} (hl : s.sendBuf = e :: rest)
    (he : effectOf e = []) (hd : ¬ IsDelay e) (h : ∃ done left, Flushed { s with sendBuf := rest } r done left) :
    ∃ done left, Flushed s r done left := by
  obtain ⟨done, left, h⟩ := h
  have hb : rest = done ++ left := h.buffer
  have hef : effectsOf (e :: done) = effectsOf done := by rw [effectsOf_cons, he, List.nil_append]
  refine ⟨e :: done, left, ⟨by rw [hl, hb]; rfl, ?_, ?_, h.ms, h.virtual, ?_⟩⟩
  · intro x hx
    rcases List.mem_cons.1 hx with rfl | hx
    · exact hd
    · exact h.noDelay x hx
  · intro i hi
    refine h.accepted i ?_
    unfold keysOf at hi ⊢
    rw [hef] at hi
    exact hi
  · have := h.ended
    unfold keysOf at this ⊢
    rw [hef]
    exact this

private theorem flushLoop_flushed (rx : Regex) (n : Nat) (s : Srv) (hv : ∀ e ∈ s.sendBuf, ¬ IsVirtual e) (hf : s.flushAt = none) :
    ∃ done left, Flushed s (Srv.flushLoop rx n s) done left := by
  revert hv hf
  refine flushLoop_rec (motive := fun _ s r => (∀ e ∈ s.sendBuf, ¬ IsVirtual e) → s.flushAt = none → ∃ done left, Flushed s r done left)
    ?_ ?_ ?_ ?_ ?_ ?_ ?_ n s
  · intro n s hl _ hf
    exact ⟨[], [], ⟨hl, by simp, by simp [keysOf, effectsOf], rfl, rfl, Or.inl ⟨rfl, rfl, hl, by simp [effectsOf], hf⟩⟩⟩
  · intro n s e rest r hl hd ih hv hf
    have he := effectOf_dropped hd
    exact flushed_skip hl he.1 he.2 (ih (fun x hx => hv x (by rw [hl]; exact List.mem_cons_of_mem _ hx)) hf)
  · intro n s e rest r hl ha hd ih hv hf
    obtain ⟨done, left, h⟩ := ih (fun x hx => hv x (by rw [hl]; exact List.mem_cons_of_mem _ hx)) hf
    have he := effectOf_action ha hd
    have hb : rest = done ++ left := h.buffer
    have hef : effectsOf (e :: done) = [.action (e.key - Key.first_action)] ++ effectsOf done := by rw [effectsOf_cons, he.1]
    have hk : keysOf (e :: done) = keysOf done := by unfold keysOf; rw [hef]; rfl
    refine ⟨e :: done, left, ⟨by rw [hl, hb]; rfl, ?_, ?_, h.ms, h.virtual, ?_⟩⟩
    · intro x hx
      rcases List.mem_cons.1 hx with rfl | hx
      · exact he.2
      · exact h.noDelay x hx
    · rw [hk]; exact h.accepted
    · have := h.ended
      rw [hk, hef]
      simpa only [List.append_assoc] using this
  · intro n s e rest r hl hv' hd ih hv hf
    have hm : e ∈ s.sendBuf := by rw [hl]; exact List.mem_cons_self ..
    refine absurd ?_ (hv e hm)
    simpa [isVirtualKey, IsVirtual] using hv'
  · intro n s e rest hl ht hv hf
    have hs : { s with sendBuf := rest }.scheduleFlush e.value = { s with sendBuf := rest, flushAt := some (s.now + e.value) } := by
      unfold Srv.scheduleFlush
      rw [if_neg (by rw [hf]; exact Bool.false_ne_true)]
    rw [hs]
    exact ⟨[], e :: rest, ⟨hl, by simp, by simp [keysOf, effectsOf], rfl, rfl,
      Or.inr (Or.inl ⟨rfl, e, rest, rfl, ht, rfl, by simp [effectsOf], rfl⟩)⟩⟩
  · intro n s e rest r hl hi hs ih hv hf
    obtain ⟨done, left, h⟩ := ih (fun x hx => hv x (by rw [hl]; exact List.mem_cons_of_mem _ hx)) hf
    have he := effectOf_sent hi
    have hb : rest = done ++ left := h.buffer
    have hef : effectsOf (e :: done) = [.sendKey e] ++ effectsOf done := by rw [effectsOf_cons, he.1]
    have hk : keysOf (e :: done) = keysOf done + 1 := by
      unfold keysOf; rw [hef, List.countP_append, Nat.add_comm]; rfl
    have hr : ∀ i, s.sendResults.getD (i + 1) true = s.sendResults.tail.getD i true := by
      intro i; cases s.sendResults <;> rfl
    have h0 : s.sendResults.getD 0 true = true := by
      have : s.sendResults.headD true = true := hs
      cases hq : s.sendResults with
      | nil => rfl
      | cons a l => rw [hq] at this; exact this
    refine ⟨e :: done, left, ⟨by rw [hl, hb]; rfl, ?_, ?_, h.ms, h.virtual, ?_⟩⟩
    · intro x hx
      rcases List.mem_cons.1 hx with rfl | hx
      · exact he.2
      · exact h.noDelay x hx
    · rw [hk]
      intro i hi
      cases i with
      | zero => exact h0
      | succ i => rw [hr]; exact h.accepted i (Nat.lt_of_succ_lt_succ hi)
    · have := h.ended
      rw [hk, hef, hr]
      unfold Srv.send at this
      simpa only [List.append_assoc] using this
  · intro n s e rest hl hi hs hv hf
    have he := effectOf_sent hi
    refine ⟨[], e :: rest, ⟨hl, by simp, by simp [keysOf, effectsOf], rfl, rfl,
      Or.inr (Or.inr ⟨rfl, e, rest, rfl, he.1, hl, by simp [effectsOf]; rfl, hf, ?_⟩)⟩⟩
    have : s.sendResults.headD true = false := hs
    have h0 : keysOf [] = 0 := rfl
    rw [h0]
    cases hq : s.sendResults with
    | nil => rw [hq] at this; cases this
    | cons a l => rw [hq] at this; exact this

/-- **C24**: flushing a buffer without virtual keys. The buffer is `done ++ left`: what is sent is
exactly `done`, in order, without anything lost (a failed key is offered to the device last). Either
all is sent, or sending stops at a delay - the first one, which is removed, and with it the flush is
scheduled when the delay is over -, or it stops at the first key which the device does not accept:
this key and everything behind it is kept. -/
theorem C24_flush_order (rx : Regex) (s : Srv) (hs : s.sending = false) (hv : ∀ e ∈ s.sendBuf, ¬ IsVirtual e) :
    let r := s.flushSendBuffer rx
    ∃ done left, s.sendBuf = done ++ left ∧ (∀ e ∈ done, ¬ IsDelay e) ∧
      (∀ i < keysOf done, s.sendResults.getD i true = true) ∧
      r.1.ms = s.ms ∧ r.1.virtualDown = s.virtualDown ∧
      ((r.2 = true ∧ left = [] ∧ r.1.sendBuf = [] ∧ r.1.out = s.out ++ effectsOf done ∧ r.1.flushAt = none) ∨
      (r.2 = true ∧ ∃ d rest, left = d :: rest ∧ IsDelay d ∧ r.1.sendBuf = rest ∧ r.1.out = s.out ++ effectsOf done ∧
        r.1.flushAt = some (s.now + d.value)) ∨
      (r.2 = false ∧ ∃ e rest, left = e :: rest ∧ effectOf e = [.sendKey e] ∧ r.1.sendBuf = left ∧
        r.1.out = s.out ++ effectsOf done ++ [.sendKey e] ∧ r.1.flushAt = none ∧ s.sendResults.getD (keysOf done) true = false)) := by
  intro r
  obtain ⟨done, left, h⟩ := flushLoop_flushed rx 9 { s with sending := true, flushAt := none } hv rfl
  have hr : r = ({ (Srv.flushLoop rx 9 { s with sending := true, flushAt := none }).1 with sending := false },
      (Srv.flushLoop rx 9 { s with sending := true, flushAt := none }).2) := by
    show s.flushSendBuffer rx = _
    unfold Srv.flushSendBuffer
    rw [hs]
    rfl
  rw [hr]
  exact ⟨done, left, h.buffer, h.noDelay, h.accepted, h.ms, h.virtual, h.ended⟩

/-! ### with virtual keys -/

/-- keys and actions which are output, in order -/
private def outputs (s : Srv) : List Eff := s.out.filter Eff.isOutput

/-- nothing is output, the buffer only grows -/
private def Grows (s s' : Srv) : Prop :=
  outputs s' = outputs s ∧ (∃ l, s'.sendBuf = s.sendBuf ++ l) ∧ s'.now = s.now ∧ (s.flushAt = none → s'.flushAt = none)

private theorem Grows.trans {a b c : Srv} (h : Grows a b) (t : Grows b c) : Grows a c := by
  obtain ⟨h1, ⟨l, h2⟩, h3, h4⟩ := h
  obtain ⟨t1, ⟨m, t2⟩, t3, t4⟩ := t
  exact ⟨t1.trans h1, ⟨l ++ m, by rw [t2, h2, List.append_assoc]⟩, t3.trans h3, fun h => t4 (h4 h)⟩

private theorem Grows.same {s s' : Srv} (h1 : s'.out = s.out) (h2 : s'.sendBuf = s.sendBuf) (h3 : s'.now = s.now)
    (h4 : s.flushAt = none → s'.flushAt = none) : Grows s s' :=
  ⟨by unfold outputs; rw [h1], ⟨[], by rw [h2, List.append_nil]⟩, h3, h4⟩

private theorem Grows.append {s s' : Srv} (l : KeySequence) (h1 : s'.out = s.out) (h2 : s'.sendBuf = s.sendBuf ++ l) (h3 : s'.now = s.now)
    (h4 : s.flushAt = none → s'.flushAt = none) : Grows s s' :=
  ⟨by unfold outputs; rw [h1], ⟨l, h2⟩, h3, h4⟩

private theorem Grows.eff {s s' : Srv} (e : Eff) (he : e.isOutput = false) (h1 : s'.out = s.out ++ [e]) (h2 : s'.sendBuf = s.sendBuf)
    (h3 : s'.now = s.now) (h4 : s.flushAt = none → s'.flushAt = none) : Grows s s' := by
  refine ⟨?_, ⟨[], by rw [h2, List.append_nil]⟩, h3, h4⟩
  unfold outputs
  rw [h1, List.filter_append, List.filter_cons, he]
  simp

section
variable {rx : Regex}

private theorem setActiveContexts_grows (s : Srv) (l : List Int) : Grows s (s.setActiveContexts id l) := by
  unfold Srv.setActiveContexts
  simp only []
  split <;> exact Grows.append (s.ms.setActiveClientContexts l).2 rfl rfl rfl (fun h => h)

private theorem evaluateDeviceFilters_grows (s : Srv) : Grows s (s.evaluateDeviceFilters rx id) := by
  unfold Srv.evaluateDeviceFilters
  split
  · exact Grows.same rfl rfl rfl (fun h => h)
  · exact setActiveContexts_grows { s with ms := s.ms.evaluateDeviceFilters rx s.devices } _

private theorem resetConfiguration_grows (s : Srv) (ms : MS) : Grows s (s.resetConfiguration rx id ms) := by
  unfold Srv.resetConfiguration
  have h1 : Grows s (id s.releaseAllKeys) := Grows.append _ rfl rfl rfl (fun h => h)
  refine h1.trans ?_
  obtain ⟨g1, g2, g3, g4⟩ := evaluateDeviceFilters_grows (rx := rx)
    { id s.releaseAllKeys with ms := ms, virtualDown := [], flushAt := none, timeoutStart := none }
  exact ⟨g1, g2, g3, fun _ => g4 rfl⟩

private theorem translateCore_grows (s : Srv) (ev : KeyEvent) (dev : Int) : Grows s (s.translateCore rx id ev dev) := by
  have h1 : Grows s (s.noteEvent ev) := by unfold Srv.noteEvent; split <;> exact Grows.same rfl rfl rfl (fun h => h)
  refine h1.trans ?_
  unfold Srv.translateCore
  simp only []
  split
  · refine Grows.trans (b := { s.noteEvent ev with ms := ((s.noteEvent ev).ms.update ev dev).1 }.resetConfiguration rx id {}) ?_ ?_
    · exact resetConfiguration_grows { s.noteEvent ev with ms := ((s.noteEvent ev).ms.update ev dev).1 } {}
    · exact Grows.eff .exitRequested rfl rfl rfl rfl (fun h => h)
  · unfold Srv.sendOutput
    split
    · exact Grows.append _ rfl rfl rfl (fun h => h)
    · exact Grows.append _ rfl rfl rfl (fun h => h)

private theorem translateWith_grows (s : Srv) (ev : KeyEvent) (dev : Int) : Grows s (s.translateWith rx id ev dev) := by
  have hinj : ∀ (s : Srv) (ev : KeyEvent), Grows s (s.injectElapsed rx id ev dev) := by
    intro s ev
    unfold Srv.injectElapsed
    split
    · split
      · unfold Srv.translateTimeout
        split
        · exact Grows.same rfl rfl rfl (fun h => h)
        · exact translateCore_grows s.cancelTimeout _ dev
      · exact Grows.same rfl rfl rfl (fun h => h)
    · exact Grows.same rfl rfl rfl (fun h => h)
  have hno : ∀ (s : Srv) (ev : KeyEvent), Grows s (s.translateNoWheel rx id ev dev) := by
    intro s ev
    unfold Srv.translateNoWheel
    split
    · exact Grows.same rfl rfl rfl (fun h => h)
    · split
      · exact Grows.eff (.nextKeyInfo _ _) rfl rfl rfl rfl (fun h => h)
      · exact (hinj s ev).trans (translateCore_grows _ _ _)
  unfold Srv.translateWith
  split
  · exact Grows.same rfl rfl rfl (fun h => h)
  · split
    · exact Grows.eff (.nextKeyInfo _ _) rfl rfl rfl rfl (fun h => h)
    · simp only []
      refine Grows.trans ?_ (translateCore_grows _ _ _)
      split
      · exact (hinj s ev).trans (hno _ _)
      · exact hinj s ev

private theorem toggle_grows (s : Srv) (k : Key) : Grows s (s.toggleVirtualKey rx k) := by
  unfold Srv.toggleVirtualKey Srv.setVirtualKeyState
  simp only []
  split
  · have h : Grows s (Srv.translateSending rx { s with virtualDown := s.virtualDown ++ [k] } ⟨k, .Down, 0⟩ anyDeviceIndex) :=
      translateWith_grows { s with virtualDown := s.virtualDown ++ [k] } ⟨k, .Down, 0⟩ anyDeviceIndex
    split
    · exact h.trans (Grows.eff (.virtualKeyState _ _) rfl rfl rfl rfl (fun h => h))
    · exact h
  · split
    · have h : Grows s (Srv.translateSending rx { s with virtualDown := s.virtualDown.erase k } ⟨k, .Up, 0⟩ anyDeviceIndex) :=
        translateWith_grows { s with virtualDown := s.virtualDown.erase k } ⟨k, .Up, 0⟩ anyDeviceIndex
      split
      · exact h.trans (Grows.eff (.virtualKeyState _ _) rfl rfl rfl rfl (fun h => h))
      · exact h
    · exact Grows.same rfl rfl rfl (fun h => h)

end

/-- What flushing did to the events which were in the buffer: `done` was sent first, in order;
`left` is still in front of the buffer, except for a delay. -/
private def Ordered (s : Srv) (r : Srv × Bool) (l : KeySequence) : Prop :=
  ∃ done left more, l = done ++ left ∧ outputs r.1 = outputs s ++ effectsOf done ++ more ∧
    (left = [] ∨ (∃ d rest later, left = d :: rest ∧ IsDelay d ∧ more = [] ∧ r.1.sendBuf = rest ++ later ∧
        (s.flushAt = none → r.1.flushAt = some (s.now + d.value))) ∨
      (∃ e rest later, left = e :: rest ∧ effectOf e = [.sendKey e] ∧ more = [.sendKey e] ∧ r.2 = false ∧ r.1.sendBuf = left ++ later))

private theorem ordered_skip {s s' : Srv} {r : Srv × Bool} {e : KeyEvent} {l : KeySequence} (ho : outputs s' = outputs s ++ effectOf e)
    (hn : s'.now = s.now) (hf : s.flushAt = none → s'.flushAt = none) (h : Ordered s' r l) : Ordered s r (e :: l) := by
  obtain ⟨done, left, more, h1, h2, h3⟩ := h
  refine ⟨e :: done, left, more, by rw [h1]; rfl, ?_, ?_⟩
  · rw [h2, ho, effectsOf_cons]
    simp only [List.append_assoc]
  · rcases h3 with h3 | ⟨d, rest, later, k1, k2, k3, k4, k5⟩ | h3
    · exact Or.inl h3
    · exact Or.inr (Or.inl ⟨d, rest, later, k1, k2, k3, k4, fun h => by rw [← hn]; exact k5 (hf h)⟩)
    · exact Or.inr (Or.inr h3)

private theorem flushLoop_ordered (rx : Regex) (n : Nat) (s : Srv) :
    ∀ l extra, s.sendBuf = l ++ extra → Ordered s (Srv.flushLoop rx n s) l := by
  have hnil : ∀ (s : Srv) (r : Srv × Bool), (∃ more, outputs r.1 = outputs s ++ more) → Ordered s r [] := by
    intro s r ⟨more, h⟩
    exact ⟨[], [], more, rfl, by simpa [effectsOf] using h, Or.inl rfl⟩
  refine (flushLoop_rec (motive := fun _ s r => (∃ more, outputs r.1 = outputs s ++ more) ∧ ∀ l extra, s.sendBuf = l ++ extra → Ordered s r l)
    ?_ ?_ ?_ ?_ ?_ ?_ ?_ n s).2
  · intro n s hl
    refine ⟨⟨[], by simp⟩, fun l extra h => ?_⟩
    rw [hl] at h
    have : l = [] := (List.append_eq_nil_iff.1 h.symm).1
    subst this
    exact hnil s _ ⟨[], by simp⟩
  · intro n s e rest r hl hd ih
    refine ⟨ih.1, fun l extra h => ?_⟩
    cases l with
    | nil => exact hnil s r ih.1
    | cons x l =>
      rw [hl] at h
      injection h with hx h
      subst hx
      exact ordered_skip (s' := { s with sendBuf := rest }) (by rw [(effectOf_dropped hd).1, List.append_nil]; rfl) rfl (fun h => h)
        (ih.2 l extra h)
  · intro n s e rest r hl ha hd ih
    have ho : outputs { s with sendBuf := rest, out := s.out ++ [.action (e.key - Key.first_action)] } = outputs s ++ effectOf e := by
      rw [(effectOf_action ha hd).1]
      unfold outputs
      simp only [List.filter_append]
      rfl
    have hm : ∃ more, outputs r.1 = outputs s ++ more := by
      obtain ⟨more, h⟩ := ih.1
      rw [ho, List.append_assoc] at h
      exact ⟨_, h⟩
    refine ⟨hm, fun l extra h => ?_⟩
    cases l with
    | nil => exact hnil s r hm
    | cons x l =>
      rw [hl] at h
      injection h with hx h
      subst hx
      exact ordered_skip ho rfl (fun h => h) (ih.2 l extra h)
  · intro n s e rest r hl hv hd ih
    have hg := toggle_grows (rx := rx) { s with sendBuf := rest } e.key
    obtain ⟨ho, ⟨later, hb⟩, hnow, hfl⟩ := hg
    have ho' : outputs ({ s with sendBuf := rest }.toggleVirtualKey rx e.key) = outputs s ++ effectOf e := by
      rw [ho, (effectOf_virtual hv).1, List.append_nil]
      rfl
    have hm : ∃ more, outputs r.1 = outputs s ++ more := by
      obtain ⟨more, h⟩ := ih.1
      rw [ho', List.append_assoc] at h
      exact ⟨_, h⟩
    refine ⟨hm, fun l extra h => ?_⟩
    cases l with
    | nil => exact hnil s r hm
    | cons x l =>
      rw [hl] at h
      injection h with hx h
      subst hx
      exact ordered_skip ho' hnow hfl (ih.2 l (extra ++ later) (by rw [hb, ← List.append_assoc]; exact congrArg (· ++ later) h))
  · intro n s e rest hl ht
    have ho : outputs ({ s with sendBuf := rest }.scheduleFlush e.value) = outputs s := by
      unfold Srv.scheduleFlush
      split <;> rfl
    have hb : ({ s with sendBuf := rest }.scheduleFlush e.value).sendBuf = rest := by
      unfold Srv.scheduleFlush
      split <;> rfl
    refine ⟨⟨[], by rw [ho, List.append_nil]⟩, fun l extra h => ?_⟩
    cases l with
    | nil => exact hnil s _ ⟨[], by rw [ho, List.append_nil]⟩
    | cons x l =>
      rw [hl] at h
      injection h with hx h
      subst hx
      exact ⟨[], e :: l, [], rfl, by simpa [effectsOf] using ho, Or.inr (Or.inl ⟨e, l, extra, rfl, ht, rfl, hb.trans h,
        fun hf => by rw [Srv.scheduleFlush, if_neg (by simp [hf])]⟩)⟩
  · intro n s e rest r hl hi hs ih
    have ho : outputs ({ s with sendBuf := rest }.send e) = outputs s ++ effectOf e := by
      rw [(effectOf_sent hi).1]
      unfold outputs Srv.send
      simp only [List.filter_append]
      rfl
    have hm : ∃ more, outputs r.1 = outputs s ++ more := by
      obtain ⟨more, h⟩ := ih.1
      rw [ho, List.append_assoc] at h
      exact ⟨_, h⟩
    refine ⟨hm, fun l extra h => ?_⟩
    cases l with
    | nil => exact hnil s r hm
    | cons x l =>
      rw [hl] at h
      injection h with hx h
      subst hx
      exact ordered_skip ho rfl (fun h => h) (ih.2 l extra h)
  · intro n s e rest hl hi hs
    have ho : outputs (s.send e) = outputs s ++ [.sendKey e] := by
      unfold outputs Srv.send
      simp only [List.filter_append]
      rfl
    refine ⟨⟨_, ho⟩, fun l extra h => ?_⟩
    cases l with
    | nil => exact hnil s _ ⟨_, ho⟩
    | cons x l =>
      have hl' := hl
      rw [hl] at h
      injection h with hx h
      subst hx
      refine ⟨[], e :: l, [.sendKey e], rfl, by simpa [effectsOf] using ho,
        Or.inr (Or.inr ⟨e, l, extra, rfl, (effectOf_sent hi).1, rfl, rfl, ?_⟩)⟩
      show s.sendBuf = _
      rw [hl', h]
      rfl

/-- **C24**: also when virtual keys are toggled in between, and whatever they trigger, the events which
were in the buffer are sent first and in order (`done`); what is not sent is still in the buffer, in
front of everything added meanwhile, except for the delay at which sending stopped. -/
theorem C24_flush_order_virtual (rx : Regex) (s : Srv) (hs : s.sending = false) :
    let r := s.flushSendBuffer rx
    ∃ done left more, s.sendBuf = done ++ left ∧
      r.1.out.filter Eff.isOutput = s.out.filter Eff.isOutput ++ effectsOf done ++ more ∧
      (left = [] ∨ (∃ d rest later, left = d :: rest ∧ IsDelay d ∧ more = [] ∧ r.1.sendBuf = rest ++ later ∧
        r.1.flushAt = some (s.now + d.value)) ∨
        (∃ e rest later, left = e :: rest ∧ effectOf e = [.sendKey e] ∧ more = [.sendKey e] ∧ r.2 = false ∧ r.1.sendBuf = left ++ later)) := by
  intro r
  have h := flushLoop_ordered rx 9 { s with sending := true, flushAt := none } s.sendBuf [] (by simp)
  have hr : r = ({ (Srv.flushLoop rx 9 { s with sending := true, flushAt := none }).1 with sending := false },
      (Srv.flushLoop rx 9 { s with sending := true, flushAt := none }).2) := by
    show s.flushSendBuffer rx = _
    unfold Srv.flushSendBuffer
    rw [hs]
    rfl
  rw [hr]
  obtain ⟨done, left, more, h1, h2, h3⟩ := h
  refine ⟨done, left, more, h1, h2, ?_⟩
  rcases h3 with h3 | ⟨d, rest, later, k1, k2, k3, k4, k5⟩ | h3
  · exact Or.inl h3
  · exact Or.inr (Or.inl ⟨d, rest, later, k1, k2, k3, k4, k5 rfl⟩)
  · exact Or.inr (Or.inr h3)

/-- a press, an action, a wheel event, a delay of 10ms and a release; the device accepts two keys -/
private def exBuffer : Srv :=
  { sendBuf := [⟨30, .Down, 0⟩, ⟨0xF203, .Down, 0⟩, ⟨336, .Down, 1⟩, ⟨336, .Up, 1⟩, ⟨Key.timeout, .Down, 10⟩, ⟨30, .Up, 0⟩] }

example : (exBuffer.flushSendBuffer (fun _ _ => false)).1.out = [.sendKey ⟨30, .Down, 0⟩, .action 3, .sendKey ⟨336, .Up, 1⟩] ∧
    (exBuffer.flushSendBuffer (fun _ _ => false)).1.sendBuf = [⟨30, .Up, 0⟩] ∧
    (exBuffer.flushSendBuffer (fun _ _ => false)).1.flushAt = some 10 := by decide +kernel

example : ({ exBuffer with sendResults := [true, false] }.flushSendBuffer (fun _ _ => false)).2 = false ∧
    ({ exBuffer with sendResults := [true, false] }.flushSendBuffer (fun _ _ => false)).1.sendBuf =
      [⟨336, .Up, 1⟩, ⟨Key.timeout, .Down, 10⟩, ⟨30, .Up, 0⟩] := by decide +kernel

/-! ### C25 -/

private theorem effectOf_device {k : Key} (hk : isDeviceKey k = true) : effectOf ⟨k, .Up, 0⟩ = [.sendKey ⟨k, .Up, 0⟩] ∧ k ≠ 0xF001 := by
  have hle : k ≤ 61439 := by
    unfold isDeviceKey isKeyboardKey isMouseButton isMouseWheel at hk
    simp only [Bool.or_eq_true, Bool.and_eq_true, decide_eq_true_eq] at hk
    rcases hk with (hk | hk) | hk
    · exact hk.1.1.2
    · exact Nat.le_trans hk.2 (by decide)
    · exact Nat.le_trans hk.2 (by decide)
  have h1 : ¬ (0xF200 ≤ k ∧ k ≤ 0xF2FF) := fun h => absurd (Nat.le_trans h.1 hle) (by decide)
  have h2 : k ≠ 0xF001 := fun h => by rw [h] at hle; exact absurd hle (by decide)
  refine ⟨?_, h2⟩
  unfold effectOf
  rw [if_neg h1, if_neg]
  rintro (h | h | h)
  · exact h2 h
  · exact absurd (Nat.le_trans h.1 hle) (by decide)
  · cases h.2.2

/-- **C25**: when the configuration is replaced (by the client, or by nothing at the end of a
connection), for each device key which the last stage tracks as down a release is sent to the device,
or it is left in the buffer (behind a delay, or as the device did not accept it). -/
theorem C25_keys_released (rx : Regex) (s : Srv) (hs : s.sending = false) (ms : MS) (k : Key) (hk : isDeviceKey k = true)
    (c : Cfg) (st : S) (hl : s.ms.stages.getLast? = some (c, st)) (hd : ∃ o ∈ st.down, o.key = k) :
    let s' := s.resetConfiguration rx (Srv.flush rx) ms
    Eff.sendKey ⟨k, .Up, 0⟩ ∈ s'.out ∨ ⟨k, .Up, 0⟩ ∈ s'.sendBuf := by
  intro s'
  have hd : k ∈ s.ms.outputKeysDown := by
    rw [MS.outputKeysDown, hl]
    obtain ⟨o, ho, rfl⟩ := hd
    exact List.mem_map_of_mem (List.mem_filter.2 ⟨ho, hk⟩)
  have he := effectOf_device hk
  -- flushing keeps it
  have hflush : ∀ s : Srv, s.sending = false → (⟨k, .Up, 0⟩ : KeyEvent) ∈ s.sendBuf →
      Eff.sendKey ⟨k, .Up, 0⟩ ∈ (s.flush rx).out ∨ ⟨k, .Up, 0⟩ ∈ (s.flush rx).sendBuf := by
    intro s hs hm
    obtain ⟨done, left, more, h1, h2, h3⟩ := C24_flush_order_virtual rx s hs
    rw [h1] at hm
    rcases List.mem_append.1 hm with hm | hm
    · left
      have hmem : Eff.sendKey ⟨k, .Up, 0⟩ ∈ effectsOf done := by
        unfold effectsOf
        rw [List.mem_flatMap]
        exact ⟨_, hm, by rw [he.1]; exact List.mem_singleton.2 rfl⟩
      have : Eff.sendKey ⟨k, .Up, 0⟩ ∈ (s.flushSendBuffer rx).1.out.filter Eff.isOutput := by
        rw [h2]
        simp [hmem]
      exact (List.mem_filter.1 this).1
    · right
      rcases h3 with h3 | ⟨d, rest, later, h3, h4, h5, h6, -⟩ | ⟨e, rest, later, h3, h4, h5, h6, h7⟩
      · rw [h3] at hm; cases hm
      · show _ ∈ (s.flushSendBuffer rx).1.sendBuf
        rw [h6]
        rw [h3] at hm
        rcases List.mem_cons.1 hm with hm | hm
        · unfold IsDelay at h4; rw [← hm] at h4; exact absurd h4 he.2
        · exact List.mem_append_left _ hm
      · show _ ∈ (s.flushSendBuffer rx).1.sendBuf
        rw [h7]
        exact List.mem_append_left _ hm
  have hkeep : ∀ s : Srv, s.sending = false → (s.flush rx).sending = false := by
    intro s hs
    unfold Srv.flush Srv.flushSendBuffer
    rw [hs]
    rfl
  have hmono : ∀ {a b : Srv}, SrvSteps a b → Eff.sendKey ⟨k, .Up, 0⟩ ∈ a.out → Eff.sendKey ⟨k, .Up, 0⟩ ∈ b.out := by
    intro a b h
    refine SrvSteps.preserves (P := fun s => Eff.sendKey ⟨k, .Up, 0⟩ ∈ s.out) ?_ h
    intro a b h ha
    cases h with
    | internal _ h2 => rw [h2]; exact ha
    | _ => simp [ha]
  have h1 := hflush s.releaseAllKeys hs (by
    unfold Srv.releaseAllKeys
    exact List.mem_append_right _ (List.mem_map.2 ⟨k, hd, rfl⟩))
  have hq := hkeep s.releaseAllKeys hs
  show Eff.sendKey ⟨k, .Up, 0⟩ ∈ (s.resetConfiguration rx (Srv.flush rx) ms).out ∨ _ ∈ (s.resetConfiguration rx (Srv.flush rx) ms).sendBuf
  unfold Srv.resetConfiguration
  simp only []
  generalize s.releaseAllKeys.flush rx = s1 at h1 hq ⊢
  generalize hs2 : ({ s1 with ms := ms, virtualDown := [], flushAt := none, timeoutStart := none } : Srv) = s2
  have h2 : Eff.sendKey ⟨k, .Up, 0⟩ ∈ s2.out ∨ ⟨k, .Up, 0⟩ ∈ s2.sendBuf := by subst hs2; exact h1
  have hq2 : s2.sending = false := by subst hs2; exact hq
  rcases h2 with h2 | h2
  · exact Or.inl (hmono (evaluateDeviceFilters_steps (rx := rx) (flush_steps rx) s2) h2)
  · unfold Srv.evaluateDeviceFilters
    split
    · exact Or.inr h2
    · unfold Srv.setActiveContexts
      simp only []
      split
      · exact hflush _ hq2 (List.mem_append_left _ h2)
      · exact Or.inr (List.mem_append_left _ h2)

/-- **C25**: nothing else of the old configuration remains: afterwards the server is in the state in
which the device filters of the new configuration were evaluated with no virtual key pressed, no
timeout and no flush pending; the new configuration has nothing else to do with the old one than what
is left in the buffer. -/
theorem C25_nothing_remains (rx : Regex) (s : Srv) (ms : MS) :
    ∃ s₁ : Srv, s₁.ms = ms ∧ s₁.virtualDown = [] ∧ s₁.timeoutStart = none ∧ s₁.flushAt = none ∧
      s.resetConfiguration rx (Srv.flush rx) ms =
        (if ms.hasDeviceFilters = true ∧ s₁.devices ≠ [] then
          { s₁ with ms := ms.evaluateDeviceFilters rx s₁.devices }.setActiveContexts (Srv.flush rx) ms.activeClient else s₁) := by
  refine ⟨{ s.releaseAllKeys.flush rx with ms := ms, virtualDown := [], flushAt := none, timeoutStart := none }, rfl, rfl, rfl, rfl, ?_⟩
  unfold Srv.resetConfiguration Srv.evaluateDeviceFilters
  simp only []
  cases ms.hasDeviceFilters with
  | false => simp
  | true =>
    cases (s.releaseAllKeys.flush rx).devices with
    | nil => simp
    | cons a l => simp [MS.evaluateDeviceFilters]

/-- `A >> B C`, `A` held when the configuration is replaced -/
private def exHeld : Srv := srvRun (fun _ _ => false) {}
  [.message (.configuration [Cfg.make [{ inputs := [⟨[⟨30, .Down, 0⟩], 0⟩], outputs := [[⟨48, .Down, 0⟩, ⟨46, .Down, 0⟩]] }]]),
   .message (.activeContexts [0]), .loop { now := 0, read := .key ⟨30, .Down, 0⟩ 0 }]

example : exHeld.ms.outputKeysDown = [48, 46] ∧
    (exHeld.resetConfiguration (fun _ _ => false) (Srv.flush (fun _ _ => false)) {}).out =
      [.sendKey ⟨48, .Down, 0⟩, .sendKey ⟨46, .Down, 0⟩, .sendKey ⟨48, .Up, 0⟩, .sendKey ⟨46, .Up, 0⟩] := by decide +kernel

/-- `A >> B` followed by a stage with `B >> C`: the key of the last stage is released. -/
private def exHeld2 : Srv := srvRun (fun _ _ => false) {}
  [.message (.configuration [Cfg.make [{ inputs := [⟨[⟨30, .Down, 0⟩], 0⟩], outputs := [[⟨48, .Down, 0⟩]] }],
     Cfg.make [{ inputs := [⟨[⟨48, .Down, 0⟩], 0⟩], outputs := [[⟨46, .Down, 0⟩]] }]]),
   .message (.activeContexts [0, 1]), .loop { now := 0, read := .key ⟨30, .Down, 0⟩ 0 }]

example : exHeld2.out = [.sendKey ⟨46, .Down, 0⟩] ∧
    (exHeld2.resetConfiguration (fun _ _ => false) (Srv.flush (fun _ _ => false)) {}).out =
      [.sendKey ⟨46, .Down, 0⟩, .sendKey ⟨46, .Up, 0⟩] := by decide +kernel

end KM
