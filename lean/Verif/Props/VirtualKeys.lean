import Verif.Lemmas.ServerQuiet
/-!
# C22, C23: virtual keys
-/
namespace KM

/-! ### no key is held twice -/

private theorem prim_nodup : ∀ a b, SrvPrim a b → a.virtualDown.Nodup → b.virtualDown.Nodup := by
  intro a b h ha
  cases h with
  | internal h1 => rw [h1]; exact ha
  | press k hk =>
    show (a.virtualDown ++ [k]).Nodup
    rw [List.nodup_append]
    refine ⟨ha, by simp, ?_⟩
    intro x hx y hy hxy
    cases List.mem_singleton.1 hy
    exact hk (hxy ▸ hx)
  | release k hk => exact ha.erase k
  | clear => exact List.nodup_nil
  | _ => exact ha

/-- **C22**: in no history of the server a virtual key is held twice. -/
theorem C22_no_duplicates (rx : Regex) (ops : List SrvOp) : (srvRun rx {} ops).virtualDown.Nodup := by
  have : ∀ (s : Srv), s.virtualDown.Nodup → (srvRun rx s ops).virtualDown.Nodup := by
    induction ops with
    | nil => exact fun s h => h
    | cons op ops ih => exact fun s h => ih _ (srvStep_preserves prim_nodup (fun _ h => h) rx s op h)
  exact this {} List.nodup_nil

/-! ### the meaning of pressing, releasing and toggling -/

/-- neither the effects nor the virtual keys change -/
private def Calm (s s' : Srv) : Prop := s'.out = s.out ∧ s'.virtualDown = s.virtualDown

private theorem sendOutput_calm (s : Srv) (ev : KeyEvent) (l : KeySequence) : Calm s (s.sendOutput ev l) := by
  unfold Srv.sendOutput
  split <;> exact ⟨rfl, rfl⟩

private theorem noteEvent_calm (s : Srv) (ev : KeyEvent) : Calm s (s.noteEvent ev) ∧ (s.noteEvent ev).ms = s.ms := by
  unfold Srv.noteEvent
  split <;> exact ⟨⟨rfl, rfl⟩, rfl⟩

private theorem translateCore_calm {rx : Regex} {flush : Srv → Srv} (s : Srv) (hs : s.Quiet) (ev : KeyEvent) (hk : isKeyboardKey ev.key = false) (dev : Int) :
    Calm s (s.translateCore rx flush ev dev) := by
  have hn := noteEvent_calm s ev
  have hx : ((s.noteEvent ev).ms.update ev dev).1.shouldExit = false := by
    rw [hn.2, MS.update_shouldExit hs.2 hk, hs.1]
  unfold Srv.translateCore
  simp only [hx]
  have h := sendOutput_calm { s.noteEvent ev with ms := ((s.noteEvent ev).ms.update ev dev).1 } ev ((s.noteEvent ev).ms.update ev dev).2
  exact ⟨h.1.trans hn.1.1, h.2.trans hn.1.2⟩

private theorem injectElapsed_calm {rx : Regex} {flush : Srv → Srv} (s : Srv) (hs : s.Quiet) (ev : KeyEvent) (dev : Int) :
    Calm s (s.injectElapsed rx flush ev dev) := by
  unfold Srv.injectElapsed
  split
  · split
    · unfold Srv.translateTimeout
      split
      · exact ⟨rfl, rfl⟩
      · exact translateCore_calm s.cancelTimeout hs _ rfl dev
    · exact ⟨rfl, rfl⟩
  · exact ⟨rfl, rfl⟩

private theorem translateWith_calm {rx : Regex} {flush : Srv → Srv} (hf : ∀ s, s.Quiet → (flush s).Quiet) (s : Srv) (hs : s.Quiet)
    (ev : KeyEvent) (hk : isVirtualKey ev.key = true) (dev : Int) : Calm s (s.translateWith rx flush ev dev) := by
  have hv : 61696 ≤ ev.key ∧ ev.key ≤ 61951 := by simpa [isVirtualKey] using hk
  have hw : isMouseWheel ev.key = false := by
    unfold isMouseWheel
    have : ¬ ev.key ≤ 339 := Nat.not_le.2 (Nat.lt_of_lt_of_le (by decide) hv.1)
    simp [this]
  have hb : isMouseButton ev.key = false := by
    unfold isMouseButton
    have : ¬ ev.key ≤ 276 := Nat.not_le.2 (Nat.lt_of_lt_of_le (by decide) hv.1)
    simp [this]
  have hkb : isKeyboardKey ev.key = false := by
    unfold isKeyboardKey
    have : ¬ ev.key ≤ 61439 := Nat.not_le.2 (Nat.lt_of_lt_of_le (by decide) hv.1)
    simp [this]
  have hd : isDeviceKey ev.key = false := by unfold isDeviceKey; rw [hw, hb, hkb]; rfl
  unfold Srv.translateWith
  split
  · exact ⟨rfl, rfl⟩
  · split
    · next h => unfold Srv.repliesKeyInfo at h; rw [hd] at h; simp at h
    · simp only [hw, Bool.false_and, Bool.false_eq_true, if_false]
      have h1 := injectElapsed_calm (rx := rx) (flush := flush) s hs ev dev
      have h2 := translateCore_calm (rx := rx) (flush := flush) _ (injectElapsed_quiet (rx := rx) hf s ev dev hs) ev hkb dev
      exact ⟨h2.1.trans h1.1, h2.2.trans h1.2⟩

/-- **C22** Setting the state of a virtual key, whatever the configuration does with it: afterwards
exactly that key has the requested state, other keys keep theirs, and the client is told exactly when
the state of the key changed, and what it changed to. -/
private theorem setVirtual {rx : Regex} {flush : Srv → Srv} (hf : ∀ s, s.Quiet → (flush s).Quiet) (s : Srv) (hs : s.Quiet)
    (hn : s.virtualDown.Nodup) (k : Key) (hk : isVirtualKey k = true) (st : KeyState) :
    let s' := s.setVirtualKeyState (fun s ev dev => s.translateWith rx flush ev dev) k st
    (∀ x, x ∈ s'.virtualDown ↔ if x = k then requested st (k ∈ s.virtualDown) else x ∈ s.virtualDown) ∧
      s'.out = s.out ++ (if k ∈ s.virtualDown then (if k ∈ s'.virtualDown then [] else [.virtualKeyState k .Up])
        else if k ∈ s'.virtualDown then [.virtualKeyState k .Down] else []) := by
  intro s'
  by_cases hin : k ∈ s.virtualDown
  · have hc : s.virtualDown.contains k = true := List.contains_iff_mem.2 hin
    by_cases hst : st = .Down
    · have he : s' = s := by
        show s.setVirtualKeyState _ k st = s
        unfold Srv.setVirtualKeyState
        simp only [hc, hst]
        rfl
      rw [he]
      constructor
      · intro x
        split
        · next hx => subst hx; rw [hst]; exact ⟨fun _ => trivial, fun _ => hin⟩
        · exact Iff.rfl
      · simp [hin]
    · have hst' : (st != KeyState.Down) = true := by simpa using hst
      have h := translateWith_calm (rx := rx) hf { s with virtualDown := s.virtualDown.erase k } hs ⟨k, .Up, 0⟩ hk anyDeviceIndex
      have he : s'.out = s.out ++ [.virtualKeyState k .Up] ∧ s'.virtualDown = s.virtualDown.erase k := by
        show (s.setVirtualKeyState _ k st).out = _ ∧ (s.setVirtualKeyState _ k st).virtualDown = _
        unfold Srv.setVirtualKeyState
        simp only [hc, hst', hk, Bool.not_true, Bool.false_and, Bool.false_eq_true, if_false, Bool.and_self, if_true]
        exact ⟨by rw [h.1], h.2⟩
      have hmem : k ∉ s'.virtualDown := by rw [he.2]; exact fun hm => (hn.mem_erase_iff.1 hm).1 rfl
      constructor
      · intro x
        rw [he.2, hn.mem_erase_iff]
        split
        · next hx =>
          subst hx
          refine ⟨fun h => absurd rfl h.1, fun h => ?_⟩
          cases st <;> first | exact absurd rfl hst | exact absurd hin h | cases h
        · next hx => exact ⟨fun h => h.2, fun h => ⟨hx, h⟩⟩
      · rw [if_pos hin, if_neg hmem, he.1]
  · have hc : s.virtualDown.contains k = false := by
      cases hq : s.virtualDown.contains k with
      | true => exact absurd (List.contains_iff_mem.1 hq) hin
      | false => rfl
    by_cases hst : st = .Up
    · have he : s' = s := by
        show s.setVirtualKeyState _ k st = s
        unfold Srv.setVirtualKeyState
        simp only [hc, hst]
        rfl
      rw [he]
      constructor
      · intro x
        split
        · next hx => subst hx; rw [hst]; exact ⟨fun h => absurd h hin, fun h => False.elim h⟩
        · exact Iff.rfl
      · simp [hin]
    · have hst' : (st != KeyState.Up) = true := by simpa using hst
      have h := translateWith_calm (rx := rx) hf { s with virtualDown := s.virtualDown ++ [k] } hs ⟨k, .Down, 0⟩ hk anyDeviceIndex
      have he : s'.out = s.out ++ [.virtualKeyState k .Down] ∧ s'.virtualDown = s.virtualDown ++ [k] := by
        show (s.setVirtualKeyState _ k st).out = _ ∧ (s.setVirtualKeyState _ k st).virtualDown = _
        unfold Srv.setVirtualKeyState
        simp only [hc, hst', hk, Bool.not_false, Bool.and_self, if_true]
        exact ⟨by rw [h.1], h.2⟩
      have hmem : k ∈ s'.virtualDown := by rw [he.2]; simp
      constructor
      · intro x
        rw [he.2, List.mem_append, List.mem_singleton]
        split
        · next hx =>
          subst hx
          refine ⟨fun _ => ?_, fun _ => Or.inr rfl⟩
          cases st <;> first | exact absurd rfl hst | exact hin | trivial
        · next hx => exact ⟨fun h => h.resolve_right hx, Or.inl⟩
      · rw [if_neg hin, if_pos hmem, he.1]

/-- **C22**: in each reachable state of the server, pressing, releasing or toggling a virtual key
makes it pressed, released or changes it, and leaves the other keys as they are; the client is told
exactly when the state of the key changed, and the new state. -/
theorem C22_set_state (rx : Regex) (ops : List SrvOp) (k : Key) (hk : 0xF100 ≤ k ∧ k ≤ 0xF1FF) (st : KeyState) :
    let s := srvRun rx {} ops
    let s' := s.setVirtualKeyState (Srv.translateInput rx) k st
    (∀ x, x ∈ s'.virtualDown ↔ if x = k then requested st (k ∈ s.virtualDown) else x ∈ s.virtualDown) ∧
      s'.out = s.out ++ (if k ∈ s.virtualDown then (if k ∈ s'.virtualDown then [] else [.virtualKeyState k .Up])
        else if k ∈ s'.virtualDown then [.virtualKeyState k .Down] else []) :=
  setVirtual (flush_quiet rx) _ (srvRun_quiet rx {} ops ⟨rfl, rfl⟩) (C22_no_duplicates rx ops) k (by simp [isVirtualKey, hk.1, hk.2]) st

/-- **C22**: toggling twice restores the state of all keys. -/
theorem C22_toggle_twice (rx : Regex) (ops : List SrvOp) (k : Key) (hk : 0xF100 ≤ k ∧ k ≤ 0xF1FF) (x : Key) :
    let s := srvRun rx {} ops
    let s' := s.setVirtualKeyState (Srv.translateInput rx) k .Not
    let s'' := s'.setVirtualKeyState (Srv.translateInput rx) k .Not
    x ∈ s''.virtualDown ↔ x ∈ s.virtualDown := by
  intro s s' s''
  have hv : isVirtualKey k = true := by simp [isVirtualKey, hk.1, hk.2]
  have hq : s.Quiet := srvRun_quiet rx {} ops ⟨rfl, rfl⟩
  have hn : s.virtualDown.Nodup := C22_no_duplicates rx ops
  have hn' : s'.virtualDown.Nodup := by
    exact SrvSteps.preserves prim_nodup (setVirtualKeyState_steps (translateInput_steps rx) s k .Not) hn
  have h1 := (setVirtual (rx := rx) (flush_quiet rx) s hq hn k hv .Not).1
  have h2 := (setVirtual (rx := rx) (flush_quiet rx) s' (setVirtualKeyState_quiet (translateInput_quiet rx) s k .Not hq) hn' k hv .Not).1
  have h1' : ∀ x, x ∈ s'.virtualDown ↔ if x = k then ¬ k ∈ s.virtualDown else x ∈ s.virtualDown := h1
  have h2' : ∀ x, x ∈ s''.virtualDown ↔ if x = k then ¬ k ∈ s'.virtualDown else x ∈ s'.virtualDown := h2
  rw [h2', h1', h1']
  by_cases hx : x = k
  · subst hx; simp
  · simp [hx]


/-! ### the client knows the state of the virtual keys -/

/-- everything told from one state to the other is what changed -/
private def Told (s s' : Srv) : Prop := ∃ l, s'.out = s.out ++ l ∧ told s.pressedVirtual l = some s'.pressedVirtual

private theorem told_append (p : List Key) (a b : List Eff) {q : List Key} (h : told p a = some q) : told p (a ++ b) = told q b := by
  induction a generalizing p with
  | nil => injection h with h; subst h; rfl
  | cons e a ih =>
    cases e with
    | virtualKeyState k st =>
      cases st <;> simp only [List.cons_append, told] at h ⊢ <;> first | cases h | skip
      · split
        · next hk => rw [if_pos hk] at h; exact ih _ h
        · next hk => rw [if_neg hk] at h; cases h
      · split
        · next hk => rw [if_pos hk] at h; cases h
        · next hk => rw [if_neg hk] at h; exact ih _ h
    | sendKey e => exact ih _ h
    | action i => exact ih _ h
    | nextKeyInfo k d => exact ih _ h
    | exitRequested => exact ih _ h

private theorem Told.refl (s : Srv) : Told s s := ⟨[], by simp, rfl⟩

private theorem Told.trans {a b c : Srv} (h : Told a b) (t : Told b c) : Told a c := by
  obtain ⟨l, h1, h2⟩ := h
  obtain ⟨m, t1, t2⟩ := t
  exact ⟨l ++ m, by rw [t1, h1, List.append_assoc], by rw [told_append _ _ _ h2, t2]⟩

private theorem Told.calm {s s' : Srv} (h : Calm s s') : Told s s' :=
  ⟨[], by rw [h.1, List.append_nil], by unfold Srv.pressedVirtual; rw [h.2]; rfl⟩

private theorem Told.other {s s' : Srv} (e : Eff) (h1 : s'.out = s.out ++ [e]) (h2 : s'.virtualDown = s.virtualDown) (h3 : e.isAnnouncement = false) :
    Told s s' := by
  refine ⟨[e], h1, ?_⟩
  unfold Srv.pressedVirtual
  rw [h2]
  cases e <;> first | rfl | cases h3

/-- the exit sequence was read, or everything was told -/
private def ToldOrExit (s s' : Srv) : Prop := Eff.exitRequested ∈ s'.out ∨ Told s s'

private theorem out_mono {a b : Srv} (h : SrvSteps a b) (e : Eff) (he : e ∈ a.out) : e ∈ b.out := by
  refine SrvSteps.preserves (P := fun s => e ∈ s.out) ?_ h he
  intro a b h ha
  cases h with
  | internal _ h2 => rw [h2]; exact ha
  | _ => simp [ha]

private theorem ToldOrExit.trans {a b c : Srv} (h : ToldOrExit a b) (hs : SrvSteps b c) (t : ToldOrExit b c) : ToldOrExit a c := by
  rcases h with h | h
  · exact Or.inl (out_mono hs _ h)
  · exact t.imp_right h.trans

private theorem ToldOrExit.before {a b c : Srv} (t : ToldOrExit b c) (h : Told a b) : ToldOrExit a c := t.imp_right h.trans

private theorem translateCore_told {rx : Regex} {flush : Srv → Srv} (s : Srv) (ev : KeyEvent) (dev : Int) :
    ToldOrExit s (s.translateCore rx flush ev dev) := by
  unfold Srv.translateCore
  simp only []
  split
  · left
    unfold Srv.exit
    simp
  · right
    have hn := noteEvent_calm s ev
    have h := sendOutput_calm { s.noteEvent ev with ms := ((s.noteEvent ev).ms.update ev dev).1 } ev ((s.noteEvent ev).ms.update ev dev).2
    exact Told.calm ⟨h.1.trans hn.1.1, h.2.trans hn.1.2⟩

section
variable {rx : Regex} {flush : Srv → Srv} (hq : ∀ s, s.Quiet → (flush s).Quiet) (hf : ∀ s, SrvSteps s (flush s))
include hq hf

omit hq in
private theorem translateNoWheel_told (s : Srv) (hs : s.Quiet) (ev : KeyEvent) (dev : Int) :
    ToldOrExit s (s.translateNoWheel rx flush ev dev) := by
  unfold Srv.translateNoWheel
  split
  · exact Or.inr (Told.refl s)
  · split
    · exact Or.inr (Told.other _ rfl rfl rfl)
    · exact ToldOrExit.trans (Or.inr (Told.calm (injectElapsed_calm s hs ev dev))) (translateCore_steps hf _ ev dev)
        (translateCore_told _ ev dev)

private theorem translateWith_told (s : Srv) (hs : s.Quiet) (ev : KeyEvent) (dev : Int) :
    ToldOrExit s (s.translateWith rx flush ev dev) := by
  unfold Srv.translateWith
  split
  · exact Or.inr (Told.refl s)
  · split
    · exact Or.inr (Told.other _ rfl rfl rfl)
    · simp only []
      have h1 : ToldOrExit s (s.injectElapsed rx flush ev dev) := Or.inr (Told.calm (injectElapsed_calm s hs ev dev))
      have hq1 := injectElapsed_quiet (rx := rx) hq s ev dev hs
      generalize s.injectElapsed rx flush ev dev = s1 at h1 hq1 ⊢
      refine ToldOrExit.trans ?_ (translateCore_steps hf _ ev dev) (translateCore_told _ ev dev)
      split
      · exact h1.trans (translateNoWheel_steps hf s1 _ dev) (translateNoWheel_told hf s1 hq1 _ dev)
      · exact h1

end

private theorem pressedVirtual_of (k : Key) : decide (0xF100 ≤ k ∧ k ≤ 0xF1FF) = isVirtualKey k := by
  unfold isVirtualKey
  rw [Bool.eq_iff_iff]
  simp

private theorem mem_pressedVirtual (s : Srv) (k : Key) (hk : isVirtualKey k = true) : k ∈ s.pressedVirtual ↔ k ∈ s.virtualDown := by
  unfold Srv.pressedVirtual
  rw [List.mem_filter, pressedVirtual_of, hk]
  simp

private theorem setVirtual_told {translate : Srv → KeyEvent → Int → Srv} (ht : ∀ s ev dev, s.Quiet → ToldOrExit s (translate s ev dev))
    (hc : ∀ s ev dev, s.Quiet → isVirtualKey ev.key = true → Calm s (translate s ev dev))
    (s : Srv) (hs : s.Quiet) (k : Key) (st : KeyState) : ToldOrExit s (s.setVirtualKeyState translate k st) := by
  unfold Srv.setVirtualKeyState
  simp only []
  split
  · next h =>
    simp only [Bool.and_eq_true, Bool.not_eq_true'] at h
    have hin : k ∉ s.virtualDown := by intro hm; rw [List.contains_iff_mem.2 hm] at h; cases h.1
    by_cases hk : isVirtualKey k = true
    · rw [if_pos hk]
      right
      have h2 := hc { s with virtualDown := s.virtualDown ++ [k] } ⟨k, .Down, 0⟩ anyDeviceIndex hs hk
      refine ⟨[.virtualKeyState k .Down], by simp only [h2.1], ?_⟩
      have hm : k ∉ s.pressedVirtual := fun hm => hin ((mem_pressedVirtual s k hk).1 hm)
      rw [told, if_neg hm, told]
      unfold Srv.pressedVirtual
      rw [h2.2]
      simp only [List.filter_append, List.filter_cons, List.filter_nil, pressedVirtual_of, hk, if_true]
    · rw [if_neg hk]
      have h2 := ht { s with virtualDown := s.virtualDown ++ [k] } ⟨k, .Down, 0⟩ anyDeviceIndex hs
      refine h2.imp_right (fun ⟨l, h3, h4⟩ => ⟨l, h3, ?_⟩)
      rw [← h4]
      unfold Srv.pressedVirtual
      simp only [List.filter_append, List.filter_cons, List.filter_nil, pressedVirtual_of, hk, Bool.false_eq_true, if_false, List.append_nil]
  · split
    · next h =>
      simp only [Bool.and_eq_true] at h
      have hin : k ∈ s.virtualDown := List.contains_iff_mem.1 h.1
      by_cases hk : isVirtualKey k = true
      · rw [if_pos hk]
        right
        have h2 := hc { s with virtualDown := s.virtualDown.erase k } ⟨k, .Up, 0⟩ anyDeviceIndex hs hk
        refine ⟨[.virtualKeyState k .Up], by simp only [h2.1], ?_⟩
        rw [told, if_pos ((mem_pressedVirtual s k hk).2 hin), told]
        unfold Srv.pressedVirtual
        rw [h2.2, List.erase_filter]
      · rw [if_neg hk]
        have h2 := ht { s with virtualDown := s.virtualDown.erase k } ⟨k, .Up, 0⟩ anyDeviceIndex hs
        refine h2.imp_right (fun ⟨l, h3, h4⟩ => ⟨l, h3, ?_⟩)
        rw [← h4]
        unfold Srv.pressedVirtual
        rw [← List.erase_filter]
        rw [List.erase_of_not_mem]
        rw [List.mem_filter, pressedVirtual_of]
        exact fun hq => hk hq.2
    · exact Or.inr (Told.refl s)

private theorem toggle_told (rx : Regex) (s : Srv) (hs : s.Quiet) (k : Key) : ToldOrExit s (s.toggleVirtualKey rx k) :=
  setVirtual_told (fun s ev dev h => translateWith_told (fun _ h => h) (fun s => .refl s) s h ev dev)
    (fun s ev dev h hk => translateWith_calm (fun _ h => h) s h ev hk dev) s hs k _

private theorem flushLoop_told (rx : Regex) (n : Nat) (s : Srv) (hs : s.Quiet) : ToldOrExit s (Srv.flushLoop rx n s).1 := by
  refine (flushLoop_rec (motive := fun _ s r => SrvSteps s r.1 ∧ (s.Quiet → ToldOrExit s r.1)) ?_ ?_ ?_ ?_ ?_ ?_ ?_ n s).2 hs
  · intro n s _; exact ⟨.refl _, fun _ => Or.inr (Told.refl _)⟩
  · intro n s e rest r _ _ ih
    exact ⟨ih.1.after rfl rfl rfl, fun hs => (ih.2 hs).before (Told.calm ⟨rfl, rfl⟩)⟩
  · intro n s e rest r _ _ _ ih
    exact ⟨.trans (.one (.action _)) (ih.1.after rfl rfl rfl),
      fun hs => (ih.2 hs).before (Told.other (.action _) rfl rfl rfl)⟩
  · intro n s e rest r _ _ _ ih
    refine ⟨SrvSteps.after ((toggleVirtualKey_steps rx { s with sendBuf := rest } e.key).trans ih.1) rfl rfl rfl, fun hs => ?_⟩
    have h1 := toggle_told rx { s with sendBuf := rest } hs e.key
    exact ToldOrExit.trans (a := s) h1 ih.1 (ih.2 (toggleVirtualKey_quiet rx { s with sendBuf := rest } e.key hs))
  · intro n s e rest _ _
    unfold Srv.scheduleFlush
    split <;> exact ⟨.internal rfl rfl rfl, fun _ => Or.inr (Told.calm ⟨rfl, rfl⟩)⟩
  · intro n s e rest r _ hi _ ih
    exact ⟨.cons (.send e hi) (ih.1.after rfl rfl rfl), fun hs => (ih.2 hs).before (Told.other (.sendKey e) rfl rfl rfl)⟩
  · intro n s e rest _ hi _
    exact ⟨.trans (.one (.send e hi)) (.internal rfl rfl rfl), fun _ => Or.inr (Told.other (.sendKey e) rfl rfl rfl)⟩

private theorem flushSendBuffer_told (rx : Regex) (s : Srv) (hs : s.Quiet) : ToldOrExit s (s.flushSendBuffer rx).1 := by
  unfold Srv.flushSendBuffer
  split
  · exact Or.inr (Told.refl s)
  · exact flushLoop_told rx 9 { s with sending := true, flushAt := none } hs

private theorem translateInput_told (rx : Regex) (s : Srv) (hs : s.Quiet) (ev : KeyEvent) (dev : Int) : ToldOrExit s (s.translateInput rx ev dev) :=
  translateWith_told (flush_quiet rx) (flush_steps rx) s hs ev dev

private theorem setActiveContexts_told (rx : Regex) (s : Srv) (hs : s.Quiet) (l : List Int) : ToldOrExit s (s.setActiveContexts (Srv.flush rx) l) := by
  unfold Srv.setActiveContexts
  simp only []
  split
  · exact flushSendBuffer_told rx _ ⟨(MS.setActive_shouldExit hs.2 l).trans hs.1, rfl⟩
  · exact Or.inr (Told.calm ⟨rfl, rfl⟩)

private theorem evaluateDeviceFilters_told (rx : Regex) (s : Srv) (hs : s.Quiet) : ToldOrExit s (s.evaluateDeviceFilters rx (Srv.flush rx)) := by
  unfold Srv.evaluateDeviceFilters
  split
  · exact Or.inr (Told.refl s)
  · exact setActiveContexts_told rx { s with ms := s.ms.evaluateDeviceFilters rx s.devices } ⟨(MS.evaluate_shouldExit rx s.ms s.devices).trans hs.1, hs.2⟩ _

private theorem onMessage_told (rx : Regex) (s : Srv) (hs : s.Quiet) (m : Msg) (hm : m.isConfiguration = false) : ToldOrExit s (s.onMessage rx m) := by
  cases m with
  | configuration cfgs => cases hm
  | activeContexts l => exact setActiveContexts_told rx s hs l
  | setVirtualKeyState k st =>
    have h := setVirtual_told (translate := Srv.translateInput rx) (fun s ev dev h => translateInput_told rx s h ev dev)
      (fun s ev dev h hk => translateWith_calm (flush_quiet rx) s h ev hk dev) s hs k st
    have hq := setVirtualKeyState_quiet (translateInput_quiet rx) s k st hs
    show ToldOrExit s (s.onSetVirtualKeyState rx k st)
    unfold Srv.onSetVirtualKeyState
    simp only []
    split
    · exact h.trans (flush_steps rx _) (flushSendBuffer_told rx _ hq)
    · exact h
  | validateState f => exact Or.inr (Told.calm ⟨rfl, rfl⟩)
  | requestNextKeyInfo => exact Or.inr (Told.calm ⟨rfl, rfl⟩)
  | injectInput l =>
    have hfin : ∀ s : Srv, ToldOrExit s (s.scheduleFlush 0) := fun s => by
      unfold Srv.scheduleFlush; split <;> exact Or.inr (Told.calm ⟨rfl, rfl⟩)
    show ToldOrExit s (Srv.scheduleFlush _ 0)
    refine ToldOrExit.trans ?_ (scheduleFlush_steps _ _) (hfin _)
    induction l generalizing s with
    | nil => exact Or.inr (Told.refl s)
    | cons e l ih =>
      rw [List.foldl_cons]
      split
      · exact (translateInput_told rx s hs e _).trans (injectLoop_steps rx l _) (ih _ (translateInput_quiet rx s e _ hs) rfl)
      · exact ih s hs rfl
  | injectOutput l =>
    show ToldOrExit s ((s.sendKeySequence l).scheduleFlush 0)
    unfold Srv.scheduleFlush
    split <;> exact Or.inr (Told.calm ⟨rfl, rfl⟩)

private theorem messages_steps (rx : Regex) (l : List Msg) (s : Srv) (e : Eff) (he : e ∈ s.out) : e ∈ (l.foldl (Srv.onMessage rx) s).out := by
  induction l generalizing s with
  | nil => exact he
  | cons m l ih =>
    refine ih _ (out_mono (onMessage_steps rx s m) e ?_)
    cases m <;> exact he

theorem ToldAcross.trans {n m : Nat} {p q r : List Key} {a b : List Eff} (h : ToldAcross n p a q) (t : ToldAcross m q b r) :
    ToldAcross (n + m) p (a ++ b) r := by
  induction h with
  | told h =>
    rw [Nat.zero_add]
    cases t with
    | told t => exact .told (by rw [told_append _ _ _ h, t])
    | released t hr => rw [← List.append_assoc]; exact .released (by rw [told_append _ _ _ h, t]) hr
  | @released n _ _ _ _ _ h hr ih =>
    rw [List.append_assoc, Nat.add_right_comm]
    exact .released h (ih t)

/-- the client is told everything, apart from at most `n` releases of all keys -/
private def ReTold (n : Nat) (s s' : Srv) : Prop :=
  Eff.exitRequested ∈ s'.out ∨ ∃ l m, m ≤ n ∧ s'.out = s.out ++ l ∧ ToldAcross m s.pressedVirtual l s'.pressedVirtual

private theorem ToldOrExit.re {n : Nat} {s s' : Srv} (h : ToldOrExit s s') : ReTold n s s' :=
  h.imp_right (fun ⟨l, h1, h2⟩ => ⟨l, 0, Nat.zero_le _, h1, .told h2⟩)

private theorem ReTold.trans {n m : Nat} {a b c : Srv} (h : ReTold n a b) (he : Eff.exitRequested ∈ b.out → Eff.exitRequested ∈ c.out)
    (t : ReTold m b c) : ReTold (n + m) a c := by
  rcases h with h | ⟨l, i, hi, h1, h2⟩
  · exact .inl (he h)
  · rcases t with t | ⟨l', j, hj, t1, t2⟩
    · exact .inl t
    · exact .inr ⟨l ++ l', i + j, by omega, by rw [t1, h1, List.append_assoc], h2.trans t2⟩

private theorem reset_told (rx : Regex) (s : Srv) (hs : s.Quiet) (ms : MS) (hx : ms.shouldExit = false) (hb : ms.buf = []) :
    ReTold 1 s (s.resetConfiguration rx (Srv.flush rx) ms) := by
  unfold Srv.resetConfiguration
  simp only []
  have h1 : ToldOrExit s (s.releaseAllKeys.flush rx) :=
    flushSendBuffer_told rx s.releaseAllKeys hs
  obtain ⟨s1, hs1⟩ : ∃ s1, s1 = s.releaseAllKeys.flush rx := ⟨_, rfl⟩
  rw [← hs1] at h1 ⊢
  obtain ⟨s2, hs2⟩ : ∃ s2 : Srv, s2 = { s1 with ms := ms, virtualDown := [], flushAt := none, timeoutStart := none } := ⟨_, rfl⟩
  rw [← hs2]
  have q2 : s2.Quiet := by rw [hs2]; exact ⟨hx, hb⟩
  have h2 := evaluateDeviceFilters_told rx s2 q2
  have ho : s2.out = s1.out := by rw [hs2]
  have hp : s2.pressedVirtual = [] := by rw [hs2]; rfl
  rcases h1 with h1 | ⟨l, h3, h4⟩
  · exact .inl (out_mono (evaluateDeviceFilters_steps (flush_steps rx) s2) _ (ho ▸ h1))
  · rcases h2 with h2 | ⟨l', h5, h6⟩
    · exact .inl h2
    · rw [hp] at h6
      exact .inr ⟨l ++ l', 1, Nat.le_refl _, by rw [h5, ho, h3, List.append_assoc], .released h4 (.told h6)⟩

private theorem messages_told (rx : Regex) (l : List Msg) (s : Srv) (hs : s.Quiet) :
    ReTold (l.countP (·.isConfiguration)) s (l.foldl (Srv.onMessage rx) s) := by
  induction l generalizing s with
  | nil => exact ToldOrExit.re (.inr (Told.refl s))
  | cons m l ih =>
    have h2 := ih _ (onMessage_quiet rx s m hs)
    rw [List.countP_cons, Nat.add_comm]
    refine ReTold.trans ?_ (messages_steps rx l _ _) h2
    cases hm : m.isConfiguration with
    | false => exact (onMessage_told rx s hs m hm).re
    | true =>
      cases m with
      | configuration cfgs => exact reset_told rx s hs _ (MS.make_shouldExit cfgs) rfl
      | _ => cases hm

private theorem srvStep_told (rx : Regex) (s : Srv) (hs : s.Quiet) (op : SrvOp) : ReTold op.replacements s (srvStep rx s op) := by
  cases op with
  | loop it =>
    have h0 : ToldOrExit s (s.iterStart it) := Or.inr (Told.calm ⟨rfl, rfl⟩)
    have q0 : (s.iterStart it).Quiet := hs
    have h1 : ToldOrExit (s.iterStart it) ((s.iterStart it).processRead rx it.read) := by
      cases it.read with
      | nothing => exact Or.inr (Told.refl _)
      | other => exact Or.inr (Told.refl _)
      | key ev dev =>
        unfold Srv.processRead
        simp only []
        split
        · exact translateInput_told rx _ q0 ev dev
        · exact Or.inr (Told.refl _)
    have q1 := processRead_quiet rx _ it.read q0
    have h2 : ToldOrExit ((s.iterStart it).processRead rx it.read) (((s.iterStart it).processRead rx it.read).answerTimeout rx) := by
      unfold Srv.answerTimeout
      split
      · refine ToldOrExit.trans (b := ((s.iterStart it).processRead rx it.read).cancelTimeout) (Or.inr (Told.calm ⟨rfl, rfl⟩))
          (translateInput_steps rx _ _ _) (translateInput_told rx (Srv.cancelTimeout _) q1 _ _)
      · exact Or.inr (Told.refl _)
    have q2 := answerTimeout_quiet rx _ q1
    have h3 : ToldOrExit (((s.iterStart it).processRead rx it.read).answerTimeout rx) (s.iterFlush rx it).1 := by
      unfold Srv.iterFlush Srv.flushWhenDue
      split
      · exact flushSendBuffer_told rx _ q2
      · exact Or.inr (Told.refl _)
    have h : ToldOrExit s (s.iterFlush rx it).1 :=
      (h0.trans (processRead_steps rx _ _) h1 |>.trans (answerTimeout_steps rx _) h2).trans (flushWhenDue_steps rx _) h3
    show ReTold (it.messages.countP (·.isConfiguration)) s (s.iterate rx it).1
    rcases iterate_cases rx s it with hi | ⟨_, hi⟩ | ⟨_, hi⟩
    · rw [hi]; exact h0.re
    · rw [hi]; exact h.re
    · rw [hi]
      have q3 := iterFlush_quiet rx s it hs
      have h4 : ToldOrExit (s.iterFlush rx it).1 ((s.iterFlush rx it).1.updateDevices rx it.devices) := by
        cases it.devices with
        | none => exact Or.inr (Told.refl _)
        | some l => exact evaluateDeviceFilters_told rx { (s.iterFlush rx it).1 with devices := l } q3
      have h5 := messages_told rx it.messages _ (updateDevices_quiet rx _ it.devices q3)
      have h6 := h.trans (updateDevices_steps rx _ _) h4
      have := ReTold.trans (n := 0) h6.re (messages_steps rx _ _ _) h5
      rwa [Nat.zero_add] at this
  | message m => exact messages_told rx [m] s hs
  | devices l => exact (evaluateDeviceFilters_told rx { s with devices := l } hs).re
  | reset => exact reset_told rx s hs {} rfl rfl

private theorem srvStep_out (rx : Regex) (s : Srv) (op : SrvOp) (e : Eff) (he : e ∈ s.out) : e ∈ (srvStep rx s op).out := by
  refine srvStep_preserves (P := fun s => e ∈ s.out) ?_ (fun _ h => h) rx s op he
  intro a b h ha
  cases h with
  | internal _ h2 => rw [h2]; exact ha
  | _ => simp [ha]

/-- **C22**: in every history in which the exit sequence is not read, a client which only remembers what it was told knows at each
point in time which virtual keys are pressed, and is never told what it already knows, except that every time the configuration
is replaced, all virtual keys are released without telling it. -/
theorem C22_client_informed (rx : Regex) (ops : List SrvOp) (hx : Eff.exitRequested ∉ (srvRun rx {} ops).out) :
    ∃ n ≤ (ops.map SrvOp.replacements).sum, ToldAcross n [] (srvRun rx {} ops).out (srvRun rx {} ops).pressedVirtual := by
  have hmono : ∀ (ops : List SrvOp) (s : Srv), Eff.exitRequested ∈ s.out → Eff.exitRequested ∈ (srvRun rx s ops).out := by
    intro ops
    induction ops with
    | nil => exact fun _ h => h
    | cons op ops ih => exact fun s h => ih _ (srvStep_out rx s op _ h)
  have : ∀ (ops : List SrvOp) (s : Srv), s.Quiet → ReTold (ops.map SrvOp.replacements).sum s (srvRun rx s ops) := by
    intro ops
    induction ops with
    | nil => exact fun s _ => ToldOrExit.re (.inr (Told.refl s))
    | cons op ops ih =>
      intro s hs
      rw [List.map_cons, List.sum_cons]
      exact ReTold.trans (srvStep_told rx s hs op) (hmono ops _) (ih _ (srvStep_quiet rx s op hs))
  obtain ⟨l, n, hn, h1, h2⟩ := (this ops {} ⟨rfl, rfl⟩).resolve_left hx
  have h1 : (srvRun rx {} ops).out = l := by rw [h1]; rfl
  exact ⟨n, hn, by rw [h1]; exact h2⟩

/-- **C22**: so as long as the configuration is not replaced, the client knows which virtual keys are pressed. (`ops₀` is how the
configuration came to be.) -/
theorem C22_configuration_kept (rx : Regex) (ops₀ ops : List SrvOp) (hops : ∀ op ∈ ops, op.replacements = 0) :
    let s := srvRun rx {} ops₀
    let s' := srvRun rx s ops
    Eff.exitRequested ∉ s'.out →
      ∃ l, s'.out = s.out ++ l ∧ told s.pressedVirtual l = some s'.pressedVirtual := by
  intro s s' hx
  have hq : s.Quiet := srvRun_quiet rx {} ops₀ ⟨rfl, rfl⟩
  have hmono : ∀ (ops : List SrvOp) (s : Srv), Eff.exitRequested ∈ s.out → Eff.exitRequested ∈ (srvRun rx s ops).out := by
    intro ops
    induction ops with
    | nil => exact fun _ h => h
    | cons op ops ih => exact fun s h => ih _ (srvStep_out rx s op _ h)
  have : ∀ (s : Srv), s.Quiet → ReTold 0 s (srvRun rx s ops) := by
    clear hx
    induction ops with
    | nil => exact fun s _ => ToldOrExit.re (.inr (Told.refl s))
    | cons op ops ih =>
      intro s hs
      have h1 := srvStep_told rx s hs op
      rw [hops op (List.mem_cons_self ..)] at h1
      exact h1.trans (hmono ops _) (ih (fun op h => hops op (List.mem_cons_of_mem _ h)) _ (srvStep_quiet rx s op hs))
  obtain ⟨l, n, hn, h1, h2⟩ := (this s hq).resolve_left hx
  cases h2 with
  | told h2 => exact ⟨l, h1, h2⟩
  | released h2 hr => omega

-- the hypothesis of `C22_client_informed` holds when a virtual key is pressed, the configuration is replaced and another one is pressed
example :
    let ops : List SrvOp := [.message (.configuration [Cfg.make [{}]]), .message (.setVirtualKeyState 0xF101 .Down),
      .message (.configuration [Cfg.make [{}]]), .message (.setVirtualKeyState 0xF102 .Down)]
    let s := srvRun (fun _ _ => false) {} ops
    Eff.exitRequested ∉ s.out ∧ (ops.map SrvOp.replacements).sum = 2 ∧ s.pressedVirtual = [0xF102] ∧
      s.out.filter Eff.isAnnouncement = [.virtualKeyState 0xF101 .Down, .virtualKeyState 0xF102 .Down] := by
  decide +kernel

/-- The exception in `C22_client_informed` is needed: when the configuration is replaced, pressed
virtual keys are released without telling the client: here `Virtual1` is pressed, then the
configuration is received again, and the client still takes `Virtual1` for pressed. -/
theorem C22_configuration_not_announced :
    let ops : List SrvOp := [.message (.configuration [Cfg.make [{}]]), .message (.setVirtualKeyState 0xF101 .Down),
      .message (.configuration [Cfg.make [{}]])]
    let s := srvRun (fun _ _ => false) {} ops
    s.pressedVirtual = [] ∧ told [] s.out = some [0xF101] := by
  decide +kernel

/-! ### C23 -/

private theorem told_count {rx : Regex} {flush : Srv → Srv} (hf : ∀ s, (flush s).out.countP Eff.isAnnouncement = s.out.countP Eff.isAnnouncement)
    (s : Srv) (ev : KeyEvent) (dev : Int) :
    (s.translateWith rx flush ev dev).out.countP Eff.isAnnouncement = s.out.countP Eff.isAnnouncement := by
  have hset : ∀ (s : Srv) l, (s.setActiveContexts flush l).out.countP Eff.isAnnouncement = s.out.countP Eff.isAnnouncement := by
    intro s l
    unfold Srv.setActiveContexts
    simp only []
    split
    · exact hf _
    · rfl
  have hev : ∀ s : Srv, (s.evaluateDeviceFilters rx flush).out.countP Eff.isAnnouncement = s.out.countP Eff.isAnnouncement := by
    intro s
    unfold Srv.evaluateDeviceFilters
    split
    · rfl
    · exact hset _ _
  have hreset : ∀ (s : Srv), (s.resetConfiguration rx flush {}).out.countP Eff.isAnnouncement = s.out.countP Eff.isAnnouncement := by
    intro s
    unfold Srv.resetConfiguration
    exact (hev _).trans (hf _)
  have hcore : ∀ (s : Srv) ev dev, (s.translateCore rx flush ev dev).out.countP Eff.isAnnouncement = s.out.countP Eff.isAnnouncement := by
    intro s ev dev
    have hn := (noteEvent_calm s ev).1.1
    unfold Srv.translateCore
    simp only []
    split
    · unfold Srv.exit
      simp only [List.countP_append, hreset, hn]
      rfl
    · rw [(sendOutput_calm _ _ _).1, hn]
  have hinj : ∀ (s : Srv) ev dev, (s.injectElapsed rx flush ev dev).out.countP Eff.isAnnouncement = s.out.countP Eff.isAnnouncement := by
    intro s ev dev
    unfold Srv.injectElapsed
    split
    · split
      · unfold Srv.translateTimeout
        split
        · rfl
        · exact hcore _ _ _
      · rfl
    · rfl
  have hreply : ∀ (s : Srv) ev dev, (s.replyKeyInfo ev dev).out.countP Eff.isAnnouncement = s.out.countP Eff.isAnnouncement := by
    intro s ev dev
    unfold Srv.replyKeyInfo
    simp only [List.countP_append]
    rfl
  have hno : ∀ (s : Srv) ev dev, (s.translateNoWheel rx flush ev dev).out.countP Eff.isAnnouncement = s.out.countP Eff.isAnnouncement := by
    intro s ev dev
    unfold Srv.translateNoWheel
    split
    · rfl
    · split
      · exact hreply _ _ _
      · exact (hcore _ _ _).trans (hinj _ _ _)
  unfold Srv.translateWith
  split
  · rfl
  · split
    · exact hreply _ _ _
    · simp only []
      rw [hcore]
      split
      · exact (hno _ _ _).trans (hinj _ _ _)
      · exact hinj _ _ _

private theorem toggle_count (rx : Regex) (s : Srv) (k : Key) :
    (s.toggleVirtualKey rx k).out.countP Eff.isAnnouncement ≤ s.out.countP Eff.isAnnouncement + 1 := by
  have ht : ∀ (s : Srv) ev dev, (s.translateSending rx ev dev).out.countP Eff.isAnnouncement = s.out.countP Eff.isAnnouncement :=
    fun s ev dev => told_count (fun _ => rfl) s ev dev
  unfold Srv.toggleVirtualKey Srv.setVirtualKeyState
  simp only []
  split
  · split
    · simp only [List.countP_append, ht]
      exact Nat.le_refl _
    · rw [ht]; exact Nat.le_succ _
  · split
    · split
      · simp only [List.countP_append, ht]
        exact Nat.le_refl _
      · rw [ht]; exact Nat.le_succ _
    · exact Nat.le_succ _

private theorem flushLoop_count (rx : Regex) (n : Nat) (s : Srv) :
    (Srv.flushLoop rx n s).1.out.countP Eff.isAnnouncement ≤ s.out.countP Eff.isAnnouncement + n := by
  refine flushLoop_rec (motive := fun n s r => r.1.out.countP Eff.isAnnouncement ≤ s.out.countP Eff.isAnnouncement + n) ?_ ?_ ?_ ?_ ?_ ?_ ?_ n s
  · intro n s _; exact Nat.le_add_right _ _
  · intro n s e rest r _ _ ih; exact ih
  · intro n s e rest r _ _ _ ih
    simp only [List.countP_append] at ih
    exact ih
  · intro n s e rest r _ _ _ ih
    have := toggle_count rx { s with sendBuf := rest } e.key
    simp only [] at this
    omega
  · intro n s e rest _ _
    unfold Srv.scheduleFlush
    split <;> exact Nat.le_add_right _ _
  · intro n s e rest r _ _ _ ih
    simp only [Srv.send, List.countP_append] at ih
    exact ih
  · intro n s e rest _ _ _
    simp only [Srv.send, List.countP_append]
    exact Nat.le_add_right _ _

/-- **C23**: flushing the output terminates (`Srv.flushSendBuffer` is a total function without fuel:
the number of virtual keys which may still be toggled is the counter of the code), for any
configuration: at most nine virtual keys are toggled. -/
theorem C23_flush_bounded (rx : Regex) (s : Srv) :
    (s.flushSendBuffer rx).1.out.countP Eff.isAnnouncement ≤ s.out.countP Eff.isAnnouncement + 9 := by
  unfold Srv.flushSendBuffer
  split
  · exact Nat.le_add_right _ _
  · exact flushLoop_count rx 9 { s with sending := true, flushAt := none }

/-- `[modifier = Virtual1] ContextActive >> Virtual1` and `[modifier = "!Virtual1"] ContextActive >> Virtual1`
toggle each other. -/
private def exPingPong : Cfg := Cfg.make
  [{ inputs := [⟨[⟨Key.ContextActive, .Down, 0⟩], 0⟩], outputs := [[⟨0xF101, .Down, 0⟩]], modifierFilter := [⟨0xF101, .Down, 0⟩] },
   { inputs := [⟨[⟨Key.ContextActive, .Down, 0⟩], 0⟩], outputs := [[⟨0xF101, .Down, 0⟩]], modifierFilter := [⟨0xF101, .Down, 0⟩],
     invertModifierFilter := true }]

example : (srvRun (fun _ _ => false) {} [.message (.configuration [exPingPong]), .message (.activeContexts [0, 1])]).out.countP
    Eff.isAnnouncement = 9 := by decide +kernel

end KM
