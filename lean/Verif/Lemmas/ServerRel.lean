import Verif.Lemmas.ServerQuiet
/-!
# Relations between the states before and after an operation of the server

Anything reflexive and transitive which holds for the updates of the single members holds for all
operations.
-/
namespace KM

/-- A relation which is respected by the updates of the members -/
structure SrvRel (R : Srv → Srv → Prop) : Prop where
  refl : ∀ s, R s s
  trans : ∀ {a b c}, R a b → R b c → R a c
  /-- members without influence -/
  other : ∀ {a b : Srv}, b.now = a.now → b.timeoutStart = a.timeoutStart → b.timeout = a.timeout → b.cancelOnUp = a.cancelOnUp →
    b.sending = a.sending → b.devices = a.devices → R a b
  clear : ∀ s : Srv, R s { s with timeoutStart := none }
  cancel : ∀ s : Srv, R s s.cancelTimeout
  schedule : ∀ (s : Srv) t c, R s (s.scheduleTimeout t c)

section
variable {R : Srv → Srv → Prop} (hR : SrvRel R)
include hR

theorem SrvRel.after {a b c : Srv} (h : R b c) (h1 : b.now = a.now) (h2 : b.timeoutStart = a.timeoutStart) (h3 : b.timeout = a.timeout)
    (h4 : b.cancelOnUp = a.cancelOnUp) (h5 : b.sending = a.sending) (h6 : b.devices = a.devices) : R a c :=
  hR.trans (hR.other h1 h2 h3 h4 h5 h6) h

section
variable {rx : Regex} {flush : Srv → Srv} (hf : ∀ s, R s (flush s))
include hf

theorem SrvRel.setActiveContexts (s : Srv) (l : List Int) : R s (s.setActiveContexts flush l) := by
  unfold Srv.setActiveContexts
  simp only []
  split
  · exact hR.after (hf _) rfl rfl rfl rfl rfl rfl
  · exact hR.other rfl rfl rfl rfl rfl rfl

theorem SrvRel.evaluateDeviceFilters (s : Srv) : R s (s.evaluateDeviceFilters rx flush) := by
  unfold Srv.evaluateDeviceFilters
  split
  · exact hR.refl _
  · exact hR.after (hR.setActiveContexts hf _ _) rfl rfl rfl rfl rfl rfl

theorem SrvRel.resetConfiguration (s : Srv) (ms : MS) : R s (s.resetConfiguration rx flush ms) := by
  unfold Srv.resetConfiguration
  have h1 : R s (flush s.releaseAllKeys) := hR.after (hf _) rfl rfl rfl rfl rfl rfl
  refine hR.trans h1 ?_
  have h2 : R (flush s.releaseAllKeys) { flush s.releaseAllKeys with timeoutStart := none } := hR.clear _
  exact hR.trans h2 (hR.after (hR.evaluateDeviceFilters hf _) rfl rfl rfl rfl rfl rfl)

theorem SrvRel.exit (s : Srv) : R s (s.exit rx flush) :=
  hR.trans (hR.resetConfiguration (rx := rx) hf s {}) (hR.other rfl rfl rfl rfl rfl rfl)

omit hf in
theorem SrvRel.sendOutput (s : Srv) (ev : KeyEvent) (output : KeySequence) : R s (s.sendOutput ev output) := by
  unfold Srv.sendOutput
  split
  · next r _ => exact hR.trans (hR.schedule s r.value r.state.cancelTimeoutOnUp) (hR.other rfl rfl rfl rfl rfl rfl)
  · exact hR.other rfl rfl rfl rfl rfl rfl

omit hf in
theorem SrvRel.noteEvent (s : Srv) (ev : KeyEvent) : R s (s.noteEvent ev) := by
  unfold Srv.noteEvent
  split <;> exact hR.other rfl rfl rfl rfl rfl rfl

theorem SrvRel.translateCore (s : Srv) (ev : KeyEvent) (dev : Int) : R s (s.translateCore rx flush ev dev) := by
  unfold Srv.translateCore
  simp only []
  refine hR.trans (hR.noteEvent s ev) ?_
  split
  · exact hR.after (hR.exit hf _) rfl rfl rfl rfl rfl rfl
  · exact hR.after (hR.sendOutput _ _ _) rfl rfl rfl rfl rfl rfl

theorem SrvRel.translateTimeout (s : Srv) (ev : KeyEvent) (dev : Int) : R s (s.translateTimeout rx flush ev dev) := by
  unfold Srv.translateTimeout
  split
  · exact hR.refl _
  · exact hR.translateCore hf _ _ _

theorem SrvRel.injectElapsed (s : Srv) (ev : KeyEvent) (dev : Int) : R s (s.injectElapsed rx flush ev dev) := by
  unfold Srv.injectElapsed
  split
  · split
    · exact hR.trans (hR.cancel s) (hR.translateTimeout hf _ _ _)
    · exact hR.refl _
  · exact hR.refl _

theorem SrvRel.translateNoWheel (s : Srv) (ev : KeyEvent) (dev : Int) : R s (s.translateNoWheel rx flush ev dev) := by
  unfold Srv.translateNoWheel
  split
  · exact hR.refl _
  · split
    · exact hR.other rfl rfl rfl rfl rfl rfl
    · exact hR.trans (hR.injectElapsed hf _ _ _) (hR.translateCore hf _ _ _)

theorem SrvRel.translateWith (s : Srv) (ev : KeyEvent) (dev : Int) : R s (s.translateWith rx flush ev dev) := by
  unfold Srv.translateWith
  split
  · exact hR.refl _
  · split
    · exact hR.other rfl rfl rfl rfl rfl rfl
    · refine hR.trans (hR.injectElapsed (rx := rx) hf s ev dev) ?_
      simp only []
      split
      · exact hR.trans (hR.translateNoWheel hf _ _ _) (hR.translateCore hf _ _ _)
      · exact hR.translateCore hf _ _ _

end

theorem SrvRel.setVirtualKeyState {translate : Srv → KeyEvent → Int → Srv} (ht : ∀ s ev dev, R s (translate s ev dev))
    (s : Srv) (k : Key) (st : KeyState) : R s (s.setVirtualKeyState translate k st) := by
  unfold Srv.setVirtualKeyState
  simp only []
  split
  · have := hR.after (a := s) (ht { s with virtualDown := s.virtualDown ++ [k] } ⟨k, .Down, 0⟩ anyDeviceIndex) rfl rfl rfl rfl rfl rfl
    split
    · exact hR.trans this (hR.other rfl rfl rfl rfl rfl rfl)
    · exact this
  · split
    · have := hR.after (a := s) (ht { s with virtualDown := s.virtualDown.erase k } ⟨k, .Up, 0⟩ anyDeviceIndex) rfl rfl rfl rfl rfl rfl
      split
      · exact hR.trans this (hR.other rfl rfl rfl rfl rfl rfl)
      · exact this
    · exact hR.refl _

theorem SrvRel.toggleVirtualKey (rx : Regex) (s : Srv) (k : Key) : R s (s.toggleVirtualKey rx k) :=
  hR.setVirtualKeyState (fun s ev dev => hR.translateWith (fun s => hR.refl s) s ev dev) s k _

theorem SrvRel.scheduleFlush (s : Srv) (d : Nat) : R s (s.scheduleFlush d) := by
  unfold Srv.scheduleFlush
  split
  · exact hR.refl _
  · exact hR.other rfl rfl rfl rfl rfl rfl

theorem SrvRel.flushLoop (rx : Regex) (n : Nat) (s : Srv) : R s (Srv.flushLoop rx n s).1 := by
  refine flushLoop_rec (motive := fun _ s r => R s r.1) ?_ ?_ ?_ ?_ ?_ ?_ ?_ n s
  · intro n s _; exact hR.refl _
  · intro n s e rest r _ _ ih; exact hR.after ih rfl rfl rfl rfl rfl rfl
  · intro n s e rest r _ _ _ ih; exact hR.after ih rfl rfl rfl rfl rfl rfl
  · intro n s e rest r _ _ _ ih
    exact hR.after (hR.trans (hR.toggleVirtualKey rx { s with sendBuf := rest } e.key) ih) rfl rfl rfl rfl rfl rfl
  · intro n s e rest _ _
    exact hR.after (hR.scheduleFlush { s with sendBuf := rest } e.value) rfl rfl rfl rfl rfl rfl
  · intro n s e rest r _ _ _ ih; exact hR.after ih rfl rfl rfl rfl rfl rfl
  · intro n s e rest _ _ _; exact hR.other rfl rfl rfl rfl rfl rfl

end

/-- Respected also by flushing, and when devices arrive -/
structure SrvRelAll (R : Srv → Srv → Prop) : Prop extends SrvRel R where
  flushSendBuffer : ∀ (rx : Regex) (s : Srv), R s (s.flushSendBuffer rx).1
  devices : ∀ (s : Srv) l, R s { s with devices := l }

theorem SrvRel.all {R : Srv → Srv → Prop} (hR : SrvRel R) (sending : ∀ (s : Srv) b, R s { s with sending := b })
    (devices : ∀ (s : Srv) l, R s { s with devices := l }) : SrvRelAll R where
  toSrvRel := hR
  devices := devices
  flushSendBuffer := by
    intro rx s
    unfold Srv.flushSendBuffer
    split
    · exact hR.refl _
    · have h := hR.flushLoop rx 9 { s with sending := true, flushAt := none }
      have h0 : R s { s with sending := true, flushAt := none } :=
        hR.trans (sending s true) (hR.other rfl rfl rfl rfl rfl rfl)
      generalize Srv.flushLoop rx 9 { s with sending := true, flushAt := none } = r at h ⊢
      exact hR.trans h0 (hR.trans h (sending r.1 false))

section
variable {R : Srv → Srv → Prop} (hR : SrvRelAll R)
include hR

theorem SrvRelAll.flush (rx : Regex) (s : Srv) : R s (s.flush rx) := hR.flushSendBuffer rx s

theorem SrvRelAll.translateInput (rx : Regex) (s : Srv) (ev : KeyEvent) (dev : Int) : R s (s.translateInput rx ev dev) :=
  hR.toSrvRel.translateWith (hR.flush rx) s ev dev

theorem SrvRelAll.injectLoop (rx : Regex) (l : KeySequence) (s : Srv) : R s (l.foldl (fun s e =>
    if (e.state == .Up || e.state == .Down) && isDeviceKey e.key then
      s.translateInput rx e noDeviceIndex else s) s) := by
  induction l generalizing s with
  | nil => exact hR.refl _
  | cons e l ih =>
    rw [List.foldl_cons]
    split
    · exact hR.trans (hR.translateInput rx s e _) (ih _)
    · exact ih _

theorem SrvRelAll.onMessage (rx : Regex) (s : Srv) (m : Msg) : R s (s.onMessage rx m) := by
  cases m with
  | configuration cfgs => exact hR.toSrvRel.resetConfiguration (hR.flush rx) s _
  | activeContexts l => exact hR.toSrvRel.setActiveContexts (hR.flush rx) s l
  | setVirtualKeyState k st =>
    have h := hR.toSrvRel.setVirtualKeyState (hR.translateInput rx) s k st
    show R s (s.onSetVirtualKeyState rx k st)
    unfold Srv.onSetVirtualKeyState
    simp only []
    split
    · exact hR.trans h (hR.flush rx _)
    · exact h
  | validateState f => exact hR.other rfl rfl rfl rfl rfl rfl
  | requestNextKeyInfo => exact hR.other rfl rfl rfl rfl rfl rfl
  | injectInput l => exact hR.trans (hR.injectLoop rx l s) (hR.toSrvRel.scheduleFlush _ _)
  | injectOutput l =>
    exact hR.toSrvRel.after (a := s) (hR.toSrvRel.scheduleFlush (s.sendKeySequence l) 0) rfl rfl rfl rfl rfl rfl

theorem SrvRelAll.messages (rx : Regex) (l : List Msg) (s : Srv) : R s (l.foldl (Srv.onMessage rx) s) := by
  induction l generalizing s with
  | nil => exact hR.refl _
  | cons m l ih => exact hR.trans (hR.onMessage rx s m) (ih _)

theorem SrvRelAll.processRead (rx : Regex) (s : Srv) (r : Read) : R s (s.processRead rx r) := by
  cases r with
  | key ev dev =>
    show R s (if ev.key != Key.none then s.translateInput rx ev dev else s)
    split
    · exact hR.translateInput rx s ev dev
    · exact hR.refl _
  | nothing => exact hR.refl _
  | other => exact hR.refl _

theorem SrvRelAll.flushWhenDue (rx : Regex) (s : Srv) : R s (s.flushWhenDue rx).1 := by
  unfold Srv.flushWhenDue
  split
  · exact hR.flushSendBuffer rx s
  · exact hR.refl _

theorem SrvRelAll.updateDevices (rx : Regex) (s : Srv) (d : Option (List DeviceDesc)) : R s (s.updateDevices rx d) := by
  cases d with
  | none => exact hR.refl _
  | some l => exact hR.trans (hR.devices s l) (hR.toSrvRel.evaluateDeviceFilters (hR.flush rx) { s with devices := l })

theorem SrvRelAll.answerTimeout (rx : Regex) (s : Srv) : R s (s.answerTimeout rx) := by
  unfold Srv.answerTimeout
  split
  · exact hR.trans (hR.cancel s) (hR.translateInput rx _ _ _)
  · exact hR.refl _

end

/-- Between operations no key is being sent. -/
theorem sending_rel : SrvRelAll (fun a b => a.sending = false → b.sending = false) where
  refl := fun _ h => h
  trans := fun h1 h2 h => h2 (h1 h)
  other := fun _ _ _ _ h _ ha => h.trans ha
  clear := fun _ h => h
  cancel := fun _ h => h
  schedule := fun _ _ _ h => h
  flushSendBuffer := by
    intro rx s h
    unfold Srv.flushSendBuffer
    rw [h]
    rfl
  devices := fun _ _ h => h

theorem srvStep_rel {R : Srv → Srv → Prop} (hR : SrvRelAll R) (hnow : ∀ (s : Srv) it, R s (s.iterStart it)) (rx : Regex) (s : Srv) (op : SrvOp) :
    R s (srvStep rx s op) := by
  cases op with
  | loop it =>
    have h1 : R s (s.iterFlush rx it).1 :=
      hR.trans (hnow s it) (hR.trans (hR.processRead rx _ it.read) (hR.trans (hR.answerTimeout rx _) (hR.flushWhenDue rx _)))
    show R s (s.iterate rx it).1
    rcases iterate_cases rx s it with h | ⟨_, h⟩ | ⟨_, h⟩
    · rw [h]; exact hnow s it
    · rw [h]; exact h1
    · rw [h]; exact hR.trans h1 (hR.trans (hR.updateDevices rx _ _) (hR.messages rx _ _))
  | message m => exact hR.onMessage rx s m
  | devices l => exact hR.updateDevices rx s (some l)
  | reset => exact hR.toSrvRel.resetConfiguration (hR.flush rx) s {}

theorem srvRun_rel {R : Srv → Srv → Prop} (hR : SrvRelAll R) (hnow : ∀ (s : Srv) it, R s (s.iterStart it)) (rx : Regex) (s : Srv) (ops : List SrvOp) :
    R s (srvRun rx s ops) := by
  induction ops generalizing s with
  | nil => exact hR.refl s
  | cons op ops ih => exact hR.trans (srvStep_rel hR hnow rx s op) (ih _)

/-- In every history, between operations no key is being sent. -/
theorem srvRun_sending (rx : Regex) (ops : List SrvOp) : (srvRun rx {} ops).sending = false :=
  srvRun_rel sending_rel (fun _ _ h => h) rx {} ops rfl

end KM
