import Verif.Lemmas.VirtualDeviceKeys
/-!
# What the kernel sees of the virtual devices (C43, C44, C58, C59)

A history `ops` consists of key events which are sent, events which are read from the grabbed
devices and updates of the device list.
-/
namespace KM

/-! ## C44: presses, repeats and releases alternate -/

/-- **C44**: after every history, a press was only written for a key which was up on this device, a
repeat only for a key which was down, and nothing else than releases, presses and repeats was
written for keys. -/
theorem C44_alternates (ops : List VOp) : WellPressed (vRun {} ops).out := (vinv_run ops).pressed

/-- **C44**: each key event is written to one device and followed by a report: nothing is left
unreported. -/
theorem C44_reported (ops : List VOp) (e : KeyEvent) : ∃ d evs, evs ≠ [] ∧
    (vRun {} (ops ++ [.key e])).out = (vRun {} ops).out ++ evs.map (VEff.write d) ++ [.write d ⟨0, 0, 0⟩] ∧
    ∀ ev ∈ evs, ev.type = 1 ∧ ev.code = e.key ∨ ev.type = 2 := by
  rw [vRun_append]
  generalize vRun {} ops = s
  show ∃ d evs, evs ≠ [] ∧ (s.sendKeyEvent e).out = _ ∧ _
  refine ⟨s.deviceFor e.key, ?_⟩
  unfold VDevs.sendKeyEvent
  simp only []
  cases hw : isMouseWheel e.key with
  | false =>
    rw [if_neg (by simp)]
    refine ⟨[⟨1, e.key, ((s.get (s.deviceFor e.key)).updateKeyState e).2⟩], by simp, ?_, ?_⟩
    · show (s.set _ _).out ++ [_] ++ [_] = _
      rw [VDevs.set_out]
      rfl
    · intro ev hev
      rw [List.mem_singleton] at hev
      subst hev
      exact Or.inl ⟨rfl, rfl⟩
  | true =>
    rw [if_pos rfl]
    have h := VDevs.sendWheel_eq s (s.deviceFor e.key) e
    simp only [] at h
    generalize (e.key == Key.WheelUp || e.key == Key.WheelDown) = vertical at h
    generalize (if e.value != 0 then (e.value : Int) else 120) *
      (if (e.key == Key.WheelDown || e.key == Key.WheelLeft) = true then -1 else 1) = value at h
    rw [h]
    rcases lowresEvents_cases (s.deviceFor e.key) (if vertical then 8 else 6)
      ((s.get (s.deviceFor e.key)).updateLowresWheel vertical value).2 with ⟨hl, -⟩ | ⟨hl, -⟩
    · refine ⟨[⟨2, if vertical then 11 else 12, value⟩], by simp, ?_, ?_⟩
      · show _ ++ [_] = _
        rw [hl, List.append_nil]
        rfl
      · intro ev hev
        rw [List.mem_singleton] at hev
        subst hev
        exact Or.inr rfl
    · refine ⟨[⟨2, if vertical then 11 else 12, value⟩, ⟨2, if vertical then 8 else 6,
        ((s.get (s.deviceFor e.key)).updateLowresWheel vertical value).2⟩], by simp, ?_, ?_⟩
      · show _ ++ [_] = _
        rw [hl]
        simp
      · intro ev hev
        rcases List.mem_cons.1 hev with hev | hev
        · subst hev; exact Or.inr rfl
        · rw [List.mem_singleton] at hev; subst hev; exact Or.inr rfl

/-- Pressing twice is a press and a repeat; a key may be released without having been pressed. -/
example : (vRun {} [.key ⟨30, .Down, 0⟩, .key ⟨30, .Down, 0⟩, .key ⟨30, .Up, 0⟩, .key ⟨30, .Up, 0⟩]).out =
    [.create .keyboard,
      .write .keyboard ⟨1, 30, 1⟩, .write .keyboard ⟨0, 0, 0⟩,
      .write .keyboard ⟨1, 30, 2⟩, .write .keyboard ⟨0, 0, 0⟩,
      .write .keyboard ⟨1, 30, 0⟩, .write .keyboard ⟨0, 0, 0⟩,
      .write .keyboard ⟨1, 30, 0⟩, .write .keyboard ⟨0, 0, 0⟩] := by decide +kernel

/-! ## C43: the distance of the wheel -/

/-- **C43**: on each device the distance which was reported in low resolution steps differs by less
than one step from the high resolution distance, vertically and horizontally, after every history. -/
theorem C43_less_than_a_step (ops : List VOp) (d : VId) :
    let out := (vRun {} ops).out
    (-120 < distanceOn d 11 out - 120 * distanceOn d 8 out ∧ distanceOn d 11 out - 120 * distanceOn d 8 out < 120) ∧
    (-120 < distanceOn d 12 out - 120 * distanceOn d 6 out ∧ distanceOn d 12 out - 120 * distanceOn d 6 out < 120) := by
  have h := (vinv_run ops).ok d
  have h1 := h.distH
  have h2 := h.distV
  have h3 := h.accH
  have h4 := h.accV
  simp only []
  omega

/-- The distance of the wheel events in a history -/
def sentDistance (vertical : Bool) (ops : List VOp) : Int :=
  (ops.map (fun
    | .key e => wheelDistance vertical e
    | _ => 0)).sum

/-- **C43**: no distance is lost: the high resolution distance of all devices is the sum of the
distances of the wheel events which were sent, after every history. -/
theorem C43_distance_conserved (ops : List VOp) (vertical : Bool) :
    distance (if vertical then 11 else 12) (vRun {} ops).out = sentDistance vertical ops := by
  induction ops using list_snoc_induction with
  | h0 => cases vertical <;> rfl
  | h1 ops op ih =>
    have hr : vRun {} (ops ++ [op]) = vStep (vRun {} ops) op := by rw [vRun_append]; rfl
    rw [hr]
    have hs : sentDistance vertical (ops ++ [op]) = sentDistance vertical ops + sentDistance vertical [op] := by
      simp [sentDistance]
    rw [hs, ← ih]
    cases op with
    | key e =>
      show distance _ ((vRun {} ops).sendKeyEvent e).out = _ + (_ + 0)
      rw [distance_sendKeyEvent _ vertical rfl, Int.add_zero]
    | raw dev ev =>
      show distance _ (if (toKeyEvent ev).isSome then vRun {} ops else (vRun {} ops).forwardEvent dev ev).out = _ + (0 + 0)
      rw [Int.add_zero, Int.add_zero]
      by_cases hn : (toKeyEvent ev).isSome = true
      · rw [if_pos hn]
      · rw [if_neg hn]
        have hn' := toKeyEvent_none (ev := ev) (by simpa using hn)
        unfold VDevs.forwardEvent
        cases hd : (vRun {} ops).devices[dev]? with
        | none => rfl
        | some d =>
          simp only []
          show distance _ (_ ++ [VEff.write d ⟨ev.type, ev.code, ev.value⟩]) = _
          have hz : (if ev.type = 2 ∧ ev.code = (if vertical then 11 else 12) then ev.value else 0) = 0 := by
            refine if_neg (fun hh => ?_)
            have := hn'.2 hh.1
            have h2 := hh.2
            cases vertical
            · exact this.2.2.2 h2
            · exact this.2.2.1 h2
          rw [distance_append, distance_write, hz, Int.add_zero]
          cases ((vRun {} ops).get d).mouse <;> rfl
    | update creates l =>
      show distance _ ((vRun {} ops).updateForwardDevices creates l).1.out = _ + (0 + 0)
      rw [distance_update, Int.add_zero, Int.add_zero]

/-- Three events of half a step are one step; turning back does not count twice. -/
example : let out := (vRun {} [.key ⟨Key.WheelUp, .Up, 60⟩, .key ⟨Key.WheelUp, .Up, 60⟩, .key ⟨Key.WheelDown, .Up, 90⟩,
      .key ⟨Key.WheelDown, .Up, 60⟩, .key ⟨Key.WheelLeft, .Up, 0⟩]).out
    distanceOn .keyboard 11 out = -30 ∧ distanceOn .keyboard 8 out = 0 ∧ distanceOn .keyboard 12 out = -120 ∧
    distanceOn .keyboard 6 out = -1 := by decide +kernel

/-! ## C58: the keys which are down are the pressed ones -/

/-- **C58**: after every history (also of device updates), a key which is not a mouse button is down on
the virtual keyboard exactly when the last event sent for it was not a release, and it is down on no
other device. -/
theorem C58_keys_follow (ops : List VOp) (k : Key) (hb : isMouseButton k = false) (hw : isMouseWheel k = false) :
    heldOn .keyboard k (vRun {} ops).out = lastPressed k ops ∧
    ∀ i, heldOn (.forward i) k (vRun {} ops).out = false := by
  have h := vinv_run ops
  refine ⟨?_, fun i => ?_⟩
  · have hok := (h.ok .keyboard).held k
    rw [VDevs.getP_nil] at hok
    rw [hok]
    clear hok h
    induction ops using list_snoc_induction with
    | h0 => rfl
    | h1 ops op ih =>
      have hr : vRun {} (ops ++ [op]) = vStep (vRun {} ops) op := by rw [vRun_append]; rfl
      rw [hr, keyboard_step (vinv_run ops) op hb hw, lastPressed_snoc, ih]
  · have hok := (h.ok (.forward i)).held k
    rw [VDevs.getP_nil] at hok
    rw [hok]
    have hbb := run_buttons ops {} vinv_init (fun p hp => by cases hp)
    rw [onlyButtons_iff ((VInv.iff _).1 h).2.1] at hbb
    cases hc : ((vRun {} ops).get (.forward i)).down.contains k with
    | false => rfl
    | true => rw [hbb i k hc] at hb; cases hb

/-- A mouse -/
def exampleMouse : EvDev := { eventId := 5, name := "Mouse".toList, numKeys := 5, relX := true, relY := true }
/-- A second mouse -/
def exampleMouse2 : EvDev := { eventId := 6, name := "Touchpad".toList, numKeys := 5, relX := true, relY := true }
/-- A mouse moved horizontally. -/
def exampleMove : RawEvent := ⟨EV_REL, 0, 7⟩

/-- A and the button are pressed, the mouse moved: A is held on the keyboard. -/
example : let out := (vRun {} [.update (fun _ => true) [⟨⟨[], []⟩, some exampleMouse⟩], .key ⟨30, .Down, 0⟩,
      .raw 0 exampleMove, .key ⟨272, .Down, 0⟩]).out
    heldOn .keyboard 30 out = true ∧ heldOn .keyboard 272 out = false ∧ heldOn (.forward 5) 272 out = true := by
  decide +kernel

/-- **C58** (mouse buttons): while, since a device forwarded an event, only this device forwards
events and no devices are updated, a mouse button which was up is held (on one device) exactly when
the last event sent for it was not a release. With several mice, or updates while a
button is held, it is false (`C58_button_counterexample`). -/
theorem C58_buttons_follow (pre ops : List VOp) (m : Nat) (ev : RawEvent) (hev : (toKeyEvent ev).isSome = false)
    (hop : ∀ op ∈ ops, op.isKey = true ∨ ∃ ev, op = .raw m ev) (k : Key) (hk : isMouseButton k = true)
    (hup : ∀ d, heldOn d k (vRun {} (pre ++ [.raw m ev])).out = false) :
    ∃ d, ∀ d', heldOn d' k (vRun {} (pre ++ [.raw m ev] ++ ops)).out = (decide (d' = d) && lastPressed k ops) := by
  have h0 := vinv_run (pre ++ [.raw m ev])
  have h1 := vinv_run (pre ++ [.raw m ev] ++ ops)
  have hlast : ∀ d, (vRun {} (pre ++ [.raw m ev])).devices[m]? = some d →
      ((vRun {} (pre ++ [.raw m ev])).get d).mouse = true → (vRun {} (pre ++ [.raw m ev])).lastMouse = some d := by
    rw [vRun_append]
    exact forwarded_last m ev hev
  have hw : isMouseWheel k = false := by
    unfold isMouseButton at hk
    unfold isMouseWheel
    have h : 272 ≤ k ∧ k ≤ 276 := by simpa using hk
    have : ∀ n : Nat, 272 ≤ n ∧ n ≤ 276 → (decide (336 ≤ n) && decide (n ≤ 339)) = false := by
      intro n hn
      have : ¬ 336 ≤ n := by omega
      simp [this]
    exact this k h
  have hup' : ∀ d, ((vRun {} (pre ++ [.raw m ev])).get d).down.contains k = false := by
    intro d
    have := (h0.ok d).held k
    rw [VDevs.getP_nil, hup] at this
    exact this.symm
  have hrun := (same_mouse_run h0 m hlast ops hop k hw hup').2.2.2
  refine ⟨(vRun {} (pre ++ [.raw m ev])).deviceFor k, fun d' => ?_⟩
  have := (h1.ok d').held k
  rw [VDevs.getP_nil] at this
  rw [this, vRun_append]
  exact hrun d'

/-- Dragging with one mouse -/
example : let ops : List VOp := [.key ⟨272, .Down, 0⟩, .raw 0 exampleMove, .key ⟨30, .Down, 0⟩, .raw 0 ⟨0, 0, 0⟩, .key ⟨272, .Up, 0⟩]
    let pre : List VOp := [.update (fun _ => true) [⟨⟨[], []⟩, some exampleMouse⟩]]
    (∀ op ∈ ops, op.isKey = true ∨ ∃ ev, op = .raw 0 ev) ∧
    heldOn (.forward 5) 272 (vRun {} (pre ++ [.raw 0 exampleMove] ++ ops.take 3)).out = true ∧
    heldOn (.forward 5) 272 (vRun {} (pre ++ [.raw 0 exampleMove] ++ ops)).out = false := by
  refine ⟨?_, by decide +kernel, by decide +kernel⟩
  intro op hop
  simp only [List.mem_cons, List.not_mem_nil, or_false] at hop
  rcases hop with rfl | rfl | rfl | rfl | rfl
  · exact Or.inl rfl
  · exact Or.inr ⟨_, rfl⟩
  · exact Or.inl rfl
  · exact Or.inr ⟨_, rfl⟩
  · exact Or.inl rfl

/-- The button is pressed before the mouse was moved. -/
def pressedBeforeMove : List VOp :=
  [.update (fun _ => true) [⟨⟨[], []⟩, some exampleMouse⟩], .key ⟨272, .Down, 0⟩, .raw 0 exampleMove, .key ⟨272, .Up, 0⟩]

/-- Another mouse is moved while the button is held. -/
def otherMouseMoved : List VOp :=
  [.update (fun _ => true) [⟨⟨[], []⟩, some exampleMouse⟩, ⟨⟨[], []⟩, some exampleMouse2⟩], .raw 0 exampleMove,
    .key ⟨272, .Down, 0⟩, .raw 1 exampleMove, .key ⟨272, .Up, 0⟩]

/-- Another device is plugged in while the button is held. -/
def devicePluggedIn : List VOp :=
  [.update (fun _ => true) [⟨⟨[], []⟩, some exampleMouse⟩], .raw 0 exampleMove, .key ⟨272, .Down, 0⟩,
    .update (fun _ => true) [⟨⟨[], []⟩, some exampleMouse⟩, ⟨⟨[], []⟩, none⟩], .key ⟨272, .Up, 0⟩]

/-- **C58** is false for mouse buttons: a button which is released stays down when its release is sent
with another device than its press. -/
theorem C58_button_counterexample :
    (lastPressed 272 pressedBeforeMove = false ∧ heldOn .keyboard 272 (vRun {} pressedBeforeMove).out = true) ∧
    (lastPressed 272 otherMouseMoved = false ∧ heldOn (.forward 5) 272 (vRun {} otherMouseMoved).out = true) ∧
    (lastPressed 272 devicePluggedIn = false ∧ heldOn (.forward 5) 272 (vRun {} devicePluggedIn).out = true) := by
  decide +kernel

/-! ## C59: a wheel event which is not mapped is reproduced -/

/-- **C59**: an event of the high resolution wheel of up to 4095 units is read as a key event whose
sending writes exactly the same event. -/
theorem C59_wheel_reproduced (s : VDevs) (code : Nat) (value : Int) (hc : code = 11 ∨ code = 12)
    (hv : value ≠ 0) (hb : value.natAbs < 4096) : ∃ e d evs, toKeyEvent ⟨2, code, value⟩ = some e ∧
    isMouseWheel e.key = true ∧
    (s.sendKeyEvent e).out = s.out ++ [.write d ⟨2, code, value⟩] ++ evs ∧
    ∀ ev ∈ evs, ∃ ev', ev = .write d ev' ∧ (ev'.type = 2 → ev'.code = 6 ∨ ev'.code = 8) := by
  have key : ∀ (k : Key) (n : Nat), isMouseWheel k = true → n ≠ 0 →
      (if (k == Key.WheelUp || k == Key.WheelDown) then 11 else 12) = code →
      (n : Int) * (if (k == Key.WheelDown || k == Key.WheelLeft) then -1 else 1) = value →
      ∃ d evs, ((s.sendKeyEvent ⟨k, .Up, n⟩).out = s.out ++ [.write d ⟨2, code, value⟩] ++ evs ∧
        ∀ ev ∈ evs, ∃ ev', ev = .write d ev' ∧ (ev'.type = 2 → ev'.code = 6 ∨ ev'.code = 8)) := by
    intro k n hw hn hcode hval
    refine ⟨s.deviceFor k, ?_⟩
    have h := VDevs.sendWheel_eq s (s.deviceFor k) ⟨k, .Up, n⟩
    simp only [] at h
    have hn' : (n != 0) = true := by simpa using hn
    rw [hn', if_pos rfl, hval, hcode] at h
    refine ⟨lowresEvents (s.deviceFor k) (if (k == Key.WheelUp || k == Key.WheelDown) then 8 else 6)
        ((s.get (s.deviceFor k)).updateLowresWheel (k == Key.WheelUp || k == Key.WheelDown) value).2 ++
        [.write (s.deviceFor k) ⟨0, 0, 0⟩], ?_, ?_⟩
    · unfold VDevs.sendKeyEvent
      simp only []
      rw [hw, if_pos rfl, h]
      show _ ++ [VEff.write _ ⟨0, 0, 0⟩] = _
      rw [List.append_assoc _ _ [VEff.write _ ⟨0, 0, 0⟩]]
    · intro ev hev
      rcases List.mem_append.1 hev with hev | hev
      · rcases lowresEvents_cases (s.deviceFor k) (if (k == Key.WheelUp || k == Key.WheelDown) then 8 else 6)
          ((s.get (s.deviceFor k)).updateLowresWheel (k == Key.WheelUp || k == Key.WheelDown) value).2 with ⟨hl, -⟩ | ⟨hl, -⟩
        · rw [hl] at hev; cases hev
        · rw [hl, List.mem_singleton] at hev
          refine ⟨_, hev, fun _ => ?_⟩
          simp only []
          cases (k == Key.WheelUp || k == Key.WheelDown)
          · exact Or.inl rfl
          · exact Or.inr rfl
      · rw [List.mem_singleton] at hev
        exact ⟨_, hev, fun h => absurd h (by decide)⟩
  have hmod : value.natAbs % 4096 = value.natAbs := Nat.mod_eq_of_lt hb
  have hn0 : value.natAbs ≠ 0 := by omega
  rcases hc with rfl | rfl
  · by_cases hneg : value < 0
    · obtain ⟨d, evs, h⟩ := key Key.WheelDown value.natAbs (by decide) hn0 (by decide) (by
        show (value.natAbs : Int) * (-1) = value
        omega)
      refine ⟨⟨Key.WheelDown, .Up, value.natAbs⟩, d, evs, ?_, rfl, h⟩
      show some (KeyEvent.mk (if value < 0 then Key.WheelDown else Key.WheelUp) .Up (value.natAbs % 4096)) = _
      rw [if_pos hneg, hmod]
    · obtain ⟨d, evs, h⟩ := key Key.WheelUp value.natAbs (by decide) hn0 (by decide) (by
        show (value.natAbs : Int) * 1 = value
        omega)
      refine ⟨⟨Key.WheelUp, .Up, value.natAbs⟩, d, evs, ?_, rfl, h⟩
      show some (KeyEvent.mk (if value < 0 then Key.WheelDown else Key.WheelUp) .Up (value.natAbs % 4096)) = _
      rw [if_neg hneg, hmod]
  · by_cases hneg : value < 0
    · obtain ⟨d, evs, h⟩ := key Key.WheelLeft value.natAbs (by decide) hn0 (by decide) (by
        show (value.natAbs : Int) * (-1) = value
        omega)
      refine ⟨⟨Key.WheelLeft, .Up, value.natAbs⟩, d, evs, ?_, rfl, h⟩
      show some (KeyEvent.mk (if value < 0 then Key.WheelLeft else Key.WheelRight) .Up (value.natAbs % 4096)) = _
      rw [if_pos hneg, hmod]
    · obtain ⟨d, evs, h⟩ := key Key.WheelRight value.natAbs (by decide) hn0 (by decide) (by
        show (value.natAbs : Int) * 1 = value
        omega)
      refine ⟨⟨Key.WheelRight, .Up, value.natAbs⟩, d, evs, ?_, rfl, h⟩
      show some (KeyEvent.mk (if value < 0 then Key.WheelLeft else Key.WheelRight) .Up (value.natAbs % 4096)) = _
      rw [if_neg hneg, hmod]

/-- **C59**: a step of a wheel without high resolution is read as 120 units; the low resolution
events of a high resolution wheel are dropped. -/
theorem C59_steps_converted (d : EvDev) (value : Int) :
    (d.highres = false → convertEvent d ⟨2, 8, value⟩ = ⟨2, 11, value * 120⟩ ∧ convertEvent d ⟨2, 6, value⟩ = ⟨2, 12, value * 120⟩) ∧
    (d.highres = true → convertEvent d ⟨2, 8, value⟩ = ⟨2, 8, value⟩ ∧ convertEvent d ⟨2, 6, value⟩ = ⟨2, 6, value⟩) ∧
    toKeyEvent ⟨2, 8, value⟩ = some ⟨Key.none, .Down, 0⟩ ∧ toKeyEvent ⟨2, 6, value⟩ = some ⟨Key.none, .Down, 0⟩ := by
  refine ⟨fun h => ?_, fun h => ?_, rfl, rfl⟩
  · unfold convertEvent; rw [h]; exact ⟨rfl, rfl⟩
  · unfold convertEvent; rw [h]; exact ⟨rfl, rfl⟩

/-- An event of 4095 units is reproduced. -/
example : ∃ e, toKeyEvent ⟨2, 11, -4095⟩ = some e ∧
    (({} : VDevs).sendKeyEvent e).out.contains (.write .keyboard ⟨2, 11, -4095⟩) = true :=
  ⟨⟨Key.WheelDown, .Up, 4095⟩, by decide +kernel, by decide +kernel⟩

/-- **C59** is false from 4096 units on (35 steps at once): the value of a key event has 12 bits. An
event of 4096 units becomes one of 120. -/
theorem C59_large_counterexample : ∃ e, toKeyEvent ⟨2, 11, 4096⟩ = some e ∧
    (({} : VDevs).sendKeyEvent e).out = [.create .keyboard, .write .keyboard ⟨2, 11, 120⟩,
      .write .keyboard ⟨2, 8, 1⟩, .write .keyboard ⟨0, 0, 0⟩] :=
  ⟨⟨Key.WheelUp, .Up, 0⟩, by decide +kernel, by decide +kernel⟩

/-! ## C59: keys which are not mapped are reproduced -/

/-- What the kernel reports for a keyboard: a key which is not held is pressed (1), a key which is held repeats (2) or is released (0) -/
inductive KeyboardReports : List Key → List RawEvent → Prop
  | nil {held} : KeyboardReports held []
  | press {held k evs} : k ∉ held → KeyboardReports (k :: held) evs → KeyboardReports held (⟨1, k, 1⟩ :: evs)
  | hold {held k evs} : k ∈ held → KeyboardReports held evs → KeyboardReports held (⟨1, k, 2⟩ :: evs)
  | release {held k evs} : k ∈ held → KeyboardReports (held.filter (· != k)) evs → KeyboardReports held (⟨1, k, 0⟩ :: evs)

private theorem keys_reproduced {held : List Key} {evs : List RawEvent} (h : KeyboardReports held evs) :
    ∀ (s : VDevs), s.lastMouse = none → (∀ k, k ∈ s.keyboard.down ↔ k ∈ held) → (∀ ev ∈ evs, isMouseWheel ev.code = false) →
    (evs.foldl (fun s ev => match toKeyEvent ev with | some e => s.sendKeyEvent e | none => s) s).out =
      s.out ++ evs.flatMap (fun ev => [.write .keyboard ev, .write .keyboard ⟨0, 0, 0⟩]) := by
  have dev : ∀ (s : VDevs) (k : Key), s.lastMouse = none → s.deviceFor k = .keyboard := by
    intro s k hs
    unfold VDevs.deviceFor
    rw [hs]
  have step : ∀ (s : VDevs) (k : Key) (v : Int) (st : KeyState) (evs : List RawEvent), s.lastMouse = none → isMouseWheel k = false →
      toKeyEvent ⟨1, k, v⟩ = some ⟨k, st, 0⟩ → (s.keyboard.updateKeyState ⟨k, st, 0⟩).2 = v →
      (evs.foldl (fun s ev => match toKeyEvent ev with | some e => s.sendKeyEvent e | none => s)
        { s with keyboard := (s.keyboard.updateKeyState ⟨k, st, 0⟩).1, out := s.out ++ [.write .keyboard ⟨1, k, v⟩, .write .keyboard ⟨0, 0, 0⟩] }) =
      ((⟨1, k, v⟩ :: evs).foldl (fun s ev => match toKeyEvent ev with | some e => s.sendKeyEvent e | none => s) s) := by
    intro s k v st evs hm hw ht hv
    rw [List.foldl_cons, ht]
    simp only
    congr 1
    unfold VDevs.sendKeyEvent
    simp only [dev s k hm, hw]
    unfold VDevs.sendKey VDevs.sendEvent VDevs.set VDevs.get
    simp [hv, EV_KEY, EV_SYN, SYN_REPORT]
  induction h with
  | nil => intro s _ _ _; simp
  | @press held k evs hk _ ih =>
    intro s hm hd hw
    have hu : s.keyboard.updateKeyState ⟨k, .Down, 0⟩ = ({ s.keyboard with down := s.keyboard.down ++ [k] }, 1) := by
      unfold VDev.updateKeyState
      have : s.keyboard.down.contains k = false := by
        rw [← Bool.not_eq_true, List.contains_iff_mem, hd]; exact hk
      simp only [this]
      rfl
    rw [← step s k 1 .Down evs hm (hw _ (List.mem_cons_self ..)) rfl (by rw [hu]), ih, List.flatMap_cons]
    · simp
    · exact hm
    · intro x; rw [hu]; simp [hd, or_comm]
    · exact fun ev hev => hw ev (by simp [hev])
  | @hold held k evs hk _ ih =>
    intro s hm hd hw
    have hu : s.keyboard.updateKeyState ⟨k, .Down, 0⟩ = (s.keyboard, 2) := by
      unfold VDev.updateKeyState
      have : s.keyboard.down.contains k = true := by
        rw [List.contains_iff_mem, hd]; exact hk
      simp only [this]
      rfl
    rw [← step s k 2 .Down evs hm (hw _ (List.mem_cons_self ..)) rfl (by rw [hu]), ih, List.flatMap_cons]
    · simp
    · exact hm
    · intro x; rw [hu]; exact hd x
    · exact fun ev hev => hw ev (by simp [hev])
  | @release held k evs hk _ ih =>
    intro s hm hd hw
    have hu : s.keyboard.updateKeyState ⟨k, .Up, 0⟩ = ({ s.keyboard with down := s.keyboard.down.filter (· != k) }, 0) := rfl
    rw [← step s k 0 .Up evs hm (hw _ (List.mem_cons_self ..)) rfl (by rw [hu]), ih, List.flatMap_cons]
    · simp
    · exact hm
    · intro x; rw [hu]; simp [hd]
    · exact fun ev hev => hw ev (by simp [hev])

/-- **C59** What is typed on a keyboard - pressing keys, letting them repeat, releasing them, in any order - and is not mapped, is written on
the virtual keyboard exactly as it was read, each event in a report of its own. -/
theorem C59_keys_reproduced {evs : List RawEvent} (h : KeyboardReports [] evs) (hw : ∀ ev ∈ evs, isMouseWheel ev.code = false) :
    (evs.foldl (fun s ev => match toKeyEvent ev with | some e => s.sendKeyEvent e | none => s) ({} : VDevs)).out =
      [.create .keyboard] ++ evs.flatMap (fun ev => [.write .keyboard ev, .write .keyboard ⟨0, 0, 0⟩]) :=
  keys_reproduced h {} rfl (by simp) hw

/-- Two keys overlap, one of them repeats. -/
example : KeyboardReports [] [⟨1, 30, 1⟩, ⟨1, 48, 1⟩, ⟨1, 48, 2⟩, ⟨1, 30, 0⟩, ⟨1, 48, 2⟩, ⟨1, 48, 0⟩] ∧
    ∀ ev ∈ [(⟨1, 30, 1⟩ : RawEvent), ⟨1, 48, 1⟩, ⟨1, 48, 2⟩, ⟨1, 30, 0⟩, ⟨1, 48, 2⟩, ⟨1, 48, 0⟩], isMouseWheel ev.code = false := by
  refine ⟨?_, by decide⟩
  exact .press (by decide) (.press (by decide) (.hold (by decide) (.release (by decide) (.hold (by decide) (.release (by decide) .nil)))))

end KM
