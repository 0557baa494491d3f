import Verif.Lemmas.VirtualDevices
/-!
# Lemmas: which keys of the virtual devices are down
-/
namespace KM

theorem contains_updateKeyState (v : VDev) (e : KeyEvent) (k : Key) :
    (v.updateKeyState e).1.down.contains k = if e.key = k then decide (e.state ≠ .Up) else v.down.contains k := by
  by_cases hu : e.state = .Up
  · rw [VDev.updateKeyState_up _ hu]
    show (v.down.filter (fun k => k != e.key)).contains k = _
    rw [contains_filter_ne]
    by_cases hk : e.key = k
    · subst hk; simp [hu]
    · have : k ≠ e.key := Ne.symm hk
      simp [hk, this]
  · by_cases hc : v.down.contains e.key = true
    · rw [VDev.updateKeyState_repeat _ hu hc]
      by_cases hk : e.key = k
      · subst hk
        rw [if_pos rfl, hc]
        simp [hu]
      · rw [if_neg hk]
    · rw [VDev.updateKeyState_press _ hu hc]
      by_cases hk : e.key = k
      · subst hk; simp [hu]
      · have : k ≠ e.key := Ne.symm hk
        rw [if_neg hk]; simp [this]

theorem updateKeyState_mouse (v : VDev) (e : KeyEvent) : (v.updateKeyState e).1.mouse = v.mouse := by
  unfold VDev.updateKeyState
  split
  · rfl
  · split <;> rfl

theorem updateLowresWheel_down (v : VDev) (b : Bool) (n : Int) :
    (v.updateLowresWheel b n).1.down = v.down ∧ (v.updateLowresWheel b n).1.mouse = v.mouse := by
  cases b <;> exact ⟨rfl, rfl⟩

theorem get_congr {s t : VDevs} (hk : t.keyboard = s.keyboard) (hf : t.forward = s.forward) (d : VId) : t.get d = s.get d := by
  cases d with
  | keyboard => exact hk
  | forward i => show (t.forward.lookup i).getD {} = _; rw [hf]; rfl

theorem sendWheel_get (s : VDevs) (d d' : VId) (e : KeyEvent) : ∃ v, (s.sendWheel d e).get d' = (s.set d v).get d' ∧
    v.down = (s.get d).down ∧ v.mouse = (s.get d).mouse := by
  have h := VDevs.sendWheel_eq s d e
  simp only [] at h
  generalize (e.key == Key.WheelUp || e.key == Key.WheelDown) = vertical at h
  generalize (if e.value != 0 then (e.value : Int) else 120) *
    (if (e.key == Key.WheelDown || e.key == Key.WheelLeft) = true then -1 else 1) = value at h
  rw [h]
  refine ⟨((s.get d).updateLowresWheel vertical value).1, ?_, updateLowresWheel_down _ _ _⟩
  exact get_congr rfl rfl d'

/-- The keys a device has down after an event was sent -/
theorem sendKeyEvent_down {s : VDevs} (h : VInv s []) (e : KeyEvent) (d : VId) (k : Key) :
    ((s.sendKeyEvent e).get d).down.contains k =
      if d = s.deviceFor e.key ∧ isMouseWheel e.key = false ∧ e.key = k then decide (e.state ≠ .Up)
      else (s.get d).down.contains k := by
  have ha := VDevs.deviceFor_alive h e.key
  unfold VDevs.sendKeyEvent
  simp only []
  rw [VDevs.sendEvent_get]
  cases hw : isMouseWheel e.key with
  | true =>
    rw [if_pos rfl, if_neg (fun hh => by cases hh.2.1)]
    obtain ⟨v, hv, hd, -⟩ := sendWheel_get s (s.deviceFor e.key) d e
    rw [hv]
    by_cases hdd : d = s.deviceFor e.key
    · rw [hdd, VDevs.get_set_same _ ha, hd]
    · rw [VDevs.get_set_other _ hdd]
  | false =>
    rw [if_neg (by simp)]
    have hg : (s.sendKey (s.deviceFor e.key) e).get d =
        (s.set (s.deviceFor e.key) ((s.get (s.deviceFor e.key)).updateKeyState e).1).get d :=
      get_congr rfl rfl d
    rw [hg]
    by_cases hdd : d = s.deviceFor e.key
    · rw [hdd, VDevs.get_set_same _ ha, contains_updateKeyState]
      by_cases hk : e.key = k
      · rw [if_pos hk, if_pos ⟨rfl, rfl, hk⟩]
      · rw [if_neg hk, if_neg (fun hh => hk hh.2.2)]
    · rw [VDevs.get_set_other _ hdd, if_neg (fun hh => hdd hh.1)]

theorem sendKeyEvent_mouse {s : VDevs} (h : VInv s []) (e : KeyEvent) (d : VId) :
    ((s.sendKeyEvent e).get d).mouse = (s.get d).mouse := by
  have ha := VDevs.deviceFor_alive h e.key
  unfold VDevs.sendKeyEvent
  simp only []
  rw [VDevs.sendEvent_get]
  split
  · obtain ⟨v, hv, -, hd⟩ := sendWheel_get s (s.deviceFor e.key) d e
    rw [hv]
    by_cases hdd : d = s.deviceFor e.key
    · rw [hdd, VDevs.get_set_same _ ha, hd]
    · rw [VDevs.get_set_other _ hdd]
  · have hg : (s.sendKey (s.deviceFor e.key) e).get d =
        (s.set (s.deviceFor e.key) ((s.get (s.deviceFor e.key)).updateKeyState e).1).get d :=
      get_congr rfl rfl d
    rw [hg]
    by_cases hdd : d = s.deviceFor e.key
    · rw [hdd, VDevs.get_set_same _ ha, updateKeyState_mouse]
    · rw [VDevs.get_set_other _ hdd]

theorem sendKeyEvent_rest (s : VDevs) (e : KeyEvent) : (s.sendKeyEvent e).lastMouse = s.lastMouse ∧
    (s.sendKeyEvent e).devices = s.devices ∧ (s.sendKeyEvent e).ub = s.ub := by
  unfold VDevs.sendKeyEvent
  simp only []
  split
  · have h := VDevs.sendWheel_eq s (s.deviceFor e.key) e
    simp only [] at h
    rw [h]
    exact ⟨VDevs.set_lastMouse .., VDevs.set_devices .., VDevs.set_ub ..⟩
  · exact ⟨VDevs.set_lastMouse .., VDevs.set_devices .., VDevs.set_ub ..⟩

theorem forwardEvent_get (s : VDevs) (dev : Nat) (ev : RawEvent) (d : VId) : (s.forwardEvent dev ev).get d = s.get d := by
  unfold VDevs.forwardEvent
  split
  · exact get_congr rfl rfl d
  · simp only []
    rw [VDevs.sendEvent_get]
    split
    · exact get_congr rfl rfl d
    · rfl

theorem forwardEvent_devices (s : VDevs) (dev : Nat) (ev : RawEvent) : (s.forwardEvent dev ev).devices = s.devices := by
  unfold VDevs.forwardEvent
  split
  · rfl
  · simp only []
    split <;> rfl

/-! ## Updating -/

theorem addDevice_keyboard (creates : EvDev → Bool) (s : VDevs) (prev : List (Nat × VDev)) (g : GrabbedDesc) :
    (s.addDevice creates prev g).1.keyboard = s.keyboard := by
  unfold VDevs.addDevice
  split
  · rfl
  · split
    · rfl
    · split
      · split <;> rfl
      · rfl

theorem addDevices_keyboard (creates : EvDev → Bool) (l : List GrabbedDesc) (s : VDevs) (prev : List (Nat × VDev)) :
    (VDevs.addDevices creates l s prev).1.keyboard = s.keyboard := by
  induction l generalizing s prev with
  | nil => rfl
  | cons g l ih =>
    have ha := addDevice_keyboard creates s prev g
    unfold VDevs.addDevices
    split
    · next s' prev' he => rw [he] at ha; rw [ih]; exact ha
    · next s' prev' he => rw [he] at ha; exact ha

theorem update_keyboard (creates : EvDev → Bool) (l : List GrabbedDesc) (s : VDevs) :
    (s.updateForwardDevices creates l).1.keyboard = s.keyboard := by
  unfold VDevs.updateForwardDevices
  exact addDevices_keyboard creates l _ _

/-- A forward device is only used for mouse buttons. -/
def OnlyButtons (l : List (Nat × VDev)) : Prop := ∀ p ∈ l, ∀ k ∈ p.2.down, isMouseButton k = true

theorem addDevice_buttons (creates : EvDev → Bool) (s : VDevs) (prev : List (Nat × VDev)) (g : GrabbedDesc)
    (h1 : OnlyButtons s.forward) (h2 : OnlyButtons prev) :
    OnlyButtons (s.addDevice creates prev g).1.forward ∧ OnlyButtons (s.addDevice creates prev g).2.1 := by
  have snoc : ∀ {l : List (Nat × VDev)} {p}, OnlyButtons l → (∀ k ∈ p.2.down, isMouseButton k = true) → OnlyButtons (l ++ [p]) := by
    intro l p hl hp q hq
    rcases List.mem_append.1 hq with hq | hq
    · exact hl q hq
    · rw [List.mem_singleton] at hq; subst hq; exact hp
  unfold VDevs.addDevice
  split
  · exact ⟨h1, h2⟩
  · next d hd =>
    split
    · next v hv =>
      refine ⟨?_, fun p hp => h2 p (List.mem_filter.1 hp).1⟩
      simp only []
      split
      · exact h1
      · exact snoc h1 (h2 _ (mem_of_lookup hv))
    · split
      · split
        · exact ⟨h1, h2⟩
        · exact ⟨snoc h1 (fun k hk => by cases hk), h2⟩
      · exact ⟨h1, h2⟩

theorem addDevices_buttons (creates : EvDev → Bool) (l : List GrabbedDesc) (s : VDevs) (prev : List (Nat × VDev))
    (h1 : OnlyButtons s.forward) (h2 : OnlyButtons prev) : OnlyButtons (VDevs.addDevices creates l s prev).1.forward := by
  induction l generalizing s prev with
  | nil => exact h1
  | cons g l ih =>
    have ha := addDevice_buttons creates s prev g h1 h2
    unfold VDevs.addDevices
    split
    · next s' prev' he => rw [he] at ha; exact ih _ _ ha.1 ha.2
    · next s' prev' he => rw [he] at ha; exact ha.1

theorem update_buttons (creates : EvDev → Bool) (l : List GrabbedDesc) (s : VDevs) (h : OnlyButtons s.forward) :
    OnlyButtons (s.updateForwardDevices creates l).1.forward := by
  unfold VDevs.updateForwardDevices
  exact addDevices_buttons creates l _ _ (fun p hp => by cases hp) h

theorem onlyButtons_iff {s : VDevs} (hn : (s.forward.map (·.1)).Nodup) :
    OnlyButtons s.forward ↔ ∀ i k, (s.get (.forward i)).down.contains k = true → isMouseButton k = true := by
  constructor
  · intro h i k hk
    cases hl : s.forward.lookup i with
    | none =>
      have : s.get (.forward i) = {} := by show (s.forward.lookup i).getD {} = _; rw [hl]; rfl
      rw [this] at hk; cases hk
    | some v =>
      have : s.get (.forward i) = v := by show (s.forward.lookup i).getD {} = _; rw [hl]; rfl
      rw [this] at hk
      exact h _ (mem_of_lookup hl) k (List.contains_iff_mem.1 hk)
  · intro h p hp k hk
    have hl := lookup_of_mem hn (i := p.1) (v := p.2) hp
    have : s.get (.forward p.1) = p.2 := by show (s.forward.lookup p.1).getD {} = _; rw [hl]; rfl
    exact h p.1 k (by rw [this]; exact List.contains_iff_mem.2 hk)

theorem deviceFor_keyboard (s : VDevs) {k : Key} (hb : isMouseButton k = false) (hw : isMouseWheel k = false) :
    s.deviceFor k = .keyboard := by
  unfold VDevs.deviceFor
  split
  · rw [hb, hw]; rfl
  · rfl

theorem step_buttons {s : VDevs} (h : VInv s []) (hb : OnlyButtons s.forward) (op : VOp) : OnlyButtons (vStep s op).forward := by
  cases op with
  | key e =>
    have hn : (((vStep s (.key e)).forward).map (·.1)).Nodup := ((VInv.iff _).1 (h.step (.key e))).2.1
    rw [onlyButtons_iff hn]
    rw [onlyButtons_iff ((VInv.iff _).1 h).2.1] at hb
    intro i k hk
    have hk : ((s.sendKeyEvent e).get (.forward i)).down.contains k = true := hk
    rw [sendKeyEvent_down h] at hk
    split at hk
    · next hh =>
      obtain ⟨hd, hw, rfl⟩ := hh
      cases hbb : isMouseButton e.key with
      | true => rfl
      | false => rw [deviceFor_keyboard s hbb hw] at hd; cases hd
    · exact hb i k hk
  | raw dev ev =>
    show OnlyButtons (if (toKeyEvent ev).isSome then s else s.forwardEvent dev ev).forward
    split
    · exact hb
    · unfold VDevs.forwardEvent
      split
      · exact hb
      · simp only []
        split <;> exact hb
  | update creates l => exact update_buttons creates l s hb

theorem run_buttons (ops : List VOp) (s : VDevs) (h : VInv s []) (hb : OnlyButtons s.forward) : OnlyButtons (vRun s ops).forward := by
  induction ops generalizing s with
  | nil => exact hb
  | cons op ops ih => exact ih _ (h.step op) (step_buttons h hb op)

theorem VInv.run {s : VDevs} (h : VInv s []) (ops : List VOp) : VInv (vRun s ops) [] := by
  induction ops generalizing s with
  | nil => exact h
  | cons op ops ih => exact ih (h.step op)

theorem vRun_append (s : VDevs) (a b : List VOp) : vRun s (a ++ b) = vRun (vRun s a) b := by
  simp [vRun, List.foldl_append]

theorem lastPressed_snoc (k : Key) (ops : List VOp) (op : VOp) :
    lastPressed k (ops ++ [op]) = match op with
      | .key e => if e.key = k then decide (e.state ≠ .Up) else lastPressed k ops
      | _ => lastPressed k ops := by
  unfold lastPressed
  rw [List.foldl_append]
  rfl

theorem keyboard_step {s : VDevs} (h : VInv s []) (op : VOp) {k : Key} (hb : isMouseButton k = false) (hw : isMouseWheel k = false) :
    ((vStep s op).get .keyboard).down.contains k = match op with
      | .key e => if e.key = k then decide (e.state ≠ .Up) else (s.get .keyboard).down.contains k
      | _ => (s.get .keyboard).down.contains k := by
  cases op with
  | key e =>
    show ((s.sendKeyEvent e).get .keyboard).down.contains k = _
    rw [sendKeyEvent_down h]
    by_cases hk : e.key = k
    · subst hk
      rw [if_pos ⟨(deviceFor_keyboard s hb hw).symm, hw, rfl⟩]
      simp
    · rw [if_neg (fun hh => hk hh.2.2)]
      simp [hk]
  | raw dev ev =>
    show ((if (toKeyEvent ev).isSome then s else s.forwardEvent dev ev).get .keyboard).down.contains k = _
    split
    · rfl
    · rw [forwardEvent_get]
  | update creates l =>
    show ((s.updateForwardDevices creates l).1.keyboard).down.contains k = _
    rw [update_keyboard]
    rfl

theorem list_snoc_induction {α : Type} {P : List α → Prop} (h0 : P []) (h1 : ∀ l a, P l → P (l ++ [a])) (l : List α) : P l := by
  have : ∀ n (l : List α), l.length = n → P l := by
    intro n
    induction n with
    | zero => intro l hl; rw [List.length_eq_zero_iff.1 hl]; exact h0
    | succ n ih =>
      intro l hl
      rcases List.eq_nil_or_concat l with e | ⟨l', a, e⟩
      · subst e; exact h0
      · rw [List.concat_eq_append] at e
        subst e
        exact h1 l' a (ih l' (by simpa using hl))
  exact this _ l rfl

/-! ## Buttons while one mouse is used -/

/-- The device which is used for buttons does not change while only the same device forwards events. -/
theorem same_mouse_step {s : VDevs} (h : VInv s []) (m : Nat)
    (hm : ∀ d, s.devices[m]? = some d → (s.get d).mouse = true → s.lastMouse = some d) (op : VOp)
    (hop : op.isKey = true ∨ ∃ ev, op = .raw m ev) :
    (vStep s op).lastMouse = s.lastMouse ∧ (vStep s op).devices = s.devices ∧
    ∀ d, ((vStep s op).get d).mouse = (s.get d).mouse := by
  rcases hop with hop | ⟨ev, rfl⟩
  · cases op with
    | key e => exact ⟨(sendKeyEvent_rest s e).1, (sendKeyEvent_rest s e).2.1, sendKeyEvent_mouse h e⟩
    | raw dev ev => cases hop
    | update c l => cases hop
  · show (if (toKeyEvent ev).isSome then s else s.forwardEvent m ev).lastMouse = _ ∧
      (if (toKeyEvent ev).isSome then s else s.forwardEvent m ev).devices = _ ∧
      ∀ d, ((if (toKeyEvent ev).isSome then s else s.forwardEvent m ev).get d).mouse = _
    split
    · exact ⟨rfl, rfl, fun _ => rfl⟩
    · refine ⟨?_, forwardEvent_devices s m ev, fun d => by rw [forwardEvent_get]⟩
      unfold VDevs.forwardEvent
      split
      · rfl
      · next d hd =>
        simp only []
        split
        · next hmm => exact (hm d hd hmm).symm
        · rfl

theorem same_mouse_run {s : VDevs} (h : VInv s []) (m : Nat)
    (hm : ∀ d, s.devices[m]? = some d → (s.get d).mouse = true → s.lastMouse = some d) (ops : List VOp)
    (hop : ∀ op ∈ ops, op.isKey = true ∨ ∃ ev, op = .raw m ev) (k : Key) (hw : isMouseWheel k = false)
    (hup : ∀ d, (s.get d).down.contains k = false) :
    (vRun s ops).lastMouse = s.lastMouse ∧ (vRun s ops).devices = s.devices ∧
    (∀ d, ((vRun s ops).get d).mouse = (s.get d).mouse) ∧
    ∀ d, ((vRun s ops).get d).down.contains k = (decide (d = s.deviceFor k) && lastPressed k ops) := by
  induction ops using list_snoc_induction with
  | h0 =>
    refine ⟨rfl, rfl, fun _ => rfl, fun d => ?_⟩
    rw [show vRun s [] = s from rfl, hup]
    simp [lastPressed]
  | h1 ops op ih =>
    obtain ⟨i1, i2, i3, i4⟩ := ih (fun o ho => hop o (List.mem_append_left _ ho))
    have hv := h.run ops
    have hm' : ∀ d, (vRun s ops).devices[m]? = some d → ((vRun s ops).get d).mouse = true → (vRun s ops).lastMouse = some d := by
      intro d hd hmm
      rw [i2] at hd
      rw [i3] at hmm
      rw [i1]; exact hm d hd hmm
    have hop' := hop op (List.mem_append_right _ List.mem_cons_self)
    obtain ⟨j1, j2, j3⟩ := same_mouse_step hv m hm' op hop'
    have hr : vRun s (ops ++ [op]) = vStep (vRun s ops) op := by rw [vRun_append]; rfl
    rw [hr]
    refine ⟨j1.trans i1, j2.trans i2, fun d => (j3 d).trans (i3 d), fun d => ?_⟩
    rw [lastPressed_snoc]
    have hdev : ∀ k', (vRun s ops).deviceFor k' = s.deviceFor k' := by
      intro k'
      unfold VDevs.deviceFor
      rw [i1]
    cases op with
    | key e =>
      show (((vRun s ops).sendKeyEvent e).get d).down.contains k = _
      rw [sendKeyEvent_down hv, hdev]
      by_cases hk : e.key = k
      · subst hk
        by_cases hd : d = s.deviceFor e.key
        · rw [if_pos ⟨hd, hw, rfl⟩]
          simp [hd]
        · rw [if_neg (fun hh => hd hh.1), i4]
          simp [hd]
      · rw [if_neg (fun hh => hk hh.2.2), i4]
        simp [hk]
    | raw dev ev =>
      show ((if (toKeyEvent ev).isSome then vRun s ops else (vRun s ops).forwardEvent dev ev).get d).down.contains k = _
      split
      · exact i4 d
      · rw [forwardEvent_get]; exact i4 d
    | update c l => rcases hop' with hh | ⟨ev, hh⟩ <;> cases hh

/-- After an event was forwarded, its device is the last active one if it is a mouse. -/
theorem forwarded_last {s : VDevs} (m : Nat) (ev : RawEvent) (hev : (toKeyEvent ev).isSome = false) :
    ∀ d, (vStep s (.raw m ev)).devices[m]? = some d → ((vStep s (.raw m ev)).get d).mouse = true →
      (vStep s (.raw m ev)).lastMouse = some d := by
  have hs : vStep s (.raw m ev) = s.forwardEvent m ev := by
    show (if (toKeyEvent ev).isSome then s else s.forwardEvent m ev) = _
    rw [hev]; rfl
  rw [hs]
  intro d hd hm
  rw [forwardEvent_devices] at hd
  rw [forwardEvent_get] at hm
  unfold VDevs.forwardEvent
  rw [hd]
  simp only []
  rw [if_pos hm]
  rfl

/-! ## The distance of the wheel -/

theorem distance_append (code : Nat) (a b : List VEff) : distance code (a ++ b) = distance code a + distance code b := by
  simp [distance]

/-- The distance of an effect -/
theorem distance_write (code : Nat) (d : VId) (t c : Nat) (v : Int) :
    distance code [.write d ⟨t, c, v⟩] = if t = 2 ∧ c = code then v else 0 := by
  simp [distance]

theorem distance_syn (code : Nat) (d : VId) : distance code [.write d ⟨0, 0, 0⟩] = 0 := by
  rw [distance_write, if_neg (fun hh => absurd hh.1 (by decide))]

theorem distance_lowres (code : Nat) (d : VId) (c : Nat) (v : Int) (h : c ≠ code) : distance code (lowresEvents d c v) = 0 := by
  rcases lowresEvents_cases d c v with ⟨e, -⟩ | ⟨e, -⟩
  · rw [e]; rfl
  · rw [e, distance_write, if_neg (fun hh => h hh.2)]

/-- The distance of what is written for an event -/
theorem distance_sendKeyEvent (code : Nat) (vertical : Bool) (hc : code = if vertical then 11 else 12) (s : VDevs) (e : KeyEvent) :
    distance code (s.sendKeyEvent e).out = distance code s.out + wheelDistance vertical e := by
  unfold VDevs.sendKeyEvent
  simp only []
  show distance code (_ ++ [VEff.write _ ⟨0, 0, 0⟩]) = _
  rw [distance_append, distance_syn, Int.add_zero]
  cases hw : isMouseWheel e.key with
  | false =>
    rw [if_neg (by simp)]
    show distance code ((s.set _ _).out ++ [VEff.write _ ⟨1, e.key, _⟩]) = _
    rw [VDevs.set_out, distance_append, distance_write, if_neg (fun hh => absurd hh.1 (by decide))]
    have hz : wheelDistance vertical e = 0 := by
      unfold isMouseWheel at hw
      have hw' : ¬ (336 ≤ e.key ∧ e.key ≤ 339) := by simpa using hw
      have hw2 : ∀ n : Nat, e.key = n → ¬ (336 ≤ n ∧ n ≤ 339) := fun n hn => hn ▸ hw'
      unfold wheelDistance
      simp only []
      rw [if_neg (fun h => hw2 336 h (by decide)), if_neg (fun h => hw2 337 h (by decide)),
        if_neg (fun h => hw2 339 h (by decide)), if_neg (fun h => hw2 338 h (by decide))]
      simp
    rw [hz]
  | true =>
    rw [if_pos rfl]
    have h := VDevs.sendWheel_eq s (s.deviceFor e.key) e
    simp only [] at h
    rw [h]
    simp only []
    rw [distance_append, distance_append, distance_write, Int.add_assoc]
    congr 1
    have hkey : e.key = 336 ∨ e.key = 337 ∨ e.key = 338 ∨ e.key = 339 := by
      have : 336 ≤ e.key ∧ e.key ≤ 339 := by simpa [isMouseWheel] using hw
      have h2 : ∀ n : Nat, 336 ≤ n ∧ n ≤ 339 → n = 336 ∨ n = 337 ∨ n = 338 ∨ n = 339 := by intro n hn; omega
      exact h2 _ this
    have hl : ∀ b v, distance code (lowresEvents (s.deviceFor e.key) (if b = true then 8 else 6) v) = 0 := by
      intro b v
      refine distance_lowres code _ _ v ?_
      rw [hc]
      cases b <;> cases vertical <;> decide
    rw [hl, Int.add_zero]
    have hval : (if (e.value != 0) = true then (e.value : Int) else 120) = if e.value = 0 then 120 else (e.value : Int) := by
      by_cases hv : e.value = 0 <;> simp [hv]
    rw [hval]
    unfold wheelDistance
    simp only []
    generalize (if e.value = 0 then 120 else (e.value : Int)) = n
    subst hc
    rcases hkey with hk | hk | hk | hk <;> rw [hk] <;> cases vertical <;>
      simp [Key.WheelUp, Key.WheelDown, Key.WheelLeft]

theorem distance_update (code : Nat) (creates : EvDev → Bool) (l : List GrabbedDesc) (s : VDevs) :
    distance code (s.updateForwardDevices creates l).1.out = distance code s.out := by
  have ha : ∀ (s : VDevs) prev g, distance code (s.addDevice creates prev g).1.out = distance code s.out := by
    intro s prev g
    unfold VDevs.addDevice
    split
    · rfl
    · split
      · rfl
      · split
        · split
          · rfl
          · simp only []; rw [distance_append]; simp [distance]
        · rfl
  have hb : ∀ l (s : VDevs) prev, distance code (VDevs.addDevices creates l s prev).1.out = distance code s.out := by
    intro l
    induction l with
    | nil => exact fun s prev => rfl
    | cons g l ih =>
      intro s prev
      have h1 := ha s prev g
      unfold VDevs.addDevices
      split
      · next s' prev' he => rw [he] at h1; rw [ih]; exact h1
      · next s' prev' he => rw [he] at h1; exact h1
  unfold VDevs.updateForwardDevices
  simp only []
  rw [distance_append, hb]
  have hz : ∀ prev : List (Nat × VDev), distance code (prev.map (fun p => VEff.destroy (.forward p.1))) = 0 := by
    intro prev
    induction prev with
    | nil => rfl
    | cons p prev ih =>
      have : (p :: prev).map (fun p => VEff.destroy (.forward p.1)) = [VEff.destroy (.forward p.1)] ++ prev.map (fun p => VEff.destroy (.forward p.1)) := rfl
      rw [this, distance_append, ih]; rfl
  rw [hz]
  simp

/-! ## The virtual device of a grabbed one -/

theorem addDevice_devices (creates : EvDev → Bool) (s : VDevs) (prev : List (Nat × VDev)) (g : GrabbedDesc)
    (h : (s.addDevice creates prev g).2.2 = true) : (s.addDevice creates prev g).1.devices = s.devices ++ [forwardedWith g] := by
  rw [VDevs.addDevice] at h ⊢
  rw [forwardedWith]
  cases hg : g.forward with
  | none => simp only []
  | some d =>
    simp only [hg] at h ⊢
    cases hp : prev.lookup d.eventId with
    | some v => simp only []
    | none =>
      simp only [hp] at h ⊢
      cases hc : creates d with
      | true =>
        cases s.forward.any (fun p => p.1 == d.eventId) <;> rfl
      | false => rw [hc] at h; cases h

theorem addDevices_devices (creates : EvDev → Bool) (l : List GrabbedDesc) (s : VDevs) (prev : List (Nat × VDev))
    (h : (VDevs.addDevices creates l s prev).2.2 = true) :
    (VDevs.addDevices creates l s prev).1.devices = s.devices ++ l.map forwardedWith := by
  induction l generalizing s prev with
  | nil => show s.devices = s.devices ++ []; rw [List.append_nil]
  | cons g l ih =>
    have ha := addDevice_devices creates s prev g
    rw [VDevs.addDevices] at h ⊢
    rcases hb : s.addDevice creates prev g with ⟨s', prev', b⟩
    rw [hb] at h ha
    cases b with
    | false => cases h
    | true =>
      simp only [] at h ⊢
      rw [ih _ _ h, ha rfl, List.map_cons, List.append_assoc]
      rfl

end KM
