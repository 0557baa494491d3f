import Verif.Spec.Capabilities
import Verif.Props.GrabbedDevices
import Verif.Model.KeyName
/-!
# C89: what is sent gets through the virtual devices
-/
namespace KM

/-! ### bits -/

theorem mem_bitCodes (code bits c : Nat) : c ∈ bitCodes code bits ↔ code ≤ c ∧ bits.testBit (c - code) = true := by
  fun_induction bitCodes code bits with
  | case1 code => simp
  | case2 code bits h h1 ih =>
    rw [List.mem_cons, ih]
    constructor
    · rintro (rfl | ⟨h2, h3⟩)
      · refine ⟨Nat.le_refl _, ?_⟩
        rw [Nat.sub_self, Nat.testBit_zero]; simpa using h1
      · refine ⟨by omega, ?_⟩
        rw [show c - code = (c - (code + 1)) + 1 by omega, Nat.testBit_succ]; exact h3
    · intro ⟨h2, h3⟩
      by_cases hc : c = code
      · exact .inl hc
      · right
        refine ⟨by omega, ?_⟩
        rw [show c - code = (c - (code + 1)) + 1 by omega, Nat.testBit_succ] at h3; exact h3
  | case3 code bits h h1 ih =>
    rw [ih]
    constructor
    · intro ⟨h2, h3⟩
      refine ⟨by omega, ?_⟩
      rw [show c - code = (c - (code + 1)) + 1 by omega, Nat.testBit_succ]; exact h3
    · intro ⟨h2, h3⟩
      by_cases hc : c = code
      · subst hc
        rw [Nat.sub_self, Nat.testBit_zero] at h3
        exact absurd (by simpa using h3) h1
      · refine ⟨by omega, ?_⟩
        rw [show c - code = (c - (code + 1)) + 1 by omega, Nat.testBit_succ] at h3; exact h3

private theorem mem_bits (bits c : Nat) : c ∈ bitCodes 0 bits ↔ bits.testBit c = true := by
  rw [mem_bitCodes]; simp

private theorem u64_eq {bits : Nat} (h : bits < 2 ^ 64) : u64 bits = bits := Nat.mod_eq_of_lt h

private theorem bit_ne_zero {bits c : Nat} (h : bits.testBit c = true) : bits ≠ 0 := by
  intro h0; rw [h0] at h; simp at h

private theorem bit_lt {bits c : Nat} (hb : bits < 2 ^ 64) (h : bits.testBit c = true) : c < 64 := by
  by_cases hc : c < 64
  · exact hc
  · exfalso
    have : bits < 2 ^ c := Nat.lt_of_lt_of_le hb (Nat.pow_le_pow_right (by omega) (by omega))
    rw [Nat.testBit_lt_two_pow this] at h
    simp at h

private theorem mem_range {first last c : Nat} : c ∈ codeRange first last ↔ first ≤ c ∧ c ≤ last := by
  unfold codeRange
  rw [List.mem_map]
  constructor
  · rintro ⟨x, hx, rfl⟩
    rw [List.mem_range] at hx
    omega
  · intro ⟨h1, h2⟩
    exact ⟨c - first, List.mem_range.2 (by omega), by omega⟩

/-! ### forward devices -/

private theorem abs_codes (i : DevInfo) (h : i.Valid) : ((bitCodes 0 (u64 i.abs)).map (getDeviceAbsAxis i)).map (·.1) = bitCodes 0 i.abs := by
  rw [u64_eq h.abs, List.map_map]
  have : ∀ c ∈ bitCodes 0 i.abs, ((fun x : Nat × AbsInfo => x.1) ∘ getDeviceAbsAxis i) c = c := by
    intro c hc
    obtain ⟨a, ha⟩ := Option.isSome_iff_exists.1 (h.axes c ((mem_bits _ _).1 hc))
    simp only [Function.comp, getDeviceAbsAxis, ha]
  rw [List.map_congr_left this, List.map_id']

/-- **C89** The forward device of a grabbed device passes on exactly the relative and absolute movements, switches and miscellaneous events which the grabbed device can send. -/
theorem C89_forward (i : DevInfo) (h : i.Valid) (type code : Nat) (ht : type = 2 ∨ type = 3 ∨ type = 4 ∨ type = 5) :
    (forwardAnnounced (deviceDescLinux i)).Passes type code ↔ i.Sends type code := by
  have hrel : code ∈ (forwardAnnounced (deviceDescLinux i)).rels ↔ i.rel.testBit code = true := by
    show code ∈ bitCodes 0 (u64 i.rel) ↔ _
    rw [u64_eq h.rel, mem_bits]
  have hsw : code ∈ (forwardAnnounced (deviceDescLinux i)).sws ↔ i.sw.testBit code = true := by
    show code ∈ bitCodes 0 (u64 i.sw) ↔ _
    rw [u64_eq h.sw, mem_bits]
  have hmsc : code ∈ (forwardAnnounced (deviceDescLinux i)).mscs ↔ i.msc.testBit code = true := by
    show code ∈ bitCodes 0 (u64 i.msc) ↔ _
    rw [u64_eq h.msc, mem_bits]
  have habs : code ∈ (forwardAnnounced (deviceDescLinux i)).abss.map (·.1) ↔ i.abs.testBit code = true := by
    show code ∈ ((bitCodes 0 (u64 i.abs)).map (getDeviceAbsAxis i)).map (·.1) ↔ _
    rw [abs_codes i h, mem_bits]
  have t2 : i.rel.testBit code = true → 2 ∈ (forwardAnnounced (deviceDescLinux i)).types := by
    intro hb
    have : u64 i.rel ≠ 0 := by rw [u64_eq h.rel]; exact bit_ne_zero hb
    simp [forwardAnnounced, deviceDescLinux, this]
  have t5 : i.sw.testBit code = true → 5 ∈ (forwardAnnounced (deviceDescLinux i)).types := by
    intro hb
    have : u64 i.sw ≠ 0 := by rw [u64_eq h.sw]; exact bit_ne_zero hb
    simp [forwardAnnounced, deviceDescLinux, this]
  have t4 : i.msc.testBit code = true → 4 ∈ (forwardAnnounced (deviceDescLinux i)).types := by
    intro hb
    have : u64 i.msc ≠ 0 := by rw [u64_eq h.msc]; exact bit_ne_zero hb
    simp [forwardAnnounced, deviceDescLinux, this]
  have t3 : i.abs.testBit code = true → 3 ∈ (forwardAnnounced (deviceDescLinux i)).types := by
    intro hb
    have : bitCodes 0 (u64 i.abs) ≠ [] := by
      rw [u64_eq h.abs]
      exact List.ne_nil_of_mem ((mem_bits _ _).2 hb)
    simp [forwardAnnounced, deviceDescLinux, this]
  unfold Announced.Passes DevInfo.Sends
  rw [hrel, hsw, hmsc, habs]
  constructor
  · rintro (h0 | ⟨_, h1⟩)
    · omega
    · rcases h1 with ⟨h2, _⟩ | h1
      · omega
      · exact .inr h1
  · rintro (⟨h2, _⟩ | ⟨rfl, h1⟩ | ⟨rfl, h1⟩ | ⟨rfl, h1⟩ | ⟨rfl, h1⟩)
    · omega
    · exact .inr ⟨t2 h1, .inr (.inl ⟨rfl, h1⟩)⟩
    · exact .inr ⟨t3 h1, .inr (.inr (.inl ⟨rfl, h1⟩))⟩
    · exact .inr ⟨t5 h1, .inr (.inr (.inr (.inl ⟨rfl, h1⟩)))⟩
    · exact .inr ⟨t4 h1, .inr (.inr (.inr (.inr ⟨rfl, h1⟩)))⟩

private theorem forward_keys_eq (i : DevInfo) : (forwardAnnounced (deviceDescLinux i)).keys = getDeviceKeys i := by
  generalize hk : getDeviceKeys i = l
  unfold forwardAnnounced deviceDescLinux
  simp only [hk]

private theorem key_type (d : DeviceDescLinux) {code : Nat} (h : code ∈ (forwardAnnounced d).keys) : 1 ∈ (forwardAnnounced d).types := by
  have : d.keys ≠ [] := List.ne_nil_of_mem h
  simp [forwardAnnounced, this]

/-- **C89** The keys of a forward device are the ones of the grabbed device, as far as their code is less than 512. -/
theorem C89_forward_keys (i : DevInfo) (code : Nat) : (forwardAnnounced (deviceDescLinux i)).Passes 1 code ↔ code < 512 ∧ i.Sends 1 code := by
  have hkey : code ∈ (forwardAnnounced (deviceDescLinux i)).keys ↔ code < 512 ∧ i.key.testBit code = true := by
    rw [forward_keys_eq]
    unfold getDeviceKeys
    rw [List.mem_filter, List.mem_range]
  have t1 : code ∈ (forwardAnnounced (deviceDescLinux i)).keys → 1 ∈ (forwardAnnounced (deviceDescLinux i)).types := key_type _
  unfold Announced.Passes DevInfo.Sends
  rw [hkey] at t1
  rw [hkey]
  constructor
  · rintro (h0 | ⟨_, h1⟩)
    · omega
    · rcases h1 with ⟨_, h2⟩ | ⟨h2, _⟩ | ⟨h2, _⟩ | ⟨h2, _⟩ | ⟨h2, _⟩
      · exact ⟨h2.1, .inl ⟨rfl, h2.2⟩⟩
      all_goals omega
  · rintro ⟨h1, h2⟩
    rcases h2 with ⟨_, h2⟩ | ⟨h2, _⟩ | ⟨h2, _⟩ | ⟨h2, _⟩ | ⟨h2, _⟩
    · exact .inr ⟨t1 ⟨h1, h2⟩, .inl ⟨rfl, h1, h2⟩⟩
    all_goals omega

/-- **C89** A forward device has the identity, the properties and the ranges of the axes of the grabbed device. -/
theorem C89_forward_identity (i : DevInfo) (h : i.Valid) :
    (forwardAnnounced (deviceDescLinux i)).vendor = i.vendor ∧ (forwardAnnounced (deviceDescLinux i)).product = i.product ∧
    (forwardAnnounced (deviceDescLinux i)).versionId = i.versionId ∧
    (∀ p, p ∈ (forwardAnnounced (deviceDescLinux i)).props ↔ i.prop.testBit p = true) ∧
    ∀ c a, (c, a) ∈ (forwardAnnounced (deviceDescLinux i)).abss ↔ i.abs.testBit c = true ∧ i.absInfo.lookup c = some a := by
  refine ⟨rfl, rfl, rfl, ?_, ?_⟩
  · intro p
    show p ∈ bitCodes 0 (u64 i.prop) ↔ _
    rw [u64_eq h.prop, mem_bits]
  · intro c a
    show (c, a) ∈ (bitCodes 0 (u64 i.abs)).map (getDeviceAbsAxis i) ↔ _
    rw [u64_eq h.abs, List.mem_map]
    constructor
    · rintro ⟨d, hd, he⟩
      have hd := (mem_bits _ _).1 hd
      obtain ⟨b, hb⟩ := Option.isSome_iff_exists.1 (h.axes d hd)
      simp only [getDeviceAbsAxis, hb, Prod.mk.injEq] at he
      obtain ⟨rfl, rfl⟩ := he
      exact ⟨hd, hb⟩
    · rintro ⟨h1, h2⟩
      exact ⟨c, (mem_bits _ _).2 h1, by simp only [getDeviceAbsAxis, h2]⟩

/-! ### the virtual keyboard -/

private theorem keyboard_key (k : Nat) : keyboardAnnounced.Passes 1 k ↔ 1 ≤ k ∧ k < 512 := by
  have hk : k ∈ keyboardAnnounced.keys ↔ 1 ≤ k ∧ k < 512 := by
    show k ∈ codeRange 1 511 ++ codeRange 0x110 0x117 ↔ _
    rw [List.mem_append, mem_range, mem_range]
    omega
  unfold Announced.Passes
  rw [hk]
  constructor
  · rintro (h0 | ⟨_, h1⟩)
    · omega
    · rcases h1 with ⟨_, h2⟩ | ⟨h2, _⟩ | ⟨h2, _⟩ | ⟨h2, _⟩ | ⟨h2, _⟩
      · exact h2
      all_goals omega
  · intro h
    exact .inr ⟨by decide, .inl ⟨rfl, h⟩⟩

/-- **C89** Each key with a name, and each mouse button and wheel, can be sent by the virtual keyboard. -/
theorem C89_named (k : Key) (name : Str) (hn : getKeyName k = some name) (hd : isDeviceKey k = true) :
    (isMouseWheel k = false → keyboardAnnounced.Passes 1 k) ∧ (isMouseWheel k = true → keyboardAnnounced.Passes 2 8 ∧ keyboardAnnounced.Passes 2 6 ∧
      keyboardAnnounced.Passes 2 11 ∧ keyboardAnnounced.Passes 2 12) := by
  refine ⟨fun _ => ?_, fun _ => by decide⟩
  rw [keyboard_key]
  have hall : ∀ p ∈ keyNameTable, isDeviceKey p.1 = true → 1 ≤ p.1 ∧ p.1 < 512 := by decide +kernel
  unfold getKeyName at hn
  obtain ⟨p, hp, _⟩ := Option.map_eq_some_iff.1 hn
  have h1 := List.mem_of_find?_eq_some hp
  have h2 : p.1 = k := by simpa using List.find?_some hp
  rw [← h2]
  exact hall p h1 (by rw [h2]; exact hd)

/-! ### what gets through -/

/-- what a grabbed device without a forward device sends besides keys and wheel: only the axes for volume and miscellaneous things -/
def DevInfo.PlainKeyboard (i : DevInfo) : Prop := ∀ type code, i.Sends type code → type = 1 ∨ (type = 2 ∧ (code = 8 ∨ code = 6 ∨ code = 11 ∨ code = 12)) ∨ (type = 3 ∧ (code = 32 ∨ code = 40))

private theorem convert_same (d : EvDev) (ev : RawEvent) (h : toKeyEvent (convertEvent d ev) = none) :
    (convertEvent d ev).type = ev.type ∧ (convertEvent d ev).code = ev.code := by
  unfold convertEvent at *
  split
  · split
    · exact ⟨rfl, rfl⟩
    · split <;> exact ⟨rfl, rfl⟩
  · next h3 =>
    split
    · next h2 =>
      split
      · next hw =>
        rw [if_neg h3, if_pos h2, if_pos hw] at h
        have : ev.type = 2 := by simpa using h2
        simp [toKeyEvent, this] at h
        split at h <;> simp at h
      · next hw =>
        split
        · next hw2 =>
          rw [if_neg h3, if_pos h2, if_neg hw, if_pos hw2] at h
          have : ev.type = 2 := by simpa using h2
          simp [toKeyEvent, this] at h
          split at h <;> simp at h
        · exact ⟨rfl, rfl⟩
    · exact ⟨rfl, rfl⟩

private theorem not_key (ev : RawEvent) (h : toKeyEvent ev = none) : ev.type ≠ 1 ∧ ¬ (ev.type = 2 ∧ (ev.code = 8 ∨ ev.code = 6 ∨ ev.code = 11 ∨ ev.code = 12)) := by
  unfold toKeyEvent at h
  constructor
  · intro h1; simp [h1] at h
  · rintro ⟨h1, h2⟩
    rcases h2 with h2 | h2 | h2 | h2
    · simp [h1, h2] at h
    · simp [h1, h2] at h
    · simp [h1, h2] at h
      split at h <;> simp at h
    · simp [h1, h2] at h
      split at h <;> simp at h

/-- **C89** An event of a grabbed device which is not a key or wheel event is passed on: it is written to the virtual device of the grabbed device, which announced such events. Devices
without a forward device must not send anything else than keys, the wheel, and the axes for volume and miscellaneous things. -/
theorem C89_forwarded (hw : Nat → Hardware) (hid : ∀ n, (hw n).eventId = n) (hv : ∀ n, (hw n).info.Valid) (s : VDevs) (creates : EvDev → Bool)
    (ids : List Nat) (hs : (s.updateForwardDevices creates (grabbedDescs (ids.map (fun n => ({ dev := (hw n).evDev } : Grabbed))))).2 = true)
    (dev n : Nat) (hdev : ids[dev]? = some n) (ev : RawEvent) (hsend : (hw n).info.Sends ev.type ev.code)
    (hkey : toKeyEvent (convertEvent (hw n).evDev ev) = none)
    (hplain : (hw n).info.rel.testBit 0 = false → (hw n).info.rel.testBit 1 = false → hasUncommonAbsAxes (hw n).info = false → (hw n).info.PlainKeyboard) :
    ∃ d, (((s.updateForwardDevices creates (grabbedDescs (ids.map (fun n => ({ dev := (hw n).evDev } : Grabbed))))).1).forwardEvent dev (convertEvent (hw n).evDev ev)).out =
        (s.updateForwardDevices creates (grabbedDescs (ids.map (fun n => ({ dev := (hw n).evDev } : Grabbed))))).1.out ++ [.write d (convertEvent (hw n).evDev ev)] ∧
      (announcedBy hw d).Passes (convertEvent (hw n).evDev ev).type (convertEvent (hw n).evDev ev).code := by
  have hd := (C56_forwarded_with s creates _ hs).1
  generalize (s.updateForwardDevices creates (grabbedDescs (ids.map (fun n => ({ dev := (hw n).evDev } : Grabbed))))).1 = t at hd ⊢
  have hget : t.devices[dev]? = some (forwardedWith (grabbedDesc { dev := (hw n).evDev })) := by
    rw [hd, grabbedDescs, List.getElem?_map, List.getElem?_map, List.getElem?_map, hdev]; rfl
  obtain ⟨e1, e2⟩ := convert_same _ _ hkey
  obtain ⟨k1, k2⟩ := not_key _ hkey
  refine ⟨forwardedWith (grabbedDesc { dev := (hw n).evDev }), ?_, ?_⟩
  · unfold VDevs.forwardEvent
    rw [hget]
    simp only
    split <;> rfl
  · rw [e1, e2] at *
    unfold forwardedWith grabbedDesc
    simp only
    by_cases hf : ((hw n).evDev.mouseAxes || (hw n).evDev.uncommonAbs) = true
    · rw [if_pos hf]
      simp only [announcedBy]
      have : (hw n).evDev.eventId = n := hid n
      rw [this, C89_forward _ (hv n)]
      · exact hsend
      · rcases hsend with h | h | h | h | h <;> omega
    · rw [if_neg hf]
      simp only [announcedBy]
      simp only [EvDev.mouseAxes, Hardware.evDev, Bool.or_eq_true, not_or, Bool.not_eq_true] at hf
      rcases hplain hf.1.1 hf.1.2 hf.2 _ _ hsend with h | h | ⟨h1, h2⟩
      · exact absurd h k1
      · exact absurd h k2
      · rw [h1]
        rcases h2 with h2 | h2 <;> rw [h2] <;> decide

/-- the effects which get through -/
def VEff.Passes (hw : Nat → Hardware) : VEff → Prop
  | .write d ev => (announcedBy hw d).Passes ev.type ev.code
  | _ => True

/-- **C89** What is written for a key is passed on: keys which are sent with the virtual keyboard and have a code less than 512; mouse buttons and wheel events when they are sent with the
virtual keyboard or with the forward device of a mouse which has the button (or the wheel and its high resolution). -/
theorem C89_sent (hw : Nat → Hardware) (hv : ∀ n, (hw n).info.Valid) (s : VDevs) (e : KeyEvent) (h0 : 1 ≤ e.key) (h512 : e.key < 512)
    (hm : ∀ n, s.deviceFor e.key = .forward n →
      (isMouseButton e.key = true → (hw n).info.Sends 1 e.key) ∧
      (isMouseWheel e.key = true → (hw n).info.Sends 2 8 ∧ (hw n).info.Sends 2 6 ∧ (hw n).info.Sends 2 11 ∧ (hw n).info.Sends 2 12)) :
    ∃ l, (s.sendKeyEvent e).out = s.out ++ l ∧ l ≠ [] ∧ ∀ x ∈ l, x.Passes hw := by
  have hsyn : ∀ d, (announcedBy hw d).Passes 0 0 := fun d => .inl rfl
  unfold VDevs.sendKeyEvent
  simp only []
  generalize hdd : s.deviceFor e.key = d at hm
  split
  · next hwheel =>
    have hp : (announcedBy hw d).Passes 2 8 ∧ (announcedBy hw d).Passes 2 6 ∧ (announcedBy hw d).Passes 2 11 ∧ (announcedBy hw d).Passes 2 12 := by
      cases d with
      | keyboard => simp only [announcedBy]; decide
      | forward n =>
        obtain ⟨a, b, c, g⟩ := (hm n rfl).2 hwheel
        simp only [announcedBy]
        exact ⟨(C89_forward _ (hv n) 2 8 (.inl rfl)).2 a, (C89_forward _ (hv n) 2 6 (.inl rfl)).2 b, (C89_forward _ (hv n) 2 11 (.inl rfl)).2 c,
          (C89_forward _ (hv n) 2 12 (.inl rfl)).2 g⟩
    have h1 : ∀ b : Bool, (announcedBy hw d).Passes 2 (if b = true then 11 else 12) := by intro b; cases b <;> simp [hp]
    have h2 : ∀ b : Bool, (announcedBy hw d).Passes 2 (if b = true then 8 else 6) := by intro b; cases b <;> simp [hp]
    unfold VDevs.sendWheel
    simp only []
    generalize (e.key == Key.WheelUp || e.key == Key.WheelDown) = vertical
    generalize (if (e.value != 0) = true then (e.value : Int) else 120) * _ = value
    generalize ((s.sendEvent d EV_REL (if vertical = true then REL_WHEEL_HI_RES else REL_HWHEEL_HI_RES) value).get d).updateLowresWheel vertical value = r
    split
    · refine ⟨[.write d ⟨2, if vertical = true then 11 else 12, value⟩, .write d ⟨2, if vertical = true then 8 else 6, r.2⟩, .write d ⟨0, 0, 0⟩], ?_, by simp, ?_⟩
      · simp [VDevs.sendEvent, List.append_assoc]
      · intro x hx
        rcases List.mem_cons.1 hx with rfl | hx
        · exact h1 vertical
        · rcases List.mem_cons.1 hx with rfl | hx
          · exact h2 vertical
          · rw [List.mem_singleton.1 hx]; exact hsyn d
    · refine ⟨[.write d ⟨2, if vertical = true then 11 else 12, value⟩, .write d ⟨0, 0, 0⟩], ?_, by simp, ?_⟩
      · simp [VDevs.sendEvent, List.append_assoc]
      · intro x hx
        rcases List.mem_cons.1 hx with rfl | hx
        · exact h1 vertical
        · rw [List.mem_singleton.1 hx]; exact hsyn d
  · next hwheel =>
    refine ⟨[.write d ⟨1, e.key, ((s.get d).updateKeyState e).2⟩, .write d ⟨0, 0, 0⟩], ?_, by simp, ?_⟩
    · simp [VDevs.sendKey, VDevs.sendEvent, List.append_assoc]
    · intro x hx
      rcases List.mem_cons.1 hx with rfl | hx
      · simp only [VEff.Passes]
        cases d with
        | keyboard => simp only [announcedBy]; exact (keyboard_key e.key).2 ⟨h0, h512⟩
        | forward n =>
          simp only [announcedBy]
          refine (C89_forward_keys _ _).2 ⟨h512, ?_⟩
          unfold VDevs.deviceFor at hdd
          split at hdd
          · split at hdd
            · next hb => exact (hm n rfl).1 (by simpa [hwheel] using hb)
            · cases hdd
          · cases hdd
      · rw [List.mem_singleton.1 hx]; exact hsyn d

/-! ### which devices are grabbed -/

/-- **C89** A device with 32 keys (with codes less than 512) is grabbed unless a filter says otherwise, also when it has mouse axes. -/
theorem C89_keyboard_grabbed (rx : Regex) (grabMice : Bool) (h : Hardware) (ho : h.opens = true) (hv : h.info.version = some EV_VERSION)
    (hev : h.info.ev.testBit 0 = true ∧ h.info.ev.testBit 1 = true) (hname : ∀ pre, h.name ≠ pre ++ "keymapper".toList)
    (keys : List Nat) (hk : keys.Nodup) (h32 : 32 ≤ keys.length) (hs : ∀ k ∈ keys, k < 512 ∧ h.info.Sends 1 k) :
    isWanted rx [] grabMice h.evDev = true := by
  rw [C56_default rx grabMice h.evDev ho (by simp [Hardware.evDev, isSupportedDevice, hv, hev]) hname]
  left
  have hnum : h.evDev.numKeys = (getDeviceKeys h.info).length := by simp only [Hardware.evDev, getNumKeys]
  rw [hnum]
  refine Nat.le_trans h32 (hk.length_le_of_subset ?_)
  intro k hkm
  obtain ⟨h1, h2⟩ := hs k hkm
  unfold getDeviceKeys
  refine List.mem_filter.2 ⟨List.mem_range.2 h1, ?_⟩
  rcases h2 with ⟨_, h2⟩ | ⟨h2, _⟩ | ⟨h2, _⟩ | ⟨h2, _⟩ | ⟨h2, _⟩
  · exact h2
  all_goals omega

/-! ### examples -/

set_option exponentiation.threshold 600

namespace C89ex

/-- a mouse with three buttons, a wheel, and scan codes -/
def mouse : Hardware := ⟨1, "M".toList, [], true, true, { key := 7 * 2 ^ 272, rel := 2 ^ 0 + 2 ^ 1 + 2 ^ 8 + 2 ^ 11, msc := 2 ^ 4, vendor := 0x46d, product := 0xc077 }⟩

/-- a keyboard with 100 keys, a dial and a switch -/
def keyboard : Hardware := ⟨0, "K".toList, [], true, true, { key := 2 ^ 100 - 2 + 2 ^ 0x201, rel := 2 ^ 7, sw := 2 ^ 1 }⟩

/-- a keyboard with a knob for the volume -/
def plain : Hardware := ⟨2, "P".toList, [], true, true, { key := 2 ^ 100 - 2, abs := 2 ^ 32, absInfo := [(32, { maximum := 255 })] }⟩

def hw (n : Nat) : Hardware := if n = 0 then keyboard else if n = 1 then mouse else { plain with eventId := n }

def devices : VDevs := (({} : VDevs).updateForwardDevices (fun _ => true) (grabbedDescs ([0, 1, 2].map (fun n => ({ dev := (hw n).evDev } : Grabbed))))).1

example : ∀ n, (hw n).eventId = n := by intro n; unfold hw; split; · simp_all [keyboard]
                                        split <;> simp_all [mouse]
example : mouse.info.Valid := ⟨by decide, by decide, by decide, by decide, by decide, by intro c h; simp [mouse] at h⟩
example : keyboard.info.Valid := ⟨by decide, by decide, by decide, by decide, by decide, by intro c h; simp [keyboard] at h⟩
example : plain.info.Valid := ⟨by decide, by decide, by decide, by decide, by decide, by
  intro c h
  have h1 : (2 ^ 32).testBit c = true := h
  rw [Nat.testBit_two_pow] at h1
  have : c = 32 := (of_decide_eq_true h1).symm
  subst this; rfl⟩
example : plain.info.PlainKeyboard := by
  intro t c h
  simp only [plain, DevInfo.Sends, Nat.zero_testBit, Nat.testBit_two_pow, Bool.false_eq_true, and_false, or_false, false_or] at h
  rcases h with h | ⟨h, h2⟩
  · exact .inl h.1
  · exact .inr (.inr ⟨h, .inl ((of_decide_eq_true h2).symm)⟩)
example : (({} : VDevs).updateForwardDevices (fun _ => true) (grabbedDescs ([0, 1, 2].map (fun n => ({ dev := (hw n).evDev } : Grabbed))))).2 = true ∧
    (devices.forwardEvent 1 ⟨2, 0, 5⟩).out = devices.out ++ [.write (.forward 1) ⟨2, 0, 5⟩] ∧ (announcedBy hw (.forward 1)).Passes 2 0 ∧
    (devices.forwardEvent 2 (convertEvent plain.evDev ⟨3, 32, 255⟩)).out = devices.out ++ [.write .keyboard ⟨3, 32, 1023⟩] := by decide +kernel
example : (C89ex.devices.forwardEvent 1 ⟨2, 0, 5⟩).deviceFor Key.ButtonLeft = .forward 1 ∧ mouse.info.Sends 1 Key.ButtonLeft ∧
    ((C89ex.devices.forwardEvent 1 ⟨2, 0, 5⟩).sendKeyEvent ⟨Key.ButtonLeft, .Down, 0⟩).out =
      (C89ex.devices.forwardEvent 1 ⟨2, 0, 5⟩).out ++ [.write (.forward 1) ⟨1, 272, 1⟩, .write (.forward 1) ⟨0, 0, 0⟩] := by decide +kernel
example : plain.opens = true ∧ plain.info.version = some EV_VERSION ∧ (List.range' 1 99).Nodup ∧ 32 ≤ (List.range' 1 99).length ∧
    ∀ k ∈ List.range' 1 99, k < 512 ∧ plain.info.Sends 1 k := by decide +kernel

end C89ex

/-- A mouse button which is the output of a mapping is sent with the mouse which was moved last; when this does not have the button, then the button is lost. -/
theorem C89_button_counterexample :
    ((C89ex.devices.forwardEvent 1 ⟨2, 0, 5⟩).sendKeyEvent ⟨Key.ButtonForward, .Down, 0⟩).out =
      (C89ex.devices.forwardEvent 1 ⟨2, 0, 5⟩).out ++ [.write (.forward 1) ⟨1, 276, 1⟩, .write (.forward 1) ⟨0, 0, 0⟩] ∧
    ¬ (announcedBy C89ex.hw (.forward 1)).Passes 1 276 ∧ (announcedBy C89ex.hw .keyboard).Passes 1 276 := by decide +kernel

/-- The same for the horizontal wheel. -/
theorem C89_wheel_counterexample :
    ((C89ex.devices.forwardEvent 1 ⟨2, 0, 5⟩).sendKeyEvent ⟨Key.WheelLeft, .Down, 0⟩).out =
      (C89ex.devices.forwardEvent 1 ⟨2, 0, 5⟩).out ++ [.write (.forward 1) ⟨2, 12, -120⟩, .write (.forward 1) ⟨2, 6, -1⟩, .write (.forward 1) ⟨0, 0, 0⟩] ∧
    ¬ (announcedBy C89ex.hw (.forward 1)).Passes 2 12 ∧ ¬ (announcedBy C89ex.hw (.forward 1)).Passes 2 6 := by decide +kernel

/-- A keyboard with many keys is grabbed even if it has switches or a dial, but their events are lost. -/
theorem C89_keyboard_counterexample (rx : Regex) :
    isWanted rx [] false C89ex.keyboard.evDev = true ∧ C89ex.keyboard.info.Sends 5 1 ∧ C89ex.keyboard.info.Sends 2 7 ∧
    (C89ex.devices.forwardEvent 0 (convertEvent C89ex.keyboard.evDev ⟨5, 1, 1⟩)).out = C89ex.devices.out ++ [.write .keyboard ⟨5, 1, 1⟩] ∧
    (C89ex.devices.forwardEvent 0 (convertEvent C89ex.keyboard.evDev ⟨2, 7, 1⟩)).out = C89ex.devices.out ++ [.write .keyboard ⟨2, 7, 1⟩] ∧
    ¬ (announcedBy C89ex.hw .keyboard).Passes 5 1 ∧ ¬ (announcedBy C89ex.hw .keyboard).Passes 2 7 := by
  refine ⟨?_, by decide +kernel⟩
  rw [C56_default rx false C89ex.keyboard.evDev rfl (by decide +kernel)]
  · left; decide +kernel
  · intro pre h
    have h1 := congrArg List.length h
    have h2 : C89ex.keyboard.evDev.name.length = 1 := rfl
    rw [h2, List.length_append] at h1
    have h3 : "keymapper".toList.length = 9 := rfl
    omega

/-- A key of a grabbed keyboard with a code from 512 is lost, though nothing is mapped. -/
theorem C89_key_counterexample : C89ex.keyboard.info.Sends 1 0x201 ∧ toKeyEvent ⟨1, 0x201, 1⟩ = some ⟨0x201, .Down, 0⟩ ∧
    (C89ex.devices.sendKeyEvent ⟨0x201, .Down, 0⟩).out = C89ex.devices.out ++ [.write .keyboard ⟨1, 0x201, 1⟩, .write .keyboard ⟨0, 0, 0⟩] ∧
    ¬ (announcedBy C89ex.hw .keyboard).Passes 1 0x201 := by decide +kernel

end KM
