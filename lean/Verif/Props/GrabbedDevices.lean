import Verif.Lemmas.GrabbedDevices
import Verif.Lemmas.VirtualDeviceKeys
/-!
# Which devices are grabbed and what is read from them (C55, C56, C57)
-/
namespace KM

/-- The grabbed devices after the device list was updated several times -/
def grabRun (rx : Regex) (filters : List GrabDeviceFilter) (grabMice : Bool) (updates : List (List EvDev)) : List Grabbed :=
  updates.foldl (fun l devs => grabUpdate rx filters grabMice devs l) []

/-! ## C55: the own virtual devices are not grabbed -/

theorem endsWith_append (pre suffix : Str) : endsWith (pre ++ suffix) suffix = true := by
  unfold endsWith
  simp

theorem grabbed_not_virtual (rx : Regex) (filters : List GrabDeviceFilter) (grabMice : Bool) (devs : List EvDev) (l : List Grabbed)
    (h : ∀ g ∈ l, isVirtualDevice g.dev.name = false) : ∀ g ∈ grabUpdate rx filters grabMice devs l, isVirtualDevice g.dev.name = false := by
  have hfound : ∀ (l : List Grabbed) (d : EvDev), isVirtualDevice d.name = false → (∀ g ∈ l, isVirtualDevice g.dev.name = false) →
      ∀ g ∈ grabFound l d, isVirtualDevice g.dev.name = false := by
    intro l d hd hl
    have hmod : ∀ (p : Grabbed → Bool) (l : List Grabbed), (∀ g ∈ l, isVirtualDevice g.dev.name = false) →
        ∀ g ∈ modFirst p (fun g => { g with disappeared := false }) l, isVirtualDevice g.dev.name = false := by
      intro p l
      induction l with
      | nil => exact fun _ g hg => by cases hg
      | cons x l ih =>
        intro hl g hg
        rw [modFirst] at hg
        split at hg
        · rcases List.mem_cons.1 hg with hg | hg
          · subst hg; exact hl x List.mem_cons_self
          · exact hl g (List.mem_cons_of_mem _ hg)
        · rcases List.mem_cons.1 hg with hg | hg
          · subst hg; exact hl g List.mem_cons_self
          · exact ih (fun g hg => hl g (List.mem_cons_of_mem _ hg)) g hg
    unfold grabFound
    split
    · exact hmod _ l hl
    · split
      · intro g hg
        rcases List.mem_append.1 hg with hg | hg
        · exact hl g hg
        · rw [List.mem_singleton] at hg; subst hg; exact hd
      · exact hl
  have hnew : ∀ (devs : List EvDev) (l : List Grabbed), (∀ g ∈ l, isVirtualDevice g.dev.name = false) →
      ∀ g ∈ grabNew rx filters grabMice devs l, isVirtualDevice g.dev.name = false := by
    intro devs
    induction devs with
    | nil => exact fun l hl => hl
    | cons d devs ih =>
      intro l hl
      show ∀ g ∈ grabNew rx filters grabMice devs (if isWanted rx filters grabMice d then grabFound l d else l), _
      refine ih _ ?_
      split
      · next hw =>
        refine hfound l d ?_ hl
        unfold isWanted at hw
        simp only [Bool.and_eq_true, Bool.not_eq_true'] at hw
        exact hw.1.2
      · exact hl
  intro g hg
  unfold grabUpdate at hg
  refine hnew devs _ ?_ g (List.mem_filter.1 hg).1
  intro g' hg'
  obtain ⟨g'', hg'', rfl⟩ := List.mem_map.1 hg'
  exact h g'' hg''

/-- **C55**: whatever devices come and go, no device is grabbed whose name ends with "keymapper". -/
theorem C55_not_grabbed (rx : Regex) (filters : List GrabDeviceFilter) (grabMice : Bool) (updates : List (List EvDev)) (pre : Str) :
    ∀ g ∈ grabRun rx filters grabMice updates, g.dev.name ≠ pre ++ "keymapper".toList := by
  have h : ∀ g ∈ grabRun rx filters grabMice updates, isVirtualDevice g.dev.name = false := by
    unfold grabRun
    have : ∀ (updates : List (List EvDev)) (l : List Grabbed), (∀ g ∈ l, isVirtualDevice g.dev.name = false) →
        ∀ g ∈ updates.foldl (fun l devs => grabUpdate rx filters grabMice devs l) l, isVirtualDevice g.dev.name = false := by
      intro updates
      induction updates with
      | nil => exact fun l hl => hl
      | cons devs updates ih => exact fun l hl => ih _ (grabbed_not_virtual rx filters grabMice devs l hl)
    exact this updates [] (fun g hg => by cases hg)
  intro g hg he
  have := h g hg
  rw [he] at this
  have h2 : isVirtualDevice (pre ++ "keymapper".toList) = true := endsWith_append _ _
  rw [h2] at this
  cases this

/-- **C55**: the name of the forward device of a device whose name has at most 68 characters ends with
"keymapper", as does the name of the virtual keyboard. -/
theorem C55_own_names (name : Str) (h : name.length ≤ 68) : forwardDeviceName name = name ++ "; keymapper".toList := by
  unfold forwardDeviceName
  have : (name ++ "; ".toList ++ virtualDevicesName) = name ++ "; keymapper".toList := by
    rw [List.append_assoc]; rfl
  rw [this]
  refine List.take_of_length_le ?_
  rw [List.length_append]
  have h2 : "; keymapper".toList.length = 11 := rfl
  have h3 : UINPUT_MAX_NAME_SIZE = 80 := rfl
  omega

/-- A device with a long name (69 characters) -/
def longNamed : EvDev := { eventId := 3, name := List.replicate 69 'x', numKeys := 100, relX := true }
/-- Its forward device, as it is found when the devices are updated -/
def longForward : EvDev := { longNamed with eventId := 4, name := forwardDeviceName longNamed.name }

/-- **C55** is false for longer names: they are cut off at 79 characters, so that the end of the name
is missing, and the forward device is grabbed. Its forward device has the same name, and so on. -/
theorem C55_long_name_counterexample :
    (grabRun (fun _ _ => false) [] false [[longNamed], [longNamed, longForward]]).map (·.dev) = [longNamed, longForward] ∧
    forwardDeviceName longForward.name = longForward.name := by
  decide +kernel

/-- Two keyboards are grabbed, the virtual keyboard is not. -/
example : (grabRun (fun _ _ => false) [] false [[{ eventId := 0, name := "A".toList, numKeys := 100 },
      { eventId := 1, name := "keymapper".toList, numKeys := 300 }, { eventId := 2, name := "B".toList, numKeys := 40 }]]).map
    (·.dev.eventId) = [0, 2] := by decide +kernel

/-! ## C56: the grabbed devices are the wanted ones, in a stable order -/

/-- **C56** (which devices are wanted without filters): the ones with at least 32 keys, mice when mice
are to be grabbed, and others with some key which have neither absolute axes (but volume and
miscellaneous ones) nor switches. -/
theorem C56_default (rx : Regex) (grabMice : Bool) (d : EvDev) (ho : d.opens = true) (hs : d.supported = true)
    (hv : ∀ pre, d.name ≠ pre ++ "keymapper".toList) :
    isWanted rx [] grabMice d = true ↔
      32 ≤ d.numKeys ∨
      (0 < d.numKeys ∧ (d.relX = true ∨ d.relY = true) ∧ grabMice = true) ∨
      (0 < d.numKeys ∧ d.relX = false ∧ d.relY = false ∧ d.uncommonAbs = false ∧ d.switches = false) := by
  have hvirt : isVirtualDevice d.name = false := by
    rw [Bool.eq_false_iff]
    intro hh
    unfold isVirtualDevice endsWith at hh
    rw [Bool.and_eq_true, beq_iff_eq] at hh
    refine hv (d.name.take (d.name.length - virtualDevicesName.length)) ?_
    show d.name = _ ++ virtualDevicesName
    conv => rhs; rhs; rw [← hh.2]
    exact (List.take_append_drop _ _).symm
  unfold isWanted evaluateGrabFilters isGrabbedByDefault EvDev.mouseAxes
  rw [ho, hs, hvirt]
  simp only [List.foldl_nil, Bool.not_false, Bool.and_self, Bool.true_and]
  by_cases h0 : d.numKeys = 0
  · rw [h0]; simp
  · have h0' : (d.numKeys == 0) = false := beq_eq_false_iff_ne.2 h0
    have hpos : 0 < d.numKeys := Nat.pos_of_ne_zero h0
    rw [h0']
    by_cases h32 : 32 ≤ d.numKeys
    · simp [h32]
    · cases d.relX <;> cases d.relY <;> cases d.uncommonAbs <;> cases d.switches <;> cases grabMice <;> simp [h32, hpos]

/-- **C56**: after an update of the device list the grabbed devices are the ones which were grabbed before
and are still wanted, in the same order, followed by the new ones which are wanted and can be grabbed.
So the number of a device only changes when one before it disappears. -/
theorem C56_update (rx : Regex) (filters : List GrabDeviceFilter) (grabMice : Bool) (l : List Grabbed)
    (hl : (l.map (fun g => g.dev.eventId)).Nodup) (devs : List EvDev) (hd : (devs.map (·.eventId)).Nodup) :
    (grabUpdate rx filters grabMice devs l).map (·.dev) =
      (l.map (·.dev)).filter (fun g => devs.any (fun d => isWanted rx filters grabMice d && d.eventId == g.eventId)) ++
      devs.filter (fun d => isWanted rx filters grabMice d && d.grabs && !(l.map (·.dev.eventId)).contains d.eventId) := by
  rw [grabUpdate_eq rx filters grabMice l hl devs hd, List.map_append]
  congr 1
  · rw [List.map_map]
    have : ((fun g : Grabbed => g.dev) ∘ fun g : Grabbed => { g with disappeared := false }) = fun g => g.dev := rfl
    rw [this, List.filter_map]
    rfl
  · rw [List.map_map]
    have : ((fun g : Grabbed => g.dev) ∘ fun d : EvDev => ({ dev := d } : Grabbed)) = fun d => d := rfl
    rw [this, List.map_id']
    refine List.filter_congr (fun d _ => ?_)
    unfold isNew
    congr 2
    rw [Bool.eq_iff_iff, List.any_eq_true, List.contains_iff_mem, List.mem_map]
    constructor
    · rintro ⟨g, hg, h⟩; exact ⟨g, hg, by simpa using h⟩
    · rintro ⟨g, hg, h⟩; exact ⟨g, hg, by simpa using h⟩

/-- **C56**: no device is grabbed twice, whatever devices come and go. -/
theorem C56_grabbed_once (rx : Regex) (filters : List GrabDeviceFilter) (grabMice : Bool) (updates : List (List EvDev))
    (h : ∀ devs ∈ updates, (devs.map (·.eventId)).Nodup) :
    ((grabRun rx filters grabMice updates).map (fun g => g.dev.eventId)).Nodup := by
  unfold grabRun
  have : ∀ (updates : List (List EvDev)) (l : List Grabbed), (∀ devs ∈ updates, (devs.map (·.eventId)).Nodup) →
      (l.map (fun g => g.dev.eventId)).Nodup →
      ((updates.foldl (fun l devs => grabUpdate rx filters grabMice devs l) l).map (fun g => g.dev.eventId)).Nodup := by
    intro updates
    induction updates with
    | nil => exact fun l _ hl => hl
    | cons devs updates ih =>
      intro l hu hl
      refine ih _ (fun d hd => hu d (List.mem_cons_of_mem _ hd)) ?_
      have hd := hu devs List.mem_cons_self
      have he := C56_update rx filters grabMice l hl devs hd
      have h2 : (grabUpdate rx filters grabMice devs l).map (fun g => g.dev.eventId) =
          ((grabUpdate rx filters grabMice devs l).map (·.dev)).map (·.eventId) := by rw [List.map_map]; rfl
      rw [h2, he, List.map_append, List.nodup_append]
      refine ⟨?_, ?_, ?_⟩
      · have hs : ((l.map (·.dev)).filter (fun g => devs.any (fun d => isWanted rx filters grabMice d && d.eventId == g.eventId))).map (·.eventId) |>.Sublist (l.map (fun g => g.dev.eventId)) := by
          have := (List.filter_sublist (l := l.map (·.dev)) (p := fun g => devs.any (fun d => isWanted rx filters grabMice d && d.eventId == g.eventId))).map (·.eventId)
          rw [List.map_map] at this
          exact this
        exact hs.nodup hl
      · exact ((List.filter_sublist (l := devs)).map (·.eventId)).nodup hd
      · intro a ha b hb hab
        subst hab
        obtain ⟨d, hd1, hd2⟩ := List.mem_map.1 ha
        obtain ⟨d', hd1', hd2'⟩ := List.mem_map.1 hb
        obtain ⟨g, hg, rfl⟩ := List.mem_map.1 (List.mem_filter.1 hd1).1
        have := (List.mem_filter.1 hd1').2
        rw [Bool.and_eq_true, Bool.not_eq_true', ← Bool.not_eq_true, List.contains_iff_mem] at this
        exact this.2 (List.mem_map.2 ⟨g, hg, by rw [hd2, ← hd2']⟩)
  exact this updates [] h List.nodup_nil

/-- **C56**: after a successful update of the virtual devices, the events of each grabbed device are
forwarded with the virtual keyboard, or with the forward device which was created for it; the list of
virtual devices is never accessed outside of its bounds while events of the grabbed devices arrive. -/
theorem C56_forwarded_with (s : VDevs) (creates : EvDev → Bool) (l : List GrabbedDesc)
    (h : (s.updateForwardDevices creates l).2 = true) :
    (s.updateForwardDevices creates l).1.devices = l.map forwardedWith ∧
    ∀ ops, (∀ op ∈ ops, op.isKey = true ∨ ∃ dev ev, op = .raw dev ev ∧ dev < l.length) →
      (vRun (s.updateForwardDevices creates l).1 ops).ub = (s.updateForwardDevices creates l).1.ub := by
  have hd : (s.updateForwardDevices creates l).1.devices = l.map forwardedWith := by
    have := addDevices_devices creates l { s with forward := [], devices := [], lastMouse := none } s.forward h
    rw [List.nil_append] at this
    exact this
  refine ⟨hd, ?_⟩
  have hlen : (s.updateForwardDevices creates l).1.devices.length = l.length := by rw [hd, List.length_map]
  generalize (s.updateForwardDevices creates l).1 = t at hlen
  intro ops
  induction ops generalizing t with
  | nil => exact fun _ => rfl
  | cons op ops ih =>
    intro hop
    have hstep : (vStep t op).devices = t.devices ∧ (vStep t op).ub = t.ub := by
      rcases hop op List.mem_cons_self with hk | ⟨dev, ev, rfl, hlt⟩
      · cases op with
        | key e => exact ⟨(sendKeyEvent_rest t e).2.1, (sendKeyEvent_rest t e).2.2⟩
        | raw _ _ => cases hk
        | update _ _ => cases hk
      · show (if (toKeyEvent ev).isSome then t else t.forwardEvent dev ev).devices = _ ∧
          (if (toKeyEvent ev).isSome then t else t.forwardEvent dev ev).ub = _
        split
        · exact ⟨rfl, rfl⟩
        · refine ⟨forwardEvent_devices t dev ev, ?_⟩
          unfold VDevs.forwardEvent
          rw [List.getElem?_eq_getElem (by rw [hlen]; exact hlt)]
          simp only []
          split <;> rfl
    show (vRun (vStep t op) ops).ub = t.ub
    rw [ih (vStep t op) (by rw [hstep.1]; exact hlen) (fun o ho => hop o (List.mem_cons_of_mem _ ho)), hstep.2]

/-- A mouse and a keyboard: a second keyboard appears, the mouse disappears. -/
example : let kb : EvDev := { eventId := 0, name := "A".toList, numKeys := 100 }
    let mouse : EvDev := { eventId := 1, name := "M".toList, numKeys := 5, relX := true, relY := true }
    let kb2 : EvDev := { eventId := 2, name := "B".toList, numKeys := 100 }
    (grabRun (fun _ _ => false) [] true [[mouse, kb], [kb2, mouse, kb], [kb2, kb]]).map (·.dev.eventId) = [0, 2] ∧
    ((({} : VDevs).updateForwardDevices (fun _ => true)
      (grabbedDescs (grabRun (fun _ _ => false) [] true [[mouse, kb], [kb2, mouse, kb]]))).1.devices) =
      [.forward 1, .keyboard, .keyboard] := by decide +kernel

/-! ## C57: absolute axes -/

theorem tdiv_mono {a b c : Int} (hc : 0 < c) (hab : a ≤ b) (ha : 0 ≤ a) : a.tdiv c ≤ b.tdiv c := by
  rw [Int.tdiv_eq_ediv_of_nonneg ha, Int.tdiv_eq_ediv_of_nonneg (by omega)]
  exact Int.ediv_le_ediv hc hab

/-- **C57**: positions are mapped from the range of the device to 0 to 1023: the ends to the ends,
monotonically, and what is between the ends stays between them. -/
theorem C57_range (r : IntRange) (hr : r.min < r.max) :
    mapToRange r.min r ⟨0, 1023⟩ = 0 ∧ mapToRange r.max r ⟨0, 1023⟩ = 1023 ∧
    (∀ v, r.min ≤ v → v ≤ r.max → 0 ≤ mapToRange v r ⟨0, 1023⟩ ∧ mapToRange v r ⟨0, 1023⟩ ≤ 1023) ∧
    ∀ v w, r.min ≤ v → v ≤ w → mapToRange v r ⟨0, 1023⟩ ≤ mapToRange w r ⟨0, 1023⟩ := by
  have hpos : 0 < r.max - r.min := by omega
  have heq : ∀ v, mapToRange v r ⟨0, 1023⟩ = ((v - r.min) * 1023).tdiv (r.max - r.min) := by
    intro v
    unfold mapToRange
    simp only []
    rw [if_neg (by omega)]
    simp
  have hmin : mapToRange r.min r ⟨0, 1023⟩ = 0 := by rw [heq]; simp
  have hmax : mapToRange r.max r ⟨0, 1023⟩ = 1023 := by
    rw [heq]
    exact Int.mul_tdiv_cancel_left _ (by omega)
  have hmono : ∀ v w, r.min ≤ v → v ≤ w → mapToRange v r ⟨0, 1023⟩ ≤ mapToRange w r ⟨0, 1023⟩ := by
    intro v w hv hw
    rw [heq, heq]
    refine tdiv_mono hpos ?_ ?_
    · exact Int.mul_le_mul_of_nonneg_right (by omega) (by decide)
    · exact Int.mul_nonneg (by omega) (by decide)
  refine ⟨hmin, hmax, fun v h1 h2 => ⟨?_, ?_⟩, hmono⟩
  · have := hmono r.min v (Int.le_refl _) h1
    rw [hmin] at this; exact this
  · have := hmono v r.max h1 h2
    rw [hmax] at this; exact this

/-- **C57**: events of the devices which are forwarded with the virtual keyboard are within the range
which it announces, for the volume and the miscellaneous axis; events of other axes are not changed. -/
theorem C57_announced (g : Grabbed) (hf : (grabbedDesc g).forward = none) (value : Int) :
    (g.dev.volume.min ≤ value → value ≤ g.dev.volume.max →
      (announcedRange g 32).min ≤ (convertEvent g.dev ⟨3, 32, value⟩).value ∧
      (convertEvent g.dev ⟨3, 32, value⟩).value ≤ (announcedRange g 32).max) ∧
    (g.dev.misc.min ≤ value → value ≤ g.dev.misc.max →
      (announcedRange g 40).min ≤ (convertEvent g.dev ⟨3, 40, value⟩).value ∧
      (convertEvent g.dev ⟨3, 40, value⟩).value ≤ (announcedRange g 40).max) ∧
    ∀ code, code ≠ 32 → code ≠ 40 → convertEvent g.dev ⟨3, code, value⟩ = ⟨3, code, value⟩ := by
  have hann : ∀ c, announcedRange g c = ⟨0, 1023⟩ := by intro c; unfold announcedRange; rw [hf]; rfl
  have key : ∀ r : IntRange, r.min ≤ value → value ≤ r.max → 0 ≤ mapToRange value r ⟨0, 1023⟩ ∧ mapToRange value r ⟨0, 1023⟩ ≤ 1023 := by
    intro r h1 h2
    by_cases hr : r.min < r.max
    · exact (C57_range r hr).2.2.1 value h1 h2
    · have : r.max - r.min = 0 := by omega
      unfold mapToRange
      simp only []
      rw [if_pos this]
      decide
  refine ⟨fun h1 h2 => ?_, fun h1 h2 => ?_, fun code h1 h2 => ?_⟩
  · rw [hann]; exact key _ h1 h2
  · rw [hann]; exact key _ h1 h2
  · unfold convertEvent
    show (if (code == 32) = true then _ else if (code == 40) = true then _ else _) = _
    rw [if_neg (by simpa using h1), if_neg (by simpa using h2)]

/-- A device which is a tablet: its miscellaneous axis reports the identification of the tool, which has
no range. -/
def exampleTablet : EvDev := { eventId := 9, name := "Pen".toList, numKeys := 10, uncommonAbs := true, misc := ⟨0, 0⟩, volume := ⟨0, 63⟩ }

/-- **C57** is false for devices with a forward device: it announces the range of the device, but the
events are mapped to 0 to 1023. The value of an axis without range is lost (the tools of a tablet), and
the value of others is out of the announced range. -/
theorem C57_forward_counterexample : ∃ g : Grabbed, (grabbedDesc g).forward.isSome = true ∧
    (∀ value, (convertEvent g.dev ⟨3, 40, value⟩).value = 0) ∧
    announcedRange g 32 = ⟨0, 63⟩ ∧ (convertEvent g.dev ⟨3, 32, 50⟩).value = 811 :=
  ⟨{ dev := exampleTablet }, by decide +kernel, fun _ => rfl, by decide +kernel, by decide +kernel⟩

example : mapToRange 128 ⟨-256, 255⟩ ⟨0, 1023⟩ = 768 ∧ mapToRange 7 ⟨7, 7⟩ ⟨0, 1023⟩ = 0 := by decide +kernel

end KM
