import Verif.Model.ServerLoop
/-!
# The devices of the server (Linux)

Models `src/server/unix/GrabbedDevicesLinux.cpp` and `src/server/unix/VirtualDevicesLinux.cpp`.
What the kernel reports about a device (the results of the `ioctl` calls) is the content of
`EvDev`; what is written to the virtual devices is recorded. Writing to a virtual device succeeds.
Integers are unbounded.
-/
namespace KM

/-! ## Constants of `linux/input-event-codes.h` and `linux/uinput.h` -/

abbrev EV_SYN : Nat := 0
abbrev EV_KEY : Nat := 1
abbrev EV_REL : Nat := 2
abbrev EV_ABS : Nat := 3
abbrev SYN_REPORT : Nat := 0
abbrev REL_HWHEEL : Nat := 6
abbrev REL_WHEEL : Nat := 8
abbrev REL_WHEEL_HI_RES : Nat := 11
abbrev REL_HWHEEL_HI_RES : Nat := 12
abbrev ABS_VOLUME : Nat := 32
abbrev ABS_MISC : Nat := 40
abbrev UINPUT_MAX_NAME_SIZE : Nat := 80

/-- `struct input_event` (without the time) -/
structure RawEvent where
  type : Nat
  code : Nat
  value : Int
deriving DecidableEq, Repr, Inhabited

/-- `GrabbedDevicesLinux.cpp:20-23` -/
structure IntRange where
  min : Int
  max : Int
deriving DecidableEq, Repr, Inhabited

/-- `GrabbedDevicesLinux.cpp:25` `default_abs_range` -/
def defaultAbsRange : IntRange := ⟨0, 1023⟩

/-- A file `/dev/input/event*` and what the kernel reports about it: can it be opened, has it the
expected version and are `EV_SYN` and `EV_KEY` supported (`is_supported_device`), the number of its
keys, whether it has the relative axes `REL_X` and `REL_Y`, other absolute axes than volume and miscellaneous ones, switches, a
high resolution wheel, the ranges of the absolute axes, and if it can be grabbed. -/
structure EvDev where
  eventId : Nat
  name : Str := []
  id : Str := []
  opens : Bool := true
  supported : Bool := true
  numKeys : Nat := 0
  relX : Bool := false
  relY : Bool := false
  uncommonAbs : Bool := false
  switches : Bool := false
  highres : Bool := false
  volume : IntRange := defaultAbsRange
  misc : IntRange := defaultAbsRange
  grabs : Bool := true
deriving DecidableEq, Repr, Inhabited

/-! ## Grabbing -/

/-- `GrabbedDevicesLinux.cpp:60-65` `has_mouse_axes` -/
def EvDev.mouseAxes (d : EvDev) : Bool := d.relX || d.relY

/-- `VirtualDevices.h:12` `VirtualDevices::name` -/
def virtualDevicesName : Str := "keymapper".toList

/-- `GrabbedDevicesLinux.cpp:29-32` `ends_with` -/
def endsWith (str e : Str) : Bool :=
  decide (e.length ≤ str.length) && str.drop (str.length - e.length) == e

/-- `GrabbedDevicesLinux.cpp:34-36` `is_virtual_device` -/
def isVirtualDevice (name : Str) : Bool := endsWith name virtualDevicesName

/-- `GrabbedDevicesLinux.cpp:98-118` `is_grabbed_by_default` -/
def isGrabbedByDefault (d : EvDev) (grabMice : Bool) : Bool :=
  if d.numKeys == 0 then false
  else if decide (32 ≤ d.numKeys) then true
  else if d.mouseAxes then grabMice
  else if d.uncommonAbs then false
  else if d.switches then false
  else true

/-- `GrabbedDevicesLinux.cpp:476-484`: is a device to be grabbed -/
def isWanted (rx : Regex) (filters : List GrabDeviceFilter) (grabMice : Bool) (d : EvDev) : Bool :=
  d.opens && d.supported && !isVirtualDevice d.name &&
  evaluateGrabFilters rx filters d.name d.id (isGrabbedByDefault d grabMice)

/-- `GrabbedDevicesLinux.cpp:294-301` `Device`; the file descriptor refers to the device `dev`. -/
structure Grabbed where
  dev : EvDev
  disappeared : Bool := false
deriving DecidableEq, Repr, Inhabited

/-- `GrabbedDevicesLinux.cpp:485-495`: a device which is to be grabbed was found -/
def grabFound (l : List Grabbed) (d : EvDev) : List Grabbed :=
  if l.any (fun g => g.dev.eventId == d.eventId) then
    modFirst (fun g => g.dev.eventId == d.eventId) (fun g => { g with disappeared := false }) l
  else if d.grabs then l ++ [{ dev := d }]
  else l

/-- `GrabbedDevicesLinux.cpp:467-504`: the loop over the files -/
def grabNew (rx : Regex) (filters : List GrabDeviceFilter) (grabMice : Bool) (devs : List EvDev)
    (l : List Grabbed) : List Grabbed :=
  devs.foldl (fun l d => if isWanted rx filters grabMice d then grabFound l d else l) l

/-- `GrabbedDevicesLinux.cpp:457-516` `update`: the grabbed devices -/
def grabUpdate (rx : Regex) (filters : List GrabDeviceFilter) (grabMice : Bool) (devs : List EvDev)
    (l : List Grabbed) : List Grabbed :=
  (grabNew rx filters grabMice devs (l.map (fun g => { g with disappeared := true }))).filter
    (fun g => !g.disappeared)

/-- `GrabbedDevicesLinux.cpp:518-544`: the description of a grabbed device, and if a forward device
is created for it -/
structure GrabbedDesc where
  desc : DeviceDesc
  forward : Option EvDev
deriving DecidableEq, Repr, Inhabited

/-- `GrabbedDevicesLinux.cpp:518-544` -/
def grabbedDesc (g : Grabbed) : GrabbedDesc :=
  { desc := ⟨g.dev.name, g.dev.id⟩,
    forward := if g.dev.mouseAxes || g.dev.uncommonAbs then some g.dev else none }

/-- `GrabbedDevicesLinux.cpp:518-544` `m_grabbed_device_descs` -/
def grabbedDescs (l : List Grabbed) : List GrabbedDesc := l.map grabbedDesc

/-- `GrabbedDevicesLinux.cpp:205-218` `get_device_abs_axis` and `VirtualDevicesLinux.cpp:38-72, 107-120`: the
range of the volume and the miscellaneous axis which is announced by the virtual device the events of a
grabbed device are forwarded with. The virtual keyboard announces the default range, a forward device
the range of the grabbed device. -/
def announcedRange (g : Grabbed) (code : Nat) : IntRange :=
  if (grabbedDesc g).forward.isSome then
    (if code == ABS_VOLUME then g.dev.volume else g.dev.misc)
  else defaultAbsRange

/-! ## Reading -/

/-- `GrabbedDevicesLinux.cpp:38-43` `map_to_range` -/
def mapToRange (value : Int) (a b : IntRange) : Int :=
  let range := a.max - a.min
  if range = 0 then b.min else ((value - a.min) * (b.max - b.min)).tdiv range + b.min

/-- `GrabbedDevicesLinux.cpp:392-411`: an event read from a device -/
def convertEvent (d : EvDev) (ev : RawEvent) : RawEvent :=
  if ev.type == EV_ABS then
    if ev.code == ABS_VOLUME then { ev with value := mapToRange ev.value d.volume defaultAbsRange }
    else if ev.code == ABS_MISC then { ev with value := mapToRange ev.value d.misc defaultAbsRange }
    else ev
  else if ev.type == EV_REL then
    if ev.code == REL_WHEEL && !d.highres then { ev with code := REL_WHEEL_HI_RES, value := ev.value * 120 }
    else if ev.code == REL_HWHEEL && !d.highres then
      { ev with code := REL_HWHEEL_HI_RES, value := ev.value * 120 }
    else ev
  else ev

/-- `GrabbedDevicesLinux.cpp:575-602` `to_key_event`. The value has 12 bits (`KeyEvent.h:38`), the
code is a 16 bit unsigned integer. -/
def toKeyEvent (ev : RawEvent) : Option KeyEvent :=
  if ev.type == EV_KEY then some ⟨ev.code, if ev.value == 0 then .Up else .Down, 0⟩
  else if ev.type == EV_REL then
    if ev.code == REL_WHEEL || ev.code == REL_HWHEEL then some ⟨Key.none, .Down, 0⟩
    else if ev.code == REL_WHEEL_HI_RES then
      some ⟨if ev.value < 0 then Key.WheelDown else Key.WheelUp, .Up, ev.value.natAbs % 4096⟩
    else if ev.code == REL_HWHEEL_HI_RES then
      some ⟨if ev.value < 0 then Key.WheelLeft else Key.WheelRight, .Up, ev.value.natAbs % 4096⟩
    else none
  else none

/-- `unix/main.cpp:119-130`: what an event means for the main loop (`Srv.iterate`) -/
def toRead (ev : RawEvent) (dev : Nat) : Read :=
  match toKeyEvent ev with
  | some e => .key e dev
  | none => .other

/-! ## Virtual devices -/

/-- The virtual keyboard, or the forward device of a grabbed device (identified by its event id) -/
inductive VId where
  | keyboard
  | forward (eventId : Nat)
deriving DecidableEq, Repr, Inhabited

/-- `VirtualDevicesLinux.cpp:165-170` `VirtualDevice`; the accumulators are the ones of the
horizontal and of the vertical wheel. -/
structure VDev where
  mouse : Bool := false
  down : List Key := []
  accH : Int := 0
  accV : Int := 0
deriving DecidableEq, Repr, Inhabited

/-- What happens to the virtual devices, as seen by the kernel -/
inductive VEff where
  | create (d : VId)
  | destroy (d : VId)
  | write (d : VId) (ev : RawEvent)
deriving DecidableEq, Repr, Inhabited

/-- `VirtualDevicesLinux.cpp:241-246` `VirtualDevicesImpl`, after `create_keyboard_device`
succeeded. `forward` is `m_forward_devices`, `devices` is `m_devices`, `lastMouse` is
`m_last_active_mouse`. `ub` is set when `m_devices` is accessed outside of its bounds. `out` are the
effects, in order. -/
structure VDevs where
  keyboard : VDev := {}
  forward : List (Nat × VDev) := []
  devices : List VId := []
  lastMouse : Option VId := none
  ub : Bool := false
  out : List VEff := [.create .keyboard]
deriving DecidableEq, Repr, Inhabited

/-- The device a pointer refers to -/
def VDevs.get (s : VDevs) : VId → VDev
  | .keyboard => s.keyboard
  | .forward i => (s.forward.lookup i).getD {}

/-- Modify the device a pointer refers to -/
def VDevs.set (s : VDevs) (d : VId) (v : VDev) : VDevs :=
  match d with
  | .keyboard => { s with keyboard := v }
  | .forward i => { s with forward := s.forward.map (fun p => if p.1 == i then (i, v) else p) }

/-- `VirtualDevicesLinux.cpp:219-235` `send_event` -/
def VDevs.sendEvent (s : VDevs) (d : VId) (type code : Nat) (value : Int) : VDevs :=
  { s with out := s.out ++ [.write d ⟨type, code, value⟩] }

/-- `VirtualDevicesLinux.cpp:190-209` `update_key_state` -/
def VDev.updateKeyState (v : VDev) (e : KeyEvent) : VDev × Int :=
  if e.state == .Up then ({ v with down := v.down.filter (fun k => k != e.key) }, 0)
  else if v.down.contains e.key then (v, 2)
  else ({ v with down := v.down ++ [e.key] }, 1)

/-- `VirtualDevicesLinux.cpp:211-217` `update_lowres_wheel` -/
def VDev.updateLowresWheel (v : VDev) (vertical : Bool) (value : Int) : VDev × Int :=
  let acc := (if vertical then v.accV else v.accH) + value
  let lowres := acc.tdiv 120
  let acc := acc - lowres * 120
  (if vertical then { v with accV := acc } else { v with accH := acc }, lowres)

/-- `VirtualDevicesLinux.cpp:15-17` `get_forward_device_name` and lines 81-88: the name given to a
forward device (`strncpy`; the last byte stays 0) -/
def forwardDeviceName (name : Str) : Str :=
  (name ++ "; ".toList ++ virtualDevicesName).take (UINPUT_MAX_NAME_SIZE - 1)

/-- `VirtualDevicesLinux.cpp:263-280`: a device description; `prev` are the previous forward devices
which were not reused yet. `creates` tells if a forward device can be created. Returns false when it
fails. The mask of `has_mouse_axes` (lines 161-163) is `REL_X | REL_Y`, that is 1, which only tests
for `REL_X`. (When two descriptions have the same event id, the device created first is kept.) -/
def VDevs.addDevice (creates : EvDev → Bool) (s : VDevs) (prev : List (Nat × VDev)) (g : GrabbedDesc) :
    VDevs × List (Nat × VDev) × Bool :=
  match g.forward with
  | none => ({ s with devices := s.devices ++ [.keyboard] }, prev, true)
  | some d =>
    match prev.lookup d.eventId with
    | some v =>
      ({ s with
          devices := s.devices ++ [.forward d.eventId]
          forward := if s.forward.any (fun p => p.1 == d.eventId) then s.forward else s.forward ++ [(d.eventId, v)] },
        prev.filter (fun p => p.1 != d.eventId), true)
    | none =>
      if creates d then
        if s.forward.any (fun p => p.1 == d.eventId) then
          ({ s with devices := s.devices ++ [.forward d.eventId] }, prev, true)
        else
          ({ s with
              devices := s.devices ++ [.forward d.eventId]
              forward := s.forward ++ [(d.eventId, { mouse := d.relX })]
              out := s.out ++ [.create (.forward d.eventId)] }, prev, true)
      else ({ s with devices := s.devices ++ [.keyboard] }, prev, false)

/-- `VirtualDevicesLinux.cpp:262-281`: the loop over the descriptions -/
def VDevs.addDevices (creates : EvDev → Bool) :
    List GrabbedDesc → VDevs → List (Nat × VDev) → VDevs × List (Nat × VDev) × Bool
  | [], s, prev => (s, prev, true)
  | g :: gs, s, prev =>
    match s.addDevice creates prev g with
    | (s, prev, true) => VDevs.addDevices creates gs s prev
    | (s, prev, false) => (s, prev, false)

/-- `VirtualDevicesLinux.cpp:257-283` `update_forward_devices`. The previous devices which are not
reused are destroyed at the end. -/
def VDevs.updateForwardDevices (creates : EvDev → Bool) (s : VDevs) (l : List GrabbedDesc) : VDevs × Bool :=
  let (s, prev, ok) := VDevs.addDevices creates l
    { s with forward := [], devices := [], lastMouse := none } s.forward
  ({ s with out := s.out ++ prev.map (fun p => .destroy (.forward p.1)) }, ok)

/-- `VirtualDevicesLinux.cpp:285-292` `forward_event` -/
def VDevs.forwardEvent (s : VDevs) (dev : Nat) (ev : RawEvent) : VDevs :=
  match s.devices[dev]? with
  | none => { s with ub := true }
  | some d =>
    let s := if (s.get d).mouse then { s with lastMouse := some d } else s
    s.sendEvent d ev.type ev.code ev.value

/-- `VirtualDevicesLinux.cpp:295-299`: the device a key is sent with -/
def VDevs.deviceFor (s : VDevs) (k : Key) : VId :=
  match s.lastMouse with
  | some d => if isMouseButton k || isMouseWheel k then d else .keyboard
  | none => .keyboard

/-- `VirtualDevicesLinux.cpp:301-308`: a mouse wheel event -/
def VDevs.sendWheel (s : VDevs) (d : VId) (e : KeyEvent) : VDevs :=
  let vertical := e.key == Key.WheelUp || e.key == Key.WheelDown
  let negative := e.key == Key.WheelDown || e.key == Key.WheelLeft
  let value : Int := (if e.value != 0 then (e.value : Int) else 120) * (if negative then -1 else 1)
  let s := s.sendEvent d EV_REL (if vertical then REL_WHEEL_HI_RES else REL_HWHEEL_HI_RES) value
  let (v, lowres) := (s.get d).updateLowresWheel vertical value
  let s := s.set d v
  if lowres != 0 then s.sendEvent d EV_REL (if vertical then REL_WHEEL else REL_HWHEEL) lowres else s

/-- `VirtualDevicesLinux.cpp:309-312`: a key event -/
def VDevs.sendKey (s : VDevs) (d : VId) (e : KeyEvent) : VDevs :=
  let (v, value) := (s.get d).updateKeyState e
  (s.set d v).sendEvent d EV_KEY e.key value

/-- `VirtualDevicesLinux.cpp:294-314` `send_key_event` -/
def VDevs.sendKeyEvent (s : VDevs) (e : KeyEvent) : VDevs :=
  let d := s.deviceFor e.key
  let s := if isMouseWheel e.key then s.sendWheel d e else s.sendKey d e
  s.sendEvent d EV_SYN SYN_REPORT 0

end KM
