import Verif.Model.Devices
/-!
# What devices can send

Models how `src/server/unix/GrabbedDevicesLinux.cpp` asks the kernel what a device can send (and decides by that which devices are grabbed), and what
`src/server/unix/VirtualDevicesLinux.cpp` announces for the virtual devices. The results of the `ioctl` calls are the content of `DevInfo`, the bit of a code is set when the device
can send it. (A call which fails is one which reports no bits.)
-/
namespace KM

abbrev EV_MSC : Nat := 4
abbrev EV_SW : Nat := 5
abbrev EV_REP : Nat := 20
abbrev EV_VERSION : Nat := 0x010001
abbrev KEY_ESC : Nat := 1
abbrev KEY_NUMERIC_0 : Nat := 0x200
abbrev BTN_LEFT : Nat := 0x110
abbrev BTN_TASK : Nat := 0x117

/-- `struct input_absinfo` -/
structure AbsInfo where
  value : Int := 0
  minimum : Int := 0
  maximum : Int := 0
  fuzz : Int := 0
  flat : Int := 0
  resolution : Int := 0
deriving DecidableEq, Repr, Inhabited

/-- What the kernel reports about a device: `EVIOCGVERSION`, `EVIOCGBIT`, `EVIOCGPROP`, `EVIOCGABS`, `EVIOCGID` -/
structure DevInfo where
  version : Option Nat := some EV_VERSION
  ev : Nat := 3
  key : Nat := 0
  rel : Nat := 0
  abs : Nat := 0
  sw : Nat := 0
  msc : Nat := 0
  rep : Nat := 0
  prop : Nat := 0
  absInfo : List (Nat × AbsInfo) := []
  vendor : Nat := 0
  product : Nat := 0
  versionId : Nat := 0
deriving DecidableEq, Repr, Inhabited

/-- The bits which fit in the `uint64_t` which is passed to the `ioctl` -/
def u64 (bits : Nat) : Nat := bits % 2 ^ 64

/-- `GrabbedDevicesLinux.cpp:179-189` `get_device_keys`: the codes whose bit is set in the eight words -/
def getDeviceKeys (i : DevInfo) : List Nat := (List.range 512).filter (fun c => i.key.testBit c)

/-- `GrabbedDevicesLinux.cpp:45-52` `get_num_keys` -/
def getNumKeys (i : DevInfo) : Nat := (getDeviceKeys i).length

/-- `GrabbedDevicesLinux.cpp:67-72` `has_uncommon_abs_axes` -/
def hasUncommonAbsAxes (i : DevInfo) : Bool := (List.range 64).any (fun c => i.abs.testBit c && c != ABS_VOLUME && c != ABS_MISC)

/-- `GrabbedDevicesLinux.cpp:81-96` `is_supported_device` -/
def isSupportedDevice (i : DevInfo) : Bool := i.version == some EV_VERSION && i.ev.testBit EV_SYN && i.ev.testBit EV_KEY

/-- `GrabbedDevicesLinux.cpp:198-203` `get_device_abs_axis_range` -/
def getDeviceAbsAxisRange (i : DevInfo) (code : Nat) : IntRange :=
  match i.absInfo.lookup code with
  | some a => ⟨a.minimum, a.maximum⟩
  | none => defaultAbsRange

/-- A device: its file, its name and id, and what the kernel reports about it -/
structure Hardware where
  eventId : Nat
  name : Str := []
  id : Str := []
  opens : Bool := true
  grabs : Bool := true
  info : DevInfo := {}
deriving DecidableEq, Repr, Inhabited

/-- what the functions of `GrabbedDevicesLinux.cpp:45-96,198-203` tell about a device -/
def Hardware.evDev (h : Hardware) : EvDev where
  eventId := h.eventId
  name := h.name
  id := h.id
  opens := h.opens
  grabs := h.grabs
  supported := isSupportedDevice h.info
  numKeys := getNumKeys h.info
  relX := h.info.rel.testBit 0
  relY := h.info.rel.testBit 1
  uncommonAbs := hasUncommonAbsAxes h.info
  switches := u64 h.info.sw != 0
  highres := h.info.rel.testBit REL_WHEEL_HI_RES || h.info.rel.testBit REL_HWHEEL_HI_RES
  volume := getDeviceAbsAxisRange h.info ABS_VOLUME
  misc := getDeviceAbsAxisRange h.info ABS_MISC

/-- The loops `for (code = 0, bits; bits > 0; bits >>= 1, ++code) if (bits & 0x01)` -/
def bitCodes (code bits : Nat) : List Nat :=
  if h : bits = 0 then []
  else if bits % 2 = 1 then code :: bitCodes (code + 1) (bits / 2)
  else bitCodes (code + 1) (bits / 2)
termination_by bits
decreasing_by all_goals omega

/-- `DeviceDescLinux.h:8-29` `DeviceDescLinux` (without the event id) -/
structure DeviceDescLinux where
  vendor : Nat
  product : Nat
  versionId : Nat
  keys : List Nat
  absAxes : List (Nat × AbsInfo)
  rel : Nat
  rep : Nat
  sw : Nat
  msc : Nat
  prop : Nat
deriving DecidableEq, Repr, Inhabited

/-- `GrabbedDevicesLinux.cpp:205-218` `get_device_abs_axis`; the axis 0 when it cannot be obtained -/
def getDeviceAbsAxis (i : DevInfo) (code : Nat) : Nat × AbsInfo :=
  match i.absInfo.lookup code with
  | some a => (code, a)
  | none => (0, {})

/-- `GrabbedDevicesLinux.cpp:220-229,529-542`: the full description -/
def deviceDescLinux (i : DevInfo) : DeviceDescLinux where
  vendor := i.vendor
  product := i.product
  versionId := i.versionId
  keys := getDeviceKeys i
  absAxes := (bitCodes 0 (u64 i.abs)).map (getDeviceAbsAxis i)
  rel := u64 i.rel
  rep := u64 i.rep
  sw := u64 i.sw
  msc := u64 i.msc
  prop := u64 i.prop

/-- What is announced for a virtual device: `UI_SET_EVBIT`, `UI_SET_KEYBIT`, ..., `UI_ABS_SETUP`, `UI_DEV_SETUP` -/
structure Announced where
  types : List Nat := []
  keys : List Nat := []
  rels : List Nat := []
  abss : List (Nat × AbsInfo) := []
  sws : List Nat := []
  mscs : List Nat := []
  props : List Nat := []
  vendor : Nat := 0
  product : Nat := 0
  versionId : Nat := 0
deriving DecidableEq, Repr, Inhabited

/-- the codes from the first to the last one -/
def codeRange (first last : Nat) : List Nat := (List.range (last + 1 - first)).map (· + first)

/-- `VirtualDevicesLinux.cpp:31-79` `create_keyboard_device` (vendor and product: `VirtualDevices.h:12-13`) -/
def keyboardAnnounced : Announced where
  types := [EV_SYN, EV_KEY, EV_REP, EV_REL, EV_ABS]
  keys := codeRange KEY_ESC (KEY_NUMERIC_0 - 1) ++ codeRange BTN_LEFT BTN_TASK
  rels := [REL_WHEEL, REL_HWHEEL, REL_WHEEL_HI_RES, REL_HWHEEL_HI_RES]
  abss := [(ABS_VOLUME, { minimum := 0, maximum := 1023 }), (ABS_MISC, { minimum := 0, maximum := 1023 })]
  vendor := 0xD1CE
  product := 1
  versionId := 1

/-- `VirtualDevicesLinux.cpp:81-150` `create_forward_device` -/
def forwardAnnounced (d : DeviceDescLinux) : Announced where
  types := [EV_SYN] ++ (if d.keys.isEmpty then [] else [EV_KEY]) ++ (if d.rel = 0 then [] else [EV_REL]) ++ (if d.absAxes.isEmpty then [] else [EV_ABS]) ++
    (if d.rep = 0 then [] else [EV_REP]) ++ (if d.sw = 0 then [] else [EV_SW]) ++ (if d.msc = 0 then [] else [EV_MSC])
  keys := d.keys
  rels := bitCodes 0 d.rel
  abss := d.absAxes
  sws := bitCodes 0 d.sw
  mscs := bitCodes 0 d.msc
  props := bitCodes 0 d.prop
  vendor := d.vendor
  product := d.product
  versionId := d.versionId

/-- What is announced for a virtual device, where `hw` are the devices by their event id -/
def announcedBy (hw : Nat → Hardware) : VId → Announced
  | .keyboard => keyboardAnnounced
  | .forward n => forwardAnnounced (deviceDescLinux (hw n).info)

end KM
