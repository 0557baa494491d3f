import Verif.Model.Devices
/-!
# Specification: what the kernel sees of the virtual devices
-/
namespace KM

/-- What the server does with its virtual devices: send a key, handle an event read from a grabbed
device (which is only forwarded when it is no key event, `unix/main.cpp:119-130`), update the devices.
-/
inductive VOp where
  | key (e : KeyEvent)
  | raw (dev : Nat) (ev : RawEvent)
  | update (creates : EvDev → Bool) (l : List GrabbedDesc)

/-- The virtual devices after something happened -/
def vStep (s : VDevs) : VOp → VDevs
  | .key e => s.sendKeyEvent e
  | .raw dev ev => if (toKeyEvent ev).isSome then s else s.forwardEvent dev ev
  | .update creates l => (s.updateForwardDevices creates l).1

/-- The virtual devices after a history -/
def vRun (s : VDevs) (ops : List VOp) : VDevs := ops.foldl vStep s

/-- Is a key of a device down: it is when the last value written for it is not 0. A device which is
created or destroyed has no key down. -/
def heldOnStep (d : VId) (k : Nat) (b : Bool) : VEff → Bool
  | .create d' => if d' = d then false else b
  | .destroy d' => if d' = d then false else b
  | .write d' ev => if d' = d ∧ ev.type = 1 ∧ ev.code = k then decide (ev.value ≠ 0) else b

/-- Is a key of a device down after these effects -/
def heldOn (d : VId) (k : Nat) (out : List VEff) : Bool := out.foldl (heldOnStep d k) false

/-- Presses, repeats and releases alternate: a press is only written when the key is up, a repeat only
when it is down. -/
def WellPressed (out : List VEff) : Prop :=
  ∀ pre d k v post, out = pre ++ VEff.write d ⟨1, k, v⟩ :: post →
    v = 0 ∨ (v = 1 ∧ heldOn d k pre = false) ∨ (v = 2 ∧ heldOn d k pre = true)

/-- The distance of a relative axis of a device, since it was created -/
def distanceStep (d : VId) (code : Nat) (n : Int) : VEff → Int
  | .create d' => if d' = d then 0 else n
  | .destroy d' => if d' = d then 0 else n
  | .write d' ev => if d' = d ∧ ev.type = 2 ∧ ev.code = code then n + ev.value else n

/-- The distance of a relative axis of a device, since it was created -/
def distanceOn (d : VId) (code : Nat) (out : List VEff) : Int := out.foldl (distanceStep d code) 0

/-- The distance of a relative axis, on all devices -/
def distance (code : Nat) (out : List VEff) : Int :=
  (out.map (fun
    | .write _ ev => if ev.type = 2 ∧ ev.code = code then ev.value else 0
    | _ => 0)).sum

/-- The signed distance of a wheel event: one step when it has none; up and right are positive -/
def wheelDistance (vertical : Bool) (e : KeyEvent) : Int :=
  let n : Int := if e.value = 0 then 120 else e.value
  if vertical then (if e.key = 336 then n else if e.key = 337 then -n else 0)
  else (if e.key = 339 then n else if e.key = 338 then -n else 0)

/-- Is a key pressed, when its events were these: it is when the last one was not a release. -/
def lastPressed (k : Key) (ops : List VOp) : Bool :=
  ops.foldl (fun b op =>
    match op with
    | .key e => if e.key = k then decide (e.state ≠ .Up) else b
    | _ => b) false

/-- Is it the sending of a key -/
def VOp.isKey : VOp → Bool
  | .key _ => true
  | _ => false

/-- The virtual device the events of a grabbed device are to be forwarded with -/
def forwardedWith (g : GrabbedDesc) : VId :=
  match g.forward with
  | none => .keyboard
  | some d => .forward d.eventId

end KM
