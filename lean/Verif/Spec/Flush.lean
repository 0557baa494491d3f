import Verif.Spec.Server
/-!
# Specification: sending buffered output
-/
namespace KM

/-- What sending a buffered event does to the environment: wheel presses, releases of actions, delays
and virtual keys have no effect of their own. -/
def effectOf (e : KeyEvent) : List Eff :=
  if 0xF200 ≤ e.key ∧ e.key ≤ 0xF2FF then (if e.state = .Down then [.action (e.key - 0xF200)] else [])
  else if e.key = 0xF001 ∨ (0xF100 ≤ e.key ∧ e.key ≤ 0xF1FF) ∨ (336 ≤ e.key ∧ e.key ≤ 339 ∧ e.state = .Down) then []
  else [.sendKey e]

/-- What sending buffered events does to the environment, in order -/
def effectsOf (l : KeySequence) : List Eff := l.flatMap effectOf

/-- Is the effect a key sent to the device, or an action -/
def Eff.isOutput : Eff → Bool
  | .sendKey _ => true
  | .action _ => true
  | _ => false

/-- Is the effect a key sent to the device -/
def Eff.isKey : Eff → Bool
  | .sendKey _ => true
  | _ => false

/-- How many keys are sent to the device -/
def keysOf (l : KeySequence) : Nat := (effectsOf l).countP Eff.isKey

/-- Is the event a delay -/
def IsDelay (e : KeyEvent) : Prop := e.key = 0xF001

/-- Is the event a virtual key -/
def IsVirtual (e : KeyEvent) : Prop := 0xF100 ≤ e.key ∧ e.key ≤ 0xF1FF

/-- The events output by the stages, without the request of a timeout which may be the last one -/
def withoutRequest (l : KeySequence) : KeySequence :=
  match l.reverse with
  | e :: rest => if e.key = 0xF001 then rest.reverse else l
  | [] => []

/-- A wheel event without distance gets the distance of the turn. -/
def withDistance (v : Nat) (e : KeyEvent) : KeyEvent :=
  if 336 ≤ e.key ∧ e.key ≤ 339 ∧ e.value = 0 then ⟨e.key, e.state, v⟩ else e

/-- How often the server was asked to exit -/
def exitsOf (out : List Eff) : Nat := out.countP (fun e => decide (e = .exitRequested))

/-- What the main loop does at most until some time -/
def SrvOp.until (t : Int) : SrvOp → Prop
  | .loop it => it.now ≤ t
  | _ => True

end KM
