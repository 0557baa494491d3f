import Verif.Model.Windows
/-!
# Specification: input and output on Windows
-/
namespace KM.Win

/-- What is passed to the system for the events which are sent, in order -/
def outputs : State → List KeyEvent → List Input
  | _, [] => []
  | s, e :: es => (sendKey s e).2.toList ++ outputs (sendKey s e).1 es

/-- The characters which are pressed (or released) -/
def characters (down : Bool) (is : List Input) : List Nat :=
  is.filterMap fun
    | .unicode c d => if d = down then some c else none
    | _ => none

/-- The values of the presses (or releases) of the key for characters -/
def parts (state : KeyState) (es : List KeyEvent) : List Nat :=
  (es.filter fun e => decide (e.key = 0xF003 ∧ e.state = state)).map (·.value)

/-- A character is sent in two parts -/
def halves (codes : List Nat) : List Nat := codes.flatMap fun c => [c / 256, c % 256]

/-- What can happen to the mouse: keymapper sends an event, or the user uses the mouse, and
keymapper translates it or not -/
inductive Happening where
  | sent (e : KeyEvent)
  | used (m : MouseMessage) (translated : Bool)

/-- The input which a message announces to the programs when it is not withheld -/
def MouseMessage.seen : MouseMessage → List Input
  | .left d => [.button .left d]
  | .right d => [.button .right d]
  | .middle d => [.button .middle d]
  | .xbutton data d => [.button (if data = 1 then .x1 else .x2) d]
  | .wheel v d => [.wheel v d]
  | .other => []

/-- Messages about a further button are about the first or the second -/
def MouseMessage.Valid : MouseMessage → Prop
  | .xbutton data _ => data = 1 ∨ data = 2
  | .wheel _ delta => -32768 ≤ delta ∧ delta < 32768
  | _ => True

/-- What the programs see -/
def seen : State → List Happening → List Input
  | _, [] => []
  | s, .sent e :: hs => (sendKey s e).2.toList ++ seen (sendKey s e).1 hs
  | s, .used m t :: hs =>
    (if (translateMouseInput s m t).2 then [] else m.seen) ++ seen (translateMouseInput s m t).1 hs

/-- The presses and releases of one button -/
def ofButton (b : Button) (is : List Input) : List Bool :=
  is.filterMap fun
    | .button b' d => if b' = b then some d else none
    | _ => none

/-- Press and release alternate, beginning with a press when the button is not held -/
def Alternating : Bool → List Bool → Prop
  | _, [] => True
  | held, d :: ds => d = !held ∧ Alternating d ds

end KM.Win
