import Verif.Model.ParseKeySequence
/-!
# Specification: what typing means

A keyboard which remembers which modifiers are held and which keys are pressed with them, and how such
presses are read as a text.
-/
namespace KM

/-- The modifier a key is -/
inductive ModKey where
  | shift | alt | altGr | control
deriving DecidableEq, Repr

/-- The keys which are modifiers -/
def modKeyOf (k : Key) : Option ModKey :=
  if k = Key.Shift ∨ k = Key.ShiftLeft then some .shift
  else if k = Key.AltLeft then some .alt
  else if k = Key.AltRight then some .altGr
  else if k = Key.Control ∨ k = Key.ControlLeft then some .control
  else none

/-- A modifier is pressed or released -/
def Mods.set (m : Mods) (b : Bool) : ModKey → Mods
  | .shift => { m with shift := b }
  | .alt => { m with alt := b }
  | .altGr => { m with altGr := b }
  | .control => { m with control := b }

/-- The held modifiers, and the keys which were pressed with the modifiers held then -/
structure Keyboard where
  mods : Mods := {}
  typed : List (Key × Mods) := []
deriving DecidableEq, Repr

/-- A key is pressed or released -/
def Keyboard.step (kb : Keyboard) (e : KeyEvent) : Keyboard :=
  match modKeyOf e.key with
  | some m =>
    if e.state = .Down then { kb with mods := kb.mods.set true m }
    else if e.state = .Up then { kb with mods := kb.mods.set false m }
    else kb
  | none => if e.state = .Down then { kb with typed := kb.typed ++ [(e.key, kb.mods)] } else kb

/-- What a sequence types on a keyboard without held modifiers -/
def typedBy (l : KeySequence) : Keyboard := l.foldl Keyboard.step {}

/-- The value of a key which is a hexadecimal digit (`0` to `9` on the number pad, `A` to `F`) -/
def hexValue (k : Key) : Option Nat :=
  if k = Key.Numpad0 then some 0 else if k = Key.Numpad1 then some 1 else if k = Key.Numpad2 then some 2
  else if k = Key.Numpad3 then some 3 else if k = Key.Numpad4 then some 4 else if k = Key.Numpad5 then some 5
  else if k = Key.Numpad6 then some 6 else if k = Key.Numpad7 then some 7 else if k = Key.Numpad8 then some 8
  else if k = Key.Numpad9 then some 9 else if k = Key.KeyA then some 10 else if k = Key.KeyB then some 11
  else if k = Key.KeyC then some 12 else if k = Key.KeyD then some 13 else if k = Key.KeyE then some 14
  else if k = Key.KeyF then some 15 else none

/-- What a press types with the layout of the generic dictionary: letters, digits and a few others -/
def usLayout (p : Key × Mods) : Option Nat :=
  if p.2 = {} then
    (if p.1 = Key.Space then some 32 else if p.1 = Key.Tab then some 9 else if p.1 = Key.Enter then some 13
     else if p.1 ∈ letterKeys then some (97 + letterKeys.idxOf p.1)
     else if p.1 ∈ digitKeys then some (48 + digitKeys.idxOf p.1)
     else none)
  else if p.2 = { shift := true } then
    (if p.1 = Key.Slash then some 63
     else if p.1 ∈ letterKeys then some (65 + letterKeys.idxOf p.1)
     else none)
  else none

/-- Control and Shift and U: the hexadecimal code of a character follows -/
def beginsCode (p : Key × Mods) : Bool := p == (Key.KeyU, { shift := true, control := true })

/-- Read presses as a text. Within the code of a character, `code` is what was read of it, the space ends it.
Presses which have no meaning are not a text. -/
def readPresses : Option Nat → List (Key × Mods) → Option (List Nat)
  | none, [] => some []
  | some _, [] => none
  | none, p :: l =>
    if beginsCode p then readPresses (some 0) l
    else
      match usLayout p with
      | some c => (readPresses none l).map (c :: ·)
      | none => none
  | some n, p :: l =>
    if p = (Key.Space, {}) then (readPresses none l).map (n :: ·)
    else if p.2 = {} then
      match hexValue p.1 with
      | some d => readPresses (some (n * 16 + d)) l
      | none => none
    else none

/-- The escapes of a string: `\n` and `\r` are the return, `\t` the tabulator -/
def unescape : List Nat → List Nat
  | [] => []
  | [c] => [c]
  | c :: d :: cs =>
    if c = 92 ∧ (d = 110 ∨ d = 114) then 13 :: unescape cs
    else if c = 92 ∧ d = 116 then 9 :: unescape cs
    else c :: unescape (d :: cs)

end KM
