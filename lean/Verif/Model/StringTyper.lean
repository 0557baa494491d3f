import Verif.Model.StringIteration
/-!
# Typing of strings

Models `src/config/StringTyper.h`, `src/client/unix/StringTyperImpl.cpp` and
`src/client/unix/StringTyperGeneric.cpp`.
-/
namespace KM

/-- `StringTyper.h:10-16` `Modifiers`, a set of the bits `Shift`, `Alt`, `AltGr`, `Control` -/
structure Mods where
  shift : Bool := false
  alt : Bool := false
  altGr : Bool := false
  control : Bool := false
deriving DecidableEq, Repr, Inhabited

/-- `modifiers != 0` -/
def Mods.nonZero (m : Mods) : Bool := m.shift || m.alt || m.altGr || m.control

/-- One call of `StringTyper::AddKey` (`StringTyper.h:18`) -/
structure TypedKey where
  key : Key
  mods : Mods := {}
  value : Nat := 0
deriving DecidableEq, Repr, Inhabited

/-- A string typer (`StringTyper::type`): the calls of `add_key`; `none` when it throws (the
string is not valid UTF-8) -/
abbrev Typer := Str → Option (List TypedKey)

/-- `StringTyperImpl.cpp:13-18` `hex_keys` -/
def hexKeys : List Key := [
  Key.Numpad0, Key.Numpad1, Key.Numpad2, Key.Numpad3, Key.Numpad4, Key.Numpad5, Key.Numpad6,
  Key.Numpad7, Key.Numpad8, Key.Numpad9, Key.KeyA, Key.KeyB, Key.KeyC, Key.KeyD, Key.KeyE, Key.KeyF]

/-- `StringTyperImpl.cpp:19-21`: the keys of the hexadecimal digits, least significant first -/
def hexDigitKeys (character : Nat) : List Key :=
  if h : character = 0 then []
  else hexKeys.getD (character % 16) Key.none :: hexDigitKeys (character / 16)
termination_by character
decreasing_by omega

/-- `StringTyperImpl.cpp:12-29` `hex_type_unicode_linux` -/
def hexTypeUnicode (character : Nat) : List TypedKey :=
  [{ key := Key.KeyU, mods := { control := true, shift := true } }] ++
  (hexDigitKeys character).reverse.map (fun k => { key := k }) ++
  [{ key := Key.Space }]

/-- `StringTyper.h:31-38` `replace_all` of a two character escape by one character -/
def replaceEscape (a b r : Nat) : List Nat → List Nat
  | [] => []
  | [c] => [c]
  | c :: d :: cs =>
    if c == a && d == b then r :: replaceEscape a b r cs else c :: replaceEscape a b r (d :: cs)

/-- `StringTyperImpl.cpp:54-75` `StringTyperImpl::type`, for the code points of the string, with
`m_dictionary` as `dict` -/
def typeCodepoints (dict : Nat → Option (List (Key × Mods))) (characters : List Nat) : List TypedKey :=
  let characters := replaceEscape 92 110 13 characters
  let characters := replaceEscape 92 114 13 characters
  let characters := replaceEscape 92 116 9 characters
  characters.flatMap (fun c =>
    match dict c with
    | some entry => entry.map (fun (k, m) => { key := k, mods := m })
    | none => hexTypeUnicode c)

/-- `StringTyperGeneric.cpp:4-32`: keys of letters, by alphabet position -/
def letterKeys : List Key := [
  Key.KeyA, Key.KeyB, Key.KeyC, Key.KeyD, Key.KeyE, Key.KeyF, Key.KeyG, Key.KeyH, Key.KeyI,
  Key.KeyJ, Key.KeyK, Key.KeyL, Key.KeyM, Key.KeyN, Key.KeyO, Key.KeyP, Key.KeyQ, Key.KeyR,
  Key.KeyS, Key.KeyT, Key.KeyU, Key.KeyV, Key.KeyW, Key.KeyX, Key.KeyY, Key.KeyZ]

/-- `StringTyperGeneric.cpp:33-42`: keys of digits -/
def digitKeys : List Key := [
  Key.Digit0, Key.Digit1, Key.Digit2, Key.Digit3, Key.Digit4, Key.Digit5, Key.Digit6, Key.Digit7,
  Key.Digit8, Key.Digit9]

/-- `StringTyperGeneric.cpp:51-65` the dictionary of `StringTyperGeneric` -/
def genericDictionary (c : Nat) : Option (List (Key × Mods)) :=
  if 48 ≤ c ∧ c ≤ 57 then some [(digitKeys.getD (c - 48) Key.none, {})]
  else if 97 ≤ c ∧ c ≤ 122 then some [(letterKeys.getD (c - 97) Key.none, {})]
  else if 65 ≤ c ∧ c ≤ 90 then some [(letterKeys.getD (c - 65) Key.none, { shift := true })]
  else if c = 32 then some [(Key.Space, {})]
  else if c = 9 then some [(Key.Tab, {})]
  else if c = 13 then some [(Key.Enter, {})]
  else if c = 63 then some [(Key.Slash, { shift := true })]
  else none

/-- The generic typer, for strings of ASCII characters (for these the conversion to UTF-32 of
`StringTyperImpl.cpp:38-41` is the identity) -/
def genericTyper : Typer := fun s => some (typeCodepoints genericDictionary (s.map Char.toNat))

end KM
