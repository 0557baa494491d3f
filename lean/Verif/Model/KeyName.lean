import Verif.Model.KeyTable
import Verif.Model.StringIteration
import Verif.Model.Util
/-!
# Key names

Models `src/config/get_key_name.cpp`.
-/
namespace KM

/-- `get_key_name.cpp:25-227` `get_key_name` -/
def getKeyName (k : Key) : Option Str :=
  (keyNameTable.find? (fun p => p.1 == k)).map (fun p => p.2.toList)

/-- Value of a digit in any base up to 16 -/
def digitVal (c : Char) : Option Nat :=
  if decide ('0' ≤ c) && decide (c ≤ '9') then some (c.toNat - 48)
  else if decide ('a' ≤ c) && decide (c ≤ 'f') then some (c.toNat - 87)
  else if decide ('A' ≤ c) && decide (c ≤ 'F') then some (c.toNat - 55)
  else none

/-- The value of a text consisting only of digits of a base, `none` when there are other
characters. -/
def parseBase (base : Nat) : Str → Nat → Option Nat
  | [], n => some n
  | c :: cs, n =>
    match digitVal c with
    | some d => if d < base then parseBase base cs (n * base + d) else none
    | none => none

/-- `get_key_name.cpp:10-21` `try_parse_key_code`. Extracting an integer with no `basefield` set
accepts `0x` hexadecimal, `0` octal and decimal numbers. Since the extracted `rest` has to be
missing, the whole name has to be the number. -/
def tryParseKeyCode (name : Str) : Key :=
  match name with
  | c :: d :: ds =>
    if isDigitC c then
      let n :=
        if c == '0' then
          if d == 'x' || d == 'X' then if ds.isEmpty then none else parseBase 16 ds 0
          else parseBase 8 (d :: ds) 0
        else parseBase 10 (c :: d :: ds) 0
      match n with
      | some n => if 0 < n && n < 0xF000 then n else Key.none
      | none => Key.none
    else Key.none
  | _ => Key.none

/-- `get_key_name.cpp:229-236` `remove_prefix` -/
def removePrefix (lit name : Str) : Option Str :=
  match skipStr lit name with
  | some (c :: cs) => some (c :: cs)
  | _ => none

/-- `std::atoi` (without overflow) -/
def atoi (s : Str) : Int :=
  match s with
  | '-' :: ds => -(digitsVal (ds.takeWhile isDigitC) : Int)
  | '+' :: ds => (digitsVal (ds.takeWhile isDigitC) : Int)
  | ds => (digitsVal (ds.takeWhile isDigitC) : Int)

/-- `get_key_name.cpp:264-280` `s_key_map`: all key names, sorted by name -/
def keyMap : List (Str × Key) :=
  sortBy (fun a b => !strLt b.1 a.1) (keyNameTable.map (fun p => (p.2.toList, p.1)))

/-- `get_key_name.cpp:283-286`: binary search for a key name -/
def searchKeyMap (m : List (Str × Key)) (name : Str) : Option Key :=
  let i := lowerBound (fun i => match m[i]? with | some e => strLt e.1 name | none => false) 0 m.length
  match m[i]? with
  | some e => if e.1 == name then some e.2 else none
  | none => none

/-- `get_key_name.cpp:288-304`: the names of logical keys and aliases -/
def logicalKeyByName (name : Str) : Key :=
  if name == "Shift".toList then Key.Shift
  else if name == "Control".toList then Key.Control
  else if name == "Alt".toList then Key.Alt
  else if name == "Meta".toList then Key.Meta
  else if name == "OSLeft".toList then Key.MetaLeft
  else if name == "OSRight".toList then Key.MetaRight
  else Key.none

/-- `get_key_name.cpp:246-249`: names of virtual keys; the name without prefix when it is not a
valid one -/
def virtualKeyByName (name : Str) : Key ⊕ Str :=
  match removePrefix "Virtual".toList name with
  | none => .inr name
  | some rest =>
    let n := atoi rest
    if 0 ≤ n ∧ n ≤ 255 then .inl (Key.first_virtual + n.toNat) else .inr rest

/-- `get_key_name.cpp:252-263`: remove optional prefixes, `none` when the function returns
`Key::none` -/
def removeKeyPrefix (name : Str) : Option Str :=
  match removePrefix "Key".toList name with
  | some rest =>
    match rest with
    | [c] => if decide ('A' ≤ c) && decide (c ≤ 'Z') then some rest else none
    | _ => none
  | none =>
    match removePrefix "Digit".toList name with
    | some rest =>
      match rest with
      | [c] => if decide ('0' ≤ c) && decide (c ≤ '9') then some rest else none
      | _ => none
    | none => some name

/-- `get_key_name.cpp:238-305` `get_key_by_name` -/
def getKeyByName (name : Str) : Key :=
  if name == "Any".toList then Key.any
  else
    let code := tryParseKeyCode name
    if code != Key.none then code
    else
      match virtualKeyByName name with
      | .inl k => k
      | .inr name =>
        match removeKeyPrefix name with
        | none => Key.none
        | some name =>
          match searchKeyMap keyMap name with
          | some k => k
          | none => logicalKeyByName name

end KM
