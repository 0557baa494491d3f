import Verif.Model.StringTyper
/-!
# Keyboard layouts

Models `src/client/unix/StringTyperXKB.cpp` and the dictionary which `src/client/unix/StringTyperX11.cpp` builds when xkbcommon is not available. What the libraries tell about the
keyboard (`xkbcommon`, `Xlib`) is the content of `XkbKeymap`, `ComposeTable` and `lookup`.
-/
namespace KM

/-- `StringTyperXKB.cpp:22-77`: the names which are known, and their keys -/
def xkbNames : List (String × Key) := [
  ("ESC", Key.Escape), ("AE01", Key.Digit1), ("AE02", Key.Digit2), ("AE03", Key.Digit3), ("AE04", Key.Digit4), ("AE05", Key.Digit5), ("AE06", Key.Digit6),
  ("AE07", Key.Digit7), ("AE08", Key.Digit8), ("AE09", Key.Digit9), ("AE10", Key.Digit0), ("AE11", Key.Minus), ("AE12", Key.Equal), ("BKSP", Key.Backspace),
  ("TAB", Key.Tab), ("AD01", Key.KeyQ), ("AD02", Key.KeyW), ("AD03", Key.KeyE), ("AD04", Key.KeyR), ("AD05", Key.KeyT), ("AD06", Key.KeyY), ("AD07", Key.KeyU),
  ("AD08", Key.KeyI), ("AD09", Key.KeyO), ("AD10", Key.KeyP), ("AD11", Key.BracketLeft), ("AD12", Key.BracketRight), ("AC01", Key.KeyA), ("AC02", Key.KeyS),
  ("AC03", Key.KeyD), ("AC04", Key.KeyF), ("AC05", Key.KeyG), ("AC06", Key.KeyH), ("AC07", Key.KeyJ), ("AC08", Key.KeyK), ("AC09", Key.KeyL),
  ("AC10", Key.Semicolon), ("AC11", Key.Quote), ("AC12", Key.IntlRo), ("TLDE", Key.Backquote), ("BKSL", Key.Backslash), ("AB01", Key.KeyZ), ("AB02", Key.KeyX),
  ("AB03", Key.KeyC), ("AB04", Key.KeyV), ("AB05", Key.KeyB), ("AB06", Key.KeyN), ("AB07", Key.KeyM), ("AB08", Key.Comma), ("AB09", Key.Period),
  ("AB10", Key.Slash), ("SPCE", Key.Space), ("LSGT", Key.IntlBackslash), ("RTRN", Key.Enter)]

/-- `StringTyperXKB.cpp:9-15,17-79` `xkb_keyname_to_key`: the first four characters are compared -/
def xkbKeynameToKey (name : Str) : Key :=
  if name.isEmpty then Key.none else ((xkbNames.find? (fun p => p.1.toList == name.take 4)).map (·.2)).getD Key.none

/-- `StringTyperXKB.cpp:81-90` `get_xkb_modifiers` -/
def getXkbModifiers (mask : Nat) : Mods := { shift := mask.testBit 0, alt := mask.testBit 3, altGr := mask.testBit 7 }

/-- A symbol (`xkb_keysym_t`) -/
abbrev Sym := Nat

/-- What the keymap tells about a level of a key: `xkb_keymap_key_get_syms_by_level`, `xkb_keymap_key_get_mods_for_level` -/
structure XkbLevel where
  syms : List Sym
  masks : List Nat
deriving DecidableEq, Repr, Inhabited

/-- What the keymap tells about a key code: `xkb_keymap_key_get_name`, and the levels in each layout -/
structure XkbKey where
  name : Option Str := none
  layouts : List (List XkbLevel) := []
deriving DecidableEq, Repr, Inhabited

/-- The key codes from the minimum to the maximum; `toChar` is `xkb_keysym_to_utf32` (0 when it is no character) -/
structure XkbKeymap where
  keys : List XkbKey
  toChar : Sym → Nat

/-- `StringTyperXKB.cpp:124-125`: the key of a key code -/
def XkbKey.key (x : XkbKey) : Key :=
  match x.name with
  | some name => xkbKeynameToKey name
  | none => Key.none

/-- `StringTyperXKB.cpp:130-136`: the symbol and the mask of a level, when there are any -/
def XkbLevel.entry (l : XkbLevel) : Option (Sym × Nat) :=
  match l.syms, l.masks with
  | s :: _, m :: _ => some (s, m)
  | _, _ => none

/-- `StringTyperXKB.cpp:123-136`: what the loops visit: key, symbol and mask. The last key code is not visited (`keycode < max`). -/
def XkbKeymap.entries (km : XkbKeymap) : List (Key × Sym × Nat) :=
  km.keys.dropLast.flatMap (fun x =>
    if x.key = Key.none then []
    else x.layouts.flatMap (fun levels => levels.filterMap (fun l => l.entry.map (fun e => (x.key, e)))))

/-- `StringTyperImpl.h:10-13` `KeyModifier` -/
abbrev Stroke := Key × Mods

/-- `m_dictionary`, `dead_keys` and `stroke_by_keysymbol` (the first stroke of the entry the pointer points to, which does not change) -/
structure XkbState where
  dict : List (Nat × List Stroke) := []
  dead : List (Sym × Stroke) := []
  strokes : List (Sym × Stroke) := []
deriving DecidableEq, Repr, Inhabited

/-- Assignment in a map -/
def assign (l : List (Sym × Stroke)) (s : Sym) (v : Stroke) : List (Sym × Stroke) := (s, v) :: l.filter (fun p => p.1 != s)

/-- `StringTyperXKB.cpp:137-148`: the body of the loops -/
def XkbState.visit (toChar : Sym → Nat) (st : XkbState) (e : Key × Sym × Nat) : XkbState :=
  let stroke : Stroke := (e.1, getXkbModifiers e.2.2)
  let c := toChar e.2.1
  if c ≠ 0 then
    if (st.dict.lookup c).isNone then { st with dict := st.dict ++ [(c, [stroke])], strokes := assign st.strokes e.2.1 stroke }
    else st
  else
    match st.dead.lookup e.2.1 with
    | some first => { st with strokes := assign st.strokes e.2.1 first }
    | none => { st with dead := st.dead ++ [(e.2.1, stroke)], strokes := assign st.strokes e.2.1 stroke }

/-- `XKB_KEY_Multi_key` -/
def multiKey : Sym := 0xff20

/-- `StringTyperXKB.cpp:115-120`: the compose key, if it is set -/
def XkbState.init (compose : Option Stroke) : XkbState :=
  match compose with
  | some stroke => { dead := [(multiKey, stroke)], strokes := [(multiKey, stroke)] }
  | none => {}

/-- An entry of the compose table: the symbols and the text (its code points) -/
structure ComposeEntry where
  sequence : List Sym
  text : List Nat
deriving DecidableEq, Repr, Inhabited

/-- `StringTyperXKB.cpp:155-166` `compose_entry`: the strokes of all symbols, nothing when one has none -/
def composeStrokes (strokes : List (Sym × Stroke)) : List Sym → Option (List Stroke)
  | [] => some []
  | s :: l =>
    match strokes.lookup s, composeStrokes strokes l with
    | some x, some xs => some (x :: xs)
    | _, _ => none

/-- `StringTyperXKB.cpp:173-179`: the body of the loop over the compose table -/
def XkbState.compose (st : XkbState) (e : ComposeEntry) : XkbState :=
  match e.text with
  | [] => st
  | c :: _ =>
    if (st.dict.lookup c).isSome then st
    else
      match composeStrokes st.strokes e.sequence with
      | some (x :: xs) => { st with dict := st.dict ++ [(c, x :: xs)] }
      | _ => st

/-- `StringTyperXKB.cpp:104-188` `update_layout_xkbcommon`; `table` is the compose table of the locale (empty when there is none) -/
def xkbDictionary (km : XkbKeymap) (compose : Option Stroke) (table : List ComposeEntry) : List (Nat × List Stroke) :=
  (table.foldl XkbState.compose (km.entries.foldl (XkbState.visit km.toChar) (XkbState.init compose))).dict

/-- `StringTyperXKB.cpp:92-100` `get_locale` -/
def getLocale (lcAll lcCtype lang : Option Str) : Str :=
  match lcAll, lcCtype, lang with
  | some l, _, _ => l
  | none, some l, _ => l
  | none, none, some l => l
  | none, none, none => "C".toList

/-- `StringTyperImpl.h:40-49` `for_each_modifier_combination` of Shift, Mod1 and Mod5 (`StringTyperX11.cpp:47`) -/
def modifierCombinations : List Nat := [0, 1, 8, 9, 128, 129, 136, 137]

/-- `StringTyperX11.cpp:49-64`: a modifier combination and a key code `x` (name and number, counted from the minimum). `lookup` is `Xutf8LookupString` for a key code with modifiers,
`none` when there is no text. -/
def x11Visit (lookup : Nat → Nat → Option (List Nat)) (dict : List (Nat × List Stroke)) (x : Nat × Str × Nat) : List (Nat × List Stroke) :=
  if xkbKeynameToKey x.2.1 = Key.none then dict
  else
    match lookup x.2.2 x.1 with
    | none => dict
    | some text =>
      if (dict.lookup (text.headD 0)).isNone then dict ++ [(text.headD 0, [(xkbKeynameToKey x.2.1, getXkbModifiers x.1)])] else dict

/-- `StringTyperX11.cpp:46-66`: the dictionary without xkbcommon: `names` are the names of the key codes from the minimum to the maximum -/
def x11Dictionary (names : List Str) (lookup : Nat → Nat → Option (List Nat)) : List (Nat × List Stroke) :=
  (modifierCombinations.flatMap (fun state => names.zipIdx.map (fun x => (state, x)))).foldl (x11Visit lookup) []

end KM
