import Verif.Model.Layout
/-!
# What keys type on a keyboard

Specification for the dictionaries of characters: a keyboard with one layout types, for a key which is pressed with modifiers, the symbol of the level which these modifiers select.
-/
namespace KM

/-- The modifiers, as X11 sees them: Shift, Alt is Mod1, AltGr is Mod5 -/
def Mods.mask (m : Mods) : Nat := (if m.shift then 1 else 0) + (if m.alt then 8 else 0) + (if m.altGr then 128 else 0)

/-- The symbol a key with modifiers types in the layout number `g` -/
def XkbKeymap.types (km : XkbKeymap) (g : Nat) (stroke : Stroke) : Option Sym := do
  let x ← km.keys.find? (fun x => x.key == stroke.1)
  let levels ← x.layouts[g]?
  let level ← levels.find? (fun l => l.masks.contains stroke.2.mask)
  level.syms.head?

/-- Ordinary keymaps: each key has one key code, each mask selects one level -/
structure XkbKeymap.Ordinary (km : XkbKeymap) : Prop where
  keys : ((km.keys.map XkbKey.key).filter (· ≠ Key.none)).Nodup
  levels : ∀ x ∈ km.keys, ∀ levels ∈ x.layouts, levels.Pairwise (fun a b => ∀ m ∈ a.masks, m ∉ b.masks)

/-- Only one layout -/
def XkbKeymap.OneLayout (km : XkbKeymap) : Prop := ∀ x ∈ km.keys, x.layouts.length ≤ 1

/-- Each level can be reached by Shift, Alt and AltGr -/
def XkbKeymap.Reachable (km : XkbKeymap) : Prop :=
  ∀ x ∈ km.keys, ∀ levels ∈ x.layouts, ∀ l ∈ levels, ∀ m, l.masks.head? = some m → m ∈ [0, 1, 8, 9, 128, 129, 136, 137]

/-- The keymap has the symbol on a key with a known name (which does not have the greatest key code) -/
def XkbKeymap.HasSym (km : XkbKeymap) (s : Sym) : Prop :=
  ∃ x ∈ km.keys.dropLast, x.key ≠ Key.none ∧ ∃ levels ∈ x.layouts, ∃ l ∈ levels, l.syms.head? = some s ∧ l.masks ≠ []

/-- The keymap has the character on a key with a known name (which does not have the greatest key code) -/
def XkbKeymap.Has (km : XkbKeymap) (c : Nat) : Prop :=
  ∃ x ∈ km.keys.dropLast, x.key ≠ Key.none ∧ ∃ levels ∈ x.layouts, ∃ l ∈ levels, ∃ s, l.syms.head? = some s ∧ l.masks ≠ [] ∧ km.toChar s = c ∧ c ≠ 0

/-- POSIX: the locale for characters is the value of the first of LC_ALL, LC_CTYPE and LANG which is set and not empty -/
def characterLocale : List (Option Str) → Str
  | [] => "C".toList
  | some (c :: cs) :: _ => c :: cs
  | _ :: l => characterLocale l

/-- The value of a digit -/
def digitValue (c : Char) : Option Nat := if '0' ≤ c ∧ c ≤ '9' then some (c.toNat - '0'.toNat) else none

/-- `keycodes/evdev` of `xkeyboard-config`: the code of the key with this name in the main block. The name of most keys consists of the row (E is the one with the digits, B the lowest with
letters) and the position in this row. -/
def evdevKeycode : Str → Option Nat
  | ['A', row, d1, d2] => do
    let n := 10 * (← digitValue d1) + (← digitValue d2)
    if row = 'E' ∧ 1 ≤ n ∧ n ≤ 12 then some (1 + n)
    else if row = 'D' ∧ 1 ≤ n ∧ n ≤ 12 then some (15 + n)
    else if row = 'C' ∧ 1 ≤ n ∧ n ≤ 11 then some (29 + n)
    else if row = 'C' ∧ n = 12 then some 43
    else if row = 'B' ∧ 1 ≤ n ∧ n ≤ 10 then some (43 + n)
    else if row = 'B' ∧ n = 11 then some 89
    else none
  | name =>
    if name = "ESC".toList then some 1 else if name = "BKSP".toList then some 14 else if name = "TAB".toList then some 15 else if name = "RTRN".toList then some 28
    else if name = "TLDE".toList then some 41 else if name = "BKSL".toList then some 43 else if name = "SPCE".toList then some 57 else if name = "LSGT".toList then some 86 else none

end KM
