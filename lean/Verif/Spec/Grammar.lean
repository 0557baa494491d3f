import Verif.Model.StringTyper
/-!
# Specification: the grammar of output expressions

The syntax of output expressions, as in the section "Output expression" of the README, and what an
expression means. The texts of an expression are described by a relation, since there can be spaces
everywhere.
-/
namespace KM

/-! ### syntax trees -/

/-- An output expression: a list of terms. -/
inductive OutExpr where
  | nil
  /-- `A` or `(A B)` -/
  | keys (c : List Key) (rest : OutExpr)
  /-- `A{ body }` or `(A B){ body }` -/
  | hold (c : List Key) (body rest : OutExpr)
  /-- `!A` -/
  | not (k : Key) (rest : OutExpr)
  /-- `100ms` -/
  | delay (ms : Nat) (rest : OutExpr)
  /-- `"text"` or `'text'` -/
  | type (s : Str) (rest : OutExpr)
  /-- `$(command)` -/
  | run (command : Str) (rest : OutExpr)
  /-- `^` -/
  | onRelease (rest : OutExpr)
deriving DecidableEq, Repr

/-- does an expression begin with `!A` -/
def OutExpr.beginsWithNot : OutExpr → Bool
  | .not _ _ => true
  | _ => false

/-- the number of `^` -/
def OutExpr.releases : OutExpr → Nat
  | .nil => 0
  | .keys _ rest | .not _ rest | .delay _ rest | .type _ rest | .run _ rest => rest.releases
  | .hold _ body rest => body.releases + rest.releases
  | .onRelease rest => rest.releases + 1

/-- Within braces there is no `^` and no terminal command. -/
def OutExpr.noCommands : OutExpr → Prop
  | .nil => True
  | .keys _ rest | .not _ rest | .delay _ rest | .type _ rest => rest.noCommands
  | .hold _ body rest => body.noCommands ∧ rest.noCommands
  | .run _ _ | .onRelease _ => False

/-- the keys which can be output (a delay is not a key, `ContextActive` is only for inputs) -/
def Outputable (k : Key) : Prop := k ≠ Key.timeout ∧ k ≠ Key.ContextActive

/-- The rules for the places of the terms: keys are not empty, texts can be typed, and there is no `^` and no terminal
command within braces -/
def OutExpr.Valid (typer : Typer) : OutExpr → Prop
  | .nil => True
  | .keys c rest => (c ≠ [] ∧ ∀ k ∈ c, Outputable k) ∧ rest.Valid typer
  | .hold c body rest => (c ≠ [] ∧ ∀ k ∈ c, Outputable k) ∧ body.Valid typer ∧ body.noCommands ∧ rest.Valid typer
  | .not k rest => Outputable k ∧ rest.Valid typer
  | .delay _ rest | .run _ rest | .onRelease rest => rest.Valid typer
  | .type s rest => (∃ keys, typer s = some keys ∧ ∀ t ∈ keys, Outputable t.key) ∧ rest.Valid typer

/-- No key is pressed or released (`!A`) while it is held. `A` in `A{B}` and `A !B` is held. -/
def OutExpr.Fresh : List Key → OutExpr → Prop
  | _, .nil => True
  | held, .keys c rest =>
    if rest.beginsWithNot then rest.Fresh (held ++ c) else (∀ k ∈ c, k ∉ held) ∧ rest.Fresh held
  | held, .hold c body rest => body.Fresh (held ++ c) ∧ rest.Fresh held
  | held, .not k rest => k ∉ held ∧ rest.Fresh held
  | held, .delay _ rest | held, .type _ rest | held, .run _ rest | held, .onRelease rest => rest.Fresh held

/-! ### meaning -/

/-- press keys -/
def pressKeys (c : List Key) : KeySequence := c.map (fun k => ⟨k, .Down, 0⟩)
/-- release keys -/
def releaseKeys (c : List Key) : KeySequence := c.map (fun k => ⟨k, .Up, 0⟩)

/-- The modifier keys which are pressed for typing, in the order in which they are changed -/
def modifierKeys : List ((Mods → Bool) × Key) :=
  [(Mods.shift, Key.Shift), (Mods.alt, Key.AltLeft), (Mods.altGr, Key.AltRight), (Mods.control, Key.Control)]

/-- press and release the modifiers which change -/
def changeModifiers (old new : Mods) : KeySequence :=
  modifierKeys.flatMap (fun m =>
    if m.1 old = m.1 new then [] else if m.1 new then [⟨m.2, .Down, 0⟩] else [⟨m.2, .Up, 0⟩])

/-- type keys with their modifiers; `old` are the modifiers which are held before -/
def typeKeys : Mods → List TypedKey → KeySequence
  | old, [] => changeModifiers old {}
  | old, t :: ts => changeModifiers old t.mods ++ [⟨t.key, .Down, t.value⟩, ⟨t.key, .Up, t.value⟩] ++ typeKeys t.mods ts

/-- The events of an output expression, when `commands` terminal commands were defined before. Keys in front of braces are
held for what is in the braces; keys in front of `!A` are held until the end (of the braces). A text releases all
keys before (unless it is in braces). Terminal commands have keys, numbered in the order of their definition. -/
def OutExpr.events (typer : Typer) (inBraces : Bool) : (commands : Nat) → OutExpr → KeySequence
  | _, .nil => []
  | n, .keys c rest =>
    if rest.beginsWithNot then pressKeys c ++ rest.events typer inBraces n ++ releaseKeys c.reverse
    else pressKeys c ++ releaseKeys c ++ rest.events typer inBraces n
  | n, .hold c body rest =>
    pressKeys c ++ body.events typer true n ++ releaseKeys c.reverse ++ rest.events typer inBraces n
  | n, .not k rest => ⟨k, .Not, 0⟩ :: rest.events typer inBraces n
  | n, .delay ms rest => ⟨Key.timeout, .Down, ms⟩ :: rest.events typer inBraces n
  | n, .type s rest =>
    (if inBraces then [] else [⟨Key.any, .Not, 0⟩]) ++ typeKeys {} ((typer s).getD []) ++ rest.events typer inBraces n
  | n, .run _ rest => ⟨Key.first_action + n, .Down, 0⟩ :: rest.events typer inBraces (n + 1)
  | n, .onRelease rest => ⟨Key.none, .OutputOnRelease, 0⟩ :: rest.events typer inBraces n

/-- the terminal commands -/
def OutExpr.commands : OutExpr → List Str
  | .nil => []
  | .keys _ rest | .hold _ _ rest | .not _ rest | .delay _ rest | .type _ rest | .onRelease rest => rest.commands
  | .run command rest => command :: rest.commands

/-- Are keys used as modifiers: braces, or texts with modifiers -/
def OutExpr.usesModifiers (typer : Typer) : OutExpr → Bool
  | .nil => false
  | .keys _ rest | .not _ rest | .delay _ rest | .run _ rest | .onRelease rest => rest.usesModifiers typer
  | .hold _ _ _ => true
  | .type s rest => ((typer s).getD []).any (fun t => t.mods != {}) || rest.usesModifiers typer

/-- a delay -/
def isDelayEvent (e : KeyEvent) : Bool := e.key == Key.timeout && e.state == .Down

/-- append an event; a delay directly behind a delay extends it (up to the longest possible one, 4095 ms) -/
def appendEvent (l : KeySequence) (e : KeyEvent) : KeySequence :=
  match l.getLast? with
  | some d => if isDelayEvent d && isDelayEvent e then l.dropLast ++ [{ d with value := min 4095 (d.value + e.value) }] else l ++ [e]
  | none => l ++ [e]

/-- combine consecutive delays -/
def joinDelays (l : KeySequence) : KeySequence := l.foldl appendEvent []

/-- no key is pressed after one was released -/
def pressedAtOnce : KeySequence → Bool
  | [] => true
  | e :: l => if e.state == .Up then l.all (fun d => d.state != .Down) else pressedAtOnce l

/-- without the releases at the end -/
def withoutLastReleases (l : KeySequence) : KeySequence := (l.reverse.dropWhile (fun e => e.state == .Up)).reverse

/-- **What an output expression means.** When all keys are pressed before one is released, and none is used as a
modifier, then they are not released (they are together with the key which triggers the output). -/
def OutExpr.meaning (typer : Typer) (commands : Nat) (e : OutExpr) : KeySequence :=
  let l := joinDelays (e.events typer false commands)
  if !e.usesModifiers typer && pressedAtOnce l then withoutLastReleases l else l

/-! ### texts -/

/-- only white space -/
def Spaces (s : Str) : Prop := ∀ c ∈ s, isSpaceC c = true

/-- A delay begins with digits followed by `ms`. -/
def beginsWithDelay (s : Str) : Bool :=
  !(s.takeWhile isDigitC).isEmpty && (s.dropWhile isDigitC).take 2 == ['m', 's']

/-- The name of a key: letters, digits, `_` and `-`, which do not begin like a delay -/
structure Names (getKey : Str → Key) (name : Str) (k : Key) : Prop where
  nonempty : name ≠ []
  chars : ∀ c ∈ name, isIdentChar c = true
  key : getKey name = k
  exists_ : k ≠ Key.none
  noDelay : beginsWithDelay name = false

/-- after a name (and in general after a text which ends with a letter or digit) there has to be another character -/
def Apart (a b : Str) : Prop := ∀ c d, a.getLast? = some c → b.head? = some d → isIdentChar c = false ∨ isIdentChar d = false

/-- names in parentheses, with white space between them -/
inductive NameList (getKey : Str → Key) : List Key → Str → Prop
  | nil (sp : Str) (hs : Spaces sp) : NameList getKey [] sp
  | cons {sp name k ks t} (hs : Spaces sp) (hn : Names getKey name k) (ht : NameList getKey ks t) (ha : Apart name t) :
      NameList getKey (k :: ks) (sp ++ name ++ t)

/-- `A` or `(A B)` -/
inductive KeysText (getKey : Str → Key) : List Key → Str → Prop
  | one {name k} (hn : Names getKey name k) : KeysText getKey [k] name
  | together {ks t} (h : NameList getKey ks t) : KeysText getKey ks ('(' :: t ++ [')'])

/-- the parentheses in a terminal command match, `level` of them are open -/
def parensMatch (level : Nat) : Str → Bool
  | [] => level == 0
  | c :: cs =>
    if c == '(' then parensMatch (level + 1) cs
    else if c == ')' then level != 0 && parensMatch (level - 1) cs
    else parensMatch level cs

/-- The texts of an output expression -/
inductive OutText (getKey : Str → Key) : OutExpr → Str → Prop
  | nil {sp} (hs : Spaces sp) : OutText getKey .nil sp
  | keys {sp c t rest r} (hs : Spaces sp) (hc : KeysText getKey c t) (hr : OutText getKey rest r) (ha : Apart t r) :
      OutText getKey (.keys c rest) (sp ++ t ++ r)
  | hold {sp c t sp' body b rest r} (hs : Spaces sp) (hc : KeysText getKey c t) (hs' : Spaces sp')
      (hb : OutText getKey body b) (hr : OutText getKey rest r) :
      OutText getKey (.hold c body rest) (sp ++ t ++ sp' ++ '{' :: b ++ '}' :: r)
  | not {sp name k rest r} (hs : Spaces sp) (hn : Names getKey name k) (hr : OutText getKey rest r) (ha : Apart name r) :
      OutText getKey (.not k rest) (sp ++ '!' :: name ++ r)
  | delay {sp ds rest r} (hs : Spaces sp) (hne : ds ≠ []) (hd : ∀ c ∈ ds, isDigitC c = true)
      (hv : digitsVal ds < 2147483648) (hr : OutText getKey rest r) :
      OutText getKey (.delay (min 4095 (digitsVal ds)) rest) (sp ++ ds ++ 'm' :: 's' :: r)
  | type {sp quote s rest r} (hs : Spaces sp) (hq : quote = '"' ∨ quote = '\'') (hn : quote ∉ s) (hr : OutText getKey rest r) :
      OutText getKey (.type s rest) (sp ++ quote :: s ++ quote :: r)
  | run {sp command rest r} (hs : Spaces sp) (hp : parensMatch 0 command = true) (hr : OutText getKey rest r) :
      OutText getKey (.run command rest) (sp ++ '$' :: '(' :: command ++ ')' :: r)
  | onRelease {sp rest r} (hs : Spaces sp) (hr : OutText getKey rest r) :
      OutText getKey (.onRelease rest) (sp ++ '^' :: r)

end KM
