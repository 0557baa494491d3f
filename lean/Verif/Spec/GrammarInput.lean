import Verif.Spec.Grammar
/-!
# Specification: the grammar of input expressions

The syntax of input expressions, as in the section "Input expressions" of the README, and the events
which are expected.
-/
namespace KM

/-! ### syntax trees -/

/-- An input expression: a list of terms. `together` tells whether the keys are in parentheses. -/
inductive InExpr where
  | nil
  /-- `A` or `(A B)` -/
  | keys (together : Bool) (c : List Key) (rest : InExpr)
  /-- `A{ body }` or `(A B){ body }` -/
  | hold (together : Bool) (c : List Key) (body rest : InExpr)
  /-- `!A` -/
  | not (k : Key) (rest : InExpr)
  /-- `100ms` (`!100ms` when negated) -/
  | timeout (negated : Bool) (ms : Nat) (rest : InExpr)
  /-- `"text"` or `'text'` -/
  | type (s : Str) (rest : InExpr)
deriving DecidableEq, Repr

/-! ### expected events -/

/-- The keys have to be pressed: in any order when they are in parentheses. -/
def expectPresses (together : Bool) (c : List Key) : KeySequence :=
  (if together then c.map (fun k => ⟨k, .DownAsync, 0⟩) else []) ++ c.map (fun k => ⟨k, .Down, 0⟩)

/-- The keys have to be released at any time later. -/
def expectReleases (c : List Key) : KeySequence := c.map (fun k => ⟨k, .UpAsync, 0⟩)

/-- the last event of a key -/
def lastEventOf (l : KeySequence) (k : Key) : Option KeyEvent := l.reverse.find? (fun e => e.key == k)

/-- `!A`: when the key was expected to be pressed before, it has to be released now, otherwise it must not be held. -/
def expectReleased (l : KeySequence) (k : Key) : KeySequence :=
  if l.getLast? = some ⟨k, .UpAsync, 0⟩ then l.dropLast ++ [⟨k, .Up, 0⟩]
  else match lastEventOf l k with
    | some e => if e.state = .Up then l ++ [⟨k, .Not, 0⟩] else l ++ [⟨k, .Up, 0⟩]
    | none => l ++ [⟨k, .Not, 0⟩]

/-- the kinds of timeouts: within braces, also the release of a key ends it -/
def timeoutKind (negated inBraces : Bool) : KeyState :=
  match negated, inBraces with
  | false, false => .Timeout_cancel_on_down
  | false, true => .Timeout_cancel_on_up_down
  | true, false => .NotTimeout_cancel_on_down
  | true, true => .NotTimeout_cancel_on_up_down

/-- a timeout directly behind one of the same kind extends it -/
def expectTimeout (l : KeySequence) (kind : KeyState) (ms : Nat) : KeySequence :=
  match l.getLast? with
  | some d =>
    if d.key == Key.timeout && d.state == kind then l.dropLast ++ [{ d with value := min 4095 (d.value + ms) }]
    else l ++ [⟨Key.timeout, kind, ms⟩]
  | none => l ++ [⟨Key.timeout, kind, ms⟩]

/-- is it a negated timeout -/
def isNegatedTimeout (e : KeyEvent) : Bool :=
  e.key == Key.timeout && (e.state == .NotTimeout_cancel_on_down || e.state == .NotTimeout_cancel_on_up_down)

/-- At the end of braces: when only releases at any time follow a negated timeout, the keys have to be released then. -/
def afterBraces (l : KeySequence) : KeySequence :=
  let ups := (l.reverse.takeWhile (fun e => e.state == .UpAsync)).reverse
  match (l.reverse.dropWhile (fun e => e.state == .UpAsync)).head? with
  | some e => if isNegatedTimeout e then l ++ ups.map (fun e => ⟨e.key, .Up, 0⟩) else l
  | none => l

/-- The modifiers which are expected for a typed character: pressed, or released (for the first character: not held). -/
def expectModifiers (first : Bool) (old new : Mods) : KeySequence :=
  modifierKeys.flatMap (fun m =>
    if m.1 new then (if m.1 old then [⟨m.2, .UpAsync, 0⟩] else []) ++ [⟨m.2, .DownAsync, 0⟩, ⟨m.2, .Down, 0⟩]
    else (if first then [⟨m.2, .Not, 0⟩] else []) ++ (if m.1 old then [⟨m.2, .Up, 0⟩] else []))

/-- the keys of a text; in braces no modifiers are expected -/
def expectTyped (inBraces : Bool) : (first : Bool) → (old : Mods) → List TypedKey → KeySequence
  | _, old, [] => modifierKeys.flatMap (fun m => if m.1 old then [⟨m.2, .UpAsync, 0⟩] else [])
  | first, old, t :: ts =>
    (if inBraces then [] else expectModifiers first old t.mods) ++ [⟨t.key, .Down, 0⟩, ⟨t.key, .UpAsync, 0⟩] ++
      expectTyped inBraces false t.mods ts

/-- The expected events of an input expression, after the events `l` -/
def InExpr.events (typer : Typer) (inBraces : Bool) : KeySequence → InExpr → KeySequence
  | l, .nil => l
  | l, .keys together c rest => rest.events typer inBraces (l ++ expectPresses together c ++ expectReleases c)
  | l, .hold together c body rest =>
    rest.events typer inBraces (afterBraces (body.events typer true (l ++ expectPresses together c) ++ expectReleases c.reverse))
  | l, .not k rest => rest.events typer inBraces (expectReleased l k)
  | l, .timeout negated ms rest => rest.events typer inBraces (expectTimeout l (timeoutKind negated inBraces) ms)
  | l, .type s rest => rest.events typer inBraces (l ++ expectTyped inBraces true {} ((typer s).getD []))

/-- **What an input expression means**; `flag` is an initial `?`. The last releases are then not expected. -/
def InExpr.meaning (typer : Typer) (flag : Bool) (e : InExpr) : KeySequence :=
  if flag then
    ((e.events typer false [⟨Key.none, .NoMightMatch, 0⟩]).reverse.dropWhile (fun e => e.state == .UpAsync)).reverse
  else e.events typer false []

/-! ### rules -/

/-- The rules: keys are not empty; within braces `!A` is only possible directly after `A` (`before` are the keys directly before);
a timeout is only possible after a key (`started`), and `100ms` only without `?` (`flag`); texts can be typed. -/
def InExpr.Valid (typer : Typer) (flag inBraces : Bool) : (started : Bool) → (before : List Key) → InExpr → Prop
  | _, _, .nil => True
  | _, _, .keys _ c rest => (c ≠ [] ∧ ∀ k ∈ c, Outputable k) ∧ rest.Valid typer flag inBraces true c
  | _, _, .hold _ c body rest =>
    (c ≠ [] ∧ ∀ k ∈ c, Outputable k) ∧ body.Valid typer flag true true [] ∧ rest.Valid typer flag inBraces true []
  | st, before, .not k rest => Outputable k ∧ (inBraces = true → k ∈ before) ∧ rest.Valid typer flag inBraces st []
  | st, _, .timeout negated _ rest =>
    st = true ∧ (flag = true → negated = true) ∧ rest.Valid typer flag inBraces st []
  | st, _, .type s rest => ∃ keys, typer s = some keys ∧ (∀ t ∈ keys, Outputable t.key) ∧
      rest.Valid typer flag inBraces (st || !keys.isEmpty) []

/-- `!A` is not used while `A` is held by braces. -/
def InExpr.Fresh : List Key → InExpr → Prop
  | _, .nil => True
  | held, .keys _ _ rest | held, .timeout _ _ rest | held, .type _ rest => rest.Fresh held
  | held, .hold _ c body rest => body.Fresh (held ++ c) ∧ rest.Fresh held
  | held, .not k rest => k ∉ held ∧ rest.Fresh held

/-- some key has to be pressed -/
def InExpr.hasKeys (typer : Typer) : InExpr → Bool
  | .nil => false
  | .keys _ _ _ | .hold _ _ _ _ => true
  | .not _ rest | .timeout _ _ rest => rest.hasKeys typer
  | .type s rest => !((typer s).getD []).isEmpty || rest.hasKeys typer

/-! ### texts -/

/-- The texts of an input expression -/
inductive InText (getKey : Str → Key) : InExpr → Str → Prop
  | nil {sp} (hs : Spaces sp) : InText getKey .nil sp
  | keys {sp c t rest r} (hs : Spaces sp) (hc : KeysText getKey c t) (hr : InText getKey rest r) (ha : Apart t r) :
      InText getKey (.keys (t.head? == some '(') c rest) (sp ++ t ++ r)
  | hold {sp c t sp' body b rest r} (hs : Spaces sp) (hc : KeysText getKey c t) (hs' : Spaces sp')
      (hb : InText getKey body b) (hr : InText getKey rest r) :
      InText getKey (.hold (t.head? == some '(') c body rest) (sp ++ t ++ sp' ++ '{' :: b ++ '}' :: r)
  | not {sp name k rest r} (hs : Spaces sp) (hn : Names getKey name k) (hr : InText getKey rest r) (ha : Apart name r) :
      InText getKey (.not k rest) (sp ++ '!' :: name ++ r)
  | timeout {sp ds rest r} (hs : Spaces sp) (hne : ds ≠ []) (hd : ∀ c ∈ ds, isDigitC c = true)
      (hv : digitsVal ds < 2147483648) (hr : InText getKey rest r) :
      InText getKey (.timeout false (min 4095 (digitsVal ds)) rest) (sp ++ ds ++ 'm' :: 's' :: r)
  | notTimeout {sp ds rest r} (hs : Spaces sp) (hne : ds ≠ []) (hd : ∀ c ∈ ds, isDigitC c = true)
      (hv : digitsVal ds < 2147483648) (hr : InText getKey rest r) :
      InText getKey (.timeout true (min 4095 (digitsVal ds)) rest) (sp ++ '!' :: ds ++ 'm' :: 's' :: r)
  | type {sp quote s rest r} (hs : Spaces sp) (hq : quote = '"' ∨ quote = '\'') (hn : quote ∉ s) (hr : InText getKey rest r) :
      InText getKey (.type s rest) (sp ++ quote :: s ++ quote :: r)

/-- The texts with or without `?` -/
inductive InTextFlag (getKey : Str → Key) : Bool → InExpr → Str → Prop
  | plain {e t} (h : InText getKey e t) : InTextFlag getKey false e t
  | flag {sp e t} (hs : Spaces sp) (h : InText getKey e t) : InTextFlag getKey true e (sp ++ '?' :: t)

end KM
