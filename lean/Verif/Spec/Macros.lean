import Verif.Spec.Grammar
import Verif.Model.Preprocess
/-!
# Specification: aliases and macros

The texts in which aliases and macros are replaced, as in the section "Key aliases / Macros" of the README, and what they
are replaced with.
-/
namespace KM

/-! ### texts -/

def Word (n : Str) : Prop := n ≠ [] ∧ ∀ c ∈ n, isIdentChar c = true

def isQuote (c : Char) : Bool := c == '"' || c == '\''

/-- a string in quotes -/
def Quoted (s : Str) : Prop := ∃ q u, isQuote q = true ∧ q ∉ u ∧ s = q :: u ++ [q]

/-- the text does not begin with a character of this kind -/
def NotBefore (f : Char → Bool) (t : Str) : Prop := ∀ c, t.head? = some c → f c = false

/-- Pieces of strings, terminal commands and regular expressions -/
inductive StrPiece where
  | text (s : Str)
  /-- `$name` -/
  | var (name : Str)
  /-- `${name}` -/
  | varBraces (name : Str)
deriving DecidableEq, Repr

/-- the text of pieces -/
inductive PieceText : List StrPiece → Str → Prop
  | nil : PieceText [] []
  | text {s ps t} (hs : '$' ∉ s) (ht : PieceText ps t) : PieceText (.text s :: ps) (s ++ t)
  /-- a `$` which is not followed by a name -/
  | dollar {ps t} (ht : PieceText ps t) (hn : NotBefore (fun c => isIdentChar c || c == '{') t) :
      PieceText (.text ['$'] :: ps) ('$' :: t)
  | var {n ps t} (hn : Word n) (ht : PieceText ps t) (he : NotBefore isIdentChar t) : PieceText (.var n :: ps) ('$' :: n ++ t)
  | varBraces {n ps t} (hn : Word n) (ht : PieceText ps t) : PieceText (.varBraces n :: ps) ('$' :: '{' :: n ++ '}' :: t)

/-- texts in which brackets and quotes match; two strings are not next to each other. Outside of strings and brackets, there is
none of the characters `stop`. -/
inductive BracketsMatch : (stop : Char → Bool) → Str → Prop
  | nil {stop} : BracketsMatch stop []
  | char {stop c t} (hc : isQuote c = false ∧ c ≠ '[' ∧ c ≠ ']' ∧ stop c = false) (ht : BracketsMatch stop t) : BracketsMatch stop (c :: t)
  | string {stop s t} (hs : Quoted s) (ht : BracketsMatch stop t) (hn : NotBefore isQuote t) : BracketsMatch stop (s ++ t)
  | brackets {stop b t} (hb : BracketsMatch (fun _ => false) b) (ht : BracketsMatch stop t) : BracketsMatch stop ('[' :: b ++ ']' :: t)

/-- texts in which quotes match; two strings are not next to each other. Outside of strings, there is none of the characters
`stop`. -/
inductive QuotesMatch (stop : Char → Bool) : Str → Prop
  | nil : QuotesMatch stop []
  | char {c t} (hc : isQuote c = false ∧ stop c = false) (ht : QuotesMatch stop t) : QuotesMatch stop (c :: t)
  | string {s t} (hs : Quoted s) (ht : QuotesMatch stop t) (hn : NotBefore isQuote t) : QuotesMatch stop (s ++ t)

/-- no white space around -/
def Trimmed (a : Str) : Prop := NotBefore isSpaceC a ∧ NotBefore isSpaceC a.reverse

/-- the arguments of a macro: separated by commas, with white space around them -/
inductive ArgsText : List Str → Str → Prop
  | one {s1 a s2} (h1 : Spaces s1) (h2 : Spaces s2) (ha : Trimmed a) (hb : BracketsMatch (fun c => c == ',') a) :
      ArgsText [a] (s1 ++ a ++ s2)
  | cons {s1 a s2 as t} (h1 : Spaces s1) (h2 : Spaces s2) (ha : Trimmed a) (hb : BracketsMatch (fun c => c == ',') a)
      (ht : ArgsText as t) : ArgsText (a :: as) (s1 ++ a ++ s2 ++ ',' :: t)

/-- Strings, terminal commands, regular expressions -/
inductive Literal : Str → Prop
  | string {s} (h : Quoted s) : Literal s
  | command {u} (h : QuotesMatch (fun c => c == ')') u) : Literal ('$' :: '(' :: u ++ [')'])
  | regex {u} (h : ∀ c ∈ u, c ≠ '/' ∧ c ≠ '\\') : Literal ('/' :: u ++ ['/'])
  | regexIgnoreCase {u} (h : ∀ c ∈ u, c ≠ '/' ∧ c ≠ '\\') : Literal ('/' :: u ++ ['/', 'i'])

/-- Tokens -/
inductive Tok where
  | word (n : Str)
  /-- `name[a, b]`; `list` is the text in brackets -/
  | call (n : Str) (args : List Str) (list : Str)
  /-- `name[a, b][c]`; `more` are the further argument lists -/
  | callMore (n : Str) (args : List Str) (list more : Str)
  /-- `name[a, b]`, possibly followed by a further argument list -/
  | callThen (n : Str) (args : List Str) (list : Str)
  | literal (ps : List StrPiece)
  | other (c : Char)
deriving DecidableEq, Repr

/-- further argument lists -/
inductive ListsText : Str → Prop
  | nil : ListsText []
  | cons {args list t} (ha : ArgsText args list) (ht : ListsText t) : ListsText ('[' :: list ++ ']' :: t)

/-- The text of tokens, possibly followed by a comment -/
inductive TokText : List Tok → Str → Prop
  | nil : TokText [] []
  | comment {c t} (hc : c = '#' ∨ c = ';') : TokText [] (c :: t)
  | word {n ts t} (hn : Word n) (ht : TokText ts t) (he : NotBefore (fun c => isIdentChar c || c == '[') t) :
      TokText (.word n :: ts) (n ++ t)
  | call {n args list ts t} (hn : Word n) (ha : ArgsText args list) (ht : TokText ts t) (hm : QuotesMatch (fun _ => false) t)
      (he : NotBefore (fun c => c == '[') t) : TokText (.call n args list :: ts) (n ++ '[' :: list ++ ']' :: t)
  | callMore {n args list more ts t} (hn : Word n) (ha : ArgsText args list) (hl : ListsText more) (ht : TokText ts t)
      (hm : QuotesMatch (fun _ => false) t) (he : NotBefore (fun c => c == '[') t) :
      TokText (.callMore n args list more :: ts) (n ++ '[' :: list ++ ']' :: (more ++ t))
  | callThen {n args list ts t} (hn : Word n) (ha : ArgsText args list) (ht : TokText ts t) (hm : QuotesMatch (fun _ => false) t) :
      TokText (.callThen n args list :: ts) (n ++ '[' :: list ++ ']' :: t)
  | literal {s ps ts t} (hs : Literal s) (hp : PieceText ps s) (ht : TokText ts t)
      (hi : s.head? = some '/' → NotBefore (fun c => c == 'i') t) : TokText (.literal ps :: ts) (s ++ t)
  | other {c ts t} (hc : isIdentChar c = false ∧ isQuote c = false ∧ c ≠ '#' ∧ c ≠ ';' ∧ c ≠ '/')
      (hd : c = '$' → NotBefore (fun c => c == '(') t) (ht : TokText ts t) : TokText (.other c :: ts) (c :: t)

/-! ### arguments -/

/-- Pieces of the definition of a macro with parameters -/
inductive BodyPiece where
  | text (s : Str)
  /-- `$0` -/
  | arg (i : Nat)
  /-- `$$` -/
  | count
deriving DecidableEq, Repr

/-- the text of a definition -/
inductive BodyText : List BodyPiece → Str → Prop
  | nil : BodyText [] []
  | text {s ps t} (hs : '$' ∉ s) (ht : BodyText ps t) : BodyText (.text s :: ps) (s ++ t)
  /-- a `$` which is not followed by a number or `$` -/
  | dollar {ps t} (ht : BodyText ps t) (hn : NotBefore (fun c => isDigitC c || c == '$') t) : BodyText (.text ['$'] :: ps) ('$' :: t)
  | arg {ds ps t} (hne : ds ≠ []) (hd : ∀ c ∈ ds, isDigitC c = true) (ht : BodyText ps t) (he : NotBefore isDigitC t) :
      BodyText (.arg (digitsVal ds) :: ps) ('$' :: ds ++ t)
  | count {ps t} (ht : BodyText ps t) : BodyText (.count :: ps) ('$' :: '$' :: t)

/-- a value in quotes is inserted without them -/
def insertedValue (s : Str) : Str :=
  match s with
  | c :: d :: ds => if some c = (d :: ds).getLast? ∧ isQuote c then (d :: ds).dropLast else s
  | _ => s

/-- the parameters replaced by arguments; missing ones are empty -/
def fillBody (args : List Str) : List BodyPiece → Str
  | [] => []
  | .text s :: ps => s ++ fillBody args ps
  | .arg i :: ps => insertedValue (args[i]?.getD []) ++ fillBody args ps
  | .count :: ps => (toString (args.length : Int)).toList ++ fillBody args ps

/-- a text without parameters outside of strings -/
inductive NoParameters : Str → Prop
  | nil : NoParameters []
  | char {c t} (hc : isQuote c = false ∧ c ≠ '$') (ht : NoParameters t) : NoParameters (c :: t)
  | string {s t} (hs : Quoted s) (ht : NoParameters t) (hn : NotBefore isQuote t) : NoParameters (s ++ t)
  | dollar {t} (ht : NoParameters t) (hn : NotBefore (fun c => isDigitC c || c == '-') t) : NoParameters ('$' :: t)

/-- a text with a parameter outside of strings -/
inductive HasParameter : Str → Prop
  | here {ds t} (hne : ds ≠ []) (hd : ∀ c ∈ ds, isDigitC c = true) (hv : digitsVal ds < 2147483648) (he : NotBefore isDigitC t) :
      HasParameter ('$' :: ds ++ t)
  | char {c t} (hc : isQuote c = false ∧ c ≠ '$') (ht : HasParameter t) : HasParameter (c :: t)
  | string {s t} (hs : Quoted s) (ht : HasParameter t) (hn : NotBefore isQuote t) : HasParameter (s ++ t)

/-! ### builtin macros -/

/-- the numbers of builtin macros -/
def InRange (a : Int) : Prop := -2147483648 ≤ a ∧ a < 2147483648

/-- the text of a number -/
inductive IntText : Int → Str → Prop
  | pos {ds} (hne : ds ≠ []) (hd : ∀ c ∈ ds, isDigitC c = true) (hv : InRange (digitsVal ds)) : IntText (digitsVal ds) ds
  | neg {ds} (hne : ds ≠ []) (hd : ∀ c ∈ ds, isDigitC c = true) (hv : InRange (-(digitsVal ds : Int))) :
      IntText (-(digitsVal ds)) ('-' :: ds)

/-- division with remainder, truncating towards zero -/
def Divides (a b q r : Int) : Prop := a = b * q + r ∧ r.natAbs < b.natAbs ∧ 0 ≤ r * a

/-- the number of parameters: one more than the largest one used -/
def arity : List BodyPiece → Nat
  | [] => 0
  | .arg i :: ps => max (i + 1) (arity ps)
  | _ :: ps => arity ps

/-- the texts one after the other, or in lines of their own -/
def joined (lines : Bool) : List Str → Str
  | [] => []
  | [t] => t
  | t :: ts => t ++ (if lines then ['\n'] else []) ++ joined lines ts

/-- the results of the builtin macros -/
inductive Builtin : Str → List Str → Str → Prop
  | length {q u} (hq : isQuote q = true) : Builtin "length".toList [q :: u ++ [q]] (toString (u.length : Int)).toList
  | repeat {a ds} (hne : ds ≠ []) (hd : ∀ c ∈ ds, isDigitC c = true) (hv : digitsVal ds < 2147483648) :
      Builtin "repeat".toList [a, ds] (List.replicate (digitsVal ds) (a ++ [' '])).flatten
  | repeatNegative {a n s} (hs : IntText n s) (hn : n < 0) : Builtin "repeat".toList [a, s] []
  | default {a b} : Builtin "default".toList [a, b] (if a = [] then b else a)
  | add {a b s t} (ha : IntText a s) (hb : IntText b t) (hr : InRange (a + b)) :
      Builtin "add".toList [s, t] (toString (a + b)).toList
  | sub {a b s t} (ha : IntText a s) (hb : IntText b t) (hr : InRange (a - b)) :
      Builtin "sub".toList [s, t] (toString (a - b)).toList
  | mul {a b s t} (ha : IntText a s) (hb : IntText b t) (hr : InRange (a * b)) :
      Builtin "mul".toList [s, t] (toString (a * b)).toList
  | div {a b q r s t} (ha : IntText a s) (hb : IntText b t) (hd : Divides a b q r) (hq : InRange q) :
      Builtin "div".toList [s, t] (toString q).toList
  | mod {a b q r s t} (ha : IntText a s) (hb : IntText b t) (hd : Divides a b q r) (hq : InRange q) :
      Builtin "mod".toList [s, t] (toString r).toList
  | divZero {a s t} (ha : IntText a s) (hb : IntText 0 t) : Builtin "div".toList [s, t] []
  | modZero {a s t} (ha : IntText a s) (hb : IntText 0 t) : Builtin "mod".toList [s, t] []
  | min {a b s t} (ha : IntText a s) (hb : IntText b t) : Builtin "min".toList [s, t] (toString (if a ≤ b then a else b)).toList
  | max {a b s t} (ha : IntText a s) (hb : IntText b t) : Builtin "max".toList [s, t] (toString (if a ≤ b then b else a)).toList
  /-- the text is repeated for groups of arguments, `$0`, `$1`, ... are replaced by those of the group. Arguments which are too
  few for another group are ignored. Mappings are put in lines of their own. -/
  | apply {t ps lines} {groups : List (List Str)} {left : List Str} (hb : BodyText ps (insertedValue t)) (hc : BodyPiece.count ∉ ps)
      (hg : ∀ g ∈ groups, g.length = arity ps ∧ g ≠ []) (hl : left.length < arity ps ∨ arity ps = 0)
      (hm : lines = true ↔ ['>', '>'] <:+: insertedValue t) :
      Builtin "apply".toList (t :: (groups.flatten ++ left))
        (joined lines (groups.map (fun g => fillBody g ps)))

/-! ### replacing -/

/-- What is replaced -/
inductive Source where
  | text (t : Str)
  /-- `apply` is false for the definition of a macro, in which arguments are not yet applied -/
  | toks (apply : Bool) (ts : List Tok)
  | pieces (ps : List StrPiece)
  | args (as : List Str)

/-- **Replacing aliases and macros.** `macros` are the definitions, the number is the number of nested replacements which are
possible. The result is a list, of one element except for `args`. -/
inductive Expand (macros : Macros) : Nat → Source → List Str → Prop
  /-- a word which is not defined -/
  | plain {l n} (hn : Word n) (hm : macros.get n = none) : Expand macros (l + 1) (.text n) [n]
  /-- a defined word -/
  | alias {l n m r} (hn : Word n) (hm : macros.get n = some m) (hr : Expand macros l (.text m) [r]) :
      Expand macros (l + 1) (.text n) [r]
  | text {l sp ts t r} (hs : Spaces sp) (hn : NotBefore isSpaceC t) (ht : TokText ts t) (hw : ¬ Word (sp ++ t))
      (hr : Expand macros l (.toks true ts) [r]) : Expand macros (l + 1) (.text (sp ++ t)) [r]
  | nil {l ap} : Expand macros l (.toks ap []) [[]]
  | word {l ap n ts a r} (ha : Expand macros l (.text n) [a]) (hr : Expand macros l (.toks ap ts) [r]) :
      Expand macros l (.toks ap (.word n :: ts)) [a ++ r]
  | other {l ap c ts r} (hr : Expand macros l (.toks ap ts) [r]) : Expand macros l (.toks ap (.other c :: ts)) [c :: r]
  | literal {l ap ps ts a r} (ha : Expand macros l (.pieces ps) [a]) (hr : Expand macros l (.toks ap ts) [r]) :
      Expand macros l (.toks ap (.literal ps :: ts)) [a ++ r]
  | callKept {l n args list ts r} (hr : Expand macros l (.toks false ts) [r]) :
      Expand macros l (.toks false (.call n args list :: ts)) [n ++ '[' :: list ++ ']' :: r]
  /-- the parameters are replaced by the arguments, then the result is replaced again -/
  | call {l n args list vals m ps a ts r} (hv : Expand macros l (.args args) vals) (hm : macros.get n = some m)
      (hb : BodyText ps m) (hp : NoParameters (fillBody vals ps)) (ha : Expand macros l (.text (fillBody vals ps)) [a])
      (hr : Expand macros l (.toks true ts) [r]) : Expand macros l (.toks true (.call n args list :: ts)) [a ++ r]
  | builtin {l n args list vals b a ts r} (hv : Expand macros l (.args args) vals) (hm : macros.get n = none)
      (hb : Builtin n vals b) (hp : NoParameters b) (ha : Expand macros l (.text b) [a])
      (hr : Expand macros l (.toks true ts) [r]) : Expand macros l (.toks true (.call n args list :: ts)) [a ++ r]
  /-- further arguments are applied to the result -/
  | callMore {l n args list more vals m ps a ts r} (hv : Expand macros l (.args args) vals) (hm : macros.get n = some m)
      (hb : BodyText ps m) (hp : NoParameters (fillBody vals ps)) (ha : Expand macros l (.text (fillBody vals ps ++ more)) [a])
      (hr : Expand macros l (.toks true ts) [r]) : Expand macros l (.toks true (.callMore n args list more :: ts)) [a ++ r]
  | builtinMore {l n args list more vals b a ts r} (hv : Expand macros l (.args args) vals) (hm : macros.get n = none)
      (hb : Builtin n vals b) (hp : NoParameters b) (ha : Expand macros l (.text (b ++ more)) [a])
      (hr : Expand macros l (.toks true ts) [r]) : Expand macros l (.toks true (.callMore n args list more :: ts)) [a ++ r]
  | callThenKept {l n args list ts r} (hr : Expand macros l (.toks false ts) [r]) :
      Expand macros l (.toks false (.callThen n args list :: ts)) [n ++ '[' :: list ++ ']' :: r]
  /-- when the result still has parameters (in an argument of `apply`), it is not yet replaced again -/
  | callOpen {l n args list vals m ps ts r} (hv : Expand macros l (.args args) vals) (hm : macros.get n = some m)
      (hb : BodyText ps m) (hp : HasParameter (fillBody vals ps))
      (hr : Expand macros l (.toks true ts) [r]) : Expand macros l (.toks true (.callThen n args list :: ts)) [fillBody vals ps ++ r]
  | builtinOpen {l n args list vals b ts r} (hv : Expand macros l (.args args) vals) (hm : macros.get n = none)
      (hb : Builtin n vals b) (hp : HasParameter b)
      (hr : Expand macros l (.toks true ts) [r]) : Expand macros l (.toks true (.callThen n args list :: ts)) [b ++ r]
  | argsNil {l} : Expand macros l (.args []) []
  | argsCons {l a as v vs} (ha : Expand macros l (.text a) [v]) (hs : Expand macros l (.args as) vs) :
      Expand macros l (.args (a :: as)) (v :: vs)
  | piecesNil {l} : Expand macros l (.pieces []) [[]]
  | pieceText {l s ps r} (h0 : macros.get [] = none) (hr : Expand macros l (.pieces ps) [r]) :
      Expand macros l (.pieces (.text s :: ps)) [s ++ r]
  | var {l n m a ps r} (hm : macros.get n = some m) (ha : Expand macros l (.text n) [a]) (hr : Expand macros l (.pieces ps) [r]) :
      Expand macros l (.pieces (.var n :: ps)) [insertedValue a ++ r]
  | varBraces {l n m a ps r} (hm : macros.get n = some m) (ha : Expand macros l (.text n) [a])
      (hr : Expand macros l (.pieces ps) [r]) : Expand macros l (.pieces (.varBraces n :: ps)) [insertedValue a ++ r]
  /-- an unknown one stays -/
  | varUnknown {l n ps r} (hm : macros.get n = none) (hr : Expand macros l (.pieces ps) [r]) :
      Expand macros l (.pieces (.var n :: ps)) ['$' :: n ++ r]
  | varBracesUnknown {l n ps r} (hm : macros.get n = none) (hr : Expand macros l (.pieces ps) [r]) :
      Expand macros l (.pieces (.varBraces n :: ps)) ['$' :: '{' :: n ++ '}' :: r]

/-! ### lines -/

/-- a line `name = text` -/
def IsDefinition (line : Str) : Prop :=
  ∃ sp n sp2 t, Spaces sp ∧ (∀ c ∈ n, isIdentChar c = true) ∧ Spaces sp2 ∧ line = sp ++ n ++ sp2 ++ '=' :: t

/-- a definition with alternatives: `name = A | B` -/
def HasAlternatives (t : Str) : Prop :=
  ∃ w sp u, (∀ c ∈ w, isIdentChar c = true) ∧ Spaces sp ∧ t = w ++ sp ++ '|' :: u

/-- a line which is continued by the next one -/
def Continued (line : Str) : Prop := ∃ a sp, Spaces sp ∧ line = a ++ '\\' :: sp

end KM
