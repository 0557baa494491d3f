import Verif.Model.KeyName
/-!
# Preprocessing of the configuration: macros, arguments and variables

Models the helpers of `src/config/ParseConfig.cpp` (lines 27-190) and lines 758-948. An exception
is `none`. `int` overflow (undefined behaviour) is not modelled, numbers are exact.
-/
namespace KM

/-- `ParseConfig.cpp:89-95` `trim` -/
def trimStr (s : Str) : Str := trimSpaceEnd (s.dropWhile isSpaceC)

/-- `ParseConfig.cpp:97-103` `unquote` -/
def unquote (s : Str) : Str :=
  match s with
  | c :: d :: ds =>
    if some c == (d :: ds).getLast? && (c == '\'' || c == '"') then (d :: ds).dropLast else s
  | _ => s

/-- `std::to_string` -/
def intToStr (n : Int) : Str := (toString n).toList

/-- `ParseConfig.cpp:111-126`: the loop of `get_argument_list`; `b` and `it` are the texts at
`begin` and `it`. The code could loop endlessly when `skip_arglist` fails (line 119); this is
`none` here. -/
def argumentListGo (fuel : Nat) (b it : Str) (args : List Str) : Option (List Str) :=
  match fuel with
  | 0 => none
  | fuel + 1 =>
    if b.isEmpty then some args
    else
      match skipUntilNotInString [','] it with
      | none => none
      | some (_, it') =>
        if it'.length < b.length then
          match skipUntilNotInString ['['] it with
          | none => none
          | some (true, nextOpen) =>
            if it'.length < nextOpen.length then
              match skipArglist ('[' :: nextOpen) with
              | none => none
              | some none => argumentListGo fuel b ('[' :: nextOpen) args
              | some (some r) => argumentListGo fuel b r args
            else
              argumentListGo fuel it' it' (args ++ [trimStr (b.take (b.length - it'.length - 1))])
          | some (false, _) =>
            argumentListGo fuel it' it' (args ++ [trimStr (b.take (b.length - it'.length - 1))])
        else argumentListGo fuel it' it' args

/-- `ParseConfig.cpp:105-128` `get_argument_list`, of a text beginning with `[`. Every iteration
which does not repeat forever moves forward. -/
def argumentList (list : Str) : Option (List Str) :=
  argumentListGo (2 * list.length + 2) list.tail list.tail []

theorem tryReadNumber_length {it r : Str} {n : Nat} (h : tryReadNumber it = some (n, r)) :
    r.length ≤ it.length := by
  unfold tryReadNumber at h
  simp only [] at h
  split at h
  · simp at h
  · simp at h; rw [← h.2]; exact (List.dropWhile_sublist isDigitC).length_le

/-- `ParseConfig.cpp:130-158` `substitute_arguments` -/
def substituteArguments (args : List Str) (text : Str) : Str :=
  match text with
  | [] => []
  | c :: cs =>
    if c == '$' then
      match _h : tryReadNumber cs with
      | some (n, r) =>
        (match args[n]? with | some a => unquote a | none => []) ++ substituteArguments args r
      | none =>
        match cs with
        | d :: ds =>
          if d == '$' then intToStr args.length ++ substituteArguments args ds
          else c :: substituteArguments args (d :: ds)
        | [] => [c]
    else c :: substituteArguments args cs
termination_by text.length
decreasing_by
  all_goals simp_wf
  all_goals (try have := tryReadNumber_length _h)
  all_goals (try simp at *)
  all_goals omega

/-- `ParseConfig.cpp:160-167` `parse_int` -/
def parseInt (s : Str) : Option Int :=
  match s with
  | '-' :: cs =>
    let ds := cs.takeWhile isDigitC
    if ds.isEmpty then none
    else if digitsVal ds ≤ 2147483648 then some (-(digitsVal ds : Int)) else none
  | cs =>
    let ds := cs.takeWhile isDigitC
    if ds.isEmpty then none
    else if digitsVal ds < 2147483648 then some (digitsVal ds : Int) else none

/-- `ParseConfig.cpp:169-179` `contains_variable` -/
def containsVariable (s : Str) : Option Bool :=
  match skipUntilNotInString ['$'] s with
  | none => none
  | some (false, _) => some false
  | some (true, it) =>
    let (ident, rest) := readIdent it
    if !ident.isEmpty && (parseInt ident).isSome then some true
    else if rest.length < s.length then containsVariable rest else some false
termination_by s.length

/-- `ParseConfig.cpp:181-189` `get_formal_argument_count` -/
def formalArgumentCount (s : Str) : Nat :=
  match s with
  | [] => 0
  | c :: cs =>
    if c == '$' then
      match _h : tryReadNumber cs with
      | some (n, r) => max (n + 1) (formalArgumentCount r)
      | none => formalArgumentCount cs
    else formalArgumentCount cs
termination_by s.length
decreasing_by
  all_goals simp_wf
  all_goals (try have := tryReadNumber_length _h)
  all_goals omega

/-- `ParseConfig.cpp:825-834`: apply a macro to groups of `n` arguments. `first` is `i == 1`. -/
def applyChunks (text : Str) (isMapping : Bool) (n : Nat) (first : Bool) (args : List Str) : Str :=
  if _h : n = 0 ∨ args.length < n then []
  else
    (if isMapping && !first then ['\n'] else []) ++ substituteArguments (args.take n) text ++
      applyChunks text isMapping n false (args.drop n)
termination_by args.length
decreasing_by simp; omega

/-- `ParseConfig.cpp:785-791`: an arithmetic macro. Division truncates. -/
def arithmeticMacro (ident : String) (a b : Int) : Option Str :=
  if ident == "add" then some (intToStr (a + b))
  else if ident == "sub" then some (intToStr (a - b))
  else if ident == "mul" then some (intToStr (a * b))
  else if ident == "div" then some (if b != 0 then intToStr (a.tdiv b) else [])
  else if ident == "mod" then some (if b != 0 then intToStr (a.tmod b) else [])
  else if ident == "min" then some (intToStr (min a b))
  else if ident == "max" then some (intToStr (max a b))
  else none

/-- `ParseConfig.cpp:758-839` `apply_builtin_macro` -/
def builtinMacro (ident : String) (args : List Str) : Option Str :=
  if ident == "length" then
    match args with
    | [s] =>
      if s.length < 2 || (s.head? != some '"' && s.getLast? != some '\'') || s.head? != s.getLast? then none
      else some (intToStr (s.length - 2 : Nat))
    | _ => none
  else if ["add", "sub", "mul", "div", "mod", "min", "max"].contains ident then
    match args with
    | [a, b] =>
      match parseInt a, parseInt b with
      | some a, some b => arithmeticMacro ident a b
      | _, _ => none
    | _ => none
  else if ident == "repeat" then
    match args with
    | [a, n] =>
      match parseInt n with
      | some n => some (List.replicate n.toNat (a ++ [' '])).flatten
      | none => none
    | _ => none
  else if ident == "default" then
    match args with
    | [a, b] => some (if !a.isEmpty then a else b)
    | _ => none
  else if ident == "apply" then
    match args with
    | [] => none
    | text :: rest =>
      some (applyChunks (unquote text) (strContains ['>', '>'] text) (formalArgumentCount text) true rest)
  else none

/-- `std::map<std::string, std::string>`, a list of pairs with distinct names -/
abbrev Macros := List (Str × Str)

/-- `m_macros.find(name)` -/
def Macros.get (m : Macros) (name : Str) : Option Str := (m.find? (fun p => p.1 == name)).map (·.2)

/-- `m_macros[name] = value` -/
def Macros.set (m : Macros) (name value : Str) : Macros :=
  (m.filter (fun p => !(p.1 == name))) ++ [(name, value)]

/-- The text in front of a position -/
def textBefore (b it : Str) : Str := b.take (b.length - it.length)

/-- `ParseConfig.cpp:841-864` `substitute_variables`; `rec` is `preprocess` -/
def substituteVariables (rec : Str → Option Str) (macros : Macros) (s : Str) : Option Str :=
  match skipUntil ['$'] s with
  | none => some s
  | some it =>
    let (brace, it1) := match it with
      | '{' :: r => (true, r)
      | r => (false, r)
    let (ident, it2) := readIdent it1
    let (closed, it3) := match it2 with
      | '}' :: r => if brace then (true, r) else (false, it2)
      | _ => (false, it2)
    if (brace && !closed) || (macros.get ident).isNone then
      if it3.length < s.length then
        (substituteVariables rec macros it3).map (textBefore s it3 ++ ·)
      else none
    else
      match rec ident with
      | none => none
      | some v =>
        if it3.length < s.length then
          (substituteVariables rec macros it3).map
            ((s.take (s.length - it.length - 1)) ++ unquote v ++ ·)
        else none
termination_by s.length

/-- `ParseConfig.cpp:934-936`: skip a string, terminal command or regular expression. Outer `none`
is an exception. -/
def skipLiteral (it : Str) : Option (Option Str) :=
  match skipString it with
  | none => none
  | some (some r) => some (some r)
  | some none =>
    match skipTerminalCommand it with
    | none => none
    | some (some r) => some (some r)
    | some none => skipRegex it

/-- `ParseConfig.cpp:911-932`: apply a macro to its arguments. `list` is the argument list, `it` the
text after it. Returns the result and the text after it. -/
def applyMacro (rec : Str → Option Str) (macros : Macros) (ident list it : Str) : Option (Str × Str) :=
  match argumentList list with
  | none => none
  | some args =>
    match args.mapM rec with
    | none => none
    | some args =>
      let text := match macros.get ident with
        | some m => some (substituteArguments args m)
        | none => builtinMacro (String.ofList ident) args
      match text with
      | none => none
      | some text =>
        match containsVariable text with
        | none => none
        | some true => some (text, it)
        | some false =>
          match skipArglists it with
          | none => none
          | some it' =>
            match rec (text ++ textBefore it it') with
            | none => none
            | some r => some (r, it')

/-- `ParseConfig.cpp:894-946`: the loop of `preprocess`; `rec` is `preprocess` of a string. An
iteration which does not move forward does not exist; it would be `none` here. -/
def preprocessGo (rec : Str → Option Str) (macros : Macros) (applyArguments : Bool) (it : Str) :
    Option Str :=
  match it with
  | [] => some []
  | c :: cs =>
    let (ident, it1) := readIdent (c :: cs)
    let step : Option (Option (Str × Str)) :=
      if !ident.isEmpty then
        match skipArglist it1 with
        | none => none
        | some none => (rec ident).map (fun r => some (r, it1))
        | some (some it2) =>
          if !applyArguments then some (some (ident ++ textBefore it1 it2, it2))
          else (applyMacro rec macros ident (textBefore it1 it2) it2).map some
      else
        match skipLiteral (c :: cs) with
        | none => none
        | some (some it1) =>
          (substituteVariables rec macros (textBefore (c :: cs) it1)).map (fun r => some (r, it1))
        | some none => if c == '#' || c == ';' then some none else some (some ([c], cs))
    match step with
    | none => none
    | some none => some []
    | some (some (text, rest)) =>
      if rest.length < (c :: cs).length then
        (preprocessGo rec macros applyArguments rest).map (text ++ ·)
      else none
termination_by it.length

/-- `ParseConfig.cpp:888-948` `preprocess(It, It, bool)` -/
def preprocessRange (rec : Str → Option Str) (macros : Macros) (applyArguments : Bool) (it : Str) :
    Option Str :=
  preprocessGo rec macros applyArguments (skipSpace it)

/-- `ParseConfig.cpp:866-886` `preprocess(std::string)`; the first argument is the number of
recursive calls which are still allowed (`30 - m_preprocess_level`). -/
def preprocess (macros : Macros) : Nat → Str → Option Str
  | 0, _ => none
  | level + 1, expr =>
    let (ident, rest) := readIdent expr
    if !ident.isEmpty && rest.isEmpty then
      match macros.get expr with
      | some m => preprocess macros level m
      | none => some expr
    else preprocessRange (preprocess macros level) macros true expr

end KM
