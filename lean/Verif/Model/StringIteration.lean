import Verif.Model.Filter
/-!
# String iteration

Models `src/config/string_iteration.h`. An iterator pair `(it, end)` is the remaining text
`[it, end)` as a list; the functions return the remaining text after the call.
Exceptions are `none`.
-/
namespace KM

/-- `std::isspace` in the "C" locale -/
def isSpaceC (c : Char) : Bool :=
  c == ' ' || c == '\t' || c == '\n' || c == '\r' || c.toNat == 11 || c.toNat == 12

/-- `std::isdigit` -/
def isDigitC (c : Char) : Bool := decide ('0' ≤ c) && decide (c ≤ '9')

/-- `std::isalpha` in the "C" locale -/
def isAlphaC (c : Char) : Bool :=
  (decide ('a' ≤ c) && decide (c ≤ 'z')) || (decide ('A' ≤ c) && decide (c ≤ 'Z'))

/-- `std::tolower` in the "C" locale -/
def toLowerC (c : Char) : Char :=
  if decide ('A' ≤ c) && decide (c ≤ 'Z') then Char.ofNat (c.toNat + 32) else c

/-- `string_iteration.h:113-115` -/
def isIdentChar (c : Char) : Bool := isAlphaC c || isDigitC c || c == '_' || c == '-'

/-- `string_iteration.h:8-25` `skip`: the text after `str`, `none` when it does not start with it -/
def skipStr : (str : Str) → Str → Option Str
  | [], it => some it
  | _ :: _, [] => none
  | c :: cs, d :: ds => if c == d then skipStr cs ds else none

/-- `string_iteration.h:27-43` `skip_until`: the text after the first occurrence of `str`.
(For an empty text the code does not even try an empty `str`; `str` is never empty.) -/
def skipUntil (str : Str) : Str → Option Str
  | [] => none
  | c :: cs =>
    match skipStr str (c :: cs) with
    | some r => some r
    | none => skipUntil str cs

theorem skipStr_length {str it r : Str} (h : skipStr str it = some r) :
    r.length + str.length = it.length := by
  induction str generalizing it with
  | nil => simp [skipStr] at h; subst h; simp
  | cons c cs ih =>
    cases it with
    | nil => simp [skipStr] at h
    | cons d ds =>
      simp only [skipStr] at h
      split at h
      · have := ih h; simp; omega
      · simp at h

theorem skipUntil_length {str it r : Str} (h : skipUntil str it = some r) :
    r.length + str.length ≤ it.length := by
  induction it with
  | nil => simp [skipUntil] at h
  | cons c cs ih =>
    simp only [skipUntil] at h
    split at h
    · next r' h' => simp at h; subst h; have := skipStr_length h'; simp at *; omega
    · have := ih h; simp; omega

/-- `string_iteration.h:48-51`: skip a string literal when there is one (`none`: exception) -/
def skipQuoted : Str → Option Str
  | [] => some []
  | c :: cs => if c == '"' || c == '\'' then skipUntil [c] cs else some (c :: cs)

theorem skipQuoted_length {it r : Str} (h : skipQuoted it = some r) : r.length ≤ it.length := by
  cases it with
  | nil => simp [skipQuoted] at h; subst h; simp
  | cons c cs =>
    simp only [skipQuoted] at h
    split at h
    · have := skipUntil_length h; simp at *; omega
    · simp at h; subst h; simp

/-- `string_iteration.h:45-64` `skip_until_not_in_string`. `none` when an exception is thrown,
otherwise whether `str` was found and the remaining text. -/
def skipUntilNotInString (str : Str) (it : Str) : Option (Bool × Str) :=
  match _h : skipQuoted it with
  | none => none
  | some it1 =>
    match skipStr str it1 with
    | some r => some (true, r)
    | none =>
      match it1 with
      | [] => some (false, [])
      | _ :: cs => skipUntilNotInString str cs
termination_by it.length
decreasing_by have := skipQuoted_length _h; simp at *; omega

/-- `string_iteration.h:66-90` `skip_space` (including `skip_comments`) -/
def skipSpace : Str → Str
  | [] => []
  | c :: cs => if isSpaceC c then skipSpace cs else if c == '#' || c == ';' then [] else c :: cs

/-- `string_iteration.h:92-100` `trim_comment`: the text before the first comment -/
def trimComment (it : Str) : Str := it.takeWhile (fun c => !(c == '#' || c == ';'))

/-- `string_iteration.h:102-107` `trim_space` -/
def trimSpaceEnd (it : Str) : Str := (it.reverse.dropWhile isSpaceC).reverse

/-- `string_iteration.h:109-118, 142-147` `skip_ident`/`read_ident`: the identifier and the
remaining text -/
def readIdent (it : Str) : Str × Str := (it.takeWhile isIdentChar, it.dropWhile isIdentChar)

/-- `string_iteration.h:120-128` `read_string` -/
def readString : Str → Option (Str × Str)
  | [] => none
  | c :: cs =>
    if c == '\'' || c == '"' then
      match skipUntil [c] cs with
      | none => none
      | some r => some (cs.take (cs.length - r.length - 1), r)
    else none

/-- `string_iteration.h:130-140` `read_value` -/
def readValue : Str → Option (Str × Str)
  | [] => some ([], [])
  | c :: cs =>
    if c == '\'' || c == '"' then
      match skipUntil [c] cs with
      | none => none
      | some r => some (cs.take (cs.length - r.length - 1), r)
    else some (readIdent (c :: cs))

/-- Value of a sequence of decimal digits -/
def digitsVal (ds : Str) : Nat := ds.foldl (fun n c => n * 10 + (c.toNat - 48)) 0

/-- `string_iteration.h:149-156` `try_read_number`. The overflow of `int` (undefined behaviour for
numbers >= 2^31) is not modelled: the number is exact. -/
def tryReadNumber (it : Str) : Option (Nat × Str) :=
  let ds := it.takeWhile isDigitC
  if ds.isEmpty then none else some (digitsVal ds, it.dropWhile isDigitC)

/-- `Timeout.h:34-42` `try_read_timeout` -/
def tryReadTimeout (it : Str) : Option (Nat × Str) :=
  match tryReadNumber it with
  | none => none
  | some (n, r) =>
    match skipStr ['m', 's'] r with
    | none => none
    | some r => some (durationToTimeout n, r)

/-- `string_iteration.h:164-181`: the loop of `skip_arglist`; the outer `none` is an exception, the
inner one that no closing bracket was found. `fuel` bounds the iterations by the text length
(every iteration moves forward). -/
def skipArglistGo (fuel : Nat) (level : Nat) (it : Str) : Option (Option Str) :=
  match fuel with
  | 0 => some none
  | fuel + 1 =>
    match skipUntilNotInString [']'] it with
    | none => none
    | some (false, _) => some none
    | some (true, nextClose) =>
      match skipUntilNotInString ['['] it with
      | none => none
      | some (true, nextOpen) =>
        if nextClose.length < nextOpen.length then skipArglistGo fuel (level + 1) nextOpen
        else if level - 1 = 0 then some (some nextClose)
        else skipArglistGo fuel (level - 1) nextClose
      | some (false, _) =>
        if level - 1 = 0 then some (some nextClose)
        else skipArglistGo fuel (level - 1) nextClose

/-- `string_iteration.h:158-184` `skip_arglist`: outer `none` is an exception, inner `none` is
`false` (nothing skipped). -/
def skipArglist (it : Str) : Option (Option Str) :=
  match skipStr ['['] it with
  | none => some none
  | some r => skipArglistGo (r.length + 1) 1 r

/-- `string_iteration.h:186-191` `skip_arglists`: the remaining text -/
def skipArglists (it : Str) : Option Str :=
  match skipArglist it with
  | none => none
  | some none => some it
  | some (some r) => if r.length < it.length then skipArglists r else some r
termination_by it.length

/-- `string_iteration.h:193-205` `skip_string`: exception / not a string / rest -/
def skipString : Str → Option (Option Str)
  | [] => some none
  | c :: cs =>
    if c == '\'' || c == '"' then
      match skipUntil [c] cs with
      | none => none
      | some r => some (some r)
    else some none

/-- `string_iteration.h:211-220`: the loop of `skip_regular_expression`. `pre` are the characters
from `begin` to the current position, reversed. -/
def skipRegexGo (pre : Str) : Str → Option Str
  | [] => none
  | c :: cs =>
    if c == '/' then
      -- `*it` is behind the '/', `prev` starts at the character before it and moves left over
      -- backslashes (but not before `begin`, which is the opening '/')
      let n := (pre.takeWhile (· == '\\')).length
      if n % 2 = 0 then some cs else skipRegexGo (c :: pre) cs
    else skipRegexGo (c :: pre) cs

/-- `string_iteration.h:207-225` `skip_regular_expression`: exception / none / rest -/
def skipRegex : Str → Option (Option Str)
  | [] => some none
  | c :: cs =>
    if c == '/' then
      match skipRegexGo ['/'] cs with
      | none => none
      | some r => some (some ((skipStr ['i'] r).getD r))
    else some none

/-- `string_iteration.h:227-235` `skip_terminal_command`: exception / none / rest -/
def skipTerminalCommand (it : Str) : Option (Option Str) :=
  match skipStr ['$', '('] it with
  | none => some none
  | some r =>
    match skipUntilNotInString [')'] r with
    | some (true, r) => some (some r)
    | _ => none

end KM
