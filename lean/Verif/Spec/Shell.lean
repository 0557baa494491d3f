import Verif.Model.Filter
/-!
# The shell and notify-send

Specification of the programs which show a notification: how `sh -c` reads a simple command (POSIX Shell Command Language, 2.2 Quoting and 2.6.3 Command Substitution), and
how `notify-send` reads its second argument (`g_strcompress` of GLib). What is not covered (variables, redirections, several commands, ...) is `none`.
-/
namespace KM

/-- What the shell did with a command: the arguments of the program it started, and the commands it executed before, because they were substituted -/
structure ShellRun where
  arguments : List Str
  executed : List Str := []
deriving DecidableEq, Repr, Inhabited

/-- Where in the command the shell is -/
inductive ShellMode where
  /-- between two arguments -/
  | blank
  /-- in an argument -/
  | word (acc : Str)
  /-- in an argument, between `"` and `"` -/
  | quoted (acc : Str)
  /-- in an argument, between `"` and `"`, in a command which is to be substituted; it ends with `)`, or with a backtick -/
  | command (acc : Str) (cmd : Str) (close : Char)
deriving DecidableEq, Repr, Inhabited

/-- Characters without a special meaning outside of quotes -/
def shellPlain (c : Char) : Bool := c.isAlphanum || "-_./:,+@%^=".toList.contains c

/-- The characters of which a backslash in quotes takes the special meaning -/
def shellEscapable (c : Char) : Bool := c == '$' || c == '`' || c == '"' || c == '\\'

/-- How the shell reads a command. `output` is what the commands which are substituted print. -/
def shellGo (output : Str → Str) : ShellMode → ShellRun → Str → Option ShellRun
  | .blank, r, [] => some r
  | .word acc, r, [] => some { r with arguments := r.arguments ++ [acc] }
  | .quoted _, _, [] => none
  | .command .., _, [] => none
  | .blank, r, '\\' :: c :: s => if c = '\n' then none else shellGo output (.word [c]) r s
  | .word acc, r, '\\' :: c :: s => if c = '\n' then none else shellGo output (.word (acc ++ [c])) r s
  | .blank, r, c :: s =>
    if c = ' ' then shellGo output .blank r s
    else if c = '"' then shellGo output (.quoted []) r s
    else if shellPlain c then shellGo output (.word [c]) r s
    else none
  | .word acc, r, c :: s =>
    if c = ' ' then shellGo output .blank { r with arguments := r.arguments ++ [acc] } s
    else if c = '"' then shellGo output (.quoted acc) r s
    else if shellPlain c then shellGo output (.word (acc ++ [c])) r s
    else none
  | .quoted acc, r, '\\' :: c :: s =>
    if shellEscapable c then shellGo output (.quoted (acc ++ [c])) r s
    else if c = '\n' then shellGo output (.quoted acc) r s
    else shellGo output (.quoted (acc ++ ['\\', c])) r s
  | .quoted acc, r, '$' :: '(' :: s => shellGo output (.command acc [] ')') r s
  | .quoted acc, r, c :: s =>
    if c = '"' then shellGo output (.word acc) r s
    else if c = '`' then shellGo output (.command acc [] '`') r s
    else if c = '$' || c = '\\' then none
    else shellGo output (.quoted (acc ++ [c])) r s
  | .command acc cmd close, r, c :: s =>
    if c = close then shellGo output (.quoted (acc ++ output cmd)) { r with executed := r.executed ++ [cmd] } s
    else if "()`\"'\\$#".toList.contains c then none
    else shellGo output (.command acc (cmd ++ [c]) close) r s

/-- `sh -c command` -/
def shell (output : Str → Str) (command : Str) : Option ShellRun := shellGo output .blank { arguments := [] } command

/-- The value of an octal digit -/
def octalDigit (c : Char) : Option Nat := if '0' ≤ c ∧ c ≤ '7' then some (c.toNat - 48) else none

/-- The characters which `g_strcompress` replaces after a backslash; octal numbers are not covered -/
def strcompress : Str → Option Str
  | [] => some []
  | ['\\'] => some []
  | '\\' :: c :: s =>
    if c = 'b' then (strcompress s).map (Char.ofNat 8 :: ·)
    else if c = 'f' then (strcompress s).map (Char.ofNat 12 :: ·)
    else if c = 'n' then (strcompress s).map ('\n' :: ·)
    else if c = 'r' then (strcompress s).map ('\r' :: ·)
    else if c = 't' then (strcompress s).map ('\t' :: ·)
    else if c = 'v' then (strcompress s).map (Char.ofNat 11 :: ·)
    else if (octalDigit c).isSome then none
    else (strcompress s).map (c :: ·)
  | c :: s => (strcompress s).map (c :: ·)

/-- `notify-send` called with an application, a title and a text: the text which is shown -/
def notifySend : List Str → Option Str
  | [program, option, application, title, text] =>
    if program = "notify-send".toList ∧ option = "-a".toList ∧ application = "keymapper".toList ∧ title = "keymapper".toList then strcompress text
    else none
  | _ => none

end KM
