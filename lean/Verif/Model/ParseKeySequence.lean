import Verif.Model.StringTyper
/-!
# Parsing of input and output expressions

Models `src/config/ParseKeySequence.cpp`. The text is the remaining text at the iterator, an
exception is `none`. The contents of error messages are not modelled.
-/
namespace KM

/-- The callbacks of `ParseKeySequence::operator()` (`ParseKeySequence.h`) and the string typer.
`addCommands` tells whether `add_terminal_command` is set. -/
structure PEnv where
  isInput : Bool
  getKey : Str → Key
  typer : Typer
  addCommands : Bool := true
  /-- number of terminal commands added before -/
  actionBase : Nat := 0

/-- The members of `ParseKeySequence` and the variables of `parse` (lines 284-288). The added
terminal commands are collected in `actions`. -/
structure PState where
  /-- `m_pressed_keys` -/
  pressed : List Key := []
  /-- `m_keys_pressed_before_modifier_group`, last first -/
  before : List Nat := []
  /-- `m_key_buffer` -/
  buffer : List Key := []
  /-- `m_sequence` -/
  seq : KeySequence := []
  nmm : Bool := false
  onRelease : Bool := false
  together : Bool := false
  /-- `in_modified_group` -/
  group : Nat := 0
  hasMod : Bool := false
  actions : List Str := []
deriving DecidableEq, Repr, Inhabited

/-- `ParseKeySequence.cpp:7-12` `has_key_down` -/
def hasKeyDown (l : KeySequence) : Bool := l.any (fun e => e.state == .Down && e.key != Key.timeout)

/-- `ParseKeySequence.cpp:14-16` `ends_with_async_up` -/
def endsWithAsyncUp (l : KeySequence) (k : Key) : Bool := l.getLast? == some ⟨k, .UpAsync, 0⟩

/-- `ParseKeySequence.cpp:18-22` `is_pressed` -/
def isPressedIn (l : KeySequence) (k : Key) : Bool :=
  match l.reverse.find? (fun e => e.key == k) with
  | some e => e.state != .Up
  | none => false

/-- `ParseKeySequence.cpp:67-69` `add_key_to_sequence` -/
def PState.add (p : PState) (k : Key) (st : KeyState) (value : Nat := 0) : PState :=
  { p with seq := p.seq ++ [⟨k, st, value⟩] }

/-- `ParseKeySequence.cpp:75-81` `remove_from_pressed_keys` (the removal) -/
def PState.removePressed (p : PState) (k : Key) : PState :=
  { p with pressed := p.pressed.filter (fun x => !(x == k)) }

/-- `ParseKeySequence.cpp:83-103` `flush_key_buffer` -/
def PState.flush (p : PState) (isInput upImmediately : Bool) : PState :=
  let downs := p.buffer.map (fun k => (⟨k, .Down, 0⟩ : KeyEvent))
  if upImmediately then
    if isInput then
      { p with seq := p.seq ++ downs ++ p.buffer.map (fun k => ⟨k, .UpAsync, 0⟩), buffer := [] }
    else
      { p with
        seq := p.seq ++ downs ++ p.buffer.map (fun k => ⟨k, .Up, 0⟩)
        pressed := p.pressed.filter (fun x => !p.buffer.contains x)
        buffer := [] }
  else
    { p with seq := p.seq ++ downs, pressed := p.pressed ++ p.buffer, buffer := [] }

/-- `ParseKeySequence.cpp:105-111` `release_pressed_keys` -/
def PState.release (p : PState) (isInput : Bool) (keep : Nat) : PState :=
  { p with
    seq := p.seq ++ (p.pressed.drop keep).reverse.map
      (fun k => ⟨k, if isInput then .UpAsync else .Up, 0⟩)
    pressed := p.pressed.take keep }

/-- `ParseKeySequence.cpp:113-126` `sync_after_not_timeout`, on the reversed sequence; `acc` are
the trailing `UpAsync` -/
def syncGo : KeySequence → KeySequence → KeySequence
  | [], _ => []
  | e :: rev, acc =>
    if e.isNotTimeout then acc.map (fun e => ⟨e.key, .Up, 0⟩)
    else if e.state != .UpAsync then []
    else syncGo rev (e :: acc)

/-- `ParseKeySequence.cpp:113-126` `sync_after_not_timeout` -/
def PState.sync (p : PState) : PState := { p with seq := p.seq ++ syncGo p.seq.reverse [] }

/-- `ParseKeySequence.cpp:128-134` `all_pressed_at_once` -/
def allPressedAtOnce (l : KeySequence) : Bool :=
  ((l.dropWhile (fun e => e.state != .Up)).dropWhile (fun e => e.state != .Down)).isEmpty

/-- `ParseKeySequence.cpp:136-140` `remove_all_from_end` -/
def removeAllFromEnd (l : KeySequence) (st : KeyState) : KeySequence :=
  (l.reverse.dropWhile (fun e => e.state == st)).reverse

/-- `ParseKeySequence.cpp:142-153` `read_key` -/
def readKey (env : PEnv) (it : Str) : Option (Key × Str) :=
  let (name, rest) := readIdent it
  if name.isEmpty then none
  else
    let k := env.getKey name
    if k != Key.none then some (k, rest) else none

/-- `ParseKeySequence.cpp:165-169`: the state of a timeout event -/
def timeoutState (isInput isNot cancelOnUp : Bool) : KeyState :=
  if !isInput then .Down
  else if isNot then
    if cancelOnUp then .NotTimeout_cancel_on_up_down else .NotTimeout_cancel_on_down
  else
    if cancelOnUp then .Timeout_cancel_on_up_down else .Timeout_cancel_on_down

/-- `ParseKeySequence.cpp:155-178` `add_timeout_event` -/
def PState.addTimeout (p : PState) (isInput : Bool) (timeout : Nat) (isNot cancelOnUp : Bool) :
    Option PState :=
  let p := p.flush isInput true
  if isInput && !hasKeyDown p.seq then none
  else if !isInput && isNot then none
  else
    let st := timeoutState isInput isNot cancelOnUp
    match p.seq.getLast? with
    | some e =>
      if e.key == Key.timeout && e.state == st then
        some { p with seq := p.seq.dropLast ++ [{ e with value := sumTimeouts e.value timeout }] }
      else some (p.add Key.timeout st timeout)
    | none => some (p.add Key.timeout st timeout)

/-- The modifiers in the order of lines 211-214, 222-229: is it set, and its key -/
def Mods.list (m : Mods) : List (Bool × Key) :=
  [(m.shift, Key.Shift), (m.alt, Key.AltLeft), (m.altGr, Key.AltRight), (m.control, Key.Control)]

/-- `ParseKeySequence.cpp:193-210`: `press_or_release` in `add_string_typing_input` -/
def pressInput (first prev now : Bool) (k : Key) : KeySequence :=
  if now then
    (if prev then [⟨k, .UpAsync, 0⟩] else []) ++ [⟨k, .DownAsync, 0⟩, ⟨k, .Down, 0⟩]
  else
    (if first then [⟨k, .Not, 0⟩] else []) ++ (if prev then [⟨k, .Up, 0⟩] else [])

/-- `ParseKeySequence.cpp:191-220`: the typed keys; `prev` are the previous modifiers -/
def typeInputGo (inGroup : Bool) : (first : Bool) → Mods → List TypedKey → KeySequence × Mods × Bool
  | _, prev, [] => ([], prev, false)
  | first, prev, t :: ts =>
    let mods := if inGroup then [] else
      (List.zip prev.list t.mods.list).flatMap (fun (p, n) => pressInput first p.1 n.1 p.2)
    let (rest, last, has) := typeInputGo inGroup false t.mods ts
    (mods ++ [⟨t.key, .Down, 0⟩, ⟨t.key, .UpAsync, 0⟩] ++ rest, last, t.mods.nonZero || has)

/-- `ParseKeySequence.cpp:186-232` `add_string_typing_input`: the events added and the result -/
def typeInput (typer : Typer) (string : Str) (inGroup : Bool) : Option (KeySequence × Bool) :=
  match typer string with
  | none => none
  | some keys =>
    let (seq, last, has) := typeInputGo inGroup true {} keys
    some (seq ++ (last.list.filter (·.1)).map (fun m => ⟨m.2, .UpAsync, 0⟩), has)

/-- `ParseKeySequence.cpp:243-248`: `press_or_release` in `add_string_typing_output` -/
def pressOutput (prev now : Bool) (k : Key) : KeySequence :=
  if prev ^^ now then [⟨k, if now then .Down else .Up, 0⟩] else []

/-- `ParseKeySequence.cpp:241-257`: the typed keys -/
def typeOutputGo : Mods → List TypedKey → KeySequence × Mods × Bool
  | prev, [] => ([], prev, false)
  | prev, t :: ts =>
    let mods := (List.zip prev.list t.mods.list).flatMap (fun (p, n) => pressOutput p.1 n.1 p.2)
    let (rest, last, has) := typeOutputGo t.mods ts
    (mods ++ [⟨t.key, .Down, t.value⟩, ⟨t.key, .Up, t.value⟩] ++ rest, last, t.mods.nonZero || has)

/-- `ParseKeySequence.cpp:234-269` `add_string_typing_output`: the events added and the result -/
def typeOutput (typer : Typer) (string : Str) (inGroup : Bool) : Option (KeySequence × Bool) :=
  match typer string with
  | none => none
  | some keys =>
    let (seq, last, has) := typeOutputGo {} keys
    some ((if inGroup then [] else [⟨Key.any, .Not, 0⟩]) ++ seq ++
      (last.list.filter (·.1)).map (fun m => ⟨m.2, .Up, 0⟩), has)

/-- `ParseKeySequence.cpp:346-354`: the text of a terminal command and the rest -/
def readCommand : Nat → Str → Str → Option (Str × Str)
  | 0, acc, it => some (acc.reverse.dropLast, it)
  | _ + 1, _, [] => none
  | level + 1, acc, c :: cs =>
    readCommand (if c == '(' then level + 2 else if c == ')' then level else level + 1) (c :: acc) cs

/-- The result of one iteration of the loop of `parse` -/
inductive PStep where
  | next (p : PState) (it : Str)
  | done (p : PState)
  | error
deriving Repr, Inhabited

/-- an exception is thrown when there is no result -/
def PStep.ofOption (p : Option PState) (it : Str) : PStep :=
  match p with
  | some p => .next p it
  | none => .error

/-- `ParseKeySequence.cpp:303-322`: a negated key -/
def parseNot (env : PEnv) (p : PState) (it : Str) : PStep :=
  match readKey env it with
  | none => .error
  | some (key, it) =>
    if env.isInput && p.group != 0 && !p.buffer.contains key then .error
    else
      let p := p.flush env.isInput env.isInput
      let removed := p.pressed.contains key
      let p := p.removePressed key
      let p := if removed && env.isInput then p.add key .UpAsync else p
      if env.isInput && endsWithAsyncUp p.seq key then
        .next { p with seq := p.seq.dropLast ++ [⟨key, .Up, 0⟩] } it
      else if env.isInput && isPressedIn p.seq key then .next (p.add key .Up) it
      else .next (p.add key .Not) it

/-- `ParseKeySequence.cpp:291-323`: after `!` -/
def parseBang (env : PEnv) (p : PState) (it : Str) : PStep :=
  match tryReadTimeout it with
  | some (timeout, it) =>
    if p.together then .error
    else .ofOption (p.addTimeout env.isInput timeout true (p.group != 0)) it
  | none => if p.together then .error else parseNot env p it

/-- `ParseKeySequence.cpp:324-340`: after the opening quote -/
def parseString (env : PEnv) (p : PState) (quote : Char) (it : Str) : PStep :=
  if p.together then .error
  else
    match skipUntil [quote] it with
    | none => .error
    | some rest =>
      let p := p.flush env.isInput true
      let string := it.take (it.length - rest.length - 1)
      let typed := if env.isInput then typeInput env.typer string (p.group != 0)
        else typeOutput env.typer string (p.group != 0)
      match typed with
      | none => .error
      | some (seq, has) => .next { p with seq := p.seq ++ seq, hasMod := p.hasMod || has } rest

/-- `ParseKeySequence.cpp:341-360`: after `$` (with `ParseConfig.cpp:705-710`: the action key is
the number of actions added before; it is a 16 bit enumeration, not wrapped here) -/
def parseCommand (env : PEnv) (p : PState) (it : Str) : PStep :=
  if env.isInput || p.together || p.group != 0 then .error
  else
    match it with
    | '(' :: it =>
      match readCommand 1 [] it with
      | none => .error
      | some (command, it) =>
        let p := p.flush env.isInput true
        if env.addCommands then
          .next { p.add (Key.first_action + env.actionBase + p.actions.length) .Down with
            actions := p.actions ++ [command] } it
        else .next p it
    | _ => .error

/-- `ParseKeySequence.cpp:433-442`: the end or a key -/
def parseKey (env : PEnv) (p : PState) (it : Str) : PStep :=
  let p := if !p.together || it.isEmpty then p.flush env.isInput true else p
  if it.isEmpty then .done p
  else
    match readKey env it with
    | none => .error
    | some (key, it) => .next { p with buffer := p.buffer ++ [key] } it

/-- `ParseKeySequence.cpp:426-442`: a timeout, the end or a key -/
def parseTimeoutOrKey (env : PEnv) (p : PState) (it : Str) : PStep :=
  match tryReadTimeout it with
  | some (timeout, it) =>
    if p.together then .error
    else if p.nmm then .error
    else .ofOption (p.addTimeout env.isInput timeout false (p.group != 0)) it
  | none => parseKey env p it

/-- `ParseKeySequence.cpp:399-409`: begin of a modified group -/
def parseGroupBegin (env : PEnv) (p : PState) (it : Str) : PStep :=
  if p.together then .error
  else
    let p := { p with before := p.pressed.length :: p.before }
    let p := p.flush env.isInput false
    if p.pressed.isEmpty then .error
    else .next { p with group := p.group + 1, hasMod := true } it

/-- `ParseKeySequence.cpp:410-421`: end of a modified group -/
def parseGroupEnd (env : PEnv) (p : PState) (it : Str) : PStep :=
  if p.group == 0 then .error
  else
    let p := p.flush env.isInput true
    let p := p.release env.isInput (p.before.headD 0)
    let p := { p with before := p.before.tail, group := p.group - 1 }
    .next (if env.isInput then p.sync else p) it

/-- `ParseKeySequence.cpp:289-443`: one iteration of the loop, after `skip_space`. The branch of
lines 422-425 (comments) is not reachable, since `skip_space` already skips comments. -/
def parseStep (env : PEnv) (p : PState) (it : Str) : PStep :=
  match it with
  | '!' :: it => parseBang env p it
  | '\'' :: it => parseString env p '\'' it
  | '"' :: it => parseString env p '"' it
  | '$' :: it => parseCommand env p it
  | '^' :: it =>
    if env.isInput || p.onRelease || p.together || p.group != 0 then .error
    else .next { (p.flush env.isInput true).add Key.none .OutputOnRelease with onRelease := true } it
  | '?' :: it =>
    if !env.isInput || p.onRelease || !p.seq.isEmpty || !p.buffer.isEmpty || p.together then .error
    else .next { p.add Key.none .NoMightMatch with nmm := true } it
  | '(' :: it =>
    if p.together then .error else .next { p.flush env.isInput true with together := true } it
  | ')' :: it =>
    if !p.together then .error
    else
      .next { p with
        seq := if env.isInput then p.seq ++ p.buffer.map (fun k => ⟨k, .DownAsync, 0⟩) else p.seq
        together := false } it
  | '{' :: it => parseGroupBegin env p it
  | '}' :: it => parseGroupEnd env p it
  | it => parseTimeoutOrKey env p it

/-- `ParseKeySequence.cpp:289-443`: the loop. An iteration which does not move forward does not
exist (`parseStep_shorter`); it would be an error here. -/
def parseLoop (env : PEnv) (p : PState) (it : Str) : Option PState :=
  match parseStep env p (skipSpace it) with
  | .done p => some p
  | .error => none
  | .next p rest => if rest.length < it.length then parseLoop env p rest else none
termination_by it.length

/-- `ParseKeySequence.cpp:271-281` `check_ContextActive_usage` -/
def checkContextActive (isInput : Bool) (l : KeySequence) : Option KeySequence :=
  if l.any (fun e => e.key == Key.ContextActive) then
    if !isInput then none
    else if l.length != 2 then none
    else some l.dropLast
  else some l

/-- `ParseKeySequence.cpp:445-466`: after the loop -/
def parseFinish (env : PEnv) (p : PState) : Option (KeySequence × List Str) :=
  if p.together then none
  else if p.group != 0 then none
  else
    let p :=
      if env.isInput then
        if p.nmm then { p with seq := removeAllFromEnd p.seq .UpAsync } else p
      else
        let p := p.release env.isInput 0
        if !p.hasMod && allPressedAtOnce p.seq then { p with seq := removeAllFromEnd p.seq .Up } else p
    if env.isInput && !hasKeyDown p.seq then none
    else if p.nmm && p.seq.any (fun e => isVirtualKey e.key) then none
    else (checkContextActive env.isInput p.seq).map (fun l => (l, p.actions))

/-- `ParseKeySequence.cpp:32-49, 283-466`: the sequence and the added terminal commands; `none`
when an exception is thrown -/
def parseSequence (env : PEnv) (str : Str) : Option (KeySequence × List Str) :=
  match parseLoop env {} str with
  | none => none
  | some p => parseFinish env p

end KM
