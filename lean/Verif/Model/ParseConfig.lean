import Verif.Model.Preprocess
import Verif.Model.ParseKeySequence
import Verif.Model.Stage
/-!
# Parsing of the configuration

Models `src/config/ParseConfig.cpp` and `src/config/Config.h`. An exception is `none`. Line
numbers and the contents of error messages are not modelled.
-/
namespace KM

/-- `Config.h:21-46` `Config::Context` -/
structure CContext where
  windowClass : Filter := {}
  windowTitle : Filter := {}
  windowPath : Filter := {}
  deviceFilter : Filter := {}
  deviceIdFilter : Filter := {}
  modifierFilter : KeySequence := []
  inputs : List Input := []
  outputs : List KeySequence := []
  commandOutputs : List CommandOutput := []
  systemFilterMatched : Bool := false
  invertModifierFilter : Bool := false
  fallthrough : Bool := false
  beginStage : Bool := false
deriving DecidableEq, Repr, Inhabited

/-- `Config.h:36-45` `Context::matches` -/
def CContext.matches (rx : Regex) (c : CContext) (cls title path : Str) : Bool :=
  c.windowClass.matches rx cls false && c.windowTitle.matches rx title true &&
  c.windowPath.matches rx path true

/-- `ParseConfig.h:21-25` `Command` -/
structure Command where
  name : Str
  index : Int
  mapped : Bool
deriving DecidableEq, Repr, Inhabited

/-- `ParseConfig.h:27-32` `LogicalKey` -/
structure LogicalKey where
  name : Str
  both : Key
  left : Key
  right : Key
deriving DecidableEq, Repr, Inhabited

/-- `Config.h:59-65` `Config` -/
structure Config where
  contexts : List CContext := []
  actions : List Str := []
  virtualKeyAliases : List (Str × Key) := []
  grabDeviceFilters : List GrabDeviceFilter := []
  serverDirectives : List Str := []
  includes : List Str := []
  options : List Str := []
deriving DecidableEq, Repr, Inhabited

/-- The members of `ParseConfig` (`ParseConfig.h:72-87`), and the ones of `m_config` -/
structure CState where
  cfg : Config := {}
  done : Bool := false
  commands : List Command := []
  macros : Macros := []
  logical : List LogicalKey := []
  systemMatched : Bool := true
  afterEmpty : Bool := false
  enforceLower : Bool := false
  allowUnmapped : Bool := false
  forwardModifiers : List Key := []
deriving DecidableEq, Repr, Inhabited

/-- What the parser depends on: the string typer, the validity of regular expressions
(`parse_regex`) and the content of included files (by the text of the `@include` directive). -/
structure CEnv where
  typer : Typer
  validRegex : Str → Bool
  files : Str → Option Str

/-- `ParseConfig.cpp:48-52` `starts_with_lower_case` -/
def startsWithLowerCase (s : Str) : Bool :=
  match s with
  | c :: _ => isAlphaC c && toLowerC c == c
  | [] => false

/-- `ParseConfig.cpp:59-64` `contains(KeySequence, Key)` -/
def containsKey (l : KeySequence) (k : Key) : Bool := l.any (fun e => e.key == k)

/-- `ParseConfig.cpp:71-77` `replace_key` -/
def replaceKey (l : KeySequence) (both k : Key) : KeySequence :=
  l.map (fun e => if e.key == both then { e with key := k } else e)

/-- `ParseConfig.cpp:79-87` `replace_not_key` -/
def replaceNotKey (l : KeySequence) (both left right : Key) : KeySequence :=
  l.flatMap (fun e =>
    if e.state == .Not && e.key == both then [⟨left, .Not, 0⟩, { e with key := right }] else [e])

/-- `ParseConfig.cpp:1004-1008` `add_logical_key` (the enumeration is not wrapped to 16 bit) -/
def CState.addLogicalKey (s : CState) (name : Str) (left right : Key) : CState × Key :=
  let both := Key.first_logical + s.logical.length
  ({ s with logical := s.logical ++ [⟨name, both, left, right⟩] }, both)

/-- `ParseConfig.cpp:693-703` `get_key_by_name` -/
def CState.getKey (s : CState) (name : Str) : Key :=
  let k := getKeyByName name
  if k != Key.none then k
  else match s.logical.find? (fun l => l.name == name) with
    | some l => l.both
    | none => Key.none

/-- `preprocess` with the current macros -/
def CState.pre (s : CState) (expr : Str) : Option Str := preprocess s.macros 30 expr

/-- `ParseConfig.cpp:687-691` `parse_input` -/
def CState.parseInput (env : CEnv) (s : CState) (it : Str) : Option KeySequence :=
  (parseSequence { isInput := true, getKey := s.getKey, typer := env.typer, addCommands := false }
    (skipSpace it)).map (·.1)

/-- `ParseConfig.cpp:712-720` `parse_output` -/
def CState.parseOutput (env : CEnv) (s : CState) (it : Str) : Option (CState × KeySequence) :=
  let penv : PEnv :=
    { isInput := false, getKey := s.getKey, typer := env.typer, actionBase := s.cfg.actions.length }
  match parseSequence penv (skipSpace it) with
  | none => none
  | some (seq, actions) =>
    if containsKey seq Key.ContextActive then none
    else some ({ s with cfg := { s.cfg with actions := s.cfg.actions ++ actions } }, seq)

/-- Modify the current context (`ParseConfig.cpp:950-953`), the last one -/
def CState.modCurrent (s : CState) (f : CContext → CContext) : CState :=
  match s.cfg.contexts.getLast? with
  | some c => { s with cfg := { s.cfg with contexts := s.cfg.contexts.dropLast ++ [f c] } }
  | none => s

/-- `ParseConfig.cpp:962-974` `add_command` -/
def CState.addCommand (s : CState) (input : KeySequence) (name : Str) : CState :=
  match s.commands.find? (fun c => c.name == name) with
  | some command =>
    s.modCurrent (fun c => { c with inputs := c.inputs ++ [⟨input, command.index⟩] })
  | none =>
    let index : Int := -((s.commands.length : Int) + 1)
    let s : CState := { s with commands := s.commands ++ [⟨name, index, false⟩] }
    s.modCurrent (fun c => { c with inputs := c.inputs ++ [⟨input, index⟩] })

/-- `ParseConfig.cpp:976-984` `add_mapping` of an input expression -/
def CState.addMapping (s : CState) (input output : KeySequence) : CState :=
  s.modCurrent (fun c => { c with
    inputs := c.inputs ++ [(⟨input, c.outputs.length⟩ : Input)]
    outputs := c.outputs ++ [output] })

/-- `ParseConfig.cpp:986-1002` `add_mapping` of a command -/
def CState.addCommandMapping (s : CState) (name : Str) (output : KeySequence) : Option CState :=
  match s.commands.find? (fun c => c.name == name) with
  | none => none
  | some command =>
    match s.cfg.contexts.getLast? with
    | none => none
    | some ctx =>
      if ctx.commandOutputs.any (fun o => o.index == command.index) then none
      else
        let s := s.modCurrent (fun c => { c with
          commandOutputs := c.commandOutputs ++ [⟨output, command.index⟩] })
        let f : Command → Command := fun c => { c with mapped := true }
        some { s with commands := modFirst (fun c => c.name == name) f s.commands }

/-- `ParseConfig.cpp:664-675` `parse_command_name`; empty when it is not a command name -/
def CState.parseCommandName (s : CState) (it : Str) : Str :=
  let (ident, rest) := readIdent (skipSpace it)
  let rest := skipSpace rest
  if !rest.isEmpty || s.getKey ident != Key.none || (s.enforceLower && !startsWithLowerCase ident) then []
  else ident

/-- `ParseConfig.cpp:677-685` `parse_command_and_mapping` -/
def CState.parseCommandAndMapping (env : CEnv) (s : CState) (inText outText : Str) : Option CState :=
  match s.parseInput env inText with
  | none => none
  | some input =>
    let name := s.parseCommandName outText
    if !name.isEmpty then some (s.addCommand input name)
    else
      match s.parseOutput env outText with
      | none => none
      | some (s, output) => some (s.addMapping input output)

/-- `ParseConfig.cpp:378-384`: mapping a key sequence; `it` is the text after the identifier -/
def CState.parseMappingSequence (env : CEnv) (s : CState) (b it : Str) : Option CState :=
  match skipUntil ['>', '>'] it with
  | some rest => s.parseCommandAndMapping env (b.take (b.length - rest.length - 2)) rest
  | none => none

/-- `ParseConfig.cpp:354-385` `parse_mapping` -/
def CState.parseMapping (env : CEnv) (s : CState) (b : Str) : Option CState :=
  let (ident, it) := readIdent b
  let it := skipSpace it
  match (if ident.isEmpty then none else skipStr ['>', '>'] it) with
  | some out =>
    if (s.commands.find? (fun c => c.name == ident)).isSome then
      match s.parseOutput env out with
      | none => none
      | some (s, output) => s.addCommandMapping ident output
    else if startsWithLowerCase ident then
      if !s.allowUnmapped then none
      else (s.parseOutput env out).map (·.1)
    else s.parseCommandAndMapping env ident out
  | none => s.parseMappingSequence env b it

/-- `ParseConfig.cpp:344-350`: the mappings in a line -/
def CState.parseMappings (env : CEnv) (s : CState) (it : Str) : Option CState :=
  match it with
  | [] => some s
  | c :: cs =>
    match skipUntilNotInString ['\n'] (c :: cs) with
    | none => none
    | some (_, rest) =>
      match s.parseMapping env (textBefore (c :: cs) rest) with
      | none => none
      | some s =>
        if rest.length < (c :: cs).length then s.parseMappings env rest else none
termination_by it.length

/-- `parse_regex.h:7-11` `is_regex` -/
def isRegexStr (s : Str) : Bool :=
  decide (2 ≤ s.length) && s.head? == some '/' &&
  s[s.length - (if s.getLast? == some 'i' then 2 else 1)]? == some '/'

/-- `ParseConfig.cpp:504-515`: a filter given by an identifier -/
def CState.readFilterIdent (s : CState) (it : Str) : Option (Str × Str) :=
  let (ident, rest) := readIdent it
  match s.pre ident with
  | none => none
  | some ident =>
    match ident with
    | c :: cs =>
      if c == '\'' || c == '"' then
        if cs.isEmpty || cs.getLast? != some c then none else some (cs.dropLast, rest)
      else some (ident, rest)
    | [] => some ([], rest)

/-- `ParseConfig.cpp:496-516` `read_filter_string` -/
def CState.readFilterString (s : CState) (it : Str) : Option (Str × Str) :=
  match skipRegex it with
  | none => none
  | some (some r) => some (textBefore it r, r)
  | some none =>
    match skipString it with
    | none => none
    | some (some r) => some ((textBefore it r).tail.dropLast, r)
    | some none => s.readFilterIdent it

/-- `ParseConfig.cpp:518-527` `read_filter` -/
def CState.readFilter (env : CEnv) (s : CState) (it : Str) (invert : Bool) : Option (Filter × Str) :=
  match s.readFilterString it with
  | none => none
  | some (string, rest) =>
    if string.isEmpty then none
    else if isRegexStr string then
      if env.validRegex string then some (⟨string, true, invert⟩, rest) else none
    else some (⟨string, false, invert⟩, rest)

/-- `ParseConfig.cpp:529-548` `parse_modifier_list` -/
def CState.parseModifierList (s : CState) (it : Str) (acc : KeySequence) : Option KeySequence :=
  match skipSpace it with
  | [] => some acc
  | c :: cs =>
    let (isNot, it1) := if c == '!' then (true, cs) else (false, c :: cs)
    let (name, rest) := readIdent it1
    let key := s.getKey name
    if key == Key.none || key == Key.ContextActive then none
    else if rest.length < it.length then
      s.parseModifierList rest
        (if containsKey acc key then acc else acc ++ [⟨key, if isNot then .Not else .Down, 0⟩])
    else none
termination_by it.length

/-- Append the keys which are not yet contained -/
def addUnique (l : List Key) (ks : List Key) : List Key :=
  ks.foldl (fun l k => if l.contains k then l else l ++ [k]) l

/-- `ParseConfig.cpp:557-569`: the keys meant by a name in the list of forwarded modifiers -/
def CState.forwardKeys (s : CState) (name : Str) : Option (List Key) :=
  match s.logical.find? (fun l => l.name == name) with
  | some l => some [l.left, l.right]
  | none => if isDeviceKey (getKeyByName name) then some [getKeyByName name] else none

/-- `ParseConfig.cpp:550-574` `parse_forward_modifiers_list` -/
def CState.parseForwardModifiers (s : CState) (it : Str) (acc : List Key) : Option (List Key) :=
  match it with
  | [] => some acc
  | c :: cs =>
    let (name, rest) := readIdent (c :: cs)
    if name.isEmpty then none
    else
      match s.forwardKeys name with
      | none => none
      | some keys =>
        if (skipSpace rest).length < (c :: cs).length then
          s.parseForwardModifiers (skipSpace rest) (addUnique acc keys)
        else none
termination_by it.length

/-- `ParseConfig.cpp:54-57` `equal_case_insensitive` -/
def equalCaseInsensitive (a b : Str) : Bool := a.map toLowerC == b.map toLowerC

/-- `ParseConfig.cpp:604-632`: the value of an attribute of a context -/
def CState.parseAttribute (env : CEnv) (s : CState) (ctx : CContext) (attrib : String) (invert : Bool)
    (it : Str) : Option (CContext × Str) :=
  if attrib == "class" then
    (s.readFilter env it invert).map (fun (f, r) => ({ ctx with windowClass := f }, r))
  else if attrib == "title" then
    (s.readFilter env it invert).map (fun (f, r) => ({ ctx with windowTitle := f }, r))
  else if attrib == "path" then
    (s.readFilter env it invert).map (fun (f, r) => ({ ctx with windowPath := f }, r))
  else if attrib == "system" then
    (readValue it).map (fun (v, r) =>
      ({ ctx with systemFilterMatched := equalCaseInsensitive v "Linux".toList ^^ invert }, r))
  else if attrib == "device" then
    (s.readFilter env it invert).map (fun (f, r) => ({ ctx with deviceFilter := f }, r))
  else if attrib == "device-id" || attrib == "device_id" then
    (s.readFilter env it invert).map (fun (f, r) => ({ ctx with deviceIdFilter := f }, r))
  else if attrib == "modifier" then
    match readValue it with
    | none => none
    | some (v, r) =>
      match s.pre v with
      | none => none
      | some v =>
        (s.parseModifierList v []).map (fun l =>
          ({ ctx with modifierFilter := l, invertModifierFilter := invert }, r))
  else none

/-- `ParseConfig.cpp:593-644`: the attributes of a context; returns the text after `]` -/
def CState.parseAttributes (env : CEnv) (s : CState) (ctx : CContext) (it : Str) :
    Option (CContext × Str) :=
  let (attrib, it1) := readIdent it
  if attrib.isEmpty then none
  else
    let it2 := skipSpace it1
    let (invert, it3) := match it2 with
      | '!' :: r => (true, r)
      | r => (false, r)
    match it3 with
    | '=' :: it4 =>
      match s.parseAttribute env ctx (String.ofList attrib) invert (skipSpace it4) with
      | none => none
      | some (ctx, it5) =>
        match skipSpace it5 with
        | ']' :: it6 => some (ctx, it6)
        | it6 =>
          let it7 := skipSpace (match it6 with | ',' :: r => r | r => r)
          if it7.isEmpty then none
          else if it7.length < it.length then s.parseAttributes env ctx it7 else none
    | _ => none
termination_by it.length

/-- `ParseConfig.cpp:581-591`: after `default` or `stage` -/
def skipContextEnd (it : Str) : Option Str := skipStr [']'] (skipSpace it)

/-- `ParseConfig.cpp:580-645`: the attributes of the new context and the text after it -/
def CState.parseContextHead (env : CEnv) (s : CState) (it : Str) : Option (CContext × Str) :=
  let ctx : CContext := { systemFilterMatched := true }
  let it := skipSpace it
  match skipStr "default".toList it with
  | some r => (skipContextEnd r).map (fun r => (ctx, r))
  | none =>
    match skipStr "stage".toList it with
    | some r => (skipContextEnd r).map (fun r => ({ ctx with beginStage := true }, r))
    | none => s.parseAttributes env ctx it

/-- `ParseConfig.cpp:576-651` `parse_context` -/
def CState.parseContext (env : CEnv) (s : CState) (it : Str) : Option CState :=
  match s.parseContextHead env it with
  | none => none
  | some (ctx, rest) =>
    if (skipSpace rest).isEmpty then
      some { s with
        cfg := { s.cfg with contexts := s.cfg.contexts ++ [ctx] }
        systemMatched := ctx.systemFilterMatched }
    else none

/-- `ParseConfig.cpp:335`: set the flag of the context before the last one -/
def setPrevFallthrough (cs : List CContext) : List CContext :=
  match cs.reverse with
  | l :: p :: ps => (l :: { p with fallthrough := true } :: ps).reverse
  | _ => cs

/-- `ParseConfig.cpp:326-339`: a context -/
def CState.parseContextLine (env : CEnv) (s : CState) (it : Str) : Option CState :=
  match s.parseContext env it with
  | none => none
  | some s =>
    match s.cfg.contexts.getLast? with
    | none => none
    | some last =>
      if last.beginStage then some { s with afterEmpty := false }
      else
        let s := if s.afterEmpty then
          { s with cfg := { s.cfg with contexts := setPrevFallthrough s.cfg.contexts } } else s
        some { s with afterEmpty := true }

/-- `ParseConfig.cpp:722-726` `parse_macro` -/
def CState.parseMacro (s : CState) (name it : Str) : Option CState :=
  match preprocessRange (preprocess s.macros 30) s.macros false it with
  | none => none
  | some text =>
    if s.systemMatched || (s.macros.get name).isNone then some { s with macros := s.macros.set name text }
    else some s

/-- `ParseConfig.cpp:738-754`: the alternatives of a logical key -/
def CState.parseLogicalGo (s : CState) (name : Str) (left : Key) (it : Str) : Option CState :=
  let (n, rest) := readIdent (skipSpace it)
  match s.pre n with
  | none => none
  | some n =>
    let right := s.getKey n
    if right == Key.none then none
    else
      match skipSpace rest with
      | '|' :: r =>
        let (s, left) := s.addLogicalKey ['$'] left right
        if r.length < it.length then s.parseLogicalGo name left r else none
      | r => if (skipSpace r).isEmpty then some (s.addLogicalKey name left right).1 else none
termination_by it.length

/-- `ParseConfig.cpp:728-756` `parse_logical_key_definition`; outer `none` is an exception, the
inner one `false` -/
def CState.parseLogicalKey (s : CState) (name it : Str) : Option (Option CState) :=
  if s.getKey name != Key.none then some none
  else
    let (n, rest) := readIdent it
    match s.pre n with
    | none => none
    | some n =>
      let left := s.getKey n
      match skipSpace rest with
      | '|' :: r => if left == Key.none then some none else (s.parseLogicalGo name left r).map some
      | _ => some none

/-- `ParseConfig.cpp:397-404` `read_optional_bool`, with the text after it -/
def readOptionalBool (it : Str) : Option (Bool × Str) :=
  let (value, rest) := readIdent it
  if value.isEmpty || value == "true".toList then some (true, rest)
  else if value == "false".toList then some (false, rest)
  else none

/-- `std::getline(ss, name, ' ')` until it fails: split at spaces, without a last empty part -/
def splitOptions (it : Str) : List Str :=
  let parts := it.foldr (fun c acc =>
    if c == ' ' then [] :: acc
    else match acc with
      | p :: ps => (c :: p) :: ps
      | [] => [[c]]) [[]]
  if parts.getLast? == some [] then parts.dropLast else parts

/-- `ParseConfig.cpp:469-475` the names of options -/
def optionNames : List Str :=
  ["update".toList, "no-update".toList, "verbose".toList, "no-tray".toList, "no-notify".toList]

/-- `ParseConfig.cpp:391-395` `add_grab_device_filter` -/
def CState.addGrabFilter (env : CEnv) (s : CState) (it : Str) (invert byId : Bool) :
    Option (CState × Str) :=
  (s.readFilter env it invert).map (fun (f, r) =>
    ({ s with cfg := { s.cfg with
        grabDeviceFilters := s.cfg.grabDeviceFilters ++ [{ f with byId := byId }] } }, r))

/-- `ParseConfig.cpp:408-489`: the directives; `incl` is `parse_file` of an included file (line
417 included). Returns the remaining text. The effect of `compose-key` on the string typer is not
modelled. -/
def CState.directive (env : CEnv) (incl : CState → Str → Option CState) (s : CState) (ident : String)
    (it : Str) : Option (CState × Str) :=
  if ident == "include" then
    match readString it with
    | none => none
    | some (name, rest) =>
      match env.files name with
      | none => none
      | some content =>
        (incl { s with cfg := { s.cfg with includes := s.cfg.includes ++ [name] } } content).map
          (fun s => (s, rest))
  else if ident == "grab-device" then s.addGrabFilter env it false false
  else if ident == "skip-device" then s.addGrabFilter env it true false
  else if ident == "grab-device-id" then s.addGrabFilter env it false true
  else if ident == "skip-device-id" then s.addGrabFilter env it true true
  else if ident == "enforce-lowercase-commands" then
    (readOptionalBool it).map (fun (b, r) => ({ s with enforceLower := b }, r))
  else if ident == "allow-unmapped-commands" then
    (readOptionalBool it).map (fun (b, r) => ({ s with allowUnmapped := b }, r))
  else if ident == "forward-modifiers" then
    (s.parseForwardModifiers it []).map (fun l => ({ s with forwardModifiers := l }, []))
  else if ident == "done" then some ({ s with done := true }, it)
  else if ident == "compose-key" then
    match s.parseInput env it with
    | none => none
    | some seq =>
      if (seq.length == 2 && (seq.head?.map (·.key)) != some Key.AltRight) ||
          (seq.length == 4 && (seq.head?.map (·.key)) == some Key.AltRight) then some (s, [])
      else none
  else if ident == "macos-iso-keyboard" || ident == "macos-toggle-fn" then
    (readOptionalBool it).map (fun (b, r) =>
      (if b then { s with cfg := { s.cfg with
          serverDirectives := s.cfg.serverDirectives ++ [ident.toList] } } else s, r))
  else if ident == "options" then
    if (splitOptions it).all (fun o => optionNames.contains o) then
      some ({ s with cfg := { s.cfg with options := s.cfg.options ++ splitOptions it } }, [])
    else none
  else none

/-- `ParseConfig.cpp:387-494` `parse_directive` -/
def CState.parseDirective (env : CEnv) (incl : CState → Str → Option CState) (s : CState) (it : Str) :
    Option CState :=
  if !s.systemMatched then some s
  else
    let (ident, rest) := readIdent it
    match s.directive env incl (String.ofList ident) (skipSpace rest) with
    | none => none
    | some (s, rest) => if (skipSpace rest).isEmpty then some s else none

/-- `ParseConfig.cpp:318-351`: a line which is not a definition -/
def CState.parseStatement (env : CEnv) (incl : CState → Str → Option CState) (s : CState) (line : Str) :
    Option CState :=
  match s.pre line with
  | none => none
  | some line =>
    match skipSpace line with
    | '@' :: it => s.parseDirective env incl it
    | '[' :: it => s.parseContextLine env it
    | it => { s with afterEmpty := false }.parseMappings env it

/-- `ParseConfig.cpp:304-352` `parse_line` -/
def CState.parseLine (env : CEnv) (incl : CState → Str → Option CState) (s : CState) (line : Str) :
    Option CState :=
  let (ident, rest) := readIdent (skipSpace line)
  match skipSpace rest with
  | '=' :: it =>
    match s.parseLogicalKey ident (skipSpace it) with
    | none => none
    | some (some s) => some s
    | some none => s.parseMacro ident (skipSpace it)
  | _ => s.parseStatement env incl line

/-- `std::getline` on the whole text: the lines (the last one may be empty) -/
def splitLines : Str → List Str
  | [] => [[]]
  | c :: cs =>
    if c == '\n' then [] :: splitLines cs
    else match splitLines cs with
      | l :: ls => (c :: l) :: ls
      | [] => [[c]]

/-- `ParseConfig.cpp:277-298`: the loop over the lines; `prev` is `prev_line` -/
def CState.parseLines (env : CEnv) (incl : CState → Str → Option CState) :
    List Str → Str → CState → Option CState
  | [], _, s => some s
  | line :: lines, prev, s =>
    if s.done then some s
    else
      let trimmed := trimSpaceEnd line
      if trimmed.getLast? == some '\\' then
        CState.parseLines env incl lines (prev ++ trimmed.dropLast) s
      else
        match s.parseLine env incl (prev ++ line) with
        | none => none
        | some s => CState.parseLines env incl lines [] s

/-- The UTF-8 byte order mark (`ParseConfig.cpp:281`) -/
def utf8Bom : Str := [Char.ofNat 0xEF, Char.ofNat 0xBB, Char.ofNat 0xBF]

/-- `ParseConfig.cpp:271-302` `parse_file`; the first argument is the number of nested includes
which are still allowed (`10 - m_include_level`). -/
def CState.parseFile (env : CEnv) : Nat → CState → Str → Option CState
  | 0, s, content =>
    CState.parseLines env (fun _ _ => none) (splitLines ((skipStr utf8Bom content).getD content)) [] s
  | n + 1, s, content =>
    CState.parseLines env (CState.parseFile env n)
      (splitLines ((skipStr utf8Bom content).getD content)) [] s

/-- `ParseConfig.cpp:1109-1126` `prepend_forward_modifier_mappings` -/
def prependForward (modifiers : List Key) (cs : List CContext) : List CContext :=
  cs.map (fun c =>
    if c.beginStage then
      modifiers.reverse.foldl (fun (c : CContext) k => { c with
        inputs := ⟨[⟨k, .Down, 0⟩, ⟨k, .UpAsync, 0⟩], c.outputs.length⟩ :: c.inputs
        outputs := c.outputs ++ [[⟨k, .Down, 0⟩]] }) c
    else c)

/-- `ParseConfig.cpp:1068-1103`: the loop of `optimize_contexts`; the contexts `[0, i]` reversed and
the ones kept behind -/
def optimizeGo (before : Bool) : List CContext → List CContext → List CContext
  | [], acc => acc
  | c :: rest, acc =>
    if c.fallthrough then
      if !c.systemFilterMatched || !before then optimizeGo before rest acc
      else optimizeGo before rest (c :: acc)
    else
      let hasNoEffect := c.inputs.isEmpty && c.commandOutputs.isEmpty && (rest.isEmpty || !c.beginStage)
      if !c.systemFilterMatched || hasNoEffect then
        match rest with
        | p :: ps =>
          if p.fallthrough then
            let p' : CContext := { p with
              inputs := c.inputs
              outputs := c.outputs
              commandOutputs := c.commandOutputs
              fallthrough := false }
            optimizeGo false (p' :: ps) acc
          else optimizeGo false (p :: ps) acc
        | [] => optimizeGo false [] acc
      else optimizeGo true rest (c :: acc)
termination_by l => l.length

/-- `ParseConfig.cpp:1068-1107` `optimize_contexts` -/
def optimizeContexts (cs : List CContext) : List CContext :=
  let cs := optimizeGo false cs.reverse []
  if cs.isEmpty then [{}] else cs

/-- `ParseConfig.cpp:1022-1040`: duplicate the inputs containing the logical key; returns the new
inputs and outputs -/
def duplicateInputs (l : LogicalKey) : List Input → List KeySequence → List Input × List KeySequence
  | [], outs => ([], outs)
  | i :: is, outs =>
    if containsKey i.input l.both then
      let first : Input := { i with input := replaceKey i.input l.both l.left }
      let second : Input := { i with input := replaceKey i.input l.both l.right }
      match (if 0 ≤ i.outputIndex then outs[i.outputIndex.toNat]? else none) with
      | some out =>
        if containsKey out l.both then
          let (is', outs') := duplicateInputs l is (outs ++ [replaceKey out l.both l.right])
          (first :: { second with outputIndex := outs.length } :: is', outs')
        else
          let (is', outs') := duplicateInputs l is outs
          (first :: second :: is', outs')
      | none =>
        let (is', outs') := duplicateInputs l is outs
        (first :: second :: is', outs')
    else
      let (is', outs') := duplicateInputs l is outs
      (i :: is', outs')

/-- `ParseConfig.cpp:1012-1050`: replace a logical key in a context -/
def replaceInContext (l : LogicalKey) (c : CContext) : CContext :=
  let inputs := c.inputs.map (fun i => { i with input := replaceNotKey i.input l.both l.left l.right })
  let outputs := c.outputs.map (fun o => replaceNotKey o l.both l.left l.right)
  let commands := c.commandOutputs.map
    (fun o => { o with output := replaceNotKey o.output l.both l.left l.right })
  let (inputs, outputs) := duplicateInputs l inputs outputs
  { c with
    inputs := inputs
    outputs := outputs.map (fun o => replaceKey o l.both l.left)
    commandOutputs := commands.map (fun o => { o with output := replaceKey o.output l.both l.left })
    modifierFilter := replaceNotKey c.modifierFilter l.both l.left l.right }

/-- `ParseConfig.cpp:1010-1066` `replace_logical_key` -/
def replaceLogicalKey (cs : List CContext) (l : LogicalKey) : List CContext :=
  (cs.map (replaceInContext l)).flatMap (fun c =>
    if containsKey c.modifierFilter l.both then
      [{ c with
          inputs := []
          outputs := []
          commandOutputs := []
          fallthrough := true
          modifierFilter := replaceKey c.modifierFilter l.both l.left },
       { c with modifierFilter := replaceKey c.modifierFilter l.both l.right }]
    else [c])

/-- `ParseConfig.cpp:1136-1140` `prepend_not_event` -/
def prependNot (k : Key) (out : KeySequence) : KeySequence :=
  if !out.contains ⟨k, .Down, 0⟩ && !out.contains ⟨k, .Not, 0⟩ then ⟨k, .Not, 0⟩ :: out else out

/-- `ParseConfig.cpp:1142-1154`: suppress a forwarded modifier in the output of an input of context
`ci` -/
def suppressInput (ci : Nat) (k : Key) (cs : List CContext) (i : Input) : List CContext :=
  if i.input.contains ⟨k, .Down, 0⟩ then
    if 0 ≤ i.outputIndex then
      cs.modify ci (fun c => { c with outputs := c.outputs.modify i.outputIndex.toNat (prependNot k) })
    else
      cs.map (fun c => { c with commandOutputs := c.commandOutputs.map (fun o =>
        if o.index == i.outputIndex then { o with output := prependNot k o.output } else o) })
  else cs

/-- `ParseConfig.cpp:1128-1157` `suppress_forwarded_modifiers_in_outputs` -/
def suppressForwarded (modifiers : List Key) (cs : List CContext) : List CContext :=
  (List.range cs.length).foldl (fun cs ci =>
    modifiers.foldl (fun cs k =>
      match cs[ci]? with
      | some c => c.inputs.foldl (suppressInput ci k) cs
      | none => cs) cs) cs

/-- `ParseConfig.cpp:194-220`: the state before parsing -/
def CState.init : CState :=
  let s : CState := { cfg := { contexts := [{ beginStage := true, systemFilterMatched := true }] } }
  let s := (s.addLogicalKey "Shift".toList Key.ShiftLeft Key.ShiftRight).1
  let s := (s.addLogicalKey "Control".toList Key.ControlLeft Key.ControlRight).1
  let s := (s.addLogicalKey "Alt".toList Key.AltLeft Key.AltRight).1
  (s.addLogicalKey "Meta".toList Key.MetaLeft Key.MetaRight).1

/-- `ParseConfig.cpp:230-242`: the passes over the contexts after parsing -/
def CState.finishContexts (s : CState) : List CContext :=
  let cs := prependForward s.forwardModifiers s.cfg.contexts
  let cs := optimizeContexts cs
  let cs := s.logical.reverse.foldl replaceLogicalKey cs
  if s.forwardModifiers.isEmpty then cs else suppressForwarded s.forwardModifiers cs

/-- `ParseConfig.cpp:244-247`: the virtual keys with a name -/
def CState.virtualKeyAliases (s : CState) : List (Str × Key) :=
  ((sortBy (fun a b => !strLt b.1 a.1) s.macros).map (fun m => (m.1, s.getKey m.2))).filter
    (fun p => isVirtualKey p.2)

/-- `ParseConfig.cpp:192-250` `ParseConfig::operator()` -/
def parseConfig (env : CEnv) (text : Str) : Option Config :=
  match CState.parseFile env 10 CState.init text with
  | none => none
  | some s =>
    if !s.allowUnmapped && s.commands.any (fun c => !c.mapped) then none
    else some { s.cfg with
      contexts := s.finishContexts
      virtualKeyAliases := s.virtualKeyAliases }

end KM
