import Verif.Spec.GrammarInput
import Verif.Spec.Macros
import Verif.Model.ParseConfig
/-!
# Specification: the lines of a configuration

A configuration is a list of statements, one in each line: definitions of aliases and macros, mappings, and the begin of a
context or stage. What they mean is given by the contexts which they create.
-/
namespace KM

/-! ### contexts -/

/-- The filters which compare a text -/
inductive FilterKind where
  | windowClass | windowTitle | windowPath | device | deviceId
deriving DecidableEq, Repr

/-- `title="..."`, `system="Linux"`, `modifier="A !B"`; `invert` when it is `!=` -/
inductive Attr where
  | filter (kind : FilterKind) (value : Str) (regex invert : Bool)
  | system (name : Str) (invert : Bool)
  | modifier (keys : List (Bool × Key)) (invert : Bool)
deriving DecidableEq, Repr

/-- the output of a mapping -/
inductive Aim where
  | keys (o : KeySequence)
  | command (name : Str)
deriving DecidableEq, Repr

/-- A context in the configuration -/
structure Block where
  attrs : List Attr := []
  stage : Bool := false
  fallsThrough : Bool := false
  mappings : List (KeySequence × Aim) := []
  commandOutputs : List (Str × KeySequence) := []
deriving DecidableEq, Repr

/-- the last `system` filter decides -/
def Attr.systemOr (m : Bool) : Attr → Bool
  | .system name invert => (name.map toLowerC == "linux".toList) != invert
  | _ => m

/-- does the context belong to this system -/
def Block.matchesSystem (b : Block) : Bool := b.attrs.foldl Attr.systemOr true

/-- commands have the numbers -1, -2, ... in the order of their first use -/
def commandNumber (commands : List Str) (name : Str) : Int := -((commands.idxOf name : Int) + 1)

/-- The inputs: mappings to keys are numbered, beginning with `n` -/
def numberInputs (commands : List Str) : (n : Nat) → List (KeySequence × Aim) → List Input
  | _, [] => []
  | n, (i, .keys _) :: ms => ⟨i, n⟩ :: numberInputs commands (n + 1) ms
  | n, (i, .command name) :: ms => ⟨i, commandNumber commands name⟩ :: numberInputs commands n ms

/-- the outputs of mappings -/
def outputsOf (ms : List (KeySequence × Aim)) : List KeySequence :=
  ms.filterMap (fun m => match m.2 with | .keys o => some o | .command _ => none)

/-- set a filter; a later one replaces an earlier one -/
def Attr.set (c : CContext) : Attr → CContext
  | .filter .windowClass value regex invert => { c with windowClass := ⟨value, regex, invert⟩ }
  | .filter .windowTitle value regex invert => { c with windowTitle := ⟨value, regex, invert⟩ }
  | .filter .windowPath value regex invert => { c with windowPath := ⟨value, regex, invert⟩ }
  | .filter .device value regex invert => { c with deviceFilter := ⟨value, regex, invert⟩ }
  | .filter .deviceId value regex invert => { c with deviceIdFilter := ⟨value, regex, invert⟩ }
  | .system _ _ => c
  | .modifier keys invert => { c with
      modifierFilter := keys.map (fun k => ⟨k.2, if k.1 then .Not else .Down, 0⟩)
      invertModifierFilter := invert }

/-- **What a context means**: its filters, the inputs with the number of their output, the outputs, the outputs of commands -/
def Block.context (commands : List Str) (b : Block) : CContext :=
  { b.attrs.foldl Attr.set {} with
    inputs := numberInputs commands 0 b.mappings
    outputs := outputsOf b.mappings
    commandOutputs := b.commandOutputs.map (fun c => ⟨c.2, commandNumber commands c.1⟩)
    systemFilterMatched := b.matchesSystem
    fallthrough := b.fallsThrough
    beginStage := b.stage }

/-! ### statements -/

/-- a statement -/
inductive Stmt where
  /-- an empty line or a comment -/
  | nothing
  /-- `name = text` -/
  | define (name text : Str)
  /-- `input >> output` -/
  | map (flag : Bool) (e : InExpr) (o : OutExpr)
  /-- `input >> command` -/
  | toCommand (flag : Bool) (e : InExpr) (name : Str)
  /-- `command >> output` -/
  | command (name : Str) (o : OutExpr)
  /-- `[default]` or `[title="..."]` -/
  | context (attrs : List Attr)
  /-- `[stage]` -/
  | stage
  /-- `command >> output` of a command which is not used -/
  | unusedCommand (o : OutExpr)
  /-- `name = A | B | C`: the first one and the others -/
  | either (name : Str) (first : Key) (others : List Key)
  /-- `@grab-device`, `@skip-device`, `@grab-device-id`, `@skip-device-id` -/
  | grab (filter : GrabDeviceFilter)
  /-- `@enforce-lowercase-commands` -/
  | lowercase (on : Bool)
  /-- `@allow-unmapped-commands` -/
  | unmapped (on : Bool)
  /-- `@macos-iso-keyboard`, `@macos-toggle-fn` -/
  | server (name : Str) (on : Bool)
  /-- `@forward-modifiers` -/
  | forward (keys : List Key)
  /-- `@options` -/
  | options (names : List Str)
  /-- `@done` -/
  | done
  /-- a directive in a context of another system -/
  | ignored
deriving DecidableEq, Repr

/-- The keys which are one of two keys, before any definition: `Shift`, `Control`, `Alt` and `Meta`. They have numbers in the order
of their definition. -/
def builtinKeys : List LogicalKey :=
  [⟨"Shift".toList, Key.first_logical, Key.ShiftLeft, Key.ShiftRight⟩,
   ⟨"Control".toList, Key.first_logical + 1, Key.ControlLeft, Key.ControlRight⟩,
   ⟨"Alt".toList, Key.first_logical + 2, Key.AltLeft, Key.AltRight⟩,
   ⟨"Meta".toList, Key.first_logical + 3, Key.MetaLeft, Key.MetaRight⟩]

/-- The definition `name = left | others`: of three keys, two are combined to a key without a proper name -/
def addKeys (name : Str) : (left : Key) → (others : List Key) → List LogicalKey → List LogicalKey
  | _, [], ls => ls
  | left, [k], ls => ls ++ [⟨name, Key.first_logical + ls.length, left, k⟩]
  | left, k :: ks, ls => addKeys name (Key.first_logical + ls.length) ks (ls ++ [⟨['$'], Key.first_logical + ls.length, left, k⟩])

/-- the names of keys, with the keys which were defined -/
abbrev namesWith (logical : List LogicalKey) : Str → Key := CState.getKey { logical := logical }

/-- What was read up to some line -/
structure Doc where
  /-- complete contexts and the current one -/
  blocks : List Block := []
  current : Block := { stage := true }
  /-- is the line before the begin of a context -/
  justOpened : Bool := false
  /-- the commands, in the order of their first use, and the ones with an output -/
  commands : List Str := []
  mapped : List Str := []
  /-- the terminal commands -/
  terminal : List Str := []
  macros : Macros := []
  /-- the keys which are one of two keys -/
  logical : List LogicalKey := builtinKeys
  /-- the effects of directives -/
  grab : List GrabDeviceFilter := []
  server : List Str := []
  options : List Str := []
  includes : List Str := []
  forward : List Key := []
  allowUnmapped : Bool := false
  enforceLower : Bool := false
  done : Bool := false
deriving DecidableEq, Repr

/-- **What a statement means.** A context which is directly followed by the begin of another one falls through. -/
def Doc.step (typer : Typer) (d : Doc) : Stmt → Doc
  | .nothing => { d with justOpened := false }
  | .define name text =>
    if d.current.matchesSystem = true ∨ d.macros.get name = none then { d with macros := d.macros.set name text } else d
  | .map flag e o => { d with
      current.mappings := d.current.mappings ++ [(e.meaning typer flag, .keys (o.meaning typer d.terminal.length))]
      terminal := d.terminal ++ o.commands
      justOpened := false }
  | .toCommand flag e name => { d with
      current.mappings := d.current.mappings ++ [(e.meaning typer flag, .command name)]
      commands := if name ∈ d.commands then d.commands else d.commands ++ [name]
      justOpened := false }
  | .command name o => { d with
      current.commandOutputs := d.current.commandOutputs ++ [(name, o.meaning typer d.terminal.length)]
      mapped := d.mapped ++ [name]
      terminal := d.terminal ++ o.commands
      justOpened := false }
  | .context attrs => { d with
      blocks := d.blocks ++ [{ d.current with fallsThrough := d.justOpened }]
      current := { attrs := attrs }
      justOpened := true }
  | .stage => { d with
      blocks := d.blocks ++ [d.current]
      current := { stage := true }
      justOpened := false }
  | .unusedCommand o => { d with terminal := d.terminal ++ o.commands, justOpened := false }
  | .either name first others => { d with logical := addKeys name first others d.logical }
  | .grab filter => { d with grab := d.grab ++ [filter] }
  | .lowercase on => { d with enforceLower := on }
  | .unmapped on => { d with allowUnmapped := on }
  | .server name on => { d with server := if on then d.server ++ [name] else d.server }
  | .forward keys => { d with forward := keys }
  | .options names => { d with options := d.options ++ names }
  | .done => { d with done := true }
  | .ignored => d

/-- all contexts -/
def Doc.contexts (d : Doc) : List CContext := (d.blocks ++ [d.current]).map (Block.context d.commands)

/-! ### the contexts of the configuration -/

/-- The contexts `hs` fall through to `b`. When there are no mappings nothing remains (stages remain, apart from the first one).
Otherwise the ones of this system remain, the last one has the mappings. -/
def groupBlocks (first : Bool) (hs : List Block) (b : Block) : List Block :=
  if b.mappings = [] ∧ b.commandOutputs = [] ∧ (first = true ∨ b.stage = false) then []
  else
    match ((hs ++ [b]).filter Block.matchesSystem).getLast? with
    | none => []
    | some l => ((hs ++ [b]).filter Block.matchesSystem).dropLast ++
        [{ l with fallsThrough := false, mappings := b.mappings, commandOutputs := b.commandOutputs }]

/-- The contexts which remain; `hs` fall through to the next one -/
def remainingBlocks : (first : Bool) → (hs : List Block) → List Block → List Block
  | _, _, [] => []
  | first, hs, b :: bs =>
    if b.fallsThrough then remainingBlocks first (hs ++ [b]) bs
    else groupBlocks first hs b ++ remainingBlocks false [] bs

/-- **The contexts of the configuration**: there is at least one -/
def Doc.result (d : Doc) : List CContext :=
  match remainingBlocks true [] (d.blocks ++ [d.current]) with
  | [] => [{}]
  | bs => bs.map (Block.context d.commands)

/-- keys which are not logical keys like `Shift` -/
def PlainKeys (l : KeySequence) : Prop := ∀ e ∈ l, e.key < Key.first_logical

/-- no logical keys are used -/
def Doc.Plain (d : Doc) : Prop := ∀ c ∈ d.result, (∀ i ∈ c.inputs, PlainKeys i.input) ∧ (∀ o ∈ c.outputs, PlainKeys o) ∧
  (∀ o ∈ c.commandOutputs, PlainKeys o.output) ∧ PlainKeys c.modifierFilter

/-! ### texts of contexts -/

/-- the names of filters -/
inductive FilterName : FilterKind → Str → Prop
  | windowClass : FilterName .windowClass "class".toList
  | windowTitle : FilterName .windowTitle "title".toList
  | windowPath : FilterName .windowPath "path".toList
  | device : FilterName .device "device".toList
  | deviceId : FilterName .deviceId "device-id".toList
  | deviceId' : FilterName .deviceId "device_id".toList

/-- strings which are taken for a regular expression, even when they are in quotes -/
def LooksLikeRegex (u : Str) : Prop := (∃ v, u = '/' :: (v ++ ['/'])) ∨ (∃ v, u = '/' :: (v ++ ['/', 'i'])) ∨ u = ['/', 'i']

/-- the value of a filter: a string or a regular expression -/
inductive FilterValue (validRegex : Str → Bool) : (value : Str) → (regex : Bool) → Str → Prop
  | string {q u} (hq : isQuote q = true) (hn : q ∉ u) (hne : u ≠ []) (hr : ¬ LooksLikeRegex u) :
      FilterValue validRegex u false (q :: u ++ [q])
  | regex {u} (h : ∀ c ∈ u, c ≠ '/' ∧ c ≠ '\\') (hv : validRegex ('/' :: u ++ ['/']) = true) :
      FilterValue validRegex ('/' :: u ++ ['/']) true ('/' :: u ++ ['/'])
  | regexIgnoreCase {u} (h : ∀ c ∈ u, c ≠ '/' ∧ c ≠ '\\') (hv : validRegex ('/' :: u ++ ['/', 'i']) = true) :
      FilterValue validRegex ('/' :: u ++ ['/', 'i']) true ('/' :: u ++ ['/', 'i'])

/-- the keys of a modifier filter: `A !B` -/
inductive ModifierText (getKey : Str → Key) : List (Bool × Key) → Str → Prop
  | nil {sp} (hs : Spaces sp) : ModifierText getKey [] sp
  | down {sp n k ks t} (hs : Spaces sp) (hn : Word n) (hk : getKey n = k ∧ k ≠ Key.none ∧ k ≠ Key.ContextActive)
      (ht : ModifierText getKey ks t) (ha : NotBefore isIdentChar t) : ModifierText getKey ((false, k) :: ks) (sp ++ n ++ t)
  | not {sp n k ks t} (hs : Spaces sp) (hn : Word n) (hk : getKey n = k ∧ k ≠ Key.none ∧ k ≠ Key.ContextActive)
      (ht : ModifierText getKey ks t) (ha : NotBefore isIdentChar t) : ModifierText getKey ((true, k) :: ks) (sp ++ '!' :: n ++ t)

/-- `=` or `!=` -/
def compareText (invert : Bool) : Str := if invert then ['!', '='] else ['=']

/-- the text of a filter -/
inductive AttrText (validRegex : Str → Bool) (getKey : Str → Key) (macros : Macros) : Attr → Str → Prop
  | filter {kind value regex invert n v sp sp'} (hn : FilterName kind n) (hv : FilterValue validRegex value regex v)
      (hs : Spaces sp) (hs' : Spaces sp') :
      AttrText validRegex getKey macros (.filter kind value regex invert) (n ++ sp ++ compareText invert ++ sp' ++ v)
  | system {q u invert sp sp'} (hq : isQuote q = true) (hn : q ∉ u) (hs : Spaces sp) (hs' : Spaces sp') :
      AttrText validRegex getKey macros (.system u invert) ("system".toList ++ sp ++ compareText invert ++ sp' ++ q :: u ++ [q])
  /-- aliases are replaced -/
  | modifier {q u v keys invert sp sp'} (hq : isQuote q = true) (hn : q ∉ u) (he : Expand macros 30 (.text u) [v])
      (hv : ModifierText getKey keys v) (hd : (keys.map (·.2)).Nodup) (hs : Spaces sp) (hs' : Spaces sp') :
      AttrText validRegex getKey macros (.modifier keys invert) ("modifier".toList ++ sp ++ compareText invert ++ sp' ++ q :: u ++ [q])

/-- filters are separated by commas or white space -/
inductive AttrsText (validRegex : Str → Bool) (getKey : Str → Key) (macros : Macros) : List Attr → Str → Prop
  | one {a t sp} (ha : AttrText validRegex getKey macros a t) (hs : Spaces sp) : AttrsText validRegex getKey macros [a] (t ++ sp)
  | comma {a as t u sp sp'} (ha : AttrText validRegex getKey macros a t) (hs : Spaces sp) (hs' : Spaces sp')
      (hu : AttrsText validRegex getKey macros as u) : AttrsText validRegex getKey macros (a :: as) (t ++ sp ++ ',' :: sp' ++ u)
  | space {a as t u sp} (ha : AttrText validRegex getKey macros a t) (hs : Spaces sp) (hne : sp ≠ [])
      (hu : AttrsText validRegex getKey macros as u) : AttrsText validRegex getKey macros (a :: as) (t ++ sp ++ u)

/-! ### texts of statements -/

/-- the text of a single word, with white space around -/
def SingleWord (t w : Str) : Prop := ∃ sp sp', Spaces sp ∧ Word w ∧ Spaces sp' ∧ t = sp ++ w ++ sp'

/-- The names of keys, without definitions -/
abbrev keyOf : Str → Key := namesWith builtinKeys

/-- may the word be the name of a command -/
def CommandWord (getKey : Str → Key) (enforceLower : Bool) (w : Str) : Prop :=
  getKey w = Key.none ∧ (enforceLower = true → startsWithLowerCase w = true)

/-- A valid input; a single word is not the name of a command and does not begin with a lower case letter. -/
structure InputText (typer : Typer) (getKey : Str → Key) (commands : List Str) (flag : Bool) (e : InExpr) (t : Str) : Prop where
  text : InTextFlag getKey flag e t
  valid : e.Valid typer flag false false []
  fresh : e.Fresh []
  keys : e.hasKeys typer = true
  real : flag = true → ∀ x ∈ e.meaning typer flag, isVirtualKey x.key = false
  noArrow : '>' ∉ t
  noCommand : ∀ w, SingleWord t w → w ∉ commands ∧ startsWithLowerCase w = false

/-- A valid output; a single word is not the name of a command. -/
structure OutputText (typer : Typer) (getKey : Str → Key) (lower : Bool) (o : OutExpr) (t : Str) : Prop where
  text : OutText getKey o t
  valid : o.Valid typer
  releases : o.releases ≤ 1
  fresh : o.Fresh []
  key : ∀ w, SingleWord t w → ¬ CommandWord getKey lower w

/-- quotes match and there is only one line -/
abbrev OneLine (t : Str) : Prop := QuotesMatch (fun c => c == '\n') t

/-- The texts of mappings -/
inductive Doc.Mapping (env : CEnv) (d : Doc) : Stmt → Str → Prop
  | map {flag e o t u} (hi : InputText env.typer (namesWith d.logical) d.commands flag e t)
      (ho : OutputText env.typer (namesWith d.logical) d.enforceLower o u) : Doc.Mapping env d (.map flag e o) (t ++ '>' :: '>' :: u)
  | toCommand {flag e name t u} (hi : InputText env.typer (namesWith d.logical) d.commands flag e t) (hu : SingleWord u name)
      (hk : CommandWord (namesWith d.logical) d.enforceLower name) : Doc.Mapping env d (.toCommand flag e name) (t ++ '>' :: '>' :: u)
  /-- the command was used before and has no output in this context yet -/
  | command {name o t u} (ht : SingleWord t name) (hm : name ∈ d.commands) (hn : name ∉ d.current.commandOutputs.map (·.1))
      (ho : OutputText env.typer (namesWith d.logical) d.enforceLower o u) : Doc.Mapping env d (.command name o) (t ++ '>' :: '>' :: u)
  /-- the command was not used -/
  | unusedCommand {name o t u} (ha : d.allowUnmapped = true) (ht : SingleWord t name) (hl : startsWithLowerCase name = true)
      (hm : name ∉ d.commands) (ho : OutputText env.typer (namesWith d.logical) d.enforceLower o u) :
      Doc.Mapping env d (.unusedCommand o) (t ++ '>' :: '>' :: u)

/-- The texts of optional truth values -/
inductive BoolText : Bool → Str → Prop
  | none : BoolText true []
  | true : BoolText true "true".toList
  | false : BoolText false "false".toList

/-- The names of the directives for devices -/
inductive GrabName : (skip byId : Bool) → Str → Prop
  | grab : GrabName false false "grab-device".toList
  | skip : GrabName true false "skip-device".toList
  | grabId : GrabName false true "grab-device-id".toList
  | skipId : GrabName true true "skip-device-id".toList

/-- The names of the directives of the server -/
inductive ServerDirective : Str → Prop
  | isoKeyboard : ServerDirective "macos-iso-keyboard".toList
  | toggleFn : ServerDirective "macos-toggle-fn".toList

/-- The keys of `@forward-modifiers`: a key which is one of two keys stands for both -/
inductive ForwardText (logical : List LogicalKey) : List Key → Str → Prop
  | nil : ForwardText logical [] []
  | both {w l sp ks t} (hw : Word w) (hl : logical.find? (fun l => l.name == w) = some l) (hs : Spaces sp)
      (ht : ForwardText logical ks t) (ha : NotBefore isIdentChar (sp ++ t)) : ForwardText logical (l.left :: l.right :: ks) (w ++ sp ++ t)
  | key {w sp ks t} (hw : Word w) (hl : ∀ l ∈ logical, l.name ≠ w) (hk : isDeviceKey (getKeyByName w) = true) (hs : Spaces sp)
      (ht : ForwardText logical ks t) (ha : NotBefore isIdentChar (sp ++ t)) : ForwardText logical (getKeyByName w :: ks) (w ++ sp ++ t)

/-- The known options -/
def knownOptions : List Str :=
  ["update".toList, "no-update".toList, "verbose".toList, "no-tray".toList, "no-notify".toList]

/-- words separated by single spaces -/
def spaced : List Str → Str
  | [] => []
  | [w] => w
  | w :: ws => w ++ ' ' :: spaced ws

/-- The texts of directives, after `@` -/
inductive Doc.Directive (env : CEnv) (d : Doc) : Stmt → Str → Prop
  | grab {skip byId n sp value regex v sp'} (hn : GrabName skip byId n) (hs : Spaces sp) (hv : FilterValue env.validRegex value regex v)
      (hs' : Spaces sp') : Doc.Directive env d (.grab ⟨⟨value, regex, skip⟩, byId⟩) (n ++ sp ++ v ++ sp')
  | lowercase {b sp t sp'} (hs : Spaces sp) (hne : t = [] ∨ sp ≠ []) (hb : BoolText b t) (hs' : Spaces sp') :
      Doc.Directive env d (.lowercase b) ("enforce-lowercase-commands".toList ++ sp ++ t ++ sp')
  | unmapped {b sp t sp'} (hs : Spaces sp) (hne : t = [] ∨ sp ≠ []) (hb : BoolText b t) (hs' : Spaces sp') :
      Doc.Directive env d (.unmapped b) ("allow-unmapped-commands".toList ++ sp ++ t ++ sp')
  | server {n b sp t sp'} (hn : ServerDirective n) (hs : Spaces sp) (hne : t = [] ∨ sp ≠ []) (hb : BoolText b t) (hs' : Spaces sp') :
      Doc.Directive env d (.server n b) (n ++ sp ++ t ++ sp')
  | forward {ks sp t} (hs : Spaces sp) (hne : t = [] ∨ sp ≠ []) (hk : ForwardText d.logical ks t) (hd : ks.Nodup) :
      Doc.Directive env d (.forward ks) ("forward-modifiers".toList ++ sp ++ t)
  | options {os sp} (hs : Spaces sp) (hne : os = [] ∨ sp ≠ []) (ho : ∀ o ∈ os, o ∈ knownOptions) :
      Doc.Directive env d (.options os) ("options".toList ++ sp ++ spaced os)
  | done {sp} (hs : Spaces sp) : Doc.Directive env d .done ("done".toList ++ sp)

/-- The texts of statements, in which aliases are already replaced -/
inductive Doc.Statement (env : CEnv) (d : Doc) : Stmt → Str → Prop
  | nothing {t} (hs : Spaces t) : Doc.Statement env d .nothing t
  | comment {sp c t} (hs : Spaces sp) (hc : c = '#' ∨ c = ';') : Doc.Statement env d .nothing (sp ++ c :: t)
  | mapping {st t} (hm : d.Mapping env st t) (hl : OneLine t) : Doc.Statement env d st t
  | default {sp0 sp sp' sp1} (h0 : Spaces sp0) (hs : Spaces sp) (hs' : Spaces sp') (h1 : Spaces sp1) :
      Doc.Statement env d (.context []) (sp0 ++ '[' :: sp ++ "default".toList ++ sp' ++ ']' :: sp1)
  | stage {sp0 sp sp' sp1} (h0 : Spaces sp0) (hs : Spaces sp) (hs' : Spaces sp') (h1 : Spaces sp1) :
      Doc.Statement env d .stage (sp0 ++ '[' :: sp ++ "stage".toList ++ sp' ++ ']' :: sp1)
  | context {attrs t sp0 sp sp1} (h0 : Spaces sp0) (hs : Spaces sp) (h1 : Spaces sp1)
      (ha : AttrsText env.validRegex (namesWith d.logical) d.macros attrs t) :
      Doc.Statement env d (.context attrs) (sp0 ++ '[' :: sp ++ t ++ ']' :: sp1)
  | directive {st sp t} (hs : Spaces sp) (hm : d.current.matchesSystem = true) (hd : d.Directive env st t) :
      Doc.Statement env d st (sp ++ '@' :: t)
  | ignored {sp t} (hs : Spaces sp) (hm : d.current.matchesSystem = false) : Doc.Statement env d .ignored (sp ++ '@' :: t)

/-- the names of keys, separated by `|`. Aliases are replaced. -/
inductive AlternativesText (macros : Macros) (getKey : Str → Key) : List Key → Str → Prop
  | one {sp w v sp'} (hs : Spaces sp) (hw : Word w) (hv : Expand macros 30 (.text w) [v]) (hk : getKey v ≠ Key.none) (hs' : Spaces sp') :
      AlternativesText macros getKey [getKey v] (sp ++ w ++ sp')
  | cons {sp w v sp' ks t} (hs : Spaces sp) (hw : Word w) (hv : Expand macros 30 (.text w) [v]) (hk : getKey v ≠ Key.none)
      (hs' : Spaces sp') (ht : AlternativesText macros getKey ks t) :
      AlternativesText macros getKey (getKey v :: ks) (sp ++ w ++ sp' ++ '|' :: t)

/-- The lines of statements -/
inductive Doc.Line (env : CEnv) (d : Doc) : Stmt → Str → Prop
  | statement {st line r} (hd : ¬ IsDefinition line) (he : Expand d.macros 30 (.text line) [r]) (hs : d.Statement env st r) :
      Doc.Line env d st line
  | define {sp n sp2 sp3 t r f ts} (hsp : Spaces sp) (hn : Word n) (hsp2 : Spaces sp2) (hsp3 : Spaces sp3) (hb : NotBefore isSpaceC t)
      (ht : TokText ts t) (hr : Expand d.macros 30 (.toks false ts) [r]) (ha : ¬ HasAlternatives t)
      (hf : namesWith d.logical n ≠ Key.none ∨ Expand d.macros 30 (.text (t.takeWhile isIdentChar)) [f]) :
      Doc.Line env d (.define n r) (sp ++ n ++ sp2 ++ '=' :: sp3 ++ t)
  | either {sp n sp2 t k ks} (hsp : Spaces sp) (hn : Word n) (hsp2 : Spaces sp2) (hk : namesWith d.logical n = Key.none)
      (ht : AlternativesText d.macros (namesWith d.logical) (k :: ks) t) (hks : ks ≠ []) :
      Doc.Line env d (.either n k ks) (sp ++ n ++ sp2 ++ '=' :: t)

/-- Several mappings in a line (the results of macros), which are separated by line breaks -/
inductive Doc.Mappings (env : CEnv) : Doc → Str → Doc → Prop
  | last {d st t} (hm : Doc.Mapping env d st t) (hl : OneLine t) : Doc.Mappings env d t (d.step env.typer st)
  | cons {d st t u d'} (hm : Doc.Mapping env d st (t ++ ['\n'])) (hl : OneLine t) (hn : NotBefore isSpaceC u)
      (hr : Doc.Mappings env (d.step env.typer st) u d') : Doc.Mappings env d (t ++ '\n' :: u) d'

/-- A line, broken into several ones: all but the last one end with `\` -/
inductive Broken : Str → List Str → Prop
  | last {l} (hc : ¬ Continued l) (hn : '\n' ∉ l) : Broken l [l]
  | cons {a sp l ls} (hs : Spaces sp) (hn : '\n' ∉ a ++ sp) (hr : Broken l ls) : Broken (a ++ l) ((a ++ '\\' :: sp) :: ls)

/-- lines separated by line breaks -/
def joinLines : List Str → Str
  | [] => []
  | [l] => l
  | l :: ls => l ++ '\n' :: joinLines ls

/-- A configuration file: the lines with or without a byte order mark -/
def FileText (lines : List Str) (text : Str) : Prop :=
  (text = joinLines lines ∧ NotBefore (· == Char.ofNat 0xEF) text) ∨
    text = [Char.ofNat 0xEF, Char.ofNat 0xBB, Char.ofNat 0xBF] ++ joinLines lines

/-- The text `@include "name"` -/
def IncludeText (name t : Str) : Prop :=
  ∃ sp sp' q sp1, Spaces sp ∧ Spaces sp' ∧ isQuote q = true ∧ q ∉ name ∧ Spaces sp1 ∧
    t = sp ++ '@' :: "include".toList ++ sp' ++ q :: name ++ q :: sp1

/-- **The configurations with lines `lines`**: their statements lead from `d` to `d'`. The number is the number of nested includes
which are possible. -/
inductive Doc.Lines (env : CEnv) : Nat → Doc → List Str → Doc → Prop
  | nil {n d} : Doc.Lines env n d [] d
  /-- what follows `@done` is not read -/
  | done {n d lines} (hd : d.done = true) (hn : ∀ l ∈ lines, '\n' ∉ l) : Doc.Lines env n d lines d
  | cons {n d st line parts lines d'} (hl : d.Line env st line) (hb : Broken line parts)
      (hr : Doc.Lines env n (d.step env.typer st) lines d') (hd : d.done = false := by rfl) : Doc.Lines env n d (parts ++ lines) d'
  | mappings {n d d1 line r parts lines d'} (hi : ¬ IsDefinition line) (he : Expand d.macros 30 (.text line) [r]) (hm : Doc.Mappings env d r d1)
      (hb : Broken line parts) (hr : Doc.Lines env n d1 lines d') (hd : d.done = false := by rfl) : Doc.Lines env n d (parts ++ lines) d'
  /-- the lines of another file -/
  | include {n d line r name text inner d1 parts lines d'} (hi : ¬ IsDefinition line) (he : Expand d.macros 30 (.text line) [r])
      (ht : IncludeText name r) (hm : d.current.matchesSystem = true) (hf : env.files name = some text) (hne : inner ≠ [])
      (htext : FileText inner text) (h1 : Doc.Lines env n { d with includes := d.includes ++ [name] } inner d1) (hb : Broken line parts)
      (hr : Doc.Lines env (n + 1) d1 lines d') (hd : d.done = false := by rfl) : Doc.Lines env (n + 1) d (parts ++ lines) d'

end KM
