import Verif.Model.Server
import Verif.Model.ParseConfig
/-!
# Replaying the unit tests of the project

The unit tests in `/repo/src/test` are translated to `#guard` commands, to check that the model
behaves like the code. Nothing in the proofs depends on these files.
This file models the helpers in `src/test/test.cpp`.
-/
namespace KM.Test

/-- the only regular expressions evaluated in these tests have no special characters -/
def noRegex : Regex := fun p t => strContains (p.filter (· != '/')) t

/-- `test.cpp:38-68` -/
def fmtEvent (e : KeyEvent) : String :=
  (match e.state with
    | .Up => "-" | .Down => "+" | .UpAsync => "~" | .DownAsync => "*" | .Not => "!"
    | .DownMatched => "#" | .UpMatched => "=" | .OutputOnRelease => "^" | .NoMightMatch => "?"
    | .NotTimeout_cancel_on_up_down => "?") ++
  (if isVirtualKey e.key then s!"Virtual{e.key - Key.first_virtual}"
   else if isActionKey e.key then s!"Action{e.key - Key.first_action}"
   else if e.key == Key.timeout then s!"{e.value}ms"
   else match getKeyName e.key with
    | some n => String.ofList n
    | none => if e.key != Key.none then "???" else "")

/-- `test.cpp:107-112` -/
def fmtSeq (l : KeySequence) : String := " ".intercalate (l.map fmtEvent)

/-- `test.cpp:114-119` -/
def fmtKeys (l : List Key) : String := " ".intercalate (l.map (fun k => String.ofList ((getKeyName k).getD "???".toList)))

/-- `test.cpp:80-105` for one event -/
def parseEvent (s : String) : Option KeyEvent :=
  match s.toList with
  | '+' :: n => let k := getKeyByName n; if k == Key.none then none else some ⟨k, .Down, 0⟩
  | '-' :: n => let k := getKeyByName n; if k == Key.none then none else some ⟨k, .Up, 0⟩
  | _ =>
    if s.endsWith "ms" then (s.dropEnd 2).toNat?.map (fun n => makeInputTimeoutEvent n) else none

/-- `test.cpp:80-105` `parse_sequence` -/
def parseSeq (s : String) : Option KeySequence := ((s.splitOn " ").filter (· ≠ "")).mapM parseEvent

/-- `test.cpp:70-73` `parse_input` -/
def parseIn (s : String) : Option KeySequence :=
  (parseSequence { isInput := true, getKey := getKeyByName, typer := genericTyper, addCommands := false }
    s.toList).map (·.1)

/-- `test.cpp:75-78` `parse_output` -/
def parseOut (s : String) : Option KeySequence :=
  (parseSequence { isInput := false, getKey := getKeyByName, typer := genericTyper, addCommands := false }
    s.toList).map (·.1)

/-- `parse_config` -/
def parseCfg (s : String) : Option Config :=
  parseConfig { typer := genericTyper, validRegex := fun _ => true, files := fun _ => none } s.toList

/-- the contexts of `test.cpp:126-138` (the test does not copy `invert_modifier_filter`) -/
def toContext (c : CContext) : Context :=
  { inputs := c.inputs, outputs := c.outputs, commandOutputs := c.commandOutputs
    deviceFilter := c.deviceFilter, deviceIdFilter := c.deviceIdFilter
    modifierFilter := c.modifierFilter, fallthrough := c.fallthrough }

/-- Steps of a test of a stage -/
inductive TOp where
  | apply (input : String) (dev : Int) (expected : String)
  | reply (ms : Nat) (expected : String)
  | seq (expected : String)
  | clear (expected : Bool)
  | setActive (l : List Nat) (expected : Option String)
  | size (n : Nat)

def applyAll (c : Cfg) (s : S) (l : KeySequence) (dev : Int) : S × KeySequence :=
  l.foldl (fun (s, out) e => let (s, o) := update c s e dev; (s, out ++ o)) (s, [])

/-- runs a step; `none` when it failed -/
def TOp.run (c : Cfg) (s : S) : TOp → Except String S
  | .apply i dev ex =>
    match parseSeq i with
    | none => .error s!"cannot parse {i}"
    | some l =>
      let (s, o) := applyAll c s l dev
      if fmtSeq o == ex then .ok s else .error s!"apply {i}: expected '{ex}', got '{fmtSeq o}'"
  | .reply ms ex =>
    let (s, o) := update c s (makeInputTimeoutEvent ms) 0
    if fmtSeq o == ex then .ok s else .error s!"reply {ms}: expected '{ex}', got '{fmtSeq o}'"
  | .seq ex => if fmtSeq s.seq == ex then .ok s else .error s!"seq: expected '{ex}', got '{fmtSeq s.seq}'"
  | .clear b => if s.isClear == b then .ok s else .error s!"clear: {repr s}"
  | .setActive l ex =>
    let (s, o) := setActiveClientContexts c s l
    if ex.isNone || some (fmtSeq o) == ex then .ok s else .error s!"setActive: expected '{ex}', got '{fmtSeq o}'"
  | .size n => if c.contexts.length == n then .ok s else .error s!"size: expected {n}, got {c.contexts.length}"

def runOps (c : Cfg) : Nat → S → List TOp → Except String Unit
  | _, s, [] => if s.ub then .error "ub" else .ok ()
  | n, s, op :: ops =>
    match op.run c s with
    | .error e => .error s!"step {n}: {e}"
    | .ok s => if s.ub then .error s!"step {n}: ub" else runOps c (n + 1) s ops

/-- `test.cpp:121-149` `create_stage` and the steps of a test -/
def runStage (config : String) (activate : Bool) (ops : List TOp) : Except String Unit :=
  match parseCfg config with
  | none => .error "config"
  | some cfg =>
    let c := Cfg.make (cfg.contexts.map toContext)
    let s : S := if activate then (setActiveClientContexts c {} (List.range c.contexts.length)).1 else {}
    runOps c 0 s ops

def ok (r : Except String Unit) : Bool :=
  match r with
  | .ok _ => true
  | .error _ => false

/-- Steps of a test of the server -/
inductive SOp where
  | apply (input : String) (dev : Int) (expected : String)
  | timeout (reached : Bool) (expected : String)
  | flush (expected : String)
  | setActive (l : List Int) (expected : String)
  | clear
  | actions (n : Nat)
  | devices (l : List (String × String))

/-- the keys sent -/
def sent (s : Srv) : KeySequence := s.out.filterMap (fun | .sendKey e => some e | _ => none)

/-- the actions triggered -/
def triggered (s : Srv) : List Nat := s.out.filterMap (fun | .action e => some e | _ => none)

def dropSent (s : Srv) : Srv :=
  { s with out := s.out.filter (fun | .sendKey _ => false | _ => true) }

def check (s : Srv) (name ex : String) : Except String Srv :=
  if fmtSeq (sent s) == ex then .ok (dropSent s)
  else .error s!"{name}: expected '{ex}', got '{fmtSeq (sent s)}'"

def applySrv (s : Srv) (l : KeySequence) (dev : Int) : Srv :=
  let s := l.foldl (fun s e => s.translateInput noRegex e dev) s
  if s.flushAt.isNone then s.flush noRegex else s

def SOp.run (s : Srv) : SOp → Except String Srv
  | .apply i dev ex =>
    match parseSeq i with
    | none => .error s!"cannot parse {i}"
    | some l => check (applySrv s l dev) s!"apply {i}" ex
  | .timeout reached ex =>
    if s.timeoutStart.isNone then .error "no timeout" else
    check (applySrv s.cancelTimeout
      [makeInputTimeoutEvent (if reached then s.timeout else s.timeout - 1)] anyDeviceIndex) "timeout" ex
  | .flush ex => check (s.flush noRegex) "flush" ex
  | .setActive l ex => check (s.onActiveContexts noRegex l) "setActive" ex
  | .clear => if s.ms.isClear then .ok s else .error "clear"
  | .actions n =>
    if (triggered s).length == n then .ok { s with out := [] } else .error s!"actions {triggered s}"
  | .devices l => .ok (s.setDeviceDescs noRegex (l.map (fun p => ⟨p.1.toList, p.2.toList⟩)))

def Srv.anyUb (s : Srv) : Bool := s.ms.stages.any (·.2.ub)

def runSOps : Nat → Srv → List SOp → Except String Unit
  | _, _, [] => .ok ()
  | n, s, op :: ops =>
    match op.run s with
    | .error e => .error s!"step {n}: {e}"
    | .ok s => if Srv.anyUb s then .error s!"step {n}: ub" else runSOps (n + 1) s ops

/-- `ClientPort.cpp:27-78`, `test.cpp:155-186`: splitting in stages -/
def splitStages : List CContext → List CContext → List (List CContext)
  | [], cur => if cur.isEmpty then [] else [cur]
  | c :: cs, cur =>
    if !cur.isEmpty && c.beginStage then cur :: splitStages cs [c] else splitStages cs (cur ++ [c])

/-- `test4_Server.cpp:127-144` `create_state` -/
def createState (config : String) (activate : Bool) : Option Srv :=
  (parseCfg config).map fun cfg =>
    let ms := MS.make ((splitStages cfg.contexts []).map (fun l => Cfg.make (l.map toContext)))
    let s : Srv := {}
    let s := s.onConfiguration noRegex ms
    let s := s.onActiveContexts noRegex
      (if activate then (List.range ms.contextCount).map Int.ofNat else [])
    let s := dropSent s
    s.setDeviceDescs noRegex [⟨"Device0".toList, []⟩]

def runServer (config : String) (activate : Bool) (ops : List SOp) : Except String Unit :=
  match createState config activate with
  | none => .error "config"
  | some s => runSOps 0 s ops

end KM.Test
