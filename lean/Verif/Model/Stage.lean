import Verif.Model.Match
import Verif.Model.Filter
import Verif.Model.Util
/-!
# A mapping stage

Models `src/runtime/Stage.h` and `src/runtime/Stage.cpp`, function by function.

The immutable part (the contexts and the flags computed from them) is `Cfg`, the mutable
members are `S`. Failing assertions and out of bounds accesses set `S.ub`.
-/
namespace KM

/-- `Stage.h:20-24` `struct Input` -/
structure Input where
  input : KeySequence
  /-- positive for direct-, negative for command output -/
  outputIndex : Int
deriving DecidableEq, Repr, Inhabited

/-- `Stage.h:26-29` `struct CommandOutput` -/
structure CommandOutput where
  output : KeySequence
  index : Int
deriving DecidableEq, Repr, Inhabited

/-- `Stage.h:31-41` `struct Context` -/
structure Context where
  inputs : List Input := []
  outputs : List KeySequence := []
  commandOutputs : List CommandOutput := []
  deviceFilter : Filter := {}
  deviceIdFilter : Filter := {}
  modifierFilter : KeySequence := []
  matchingDeviceBits : BitVec 64 := BitVec.allOnes 64
  invertModifierFilter : Bool := false
  fallthrough : Bool := false
deriving DecidableEq, Repr, Inhabited

/-- `Stage.h:16` -/
def noDeviceIndex : Int := -1
/-- `Stage.h:17` -/
def anyDeviceIndex : Int := -2
/-- `Stage.h:18` -/
def allDeviceBits : BitVec 64 := BitVec.allOnes 64

/-- `Stage.h:10` `Trigger = std::variant<const KeySequence*, KeyEvent, Key>`. The pointer always
points to the input expression of a mapping and only its content is used. -/
inductive Trigger where
  | seq (s : KeySequence)
  | ev (e : KeyEvent)
  | key (k : Key)
deriving DecidableEq, Repr, Inhabited

/-- Identity of an output sequence (the pointers returned by `find_output`): an element of
`contexts[ctx].outputs`, or of `contexts[ctx].command_outputs`. -/
structure OutRef where
  ctx : Nat
  isCommand : Bool
  pos : Nat
deriving DecidableEq, Repr, Inhabited

/-- `Stage.h:106-110` `struct OutputOnRelease`. The range is modelled by its content. -/
structure OnRelease where
  trigger : Key
  sequence : KeySequence
  ctx : Int
deriving DecidableEq, Repr, Inhabited

/-- `Stage.h:114-121` `struct OutputDown` -/
structure OutputDown where
  key : Key
  trigger : Trigger
  suppressed : Bool := false
  temporarilyReleased : Bool := false
  pressedTwice : Bool := false
  ctx : Int := -1
deriving DecidableEq, Repr, Inhabited

/-- `Stage.h:124-128` `struct CurrentTimeout : KeyEvent` -/
structure CurrentTimeout where
  ev : KeyEvent
  trigger : Key
  matchedOutput : Option OutRef := none
  notExceeded : Bool := false
deriving DecidableEq, Repr, Inhabited

/-- The members which are only set on construction (`Stage.h:85-88`) and by
`evaluate_device_filters`. -/
structure Cfg where
  contexts : List Context := []
  hasMouseMappings : Bool := false
  hasDeviceFilter : Bool := false
  hasNoMightMatch : Bool := false
deriving DecidableEq, Repr, Inhabited

/-- The mutable members (`Stage.h:89-133`). `m_prev_active_contexts` is not a member here, since
it is overwritten with `m_active_contexts` before every use (`Stage.cpp:222`). `ub` records that
an assertion failed or that memory was accessed out of bounds. -/
structure S where
  activeClient : List Nat := []
  active : List Nat := []
  exitPos : Nat := 0
  seq : KeySequence := []
  might : Bool := false
  lastPressed : Int := -1
  lastRepeat : Int := -1
  history : KeySequence := []
  onRelease : List OnRelease := []
  down : List OutputDown := []
  timeout : Option CurrentTimeout := none
  buf : KeySequence := []
  reapplied : Bool := false
  anyM : List Key := []
  ub : Bool := false
deriving DecidableEq, Repr, Inhabited

/-- `Stage.cpp:12-15` `find_key`, as the found event -/
def findKey (l : KeySequence) (k : Key) : Option KeyEvent := l.find? (·.key == k)

/-- `Stage.cpp:17-23` `rfind_key`, as the found event -/
def rfindKey (l : KeySequence) (k : Key) : Option KeyEvent := l.reverse.find? (·.key == k)

/-- `erase(rfind_key(l, k))` -/
def rEraseKey (l : KeySequence) (k : Key) : KeySequence := (l.reverse.eraseP (·.key == k)).reverse

/-- `Stage.cpp:35-37` -/
def isNonOptional (e : KeyEvent) : Bool := e.state == .Up || e.state == .Down

/-- `Stage.cpp:39-41` -/
def hasNonOptional (l : KeySequence) : Bool := l.any isNonOptional

/-- `Stage.cpp:43-46` -/
def hasUnmatchedDown (l : KeySequence) : Bool := l.any (·.state == .Down)

/-- `Stage.cpp:49-57` `sort_command_outputs`, for one context. `std::sort` is not stable; the
order of elements with equal index is not relied on (the parser rejects them). -/
def sortCommandOutputs (cs : List CommandOutput) : List CommandOutput :=
  sortBy (fun a b => decide (b.index ≤ a.index)) cs

/-- `Stage.cpp:59-64` -/
def seqHasMouse (l : KeySequence) : Bool := l.any (fun e => isMouseButton e.key || isMouseWheel e.key)

/-- `Stage.cpp:66-75` -/
def ctxsHaveMouse (cs : List Context) : Bool :=
  cs.any (fun c => seqHasMouse c.modifierFilter || c.inputs.any (fun i => seqHasMouse i.input))

/-- `Stage.cpp:77-80` -/
def Context.hasDeviceFilter (c : Context) : Bool := c.deviceFilter.isSet || c.deviceIdFilter.isSet

/-- `Stage.cpp:89-92` -/
def isNoMightMatch (l : KeySequence) : Bool :=
  match l with
  | [] => false
  | e :: _ => e.state == .NoMightMatch

/-- `Stage.cpp:94-100` -/
def ctxsHaveNoMightMatch (cs : List Context) : Bool :=
  cs.any (fun c => c.inputs.any (fun i => isNoMightMatch i.input))

/-- `Stage.cpp:102-109` `find_last_down_event` -/
def findLastDown (l : KeySequence) : Option KeyEvent :=
  l.reverse.find? (fun e => e.state == .Down || e.state == .DownMatched)

/-- `Stage.cpp:111-117` -/
def findLastNonOptional (l : KeySequence) : Option KeyEvent := l.reverse.find? isNonOptional

/-- `Stage.cpp:119-131` `get_trigger_event`. The trigger of an empty expression is not specified
(`back()`); no such trigger is created, since matching an empty expression already sets `ub`. -/
def Trigger.event : Trigger → KeyEvent
  | .ev e => e
  | .key k => ⟨k, .Down, 0⟩
  | .seq s => (findLastNonOptional s).getD (s.getLastD KeyEvent.zero)

/-- `Stage.cpp:133-135` `get_trigger_key` -/
def Trigger.keyOf (t : Trigger) : Key := t.event.key

/-- `Stage.cpp:142-147` the constructor -/
def Cfg.make (contexts : List Context) : Cfg :=
  let cs := contexts.map (fun c => { c with commandOutputs := sortCommandOutputs c.commandOutputs })
  { contexts := cs
    hasMouseMappings := ctxsHaveMouse cs
    hasDeviceFilter := cs.any (·.hasDeviceFilter)
    hasNoMightMatch := ctxsHaveNoMightMatch cs }

/-- `Stage.cpp:149-157` -/
def S.isClear (s : S) : Bool :=
  s.down.isEmpty && s.onRelease.isEmpty && s.seq.isEmpty && s.lastRepeat == noDeviceIndex &&
  s.history.isEmpty && !s.might && s.timeout.isNone

/-- `Stage.cpp:159-165` -/
def S.outputKeysDown (s : S) : List Key := (s.down.filter (fun o => isDeviceKey o.key)).map (·.key)

/-- `DeviceDesc.h:8-13` (without `ext`) -/
structure DeviceDesc where
  name : Str
  id : Str
deriving DecidableEq, Repr, Inhabited

/-- `Stage.cpp:170-177`: the loop over the devices, with the current `bit` -/
def deviceBits (rx : Regex) (c : Context) : List DeviceDesc → BitVec 64 → BitVec 64 → BitVec 64
  | [], bits, _ => bits
  | d :: ds, bits, bit =>
    let bits :=
      if c.deviceFilter.matches rx d.name false && c.deviceIdFilter.matches rx d.id false
      then bits ||| bit else bits
    deviceBits rx c ds bits (bit <<< 1)

/-- `Stage.cpp:167-182` `evaluate_device_filters` -/
def Cfg.evaluateDeviceFilters (rx : Regex) (c : Cfg) (devices : List DeviceDesc) : Cfg :=
  { c with contexts := c.contexts.map (fun ctx =>
      { ctx with matchingDeviceBits :=
          if ctx.hasDeviceFilter then deviceBits rx ctx devices 0 1 else allDeviceBits }) }

/-- `Stage.cpp:184-193` `device_matches_filter`. A shift by 64 or more (or a negative number)
is undefined; this is recorded as `ub` by the only caller `matchInput`. -/
def deviceMatchesFilter (ctx : Context) (dev : Int) : Bool :=
  if dev == anyDeviceIndex then true
  else if dev == noDeviceIndex then ctx.matchingDeviceBits == allDeviceBits
  else (ctx.matchingDeviceBits >>> dev.toNat).getLsbD 0

/-- `Stage.cpp:211-219` -/
def matchModifierFilter (seq : KeySequence) (modifiers : KeySequence) : Bool :=
  modifiers.all (fun m => (findKey seq m.key).isSome == (m.state != .Not))

/-- `Stage.cpp:296-300`, on `contexts[i, size)`; `none` when the end is reached (out of bounds) -/
def fallthroughGo : List Context → Nat → Option Nat
  | [], _ => none
  | c :: cs, i => if c.fallthrough then fallthroughGo cs (i + 1) else some i

/-- `Stage.cpp:296-300` `fallthrough_context`, `none` when out of bounds -/
def fallthroughContext (cs : List Context) (i : Nat) : Option Nat := fallthroughGo (cs.drop i) i

/-- `Stage.cpp:375`: the comparison of the binary search, for the element at `i` -/
def commandBefore (r : List CommandOutput) (idx : Int) (i : Nat) : Bool :=
  match r[i]? with
  | some a => decide (a.index < idx)
  | none => false

/-- `Stage.cpp:372-377`: binary search in the command outputs of a context, from the back
(`rbegin`), as the position and the output found. -/
def searchCommand (cs : List CommandOutput) (idx : Int) : Option (Nat × KeySequence) :=
  let r := cs.reverse
  let i := lowerBound (commandBefore r idx) 0 r.length
  match r[i]? with
  | some a => if a.index == idx then some (cs.length - 1 - i, a.output) else none
  | none => none

/-- `Stage.cpp:369-379`: the loop over the active contexts, last first (`rev` is reversed). The
boolean tells that a context access was out of bounds. -/
def findCommandOutput (cs : List Context) (idx : Int) :
    (rev : List Nat) → Option (OutRef × KeySequence) × Bool
  | [] => (none, false)
  | i :: is =>
    match fallthroughContext cs i with
    | none => (none, true)
    | some ci =>
      match cs[ci]? with
      | none => (none, true)
      | some ctx =>
        match searchCommand ctx.commandOutputs idx with
        | some (pos, out) => (some (⟨ci, true, pos⟩, out), false)
        | none => findCommandOutput cs idx is

/-- `Stage.cpp:362-380` `find_output`. The boolean is set when the assertion of line 364 fails. -/
def findOutput (cs : List Context) (active : List Nat) (ctxIdx : Nat) (ctx : Context) (idx : Int) :
    Option (OutRef × KeySequence) × Bool :=
  if 0 ≤ idx then
    match ctx.outputs[idx.toNat]? with
    | some out => (some (⟨ctxIdx, false, idx.toNat⟩, out), false)
    | none => (none, true)
  else findCommandOutput cs idx active.reverse

/-- `Stage.cpp:838-858`: the loop reapplying temporarily released keys, when `k` is pressed.
Returns the new list, buffer, `m_temporary_reapplied` and whether the function returned. -/
def reapplyLoop (k : Key) : List OutputDown → KeySequence → Bool →
    List OutputDown × KeySequence × Bool × Bool
  | [], b, r => ([], b, r, false)
  | o :: os, b, r =>
    if o.temporarilyReleased && !o.suppressed then
      let o' := { o with temporarilyReleased := false }
      let b' := b ++ [⟨o.key, .Down, 0⟩]
      if o.key == k then (o' :: os, b', true, true)
      else
        let (os', b'', r', ret) := reapplyLoop k os b' true
        (o' :: os', b'', r', ret)
    else if o.temporarilyReleased && o.key == k && isCommonModifier k &&
        b.getLast? == some ⟨k, .Up, 0⟩ then
      ({ o with temporarilyReleased := false } :: os, b.dropLast, r, true)
    else
      let (os', b', r', ret) := reapplyLoop k os b r
      (o :: os', b', r', ret)

/-- `Stage.cpp:793-820`: the case `KeyState::Up` of `update_output` -/
def updateOutputUp (s : S) (ev : KeyEvent) (trig : Trigger) : S :=
  match s.down.find? (·.key == ev.key) with
  | none => s
  | some o =>
    if o.pressedTwice && isVirtualKey ev.key then
      { s with
        down := modFirst (·.key == ev.key) (fun o => { o with pressedTwice := false }) s.down
        buf := s.buf ++ [ev] }
    else if o.pressedTwice && !o.suppressed then
      { s with
        down := modFirst (·.key == ev.key) (fun o => { o with pressedTwice := false }) s.down
        buf := rEraseKey s.buf ev.key }
    else
      { s with
        down := if o.trigger.keyOf == trig.keyOf then s.down.eraseP (·.key == ev.key)
          else modFirst (·.key == ev.key) (fun o => { o with temporarilyReleased := true }) s.down
        buf := s.buf ++ [ev] }

/-- `Stage.cpp:822-834`: the case `KeyState::Not` of `update_output` -/
def updateOutputNot (s : S) (ev : KeyEvent) : S :=
  match s.down.find? (·.key == ev.key) with
  | none => s
  | some o =>
    if isVirtualKey ev.key || isActionKey ev.key then s
    else
      { s with
        down := modFirst (·.key == ev.key)
          (fun o => { o with temporarilyReleased := true, suppressed := true }) s.down
        buf := if o.temporarilyReleased then s.buf else s.buf ++ [⟨ev.key, .Up, 0⟩] }

/-- `Stage.cpp:836-878`: the case `KeyState::Down` of `update_output` -/
def updateOutputDown (s : S) (ev : KeyEvent) (trig : Trigger) (ctx : Int) : S :=
  let (down, buf, reapplied, returned) := reapplyLoop ev.key s.down s.buf s.reapplied
  let s := { s with down := down, buf := buf, reapplied := reapplied }
  if returned then s
  else if (s.down.find? (·.key == ev.key)).isNone then
    { s with
      down := if ev.key != Key.timeout then
          s.down ++ [{ key := ev.key, trigger := trig, ctx := ctx }] else s.down
      buf := s.buf ++ [ev] }
  else
    { s with
      down := modFirst (·.key == ev.key)
        (fun o => { o with temporarilyReleased := false, pressedTwice := !s.reapplied }) s.down
      buf := if s.reapplied then s.buf ++ [⟨ev.key, .Up, 0⟩, ev] else s.buf ++ [ev] }

/-- `Stage.cpp:788-893` `update_output` -/
def updateOutput (s : S) (ev : KeyEvent) (trig : Trigger) (ctx : Int) : S :=
  match ev.state with
  | .Up => updateOutputUp s ev trig
  | .Not => updateOutputNot s ev
  | .Down => updateOutputDown s ev trig ctx
  | .DownMatched | .UpMatched => s
  | _ => { s with ub := true }

/-- `Stage.cpp:720-755` `apply_output` -/
def applyOutput (s : S) (out : KeySequence) (trig : Trigger) (ctx : Int) : S :=
  match out with
  | [] => s
  | ev :: rest =>
    if ev.key == Key.any then
      let s :=
        if ev.state == .Not then
          s.down.foldl (fun s o => updateOutput s ⟨o.key, .Not, 0⟩ trig ctx) s
        else
          s.anyM.foldl (fun s k => updateOutput s ⟨k, ev.state, 0⟩ trig ctx) s
      applyOutput s rest trig ctx
    else if ev.state == .OutputOnRelease then
      if trig.event.state == .Down then
        { s with onRelease := s.onRelease ++ [⟨trig.event.key, rest, ctx⟩] }
      else applyOutput s rest trig ctx
    else if ev.state == .Not && isVirtualKey ev.key then
      let s := if (findKey s.seq ev.key).isSome then updateOutput s ⟨ev.key, .Down, 0⟩ trig ctx else s
      applyOutput s rest trig ctx
    else applyOutput (updateOutput s ev trig ctx) rest trig ctx

/-- `Stage.cpp:697-705`: does the output stay down -/
def staysDown (key : Key) (ctx : Int) (o : OutputDown) : Bool :=
  if o.trigger.keyOf == key then
    if key == Key.ContextActive then o.ctx != ctx else false
  else true

/-- `Stage.cpp:695-718` `release_triggered` -/
def releaseTriggered (s : S) (key : Key) (ctx : Int) : S :=
  let released := (s.down.filter (fun o => !staysDown key ctx o)).reverse
  { s with
    down := s.down.filter (staysDown key ctx)
    buf := s.buf ++ (released.filter (fun o => !o.temporarilyReleased)).map
      (fun o => ⟨o.key, .Up, 0⟩)
    timeout := match s.timeout with
      | some t => if t.trigger == key then none else some t
      | none => none }

/-- `Stage.cpp:680-681`: is the output on release continued by an event with this key -/
def isContinuedBy (key : Key) (ctx : Int) (o : OnRelease) : Bool :=
  o.trigger == key && (o.trigger != Key.ContextActive || o.ctx == ctx)

/-- `Stage.cpp:677-693` `continue_output_on_release`. Since `apply_output` with a released trigger
never adds to `m_output_on_release`, the iterator stays valid. -/
def continueOnRelease (s : S) (ev : KeyEvent) (ctx : Int) : S × Bool :=
  match s.onRelease.find? (isContinuedBy ev.key ctx) with
  | none => (s, true)
  | some o =>
    if ev.state == .Down then (s, false)
    else
      let s := applyOutput s o.sequence (.ev ev) o.ctx
      ({ s with onRelease := s.onRelease.eraseP (isContinuedBy ev.key ctx) }, true)

/-- `Stage.cpp:267-284` `on_context_active_event` -/
def onContextActiveEvent (c : Cfg) (s : S) (ev : KeyEvent) (ctxIdx : Nat) : S :=
  match c.contexts[ctxIdx]? with
  | none => { s with ub := true }
  | some ctx =>
    -- `front()` of the inputs in front of the found one
    let firsts := ctx.inputs.takeWhile (fun i => i.input.head?.map (·.key) != some Key.ContextActive)
    let s := if firsts.any (·.input.isEmpty) then { s with ub := true } else s
    match ctx.inputs.find? (fun i => i.input.head?.map (·.key) == some Key.ContextActive) with
    | none => s
    | some i =>
      if ev.state == .Down then
        match findOutput c.contexts s.active ctxIdx ctx i.outputIndex with
        | (_, true) => { s with ub := true }
        | (none, false) => s
        | (some (_, out), false) => applyOutput s out (.ev ev) ctxIdx
      else
        let (s, _) := continueOnRelease s ev ctxIdx
        releaseTriggered s ev.key ctxIdx

/-- `Stage.cpp:225-234`: the contexts set active by the client whose modifier and device filters
match, resolved to the context they fall through to. `none` when out of bounds. -/
def computeActive (cs : List Context) (seq : KeySequence) :
    List Nat → List Nat → Option (List Nat)
  | [], acc => some acc
  | i :: is, acc =>
    match cs[i]? with
    | none => none
    | some ctx =>
      if ((matchModifierFilter seq ctx.modifierFilter) ^^ ctx.invertModifierFilter) &&
          (!ctx.hasDeviceFilter || ctx.matchingDeviceBits != 0) then
        match fallthroughContext cs i with
        | none => none
        | some j => computeActive cs seq is (if acc.getLast? == some j then acc else acc ++ [j])
      else computeActive cs seq is acc

/-- `Stage.cpp:239-263`: the merge loop over the previous and current contexts; the contexts
deactivated (which the first pass handles) and the ones activated (second pass). -/
def mergeContexts : List Nat → List Nat → List Nat × List Nat
  | [], curr => ([], curr)
  | prev, [] => (prev, [])
  | p :: ps, q :: qs =>
    if p < q then
      let (d, a) := mergeContexts ps (q :: qs)
      (p :: d, a)
    else if q < p then
      let (d, a) := mergeContexts (p :: ps) qs
      (d, q :: a)
    else mergeContexts ps qs
termination_by prev curr => prev.length + curr.length

/-- `Stage.cpp:221-265` `update_active_contexts` -/
def updateActiveContexts (c : Cfg) (s : S) : S :=
  match computeActive c.contexts s.seq s.activeClient [] with
  | none => { s with ub := true }
  | some active =>
    let (deactivated, activated) := mergeContexts s.active active
    let s := { s with active := active }
    let s := deactivated.foldl
      (fun s i => onContextActiveEvent c s ⟨Key.ContextActive, .Up, 0⟩ i) s
    activated.foldl (fun s i => onContextActiveEvent c s ⟨Key.ContextActive, .Down, 0⟩ i) s

/-- `Stage.cpp:302-308` `is_context_active` -/
def isContextActive (cs : List Context) (active : List Nat) (ctx : Int) : Bool :=
  active.any (fun i => (i : Int) == ctx ||
    match fallthroughContext cs i with
    | some j => (j : Int) == ctx
    | none => false)

/-- `Stage.cpp:286-294` -/
def cancelInactiveOnRelease (c : Cfg) (s : S) : S :=
  { s with onRelease := s.onRelease.filter (fun o => isContextActive c.contexts s.active o.ctx) }

/-- `Stage.cpp:195-209` `set_active_client_contexts`. A failed assertion of line 197 or 199 sets
`ub`. -/
def setActiveClientContexts (c : Cfg) (s : S) (indices : List Nat) : S × KeySequence :=
  let ok := decide (indices.Pairwise (· ≤ ·)) && indices.all (fun i => decide (i < c.contexts.length))
  let s := if ok then s else { s with ub := true }
  let s := { s with activeClient := indices }
  let s := updateActiveContexts c s
  let s := cancelInactiveOnRelease c s
  ({ s with buf := [] }, s.buf)

/-- `Stage.cpp:10` the exit sequence: ShiftLeft, Escape, K -/
def exitSequence : List Key := [Key.ShiftLeft, Key.Escape, Key.KeyK]

/-- `Stage.cpp:310-325` `advance_exit_sequence` -/
def advanceExit (pos : Nat) (ev : KeyEvent) : Nat :=
  if !isKeyboardKey ev.key then pos
  else if ev.state == .Down then
    if pos > 0 && exitSequence[pos - 1]? == some ev.key then pos
    else if exitSequence[pos]? == some ev.key then pos + 1
    else 0
  else 0

/-- `Stage.cpp:327-329` -/
def S.shouldExit (s : S) : Bool := s.exitPos == exitSequence.length

/-- `Stage.cpp:342-360` `validate_state` -/
def validateState (s : S) (isDown : Key → Bool) : S :=
  { s with
    might := false
    seq := s.seq.filter (fun e => !(isDeviceKey e.key && !isDown e.key))
    down := s.down.filter (fun o => !(isDeviceKey o.key && !isDown o.trigger.keyOf)) }

/-- The result of `match_input` (`Stage.cpp:386-442`); only the results used by the caller. -/
inductive MIR where
  | noMatch
  | might
  | matched (ref : OutRef) (out : KeySequence) (trigger : KeySequence) (ctx : Nat)
deriving DecidableEq, Repr, Inhabited

/-- `Stage.cpp:386-392`: the mappings of all active contexts accepting the device, in the order
they are tried. -/
def candidates (cs : List Context) (active : List Nat) (dev : Int) : List (Nat × Context × Input) :=
  active.flatMap (fun i =>
    match cs[i]? with
    | none => []
    | some ctx => if deviceMatchesFilter ctx dev then ctx.inputs.map (fun inp => (i, ctx, inp)) else [])

/-- Is the result `MatchResult::match` -/
def MIR.isMatched : MIR → Bool
  | .matched .. => true
  | _ => false

/-- `Stage.cpp:423-425` (negated): the timeout is already tracked -/
def keepsTimeout (timeout : Option CurrentTimeout) (t : KeyEvent) (trigger : Key) : Bool :=
  match timeout with
  | none => false
  | some ct => ct.ev == t && ct.trigger == trigger

/-- `Stage.cpp:417-433`: track a requested timeout -/
def trackTimeout (s : S) (t : KeyEvent) (sequence : KeySequence) (isKeyUp : Bool) : S :=
  let s := { s with buf := s.buf ++ [t] }
  match findLastDown sequence with
  | none => s
  | some trigger =>
    if !keepsTimeout s.timeout t trigger.key then { s with timeout := some { ev := t, trigger := trigger.key } }
    else if isKeyUp then { s with buf := s.buf.dropLast }
    else s

/-- `Stage.cpp:412`: the sequence an expression is matched with -/
def matchTarget (input : KeySequence) (history sequence : KeySequence) : KeySequence :=
  if isNoMightMatch input then history else sequence

/-- `Stage.cpp:391-441`: the loop over the mappings -/
def matchGo (c : Cfg) (first : Bool) (sequence : KeySequence) (dev : Int) (isKeyUp : Bool) :
    List (Nat × Context × Input) → S → S × MIR
  | [], s => (s, .noMatch)
  | (ci, ctx, inp) :: rest, s =>
    let nmm := isNoMightMatch inp.input
    -- 398-404
    if nmm && (!first || s.history.isEmpty || dev == anyDeviceIndex) then
      matchGo c first sequence dev isKeyUp rest s
    else
      let r := matchSeq inp.input (matchTarget inp.input s.history sequence)
      let s := { s with anyM := r.any, ub := s.ub || r.ub }
      -- 415-435
      if first && !nmm && r.res == .might_match then
        match r.timeout with
        | some t => (trackTimeout s t sequence isKeyUp, .might)
        | none => (s, .might)
      -- 437-439
      else if r.res == .matched then
        match findOutput c.contexts s.active ci ctx inp.outputIndex with
        | (some (ref, out), u) => ({ s with ub := s.ub || u }, .matched ref out inp.input ci)
        | (none, u) => matchGo c first sequence dev isKeyUp rest { s with ub := s.ub || u }
      else matchGo c first sequence dev isKeyUp rest s

/-- `Stage.cpp:382-443` `match_input`. Shifting by an invalid device index and accessing an
invalid context are `ub`. -/
def matchInput (c : Cfg) (s : S) (first : Bool) (sequence : KeySequence) (dev : Int)
    (isKeyUp : Bool) : S × MIR :=
  let bad := (!s.active.isEmpty && (decide (64 ≤ dev) || decide (dev < -2))) ||
    s.active.any (fun i => decide (c.contexts.length ≤ i))
  matchGo c first sequence dev isKeyUp (candidates c.contexts s.active dev)
    { s with ub := s.ub || bad }

/-- `Stage.cpp:445-448` `is_physically_pressed` -/
def isPhysicallyPressed (s : S) (k : Key) : Bool :=
  match rfindKey s.seq k with
  | some e => e.state != .Up
  | none => false

/-- `Stage.cpp:757-786` `forward_from_sequence`; `pre` are the events already skipped. -/
def forwardGo (s : S) (pre : KeySequence) : KeySequence → S
  | [] => s
  | e :: rest =>
    if e.state == .Down || e.state == .DownMatched then
      if (e :: rest).contains ⟨e.key, .Up, 0⟩ then
        { updateOutput s e (.key e.key) (-1) with seq := pre ++ rest }
      else if e.state == .Down then
        let s := if (s.timeout.bind (·.matchedOutput)).isNone then
          updateOutput s e (.key e.key) (-1) else s
        { s with seq := pre ++ { e with state := .DownMatched } :: rest }
      else forwardGo s (pre ++ [e]) rest
    else
      { releaseTriggered s e.key (-1) with seq := pre ++ rest }

/-- `Stage.cpp:757-786` `forward_from_sequence` -/
def forwardFromSequence (s : S) : S := forwardGo s [] s.seq

/-- `Stage.cpp:900-918`: the loop of `finish_sequence`; `n` is `length - i`, the list is
`m_sequence[i, end)`. -/
def finishGo : Nat → KeySequence → KeySequence
  | 0, l => l
  | _, [] => []
  | n + 1, e :: l =>
    if e.state == .Down || e.state == .DownMatched then
      if (e :: l).contains ⟨e.key, .Up, 0⟩ then finishGo n l
      else { e with state := .DownMatched } :: finishGo n l
    else if e.key == Key.timeout then { e with state := .UpMatched } :: finishGo n l
    else finishGo n l

/-- `Stage.cpp:895-919` `finish_sequence`, for the first `n` events of `m_sequence` -/
def finishSequence (s : S) (n : Nat) : S := { s with seq := finishGo n s.seq }

/-- `Stage.cpp:578-589`: look for an exact match in the sequence start; `n` is the size of the
range before `pop_back`. Returns the result and the size of the matched start. -/
def matchStart (c : Cfg) (dev : Int) (isKeyUp : Bool) : Nat → S → S × MIR × Nat
  | 0, s => (s, .noMatch, 0)
  | n + 1, s =>
    if n = 0 then (s, .noMatch, n + 1)
    else if !hasUnmatchedDown (s.seq.take n) then (s, .noMatch, n)
    else
      match matchInput c s false (s.seq.take n) dev isKeyUp with
      | (s, .matched ref out trig ctx) => (s, .matched ref out trig ctx, n)
      | (s, _) => matchStart c dev isKeyUp n s

/-- `Stage.cpp:592-609`: when a timeout matched once, prevent the following timeout cancellation
from matching another input. -/
def timeoutMatched (s : S) (ev : KeyEvent) (r : MIR) (startOnly : Bool) : S × MIR :=
  match s.timeout with
  | none => (s, r)
  | some t =>
    if t.ev.state.isNotTimeout then (s, r)
    else if ev.key == Key.timeout then
      match r with
      | .matched ref _ _ _ =>
        match t.matchedOutput with
        | none =>
          (if startOnly then s else { s with timeout := some { t with matchedOutput := some ref } }, r)
        | some m => (s, if m != ref then .noMatch else r)
      | _ => (s, r)
    else
      match r with
      | .noMatch => ({ s with timeout := some { t with matchedOutput := none } }, r)
      | _ => (s, r)

/-- `Stage.cpp:611-615`: prevent match after not-timeout did not match once -/
def notTimeoutFailed (s : S) (r : MIR) : S :=
  match s.timeout, r with
  | some t, .noMatch =>
    if t.ev.state.isNotTimeout then { s with timeout := some { t with notExceeded := true } } else s
  | _, _ => s

/-- `Stage.cpp:618-625`: the key or event which caused the output -/
def causeOf (s : S) (ev : KeyEvent) (input : KeySequence) : Trigger :=
  let t : Trigger := .seq input
  -- 619-621
  let t := if t.keyOf == Key.any || ev.key == Key.timeout then Trigger.ev ev else t
  -- 624-625
  match s.timeout with
  | some ct => if t.keyOf == Key.timeout then Trigger.key ct.trigger else t
  | none => t

/-- `Stage.cpp:618-638`: the trigger of an output -/
def chooseTrigger (s : S) (ev : KeyEvent) (out : KeySequence) (input : KeySequence) : Trigger :=
  let t := causeOf s ev input
  -- 628-638
  if !isPhysicallyPressed s t.keyOf then
    let keepTrivial := out == [t.event] && s.seq.contains ⟨t.keyOf, .Up, 0⟩
    if keepTrivial then t else .ev ev
  else t

/-- `Stage.cpp:617-654`: apply the output of a match or forward the beginning of the sequence. -/
def applyResult (s : S) (ev : KeyEvent) (r : MIR) (n : Nat) (startOnly : Bool) : S :=
  match r with
  | .matched _ out input ctx =>
    let s := applyOutput s out (chooseTrigger s ev out input) ctx
    let s := finishSequence s n
    if startOnly then s else { s with might := false }
  | _ =>
    let s := forwardFromSequence s
    if s.might && !hasNonOptional s.seq then { s with might := false } else s

/-- `Stage.cpp:573-590`: when might match failed, look for an exact match in the sequence start.
Returns the result, the size of the matched sequence and `matched_start_only`. -/
def retryStart (c : Cfg) (s : S) (r : MIR) (dev : Int) (isKeyUp : Bool) : S × MIR × Nat × Bool :=
  match r with
  | .noMatch =>
    if s.might then
      match matchStart c dev isKeyUp s.seq.length s with
      | (s, .matched ref out trig ctx, n) => (s, .matched ref out trig ctx, n, true)
      | (s, r, n) => (s, r, n, false)
    else (s, r, s.seq.length, false)
  | r => (s, r, s.seq.length, false)

/-- `Stage.cpp:555-654`: one iteration of the main loop. The boolean tells whether the loop
continues. -/
def round (c : Cfg) (ev : KeyEvent) (dev : Int) (isKeyUp : Bool) (s : S) : S × Bool :=
  let (s, r) := matchInput c s true s.seq dev isKeyUp
  -- 560-565
  if isVirtualKey ev.key && !r.isMatched then
    (finishSequence s s.seq.length, false)
  -- 567-571
  else if r == .might then ({ s with might := true }, false)
  else
    let (s, r, n, startOnly) := retryStart c s r dev isKeyUp
    let (s, r) := timeoutMatched s ev r startOnly
    let s := notTimeoutFailed s r
    (applyResult s ev r n startOnly, true)

/-! ### Termination of the main loop -/

/-- decreases in every round which continues -/
def seqMeasure (l : KeySequence) : Nat := l.length + l.countP isNonOptional

theorem updateOutput_seq (s : S) (ev trig ctx) : (updateOutput s ev trig ctx).seq = s.seq := by
  unfold updateOutput
  split
  · unfold updateOutputUp; split; · rfl
    split; · rfl
    split <;> rfl
  · unfold updateOutputNot; split; · rfl
    split <;> rfl
  · unfold updateOutputDown; simp only []
    split; · rfl
    split <;> rfl
  all_goals rfl

theorem foldl_updateOutput_seq (l : List α) (f : α → KeyEvent) (s : S) (trig ctx) :
    (l.foldl (fun s k => updateOutput s (f k) trig ctx) s).seq = s.seq := by
  induction l generalizing s with
  | nil => rfl
  | cons a l ih => rw [List.foldl_cons, ih, updateOutput_seq]

theorem applyOutput_seq (s : S) (out trig ctx) : (applyOutput s out trig ctx).seq = s.seq := by
  induction out generalizing s with
  | nil => rfl
  | cons ev rest ih =>
    unfold applyOutput
    split
    · simp only []
      rw [ih]
      split
      · exact foldl_updateOutput_seq _ (fun (o : OutputDown) => ⟨o.key, .Not, 0⟩) s trig ctx
      · exact foldl_updateOutput_seq _ (fun (k : Key) => ⟨k, ev.state, 0⟩) s trig ctx
    · split
      · split
        · rfl
        · rw [ih]
      · split
        · simp only []
          rw [ih]
          split
          · rw [updateOutput_seq]
          · rfl
        · rw [ih, updateOutput_seq]

theorem trackTimeout_seq (s : S) (t l u) : (trackTimeout s t l u).seq = s.seq := by
  unfold trackTimeout
  simp only []
  split
  · rfl
  · split
    · rfl
    · split <;> rfl

theorem matchGo_seq (c first sequence dev u) (l : List (Nat × Context × Input)) (s : S) :
    (matchGo c first sequence dev u l s).1.seq = s.seq := by
  induction l generalizing s with
  | nil => rfl
  | cons a rest ih =>
    obtain ⟨ci, ctx, inp⟩ := a
    unfold matchGo
    simp only []
    split
    · rw [ih]
    · split
      · split
        · simp only [trackTimeout_seq]
        · rfl
      · split
        · split
          · rfl
          · rw [ih]
        · rw [ih]

theorem matchInput_seq (c s first sequence dev u) :
    (matchInput c s first sequence dev u).1.seq = s.seq := by
  unfold matchInput
  simp only [matchGo_seq]

theorem matchStart_spec (c dev u) (n : Nat) (s : S) :
    (matchStart c dev u n s).1.seq = s.seq ∧
    ∀ ref out trig ctx, (matchStart c dev u n s).2.1 = .matched ref out trig ctx →
      hasUnmatchedDown (s.seq.take (matchStart c dev u n s).2.2) = true := by
  induction n generalizing s with
  | zero => simp [matchStart]
  | succ n ih =>
    unfold matchStart
    split
    · simp
    · split
      · simp
      · next hd =>
        split
        · next s1 ref out trig ctx h =>
          have h1 := matchInput_seq c s false (s.seq.take n) dev u
          rw [h] at h1
          refine ⟨h1, ?_⟩
          intros
          simpa using hd
        · next s1 r hne h =>
          have h1 := matchInput_seq c s false (s.seq.take n) dev u
          rw [h] at h1
          have := ih s1
          simp only [] at h1
          rw [h1] at this
          exact this

theorem retryStart_spec (c s r dev u) :
    (retryStart c s r dev u).1.seq = s.seq ∧
    ((retryStart c s r dev u).2.2.1 = s.seq.length ∨
      ((retryStart c s r dev u).2.2.2 = false ∧ (retryStart c s r dev u).2.1 = .noMatch) ∨
      hasUnmatchedDown (s.seq.take (retryStart c s r dev u).2.2.1) = true) := by
  unfold retryStart
  split
  · split
    · have hs := matchStart_spec c dev u s.seq.length s
      split
      · next h => rw [h] at hs; exact ⟨hs.1, Or.inr (Or.inr (hs.2 _ _ _ _ rfl))⟩
      · next s1 r n hne h =>
        rw [h] at hs
        refine ⟨hs.1, Or.inr (Or.inl ⟨rfl, ?_⟩)⟩
        cases r with
        | noMatch => rfl
        | matched a b d e => exact absurd rfl (hne a b d e)
        | might =>
          exfalso
          clear hs hne
          have : ∀ n (s : S), (matchStart c dev u n s).2.1 ≠ .might := by
            intro n
            induction n with
            | zero => simp [matchStart]
            | succ n ih =>
              intro s
              unfold matchStart
              split
              · simp
              · split
                · simp
                · split
                  · simp
                  · exact ih _
          apply this s.seq.length s
          rw [h]
    · simp
  · simp

theorem timeoutMatched_seq (s ev r b) : (timeoutMatched s ev r b).1.seq = s.seq := by
  unfold timeoutMatched
  repeat' split
  all_goals rfl

theorem timeoutMatched_matched (s ev r b) {ref out trig ctx}
    (h : (timeoutMatched s ev r b).2 = .matched ref out trig ctx) : r = .matched ref out trig ctx := by
  unfold timeoutMatched at h
  repeat' split at h
  all_goals first
    | exact h
    | simp at h

theorem notTimeoutFailed_seq (s r) : (notTimeoutFailed s r).seq = s.seq := by
  unfold notTimeoutFailed
  repeat' split
  all_goals rfl

theorem finishGo_measure_le (n : Nat) (l : KeySequence) : seqMeasure (finishGo n l) ≤ seqMeasure l := by
  unfold seqMeasure
  fun_induction finishGo n l with
  | case1 => simp
  | case2 => simp
  | case3 n e l h1 h2 => simp only [List.length_cons, List.countP_cons]; omega
  | case4 n e l h1 h2 ih =>
    have hd : isNonOptional { e with state := .DownMatched } = false := rfl
    simp only [List.length_cons, List.countP_cons, hd]; simp; omega
  | case5 n e l h1 h2 ih =>
    have hd : isNonOptional { e with state := .UpMatched } = false := rfl
    simp only [List.length_cons, List.countP_cons, hd]; simp; omega
  | case6 n e l h1 h2 => simp only [List.length_cons, List.countP_cons]; omega

theorem finishGo_measure (n : Nat) (l : KeySequence) (h : hasNonOptional (l.take n) = true) :
    seqMeasure (finishGo n l) < seqMeasure l := by
  fun_induction finishGo n l with
  | case1 => simp [hasNonOptional] at h
  | case2 => simp [hasNonOptional] at h
  | case3 n e l h1 h2 =>
    have := finishGo_measure_le n l
    simp only [seqMeasure, List.length_cons, List.countP_cons] at *
    omega
  | case4 n e l h1 h2 ih =>
    have := finishGo_measure_le n l
    simp only [List.take_succ_cons, hasNonOptional, List.any_cons, Bool.or_eq_true] at h ih
    simp only [seqMeasure, List.length_cons, List.countP_cons] at *
    have hd : isNonOptional { e with state := .DownMatched } = false := rfl
    rw [hd]
    rcases h with h | h
    · rw [h]; simp; omega
    · have := ih h
      simp
      split <;> omega
  | case5 n e l h1 h2 ih =>
    have := finishGo_measure_le n l
    simp only [List.take_succ_cons, hasNonOptional, List.any_cons, Bool.or_eq_true] at h ih
    simp only [seqMeasure, List.length_cons, List.countP_cons] at *
    have hd : isNonOptional { e with state := .UpMatched } = false := rfl
    rw [hd]
    rcases h with h | h
    · rw [h]; simp; omega
    · have := ih h
      simp
      split <;> omega
  | case6 n e l h1 h2 =>
    have := finishGo_measure_le n l
    simp only [seqMeasure, List.length_cons, List.countP_cons] at *
    omega

theorem forwardGo_measure (s : S) (pre l : KeySequence) (h : hasNonOptional l = true) :
    seqMeasure (forwardGo s pre l).seq < seqMeasure (pre ++ l) := by
  induction l generalizing pre with
  | nil => simp [hasNonOptional] at h
  | cons e rest ih =>
    unfold forwardGo
    split
    · next hd =>
      split
      · simp only [seqMeasure, List.length_append, List.countP_append, List.length_cons, List.countP_cons]
        omega
      · split
        · next hdown =>
          have hn : isNonOptional e = true := by simp at hdown; simp [isNonOptional, hdown]
          have hn2 : isNonOptional { e with state := .DownMatched } = false := rfl
          simp only [seqMeasure, List.length_append, List.countP_append, List.length_cons, List.countP_cons,
            hn, hn2]
          simp
        · next hdown =>
          have hn : isNonOptional e = false := by
            simp only [Bool.or_eq_true, beq_iff_eq] at hd
            simp only [beq_iff_eq] at hdown
            rcases hd with hd | hd
            · exact absurd hd hdown
            · simp [isNonOptional, hd]
          have h' : hasNonOptional rest = true := by
            simpa [hasNonOptional, hn] using h
          have := ih (pre ++ [e]) h'
          simpa using this
    · simp only [seqMeasure, List.length_append, List.countP_append, List.length_cons, List.countP_cons]
      omega

theorem applyResult_measure (s ev r n b) (h : hasNonOptional s.seq = true)
    (hn : ∀ ref out trig ctx, r = .matched ref out trig ctx → hasNonOptional (s.seq.take n) = true) :
    seqMeasure (applyResult s ev r n b).seq < seqMeasure s.seq := by
  unfold applyResult
  split
  · have h1 := hn _ _ _ _ rfl
    have h2 := finishGo_measure n s.seq h1
    simp only []
    split
    · simpa [finishSequence, applyOutput_seq] using h2
    · simpa [finishSequence, applyOutput_seq] using h2
  · have h2 := forwardGo_measure s [] s.seq h
    simp only []
    split
    · simpa [forwardFromSequence] using h2
    · simpa [forwardFromSequence] using h2

theorem hasUnmatchedDown_nonOptional {l} (h : hasUnmatchedDown l = true) : hasNonOptional l = true := by
  simp only [hasUnmatchedDown, hasNonOptional, List.any_eq_true, beq_iff_eq] at *
  obtain ⟨x, hx, hs⟩ := h
  exact ⟨x, hx, by simp [isNonOptional, hs]⟩

theorem round_measure (c ev dev u) (s : S) (hs : hasNonOptional s.seq = true)
    (hc : (round c ev dev u s).2 = true) :
    seqMeasure (round c ev dev u s).1.seq < seqMeasure s.seq := by
  unfold round at *
  have h1 := matchInput_seq c s true s.seq dev u
  generalize matchInput c s true s.seq dev u = mi at *
  obtain ⟨s1, r⟩ := mi
  simp only [] at *
  rw [← h1] at hs
  rw [← h1]
  clear h1
  split at hc
  · simp at hc
  · next hv =>
    split at hc
    · simp at hc
    · next hm =>
      simp only [if_neg hv, if_neg hm] at *
      have h2 := retryStart_spec c s1 r dev u
      generalize retryStart c s1 r dev u = rs at *
      obtain ⟨s2, r2, n, b⟩ := rs
      simp only [] at *
      have h3 := timeoutMatched_seq s2 ev r2 b
      have h3' := @timeoutMatched_matched s2 ev r2 b
      generalize timeoutMatched s2 ev r2 b = tm at *
      obtain ⟨s3, r3⟩ := tm
      simp only [] at *
      have h4 := notTimeoutFailed_seq s3 r3
      have hseq : (notTimeoutFailed s3 r3).seq = s1.seq := by rw [h4, h3, h2.1]
      rw [← hseq]
      apply applyResult_measure
      · rw [hseq]; exact hs
      · intro ref out trig ctx hr
        have := h3' hr
        subst this
        rw [hseq]
        rcases h2.2 with h | h | h
        · rw [h, List.take_length]; exact hs
        · simp at h
        · exact hasUnmatchedDown_nonOptional h

/-- `Stage.cpp:554-655`: the main loop -/
def mainLoop (c : Cfg) (ev : KeyEvent) (dev : Int) (isKeyUp : Bool) (s : S) : S :=
  if _h : hasNonOptional s.seq then
    if _hc : (round c ev dev isKeyUp s).2 then mainLoop c ev dev isKeyUp (round c ev dev isKeyUp s).1
    else (round c ev dev isKeyUp s).1
  else s
termination_by seqMeasure s.seq
decreasing_by exact round_measure c ev dev isKeyUp s _h _hc

/-- `Stage.cpp:935-943`: could a mapping matched with the history still match -/
def historyMightMatch (c : Cfg) (active : List Nat) (history : KeySequence) : Bool × Bool :=
  let inputs := (active.flatMap (fun i => (c.contexts[i]?.map (·.inputs)).getD [])).filter
    (fun i => isNoMightMatch i.input)
  let results := inputs.map (fun i => matchSeq i.input.tail history)
  (results.any (·.res == .might_match), results.any (·.ub))

/-- `Stage.cpp:921-950` `clean_up_history`. The assertion of line 928 and `erase(end)` are `ub`.
(The matcher calls after the first one returning `might_match` are skipped by the code; they are
evaluated here, but can only differ in `ub`, for an expression consisting of nothing but
`NoMightMatch`.) -/
def cleanUpHistory (c : Cfg) (active : List Nat) (history : KeySequence) : KeySequence × Bool :=
  match history with
  | [] => ([], false)
  | e :: rest =>
    if e.state != .Down then (e :: rest, true)
    else
      let up : KeyEvent := ⟨e.key, .Up, e.value⟩
      if !rest.contains up then (e :: rest, false)
      else
        let (might, u) := historyMightMatch c active (e :: rest)
        if might || u then (e :: rest, u)
        else cleanUpHistory c active (rest.erase up)
termination_by history.length
decreasing_by
  have := List.length_erase_le (a := (⟨e.key, .Up, e.value⟩ : KeyEvent)) (l := rest)
  simp only [List.length_cons]; omega

/-- `Stage.cpp:462-476`: suppress short timeout after not-timeout was exceeded. The boolean tells
that `apply_input` returns. -/
def suppressTimeout (s : S) (ev : KeyEvent) : S × Bool :=
  match s.timeout with
  | none => (s, false)
  | some t =>
    if t.ev.state.isNotTimeout then
      if ev.key == Key.timeout then
        if t.ev.value == ev.value then
          ({ s with timeout := some { t with notExceeded := true } }, false)
        else (s, t.notExceeded)
      else if ev.state == .Up && t.trigger == ev.key then
        ({ s with timeout := some { t with notExceeded := false } }, false)
      else (s, false)
    else (s, false)

/-- `Stage.cpp:478-509`: merge key repeats and track the device. The boolean tells that
`apply_input` returns. -/
def mergeRepeat (s : S) (ev : KeyEvent) (dev : Int) : S × Bool :=
  if ev.state == .Down then
    if isPhysicallyPressed s ev.key then
      if s.might then (s, true)
      else
        let s := if dev != noDeviceIndex && dev == s.lastPressed then { s with lastRepeat := dev } else s
        if dev != noDeviceIndex && dev != s.lastRepeat then (s, true)
        else ({ s with seq := rEraseKey s.seq ev.key }, false)
    else if dev != noDeviceIndex then
      ({ s with
          lastRepeat := if dev == s.lastRepeat then noDeviceIndex else s.lastRepeat
          lastPressed := dev }, false)
    else (s, false)
  else
    ({ s with lastRepeat := if dev == s.lastRepeat then noDeviceIndex else s.lastRepeat }, false)

/-- `Stage.cpp:514-527`: add to history -/
def addToHistory (c : Cfg) (s : S) (ev : KeyEvent) : S :=
  if c.hasNoMightMatch && !isVirtualKey ev.key && ev.key != Key.timeout then
    let isDown := match rfindKey s.history ev.key with
      | some e => e.state == .Down
      | none => false
    if ev.state == .Down then
      if !isDown then { s with history := s.history ++ [ev] } else s
    else
      if isDown then { s with history := s.history ++ [ev] } else s
  else s

/-- `Stage.cpp:532-548`: a released key. -/
def beforeMatchUp (s : S) (ev : KeyEvent) : S :=
  if ev.state == .Up then
    let s := if (s.timeout.bind (·.matchedOutput)).isSome then
        { s with seq := s.seq.map (fun e => if e.state == .Down then { e with state := .DownMatched } else e) }
      else s
    if !s.might then
      match findKey s.seq ev.key with
      | none => { s with ub := true }
      | some e => if e.state == .DownMatched then { s with seq := s.seq.eraseP (·.key == ev.key) } else s
    else s
  else s

/-- `Stage.cpp:657-674`: after the main loop -/
def finishInput (c : Cfg) (s : S) (ev : KeyEvent) : S :=
  let s := if ev.state == .Up then releaseTriggered s ev.key (-1) else s
  let s := updateActiveContexts c s
  let s := { s with seq := s.seq.dropWhile (fun e => e.state == KeyState.UpMatched) }
  let s := if s.seq.isEmpty then { s with timeout := none } else s
  let (history, u) := cleanUpHistory c s.active s.history
  { s with reapplied := false, history := history, ub := s.ub || u }

/-- `Stage.cpp:451-456`: the assertions about the event -/
def validInput (ev : KeyEvent) : Bool :=
  (ev.state == .Down || ev.state == .Up) &&
  (isDeviceKey ev.key || isVirtualKey ev.key || ev.key == Key.timeout || ev.key == Key.unicode_output)

/-- `Stage.cpp:450-675` `apply_input` -/
def applyInput (c : Cfg) (s : S) (ev : KeyEvent) (dev : Int) : S :=
  let s := if validInput ev then s else { s with ub := true }
  -- 459-460
  match continueOnRelease s ev (-1) with
  | (s, false) => s
  | (s, true) =>
    -- 462-476
    match suppressTimeout s ev with
    | (s, true) => s
    | (s, false) =>
      -- 478-509
      match mergeRepeat s ev dev with
      | (s, true) => s
      | (s, false) =>
        -- 512
        let s := { s with seq := s.seq ++ [ev] }
        let s := addToHistory c s ev
        let s := updateActiveContexts c s
        let s := beforeMatchUp s ev
        -- 550-551
        let s := { s with down := s.down.map (fun o => { o with suppressed := false }) }
        let isKeyUp := ev.state == .Up && ev.key != Key.timeout
        let s := mainLoop c ev dev isKeyUp s
        finishInput c s ev

/-- `Stage.cpp:331-335` `update`: the new state and the returned output -/
def update (c : Cfg) (s : S) (ev : KeyEvent) (dev : Int) : S × KeySequence :=
  let s := { s with exitPos := advanceExit s.exitPos ev }
  let s := applyInput c s ev dev
  ({ s with buf := [] }, s.buf)

end KM
