import Verif.Model.Stage
/-!
# Stages in sequence

Models `src/runtime/MultiStage.cpp`.
-/
namespace KM

/-- `MultiStage.h` the members. `buf` is `m_output_buffer`; the other buffers are cleared before
use. -/
structure MS where
  stages : List (Cfg × S) := []
  activeClient : List Int := []
  buf : KeySequence := []
deriving DecidableEq, Repr, Inhabited

/-- `MultiStage.cpp:4-8` -/
def isServerEvent (e : KeyEvent) : Bool :=
  e.key == Key.timeout || isVirtualKey e.key || isActionKey e.key

/-- `MultiStage.cpp:11-16` the constructor, with the initial state of each stage -/
def MS.make (cfgs : List Cfg) : MS := { stages := cfgs.map (fun c => (c, {})) }

/-- `MultiStage.h` `context_count` -/
def MS.contextCount (m : MS) : Nat := (m.stages.map (fun p => p.1.contexts.length)).sum

/-- `MultiStage.cpp:23-26` -/
def MS.hasDeviceFilters (m : MS) : Bool := m.stages.any (fun p => p.1.hasDeviceFilter)

/-- `MultiStage.cpp:18-21` -/
def MS.hasMouseMappings (m : MS) : Bool := m.stages.any (fun p => p.1.hasMouseMappings)

/-- `MultiStage.cpp:28-31` -/
def MS.isClear (m : MS) : Bool := m.stages.all (fun p => p.2.isClear)

/-- `MultiStage.cpp:33-37` -/
def MS.outputKeysDown (m : MS) : List Key :=
  match m.stages.getLast? with
  | some p => p.2.outputKeysDown
  | none => []

/-- `MultiStage.cpp:39-42` -/
def MS.evaluateDeviceFilters (rx : Regex) (m : MS) (devices : List DeviceDesc) : MS :=
  { m with stages := m.stages.map (fun p => (p.1.evaluateDeviceFilters rx devices, p.2)) }

/-- `MultiStage.cpp:54-65`: the output of the previous stage applied to a stage -/
def contextInput (c : Cfg) : S → KeySequence → S × KeySequence
  | s, [] => (s, [])
  | s, e :: es =>
    if isServerEvent e then
      let (s, out) := contextInput c s es
      (s, e :: out)
    else
      let (s, out1) := update c s e noDeviceIndex
      let (s, out2) := contextInput c s es
      (s, out1 ++ out2)

/-- `MultiStage.cpp:67-73`: the indices of the contexts of a stage, translated so that it starts
at 0 -/
def stageIndices (indices : List Int) (offset : Nat) (size : Nat) : List Nat :=
  (indices.filter (fun i => decide ((offset : Int) ≤ i) && decide (i < offset + size))).map
    (fun i => (i - (offset : Int)).toNat)

/-- `MultiStage.cpp:49-78`: the loop over the stages; `buf` is the output of the previous stage -/
def setActiveGo (indices : List Int) :
    List (Cfg × S) → (offset : Nat) → KeySequence → List (Cfg × S) × KeySequence
  | [], _, buf => ([], buf)
  | (c, s) :: rest, offset, buf =>
    let (s, out1) := contextInput c s buf
    let (s, out2) := setActiveClientContexts c s (stageIndices indices offset c.contexts.length)
    let (rest, buf) := setActiveGo indices rest (offset + c.contexts.length) (out1 ++ out2)
    ((c, s) :: rest, buf)

/-- `MultiStage.cpp:44-80` `set_active_client_contexts`. The returned sequence is a copy, the
buffer keeps its content. -/
def MS.setActiveClientContexts (m : MS) (indices : List Int) : MS × KeySequence :=
  let (stages, buf) := setActiveGo indices m.stages 0 m.buf
  ({ stages := stages, activeClient := indices, buf := buf }, buf)

/-- `MultiStage.cpp:105-112`: the events of the input buffer applied to a stage -/
def stageInput (c : Cfg) (dev : Int) (first : Bool) : S → KeySequence → S × KeySequence
  | s, [] => (s, [])
  | s, e :: es =>
    if !first && isServerEvent e then
      let (s, out) := stageInput c dev first s es
      (s, e :: out)
    else
      let (s, out1) := update c s e dev
      let (s, out2) := stageInput c dev first s es
      (s, out1 ++ out2)

/-- `MultiStage.cpp:98-103`: apply timeouts and virtual keys in all stages -/
def stageEvent (c : Cfg) (dev : Int) (first : Bool) (s : S) (ev : KeyEvent) : S × KeySequence :=
  if !first && (ev.key == Key.timeout || isVirtualKey ev.key) then update c s ev dev else (s, [])

/-- `MultiStage.cpp:86-115`: the loop over the stages -/
def updateGo (ev : KeyEvent) (dev : Int) :
    (first : Bool) → List (Cfg × S) → KeySequence → List (Cfg × S) × KeySequence
  | _, [], buf => ([], buf)
  | first, (c, s) :: rest, buf =>
    let (s, out1) := stageEvent c dev first s ev
    let (s, out2) := stageInput c dev first s buf
    let (rest, buf) := updateGo ev dev false rest (out1 ++ out2)
    ((c, s) :: rest, buf)

/-- `MultiStage.cpp:82-117` `update` (the buffer is moved out) -/
def MS.update (m : MS) (ev : KeyEvent) (dev : Int) : MS × KeySequence :=
  let (stages, buf) := updateGo ev dev true m.stages (m.buf ++ [ev])
  ({ m with stages := stages, buf := [] }, buf)

/-- `MultiStage.cpp:119-122` `reuse_buffer` -/
def MS.reuseBuffer (m : MS) : MS := { m with buf := [] }

/-- `MultiStage.cpp:124-127` `validate_state` -/
def MS.validateState (m : MS) (isDown : Key → Bool) : MS :=
  match m.stages with
  | (c, s) :: rest => { m with stages := (c, KM.validateState s isDown) :: rest }
  | [] => m

/-- `MultiStage.cpp:129-133` `should_exit` -/
def MS.shouldExit (m : MS) : Bool :=
  match m.stages with
  | (_, s) :: _ => s.shouldExit
  | [] => false

end KM
