import Verif.Model.Stage
/-!
# Specification: histories of a stage

What the environment can do with a stage, everything it emitted so far, and the keyboard one gets
by replaying what was emitted.
-/
namespace KM

/-- The public operations of `Stage` (`Stage.h:55-75`) which change its state. -/
inductive StageOp where
  /-- `update` with an event of a device -/
  | input (ev : KeyEvent) (dev : Int)
  /-- `set_active_client_contexts` -/
  | contexts (indices : List Nat)
  /-- `evaluate_device_filters` -/
  | devices (rx : Regex) (descs : List DeviceDesc)
  /-- `validate_state` -/
  | validate (isDown : Key → Bool)

/-- Apply an operation, with the output it returns. -/
def stageStep (st : Cfg × S) : StageOp → (Cfg × S) × KeySequence
  | .input ev dev => let r := update st.1 st.2 ev dev; ((st.1, r.1), r.2)
  | .contexts l => let r := setActiveClientContexts st.1 st.2 l; ((st.1, r.1), r.2)
  | .devices rx ds => ((st.1.evaluateDeviceFilters rx ds, st.2), [])
  | .validate f => ((st.1, validateState st.2 f), [])

/-- Apply a history of operations, with everything which was output, in order. -/
def stageRun (st : Cfg × S) : List StageOp → (Cfg × S) × KeySequence
  | [] => (st, [])
  | op :: ops =>
    let r := stageStep st op
    let q := stageRun r.1 ops
    (q.1, r.2 ++ q.2)

/-- A stage just constructed from contexts. -/
def stageInit (contexts : List Context) : Cfg × S := (Cfg.make contexts, {})

/-- A keyboard key after an event. -/
def heldStep (k : Key) (held : Bool) (e : KeyEvent) : Bool :=
  if e.key = k then
    if e.state = .Down then true
    else if e.state = .Up then false
    else held
  else held

/-- Is a key down on a keyboard on which these events are replayed. -/
def heldAfter (events : KeySequence) (k : Key) : Bool := events.foldl (heldStep k) false

/-- The events input into a stage -/
def inputEvents : List StageOp → KeySequence
  | [] => []
  | .input ev _ :: ops => ev :: inputEvents ops
  | _ :: ops => inputEvents ops

/-- The operation does not input anything but presses, and releases without a value (only the
releases of a mouse wheel have one). -/
def StageOp.isSimple : StageOp → Prop
  | .input ev _ => ev.state = .Down ∨ (ev.state = .Up ∧ ev.value = 0)
  | _ => True

/-- Is an operation not `validate_state` (which makes a stage forget keys on purpose) -/
def StageOp.isRegular : StageOp → Bool
  | .validate _ => false
  | _ => true

/-- In an output sequence, each release of the key `k` (and each release of `Any`, which stands for several keys) is preceded by
a press of the same key, which is not separated from it by the on-release marker `^` (the sequence is
output in pieces, which end at the markers). `seen` are the keys pressed in the current piece. -/
def releasesOwn (k : Key) (seen : List Key) : KeySequence → Bool
  | [] => true
  | e :: rest =>
    match e.state with
    | .OutputOnRelease => releasesOwn k [] rest
    | .Up => ((e.key != k && e.key != Key.any) || seen.contains e.key) && releasesOwn k seen rest
    | .Down => releasesOwn k (e.key :: seen) rest
    | _ => releasesOwn k seen rest

end KM
