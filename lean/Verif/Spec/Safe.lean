import Verif.Spec.StageRun
import Verif.Spec.Context
import Verif.Spec.Expression
import Verif.Model.MultiStage
/-!
# Specification: what a stage can be asked to do

The configurations and the operations for which no assertion fails and no element past the end of
a list is accessed.
-/
namespace KM

/-- the keys which can be input: the ones of devices, virtual keys, timeouts, and the key which
starts the output of a character -/
def CanInputKey (k : Key) : Prop :=
  isDeviceKey k = true ∨ isVirtualKey k = true ∨ k = Key.timeout ∨ k = Key.unicode_output

/-- the keys which can be output: additionally the ones which start terminal commands -/
def OutputKey (k : Key) : Prop := CanInputKey k ∨ isActionKey k = true

/-- What can be in the output of a mapping: presses, releases and temporary releases of keys, the
ones of `Any`, and the marker `^`. -/
def CanOutput (e : KeyEvent) : Prop :=
  e = onReleaseMarker ∨
    (e.state = .Down ∨ (e.state = .Up ∧ e.value = 0) ∨ e.state = .Not) ∧ (e.key = Key.any ∨ OutputKey e.key)

/-- What a stage can emit: presses, releases without a value, and requests of timeouts. -/
def CanEmit (e : KeyEvent) : Prop :=
  e.key = Key.timeout ∨ (e.state = .Down ∨ (e.state = .Up ∧ e.value = 0)) ∧ OutputKey e.key

/-- A context can be used: the mappings have an input, which consists of more than the flag `?`, and
refer to an output; outputs consist of what can be output. -/
structure ContextSafe (ctx : Context) : Prop where
  inputs : ∀ i ∈ ctx.inputs, i.input ≠ []
  flag : ∀ i ∈ ctx.inputs, (∃ e, i.input.head? = some e ∧ e.state = .NoMightMatch) → i.input.tail ≠ []
  references : ∀ i ∈ ctx.inputs, 0 ≤ i.outputIndex → i.outputIndex < ctx.outputs.length
  outputs : ∀ o ∈ ctx.outputs, ∀ e ∈ o, CanOutput e
  commands : ∀ o ∈ ctx.commandOutputs, ∀ e ∈ o.output, CanOutput e

/-- A configuration of a stage can be used: its contexts can, and the last does not fall through. -/
structure ContextsSafe (cs : List Context) : Prop where
  contexts : ∀ ctx ∈ cs, ContextSafe ctx
  last : cs ≠ [] → LastStops cs

/-- What can be input: presses and releases of keys on devices, virtual keys, timeouts, of one of
at most 64 devices. -/
structure InputSafe (ev : KeyEvent) (dev : Int) : Prop where
  state : ev.state = .Down ∨ ev.state = .Up
  key : CanInputKey ev.key
  device : -2 ≤ dev ∧ dev < 64

/-- An operation which can be applied to a stage with `n` contexts: the active contexts exist and
are sorted. -/
def StageOp.isSafe (n : Nat) : StageOp → Prop
  | .input ev dev => InputSafe ev dev
  | .contexts l => l.Pairwise (· ≤ ·) ∧ ∀ i ∈ l, i < n
  | _ => True

/-- the events of a key -/
def ofKey (k : Key) (l : KeySequence) : KeySequence := l.filter (fun e => e.key = k)

/-- Press, release, press, …: a key which is first released cannot be pressed twice. -/
def alternates (l : KeySequence) : Bool :=
  match l with
  | [] => true
  | [e] => e.state == .Down
  | e :: f :: rest => e.state == .Down && f.state == .Up && alternates rest

/-- what follows a press has the value of the press -/
def FollowsFit : KeySequence → Prop
  | a :: b :: rest => (a.state = .Down → b.value = a.value) ∧ FollowsFit (b :: rest)
  | _ => True

/-- The values of the events of one key fit: either no release has a value, or what follows a press
has the value of the press. (Only turning a mouse wheel has a value. The server precedes it by a
press with the same value; the releases output by a stage have none.) -/
def ValuesFit (l : KeySequence) : Prop :=
  (∀ e ∈ l, e.state = .Up → e.value = 0) ∨ FollowsFit l

/-- The values of the events of each key fit (virtual keys and timeouts are not recorded). -/
def InputsFit (events : KeySequence) : Prop :=
  ∀ k, isVirtualKey k = false → k ≠ Key.timeout → ValuesFit (ofKey k events)

/-- is the key pressed at the end of these events -/
def endsPressed (h : KeySequence) (k : Key) : Prop := ∃ e, (ofKey k h).getLast? = some e ∧ e.state = .Down

/-- What is left of a history after cleaning it up: it is empty, or begins with a press without
release, or a mapping which is compared with it might still match. -/
def CleanedUp (c : Cfg) (active : List Nat) (h : KeySequence) : Prop :=
  h = [] ∨ (∃ e rest, h = e :: rest ∧ e.state = .Down ∧ (⟨e.key, .Up, e.value⟩ : KeyEvent) ∉ rest) ∨
    ∃ j ∈ active, ∃ ctx, c.contexts[j]? = some ctx ∧ ∃ i ∈ ctx.inputs, ∃ f expr, i.input = f :: expr ∧
      f.state = .NoMightMatch ∧ (matchSeq expr h).res = .might_match

/-- The operations on stages in sequence. -/
inductive MSOp where
  | input (ev : KeyEvent) (dev : Int)
  | contexts (indices : List Int)
  | devices (rx : Regex) (descs : List DeviceDesc)
  | validate (isDown : Key → Bool)

/-- Apply an operation; the buffer is handed back after sending it (`ServerState.cpp:29-31`). -/
def msStep (m : MS) : MSOp → MS × KeySequence
  | .input ev dev => m.update ev dev
  | .contexts l => ((m.setActiveClientContexts l).1.reuseBuffer, (m.setActiveClientContexts l).2)
  | .devices rx ds => (m.evaluateDeviceFilters rx ds, [])
  | .validate f => (m.validateState f, [])

/-- Apply a history of operations, with everything which was output, in order. -/
def msRun (m : MS) : List MSOp → MS × KeySequence
  | [] => (m, [])
  | op :: ops =>
    let r := msStep m op
    let q := msRun r.1 ops
    (q.1, r.2 ++ q.2)

/-- the events input into the first stage -/
def msInputs : List MSOp → KeySequence
  | [] => []
  | .input ev _ :: ops => ev :: msInputs ops
  | _ :: ops => msInputs ops

/-- An operation which can be applied to stages in sequence: the indices of the active contexts are
sorted (the ones which do not exist are dropped). -/
def MSOp.isSafe : MSOp → Prop
  | .input ev dev => InputSafe ev dev
  | .contexts l => l.Pairwise (· ≤ ·)
  | _ => True

end KM
