import Verif.Spec.Forward
/-!
# Specification: measuring time

A stage asks how much time passes until the next event. The server measures it. This is specified for anything which outputs
sequences for operations (a stage, or the specification of what a stage outputs).
-/
namespace KM

/-- a measured time is at most 4095 milliseconds -/
def measured (ms : Int) : Nat := min ms.toNat 4095

/-- the time which is asked for by the last event of an output -/
def askedTime (out : KeySequence) : Option KeyEvent := out.getLast?.filter (fun e => e.key == Key.timeout)

/-- Something in some state, with a clock: since when which time is measured, the last event of a key which was read, and everything which was input. -/
structure Clocked (σ : Type) where
  state : σ
  since : Option (Int × KeyEvent) := none
  last : KeyEvent := KeyEvent.zero
  log : List StageOp := []

variable {σ : Type} (step : σ → StageOp → σ × KeySequence)

/-- Input something. When the output ends with a request, then the time is measured from now on. -/
def Clocked.input (now : Int) (c : Clocked σ) (ev : KeyEvent) (dev : Int) : Clocked σ × KeySequence :=
  let r := step c.state (.input ev dev)
  let c := { c with state := r.1, log := c.log ++ [.input ev dev] }
  match askedTime r.2 with
  | some request => ({ c with since := some (now, request) }, r.2.dropLast)
  | none => (c, r.2)

/-- input how much time passed -/
def Clocked.elapsed (now : Int) (c : Clocked σ) (ms : Int) (dev : Int) : Clocked σ × KeySequence :=
  { c with since := none }.input step now ⟨Key.timeout, .Up, measured ms⟩ dev

/-- Before a key is input, it is input how much time passed (a release does not matter for some requests). -/
def Clocked.interrupt (now : Int) (c : Clocked σ) (ev : KeyEvent) (dev : Int) : Clocked σ × KeySequence :=
  match c.since with
  | some (start, request) =>
    if ev.state = .Down ∨ request.state = .NotTimeout_cancel_on_up_down ∨ request.state = .Timeout_cancel_on_up_down then
      c.elapsed step now (now - start) dev
    else (c, [])
  | none => (c, [])

/-- A key is read. It is ignored when it is repeated while time is measured. -/
def Clocked.key (now : Int) (c : Clocked σ) (ev : KeyEvent) (dev : Int) : Clocked σ × KeySequence :=
  if c.since.isSome = true ∧ ev = c.last then (c, [])
  else
    let a := c.interrupt step now ev dev
    let b := { a.1 with last := ev }.input step now ev dev
    (b.1, a.2 ++ b.2)

/-- something is read -/
def Clocked.read (now : Int) (c : Clocked σ) : Read → Clocked σ × KeySequence
  | .key ev dev => c.key step now ev dev
  | _ => (c, [])

/-- when the time which is asked for is over, then it is input -/
def Clocked.expire (now : Int) (c : Clocked σ) : Clocked σ × KeySequence :=
  match c.since with
  | some (start, request) => if start + (request.value : Int) ≤ now then c.elapsed step now request.value anyDeviceIndex else (c, [])
  | none => (c, [])

/-- other operations -/
def Clocked.apply (c : Clocked σ) : List StageOp → Clocked σ × KeySequence
  | [] => (c, [])
  | op :: ops =>
    let r := step c.state op
    let q := Clocked.apply { c with state := r.1, log := c.log ++ [op] } ops
    (q.1, r.2 ++ q.2)

/-- What happens when the server is woken up: by a key, by messages (which change the active contexts), or because the time is over.
`n` is the number of contexts. -/
def Clocked.wake (n : Nat) (c : Clocked σ) (it : Iteration) : Clocked σ × KeySequence :=
  if it.read = .other then (c, [])
  else
    let a := c.read step it.now it.read
    let b := a.1.expire step it.now
    let d := b.1.apply step (it.messages.flatMap (Msg.stageOps n))
    (d.1, a.2 ++ b.2 ++ d.2)

/-- all of it -/
def Clocked.run (n : Nat) (c : Clocked σ) : List Iteration → Clocked σ × KeySequence
  | [] => (c, [])
  | it :: its =>
    let r := c.wake step n it
    let q := Clocked.run n r.1 its
    (q.1, r.2 ++ q.2)

/-- operations at first, then the server is woken up again and again -/
def Clocked.session (n : Nat) (c : Clocked σ) (first : List StageOp) (its : List Iteration) : Clocked σ × KeySequence :=
  let a := c.apply step first
  let b := a.1.run step n its
  (b.1, a.2 ++ b.2)

/-- The clock does not run backwards, the server is woken up within 24 days since time is measured (2^31 milliseconds), and not more than 4095 milliseconds are asked for (as is the
case for each configuration, since the values of events have 12 bits). -/
def Clocked.Timely (n : Nat) : Clocked σ → List Iteration → Prop
  | _, [] => True
  | c, it :: its => (∀ start request, c.since = some (start, request) → start ≤ it.now ∧ it.now - start < 2 ^ 31) ∧
    (∀ start request, (c.read step it.now it.read).1.since = some (start, request) → request.value < 4096) ∧
    Clocked.Timely n (c.wake step n it).1 its

end KM
