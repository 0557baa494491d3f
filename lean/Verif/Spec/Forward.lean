import Verif.Model.ServerLoop
import Verif.Spec.StageRun
/-!
# Specification: the server around a stage

What the server does with the output of a configuration of one stage when no timeouts, virtual keys and terminal commands are
involved.
-/
namespace KM

/-- an event which is sent to the virtual device as it is -/
def Sendable (e : KeyEvent) : Prop :=
  e.key ≠ Key.timeout ∧ isVirtualKey e.key = false ∧ isActionKey e.key = false ∧ (isMouseWheel e.key = true → e.state ≠ .Down)

/-- a key of a keyboard or mouse, not the wheel -/
def Ordinary (k : Key) : Prop := isDeviceKey k = true ∧ isMouseWheel k = false

/-- The server waits for input: nothing is left to be sent, no timeout is pending, no key info is requested -/
structure Srv.Waits (s : Srv) : Prop where
  buf : s.sendBuf = []
  flushAt : s.flushAt = none
  timeout : s.timeoutStart = none
  sending : s.sending = false
  info : s.nextKeyInfo = false
  stageBuf : s.ms.buf = []

/-- An iteration in which keys and changes of the active contexts are read, and everything can be sent -/
structure Iteration.Ordinary (noFilters : Bool) (it : Iteration) : Prop where
  read : ∀ ev dev, it.read = .key ev dev → KM.Ordinary ev.key
  sent : it.sendResults = []
  devices : it.devices = none ∨ noFilters = true
  messages : ∀ m ∈ it.messages, ∃ l, m = .activeContexts l
  regrab : it.regrab = false

/-- what a message means for a stage with `n` contexts -/
def Msg.stageOps (n : Nat) : Msg → List StageOp
  | .activeContexts l => [.contexts ((l.filter (fun i => decide (0 ≤ i) && decide (i < (n : Int)))).map Int.toNat)]
  | _ => []

/-- what is read means for a stage -/
def Read.stageOps : Read → List StageOp
  | .key ev dev => [.input ev dev]
  | _ => []

/-- what an iteration means for a stage; messages are read when nothing was forwarded -/
def Iteration.stageOps (n : Nat) (it : Iteration) : List StageOp :=
  if it.read = .other then [] else it.read.stageOps ++ it.messages.flatMap (Msg.stageOps n)

end KM
