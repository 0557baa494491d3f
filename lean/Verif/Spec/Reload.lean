import Verif.Spec.Stages
/-!
# Specification: the configuration is replaced while keys are typed
-/
namespace KM

/-- what happens: something happens to the stages, or they are replaced -/
inductive ReloadOp where
  | stages (op : StagesOp)
  | configure (cfgs : List Cfg)

/-- the keys of keyboards and mice which the last stage holds down on the virtual device -/
def heldOutput (stages : List (Cfg × S)) : List Key :=
  match stages.getLast? with
  | some p => (p.2.down.map (·.key)).filter isDeviceKey
  | none => []

/-- when the stages are replaced, then what they hold down is released, and the new ones begin anew -/
def reloadStep (stages : List (Cfg × S)) : ReloadOp → List (Cfg × S) × List KeySequence
  | .stages op => stagesStep stages op
  | .configure cfgs => (cfgs.map (fun c => (c, {})), [(heldOutput stages).map (fun k => ⟨k, .Up, 0⟩)])

/-- a history of operations, with what is output for each of them -/
def reloadRun (stages : List (Cfg × S)) : List ReloadOp → List (Cfg × S) × List (List KeySequence)
  | [] => (stages, [])
  | op :: ops =>
    let r := reloadStep stages op
    let q := reloadRun r.1 ops
    (q.1, r.2 :: q.2)

/-- what a message means for the stages -/
def Msg.reloadOps : Msg → List ReloadOp
  | .activeContexts l => [.stages (.contexts l)]
  | .configuration cfgs => [.configure cfgs]
  | _ => []

/-- what an iteration of the loop of the server means for the stages -/
def Iteration.reloadOps (it : Iteration) : List ReloadOp :=
  if it.read = .other then [] else it.read.stagesOps.map .stages ++ it.messages.flatMap Msg.reloadOps

/-- a message which activates contexts, or a configuration which is not empty and has no device filters -/
def Msg.Reloads (m : Msg) : Prop :=
  (∃ l, m = .activeContexts l) ∨
    ∃ stages : List (List Context), stages ≠ [] ∧ (∀ st ∈ stages, ∀ ctx ∈ st, ctx.hasDeviceFilter = false) ∧ m = .configuration (stages.map Cfg.make)

/-- An iteration in which keys, changes of the active contexts and configurations are read, and everything can be sent. It does not demand to grab the devices anew. -/
structure Iteration.Reloads (it : Iteration) : Prop where
  read : ∀ ev dev, it.read = .key ev dev → KM.Ordinary ev.key
  sent : it.sendResults = []
  messages : ∀ m ∈ it.messages, m.Reloads
  regrab : it.regrab = false

end KM
