import Verif.Spec.Focus
import Verif.Spec.Reload
import Verif.Spec.Transparent
/-!
# Specification: keys which are not mapped by any stage
-/
namespace KM

/-- what appears when the keys `evs` are typed after `past`: everything but releases of keys which are not held -/
def asTyped (past : KeySequence) : KeySequence → KeySequence
  | [] => []
  | e :: evs => (if e.state = .Up ∧ heldAfter past e.key = false then [] else [e]) ++ asTyped (past ++ [e]) evs

/-- in none of the stages a context is activated which mentions the keys (`off` contexts are in front of the stages) -/
def ActivatesForeign (K : Key → Prop) (l : List Int) : Nat → List (List Context) → Prop
  | _, [] => True
  | off, contexts :: rest => (StageOp.contexts (ownContexts l off contexts.length)).Leaves K contexts ∧ ActivatesForeign K l (off + contexts.length) rest

/-- what happens only concerns these keys, on one device -/
def StagesOp.Foreign (K : Key → Prop) (d : Int) (stages : List (List Context)) : StagesOp → Prop
  | .input ev dev => dev = d ∧ K ev.key ∧ (ev.state = .Down ∨ ev.state = .Up) ∧ (ev.state = .Up → ev.value = 0)
  | .contexts l => ActivatesForeign K l 0 stages

/-- What appears when also the configuration is replaced: then exactly the keys which are held are released, once each (in some order), and it begins anew. -/
inductive AppearsAs : KeySequence → List ReloadOp → KeySequence → Prop
  | nil {past} : AppearsAs past [] []
  | key {past ev dev ops out} (h : AppearsAs (past ++ [ev]) ops out) :
      AppearsAs past (.stages (.input ev dev) :: ops) ((if ev.state = .Up ∧ heldAfter past ev.key = false then [] else [ev]) ++ out)
  | contexts {past l ops out} (h : AppearsAs past ops out) : AppearsAs past (.stages (.contexts l) :: ops) out
  | configure {past cfgs ops out} (released : List Key) (hr : ∀ k, k ∈ released ↔ heldAfter past k = true) (hn : released.Nodup) (h : AppearsAs [] ops out) :
      AppearsAs past (.configure cfgs :: ops) (released.map (fun k => ⟨k, .Up, 0⟩) ++ out)

/-- what happens only concerns these keys, on one device, and no configuration mentions them -/
def ReloadOp.Foreign (K : Key → Prop) (d : Int) : ReloadOp → Prop
  | .stages (.input ev dev) => dev = d ∧ K ev.key ∧ (ev.state = .Down ∨ ev.state = .Up) ∧ (ev.state = .Up → ev.value = 0)
  | .stages (.contexts _) => True
  | .configure cfgs => ∃ stages : List (List Context), stages ≠ [] ∧ (∀ st ∈ stages, ∀ ctx ∈ st, ctx.Leaves K) ∧ cfgs = stages.map Cfg.make

end KM
