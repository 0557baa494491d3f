import Verif.Spec.Context
/-!
# Terms for stating that unmapped keys pass through
-/
namespace KM

/-- the expression does not mention any of these keys, and not the wildcard `Any` -/
def Foreign (K : Key → Prop) (exp : KeySequence) : Prop := ∀ x ∈ exp, ¬ K x.key ∧ x.key ≠ Key.any

/-- a set of keys without pseudo keys -/
def RealKeys (K : Key → Prop) : Prop := ∀ k, K k → k ≠ Key.none ∧ k ≠ Key.any ∧ k ≠ Key.timeout

/-- A context which does not mention any of the keys in the inputs of its mappings, nor the
wildcard `Any`, and has no mapping of its own activation. -/
def Context.Leaves (K : Key → Prop) (ctx : Context) : Prop :=
  ∀ inp ∈ ctx.inputs, Foreign K inp.input ∧ inp.input.head?.map (·.key) ≠ some Key.ContextActive

/-- The operation only inputs presses and releases of these keys, and only activates contexts which
do not mention them. -/
def StageOp.Leaves (K : Key → Prop) (contexts : List Context) : StageOp → Prop
  | .input ev _ => K ev.key ∧ (ev.state = .Down ∨ ev.state = .Up)
  | .contexts l => ∀ i ∈ l, ∀ j, FallsTo contexts i j → ∀ ctx, contexts[j]? = some ctx → ctx.Leaves K
  | .devices _ _ => True
  | .validate _ => False

/-- one step of `pressDevice` -/
def pressStep (a : KeySequence × Int) : StageOp → KeySequence × Int
  | .input ev dev =>
    (a.1 ++ [ev], if ev.state = .Down ∧ heldAfter a.1 ev.key = false ∧ dev ≠ noDeviceIndex then dev else a.2)
  | _ => a

/-- The device on which most recently a key was pressed (which was not held already). -/
def pressDevice (ops : List StageOp) : Int := (ops.foldl pressStep ([], noDeviceIndex)).2

end KM
