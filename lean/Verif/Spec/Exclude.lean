import Verif.Spec.Remap
/-!
# Specification: excluding an application

README: "To exclude an application from any mapping this can be added to the top of the
configuration: `[title="Remote Desktop"] Any >> Any [default]`".
-/
namespace KM

/-- the mapping `Any >> Any`, in front of the other mappings of a context without filters for
devices (the ones for windows are evaluated by the client) -/
structure Context.Excludes (ctx : Context) : Prop where
  first : ∃ m ms, ctx.inputs = m :: ms ∧ m.input = singleKey Key.any ∧ 0 ≤ m.outputIndex ∧
    ctx.outputs[m.outputIndex.toNat]? = some [⟨Key.any, .Down, 0⟩]
  devices : ctx.hasDeviceFilter = false

/-- The mappings of the rest of the configuration: `ContextActive` and `?` are not used, nor `Any`
(or a timeout) in a group `(A Any)`, and a key is not released before it is pressed. -/
structure OrdinaryMapping (input : KeySequence) : Prop where
  notEmpty : input ≠ []
  states : ∀ e ∈ input, e.state = .Down ∨ e.state = .Up ∨ e.state = .DownAsync ∨ e.state = .UpAsync ∨ e.state = .Not
  active : input.head?.map (·.key) ≠ some Key.ContextActive
  noAnyGroup : ∀ e ∈ input, e.state = .DownAsync → e.key ≠ Key.any ∧ e.key ≠ Key.timeout
  releases : ∀ a e b, input = a ++ e :: b → e.state = .Up ∨ e.state = .UpAsync → ∃ d ∈ a, d.key = e.key ∧ d.state = .Down

/-- the client reports contexts, and the first one of them falls through to an excluding one -/
structure ExcludedBy (contexts : List Context) (l : List Nat) : Prop where
  sorted : l.Pairwise (· ≤ ·)
  inRange : ∀ i ∈ l, i < contexts.length
  first : ∃ i is, l = i :: is ∧
    (∃ ctx, contexts[i]? = some ctx ∧ ctx.modifierFilter = [] ∧ ctx.invertModifierFilter = false ∧ ctx.hasDeviceFilter = false) ∧
    ∃ j ctx, FallsTo contexts i j ∧ contexts[j]? = some ctx ∧ ctx.Excludes

/-- what happens while an application is excluded: keyboard keys are pressed and released, and the
client reports contexts which still exclude it -/
def StageOp.WhileExcluded (contexts : List Context) : StageOp → Prop
  | .input ev dev => isKeyboardKey ev.key = true ∧ (ev.state = .Down ∨ ev.state = .Up) ∧ -2 ≤ dev ∧ dev < 64
  | .contexts l => ExcludedBy contexts l
  | .devices _ _ => True
  | .validate _ => False

/-- a configuration of which the mappings are ordinary, and the devices have not been evaluated yet -/
structure ExcludableConfig (contexts : List Context) : Prop where
  ordinary : ∀ ctx ∈ contexts, ∀ m ∈ ctx.inputs, OrdinaryMapping m.input
  last : LastStops contexts
  bits : ∀ ctx ∈ contexts, ctx.matchingDeviceBits = allDeviceBits

end KM
