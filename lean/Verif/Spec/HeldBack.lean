import Verif.Spec.Transparent
/-!
# Terms for stating that keys which are held back are not lost
-/
namespace KM

/-- The input expression cannot be completed without pressing the key: it expects its press (and has not expected its release before),
and has no wildcard `Any` in a group of simultaneous keys. -/
def Requires (exp : KeySequence) (k : Key) : Prop :=
  ∃ e1 v e2, exp = e1 ++ ⟨k, .Down, v⟩ :: e2 ∧ ∀ a ∈ e1, (a.key = k → a.state ≠ .UpAsync) ∧ (a.key = Key.any → a.state ≠ .DownAsync)

/-- A context in which every mapping needs some device or virtual key which is not one of these keys, no mapping contains a timeout,
and which has no mapping of its own activation. -/
def Context.Incomplete (K : Key → Prop) (ctx : Context) : Prop :=
  ∀ inp ∈ ctx.inputs, (∃ k, ¬ K k ∧ (isDeviceKey k = true ∨ isVirtualKey k = true) ∧ Requires inp.input k) ∧
    (∀ e ∈ inp.input, e.key ≠ Key.timeout) ∧ inp.input.head?.map (·.key) ≠ some Key.ContextActive

/-- The operation inputs only these keys and activates only contexts which cannot be completed by them. -/
def StageOp.Incomplete (K : Key → Prop) (contexts : List Context) : StageOp → Prop
  | .input ev _ => K ev.key
  | .contexts l => ∀ i ∈ l, ∀ j, FallsTo contexts i j → ∀ ctx, contexts[j]? = some ctx → ctx.Incomplete K
  | .devices _ _ => True
  | .validate _ => False

/-- What is typed on a keyboard without key repeat: keys are pressed which are not held, and released which are held. -/
def TypedOn (events : KeySequence) : Prop :=
  ∀ pre ev post, events = pre ++ ev :: post →
    (ev.state = .Down ∧ heldAfter pre ev.key = false) ∨ (ev = ⟨ev.key, .Up, 0⟩ ∧ heldAfter pre ev.key = true)

/-- the presses of keys, in their order -/
def pressesOf (events : KeySequence) : KeySequence := events.filter (fun e => e.state == .Down)

/-- the events of a key, in their order -/
def eventsOf (k : Key) (events : KeySequence) : KeySequence := events.filter (fun e => e.key == k)

/-- No context which can become active mentions the key, nor the wildcard `Any`. -/
def StageOp.Unrelated (k : Key) (contexts : List Context) : StageOp → Prop
  | .contexts l => ∀ i ∈ l, ∀ j, FallsTo contexts i j → ∀ ctx, contexts[j]? = some ctx → ∀ inp ∈ ctx.inputs, Foreign (· = k) inp.input
  | _ => True

end KM
