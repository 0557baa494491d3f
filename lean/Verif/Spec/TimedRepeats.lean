import Verif.Spec.Timed
/-!
# Specification: the repeats of a key which is held

While a key is held, the keyboard repeats its press.
-/
namespace KM

/-- what is remembered after a history of operations -/
def TimedState.after (tcs : List (List TimedMapping)) : TimedState → List StageOp → TimedState
  | st, [] => st
  | st, op :: ops => (st.step tcs op).1.after tcs ops

/-- the events of a key being repeated: after each repeat it is answered how much time passed -/
def repeats (k : Key) (dev : Int) (ws : List Nat) : List StageOp :=
  ws.flatMap (fun w => [.input ⟨k, .Down, 0⟩ dev, .input ⟨Key.timeout, .Up, w⟩ dev])

/-- For each of the repeats it is asked how much time passes until the next event. Only when it is enough for the mapping, its output is repeated. -/
def repeated (t : Nat) (out : KeySequence) (ws : List Nat) : List KeySequence :=
  ws.flatMap (fun w => [[⟨Key.timeout, .Up, t⟩], if t ≤ w then out else []])

end KM
