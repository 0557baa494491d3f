import Verif.Model.Key
/-!
# Terms for stating what matching an expression means
-/
namespace KM

/-- the expression has no no-might-match marker -/
def Plain (e : KeySequence) : Prop := ∀ x ∈ e, x.state ≠ .NoMightMatch

/-- a key which is no wildcard or timeout -/
def ProperKey (k : Key) : Prop := k ≠ Key.none ∧ k ≠ Key.any ∧ k ≠ Key.timeout

/-- The input expression of typing keys one after the other (`A B C`): each has to be pressed, it may
be released at any later time. -/
def typingExpr (ks : List Key) : KeySequence :=
  ks.flatMap (fun k => [⟨k, .Down, 0⟩, ⟨k, .UpAsync, 0⟩])

/-- The input expression of pressing keys together (`(A B C)`) -/
def chordExpr (ks : List Key) : KeySequence :=
  ks.map (fun k => ⟨k, .DownAsync, 0⟩) ++ ks.map (fun k => ⟨k, .Down, 0⟩) ++ ks.map (fun k => ⟨k, .UpAsync, 0⟩)

/-- The events of a keyboard on which the keys `pressed` are already held: only keys which are not
held get pressed, only held keys get released. -/
def Typed : (pressed : List Key) → KeySequence → Prop
  | _, [] => True
  | pressed, e :: s =>
    (e.state = .Down ∧ ProperKey e.key ∧ e.key ∉ pressed ∧ Typed (e.key :: pressed) s) ∨
    (e.state = .Up ∧ e.key ∈ pressed ∧ Typed (pressed.filter (· ≠ e.key)) s)

/-- The keys pressed, in order -/
def presses (s : KeySequence) : List Key := (s.filter (fun e => e.state = .Down)).map (·.key)

end KM
