import Verif.Model.ParseConfig
import Verif.Spec.Context
import Verif.Spec.Flush
/-!
# Specification: logical keys and references in configurations
-/
namespace KM

/-- What a mapping outputs: a key sequence, or what the command with the number is mapped to -/
inductive Target where
  | output (o : KeySequence)
  | command (i : Int)
  | missing
deriving DecidableEq, Repr

/-- The target with reference `i` of a context with these outputs -/
def target (outs : List KeySequence) (i : Int) : Target :=
  if 0 ≤ i then
    match outs[i.toNat]? with
    | some o => .output o
    | none => .missing
  else .command i

/-- The mappings of a context -/
def CContext.mappings (c : CContext) : List (KeySequence × Target) :=
  c.inputs.map (fun i => (i.input, target c.outputs i.outputIndex))

/-- One of the keys of a sequence -/
def KeyOccurs (l : KeySequence) (k : Key) : Prop := ∃ e ∈ l, e.key = k

/-- A sequence in which a logical key stands for `k`; that it must not be held means that neither
of the alternatives may be. -/
def standFor (l : LogicalKey) (k : Key) : KeySequence → KeySequence
  | [] => []
  | e :: es =>
    if e.key = l.both then
      if e.state = .Not then ⟨l.left, .Not, 0⟩ :: ⟨l.right, .Not, e.value⟩ :: standFor l k es
      else { e with key := k } :: standFor l k es
    else e :: standFor l k es

/-- the same for what is output -/
def Target.standFor (l : LogicalKey) (k : Key) : Target → Target
  | .output o => .output (KM.standFor l k o)
  | t => t

/-- A key of the input has to be held down or released -/
def Demands (l : KeySequence) (k : Key) : Prop := ∃ e ∈ l, e.key = k ∧ e.state ≠ .Not

instance (l : KeySequence) (k : Key) : Decidable (Demands l k) := by unfold Demands; infer_instance

/-- A mapping in which a logical key stands for one of its alternatives: the right one when `right`
is set; in a mapping whose input does not demand the logical key, it stands for the left one. -/
def chooseOne (l : LogicalKey) (right : Bool) (m : KeySequence × Target) : KeySequence × Target :=
  let k := if right = true ∧ Demands m.1 l.both then l.right else l.left
  (standFor l k m.1, m.2.standFor l k)

/-- A mapping in which each of the logical keys (in this order) stands for the alternative which
`right` chooses -/
def choose (right : LogicalKey → Bool) (ls : List LogicalKey) (m : KeySequence × Target) :
    KeySequence × Target :=
  ls.foldl (fun m l => chooseOne l (right l) m) m

/-- `k'` is one of the alternatives of `k`: a logical key may stand for any alternative of its left
and its right key, other keys for themselves. -/
inductive Alternative (ls : List LogicalKey) : Key → Key → Prop where
  | same (k : Key) : (∀ l ∈ ls, l.both ≠ k) → Alternative ls k k
  | left (l : LogicalKey) (k : Key) : l ∈ ls → Alternative ls l.left k → Alternative ls l.both k
  | right (l : LogicalKey) (k : Key) : l ∈ ls → Alternative ls l.right k → Alternative ls l.both k

/-- A key counts as held when one of its alternatives is -/
def HeldOne (ls : List LogicalKey) (seq : KeySequence) (k : Key) : Prop :=
  ∃ k', Alternative ls k k' ∧ ∃ e ∈ seq, e.key = k'

/-- The modifiers of a filter are held (of a logical key one of the alternatives), the ones marked
with `!` are not (of a logical key none of the alternatives). -/
def LogicalModifiersHeld (ls : List LogicalKey) (seq modifiers : KeySequence) : Prop :=
  ∀ m ∈ modifiers, HeldOne ls seq m.key ↔ m.state ≠ .Not

/-- The logical keys are numbered from the first one on, and their alternatives are neither
themselves nor defined later. -/
def LogicalKeysOrdered (ls : List LogicalKey) : Prop :=
  ∀ (i : Nat) (l : LogicalKey), ls[i]? = some l → l.both = Key.first_logical + i ∧
    l.left < l.both ∧ l.right < l.both

/-- Each output which a mapping of the context refers to exists -/
def OutputsExist (c : CContext) : Prop :=
  ∀ i ∈ c.inputs, 0 ≤ i.outputIndex → i.outputIndex < c.outputs.length

/-- The terminal commands which are run when an output is sent, in order; `none` for a number which
is not the one of a command -/
def triggered (actions : List Str) (o : KeySequence) : List (Option Str) :=
  (effectsOf o).filterMap (fun
    | .action i => some actions[i]?
    | _ => none)

/-- What `ls.reverse.foldl replaceLogicalKey [c]` consists of is contexts `b`, `b + 1`, ... , `j` of a
stage. Is the last one activated by one of these, when the client activated the contexts
`client`? -/
def ActivatedWithin (cs : List Context) (seq : KeySequence) (client : List Nat) (b j : Nat) : Prop :=
  ∃ i ∈ client, b ≤ i ∧ i ≤ j ∧ ∃ ctx, cs[i]? = some ctx ∧ FiltersMatch seq ctx ∧ FallsTo cs i j

end KM
