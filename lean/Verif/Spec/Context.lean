import Verif.Model.Stage
import Verif.Spec.StageRun
/-!
# Specification: contexts and mappings
-/
namespace KM

/-- Context number `i` falls through to context number `j`: all contexts from `i` up to but not
including `j` are marked as falling through, `j` is not. -/
def FallsTo (cs : List Context) (i j : Nat) : Prop :=
  i ≤ j ∧ (∀ m, i ≤ m → m < j → ∃ ctx, cs[m]? = some ctx ∧ ctx.fallthrough = true) ∧
    ∃ ctx, cs[j]? = some ctx ∧ ctx.fallthrough = false

/-- The last context does not fall through. -/
def LastStops (cs : List Context) : Prop := ∃ ctx, cs.getLast? = some ctx ∧ ctx.fallthrough = false

/-- The modifiers of a filter are held, the ones marked with `!` are not. -/
def ModifiersHeld (seq : KeySequence) (modifiers : KeySequence) : Prop :=
  ∀ m ∈ modifiers, (∃ e ∈ seq, e.key = m.key) ↔ m.state ≠ .Not

/-- The modifier filter and the device filter of a context match. -/
def FiltersMatch (seq : KeySequence) (ctx : Context) : Prop :=
  (ModifiersHeld seq ctx.modifierFilter ↔ ctx.invertModifierFilter = false) ∧
  (ctx.hasDeviceFilter = true → ctx.matchingDeviceBits ≠ 0)

/-- Context `j` is active: a context activated by the client, whose filters match, falls through
to it. -/
def IsActive (cs : List Context) (seq : KeySequence) (client : List Nat) (j : Nat) : Prop :=
  ∃ i ∈ client, ∃ ctx, cs[i]? = some ctx ∧ FiltersMatch seq ctx ∧ FallsTo cs i j

/-- In context number `i` (or the one it falls through to) the command with the (negative) number
`idx` is mapped to an output. -/
def MapsCommand (cs : List Context) (i : Nat) (idx : Int) (out : KeySequence) : Prop :=
  ∃ j ctx, FallsTo cs i j ∧ cs[j]? = some ctx ∧ ⟨out, idx⟩ ∈ ctx.commandOutputs

/-- A command is mapped at most once in a context (the parser reports duplicates). -/
def CommandsUnique (cs : List Context) : Prop :=
  ∀ ctx ∈ cs, ∀ a ∈ ctx.commandOutputs, ∀ b ∈ ctx.commandOutputs, a.index = b.index → a = b

/-- The output of the last active context mapping the command. -/
def LastMapped (cs : List Context) (active : List Nat) (idx : Int) (out : KeySequence) : Prop :=
  ∃ before i after, active = before ++ i :: after ∧ MapsCommand cs i idx out ∧
    ∀ j ∈ after, ∀ o, ¬ MapsCommand cs j idx o

/-- The output of a mapping of context number `ci`: its own or the one of its command. -/
def OutputFor (cs : List Context) (active : List Nat) (ci : Nat) (idx : Int) (out : KeySequence) : Prop :=
  (0 ≤ idx ∧ ∃ ctx, cs[ci]? = some ctx ∧ ctx.outputs[idx.toNat]? = some out) ∨
  (idx < 0 ∧ LastMapped cs active idx out)

/-- Does a mapping take part when a sequence of a device is looked up: a mapping marked with
no-might-match only when looking up the whole sequence of an actual device, with the history. -/
def Considered (first : Bool) (history : KeySequence) (dev : Int) (input : KeySequence) : Prop :=
  isNoMightMatch input = true → first = true ∧ history ≠ [] ∧ dev ≠ anyDeviceIndex

/-- The sequence a mapping is compared with. -/
def LookedUp (history sequence : KeySequence) (input : KeySequence) : KeySequence :=
  if isNoMightMatch input then history else sequence

/-- A mapping of context number `ci` matches and has an output. -/
def Uses (cs : List Context) (first : Bool) (active : List Nat) (history sequence : KeySequence) (dev : Int)
    (ci : Nat) (m : Input) (out : KeySequence) : Prop :=
  Considered first history dev m.input ∧
  (matchSeq m.input (LookedUp history sequence m.input)).res = .matched ∧
  OutputFor cs active ci m.outputIndex out

/-- A mapping may still match. -/
def Waits (first : Bool) (sequence : KeySequence) (m : Input) : Prop :=
  first = true ∧ isNoMightMatch m.input = false ∧ (matchSeq m.input sequence).res = .might_match

/-- A context accepts events of a device: device number `dev` is one of its matching devices;
an event of no particular device (-1) when all are, an event of any device (-2) always. -/
def AcceptsDevice (ctx : Context) (dev : Int) : Prop :=
  dev = anyDeviceIndex ∨ (dev = noDeviceIndex ∧ ∀ i < 64, ctx.matchingDeviceBits.getLsbD i = true) ∨
  (0 ≤ dev ∧ ctx.matchingDeviceBits.getLsbD dev.toNat = true)

/-- Each mapping which comes before mapping number `j` of the `n`-th active context (in the order of
the active contexts, then of their mappings), and whose context accepts the device, satisfies `P`. -/
def AllBefore (cs : List Context) (active : List Nat) (dev : Int) (n j : Nat) (P : Nat → Input → Prop) : Prop :=
  ∀ n' j' ci ctx m, active[n']? = some ci → cs[ci]? = some ctx → AcceptsDevice ctx dev →
    ctx.inputs[j']? = some m → (n' < n ∨ (n' = n ∧ j' < j)) → P ci m

/-- The operations a client may request: sorted valid context numbers; events are presses and
releases. -/
def StageOp.isValid (n : Nat) : StageOp → Prop
  | .input ev _ => ev.state = .Down ∨ ev.state = .Up
  | .contexts l => l.Pairwise (· ≤ ·) ∧ ∀ i ∈ l, i < n
  | _ => True

/-- An operation which is neither a change of devices nor of the pending keys behind the stage's back. -/
def StageOp.isInput : StageOp → Bool
  | .input .. => true
  | .contexts _ => true
  | _ => false

end KM
