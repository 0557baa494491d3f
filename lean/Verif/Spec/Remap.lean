import Verif.Spec.Context
/-!
# Specification: replacing keys by keys

What a configuration does whose mappings all replace a single key by keys which are held as long as
it is: `A >> B`, `A >> (ShiftLeft B)`, `A >> command`. Contexts may have filters and fall through,
commands may be overridden.
-/
namespace KM

/-- the input `A` -/
def singleKey (k : Key) : KeySequence := [⟨k, .Down, 0⟩, ⟨k, .UpAsync, 0⟩]

/-- a key which can be replaced -/
def Replaceable (k : Key) : Prop := k ≠ Key.none ∧ k ≠ Key.any ∧ k ≠ Key.timeout ∧ k ≠ Key.ContextActive

/-- an output which only presses keys (they are released with the key which they replace) -/
def OnlyPresses (o : KeySequence) : Prop := ∀ e ∈ o, e.state = .Down ∧ e.key ≠ Key.any ∧ e.key ≠ Key.timeout

/-- all mappings of a context replace a single key by keys -/
structure Context.OnlyReplaces (ctx : Context) : Prop where
  inputs : ∀ m ∈ ctx.inputs, ∃ k, Replaceable k ∧ m.input = singleKey k
  outputs : ∀ o ∈ ctx.outputs, OnlyPresses o
  commands : ∀ o ∈ ctx.commandOutputs, OnlyPresses o.output

/-- the context which context number `i` falls through to -/
def targetOf (cs : List Context) (i : Nat) : Option Nat :=
  (List.range cs.length).find? (fun j => decide (i ≤ j) && (cs[j]?).any (fun c => !c.fallthrough))

/-- the modifiers of a filter are held, the ones with `!` are not -/
def modifiersMatch (ctx : Context) (held : List Key) : Bool :=
  ctx.modifierFilter.all (fun m => held.contains m.key == (m.state != .Not)) != ctx.invertModifierFilter

/-- is there a device which the context is for -/
def someDevice (ctx : Context) : Bool := !ctx.hasDeviceFilter || ctx.matchingDeviceBits != 0

/-- does a context accept the events of a device: the one with this number, a virtual one (-1), any
one (-2) -/
def acceptsDevice (ctx : Context) (dev : Int) : Bool :=
  if dev = anyDeviceIndex then true
  else if dev = noDeviceIndex then ctx.matchingDeviceBits == BitVec.allOnes 64
  else ctx.matchingDeviceBits.getLsbD dev.toNat

/-- the contexts in use: the ones which a context reported by the client falls through to, when its
filters match -/
def contextsInUse (cs : List Context) (client : List Nat) (held : List Key) : List Nat :=
  (List.range cs.length).filter (fun j => client.any (fun i =>
    targetOf cs i == some j && (cs[i]?).any (fun ctx => modifiersMatch ctx held && someDevice ctx)))

/-- the output of a command: the one of the last context in use which has one -/
def commandOutput (cs : List Context) (inUse : List Nat) (idx : Int) : Option KeySequence :=
  inUse.reverse.findSome? (fun j => (cs[j]?).bind (fun ctx =>
    (ctx.commandOutputs.find? (fun o => o.index == idx)).map (·.output)))

/-- the output of a mapping: its own, or the one of the command it refers to -/
def mappingOutput (cs : List Context) (inUse : List Nat) (ctx : Context) (m : Input) : Option KeySequence :=
  if 0 ≤ m.outputIndex then ctx.outputs[m.outputIndex.toNat]? else commandOutput cs inUse m.outputIndex

/-- what a key on a device is replaced with: the output of its first mapping with an output, in the
first context in use which accepts the device and has one -/
def replacementFor (cs : List Context) (inUse : List Nat) (dev : Int) (k : Key) : Option KeySequence :=
  inUse.findSome? (fun j => (cs[j]?).bind (fun ctx =>
    if acceptsDevice ctx dev then
      ctx.inputs.findSome? (fun m => if m.input = singleKey k then mappingOutput cs inUse ctx m else none)
    else none))

/-- What has to be remembered: which contexts the client reported, which keys are held, which keys
are held in the output and by which key, and the devices which pressed and repeated keys. -/
structure Remapper where
  contexts : List Context
  client : List Nat := []
  held : List Key := []
  outs : List (Key × Key) := []
  lastPressed : Int := -1
  lastRepeat : Int := -1

/-- the keys held in the output after pressing keys because `k` was pressed: the ones already held
remain attributed to the key which pressed them -/
def pressAll (outs : List (Key × Key)) (k : Key) (l : KeySequence) : List (Key × Key) :=
  l.foldl (fun outs e => if outs.any (fun o => o.1 == e.key) then outs else outs ++ [(e.key, k)]) outs

/-- a press (the repeats are presses as well) -/
def Remapper.press (r : Remapper) (ev : KeyEvent) (dev : Int) : Remapper × KeySequence :=
  let held := r.held.erase ev.key ++ [ev.key]
  let out := match replacementFor r.contexts (contextsInUse r.contexts r.client held) dev ev.key with
    | some out => out
    | none => if isVirtualKey ev.key then [] else [ev]
  ({ r with held := held, outs := pressAll r.outs ev.key out }, out)

/-- a release -/
def Remapper.release (r : Remapper) (k : Key) : Remapper × KeySequence :=
  ({ r with held := r.held.erase k, outs := r.outs.filter (fun o => o.2 != k) },
    (r.outs.filter (fun o => o.2 == k)).reverse.map (fun o => ⟨o.1, .Up, 0⟩))

/-- a repeat is ignored, unless it comes from the device on which a key was pressed last, or which
repeated last -/
def Remapper.ignores (r : Remapper) (ev : KeyEvent) (dev : Int) : Bool :=
  r.held.contains ev.key && dev != noDeviceIndex && dev != r.lastPressed && dev != r.lastRepeat

/-- remember the devices -/
def Remapper.device (r : Remapper) (ev : KeyEvent) (dev : Int) : Remapper :=
  if ev.state = .Down then
    if dev = noDeviceIndex then r
    else if r.held.contains ev.key then { r with lastRepeat := if dev = r.lastPressed then dev else r.lastRepeat }
    else { r with lastPressed := dev, lastRepeat := if dev = r.lastRepeat then noDeviceIndex else r.lastRepeat }
  else { r with lastRepeat := if dev = r.lastRepeat then noDeviceIndex else r.lastRepeat }

/-- apply an operation -/
def Remapper.step (r : Remapper) : StageOp → Remapper × KeySequence
  | .input ev dev =>
    if ev.state = .Down then if r.ignores ev dev then (r, []) else (r.device ev dev).press ev dev
    else (r.device ev dev).release ev.key
  | .contexts l => ({ r with client := l }, [])
  | .devices rx ds =>
    ({ r with contexts := (Cfg.evaluateDeviceFilters rx { contexts := r.contexts } ds).contexts }, [])
  | .validate _ => (r, [])

/-- apply a history of operations, with everything which is output -/
def Remapper.run (r : Remapper) : List StageOp → Remapper × KeySequence
  | [] => (r, [])
  | op :: ops =>
    let p := r.step op
    let q := p.1.run ops
    (q.1, p.2 ++ q.2)

/-- An operation the specification describes: presses and releases of keys, on one of at most 64
devices; sorted numbers of contexts; not the correction of missed releases. -/
def StageOp.isRemap (n : Nat) : StageOp → Prop
  | .input ev dev => (ev.state = .Down ∨ ev.state = .Up) ∧ Replaceable ev.key ∧ -2 ≤ dev ∧ dev < 64
  | .contexts l => l.Pairwise (· ≤ ·) ∧ ∀ i ∈ l, i < n
  | .devices _ _ => True
  | .validate _ => False

/-! ### exchanging keys -/

/-- the context of a configuration `A >> B, C >> D, ...` -/
def replaceContext (pairs : List (Key × Key)) : Context :=
  { inputs := pairs.zipIdx.map (fun p => ⟨singleKey p.1.1, p.2⟩), outputs := pairs.map (fun p => [⟨p.2, .Down, 0⟩]) }

/-- the key by which a key is replaced -/
def replacedBy (pairs : List (Key × Key)) (k : Key) : Key := (pairs.lookup k).getD k

/-- the keys held after an event -/
def heldKeys (held : List Key) (ev : KeyEvent) : List Key :=
  if ev.state = .Down then held ++ [ev.key] else held.erase ev.key

/-- keys are pressed when they are not held, and released when they are (`held` are the keys held before) -/
def pressedAndReleased (held : List Key) : KeySequence → Prop
  | [] => True
  | ev :: evs => ((ev.state = .Down ∧ ev.key ∉ held) ∨ (ev.state = .Up ∧ ev.key ∈ held)) ∧ pressedAndReleased (heldKeys held ev) evs

end KM
