import Verif.Spec.Remap
import Verif.Spec.OnRelease
/-!
# Specification: combinations of keys

What a configuration does whose mappings replace a key while other keys are held (and others are not): `Control{A} >> X`,
`!Shift Control{Alt{A}} >> Shift{X}`. The output may release keys which are held, for as long as no other key is pressed (`!Control X`,
`!Any X`), may switch virtual keys off (`!Virtual1`), and may have a part which is only output when the key is released (`X ^ Y`).
Contexts may have filters and fall through, commands may be overridden.
-/
namespace KM

/-- the keys to press, in this order -/
def keysToPress (input : KeySequence) : List Key := (input.filter (fun e => e.state == .Down)).map (·.key)

/-- the keys which must not be held -/
def keysExcluded (input : KeySequence) : List Key := (input.filter (fun e => e.state == .Not)).map (·.key)

/-- an input like `A`, `Control{A}` or `!Shift Control{Alt{A}}` -/
def IsCombination (input : KeySequence) : Prop :=
  ∃ nots downs ups : List Key, input = nots.map (fun k => (⟨k, .Not, 0⟩ : KeyEvent)) ++ downs.map (fun k => (⟨k, .Down, 0⟩ : KeyEvent)) ++
      ups.map (fun k => (⟨k, .UpAsync, 0⟩ : KeyEvent)) ∧
    downs ≠ [] ∧ downs.Nodup ∧ (∀ k ∈ ups, k ∈ downs) ∧ (∀ k ∈ downs, Replaceable k ∧ k ∉ nots) ∧ ∀ k ∈ nots, Replaceable k

/-- `k` is pressed last, while the other keys of the combination are held (they were pressed in this order), and none of the excluded ones is -/
def triggers (input : KeySequence) (held : List Key) (k : Key) : Bool :=
  (keysToPress input).getLast? == some k && (keysToPress input).dropLast.isSublist held && (keysExcluded input).all (fun n => !held.contains n)

/-- pressing `k` continues the combination, but there are still keys to press -/
def continues (input : KeySequence) (held : List Key) (k : Key) : Bool :=
  (keysToPress input).dropLast.contains k && ((keysToPress input).takeWhile (· != k)).isSublist held && (keysExcluded input).all (fun n => !held.contains n)

/-- An output which presses, releases and lifts keys (all of them: `!Any`), presses virtual keys or switches them off (`!Virtual1`), and executes
commands, at once or (after `^`) when the key is released. -/
structure IsKeyOutput (out : KeySequence) : Prop where
  states : ∀ e ∈ out, e.state = .Down ∨ e.state = .Up ∨ e.state = .Not ∨ e.state = .OutputOnRelease
  plain : ∀ e ∈ out, e.value = 0 ∧ e.key ≠ Key.timeout ∧ (e.key = Key.any → e.state = .Not)

/-- What an output means while keys are held: `!V` presses the virtual key `V` when it is on, and does nothing when it is off. -/
def settled (held : List Key) (out : KeySequence) : KeySequence :=
  out.flatMap (fun e => if e.state = .Not ∧ isVirtualKey e.key = true then if e.key ∈ held then [⟨e.key, .Down, 0⟩] else [] else [e])

/-- all mappings of a context are for combinations of keys -/
structure Context.OnlyCombines (ctx : Context) : Prop where
  inputs : ∀ m ∈ ctx.inputs, IsCombination m.input
  outputs : ∀ o ∈ ctx.outputs, IsKeyOutput o
  commands : ∀ o ∈ ctx.commandOutputs, IsKeyOutput o.output

/-! ### which mapping is applied -/

/-- the mappings for a device, in the order of their priority -/
def mappingsFor (cs : List Context) (inUse : List Nat) (dev : Int) : List (Context × Input) :=
  inUse.flatMap (fun j => match cs[j]? with
    | some ctx => if acceptsDevice ctx dev then ctx.inputs.map (fun m => (ctx, m)) else []
    | none => [])

/-- what pressing a key means -/
inductive Meaning where
  | output (out : KeySequence)
  | waits
deriving DecidableEq, Repr

/-- what a mapping means for a key which is pressed while others are held -/
def meaningOf (cs : List Context) (inUse : List Nat) (held : List Key) (k : Key) (m : Context × Input) : Option Meaning :=
  if triggers m.2.input held k then (mappingOutput cs inUse m.1 m.2).map .output
  else if continues m.2.input held k then some .waits else none

/-- what pressing a key on a device means, while others are held: the first mapping decides -/
def meaning (cs : List Context) (inUse : List Nat) (dev : Int) (held : List Key) (k : Key) : Option Meaning :=
  (mappingsFor cs inUse dev).findSome? (meaningOf cs inUse held k)

/-- the context of the mapping which decides -/
def decidedIn (cs : List Context) (inUse : List Nat) (dev : Int) (held : List Key) (k : Key) : Option Nat :=
  inUse.find? (fun j => ((mappingsFor cs [j] dev).findSome? (meaningOf cs inUse held k)).isSome)

/-! ### what is output -/

/-- A key which is held in the output because of the key `cause`. It may be lifted for a while. `twice` tells that it was already held when
it was pressed. -/
structure Hold where
  key : Key
  cause : Key
  lifted : Bool := false
  twice : Bool := false
deriving DecidableEq, Repr

/-- What is held, the keys which are not pressed again because they were lifted, whether some were pressed again, and what is output. -/
structure Sink where
  holds : List Hold
  banned : List Key := []
  restored : Bool := false
  sent : KeySequence := []
deriving DecidableEq, Repr

/-- Before `k` is pressed, the keys which were lifted are pressed again (unless they are banned). When `k` is one of them, then it is pressed
thereby: the following ones remain lifted. -/
def restore (banned : List Key) (k : Key) : List Hold → List Hold × KeySequence × Bool
  | [] => ([], [], false)
  | h :: hs =>
    if h.lifted && !banned.contains h.key then
      if h.key = k then ({ h with lifted := false } :: hs, [⟨k, .Down, 0⟩], true)
      else
        let r := restore banned k hs
        ({ h with lifted := false } :: r.1, ⟨h.key, .Down, 0⟩ :: r.2.1, r.2.2)
    else
      let r := restore banned k hs
      (h :: r.1, r.2)

/-- change the one which holds a key -/
def changeHold (k : Key) (f : Hold → Hold) (hs : List Hold) : List Hold := hs.map (fun h => if h.key = k then f h else h)

/-- remove the last event of a key -/
def withoutLast (k : Key) (l : KeySequence) : KeySequence := (l.reverse.eraseP (fun e => e.key == k)).reverse

/-- the modifiers which are there on all keyboards -/
def usualModifiers : List Key := [Key.ShiftLeft, Key.ShiftRight, Key.ControlLeft, Key.ControlRight, Key.AltLeft, Key.AltRight, Key.MetaLeft, Key.MetaRight]

/-- Is the modifier `k` pressed which was lifted right before? (And no key before it in the list is to be pressed again.) -/
def Sink.undoes (s : Sink) (k : Key) : Bool :=
  usualModifiers.contains k && s.banned.contains k && s.sent.getLast? == some ⟨k, .Up, 0⟩ &&
    (s.holds.find? (fun h => h.key == k || (h.lifted && !s.banned.contains h.key))).any (fun h => h.key == k && h.lifted)

/-- Press a key because of `cause`: when it is already held, it is pressed once more (it is released before, when others had to be pressed
again). A modifier which was lifted right before is not even released. -/
def Sink.press (cause : Key) (s : Sink) (k : Key) : Sink :=
  let r := restore s.banned k s.holds
  let restored := s.restored || !r.2.1.isEmpty
  if s.undoes k then { s with holds := changeHold k (fun h => { h with lifted := false }) s.holds, sent := s.sent.dropLast }
  else if r.2.2 then { s with holds := r.1, restored := restored, sent := s.sent ++ r.2.1 }
  else if r.1.any (fun h => h.key == k) then
    { s with
      holds := changeHold k (fun h => { h with lifted := false, twice := !restored }) r.1
      restored := restored
      sent := s.sent ++ r.2.1 ++ (if restored then [⟨k, .Up, 0⟩, ⟨k, .Down, 0⟩] else [⟨k, .Down, 0⟩]) }
  else
    { s with holds := r.1 ++ [{ key := k, cause := cause }], restored := restored, sent := s.sent ++ r.2.1 ++ [⟨k, .Down, 0⟩] }

/-- release a key: what another key caused is only lifted; when it was pressed twice (and not lifted by this output), then the second
press is undone; not for virtual keys, which each press toggles -/
def Sink.release (cause : Key) (s : Sink) (k : Key) : Sink :=
  match s.holds.find? (fun h => h.key == k) with
  | none => s
  | some h =>
    if h.twice && isVirtualKey k then { s with holds := changeHold k (fun h => { h with twice := false }) s.holds, sent := s.sent ++ [⟨k, .Up, 0⟩] }
    else if h.twice && !s.banned.contains k then { s with holds := changeHold k (fun h => { h with twice := false }) s.holds, sent := withoutLast k s.sent }
    else if h.cause = cause then
      { s with holds := s.holds.filter (fun h => h.key != k), banned := s.banned.filter (fun b => b != k), sent := s.sent ++ [⟨k, .Up, 0⟩] }
    else { s with holds := changeHold k (fun h => { h with lifted := true }) s.holds, sent := s.sent ++ [⟨k, .Up, 0⟩] }

/-- lift a key which is held: it is released, and not pressed again before another key is pressed by this output -/
def Sink.lift (s : Sink) (k : Key) : Sink :=
  if s.holds.any (fun h => h.key == k) && !isVirtualKey k && !isActionKey k then
    { s with
      holds := changeHold k (fun h => { h with lifted := true }) s.holds
      banned := s.banned ++ [k]
      sent := s.sent ++ (if s.holds.any (fun h => h.key == k && !h.lifted) then [⟨k, .Up, 0⟩] else []) }
  else s

/-- lift all keys, in the order in which they were pressed -/
def Sink.liftAll (s : Sink) : Sink := (s.holds.map (·.key)).foldl Sink.lift s

/-- output an event because of `cause` -/
def Sink.put (cause : Key) (s : Sink) (e : KeyEvent) : Sink :=
  match e.state with
  | .Down => s.press cause e.key
  | .Up => s.release cause e.key
  | _ => if e.key = Key.any then s.liftAll else s.lift e.key

/-! ### the whole -/

/-- what is to be output when a key is released, and the context of the mapping -/
structure Pending where
  key : Key
  out : KeySequence
  ctx : Nat
deriving DecidableEq, Repr

/-- What has to be remembered: which contexts the client reported, which keys are held, which keys are held in the output, which of them the
last output lifted, what is to be output when keys are released, and the devices which pressed and repeated keys. -/
structure Combiner where
  contexts : List Context
  client : List Nat := []
  held : List Key := []
  holds : List Hold := []
  banned : List Key := []
  pending : List Pending := []
  lastPressed : Int := -1
  lastRepeat : Int := -1

/-- what pressing a key means -/
def Combiner.meaning (r : Combiner) (dev : Int) (k : Key) : Option Meaning :=
  KM.meaning r.contexts (contextsInUse r.contexts r.client (r.held.erase k ++ [k])) dev (r.held.erase k) k

/-- what is output when a key is pressed: the output of the mapping up to `^`, or the key itself -/
def Combiner.outputFor (r : Combiner) (ev : KeyEvent) (dev : Int) : KeySequence :=
  match r.meaning dev ev.key with
  | some (.output out) => settled (r.held.erase ev.key ++ [ev.key]) (onPress out)
  | _ => if isVirtualKey ev.key then [] else [⟨ev.key, .Down, 0⟩]

/-- what is left to be output when the key is released -/
def Combiner.pendingFor (r : Combiner) (ev : KeyEvent) (dev : Int) : List Pending :=
  match r.meaning dev ev.key with
  | some (.output out) =>
    match onReleasePart out, decidedIn r.contexts (contextsInUse r.contexts r.client (r.held.erase ev.key ++ [ev.key])) dev (r.held.erase ev.key) ev.key with
    | some rest, some j => [⟨ev.key, rest, j⟩]
    | _, _ => []
  | _ => []

/-- a press (the repeats are presses as well) -/
def Combiner.press (r : Combiner) (ev : KeyEvent) (dev : Int) : Combiner × KeySequence :=
  let sink := (r.outputFor ev dev).foldl (Sink.put ev.key) { holds := r.holds }
  ({ r with held := r.held.erase ev.key ++ [ev.key], holds := sink.holds, banned := sink.banned, pending := r.pending ++ r.pendingFor ev dev }, sink.sent)

/-- the part of the output after `^`, when a key is released -/
def Combiner.releaseOutput (r : Combiner) (k : Key) : KeySequence :=
  match r.pending.find? (fun p => p.key == k) with
  | some p => settled r.held (p.out.filter (fun e => e.state != .OutputOnRelease))
  | none => []

/-- a release: the rest of the output is output (keys which the last output lifted are not pressed again), and what the key caused is released -/
def Combiner.release (r : Combiner) (k : Key) : Combiner × KeySequence :=
  let sink := (r.releaseOutput k).foldl (Sink.put k) { holds := r.holds, banned := r.banned }
  ({ r with
      held := r.held.erase k
      holds := sink.holds.filter (fun h => h.cause != k)
      banned := []
      pending := r.pending.filter (fun p => p.key != k) },
    sink.sent ++ ((sink.holds.filter (fun h => h.cause == k && !h.lifted)).reverse.map (fun h => ⟨h.key, .Up, 0⟩)))

/-- A repeat is ignored when something is to be output when the key is released. Also when it does not come from the device on which a key was
pressed last, or which repeated last. -/
def Combiner.ignores (r : Combiner) (ev : KeyEvent) (dev : Int) : Bool :=
  r.pending.any (fun p => p.key == ev.key) || (r.held.contains ev.key && dev != noDeviceIndex && dev != r.lastPressed && dev != r.lastRepeat)

/-- remember the devices -/
def Combiner.device (r : Combiner) (ev : KeyEvent) (dev : Int) : Combiner :=
  if ev.state = .Down then
    if dev = noDeviceIndex then r
    else if r.held.contains ev.key then { r with lastRepeat := if dev = r.lastPressed then dev else r.lastRepeat }
    else { r with lastPressed := dev, lastRepeat := if dev = r.lastRepeat then noDeviceIndex else r.lastRepeat }
  else { r with lastRepeat := if dev = r.lastRepeat then noDeviceIndex else r.lastRepeat }

/-- apply an operation; when contexts become inactive, then what is to be output for their mappings is forgotten -/
def Combiner.step (r : Combiner) : StageOp → Combiner × KeySequence
  | .input ev dev =>
    if ev.state = .Down then if r.ignores ev dev then (r, []) else (r.device ev dev).press ev dev
    else (r.device ev dev).release ev.key
  | .contexts l => ({ r with client := l, pending := r.pending.filter (fun p => (contextsInUse r.contexts l r.held).contains p.ctx) }, [])
  | .devices rx ds =>
    ({ r with contexts := (Cfg.evaluateDeviceFilters rx { contexts := r.contexts } ds).contexts }, [])
  | .validate _ => (r, [])

/-- The operations described: as for replacing keys; and pressing a key does not have to wait for another one to be pressed (virtual keys
never do). -/
def Combiner.accepts (r : Combiner) (op : StageOp) : Prop :=
  op.isRemap r.contexts.length ∧
  match op with
  | .input ev dev => ev.value = 0 ∧ (ev.state = .Down → isVirtualKey ev.key = false → r.ignores ev dev = false → r.meaning dev ev.key ≠ some .waits)
  | _ => True

/-- a history of such operations -/
def Combiner.acceptsAll : Combiner → List StageOp → Prop
  | _, [] => True
  | r, op :: ops => r.accepts op ∧ (r.step op).1.acceptsAll ops

/-- what is output for each of the operations -/
def Combiner.outputs : Combiner → List StageOp → List KeySequence
  | _, [] => []
  | r, op :: ops => (r.step op).2 :: (r.step op).1.outputs ops

/-- The first context has no filters and begins with mappings for single keys (as `@forward-modifiers` adds them), which include the keys which
have to be held for any of the mappings (virtual keys need none). -/
def ForwardsFirst (cs : List Context) : Prop :=
  ∃ ctx rest forwards others, cs = ctx :: rest ∧ ctx.fallthrough = false ∧ ctx.modifierFilter = [] ∧ ctx.invertModifierFilter = false ∧
    ctx.hasDeviceFilter = false ∧ ctx.matchingDeviceBits = BitVec.allOnes 64 ∧ ctx.inputs = forwards ++ others ∧
    (∀ m ∈ forwards, (∃ k, m.input = singleKey k) ∧ 0 ≤ m.outputIndex ∧ m.outputIndex.toNat < ctx.outputs.length) ∧
    ∀ c ∈ cs, ∀ m ∈ c.inputs, ∀ k ∈ (keysToPress m.input).dropLast, isVirtualKey k = false → ∃ f ∈ forwards, f.input = singleKey k

/-- the operations while the first context is active -/
def StageOp.isCombining (n : Nat) (op : StageOp) : Prop :=
  op.isRemap n ∧
  match op with
  | .input ev _ => ev.value = 0
  | .contexts l => 0 ∈ l
  | _ => True

/-- keys which are pressed and released, one after the other -/
def typing (ks : List Key) : KeySequence := ks.flatMap (fun k => [⟨k, .Down, 0⟩, ⟨k, .Up, 0⟩])

/-- the state after some operations -/
def Combiner.after (r : Combiner) (ops : List StageOp) : Combiner := ops.foldl (fun r op => (r.step op).1) r

end KM
