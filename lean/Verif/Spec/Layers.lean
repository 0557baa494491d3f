import Verif.Spec.Forward
import Verif.Spec.Combinations
/-!
# Specification: virtual keys

What the server adds to a configuration of one stage when virtual keys and terminal commands are output: virtual keys are switched on and
off, which the stage gets to see like a key which is pressed or released, on any device.
-/
namespace KM

/-- The mappings, in whatever state they are, and the virtual keys which are on -/
structure Layers (σ : Type) where
  keys : σ
  on : List Key := []

/-- what happens: something concerning the keys, or a client sets a virtual key -/
inductive LayerOp where
  | keys (op : StageOp)
  | set (v : Key) (st : KeyState)

/-- the new state of a virtual key which is toggled -/
def Layers.toggled (l : Layers σ) (v : Key) : KeyState := if v ∈ l.on then .Up else .Down

/-- A virtual key is toggled: the mappings see that it is pressed or released -/
def Layers.toggle (step : σ → StageOp → σ × KeySequence) (l : Layers σ) (v : Key) : Layers σ × KeySequence :=
  let p := step l.keys (.input ⟨v, l.toggled v, 0⟩ anyDeviceIndex)
  ({ keys := p.1, on := if v ∈ l.on then l.on.erase v else l.on ++ [v] }, p.2)

/-- what happens to an output which is no virtual key: terminal commands are executed when they are pressed, keys are sent -/
def delivered (e : KeyEvent) : List Eff :=
  if isActionKey e.key then if e.state = .Down then [.action (e.key - Key.first_action)] else []
  else [.sendKey e]

/-- Process an output: virtual keys which are pressed are toggled (and told to the client), everything else is delivered. What the mappings of the virtual keys output
is collected, it comes last. -/
def Layers.output (step : σ → StageOp → σ × KeySequence) (l : Layers σ) : KeySequence → Layers σ × List Eff × KeySequence
  | [] => (l, [], [])
  | e :: es =>
    if isVirtualKey e.key then
      if e.state = .Down then
        let t := l.toggle step e.key
        let r := t.1.output step es
        (r.1, .virtualKeyState e.key (l.toggled e.key) :: r.2.1, t.2 ++ r.2.2)
      else l.output step es
    else
      let r := l.output step es
      (r.1, delivered e ++ r.2.1, r.2.2)

/-- the output of the mappings is processed -/
def Layers.process (step : σ → StageOp → σ × KeySequence) (l : Layers σ) (out : KeySequence) : Layers σ × List Eff :=
  let r := l.output step out
  (r.1, r.2.1 ++ r.2.2.flatMap delivered)

/-- does a client change a virtual key by setting it (`Not` toggles) -/
def Layers.changes (l : Layers σ) (v : Key) (st : KeyState) : Prop := st ≠ (if v ∈ l.on then .Down else .Up)

instance (l : Layers σ) (v : Key) (st : KeyState) : Decidable (l.changes v st) := by unfold Layers.changes; infer_instance

/-- the state of the mappings, and their output, before it is processed; and what the client is told -/
def Layers.begin (step : σ → StageOp → σ × KeySequence) (l : Layers σ) : LayerOp → Layers σ × KeySequence × List Eff
  | .keys op => ({ l with keys := (step l.keys op).1 }, (step l.keys op).2, [])
  | .set v st =>
    if l.changes v st then ((l.toggle step v).1, (l.toggle step v).2, [.virtualKeyState v (l.toggled v)])
    else (l, [], [])

/-- an operation, with its effects -/
def Layers.step (step : σ → StageOp → σ × KeySequence) (l : Layers σ) (op : LayerOp) : Layers σ × List Eff :=
  let b := l.begin step op
  let r := b.1.process step b.2.1
  (r.1, b.2.2 ++ r.2)

/-- a history of operations, with all effects -/
def Layers.run (step : σ → StageOp → σ × KeySequence) (l : Layers σ) : List LayerOp → Layers σ × List Eff
  | [] => (l, [])
  | op :: ops =>
    let p := l.step step op
    let q := p.1.run step ops
    (q.1, p.2 ++ q.2)

/-- an output which is delivered without delay, or toggles a virtual key -/
def Immediate (e : KeyEvent) : Prop := e.key ≠ Key.timeout ∧ (isMouseWheel e.key = true → e.state ≠ .Down)

/-- does an output toggle a virtual key -/
def toggles (e : KeyEvent) : Bool := isVirtualKey e.key && e.state == .Down

/-- may an output toggle a virtual key (`!V` does when `V` is on) -/
def mayToggle (e : KeyEvent) : Bool := isVirtualKey e.key && (e.state == .Down || e.state == .Not)

/-- The outputs which the specification describes: there are no delays, at most nine virtual keys are toggled at once (the server ignores further ones), and the
mappings of virtual keys do not output virtual keys. -/
def Layers.Describes (step : σ → StageOp → σ × KeySequence) (l : Layers σ) (out : KeySequence) : Prop :=
  (∀ e ∈ out, Immediate e) ∧ out.countP toggles ≤ 9 ∧ ∀ e ∈ (l.output step out).2.2, Immediate e ∧ isVirtualKey e.key = false

/-- the specification describes everything which is output during a history -/
def Layers.DescribesAll (step : σ → StageOp → σ × KeySequence) (l : Layers σ) : List LayerOp → Prop
  | [] => True
  | op :: ops => (l.begin step op).1.Describes step (l.begin step op).2.1 ∧ (l.step step op).1.DescribesAll step ops

instance (e : KeyEvent) : Decidable (Immediate e) := by unfold Immediate; infer_instance

instance (step : σ → StageOp → σ × KeySequence) (l : Layers σ) (out : KeySequence) : Decidable (l.Describes step out) := by
  unfold Layers.Describes; infer_instance

instance decidableDescribesAll (step : σ → StageOp → σ × KeySequence) : (l : Layers σ) → (ops : List LayerOp) → Decidable (l.DescribesAll step ops)
  | _, [] => isTrue trivial
  | l, op :: ops =>
    have := decidableDescribesAll step (l.step step op).1 ops
    inferInstanceAs (Decidable (_ ∧ _))

/-- an iteration of the server in which keys, changes of the active contexts and of virtual keys are read, and everything can be sent -/
structure Iteration.Layered (noFilters : Bool) (it : Iteration) : Prop where
  read : ∀ ev dev, it.read = .key ev dev → KM.Ordinary ev.key
  sent : it.sendResults = []
  devices : it.devices = none ∨ noFilters = true
  messages : ∀ m ∈ it.messages, (∃ l, m = .activeContexts l) ∨ ∃ v st, m = .setVirtualKeyState v st ∧ isVirtualKey v = true
  regrab : it.regrab = false

/-- what a message means for a stage with `n` contexts -/
def Msg.layerOps (n : Nat) : Msg → List LayerOp
  | .setVirtualKeyState v st => [.set v st]
  | m => (m.stageOps n).map .keys

/-- what an iteration means; messages are read when nothing was forwarded -/
def Iteration.layerOps (n : Nat) (it : Iteration) : List LayerOp :=
  if it.read = .other then [] else it.read.stageOps.map .keys ++ it.messages.flatMap (Msg.layerOps n)

/-- the operations on the keys -/
def keyOps (ops : List LayerOp) : List StageOp := ops.filterMap (fun op => match op with | .keys o => some o | .set _ _ => none)

/-! ### mappings which replace keys, possibly while others are held -/

/-- Outputs press at most nine virtual keys or switch them off, they do not release them, and do not scroll. The mappings which pressing a virtual key triggers have outputs of their own, without virtual keys. -/
structure Context.Layered (ctx : Context) : Prop where
  outputs : ∀ o ∈ ctx.outputs, (∀ e ∈ o, isMouseWheel e.key = false ∧ (e.state = .Up → isVirtualKey e.key = false)) ∧ o.countP mayToggle ≤ 9
  commands : ∀ o ∈ ctx.commandOutputs, (∀ e ∈ o.output, isMouseWheel e.key = false ∧ (e.state = .Up → isVirtualKey e.key = false)) ∧
    o.output.countP mayToggle ≤ 9
  virtual : ∀ m ∈ ctx.inputs, ∀ v, isVirtualKey v = true → (keysToPress m.input).getLast? = some v →
    0 ≤ m.outputIndex ∧ ∀ o, ctx.outputs[m.outputIndex.toNat]? = some o → ∀ e ∈ o, isVirtualKey e.key = false

/-- is it one of the virtual keys which outputs only tap -/
def isTapped (tapped : List Key) (k : Key) : Bool := isVirtualKey k && tapped.contains k

/-- The virtual keys `tapped` are always released right after they are pressed; other virtual keys are not released. -/
def tapsOnly (tapped : List Key) : KeySequence → Bool
  | [] => true
  | [e] => !isTapped tapped e.key && !(e.state == .Up && isVirtualKey e.key)
  | e :: e' :: es =>
    if isTapped tapped e.key then e == ⟨e.key, .Down, 0⟩ && e' == ⟨e.key, .Up, 0⟩ && tapsOnly tapped es
    else !(e.state == .Up && isVirtualKey e.key) && tapsOnly tapped (e' :: es)

/-- The same as `Layered`, but outputs can also release virtual keys, right after they pressed them: each virtual key is either always released in the outputs, or never. -/
structure Context.Switches (tapped : List Key) (ctx : Context) : Prop where
  outputs : ∀ o ∈ ctx.outputs, (∀ e ∈ o, isMouseWheel e.key = false) ∧ tapsOnly tapped o = true ∧ o.countP mayToggle ≤ 9
  commands : ∀ o ∈ ctx.commandOutputs, (∀ e ∈ o.output, isMouseWheel e.key = false) ∧ tapsOnly tapped o.output = true ∧ o.output.countP mayToggle ≤ 9
  virtual : ∀ m ∈ ctx.inputs, ∀ v, isVirtualKey v = true → (keysToPress m.input).getLast? = some v →
    0 ≤ m.outputIndex ∧ ∀ o, ctx.outputs[m.outputIndex.toNat]? = some o → ∀ e ∈ o, isVirtualKey e.key = false

/-- a press or release of a key, on one of at most 64 devices; sorted numbers of contexts; a virtual key which is set -/
def LayerOp.isLayer (n : Nat) : LayerOp → Prop
  | .keys (.input ev dev) => (ev.state = .Down ∨ ev.state = .Up) ∧ Ordinary ev.key ∧ -2 ≤ dev ∧ dev < 64
  | .keys (.contexts l) => l.Pairwise (· ≤ ·) ∧ ∀ i ∈ l, i < n
  | .keys _ => False
  | .set v _ => isVirtualKey v = true

/-! ### two layers -/

/-- `[modifier="V"] A >> X ... [default] T >> V, A >> Y ...`: a layer of mappings, which `T` switches on and off -/
def layerContexts (v t : Key) (layer base : List (Key × Key)) : List Context :=
  [{ replaceContext layer with modifierFilter := [⟨v, .Down, 0⟩] }, replaceContext ((t, v) :: base)]

/-- the key which another one is replaced with, depending on if the layer is on -/
def layerKey (layer base : List (Key × Key)) (on : Bool) (k : Key) : Key :=
  if on then (layer.lookup k).getD (replacedBy base k) else replacedBy base k

/-- the effects of pressing and releasing keys, one after the other -/
def layerTaps (v t : Key) (layer base : List (Key × Key)) : Bool → List Key → List Eff
  | _, [] => []
  | on, k :: ks =>
    if k = t then .virtualKeyState v (if on then .Up else .Down) :: layerTaps v t layer base (!on) ks
    else .sendKey ⟨layerKey layer base on k, .Down, 0⟩ :: .sendKey ⟨layerKey layer base on k, .Up, 0⟩ :: layerTaps v t layer base on ks

/-- a key is pressed and released -/
def tapKey (p : Key × Int) : List (KeyEvent × Int) := [(⟨p.1, .Down, 0⟩, p.2), (⟨p.1, .Up, 0⟩, p.2)]

/-! ### the state of a virtual key -/

/-- what a client believes about a virtual key after it was told something -/
def toldBy (v : Key) (on : Bool) : Eff → Bool
  | .virtualKeyState w st => if w = v then st == .Down else on
  | _ => on

/-- What a client was told last: is the virtual key on? At first all are off. -/
def lastTold (v : Key) (effs : List Eff) : Bool := effs.foldl (toldBy v) false

/-- The state of a virtual key after an output: each press toggles it, `!V` does so when it was on before the output. -/
def switchedBy (v : Key) (on : Bool) (out : KeySequence) : Bool :=
  out.foldl (fun b e => if e.key = v ∧ (e.state = .Down ∨ (e.state = .Not ∧ on = true)) then !b else b) on

/-! ### virtual keys as modifiers of mappings -/

/-- the same, when mappings can be for combinations of keys, and the first context stays active -/
def LayerOp.isShortcut (n : Nat) : LayerOp → Prop
  | .keys op => (LayerOp.keys op).isLayer n ∧ op.isCombining n
  | .set v _ => isVirtualKey v = true

/-- the input `V{A}` -/
def whileHeld (v a : Key) : KeySequence := [⟨v, .Down, 0⟩, ⟨a, .Down, 0⟩, ⟨a, .UpAsync, 0⟩, ⟨v, .UpAsync, 0⟩]

/-- the input `!V A` -/
def whileNotHeld (v a : Key) : KeySequence := [⟨v, .Not, 0⟩, ⟨a, .Down, 0⟩, ⟨a, .UpAsync, 0⟩]

/-- `T >> V`, `V >> G`, `V{A} >> X ...`, `!V A >> Y ...` -/
def virtualContext (v t g : Key) (on off : List (Key × Key)) : Context where
  inputs := ⟨singleKey t, 0⟩ :: ⟨singleKey v, 1⟩ :: ((on.zipIdx 2).map (fun p => ⟨whileHeld v p.1.1, p.2⟩) ++
    (off.zipIdx (2 + on.length)).map (fun p => ⟨whileNotHeld v p.1.1, p.2⟩))
  outputs := [⟨v, .Down, 0⟩] :: [⟨g, .Down, 0⟩] :: (on ++ off).map (fun p => [⟨p.2, .Down, 0⟩])

/-- The effects of pressing and releasing keys, one after the other: `G` is held as long as `V` is on. -/
def virtualTaps (v t g : Key) (on off : List (Key × Key)) : Bool → List Key → List Eff
  | _, [] => []
  | isOn, k :: ks =>
    if k = t then
      .virtualKeyState v (if isOn then .Up else .Down) :: .sendKey ⟨g, if isOn then .Up else .Down, 0⟩ :: virtualTaps v t g on off (!isOn) ks
    else
      .sendKey ⟨replacedBy (if isOn then on else off) k, .Down, 0⟩ :: .sendKey ⟨replacedBy (if isOn then on else off) k, .Up, 0⟩ ::
        virtualTaps v t g on off isOn ks

/-- the key is not released, and the client does not activate other contexts -/
def LayerOp.keeps (k : Key) : LayerOp → Prop
  | .keys (.input ev _) => ev.key = k → ev.state = .Down
  | .keys _ => False
  | .set _ _ => True

end KM
