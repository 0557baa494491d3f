import Verif.Model.Serial
/-!
# Specification of the messages between client and server

What can be represented in a message, and what the receiver of a message is expected to be told.
-/
namespace KM

/-- The number of elements fits 32 bits, and the elements can be represented -/
def Fits (p : α → Prop) (l : List α) : Prop := l.length < 2 ^ 32 ∧ ∀ a ∈ l, p a

/-- A key has 16 bits, the value of an event 12 -/
def FitsEvent (e : KeyEvent) : Prop := e.key < 2 ^ 16 ∧ e.value < 2 ^ 12

/-- An `int` of 32 bits -/
def FitsInt (i : Int) : Prop := -2 ^ 31 ≤ i ∧ i < 2 ^ 31

/-- A string of bytes -/
def FitsStr (s : Str) : Prop := Fits (fun c => c.toNat < 256) s

/-- A filter, which contains a regular expression exactly when its string looks like one (the
parser of the configuration ensures this, `ParseConfig.cpp:518-527`) -/
def FitsFilter (f : Filter) : Prop := FitsStr f.string ∧ f.isRegex = isRegexStr f.string

/-- The parts of a context which the server needs -/
structure FitsContext (c : CContext) : Prop where
  inputs : Fits (fun i => Fits FitsEvent i.input ∧ FitsInt i.outputIndex) c.inputs
  outputs : Fits (Fits FitsEvent) c.outputs
  commands : Fits (fun o => Fits FitsEvent o.output ∧ FitsInt o.index) c.commandOutputs
  device : FitsFilter c.deviceFilter
  deviceId : FitsFilter c.deviceIdFilter
  modifier : Fits FitsEvent c.modifierFilter

/-- The parts of a configuration which the server needs -/
structure FitsConfig (c : Config) : Prop where
  filters : Fits (fun f => FitsFilter f.toFilter) c.grabDeviceFilters
  contexts : Fits FitsContext c.contexts
  directives : Fits FitsStr c.serverDirectives

/-- The context of a stage which a context of the configuration is meant to become: the window
filters are only of interest to the client -/
def contextOf (c : CContext) : Context :=
  { inputs := c.inputs, outputs := c.outputs, commandOutputs := c.commandOutputs,
    deviceFilter := c.deviceFilter, deviceIdFilter := c.deviceIdFilter,
    modifierFilter := c.modifierFilter, invertModifierFilter := c.invertModifierFilter,
    fallthrough := c.fallthrough }

/-- The contexts of a stage, the first one marked -/
def markFirst : List Context → List (Bool × Context)
  | [] => []
  | c :: cs => (true, c) :: cs.map (fun c => (false, c))

/-- The contexts of the configuration, marked when they begin a stage; the first one always
does -/
def markBegin : List CContext → List (Bool × Context)
  | [] => []
  | c :: cs => (true, contextOf c) :: cs.map (fun c => (c.beginStage, contextOf c))

/-- The stages consist of exactly the contexts, in order, and a stage begins exactly at the first
context and at the ones which are marked to begin a stage -/
def StagesOf (contexts : List CContext) (stages : List (List Context)) : Prop :=
  (∀ st ∈ stages, st ≠ []) ∧ stages.flatMap markFirst = markBegin contexts

/-- A message of the client can be represented -/
def ToServer.FitsMsg : ToServer → Prop
  | .config c => FitsConfig c
  | .activeContexts l => Fits FitsInt l
  | .validateState => True
  | .setVirtualKeyState k _ => k < 2 ^ 16
  | .requestNextKeyInfo => True
  | .injectInput l => Fits FitsEvent l
  | .injectOutput l => Fits FitsEvent l

/-- What the server is to be told by a message of the client -/
def ToServer.Means : ToServer → FromClient → Prop
  | .config c, r => ∃ stages, StagesOf c.contexts stages ∧
      r = .configuration c.grabDeviceFilters stages c.serverDirectives
  | .activeContexts l, r => r = .activeContexts l
  | .validateState, r => r = .validateState
  | .setVirtualKeyState k st, r => r = .setVirtualKeyState k st
  | .requestNextKeyInfo, r => r = .requestNextKeyInfo
  | .injectInput l, r => r = .injectInput l
  | .injectOutput l, r => r = .injectOutput l

/-- A message of the server can be represented -/
def ToClient.FitsMsg : ToClient → Prop
  | .executeAction i => FitsInt i
  | .virtualKeyState k _ => k < 2 ^ 16
  | .nextKeyInfo k desc => k < 2 ^ 16 ∧ FitsStr desc.name ∧ FitsStr desc.id

/-- The reader `r` reads exactly the bytes `bs` as `a`, wherever they are in the buffer, and
without accessing anything outside of the buffer -/
def Reads (r : Rd α) (bs : Bytes) (a : α) : Prop :=
  ∀ before after, r { buf := before ++ (bs ++ after), pos := before.length } =
    (a, { buf := before ++ (bs ++ after), pos := before.length + bs.length })

/-- Bytes which are not yet a complete message: the size is not complete, or there are fewer bytes
than it says -/
def Incomplete (bs : Bytes) : Prop := bs.length < 4 ∨ bs.length < 4 + ofLe (bs.take 4)

end KM
