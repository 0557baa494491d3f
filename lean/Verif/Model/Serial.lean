import Verif.Model.ParseConfig
import Verif.Model.ServerLoop
/-!
# The messages between client and server

Models `src/common/Connection.{h,cpp}`, `src/common/MessageType.h`, `src/client/ServerPort.cpp`,
`src/server/ClientPort.cpp` and the byte layout of `src/runtime/KeyEvent.h`.

A socket is a stream of bytes: what the sender wrote arrives unchanged and in order, in chunks of
any size. Values are written with `memcpy`; the layout is the one of the supported (little endian)
platforms: integers with the least significant byte first, the bit field `state` in the low 4 bits
and `value` in the high 12 bits of its 16 bit unit.

`memcpy` from outside of the received buffer is undefined behaviour. It is modelled by clearing
the flag `ok`, so that it can be proved not to happen.
-/
namespace KM

/-- `std::vector<char>` -/
abbrev Bytes := List UInt8

/-- The bytes of an integer of `n` bytes -/
def leBytes : Nat → Nat → Bytes
  | 0, _ => []
  | n + 1, v => UInt8.ofNat (v % 256) :: leBytes n (v / 256)

/-- The integer with these bytes -/
def ofLe : Bytes → Nat
  | [] => 0
  | b :: bs => b.toNat + 256 * ofLe bs

/-- `MessageType.h:5-19` -/
inductive MessageType where
  | configuration | activeContexts | validateState | executeAction | virtualKeyState
  | getVirtualKeyState | setVirtualKeyState | requestVirtualKeyToggleNotification | setInstanceId
  | setConfigFile | nextKeyInfo | injectInput | injectOutput
deriving DecidableEq, Repr

/-- `MessageType.h:5-19`: the value of an enumerator -/
def MessageType.code : MessageType → Nat
  | .configuration => 1 | .activeContexts => 2 | .validateState => 3 | .executeAction => 4
  | .virtualKeyState => 5 | .getVirtualKeyState => 6 | .setVirtualKeyState => 7
  | .requestVirtualKeyToggleNotification => 8 | .setInstanceId => 9 | .setConfigFile => 10
  | .nextKeyInfo => 11 | .injectInput => 12 | .injectOutput => 13

/-- `MessageType.h:5-19`: the enumerator with a value, if there is one -/
def MessageType.ofCode : Nat → Option MessageType
  | 1 => some .configuration | 2 => some .activeContexts | 3 => some .validateState
  | 4 => some .executeAction | 5 => some .virtualKeyState | 6 => some .getVirtualKeyState
  | 7 => some .setVirtualKeyState | 8 => some .requestVirtualKeyToggleNotification
  | 9 => some .setInstanceId | 10 => some .setConfigFile | 11 => some .nextKeyInfo
  | 12 => some .injectInput | 13 => some .injectOutput | _ => none

/-- `KeyEvent.h:14-29`: the value of an enumerator -/
def KeyState.code : KeyState → Nat
  | .Up => 0 | .Down => 1 | .Not => 2 | .UpAsync => 3 | .DownAsync => 4 | .NoMightMatch => 5
  | .OutputOnRelease => 6 | .DownMatched => 7 | .UpMatched => 8
  | .NotTimeout_cancel_on_up_down => 9

/-- `KeyEvent.h:14-29`: the enumerator with a value. A value without an enumerator (which no
sender writes) is read as `Up`; in the code it stays a value which equals none of the
enumerators. -/
def KeyState.ofCode : Nat → KeyState
  | 1 => .Down | 2 => .Not | 3 => .UpAsync | 4 => .DownAsync | 5 => .NoMightMatch
  | 6 => .OutputOnRelease | 7 => .DownMatched | 8 => .UpMatched
  | 9 => .NotTimeout_cancel_on_up_down | _ => .Up

/-! ## Writing -/

/-- `Connection.h:29-32` for `uint32_t` (the conversion discards the high bits) -/
def wrU32 (v : Nat) : Bytes := leBytes 4 v
/-- `Connection.h:29-32` for `int32_t` -/
def wrI32 (v : Int) : Bytes := leBytes 4 (v % 2 ^ 32).toNat
/-- `Connection.h:29-32` for `bool` -/
def wrBool (b : Bool) : Bytes := [if b then 1 else 0]
/-- `Connection.h:29-32` for `Key` -/
def wrKey (k : Key) : Bytes := leBytes 2 k
/-- `Connection.h:29-32` for `KeyState` -/
def wrState (st : KeyState) : Bytes := leBytes 2 st.code
/-- `Connection.h:29-32` for `MessageType` -/
def wrType (t : MessageType) : Bytes := leBytes 1 t.code
/-- `Connection.h:29-32` for `KeyEvent` (`KeyEvent.h:32-38`) -/
def wrEvent (e : KeyEvent) : Bytes := leBytes 2 e.key ++ leBytes 2 (e.state.code + 16 * e.value)
/-- `Connection.h:34-37` -/
def wrStr (s : Str) : Bytes := wrU32 s.length ++ s.map (fun c => UInt8.ofNat c.toNat)
/-- The repeated pattern of writing the number of elements, and then the elements -/
def wrList (w : α → Bytes) (l : List α) : Bytes := wrU32 l.length ++ l.flatMap w

/-- `ServerPort.cpp:6-10` `write_key_sequence` -/
def wrSeq (l : KeySequence) : Bytes := wrList wrEvent l
/-- `ServerPort.cpp:12-15` `write_filter` -/
def wrFilter (f : Filter) : Bytes := wrStr f.string ++ wrBool f.invert
/-- `ServerPort.cpp:26-29` -/
def wrInput (i : Input) : Bytes := wrSeq i.input ++ wrI32 i.outputIndex
/-- `ServerPort.cpp:38-41` -/
def wrCommand (c : CommandOutput) : Bytes := wrSeq c.output ++ wrI32 c.index
/-- `ServerPort.cpp:21-54`: one context of `write_contexts` -/
def wrContext (c : CContext) : Bytes :=
  wrBool c.beginStage ++ (wrList wrInput c.inputs ++ (wrList wrSeq c.outputs ++
  (wrList wrCommand c.commandOutputs ++ (wrFilter c.deviceFilter ++ (wrFilter c.deviceIdFilter ++
  (wrSeq c.modifierFilter ++ (wrBool c.invertModifierFilter ++ wrBool c.fallthrough)))))))
/-- `ServerPort.cpp:61-64` -/
def wrGrabFilter (f : GrabDeviceFilter) : Bytes := wrFilter f.toFilter ++ wrBool f.byId

/-- What the client can send (`ServerPort.cpp:94-142`) -/
inductive ToServer where
  | config (c : Config)
  | activeContexts (l : List Int)
  | validateState
  | setVirtualKeyState (k : Key) (st : KeyState)
  | requestNextKeyInfo
  | injectInput (l : KeySequence)
  | injectOutput (l : KeySequence)

/-- `ServerPort.cpp:94-142`: the body of a message (`write_active_contexts` converts the
indices to `uint32_t`) -/
def ToServer.body : ToServer → Bytes
  | .config c => wrType .configuration ++ (wrList wrGrabFilter c.grabDeviceFilters ++
      (wrList wrContext c.contexts ++ wrList wrStr c.serverDirectives))
  | .activeContexts l => wrType .activeContexts ++ wrList wrI32 l
  | .validateState => wrType .validateState
  | .setVirtualKeyState k st => wrType .setVirtualKeyState ++ (wrKey k ++ wrState st)
  | .requestNextKeyInfo => wrType .nextKeyInfo
  | .injectInput l => wrType .injectInput ++ wrSeq l
  | .injectOutput l => wrType .injectOutput ++ wrSeq l

/-- What the server can send (`ClientPort.cpp:132-157`) -/
inductive ToClient where
  | executeAction (i : Int)
  | virtualKeyState (k : Key) (st : KeyState)
  | nextKeyInfo (k : Key) (desc : DeviceDesc)
deriving DecidableEq, Repr

/-- `ClientPort.cpp:132-157`: the body of a message -/
def ToClient.body : ToClient → Bytes
  | .executeAction i => wrType .executeAction ++ wrI32 i
  | .virtualKeyState k st => wrType .virtualKeyState ++ (wrKey k ++ wrState st)
  | .nextKeyInfo k desc => wrType .nextKeyInfo ++ (wrKey k ++ (wrStr desc.name ++ wrStr desc.id))

/-- `Connection.h:105-116` `send_message`: the bytes which are sent (the socket accepts all of
them, or the connection is closed) -/
def frame (body : Bytes) : Bytes := wrU32 body.length ++ body

/-! ## Reading -/

/-- `Connection.h:76-79`: the members of `Deserializer`; `pos` is `it - buffer.begin()`. `ok` is
false when bytes outside of the buffer were accessed. -/
structure Deser where
  buf : Bytes
  pos : Nat := 0
  ok : Bool := true
deriving DecidableEq, Repr

/-- A function reading from a `Deserializer&` -/
def Rd (α : Type) := Deser → α × Deser

/-- Nothing is read -/
def Rd.ret (a : α) : Rd α := fun d => (a, d)
/-- Reading in sequence -/
def Rd.andThen (r : Rd α) (f : α → Rd β) : Rd β := fun d => f (r d).1 (r d).2

instance : Monad Rd where
  pure := Rd.ret
  bind := Rd.andThen

/-- `Connection.h:72-74` `can_read` -/
def Deser.canRead (d : Deser) (n : Nat) : Bool := decide (d.pos + n ≤ d.buf.length)

/-- `memcpy(.., &*it, n)`; reading past the end of the buffer is an access outside of it -/
def Deser.copy (d : Deser) (n : Nat) : Bytes × Deser :=
  ((d.buf.drop d.pos).take n,
   { d with pos := d.pos + n, ok := d.ok && decide (d.pos + n ≤ d.buf.length) })

/-- `Connection.h:46-51` `read(void*, size_t)`; `init` is the previous content of the memory
which is written -/
def rdInto (init : Bytes) : Rd Bytes := fun d =>
  if init.length != 0 && d.canRead init.length then d.copy init.length else (init, d)

/-- `Connection.h:53-58` for an integer of `n` bytes -/
def rdNat (n : Nat) : Rd Nat := fun d =>
  let (bs, d) := rdInto (List.replicate n 0) d
  (ofLe bs, d)

/-- `Connection.h:53-58` for `int32_t`, or for the conversion of an `uint32_t` to `int` -/
def rdI32 : Rd Int := fun d =>
  let (v, d) := rdNat 4 d
  (if v < 2 ^ 31 then (v : Int) else (v : Int) - 2 ^ 32, d)

/-- `Connection.h:53-58` or `60-63` for `bool`. A byte which is neither 0 nor 1 (which no sender
writes) is read as `true`; in the code this is undefined behaviour. -/
def rdBool : Rd Bool := fun d =>
  let (v, d) := rdNat 1 d
  (v != 0, d)

/-- `Connection.h:53-58` for `Key` -/
def rdKey : Rd Key := rdNat 2

/-- `Connection.h:53-58` for `KeyState` -/
def rdState : Rd KeyState := fun d =>
  let (v, d) := rdNat 2 d
  (KeyState.ofCode v, d)

/-- The event with these four bytes -/
def eventOf (v : Nat) : KeyEvent :=
  ⟨v % 2 ^ 16, KeyState.ofCode (v / 2 ^ 16 % 16), v / 2 ^ 20⟩

/-- `Connection.h:60-63` for a default constructed `KeyEvent` (`KeyEvent.h:40-42`), whose four
bytes are copied at once -/
def rdEvent : Rd KeyEvent := fun d =>
  let (v, d) := rdNat 4 d
  (eventOf v, d)

/-- `Connection.h:65-70` `read_string` -/
def rdStr : Rd Str := fun d =>
  let (n, d) := rdNat 4 d
  let (bs, d) := rdInto (List.replicate n 32) d
  (bs.map (fun b => Char.ofNat b.toNat), d)

/-- A loop reading `n` elements -/
def rdTimes (r : Rd α) : Nat → Rd (List α)
  | 0 => pure []
  | n + 1 => do
    let a ← r
    let l ← rdTimes r n
    pure (a :: l)

/-- The repeated pattern of reading the number of elements, and then the elements (also when
the vector is resized before) -/
def rdList (r : Rd α) : Rd (List α) := do
  let n ← rdNat 4
  rdTimes r n

/-- `ClientPort.cpp:6-14` `read_key_sequence` -/
def rdSeq : Rd KeySequence := rdList rdEvent

/-- `ClientPort.cpp:16-23` `read_filter`. Whether the regular expression is valid is not
modelled (`parse_regex` throws when it is not). -/
def rdFilter : Rd Filter := do
  let s ← rdStr
  let invert ← rdBool
  pure ⟨s, isRegexStr s, invert⟩

/-- `ClientPort.cpp:43-46` -/
def rdInput : Rd Input := do
  let l ← rdSeq
  let i ← rdI32
  pure ⟨l, i⟩

/-- `ClientPort.cpp:58-61` -/
def rdCommand : Rd CommandOutput := do
  let l ← rdSeq
  let i ← rdI32
  pure ⟨l, i⟩

/-- `ClientPort.cpp:30-74`: one context, and whether it begins a stage -/
def rdContext : Rd (Bool × Context) := do
  let beginStage ← rdBool
  let inputs ← rdList rdInput
  let outputs ← rdList rdSeq
  let commands ← rdList rdCommand
  let device ← rdFilter
  let deviceId ← rdFilter
  let modifier ← rdSeq
  let invert ← rdBool
  let ft ← rdBool
  pure (beginStage,
    { inputs := inputs, outputs := outputs, commandOutputs := commands, deviceFilter := device,
      deviceIdFilter := deviceId, modifierFilter := modifier, invertModifierFilter := invert,
      fallthrough := ft })

/-- `ClientPort.cpp:25-81`: the contexts are split into stages; `cur` are the contexts of the
current stage -/
def splitStages (cur : List Context) : List (Bool × Context) → List (List Context)
  | [] => if cur.isEmpty then [] else [cur]
  | (b, c) :: rest =>
    if b && !cur.isEmpty then cur :: splitStages [c] rest else splitStages (cur ++ [c]) rest

/-- `ClientPort.cpp:25-81` `read_stages`: the contexts of each stage -/
def rdStages : Rd (List (List Context)) := do
  let l ← rdList rdContext
  pure (splitStages [] l)

/-- `ClientPort.cpp:83-92` `read_grab_device_filters` -/
def rdGrabFilter : Rd GrabDeviceFilter := do
  let f ← rdFilter
  let byId ← rdBool
  pure { toFilter := f, byId := byId }

/-- What the handlers of the server are called with (`ClientPort.cpp:163-197`); `ignored` when
the type is not one of the handled ones -/
inductive FromClient where
  | configuration (filters : List GrabDeviceFilter) (stages : List (List Context))
      (directives : List Str)
  | activeContexts (l : List Int)
  | setVirtualKeyState (k : Key) (st : KeyState)
  | validateState
  | requestNextKeyInfo
  | injectInput (l : KeySequence)
  | injectOutput (l : KeySequence)
  | ignored
deriving DecidableEq, Repr

/-- `ClientPort.cpp:162-198`: the function deserializing one message. The handlers are called
while reading, so for a configuration also when the message then turns out to be malformed. -/
def readFromClient : Rd FromClient := do
  let t ← rdNat 1
  match MessageType.ofCode t with
  | some .configuration => do
    let filters ← rdList rdGrabFilter
    let stages ← rdStages
    let directives ← rdList rdStr
    pure (.configuration filters stages directives)
  | some .activeContexts => do
    let l ← rdList rdI32
    pure (.activeContexts l)
  | some .setVirtualKeyState => do
    let k ← rdKey
    let st ← rdState
    pure (.setVirtualKeyState k st)
  | some .validateState => pure .validateState
  | some .nextKeyInfo => pure .requestNextKeyInfo
  | some .injectInput => do
    let l ← rdSeq
    pure (.injectInput l)
  | some .injectOutput => do
    let l ← rdSeq
    pure (.injectOutput l)
  | _ => pure .ignored

/-- `ServerPort.cpp:147-168`: the function deserializing one message of the server; `none` when
the type is not one of the handled ones -/
def readFromServer : Rd (Option ToClient) := do
  let t ← rdNat 1
  match MessageType.ofCode t with
  | some .executeAction => do
    let i ← rdI32
    pure (some (.executeAction i))
  | some .virtualKeyState => do
    let k ← rdKey
    let st ← rdState
    pure (some (.virtualKeyState k st))
  | some .nextKeyInfo => do
    let k ← rdKey
    let name ← rdStr
    let id ← rdStr
    pure (some (.nextKeyInfo k ⟨name, id⟩))
  | _ => pure none

/-- `Connection.h:130-144`: the loop of `read_messages`, with what the messages were read as,
whether it succeeded, and the state in which it ended. Reading a message does not exchange the
buffer, so it is not taken from the result of `r`. -/
def readLoop (r : Rd α) (d : Deser) : List α × Bool × Deser :=
  if h : d.canRead 4 then
    if (rdNat 4 d).2.canRead (rdNat 4 d).1 then
      let e := d.pos + 4 + (rdNat 4 d).1
      let m := r (rdNat 4 d).2
      if m.2.pos = e then
        let rest := readLoop r { d with pos := e, ok := m.2.ok }
        (m.1 :: rest.1, rest.2)
      else ([m.1], false, m.2)
    else ([], true, d)
  else ([], true, d)
termination_by d.buf.length - d.pos
decreasing_by
  have : d.pos + 4 ≤ d.buf.length := of_decide_eq_true h
  show d.buf.length - (d.pos + 4 + _) < _
  omega

/-- `Connection.h:118-145` `read_messages` on a connection with the bytes `rest` of an incomplete
message, when the bytes `chunk` can be received (`Connection.cpp:116-131`), and the other side has
not closed the connection. The result is what the messages were read as, and the bytes
kept for the next call (`none` when it returns false, and the connection is closed). -/
def receive (r : Rd α) (rest chunk : Bytes) : List α × Option Bytes :=
  match readLoop r { buf := rest ++ chunk } with
  | (l, true, d) => (l, some (d.buf.drop d.pos))
  | (l, false, _) => (l, none)

/-- Successive calls of `read_messages`, until one fails -/
def receiveAll (r : Rd α) (rest : Bytes) : List Bytes → List α × Option Bytes
  | [] => ([], some rest)
  | c :: cs =>
    match receive r rest c with
    | (l, none) => (l, none)
    | (l, some rest) => let res := receiveAll r rest cs; (l ++ res.1, res.2)

/-- `unix/main.cpp:39-84`, `ServerState.cpp`: the message as it is given to the state of the
server (`Srv.onMessage`); the device filters and directives of a configuration, and the ignored messages
have no counterpart there. -/
def FromClient.toMsg (isDown : Key → Bool) : FromClient → Option Msg
  | .configuration _ stages _ => some (.configuration (stages.map Cfg.make))
  | .activeContexts l => some (.activeContexts l)
  | .setVirtualKeyState k st => some (.setVirtualKeyState k st)
  | .validateState => some (.validateState isDown)
  | .requestNextKeyInfo => some .requestNextKeyInfo
  | .injectInput l => some (.injectInput l)
  | .injectOutput l => some (.injectOutput l)
  | .ignored => none

end KM
