import Verif.Model.StringTyper
/-!
# Input and output on Windows

Models the conversions of `src/server/windows/main.cpp` between the messages of the system's hooks,
the events of keymapper and the inputs which are passed to `SendInput`, and the part of
`src/client/windows/StringTyper.cpp` which types a text.

Simplifications: the optional Interception driver is not used (`g_devices.initialized()` is false),
the time stamps and the mark which identifies injected input are left out. The inputs are data
instead of structures of flags: `LEFTDOWN`/`LEFTUP`... are a button and whether it is pressed.
-/
namespace KM.Win

/-- `Key.h:65`. The five keys with special handling have these numbers on Windows (some differ on Linux). -/
def shiftRight : Key := 0x0036
/-- `Key.h:188` -/
def pause : Key := 0x0045
/-- `Key.h:235` -/
def numLock : Key := 0xE045
/-- `Key.h:248` -/
def metaLeft : Key := 0xE05B
/-- `Key.h:249` -/
def metaRight : Key := 0xE05C

/-- The buttons of a mouse as named by the messages and inputs of the system. The two further
buttons are `XBUTTON1` and `XBUTTON2`. -/
inductive Button where
  | left | right | middle | x1 | x2
deriving DecidableEq, Repr

/-- `INPUT`, as filled by `make_key_input` and `make_button_input` (`main.cpp:65-162`) -/
inductive Input where
  /-- `KEYEVENTF_UNICODE` with `wScan` -/
  | unicode (code : Nat) (down : Bool)
  /-- `wVk`, identified by the key it is set for -/
  | virtualKey (key : Key) (down : Bool)
  /-- `KEYEVENTF_SCANCODE` with `wScan` and `KEYEVENTF_EXTENDEDKEY` -/
  | scanCode (code : Nat) (extended : Bool) (down : Bool)
  | button (b : Button) (down : Bool)
  /-- `MOUSEEVENTF_WHEEL` or `MOUSEEVENTF_HWHEEL` with `mouseData` -/
  | wheel (vertical : Bool) (delta : Int)
deriving DecidableEq, Repr

/-- `main.cpp:42-63` `get_key_event`, for a message with a scan code (`vsc`: the result of
`MapVirtualKeyW`, which is used when the scan code is zero) -/
def getKeyEvent (scanCode vsc : Nat) (extended down : Bool) : KeyEvent :=
  if 0xFF < scanCode then KeyEvent.zero
  else
    let keyCode := if scanCode != 0 then scanCode else vsc
    if keyCode == 0 then KeyEvent.zero
    else
      let keyCode := if extended then keyCode ||| 0xE000 else keyCode
      let keyCode := if keyCode == 0xE036 then shiftRight else keyCode
      ⟨keyCode, if down then .Down else .Up, 0⟩

/-- The state of the conversion: `g_buttons_down` (`main.cpp:38`), `s_high_byte_down` and
`s_high_byte_up` (`main.cpp:76-77`) -/
structure State where
  buttonsDown : List Key := []
  highDown : Nat := 0
  highUp : Nat := 0
deriving DecidableEq, Repr

/-- `main.cpp:65-103` `make_key_input`. `high_byte << 8` is computed with `int`, the result is
assigned to the `WORD` `wScan`. -/
def makeKeyInput (s : State) (e : KeyEvent) : State × Option Input :=
  let down := e.state != .Up
  if e.key == Key.unicode_output then
    let high := if e.state == .Up then s.highUp else s.highDown
    let set (v : Nat) : State := if e.state == .Up then { s with highUp := v } else { s with highDown := v }
    if high != 0 then
      (set 0, some (.unicode (((high <<< 8) ||| e.value) % 65536) down))
    else (set (0x8000 ||| e.value), none)
  else if e.key == shiftRight || e.key == pause || e.key == numLock || e.key == metaLeft || e.key == metaRight then
    (s, some (.virtualKey e.key down))
  else (s, some (.scanCode e.key (e.key &&& 0xE000 != 0) down))

/-- `main.cpp:105-121` `prevent_button_repeat` -/
def preventButtonRepeat (s : State) (e : KeyEvent) : State × Bool :=
  if !isMouseButton e.key then (s, false)
  else if e.state == .Down then
    if s.buttonsDown.contains e.key then (s, true)
    else ({ s with buttonsDown := s.buttonsDown ++ [e.key] }, false)
  else
    if !s.buttonsDown.contains e.key then (s, true)
    else ({ s with buttonsDown := s.buttonsDown.erase e.key }, false)

/-- `main.cpp:123-162` `make_button_input` -/
def makeButtonInput (e : KeyEvent) : Option Input :=
  let down := e.state == .Down
  if e.key == 0x110 then some (.button .left down)
  else if e.key == 0x111 then some (.button .right down)
  else if e.key == 0x112 then some (.button .middle down)
  else if e.key == 0x113 then some (.button .x1 down)
  else if e.key == 0x114 then some (.button .x2 down)
  else if isMouseWheel e.key then
    let vertical := e.key == 0x150 || e.key == 0x151
    let negative := e.key == 0x151 || e.key == 0x152
    let value : Int := (if e.value != 0 then (e.value : Int) else 120) * (if negative then -1 else 1)
    some (.wheel vertical value)
  else none

/-- `main.cpp:169-182` `ServerStateImpl::on_send_key` -/
def sendKey (s : State) (e : KeyEvent) : State × Option Input :=
  match preventButtonRepeat s e with
  | (s, true) => (s, none)
  | (s, false) =>
    match makeButtonInput e with
    | some i => (s, some i)
    | none => makeKeyInput s e

/-- The messages of the mouse hook (`WPARAM` and `MSLLHOOKSTRUCT`). `xbutton` has the high word of
`mouseData`, `wheel` its signed value. -/
inductive MouseMessage where
  | left (down : Bool) | right (down : Bool) | middle (down : Bool)
  | xbutton (data : Nat) (down : Bool)
  | wheel (vertical : Bool) (delta : Int)
  | other
deriving DecidableEq, Repr

/-- `main.cpp:248-278` `get_button_event`. `KeyEvent::value` has 12 bits. -/
def getButtonEvent : MouseMessage → Option KeyEvent
  | .left down => some ⟨0x110, if down then .Down else .Up, 0⟩
  | .right down => some ⟨0x111, if down then .Down else .Up, 0⟩
  | .middle down => some ⟨0x112, if down then .Down else .Up, 0⟩
  | .xbutton data down => some ⟨if data &&& 1 != 0 then 0x113 else 0x114, if down then .Down else .Up, 0⟩
  | .wheel true delta => some ⟨if delta < 0 then 0x151 else 0x150, .Up, delta.natAbs % 4096⟩
  | .wheel false delta => some ⟨if delta < 0 then 0x152 else 0x153, .Up, delta.natAbs % 4096⟩
  | .other => none

/-- `main.cpp:280-293` `translate_mouse_input` of a message which was not injected; `translated` is
the result of `ServerState::translate_input`. Whether the message is withheld from the system. -/
def translateMouseInput (s : State) (m : MouseMessage) (translated : Bool) : State × Bool :=
  match getButtonEvent m with
  | none => (s, false)
  | some e => if translated then (s, true) else preventButtonRepeat s e

/-- `StringTyper.cpp:124-143` (`client/windows`) `StringTyperImpl::type`, for the UTF-16 codes of the
string, with `m_dictionary` as `dict` -/
def typeCodes (dict : Nat → Option (List (Key × Mods))) (characters : List Nat) : List TypedKey :=
  let characters := replaceEscape 92 110 13 characters
  let characters := replaceEscape 92 114 13 characters
  let characters := replaceEscape 92 116 9 characters
  characters.flatMap fun character =>
    match dict character with
    | some keys => keys.map fun (k, m) => { key := k, mods := m }
    | none =>
      [{ key := Key.unicode_output, value := (character >>> 8) &&& 0xFF },
       { key := Key.unicode_output, value := character &&& 0xFF }]

end KM.Win

namespace KM.Win

/-- The part of `ServerState` (`ServerState.h:61-66`) which decides on Windows whether an event is
passed on or replaced. `stage` is the state of the stages, `σ` is arbitrary. Left out: requests
for the next key, the exit sequence, and that a virtual key in the output is
toggled. -/
structure Server (σ : Type) where
  stage : σ
  sendBuf : List KeyEvent := []
  flushScheduled : Bool := false
  last : KeyEvent := KeyEvent.zero

/-- `ServerState.cpp:211-220`: turn NumLock succeeding Pause into another Pause -/
def numLockToPause {σ : Type} (s : Server σ) (e : KeyEvent) : KeyEvent × Bool :=
  if e.state == s.last.state && e.key == numLock && s.last.key == pause then ({ e with key := pause }, true)
  else (e, false)

/-- `ServerState.cpp:254-258` `translated` -/
def translated (e : KeyEvent) (output : List KeyEvent) (pausing : Bool) : Bool :=
  match output with
  | [o] => o.key != e.key || (o.state == .Up) != (e.state == .Up) || pausing
  | _ => true

/-- `ServerState.cpp:226-277`, Windows: update the stages, and intercept and send unless the output
is the input. The result, and what the stages output. -/
def translateCore {σ : Type} (upd : σ → KeyEvent → σ × List KeyEvent) (s : Server σ) (e : KeyEvent) (pausing : Bool) :
    Server σ × Bool × List KeyEvent :=
  let (stage, output) := upd s.stage e
  let output := if isMouseWheel e.key then
      output.map (fun o => if isMouseWheel o.key && o.value == 0 then { o with value := e.value } else o)
    else output
  let intercept := s.flushScheduled || translated e output pausing || e.key == 0xE038
  let s := { s with stage := stage, last := e }
  (if intercept then { s with sendBuf := s.sendBuf ++ output } else s, intercept, output)

/-- `ServerState.cpp:178-277` `ServerState::translate_input`, Windows. The press of the wheel which is
inserted is translated by a call whose result is not used. -/
def translateInput {σ : Type} (upd : σ → KeyEvent → σ × List KeyEvent) (s : Server σ) (e : KeyEvent) :
    Server σ × Bool × List KeyEvent :=
  if e == s.last && s.flushScheduled then (s, true, [])
  else
    let (e, pausing) := numLockToPause s e
    if isMouseWheel e.key && e.state == .Up then
      let press : KeyEvent := { e with state := .Down }
      let (s, pressed) :=
        if press == s.last && s.flushScheduled then (s, [])
        else let r := translateCore upd s press false; (r.1, r.2.2)
      let r := translateCore upd s e pausing
      (r.1, r.2.1, pressed ++ r.2.2)
    else translateCore upd s e pausing

/-- `ServerState.cpp:279-283` `is_control_up` -/
def isControlUp (e : KeyEvent) : Bool := e.state == .Up && (e.key == 0x1D || e.key == 0xE01D)

/-- `ServerState.cpp:294-338`, Windows: the loop of `flush_send_buffer`; `first` is `i == 0`. The events
passed to `on_send_key`, the rest of the buffer, whether a flush was scheduled. -/
def flushLoop : Bool → List KeyEvent → List KeyEvent × List KeyEvent × Bool
  | _, [] => ([], [], false)
  | first, e :: es =>
    if isMouseWheel e.key && e.state == .Down then flushLoop false es
    else if isActionKey e.key || isVirtualKey e.key then flushLoop false es
    else if e.key == Key.timeout then ([], es, true)
    else if !first && isControlUp e then ([], e :: es, true)
    else let r := flushLoop false es; (e :: r.1, r.2)

/-- `ServerState.cpp:285-341` `flush_send_buffer` -/
def Server.flush {σ : Type} (s : Server σ) : Server σ × List KeyEvent :=
  let r := flushLoop true s.sendBuf
  ({ s with sendBuf := r.2.1, flushScheduled := r.2.2 }, r.1)

/-- What the message loop of the server reacts to -/
inductive Message where
  | keyboard (e : KeyEvent) | mouse (e : KeyEvent) | flushTimer

/-- `main.cpp:236-246` `keyboard_hook_proc`, `main.cpp:295-304` `mouse_hook_proc` and `main.cpp:425-428`
the timer: the events which are sent or passed on, and what the stages output. That repeated presses of
buttons are withheld afterwards, of those sent and of those passed on, is `preventButtonRepeat`. -/
def Server.react {σ : Type} (upd : σ → KeyEvent → σ × List KeyEvent) (s : Server σ) :
    Message → Server σ × List KeyEvent × List KeyEvent
  | .keyboard e =>
    let (s, intercepted, output) := translateInput upd s e
    if intercepted then
      if s.flushScheduled then (s, [], output) else let r := s.flush; (r.1, r.2, output)
    else (s, [e], output)
  | .mouse e =>
    let (s, intercepted, output) := translateInput upd s e
    if intercepted then ({ s with flushScheduled := true }, [], output) else (s, [e], output)
  | .flushTimer => let r := s.flush; (r.1, r.2, [])

/-- `ServerState.cpp:226-277` for the event of a timeout, which does not become the last event -/
def translateTimeout {σ : Type} (upd : σ → KeyEvent → σ × List KeyEvent) (s : Server σ) (elapsed : Nat) :
    Server σ × List KeyEvent :=
  let r := translateCore upd s ⟨Key.timeout, .Up, elapsed⟩ false
  ({ r.1 with last := s.last }, r.2.2)

/-- `ServerState.cpp:178-277` `translate_input` of an event which is not a turn of the wheel, while a timeout is
pending which the event cancels: the mappings get the elapsed time first; `cancelled_timeout` is set, so
the event is always intercepted. When a timeout is pending is not modelled, `upd` is what the stages output
without the request for it. -/
def translateCancelling {σ : Type} (upd : σ → KeyEvent → σ × List KeyEvent) (s : Server σ) (e : KeyEvent) (elapsed : Nat) :
    Server σ × List KeyEvent :=
  if e == s.last then (s, [])
  else
    let t := translateTimeout upd s elapsed
    let e := (numLockToPause t.1 e).1
    let r := upd t.1.stage e
    ({ t.1 with stage := r.1, last := e, sendBuf := t.1.sendBuf ++ r.2 }, t.2 ++ r.2)

/-- The messages of the server, with timeouts: `cancelling` are inputs which cancel a timeout (or are ignored,
since they repeat the last event while it is pending), `expired` is the timer of a timeout -/
inductive TimedMessage where
  | message (m : Message)
  | cancellingKeyboard (e : KeyEvent) (elapsed : Nat)
  | cancellingMouse (e : KeyEvent) (elapsed : Nat)
  | expired (elapsed : Nat)

/-- As `Server.react`, and `main.cpp:429-435` the timer of a timeout -/
def Server.reactTimed {σ : Type} (upd : σ → KeyEvent → σ × List KeyEvent) (s : Server σ) :
    TimedMessage → Server σ × List KeyEvent × List KeyEvent
  | .message m => s.react upd m
  | .cancellingKeyboard e elapsed =>
    let (s, output) := translateCancelling upd s e elapsed
    if s.flushScheduled then (s, [], output) else let r := s.flush; (r.1, r.2, output)
  | .cancellingMouse e elapsed =>
    let (s, output) := translateCancelling upd s e elapsed
    ({ s with flushScheduled := true }, [], output)
  | .expired elapsed =>
    let (s, output) := translateTimeout upd s elapsed
    if s.flushScheduled then (s, [], output) else let r := s.flush; (r.1, r.2, output)

end KM.Win
