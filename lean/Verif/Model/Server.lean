import Verif.Model.MultiStage
/-!
# The server

Models `src/server/ServerState.h` and `src/server/ServerState.cpp` (on systems other than
Windows). The clock does not advance during a call: `now` is a member, set by the caller between
calls. The effects on the outside are recorded in `out`.
-/
namespace KM

/-- What the server does to its environment: virtual functions of `ServerState.h:42-46` and
messages to the client. -/
inductive Eff where
  | sendKey (e : KeyEvent)
  | action (index : Nat)
  | virtualKeyState (k : Key) (st : KeyState)
  | nextKeyInfo (k : Key) (desc : Option DeviceDesc)
  | exitRequested
deriving DecidableEq, Repr, Inhabited

/-- `ServerState.h:60-71` the members. `sendResults` are the results of the following calls of
`on_send_key` (afterwards all succeed). Times are in milliseconds. -/
structure Srv where
  ms : MS := {}
  sendBuf : KeySequence := []
  virtualDown : List Key := []
  last : KeyEvent := KeyEvent.zero
  sending : Bool := false
  flushAt : Option Int := none
  timeoutStart : Option Int := none
  timeout : Nat := 0
  cancelOnUp : Bool := false
  devices : List DeviceDesc := []
  nextKeyInfo : Bool := false
  now : Int := 0
  sendResults : List Bool := []
  out : List Eff := []
deriving DecidableEq, Repr, Inhabited

/-- `ServerState.cpp:67-74` `release_all_keys` -/
def Srv.releaseAllKeys (s : Srv) : Srv :=
  { s with sendBuf := s.sendBuf ++ s.ms.outputKeysDown.map (fun k => ⟨k, .Up, 0⟩) }

/-- `ServerState.cpp:76-79` `send_key_sequence` -/
def Srv.sendKeySequence (s : Srv) (l : KeySequence) : Srv := { s with sendBuf := s.sendBuf ++ l }

/-- `ServerState.cpp:343-349` `schedule_flush` -/
def Srv.scheduleFlush (s : Srv) (delay : Nat) : Srv :=
  if s.flushAt.isSome then s else { s with flushAt := some (s.now + delay) }

/-- `ServerState.cpp:355-360` `schedule_timeout` -/
def Srv.scheduleTimeout (s : Srv) (timeout : Nat) (cancelOnUp : Bool) : Srv :=
  { s with timeout := timeout, timeoutStart := some s.now, cancelOnUp := cancelOnUp }

/-- `ServerState.cpp:370-374` `cancel_timeout` -/
def Srv.cancelTimeout (s : Srv) : Srv := { s with timeoutStart := none, timeout := 0 }

/-- `ServerState.cpp:28-34` `set_active_contexts`; `flush` is `flush_send_buffer` -/
def Srv.setActiveContexts (flush : Srv → Srv) (s : Srv) (indices : List Int) : Srv :=
  let (ms, output) := s.ms.setActiveClientContexts indices
  let s := { s with ms := ms }.sendKeySequence output
  let s := { s with ms := s.ms.reuseBuffer }
  if s.flushAt.isNone then flush s else s

/-- `ServerState.cpp:119-128` `evaluate_device_filters` -/
def Srv.evaluateDeviceFilters (rx : Regex) (flush : Srv → Srv) (s : Srv) : Srv :=
  if !s.ms.hasDeviceFilters || s.devices.isEmpty then s
  else
    let s := { s with ms := s.ms.evaluateDeviceFilters rx s.devices }
    s.setActiveContexts flush s.ms.activeClient

/-- `ServerState.cpp:103-112` `reset_configuration` -/
def Srv.resetConfiguration (rx : Regex) (flush : Srv → Srv) (s : Srv) (ms : MS) : Srv :=
  let s := flush s.releaseAllKeys
  let s := { s with ms := ms, virtualDown := [], flushAt := none, timeoutStart := none }
  s.evaluateDeviceFilters rx flush

/-- `ServerState.cpp:172-176` `get_device_desc` -/
def Srv.deviceDesc (s : Srv) (dev : Int) : Option DeviceDesc :=
  if 0 ≤ dev then s.devices[dev.toNat]? else none

/-- `ServerState.cpp:180-184`: ignore key repeat while a flush or a timeout is pending -/
def Srv.ignoresRepeat (s : Srv) (ev : KeyEvent) : Bool :=
  ev == s.last && (s.flushAt.isSome || s.timeoutStart.isSome)

/-- `ServerState.cpp:187-190`: is the event the reply to a requested key info -/
def Srv.repliesKeyInfo (s : Srv) (ev : KeyEvent) : Bool :=
  s.nextKeyInfo && isDeviceKey ev.key && ev.key != Key.ButtonLeft && ev.state == .Down

/-- `ServerState.cpp:191-197` -/
def Srv.replyKeyInfo (s : Srv) (ev : KeyEvent) (dev : Int) : Srv :=
  { s with out := s.out ++ [.nextKeyInfo ev.key (s.deviceDesc dev)], nextKeyInfo := false }

/-- `ServerState.cpp:239-245`: is the last output a request for an input timeout -/
def timeoutRequest (output : KeySequence) : Option KeyEvent :=
  match output.getLast? with
  | some e => if e.key == Key.timeout then some e else none
  | none => none

/-- `ServerState.cpp:248-251`: copy delta of input wheel event to output -/
def copyWheelDelta (ev : KeyEvent) (output : KeySequence) : KeySequence :=
  if isMouseWheel ev.key then
    output.map (fun e => if isMouseWheel e.key && e.value == 0 then { e with value := ev.value } else e)
  else output

/-- `ServerState.cpp:226-227` -/
def Srv.noteEvent (s : Srv) (ev : KeyEvent) : Srv := if ev.key != Key.timeout then { s with last := ev } else s

/-- `ServerState.cpp:231-236`: the exit sequence was read -/
def Srv.exit (rx : Regex) (flush : Srv → Srv) (s : Srv) : Srv :=
  let s := s.resetConfiguration rx flush {}
  { s with out := s.out ++ [.exitRequested] }

/-- `ServerState.cpp:239-276`: schedule a requested timeout and send the output -/
def Srv.sendOutput (s : Srv) (ev : KeyEvent) (output : KeySequence) : Srv :=
  match timeoutRequest output with
  | some request =>
    let s := s.scheduleTimeout request.value request.state.cancelTimeoutOnUp
    let s := s.sendKeySequence (copyWheelDelta ev output.dropLast)
    { s with ms := s.ms.reuseBuffer }
  | none =>
    let s := s.sendKeySequence (copyWheelDelta ev output)
    { s with ms := s.ms.reuseBuffer }

/-- `ServerState.cpp:226-276`: the end of `translate_input`, which updates the stages -/
def Srv.translateCore (rx : Regex) (flush : Srv → Srv) (s : Srv) (ev : KeyEvent) (dev : Int) : Srv :=
  let s := s.noteEvent ev
  let (ms, output) := s.ms.update ev dev
  let s := { s with ms := ms }
  if s.ms.shouldExit then s.exit rx flush else s.sendOutput ev output

/-- `ServerState.cpp:178-277` `translate_input` of a timeout event (which is called with no
timeout pending) -/
def Srv.translateTimeout (rx : Regex) (flush : Srv → Srv) (s : Srv) (ev : KeyEvent) (dev : Int) : Srv :=
  if s.ignoresRepeat ev then s else s.translateCore rx flush ev dev

/-- `ServerState.cpp:200-209`: cancel current timeout, inject event with elapsed time -/
def Srv.injectElapsed (rx : Regex) (flush : Srv → Srv) (s : Srv) (ev : KeyEvent) (dev : Int) : Srv :=
  match s.timeoutStart with
  | some start =>
    if ev.state == .Down || s.cancelOnUp then
      s.cancelTimeout.translateTimeout rx flush (makeInputTimeoutEvent (s.now - start)) dev
    else s
  | none => s

/-- `ServerState.cpp:178-277` `translate_input` of an event which is not a mouse wheel `Up` -/
def Srv.translateNoWheel (rx : Regex) (flush : Srv → Srv) (s : Srv) (ev : KeyEvent) (dev : Int) : Srv :=
  if s.ignoresRepeat ev then s
  else if s.repliesKeyInfo ev then s.replyKeyInfo ev dev
  else (s.injectElapsed rx flush ev dev).translateCore rx flush ev dev

/-- `ServerState.cpp:178-277` `translate_input`. The result is always `true`. The nested calls are
the ones of lines 207 (`injectElapsed`) and 224 (a mouse wheel `Down`). `flush` is
`flush_send_buffer`. -/
def Srv.translateWith (rx : Regex) (flush : Srv → Srv) (s : Srv) (ev : KeyEvent) (dev : Int) : Srv :=
  if s.ignoresRepeat ev then s
  else if s.repliesKeyInfo ev then s.replyKeyInfo ev dev
  else
    let s := s.injectElapsed rx flush ev dev
    let s := if isMouseWheel ev.key && ev.state == .Up then
      s.translateNoWheel rx flush ⟨ev.key, .Down, ev.value⟩ dev else s
    s.translateCore rx flush ev dev

/-- `ServerState.cpp:149-166` `set_virtual_key_state`; `translate` is `translate_input` -/
def Srv.setVirtualKeyState (translate : Srv → KeyEvent → Int → Srv) (s : Srv) (k : Key)
    (st : KeyState) : Srv :=
  let isDown := s.virtualDown.contains k
  if !isDown && st != .Up then
    let s := translate { s with virtualDown := s.virtualDown ++ [k] } ⟨k, .Down, 0⟩ anyDeviceIndex
    if isVirtualKey k then { s with out := s.out ++ [.virtualKeyState k .Down] } else s
  else if isDown && st != .Down then
    let s := translate { s with virtualDown := s.virtualDown.erase k } ⟨k, .Up, 0⟩ anyDeviceIndex
    if isVirtualKey k then { s with out := s.out ++ [.virtualKeyState k .Up] } else s
  else s

/-- `translate_input` while the send buffer is being flushed: `flush_send_buffer` returns
immediately (`ServerState.cpp:286-287`) -/
def Srv.translateSending (rx : Regex) (s : Srv) (ev : KeyEvent) (dev : Int) : Srv :=
  s.translateWith rx id ev dev

/-- `ServerState.cpp:168-170` `toggle_virtual_key`, while flushing -/
def Srv.toggleVirtualKey (rx : Regex) (s : Srv) (k : Key) : Srv :=
  s.setVirtualKeyState (Srv.translateSending rx) k .Not

/-- `ServerState.cpp:333`: call `on_send_key` -/
def Srv.send (s : Srv) (e : KeyEvent) : Srv :=
  { s with out := s.out ++ [.sendKey e], sendResults := s.sendResults.tail }

/-- `ServerState.cpp:333`: the result of the following call of `on_send_key` -/
def Srv.sendSucceeds (s : Srv) : Bool := s.sendResults.headD true

/-- `ServerState.cpp:294-337`: the loop of `flush_send_buffer`, until a virtual key is toggled; then
it goes on with `next`, unless too many were toggled. Events are removed from the front of the buffer
when they are processed (the code removes them all at the end, line 338, but only appends to the
buffer in between). Returns `succeeded`. -/
def Srv.flushItems (rx : Regex) (next : Option (Srv → Srv × Bool)) : KeySequence → Srv → Srv × Bool
  | [], s => ({ s with sendBuf := [] }, true)
  | e :: rest, s =>
    let s := { s with sendBuf := rest }
    if isMouseWheel e.key && e.state == .Down then Srv.flushItems rx next rest s
    else if isActionKey e.key then
      Srv.flushItems rx next rest
        (if e.state == .Down then { s with out := s.out ++ [.action (e.key - Key.first_action)] } else s)
    else if isVirtualKey e.key then
      if e.state == .Down then
        match next with
        | none => Srv.flushItems rx next rest s
        | some next => next (s.toggleVirtualKey rx e.key)
      else Srv.flushItems rx next rest s
    else if e.key == Key.timeout then (s.scheduleFlush e.value, true)
    else if s.sendSucceeds then Srv.flushItems rx next rest (s.send e)
    else ({ s.send e with sendBuf := e :: rest }, false)

/-- `ServerState.cpp:294-337`: the loop of `flush_send_buffer`. `toggles` is the number of virtual
keys which may still be toggled. -/
def Srv.flushLoop (rx : Regex) : (toggles : Nat) → Srv → Srv × Bool
  | 0, s => Srv.flushItems rx none s.sendBuf s
  | n + 1, s => Srv.flushItems rx (some (Srv.flushLoop rx n)) s.sendBuf s

/-- `ServerState.cpp:285-341` `flush_send_buffer`. Nine virtual keys are toggled at most
(line 311). -/
def Srv.flushSendBuffer (rx : Regex) (s : Srv) : Srv × Bool :=
  if s.sending then (s, true)
  else
    let (s, ok) := Srv.flushLoop rx 9 { s with sending := true, flushAt := none }
    ({ s with sending := false }, ok)

/-- `flush_send_buffer` ignoring the result -/
def Srv.flush (rx : Regex) (s : Srv) : Srv := (s.flushSendBuffer rx).1

/-- `ServerState.cpp:178-277` `translate_input` -/
def Srv.translateInput (rx : Regex) (s : Srv) (ev : KeyEvent) (dev : Int) : Srv :=
  s.translateWith rx (Srv.flush rx) ev dev

/-- `ServerState.cpp:12-16` `on_configuration_message` (with a valid configuration) -/
def Srv.onConfiguration (rx : Regex) (s : Srv) (ms : MS) : Srv :=
  s.resetConfiguration rx (Srv.flush rx) ms

/-- `ServerState.cpp:22-26` `on_active_contexts_message` -/
def Srv.onActiveContexts (rx : Regex) (s : Srv) (indices : List Int) : Srv :=
  s.setActiveContexts (Srv.flush rx) indices

/-- `ServerState.cpp:36-40` `on_set_virtual_key_state_message` -/
def Srv.onSetVirtualKeyState (rx : Regex) (s : Srv) (k : Key) (st : KeyState) : Srv :=
  let s := s.setVirtualKeyState (Srv.translateInput rx) k st
  if s.flushAt.isNone then s.flush rx else s

/-- `ServerState.cpp:42-46` `on_validate_state_message` -/
def Srv.onValidateState (s : Srv) (isDown : Key → Bool) : Srv :=
  { s with ms := s.ms.validateState isDown }

/-- `ServerState.cpp:48-51` `on_request_next_key_info_message` -/
def Srv.onRequestNextKeyInfo (s : Srv) : Srv := { s with nextKeyInfo := true }

/-- `ServerState.cpp:53-60` `on_inject_input_message` -/
def Srv.onInjectInput (rx : Regex) (s : Srv) (l : KeySequence) : Srv :=
  (l.foldl (fun s e =>
    if (e.state == .Up || e.state == .Down) && isDeviceKey e.key then
      s.translateInput rx e noDeviceIndex else s) s).scheduleFlush 0

/-- `ServerState.cpp:62-65` `on_inject_output_message` -/
def Srv.onInjectOutput (s : Srv) (l : KeySequence) : Srv := (s.sendKeySequence l).scheduleFlush 0

/-- `ServerState.cpp:114-117` `set_device_descs` -/
def Srv.setDeviceDescs (rx : Regex) (s : Srv) (devices : List DeviceDesc) : Srv :=
  { s with devices := devices }.evaluateDeviceFilters rx (Srv.flush rx)

end KM
