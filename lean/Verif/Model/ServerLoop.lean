import Verif.Model.Server
/-!
# The main loop of the server

Models `main_loop` and the message dispatch of `src/server/unix/main.cpp` and
`src/server/ClientPort.cpp:155-199` (on Linux). What the loop reads from its environment in an
iteration is an argument.
-/
namespace KM

/-- The messages of the client (`ClientPort.cpp:158-198`), already deserialized -/
inductive Msg where
  | configuration (cfgs : List Cfg)
  | activeContexts (indices : List Int)
  | setVirtualKeyState (k : Key) (st : KeyState)
  | validateState (isDown : Key → Bool)
  | requestNextKeyInfo
  | injectInput (l : KeySequence)
  | injectOutput (l : KeySequence)

/-- `ClientPort.cpp:158-198`: dispatch of a message. A configuration message whose changed device
filters or mouse usage make the server grab the devices again (`unix/main.cpp:39-63`) is not
distinguished here; it only makes the loop end, see `Iteration.regrab`. -/
def Srv.onMessage (rx : Regex) (s : Srv) : Msg → Srv
  | .configuration cfgs => s.onConfiguration rx (MS.make cfgs)
  | .activeContexts l => s.onActiveContexts rx l
  | .setVirtualKeyState k st => s.onSetVirtualKeyState rx k st
  | .validateState f => s.onValidateState f
  | .requestNextKeyInfo => s.onRequestNextKeyInfo
  | .injectInput l => s.onInjectInput rx l
  | .injectOutput l => s.onInjectOutput l

/-- What is read by `read_input_event`: nothing (timed out or interrupted), a key event of a device,
an event which is forwarded unchanged. -/
inductive Read where
  | nothing
  | key (ev : KeyEvent) (dev : Int)
  | other
deriving DecidableEq, Repr, Inhabited

/-- What the environment contributes to an iteration of the loop: the time after reading (the clock
is taken to stand still until the end of the iteration), the event read, the results of the following
calls of `on_send_key`, new devices, messages of the client. -/
structure Iteration where
  now : Int
  read : Read := .nothing
  sendResults : List Bool := []
  devices : Option (List DeviceDesc) := none
  messages : List Msg := []
  regrab : Bool := false

/-- `unix/main.cpp:119-123`: process the event read -/
def Srv.processRead (rx : Regex) (s : Srv) : Read → Srv
  | .key ev dev => if ev.key != Key.none then s.translateInput rx ev dev else s
  | _ => s

/-- `unix/main.cpp:132-133`: has the pending timeout elapsed -/
def Srv.timeoutElapsed (s : Srv) : Bool :=
  match s.timeoutStart with
  | some start => decide (start + (s.timeout : Int) ≤ s.now)
  | none => false

/-- `unix/main.cpp:132-137` -/
def Srv.answerTimeout (rx : Regex) (s : Srv) : Srv :=
  if s.timeoutElapsed then
    s.cancelTimeout.translateInput rx (makeInputTimeoutEvent s.timeout) anyDeviceIndex
  else s

/-- `unix/main.cpp:139`: is it time to flush (a delay which is not over prevents it) -/
def Srv.flushDue (s : Srv) : Bool :=
  match s.flushAt with
  | some t => decide (t < s.now)
  | none => true

/-- `unix/main.cpp:139-144`: returns if the loop goes on -/
def Srv.flushWhenDue (rx : Regex) (s : Srv) : Srv × Bool :=
  if s.flushDue then s.flushSendBuffer rx else (s, true)

/-- `unix/main.cpp:146-153`: the devices changed (updating the virtual devices succeeds) -/
def Srv.updateDevices (rx : Regex) (s : Srv) : Option (List DeviceDesc) → Srv
  | some l => s.setDeviceDescs rx l
  | none => s

/-- `unix/main.cpp:88-166`: an iteration of `main_loop`. Returns if the loop goes on. -/
def Srv.iterate (rx : Regex) (s : Srv) (it : Iteration) : Srv × Bool :=
  let s := { s with now := it.now, sendResults := it.sendResults }
  if it.read = .other then (s, true)
  else
    let s := (s.processRead rx it.read).answerTimeout rx
    let (s, ok) := s.flushWhenDue rx
    if !ok then (s, false)
    else
      let s := s.updateDevices rx it.devices
      let s := it.messages.foldl (Srv.onMessage rx) s
      if it.regrab || s.ms.stages.isEmpty then (s, false)
      else (s, !s.ms.shouldExit)

/-- `unix/main.cpp:88-166`: the loop, as long as there is something to do and it goes on -/
def Srv.mainLoop (rx : Regex) (s : Srv) : List Iteration → Srv
  | [] => s
  | it :: l => if (s.iterate rx it).2 then Srv.mainLoop rx (s.iterate rx it).1 l else (s.iterate rx it).1

/-- `unix/main.cpp:92-102`: how long to wait for input at most -/
def Srv.waitFor (s : Srv) (now : Int) : Option Int :=
  let flush := s.flushAt.map (· - now)
  let timeout := s.timeoutStart.map (fun t => t + (s.timeout : Int) - now)
  match flush, timeout with
  | some a, some b => some (if b < a then b else a)
  | some a, none => some a
  | none, b => b

end KM
