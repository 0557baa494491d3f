import Verif.Model.ServerLoop
import Verif.Model.Filter
/-!
# The server program

Models `main`, `connection_loop`, `read_initial_config`, `main_loop` and the overridden message handlers of
`src/server/unix/main.cpp` (on Linux) and `src/server/Settings.cpp`. The environment (clients, devices, signals) is an argument.
-/
namespace KM

/-- `ClientPort.cpp:158-198`: a message of the client, a configuration with its device filters (the directives are only used on
macOS, `main.cpp:65-75`) -/
inductive DaemonMsg where
  | configuration (filters : List GrabDeviceFilter) (cfgs : List Cfg)
  | other (m : Msg)

/-- the message without the filters -/
def DaemonMsg.msg : DaemonMsg → Msg
  | .configuration _ cfgs => .configuration cfgs
  | .other m => m

/-- What can be observed of the program: a configuration is received from the client; the devices are used: `create_keyboard_device`,
`grab`, and letting go of all of them (`main.cpp:214-215`) -/
inductive DaemonEff where
  | received (filters : List GrabDeviceFilter) (cfgs : List Cfg)
  | keyboard
  | grab (mice : Bool) (filters : List GrabDeviceFilter)
  | letGo

/-- `main.cpp:9-18` the globals: `changed` is `g_grab_device_filters_changed`, `stop` is `g_shutdown` as far as it was set by a
signal or after the loop (it is also set when the exit sequence is read, which is recorded in `srv`, see `shutdown`). -/
structure Daemon where
  srv : Srv := {}
  filters : List GrabDeviceFilter := []
  changed : Bool := false
  stop : Bool := false
  log : List DaemonEff := []

/-- `g_shutdown` (`main.cpp:35-37`, `:170`, `:208`) -/
def Daemon.shutdown (d : Daemon) : Bool := d.stop || d.srv.out.contains .exitRequested

/-- `ServerState.cpp:130-132` `has_configuration` -/
def Daemon.hasConfiguration (d : Daemon) : Bool := !d.srv.ms.stages.isEmpty

/-- `main.cpp:50-55`: what is compared of a device filter -/
def GrabDeviceFilter.compared (f : GrabDeviceFilter) : Str × Bool × Bool := (f.string, f.invert, f.byId)

/-- `main.cpp:48-62` `on_grab_device_filters_message` -/
def Daemon.onFilters (d : Daemon) (filters : List GrabDeviceFilter) : Daemon :=
  { d with
    filters := filters
    changed := d.changed || (d.hasConfiguration && d.filters.map GrabDeviceFilter.compared != filters.map GrabDeviceFilter.compared) }

/-- `main.cpp:39-46` `on_configuration_message` -/
def Daemon.onConfiguration (rx : Regex) (d : Daemon) (ms : MS) : Daemon :=
  { d with
    srv := d.srv.onConfiguration rx ms
    changed := d.changed || (d.hasConfiguration && d.srv.ms.hasMouseMappings != ms.hasMouseMappings) }

/-- `ClientPort.cpp:158-198`: dispatch of a message -/
def Daemon.onMessage (rx : Regex) (d : Daemon) : DaemonMsg → Daemon
  | .configuration filters cfgs =>
    Daemon.onConfiguration rx { d.onFilters filters with log := d.log ++ [.received filters cfgs] } (MS.make cfgs)
  | .other m => { d with srv := d.srv.onMessage rx m }

/-- What is read before the devices are grabbed by a call of `read_client_messages`: its messages, and its result. The results of
`on_send_key` in the meantime are arbitrary (there is no keyboard yet, so they fail). -/
structure DaemonBatch where
  now : Int := 0
  messages : List DaemonMsg := []
  alive : Bool := true
  sendResults : List Bool := []

/-- `main.cpp:77-85` `read_initial_config`; when there is no further batch then the client does not send anything until it
disconnects. -/
def Daemon.readInitial (rx : Regex) : List DaemonBatch → Daemon → Daemon × Bool
  | [], d => (d, d.hasConfiguration)
  | b :: l, d =>
    if d.hasConfiguration then (d, true)
    else
      let d := b.messages.foldl (Daemon.onMessage rx) { d with srv := { d.srv with now := b.now, sendResults := b.sendResults } }
      if b.alive then Daemon.readInitial rx l d else (d, false)

/-- What the environment contributes to a pass of the loop: whether a signal arrived, whether the event could be read, whether the
virtual devices could be updated, the messages and the result of `read_client_messages`; the rest as in `Iteration`. -/
structure DaemonPass where
  now : Int
  signal : Bool := false
  readOk : Bool := true
  read : Read := .nothing
  sendResults : List Bool := []
  devices : Option (List DeviceDesc) := none
  forwardOk : Bool := true
  messages : List DaemonMsg := []
  alive : Bool := true

/-- `main.cpp:155-165`: the end of a pass. `std::exchange` is not called when reading failed. -/
def Daemon.endPass (d : Daemon) (alive : Bool) : Daemon × Option Bool :=
  if !alive then (d, some true)
  else if d.changed || !d.hasConfiguration then ({ d with changed := false }, some true)
  else if d.srv.ms.shouldExit then (d, some false)
  else (d, none)

/-- `main.cpp:87-166`: a pass of `main_loop`. Returns the result when the loop ends. -/
def Daemon.pass (rx : Regex) (d : Daemon) (p : DaemonPass) : Daemon × Option Bool :=
  let d := { d with stop := d.stop || p.signal }
  if d.shutdown then (d, some false)
  else if !p.readOk then (d, some true)
  else
    let s := { d.srv with now := p.now, sendResults := p.sendResults }
    if p.read = .other then ({ d with srv := s }, none)
    else
      let s := (s.processRead rx p.read).answerTimeout rx
      let (s, ok) := s.flushWhenDue rx
      if !ok then ({ d with srv := s }, some true)
      else if p.devices.isSome && !p.forwardOk then ({ d with srv := s }, some true)
      else
        let s := s.updateDevices rx p.devices
        (p.messages.foldl (Daemon.onMessage rx) { d with srv := s }).endPass p.alive

/-- `main.cpp:87-166` `main_loop`: the passes until it ends; without a result when it did not end yet -/
def Daemon.loop (rx : Regex) : List DaemonPass → Daemon → Daemon × Option Bool
  | [], d => (d, none)
  | p :: l, d =>
    match d.pass rx p with
    | (d, none) => Daemon.loop rx l d
    | r => r

/-- The result of `accept_client_connection` (`main.cpp:177-184`) -/
inductive Accepted where
  | mismatch
  | failed
  | accepted
deriving DecidableEq

/-- What the environment contributes from waiting for a client until it disconnected: `lateSignal` is a signal which arrives
after the last pass, `sendResults` and `resetResults` are for the calls of `on_send_key` before and after the loop. -/
structure DaemonSession where
  accept : Accepted := .accepted
  batches : List DaemonBatch := []
  createOk : Bool := true
  grabOk : Bool := true
  forwardOk : Bool := true
  devices : List DeviceDesc := []
  sendResults : List Bool := []
  passes : List DaemonPass := []
  resetNow : Int := 0
  resetResults : List Bool := []
  lateSignal : Bool := false

/-- What the program is doing: waiting for a client, running the loop; or it ended -/
inductive DaemonPhase where
  | waiting
  | running
  | ended (code : Nat)
deriving DecidableEq, Repr

/-- `main.cpp:214-217` and `:175`: let go of the devices, then wait for the next client unless told to shut down -/
def Daemon.letGo (d : Daemon) : Daemon × DaemonPhase :=
  ({ d with log := d.log ++ [.letGo] }, if d.shutdown then .ended 0 else .waiting)

/-- `main.cpp:206-212`: after the loop -/
def Daemon.afterLoop (rx : Regex) (d : Daemon) (x : DaemonSession) (result : Bool) : Daemon :=
  { d with
    srv := { d.srv with now := x.resetNow, sendResults := x.resetResults }.resetConfiguration rx (Srv.flush rx) {}
    stop := d.stop || !result || x.lateSignal }

/-- `main.cpp:199-217`: the devices are grabbed -/
def Daemon.grabbed (rx : Regex) (d : Daemon) (x : DaemonSession) : Daemon × DaemonPhase :=
  if !x.forwardOk then (d, .ended 1)
  else
    match Daemon.loop rx x.passes { d with srv := { d.srv with sendResults := x.sendResults }.setDeviceDescs rx x.devices } with
    | (d, none) => (d, .running)
    | (d, some r) => (d.afterLoop rx x r).letGo

/-- `main.cpp:188-217`: the configuration was received -/
def Daemon.configured (rx : Regex) (d : Daemon) (x : DaemonSession) : Daemon × DaemonPhase :=
  if !x.createOk then (d, .ended 1)
  else
    let d := { d with log := d.log ++ [.keyboard] }
    if !x.grabOk then (d, .ended 1)
    else Daemon.grabbed rx { d with log := d.log ++ [.grab d.srv.ms.hasMouseMappings d.filters] } x

/-- `main.cpp:175-217`: a pass of the loop of `connection_loop` -/
def Daemon.session (rx : Regex) (d : Daemon) (x : DaemonSession) : Daemon × DaemonPhase :=
  match x.accept with
  | .mismatch => (d, .ended 1)
  | .failed => (d, if d.shutdown then .ended 0 else .waiting)
  | .accepted =>
    match Daemon.readInitial rx x.batches d with
    | (d, false) => d.letGo
    | (d, true) => d.configured rx x

/-- `main.cpp:174-222` `connection_loop` -/
def Daemon.run (rx : Regex) : List DaemonSession → Daemon → Daemon × DaemonPhase
  | [], d => (d, .waiting)
  | x :: l, d =>
    match d.session rx x with
    | (d, .waiting) => Daemon.run rx l d
    | r => r

/-- `Settings.cpp:6-33` `interpret_commandline`: returns `verbose`, unless an argument is not known -/
def interpretServerArgs : List Str → Bool → Option Bool
  | [], verbose => some verbose
  | a :: l, _ => if a = "-v".toList || a = "--verbose".toList then interpretServerArgs l true else none

/-- `main.cpp:225-246` `main` (what is printed is not modelled) -/
def serverMain (rx : Regex) (args : List Str) (listenOk : Bool) (sessions : List DaemonSession) : Daemon × DaemonPhase :=
  match interpretServerArgs args false with
  | none => ({}, .ended 1)
  | some _ => if listenOk then Daemon.run rx sessions {} else ({}, .ended 1)

end KM
