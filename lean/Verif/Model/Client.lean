import Verif.Model.Serial
import Verif.Model.Devices
/-!
# The client

Models `src/client/ControlPort.h/.cpp`, `src/client/ConfigFile.cpp`, `src/client/ClientState.cpp` and
the calls in `src/client/unix/main.cpp`. Not modelled: the tray icon, the options, notifications and
log messages, and how the focused window is found.
-/
namespace KM

/-! ## The control port -/

/-- What `keymapperctl` sends (`ControlPort.cpp:155-200`) -/
inductive CtlMsg where
  | getState (name : Str)
  | setState (name : Str) (st : KeyState)
  | requestToggle (name : Str)
  | setInstanceId (id : Str)
  | setConfigFile (filename : Str)
  | nextKeyInfo
  | injectInput (text : Str)
  | injectOutput (text : Str)
deriving DecidableEq, Repr, Inhabited

/-- The focused window (`FocusedWindowImpl.h:7-11`) -/
structure Window where
  cls : Str := []
  title : Str := []
  path : Str := []
deriving DecidableEq, Repr, Inhabited

/-- The information about a key (`ClientState.cpp:223-241`); it is not formatted as a text. -/
structure KeyInfo where
  key : Key
  window : Window
  device : DeviceDesc
deriving DecidableEq, Repr, Inhabited

/-- What is sent to `keymapperctl` (`ControlPort.cpp:77-83,142-145`) -/
inductive CtlReply where
  | keyState (k : Key) (st : KeyState)
  | keyInfo (info : KeyInfo)
deriving DecidableEq, Repr, Inhabited

/-- `ControlPort.h:32-37` `Control`; its connection is identified by the socket -/
structure Ctl where
  socket : Nat
  instanceId : Str := []
  toggleKey : Key := Key.none
  nextKeyInfo : Bool := false
deriving DecidableEq, Repr, Inhabited

/-- The number of entries of `m_virtual_keys_down` (`ControlPort.h:53`) -/
def virtualTableSize : Nat := Key.last_virtual - Key.first_virtual

/-- `ControlPort.h:53-55`. `ub` is set when `m_virtual_keys_down` is accessed out of bounds. The
controls are in the order of their connecting, in the code they are ordered by socket. -/
structure CPort where
  down : List Bool := List.replicate virtualTableSize false
  aliases : List (Str × Key) := []
  controls : List Ctl := []
  ub : Bool := false
deriving DecidableEq, Repr, Inhabited

/-- `ControlPort.cpp:11-16` `reset` -/
def CPort.reset (p : CPort) : CPort := { ub := p.ub }

/-- `ControlPort.cpp:24-31` `accept`: `emplace` does not replace an existing control -/
def CPort.accept (p : CPort) (socket : Nat) : CPort :=
  if p.controls.any (fun c => c.socket == socket) then p
  else { p with controls := p.controls ++ [{ socket := socket }] }

/-- `ControlPort.cpp:33-36` `set_virtual_key_aliases` -/
def CPort.setAliases (p : CPort) (aliases : List (Str × Key)) : CPort := { p with aliases := aliases }

/-- `ControlPort.cpp:70-75` `get_virtual_key_state` -/
def CPort.keyState (p : CPort) (k : Key) : KeyState :=
  if isVirtualKey k then (if p.down.getD (k - Key.first_virtual) false then .Down else .Up) else .Not

/-- `ControlPort.cpp:70-75`: is the table accessed out of bounds -/
def CPort.outOfBounds (p : CPort) (k : Key) : Bool :=
  isVirtualKey k && decide (p.down.length ≤ k - Key.first_virtual)

/-- The table is accessed for a key -/
def CPort.access (p : CPort) (k : Key) : CPort := { p with ub := p.ub || p.outOfBounds k }

/-- `ControlPort.cpp:45-51` `send_virtual_key_toggle_notification` -/
def CPort.notifyToggle (p : CPort) (k : Key) : CPort × List (Nat × CtlReply) :=
  ({ p with controls := p.controls.map (fun c => if c.toggleKey = k then { c with toggleKey := Key.none } else c) },
   (p.controls.filter (fun c => c.toggleKey = k)).map (fun c => (c.socket, .keyState k (p.keyState k))))

/-- `ControlPort.cpp:38-43` `on_virtual_key_state_changed`; a write out of bounds is not stored -/
def CPort.onKeyState (p : CPort) (k : Key) (st : KeyState) : CPort × List (Nat × CtlReply) :=
  if isVirtualKey k then
    ({ p.access k with down := p.down.set (k - Key.first_virtual) (st == KeyState.Down) }).notifyToggle k
  else (p, [])

/-- `ControlPort.cpp:58-68` `get_virtual_key` -/
def CPort.virtualKey (p : CPort) (name : Str) : Key :=
  let k := getKeyByName name
  let k := if k == Key.none then
      match p.aliases.find? (fun a => a.1 == name) with
      | some a => a.2
      | none => k
    else k
  if isVirtualKey k then k else Key.none

/-- Modify the control of a socket (`ControlPort.cpp:53-56` `get_control`) -/
def CPort.modControl (p : CPort) (socket : Nat) (f : Ctl → Ctl) : CPort :=
  { p with controls := p.controls.map (fun c => if c.socket = socket then f c else c) }

/-- `ControlPort.cpp:85-87` `send_virtual_key_state` -/
def CPort.replyState (p : CPort) (socket : Nat) (k : Key) : CPort × List (Nat × CtlReply) :=
  (p.access k, [(socket, .keyState k (p.keyState k))])

/-- `ControlPort.cpp:89-98` `on_virtual_key_toggle_notification_requested` -/
def CPort.requestToggle (p : CPort) (socket : Nat) (k : Key) : CPort × List (Nat × CtlReply) :=
  if k ≠ Key.none then (p.modControl socket (fun c => { c with toggleKey := k }), [])
  else p.replyState socket k

/-- `ControlPort.cpp:108-120` `disconnect_by_instance_id` -/
def CPort.disconnectById (p : CPort) (id : Str) : CPort :=
  if id = [] ∨ id = ['0'] then p
  else { p with controls := p.controls.filter (fun c => c.instanceId ≠ id) }

/-- `ControlPort.cpp:100-106` `on_set_instance_id` -/
def CPort.setInstanceId (p : CPort) (socket : Nat) (id : Str) : CPort :=
  match p.controls.find? (fun c => c.socket == socket) with
  | none => p
  | some c =>
    if c.instanceId ≠ id then (p.disconnectById id).modControl socket (fun c => { c with instanceId := id })
    else p

/-- `ControlPort.cpp:124-126`: reading from a connection failed -/
def CPort.close (p : CPort) (socket : Nat) : CPort :=
  { p with controls := p.controls.filter (fun c => c.socket ≠ socket) }

/-- `ControlPort.cpp:138-149` `reply_next_key_info`; the result tells if it was requested -/
def CPort.replyKeyInfo (p : CPort) (info : KeyInfo) : CPort × List (Nat × CtlReply) × Bool :=
  ({ p with controls := p.controls.map (fun c => { c with nextKeyInfo := false }) },
   (p.controls.filter (·.nextKeyInfo)).map (fun c => (c.socket, .keyInfo info)),
   p.controls.any (·.nextKeyInfo))

/-! ## The configuration file -/

/-- The files at some moment: the modification time (0 when it is not known, `ConfigFile.cpp:35-41`),
the contents (`none` when it cannot be opened, as a file without a name), and the path of a file which is included by another
(`ParseConfig.cpp:409-411`). -/
structure FileSys where
  mtime : Str → Int
  content : Str → Option Str
  resolve : Str → Str → Str
  noName : content [] = none

/-- `ConfigFile.h:8-20`; the includes of the configuration are as they are written, they are resolved by
`FileSys.resolve` -/
structure ConfigFile where
  filename : Str := []
  modifyTime : Int := -1
  config : Config := {}
deriving DecidableEq, Repr, Inhabited

/-- `ConfigFile.cpp:47-55` `get_latest_modify_time` -/
def latestModifyTime (fs : FileSys) (filename : Str) (includes : List Str) : Int :=
  let time := fs.mtime filename
  if time = 0 then time
  else includes.foldl (fun t i =>
    let it := fs.mtime (fs.resolve filename i)
    if it = 0 then t else max t it) time

/-- What parsing needs to know (`StringTyper`, `std::regex`), apart from the files -/
structure ClientEnv where
  typer : Typer
  validRegex : Str → Bool
  rx : Regex

/-- `ConfigFile.cpp:77-90`: read the file; `none` when it cannot be opened or is not valid -/
def readConfigFile (env : ClientEnv) (fs : FileSys) (filename : Str) : Option Config :=
  match fs.content filename with
  | none => none
  | some text =>
    parseConfig { typer := env.typer, validRegex := env.validRegex,
                  files := fun name => fs.content (fs.resolve filename name) } text

/-- `ConfigFile.cpp:64-91` `update` -/
def ConfigFile.update (env : ClientEnv) (fs : FileSys) (f : ConfigFile) (checkModified : Bool) :
    ConfigFile × Bool :=
  let time := latestModifyTime fs f.filename f.config.includes
  if checkModified && time == f.modifyTime then (f, false)
  else
    match readConfigFile env fs f.filename with
    | some config => ({ f with modifyTime := time, config := config }, true)
    | none => ({ f with modifyTime := time }, false)

/-- `ConfigFile.cpp:58-62` `load`, of a new `ConfigFile` (`ClientState.cpp:104-105`). `update()` is
called with its default `check_modified = true`, but the time is not -1. -/
def ConfigFile.load (env : ClientEnv) (fs : FileSys) (filename : Str) : ConfigFile × Bool :=
  ({ filename := filename } : ConfigFile).update env fs true

/-! ## Injected sequences -/

/-- `ClientState.cpp:14-19` -/
def replaceLogical (k : Key) : Key :=
  if k = Key.Shift then Key.ShiftLeft
  else if k = Key.Control then Key.ControlLeft
  else if k = Key.Meta then Key.MetaLeft
  else k

/-- `ClientState.cpp:12-22` `replace_logical_keys` -/
def replaceLogicalKeys (l : KeySequence) : KeySequence := l.map (fun e => { e with key := replaceLogical e.key })

/-- `ClientState.cpp:28-36`: `s_keys_down` -/
def keysDownGo : List Key → KeySequence → List Key
  | down, [] => down
  | down, e :: l =>
    if e.state = .Down ∧ ¬ e.key ∈ down then keysDownGo (down ++ [e.key]) l
    else if e.state = .Up ∧ e.key ∈ down then keysDownGo (down.erase e.key) l
    else keysDownGo down l

/-- `ClientState.cpp:24-40` `ensure_all_keys_up` -/
def ensureAllKeysUp (l : KeySequence) : KeySequence :=
  l ++ (keysDownGo [] l).map (fun k => ⟨k, .Up, 0⟩)

/-- `ClientState.cpp:258-279`: the sequence which is injected, `none` when parsing fails. The keys of a
configuration (aliases, logical keys) are not known. -/
def injectedSequence (env : ClientEnv) (text : Str) : Option KeySequence :=
  (parseSequence { isInput := false, getKey := getKeyByName, typer := env.typer, addCommands := false }
    text).map (fun r => ensureAllKeysUp (replaceLogicalKeys r.1))

/-! ## The state of the client -/

/-- What the client does -/
inductive CEff where
  /-- a connection to the server is established -/
  | connected
  | server (m : ToServer)
  | control (socket : Nat) (r : CtlReply)
  | execute (command : Str)
  | showKeyInfo (info : KeyInfo)

/-- `ClientState.h:49-56`. `isConnected` tells if messages reach the server. -/
structure Client where
  file : ConfigFile := {}
  recent : List ConfigFile := []
  control : CPort := {}
  window : Window := {}
  activeContexts : List Nat := []
  active : Bool := true
  isConnected : Bool := false
  out : List CEff := []

/-- `ServerPort.cpp:94-142`: send a message to the server -/
def Client.send (c : Client) (m : ToServer) : Client :=
  if c.isConnected then { c with out := c.out ++ [.server m] } else c

/-- The control port sent replies -/
def Client.setControl (c : Client) (r : CPort × List (Nat × CtlReply)) : Client :=
  { c with control := r.1, out := c.out ++ r.2.map (fun x => .control x.1 x.2) }

/-- `ClientState.cpp:189-196`: the contexts which match a window -/
def matchingContexts (rx : Regex) (config : Config) (w : Window) : List Nat :=
  (List.range config.contexts.length).filter (fun i =>
    match config.contexts[i]? with
    | some c => c.matches rx w.cls w.title w.path
    | none => false)

/-- `ClientState.cpp:189-203` -/
def Client.refreshContexts (rx : Regex) (c : Client) : Client × Bool :=
  let new := matchingContexts rx c.file.config c.window
  if new ≠ c.activeContexts then ({ c with activeContexts := new }, true) else (c, false)

/-- `ClientState.cpp:174-204` `update_active_contexts`. `upd` is the window when it changed
(`FocusedWindow::update()` returned true). -/
def Client.updateActiveContexts (rx : Regex) (c : Client) (upd : Option Window) : Client × Bool :=
  if !c.active then (c, false)
  else
    match upd with
    | some w => ({ c with window := w }).refreshContexts rx
    | none => if !c.activeContexts.isEmpty then (c, false) else c.refreshContexts rx

/-- `ClientState.cpp:206-209` `send_active_contexts` -/
def Client.sendActiveContexts (c : Client) : Client :=
  c.send (.activeContexts (c.activeContexts.map Int.ofNat))

/-- `ClientState.cpp:141-148`: after the configuration was sent -/
def Client.configSent (rx : Regex) (c : Client) (upd : Option Window) : Client :=
  let c := { c with control := c.control.setAliases c.file.config.virtualKeyAliases, activeContexts := [] }
  if c.active then (c.updateActiveContexts rx upd).1.sendActiveContexts else c

/-- `ClientState.cpp:134-150` `send_config` -/
def Client.sendConfig (rx : Regex) (c : Client) (upd : Option Window) : Client × Bool :=
  if c.isConnected then ((c.send (.config c.file.config)).configSent rx upd, true) else (c, false)

/-- `ClientState.cpp:152-159` `toggle_active` -/
def Client.toggleActive (rx : Regex) (c : Client) (upd : Option Window) : Client :=
  if c.active then ({ c with active := false, activeContexts := [] }).sendActiveContexts
  else (({ c with active := true }).updateActiveContexts rx upd).1.sendActiveContexts

/-- `ClientState.cpp:103-114`: load a file which was not loaded before -/
def Client.loadNew (env : ClientEnv) (fs : FileSys) (c : Client) (filename : Str) : Client × Bool :=
  let r := ConfigFile.load env fs filename
  if !r.2 then
    (if c.file.filename.isEmpty then { c with file := r.1 } else c, false)
  else
    ({ c with
        recent := if c.file.filename.isEmpty then c.recent else c.recent ++ [c.file]
        file := r.1 }, true)

/-- Replace the first file with a name -/
def replaceFile (filename : Str) (f : ConfigFile) : List ConfigFile → List ConfigFile
  | [] => []
  | g :: l => if g.filename = filename then f :: l else g :: replaceFile filename f l

/-- `ClientState.cpp:95-121` `load_config` -/
def Client.loadConfig (env : ClientEnv) (fs : FileSys) (c : Client) (filename : Str) : Client × Bool :=
  if c.file.filename = filename then
    ({ c with file := (c.file.update env fs false).1 }, (c.file.update env fs false).2)
  else
    match c.recent.find? (fun f => f.filename == filename) with
    | none => c.loadNew env fs filename
    | some f =>
      ({ c with file := (f.update env fs false).1, recent := replaceFile filename c.file c.recent },
       (f.update env fs false).2)

/-- `ClientState.cpp:123-128` `update_config` -/
def Client.updateConfig (env : ClientEnv) (fs : FileSys) (c : Client) (checkModified : Bool) :
    Client × Bool :=
  ({ c with file := (c.file.update env fs checkModified).1 }, (c.file.update env fs checkModified).2)

/-- `ClientState.cpp:63-67` `on_set_config_file_message` -/
def Client.onSetConfigFile (env : ClientEnv) (fs : FileSys) (upd : Option Window) (c : Client)
    (filename : Str) : Client × Bool :=
  let r := c.loadConfig env fs filename
  if r.2 then r.1.sendConfig env.rx upd else (r.1, false)

/-- `ClientState.cpp:43-53` `on_execute_action_message` -/
def Client.onExecuteAction (c : Client) (i : Int) : Client :=
  if 0 ≤ i then
    match c.file.config.actions[i.toNat]? with
    | some command => { c with out := c.out ++ [.execute command] }
    | none => c
  else c

/-- `ClientState.cpp:223-248` `on_next_key_info_message` -/
def Client.onNextKeyInfo (c : Client) (k : Key) (device : DeviceDesc) : Client :=
  let info : KeyInfo := { key := k, window := c.window, device := device }
  let r := c.control.replyKeyInfo info
  let c := c.setControl (r.1, r.2.1)
  if r.2.2 then c else { c with out := c.out ++ [.showKeyInfo info] }

/-- `ServerPort.cpp:145-169`: a message of the server -/
def Client.onServer (c : Client) : ToClient → Client
  | .executeAction i => c.onExecuteAction i
  | .virtualKeyState k st => c.setControl (c.control.onKeyState k st)
  | .nextKeyInfo k device => c.onNextKeyInfo k device

/-- `ControlPort.cpp:180-181`: the reply to a request which can fail -/
def resultState (b : Bool) : KeyState := if b then .Down else .Up

/-- Reply to `keymapperctl` (`ControlPort.cpp:77-83`) -/
def Client.reply (c : Client) (socket : Nat) (k : Key) (st : KeyState) : Client :=
  { c with out := c.out ++ [.control socket (.keyState k st)] }

/-- `ClientState.cpp:258-279` and `ControlPort.cpp:189-200`: inject a sequence -/
def Client.onInject (env : ClientEnv) (c : Client) (socket : Nat) (text : Str)
    (message : KeySequence → ToServer) : Client :=
  match injectedSequence env text with
  | some l => (c.send (message l)).reply socket Key.none .Down
  | none => c.reply socket Key.none .Up

/-- `ControlPort.cpp:155-204`: a message of `keymapperctl` -/
def Client.onControl (env : ClientEnv) (fs : FileSys) (upd : Option Window) (c : Client) (socket : Nat) :
    CtlMsg → Client
  | .getState name => c.setControl (c.control.replyState socket (c.control.virtualKey name))
  | .setState name st =>
    let c := c.send (.setVirtualKeyState (c.control.virtualKey name) st)
    c.setControl (c.control.replyState socket (c.control.virtualKey name))
  | .requestToggle name => c.setControl (c.control.requestToggle socket (c.control.virtualKey name))
  | .setInstanceId id =>
    ({ c with control := c.control.setInstanceId socket id }).reply socket Key.none .Not
  | .setConfigFile filename =>
    let r := c.onSetConfigFile env fs upd filename
    r.1.reply socket Key.none (resultState r.2)
  | .nextKeyInfo =>
    ({ c with control := c.control.modControl socket (fun x => { x with nextKeyInfo := true }) }).send
      .requestNextKeyInfo
  | .injectInput text => c.onInject env socket text .injectInput
  | .injectOutput text => c.onInject env socket text .injectOutput

/-! ## The main loop -/

/-- What happens to the client. The calls of `main_loop` are separate steps, since they are independent
of each other. -/
inductive ClientOp where
  /-- `main.cpp:145-152`: a connection is established and the configuration is sent -/
  | connect (upd : Option Window)
  /-- the connection to the server breaks: messages no longer reach it -/
  | lost
  /-- `main.cpp:163`, `ClientState.cpp:89-93` `on_server_disconnected` -/
  | disconnected
  /-- `main.cpp:120-125`: update the configuration when it was modified -/
  | autoUpdate (fs : FileSys) (upd : Option Window)
  /-- `main.cpp:127-129` -/
  | updateContexts (upd : Option Window)
  /-- `main.cpp:131` -/
  | server (m : ToClient)
  /-- `main.cpp:134` -/
  | accept (socket : Nat)
  /-- `main.cpp:135`: a control sent a message, or its connection is closed -/
  | control (fs : FileSys) (upd : Option Window) (socket : Nat) (m : CtlMsg)
  | controlClosed (socket : Nat)
  /-- the tray icon: `main.cpp:63-65`, `91-95`, `97-99` -/
  | toggleActive (upd : Option Window)
  | reload (fs : FileSys) (upd : Option Window)
  | requestKeyInfo

/-- One step of the client -/
def Client.step (env : ClientEnv) (c : Client) : ClientOp → Client
  | .connect upd => (({ c with isConnected := true, out := c.out ++ [CEff.connected] }).sendConfig env.rx upd).1
  | .lost => { c with isConnected := false }
  | .disconnected => { c with isConnected := false, control := c.control.reset }
  | .autoUpdate fs upd =>
    let r := c.updateConfig env fs true
    if r.2 then (r.1.sendConfig env.rx upd).1 else r.1
  | .updateContexts upd =>
    let r := c.updateActiveContexts env.rx upd
    if r.2 then r.1.sendActiveContexts else r.1
  | .server m => c.onServer m
  | .accept socket => { c with control := c.control.accept socket }
  | .control fs upd socket m =>
    if c.control.controls.any (fun x => x.socket == socket) then c.onControl env fs upd socket m else c
  | .controlClosed socket => { c with control := c.control.close socket }
  | .toggleActive upd => c.toggleActive env.rx upd
  | .reload fs upd => ((c.updateConfig env fs false).1.sendConfig env.rx upd).1
  | .requestKeyInfo => c.send .requestNextKeyInfo

/-- `main.cpp:253-257`: the file is loaded at the start -/
def Client.start (env : ClientEnv) (fs : FileSys) (filename : Str) : Client :=
  (({} : Client).loadConfig env fs filename).1

/-- The client after a history -/
def Client.run (env : ClientEnv) (c : Client) (ops : List ClientOp) : Client := ops.foldl (Client.step env) c

end KM
