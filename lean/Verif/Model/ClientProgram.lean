import Verif.Model.Client
/-!
# The program `keymapper`

Models `src/client/Settings.cpp/.h`, `src/client/unix/main.cpp`, `src/client/unix/TrayIcon.cpp` and what `src/common/output.cpp` does with messages: the command line,
which configuration file is loaded, the options, the loops, the menu of the tray icon and the exit code.
-/
namespace KM

/-! ## The settings -/

/-- `client/Settings.h:8-15` `Settings` -/
structure ClientSettings where
  path : Str := []
  update : Bool := false
  verbose : Bool := false
  check : Bool := false
  noTray : Bool := false
  noNotify : Bool := false
deriving DecidableEq, Repr, Inhabited

/-- `client/Settings.cpp:15-47` `interpret_commandline`: the arguments without the name of the program; `none` when it returns false -/
def interpretClientArgs (s : ClientSettings) : List Str → Option ClientSettings
  | [] => some s
  | a :: rest =>
    if a = "-u".toList ∨ a = "--update".toList then interpretClientArgs { s with update := true } rest
    else if a = "-c".toList ∨ a = "--config".toList then
      match rest with
      | [] => none
      | p :: rest => interpretClientArgs { s with path := p } rest
    else if a = "-v".toList ∨ a = "--verbose".toList then interpretClientArgs { s with verbose := true } rest
    else if a = "--check".toList then interpretClientArgs { s with check := true } rest
    else if a = "--no-tray".toList then interpretClientArgs { s with noTray := true } rest
    else if a = "--no-notify".toList then interpretClientArgs { s with noNotify := true } rest
    else none

/-- `client/Settings.h:29-35`: one of the options of a configuration (its name instead of the enumerator, `ParseConfig.cpp:469-475`) -/
def ClientSettings.applyOption (s : ClientSettings) (o : Str) : ClientSettings :=
  if o = "update".toList then { s with update := true }
  else if o = "no-update".toList then { s with update := false }
  else if o = "verbose".toList then { s with verbose := true }
  else if o = "no-tray".toList then { s with noTray := true }
  else if o = "no-notify".toList then { s with noNotify := true }
  else s

/-- `client/Settings.h:24-38` `apply_config_options` -/
def applyConfigOptions (s : ClientSettings) (c : Config) : ClientSettings := c.options.foldl ClientSettings.applyOption s

/-! ## The configuration file -/

/-- What the program sees of the system: environment variables, the home directory of the user, which files exist, and the absolute path of a file -/
structure ProgSys where
  xdgConfigHome : Option Str := none
  home : Option Str := none
  pwDir : Str := []
  fileExists : Str → Bool
  absolute : Str → Str

/-- `std::filesystem::path::operator/` for a relative path -/
def joinPath (base rel : Str) : Str := if base.isEmpty || base.getLast? == some '/' then base ++ rel else base ++ '/' :: rel

/-- `client/Settings.cpp:4` -/
def defaultConfigFilename : Str := "keymapper.conf".toList

/-- `unix/main.cpp:170-174` `get_home_path` -/
def ProgSys.homePath (y : ProgSys) : Str :=
  match y.home with
  | some h => h
  | none => y.pwDir

/-- `unix/main.cpp:176-180` `get_config_path` -/
def ProgSys.configPath (y : ProgSys) : Str :=
  match y.xdgConfigHome with
  | some dir => dir
  | none => joinPath y.homePath ".config".toList

/-- `unix/main.cpp:189-200`: the first of the files which exists -/
def ProgSys.findConfigFile (y : ProgSys) : List Str → Option Str
  | [] => none
  | base :: more =>
    if y.fileExists (joinPath base defaultConfigFilename) then some (joinPath base defaultConfigFilename)
    else if y.fileExists (joinPath (joinPath base "keymapper".toList) defaultConfigFilename) then
      some (joinPath (joinPath base "keymapper".toList) defaultConfigFilename)
    else y.findConfigFile more

/-- `unix/main.cpp:182-206` `resolve_config_file_path` -/
def ProgSys.resolveConfigPath (y : ProgSys) (filename : Str) : Str :=
  if !filename.isEmpty then y.absolute filename
  else
    match y.findConfigFile [y.configPath, "/etc/".toList] with
    | some path => path
    | none =>
      if !y.fileExists defaultConfigFilename then joinPath y.configPath defaultConfigFilename
      else y.absolute defaultConfigFilename

/-! ## Messages -/

/-- The messages which are not only verbose output -/
inductive Notice where
  | help | about
  | configValid | configUpdated
  | configError | connectFailed | sendFailed
deriving DecidableEq, Repr, Inhabited

/-- Where they appear: in the terminal, as a notification on the desktop -/
inductive Shown where
  | printed (n : Notice)
  | notification (n : Notice)
deriving DecidableEq, Repr, Inhabited

/-- `output.cpp:7-9`: which functions are set to show messages; both of them run `notify-send` (`unix/main.cpp:228-238`) -/
structure Output where
  notification : Bool := false
  messageBox : Bool := false
deriving DecidableEq, Repr, Inhabited

/-- `output.cpp:34-74` `vprint`, of a message which is not verbose output -/
def vprint (o : Output) (n : Notice) (isNotify : Bool) : List Shown :=
  .printed n ::
    (if isNotify && o.notification then [.notification n]
     else if o.messageBox then [.notification n] else [])

/-! ## The program -/

/-- The menu of the tray icon: is there an item "Reload", is the item "Active" checked -/
structure Tray where
  reload : Bool
  checked : Bool := true
deriving DecidableEq, Repr, Inhabited

/-- `unix/main.cpp:33-37` and the state of the client; `steps` are the calls of the client, in the order in which they were made. -/
structure Prog where
  settings : ClientSettings
  client : Client := {}
  auto : Bool := false
  output : Output := {}
  tray : Option Tray := none
  shutdown : Bool := false
  shown : List Shown := []
  steps : List ClientOp := []

/-- a call of the client -/
def Prog.call (env : ClientEnv) (p : Prog) (op : ClientOp) : Prog := { p with client := p.client.step env op, steps := p.steps ++ [op] }

/-- `output.cpp:80-99` `message`, `notify`, `error` -/
def Prog.say (p : Prog) (n : Notice) (isNotify : Bool) : Prog := { p with shown := p.shown ++ vprint p.output n isNotify }

/-- `TrayIcon.cpp:14-32` `initialize` (the tray icon can be shown) -/
def initTray (t : Option Tray) (reload : Bool) : Option Tray :=
  match t with
  | some t => some t
  | none => some { reload := reload }

/-- `unix/main.cpp:52-61` `update_options` -/
def Prog.updateOptions (p : Prog) : Prog :=
  let s := applyConfigOptions p.settings p.client.file.config
  { p with
    auto := s.update
    output := { p.output with notification := !s.noNotify }
    tray := if !s.noTray then initTray p.tray (!s.update) else none }

/-- An item of the menu of the tray icon -/
inductive MenuItem where
  | active (seen : Option Window)
  | configuration
  | reload (fs : FileSys) (seen : Option Window)
  | nextKeyInfo
  | help
  | about
  | exit

/-- What a control does -/
inductive ControlEvent where
  | message (fs : FileSys) (seen : Option Window) (socket : Nat) (m : CtlMsg)
  | closed (socket : Nat)

/-- What happens during one pass of `main_loop`: the files, the windows which are seen, the messages of the server, whether the connection to the server is lost, the
controls and the items of the menu which are activated. -/
structure Pass where
  fs : FileSys
  lostBeforeConfig : Bool := false
  seenConfig : Option Window := none
  lostBeforeContexts : Bool := false
  seen : Option Window := none
  messages : List ToClient := []
  lostReading : Bool := false
  accepted : Option Nat := none
  controls : List ControlEvent := []
  menu : List MenuItem := []

/-- the connection is lost -/
def Prog.loseIf (env : ClientEnv) (p : Prog) (b : Bool) : Prog := if b then p.call env .lost else p

/-- `ConfigFile.cpp:64-91` with `ClientState.cpp:123-128`: what is told about an update of the configuration -/
def Prog.sayUpdate (env : ClientEnv) (fs : FileSys) (p : Prog) (checkModified : Bool) : Prog :=
  if (p.client.file.update env fs checkModified).2 then p.say .configUpdated true
  else if checkModified && latestModifyTime fs p.client.file.filename p.client.file.config.includes == p.client.file.modifyTime then p
  else p.say .configError true

/-- `unix/main.cpp:120-125`. The result tells if `main_loop` goes on. -/
def Prog.autoUpdateStep (env : ClientEnv) (p : Prog) (x : Pass) : Prog × Bool :=
  if p.auto then
    let updated := (p.client.updateConfig env x.fs true).2
    let p := (p.sayUpdate env x.fs true).call env (.autoUpdate x.fs x.seenConfig)
    if updated then
      if p.client.isConnected then (p.updateOptions, true) else (p.say .sendFailed true, false)
    else (p, true)
  else (p, true)

/-- `unix/main.cpp:127-129` -/
def Prog.contextsStep (env : ClientEnv) (p : Prog) (x : Pass) : Prog × Bool :=
  let updated := (p.client.updateActiveContexts env.rx x.seen).2
  let p := p.call env (.updateContexts x.seen)
  (p, !(updated && !p.client.isConnected))

/-- a control -/
def ControlEvent.op : ControlEvent → ClientOp
  | .message fs seen socket m => .control fs seen socket m
  | .closed socket => .controlClosed socket

/-- An item of the menu is activated, when there is one: `unix/main.cpp:63-111`, `TrayIconGtk.cpp:41-80`. GTK toggles the check mark of the item "Active". -/
def Prog.menuStep (env : ClientEnv) (p : Prog) : MenuItem → Prog
  | .active seen =>
    match p.tray with
    | none => p
    | some t => { p with tray := some { t with checked := !t.checked } }.call env (.toggleActive seen)
  | .reload fs seen =>
    match p.tray with
    | none => p
    | some t =>
      if t.reload then
        let p := (p.sayUpdate env fs false).call env (.reload fs seen)
        let p := if p.client.isConnected then p else p.say .sendFailed true
        p.updateOptions
      else p
  | .nextKeyInfo => if p.tray.isSome then p.call env .requestKeyInfo else p
  | .about => if p.tray.isSome then p.say .about false else p
  | .exit => if p.tray.isSome then { p with shutdown := true } else p
  | .configuration => p
  | .help => p

/-- `unix/main.cpp:134-136` -/
def Prog.restOfPass (env : ClientEnv) (p : Prog) (x : Pass) : Prog :=
  let p := (x.accepted.toList.map ClientOp.accept).foldl (Prog.call env) p
  let p := (x.controls.map ControlEvent.op).foldl (Prog.call env) p
  x.menu.foldl (Prog.menuStep env) p

/-- `unix/main.cpp:120-136`: a pass of `main_loop`. The result tells if it goes on. -/
def Prog.pass (env : ClientEnv) (p : Prog) (x : Pass) : Prog × Bool :=
  let r := (p.loseIf env x.lostBeforeConfig).autoUpdateStep env x
  if !r.2 then r
  else
    let r := (r.1.loseIf env x.lostBeforeContexts).contextsStep env x
    if !r.2 then r
    else
      let p := ((x.messages.map ClientOp.server).foldl (Prog.call env) r.1).loseIf env x.lostReading
      if !p.client.isConnected then (p, false) else (p.restOfPass env x, true)

/-- `unix/main.cpp:118-138` `main_loop`. The result tells if it ended. -/
def Prog.mainLoop (env : ClientEnv) (p : Prog) : List Pass → Prog × Bool
  | [] => (p, p.shutdown)
  | x :: more =>
    if p.shutdown then (p, true)
    else
      let r := p.pass env x
      if r.2 then r.1.mainLoop env more else (r.1, true)

/-- One connection to the server -/
structure Session where
  connects : Bool := true
  sends : Bool := true
  passes : List Pass := []

/-- `unix/main.cpp:163-164`: the connection was lost -/
def Prog.afterSession (env : ClientEnv) (p : Prog) : Prog := { p.call env .disconnected with tray := none }

/-- `unix/main.cpp:140-168` `connection_loop`. The result is the exit code, `none` as long as it runs. The window is not updated while the configuration is
sent, since its detection is initialized afterwards. -/
def Prog.connectionLoop (env : ClientEnv) (p : Prog) : List Session → Prog × Option Nat
  | [] => (p, if p.shutdown then some 0 else none)
  | x :: more =>
    if p.shutdown then (p, some 0)
    else if !x.connects then (p.say .connectFailed true, some 1)
    else if !x.sends then (p.say .sendFailed true, some 1)
    else
      let r := ((p.call env (.connect none)).updateOptions).mainLoop env x.passes
      if r.2 then (r.1.afterSession env).connectionLoop env more
      else (r.1, none)

/-- `unix/main.cpp:222-259` `main` -/
def clientMain (env : ClientEnv) (y : ProgSys) (fs : FileSys) (args : List Str) (sessions : List Session) : Prog × Option Nat :=
  match interpretClientArgs {} args with
  | none => (({ settings := {} } : Prog).say .help false, some 1)
  | some s =>
    let s := { s with path := y.resolveConfigPath s.path }
    let p : Prog := { settings := s, output := { notification := !s.noNotify, messageBox := true } }
    let r := p.client.loadConfig env fs s.path
    let p := { p with client := r.1 }
    let p := if r.2 then p else p.say .configError true
    if s.check then
      if r.2 then (p.say .configValid true, some 0) else (p, some 1)
    else if !r.2 && s.noTray then (p, some 1)
    else p.connectionLoop env sessions

end KM
