import Verif.Model.ClientProgram
/-!
# Specification: the program `keymapper`
-/
namespace KM

/-- The options of the command line -/
inductive CliOption where
  | update
  | config (path : Str)
  | verbose
  | check
  | noTray
  | noNotify
deriving DecidableEq, Repr

/-- How they are written -/
def CliOption.spellings : CliOption → List (List Str)
  | .update => [["-u".toList], ["--update".toList]]
  | .config path => [["-c".toList, path], ["--config".toList, path]]
  | .verbose => [["-v".toList], ["--verbose".toList]]
  | .check => [["--check".toList]]
  | .noTray => [["--no-tray".toList]]
  | .noNotify => [["--no-notify".toList]]

/-- The arguments are these options -/
inductive Written : List CliOption → List Str → Prop
  | nil : Written [] []
  | cons {o opts l args} (h : l ∈ o.spellings) (hs : Written opts args) : Written (o :: opts) (l ++ args)

/-- The last configuration file which is given -/
def lastPath : List CliOption → Option Str
  | [] => none
  | .config p :: more => some ((lastPath more).getD p)
  | _ :: more => lastPath more

/-- What the options mean -/
def cliMeaning (opts : List CliOption) : ClientSettings where
  path := (lastPath opts).getD []
  update := opts.contains .update
  verbose := opts.contains .verbose
  check := opts.contains .check
  noTray := opts.contains .noTray
  noNotify := opts.contains .noNotify

/-- Where a configuration is looked for, in the directory for configurations -/
def configCandidates (dir : Str) : List Str :=
  [dir ++ "/keymapper.conf".toList, dir ++ "/keymapper/keymapper.conf".toList, "/etc/keymapper.conf".toList, "/etc/keymapper/keymapper.conf".toList]

/-- Not the begin or end of a connection -/
def ClientOp.inSession : ClientOp → Bool
  | .connect _ => false
  | .disconnected => false
  | _ => true

/-- The calls of the client are made for one connection after the other -/
inductive InSessions : List ClientOp → Prop
  | none : InSessions []
  | running {l} (h : ∀ op ∈ l, op.inSession = true) : InSessions (.connect Option.none :: l)
  | ended {l rest} (h : ∀ op ∈ l, op.inSession = true) (hr : InSessions rest) : InSessions (.connect Option.none :: l ++ .disconnected :: rest)

/-- `keymapperctl set-config` -/
def ControlEvent.setsConfig : ControlEvent → Bool
  | .message _ _ _ (.setConfigFile _) => true
  | _ => false

/-- it is not used -/
def NoSetConfig (sessions : List Session) : Prop := ∀ x ∈ sessions, ∀ y ∈ x.passes, ∀ e ∈ y.controls, e.setsConfig = false

/-- the item is activated in one of the passes -/
def ExitChosen (sessions : List Session) : Prop := ∃ x ∈ sessions, ∃ y ∈ x.passes, ∃ i ∈ y.menu, i matches .exit

/-- updates the configuration when it was modified -/
def ClientOp.isAutoUpdate : ClientOp → Bool
  | .autoUpdate _ _ => true
  | _ => false

end KM
