import Verif.Spec.Reload
import Verif.Spec.Focus
/-!
# Specification: the client while windows are focused, it is paused, and its file is modified
-/
namespace KM

/-- what happens to the client: another window is focused or it is paused or resumed, it looks whether the file was modified, or the user
lets it reload the file -/
inductive UserOp where
  | focus (op : FocusOp)
  | update (fs : FileSys) (upd : Option Window)
  | reload (fs : FileSys) (upd : Option Window)

/-- the call -/
def UserOp.toClient : UserOp → ClientOp
  | .focus op => op.toClient
  | .update fs upd => .autoUpdate fs upd
  | .reload fs upd => .reload fs upd

/-- what the client knows -/
structure Known where
  focus : KnownFocus
  file : ConfigFile

/-- the file when it was modified since it was read last: the configuration, when it can be read and is valid -/
def Known.modified (env : ClientEnv) (k : Known) (fs : FileSys) : Option Config :=
  if latestModifyTime fs k.file.filename k.file.config.includes = k.file.modifyTime then none else readConfigFile env fs k.file.filename

/-- the configuration which is sent: when it was modified and is valid, or in any case when the user lets it be reloaded; then it is the old one when the file is not valid -/
def Known.sends (env : ClientEnv) (k : Known) : UserOp → Option Config
  | .focus _ => none
  | .update fs _ => k.modified env fs
  | .reload fs _ => some ((readConfigFile env fs k.file.filename).getD k.file.config)

/-- A configuration which is sent replaces the old one and the client looks which window is focused (unless it is paused); in any case the time of the modification is noted. -/
def Known.replaced (k : Known) (fs : FileSys) (upd : Option Window) : Option Config → Known
  | some config =>
    { focus := if k.focus.on then { k.focus with window := upd.getD k.focus.window } else k.focus
      file := { k.file with modifyTime := latestModifyTime fs k.file.filename k.file.config.includes, config := config } }
  | none => { k with file := { k.file with modifyTime := latestModifyTime fs k.file.filename k.file.config.includes } }

/-- what it knows then -/
def Known.step (env : ClientEnv) (k : Known) (op : UserOp) : Known :=
  match op with
  | .focus op => { k with focus := k.focus.step op }
  | .update fs upd => k.replaced fs upd (k.sends env op)
  | .reload fs upd => k.replaced fs upd (k.sends env op)

/-- what the server is told: contexts as specified for changes of the focus, and a new configuration, followed by the contexts which match unless the client is paused -/
def userMessages (env : ClientEnv) : Known → List UserOp → List ToServer
  | _, [] => []
  | k, op :: ops =>
    (match op, k.sends env op with
    | .focus op, _ => (focusMessages env.rx k.file.config k.focus [op]).map (fun l => .activeContexts (l.map Int.ofNat))
    | _, none => []
    | _, some config => .config config :: (if k.focus.on then [.activeContexts (((k.step env op).focus.contexts env.rx config).map Int.ofNat)] else [])) ++
    userMessages env (k.step env op) ops

/-- a message means for the stages -/
def ToServer.reloadOps (stagesOf : Config → List (List Context)) : ToServer → List ReloadOp
  | .config c => [.configure ((stagesOf c).map Cfg.make)]
  | .activeContexts l => [.stages (.contexts l)]
  | _ => []

end KM
