import Verif.Model.Client
/-!
# Specification: what the server and `keymapperctl` see of the client
-/
namespace KM

/-- What the server was told on the current connection: the configuration, and which of its contexts are
active. No context is active after a configuration was received. -/
structure ServerView where
  config : Option Config := none
  active : List Int := []

/-- What the server was told -/
def viewStep (v : ServerView) : CEff → ServerView
  | .connected => {}
  | .server (.config c) => { config := some c, active := [] }
  | .server (.activeContexts l) => { v with active := l }
  | _ => v

/-- What the server was told -/
def serverView (out : List CEff) : ServerView := out.foldl viewStep {}

/-- These are the contexts of a configuration whose window filters match a window -/
def AreMatching (rx : Regex) (config : Config) (w : Window) (l : List Int) : Prop :=
  l.Pairwise (· < ·) ∧
  ∀ i : Int, i ∈ l ↔ ∃ n : Nat, i = n ∧ ∃ c, config.contexts[n]? = some c ∧
    c.windowClass.matches rx w.cls false = true ∧ c.windowTitle.matches rx w.title true = true ∧
    c.windowPath.matches rx w.path true = true

/-- The request to load a configuration file again, after another one was loaded in between, while the
file can no longer be read -/
def SwitchFails (env : ClientEnv) (c : Client) : ClientOp → Prop
  | .control fs _ _ (.setConfigFile filename) =>
    filename ≠ c.file.filename ∧ (∃ f ∈ c.recent, f.filename = filename) ∧
    readConfigFile env fs filename = none
  | _ => False

/-- There is no such request in a history -/
def NoSwitchFails (env : ClientEnv) : Client → List ClientOp → Prop
  | _, [] => True
  | c, op :: ops => ¬ SwitchFails env c op ∧ NoSwitchFails env (c.step env op) ops

/-- The new focused window, when one is seen -/
def ClientOp.window : ClientOp → Option Window
  | .connect upd => upd
  | .autoUpdate _ upd => upd
  | .updateContexts upd => upd
  | .control _ upd _ _ => upd
  | .toggleActive upd => upd
  | .reload _ upd => upd
  | _ => none

/-- Is it a toggling of the menu item "Active" -/
def ClientOp.isToggle : ClientOp → Bool
  | .toggleActive _ => true
  | _ => false

/-- Is the menu item "Active" checked: it was toggled an even number of times. -/
def ClientActive (ops : List ClientOp) : Prop := (ops.filter ClientOp.isToggle).length % 2 = 0

instance (ops : List ClientOp) : Decidable (ClientActive ops) :=
  inferInstanceAs (Decidable ((ops.filter ClientOp.isToggle).length % 2 = 0))

/-- Is there a connection to the server -/
def connectedStep (b : Bool) : ClientOp → Bool
  | .connect _ => true
  | .lost => false
  | .disconnected => false
  | _ => b

/-- Is there a connection to the server -/
def connectedAfter (ops : List ClientOp) : Bool := ops.foldl connectedStep false

/-- The terminal command with an index -/
def commandOf (config : Config) (i : Int) : Option Str :=
  if i < 0 then none else config.actions[i.toNat]?

/-- The commands which are executed -/
def executed (out : List CEff) : List Str :=
  out.filterMap (fun | .execute c => some c | _ => none)

/-- The replies which are sent to a control -/
def repliesTo (socket : Nat) (out : List CEff) : List CtlReply :=
  out.filterMap (fun | .control s r => if s = socket then some r else none | _ => none)

end KM
