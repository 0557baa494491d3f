import Verif.Model.Control
import Verif.Spec.ControlPort
/-!
# Specification: the results and the command line of `keymapperctl`
-/
namespace KM

/-- Something the client does which is not caused by a connection -/
def ForeignOp (s : Nat) (op : ClientOp) : Prop := op ≠ .accept s ∧ ∀ f u m, op ≠ .control f u s m

/-- A connection waits for a change of a virtual key (`Key.none`: for nothing), and not for information about a key. -/
def WaitsFor (c : Client) (s : Nat) (k : Key) : Prop :=
  ∀ x ∈ c.control.controls, x.socket = s → x.toggleKey = k ∧ x.nextKeyInfo = false

/-- `keymapperctl` is connected, and nothing of what it requested before is outstanding. -/
structure CtlSys.Idle (h : CtlHost) (s : CtlSys) : Prop where
  sent : s.sent = []
  read : s.read = (repliesTo h.socket (s.client h).out).length
  waits : WaitsFor (s.client h) h.socket Key.none

/-- What the client sent to the server -/
def toServer (out : List CEff) : List ToServer := out.filterMap (fun | .server m => some m | _ => none)

/-- An option of the command line -/
inductive CtlOption where
  | timeout (n : Str)
  | instance (id : Str)
  | wait (n : Str)
  | stdout
  | restart
  | nextKeyInfo
  | setConfig (file : Str)
  | input (words : List Str)
  | output (words : List Str)
  | type (text : Str)
  | key (t : ReqType) (name : Str)

/-- The names of the operations on virtual keys -/
def keyOptionName : ReqType → Option String
  | .press => some "--press"
  | .release => some "--release"
  | .toggle => some "--toggle"
  | .isPressed => some "--is-pressed"
  | .isReleased => some "--is-released"
  | .waitPressed => some "--wait-pressed"
  | .waitReleased => some "--wait-released"
  | .waitToggled => some "--wait-toggled"
  | _ => none

/-- The arguments of an option -/
def CtlOption.args : CtlOption → List Str
  | .timeout n => ["--timeout".toList, n]
  | .instance id => ["--instance".toList, id]
  | .wait n => ["--wait".toList, n]
  | .stdout => ["--stdout".toList]
  | .restart => ["--restart".toList]
  | .nextKeyInfo => ["--next-key-info".toList]
  | .setConfig f => ["--set-config".toList, f]
  | .input words => "--input".toList :: words
  | .output words => "--output".toList :: words
  | .type s => ["--type".toList, s]
  | .key t name => [((keyOptionName t).getD "").toList, name]

/-- Options which can be written: the words of a sequence do not begin with a minus. -/
def CtlOption.Valid : CtlOption → Prop
  | .input words => ∀ w ∈ words, w.head? ≠ some '-'
  | .output words => ∀ w ∈ words, w.head? ≠ some '-'
  | .key t _ => (keyOptionName t).isSome
  | _ => True

/-- The request of an option, with the timeout which is set -/
def CtlOption.request (timeout : Option Int) : CtlOption → Option Request
  | .timeout _ => none
  | .instance id => some ⟨.setInstanceId, id, none⟩
  | .wait n => some ⟨.wait, [], some (atoi n)⟩
  | .stdout => some ⟨.stdoutResult, [], none⟩
  | .restart => some ⟨.restart, [], timeout⟩
  | .nextKeyInfo => some ⟨.nextKeyInfo, [], timeout⟩
  | .setConfig f => some ⟨.setConfigFile, f, timeout⟩
  | .input words => some ⟨.injectInput, words.flatMap (· ++ [' ']), timeout⟩
  | .output words => some ⟨.injectOutput, words.flatMap (· ++ [' ']), timeout⟩
  | .type s => some ⟨.typeString, s, timeout⟩
  | .key t name => some ⟨t, name, timeout⟩

/-- The timeout after an option -/
def CtlOption.timeoutAfter (timeout : Option Int) : CtlOption → Option Int
  | .timeout n => if 0 ≤ atoi n ∧ atoi n ≤ 24 * 60 * 60 * 1000 then some (atoi n) else none
  | .wait n => some (atoi n)
  | _ => timeout

/-- The requests of a command line -/
def optionRequests : Option Int → List CtlOption → List Request
  | _, [] => []
  | t, o :: l => (o.request t).toList ++ optionRequests (o.timeoutAfter t) l

end KM
