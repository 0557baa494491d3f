import Verif.Spec.Document
import Verif.Spec.Forward
import Verif.Spec.Serial
import Verif.Spec.Remap
import Verif.Model.Client
import Verif.Model.Connection
/-!
# Specification: from the configuration file to the virtual device

A configuration file whose lines replace keys by keys is read by the client, sent to the server, which reads what is typed.
-/
namespace KM

/-- the bytes which the client sends to the server -/
def sentBytes (out : List CEff) : Bytes :=
  out.flatMap (fun e => match e with | .server m => frame m.body | _ => [])

/-- the messages which the server receives in pieces -/
def receivedMessages (isDown : Key → Bool) (chunks : List Bytes) : List Msg :=
  (receiveAll readFromClient [] chunks).1.filterMap (FromClient.toMsg isDown)

/-- the events of keys which are read -/
def keysRead (its : List Iteration) : List (KeyEvent × Int) :=
  its.filterMap (fun it => match it.read with | .key ev dev => some (ev, dev) | _ => none)

/-- `A >> B`, or an empty line or a comment -/
inductive ReplaceLine : List (Key × Key) → Str → Prop
  | pair {sp n sp1 sp2 m sp3 a b} (hs : Spaces sp) (hs1 : Spaces sp1) (hs2 : Spaces sp2) (hs3 : Spaces sp3)
      (hn : Names keyOf n a) (hm : Names keyOf m b) (hl : startsWithLowerCase n = false) :
      ReplaceLine [(a, b)] (sp ++ ((n ++ sp1) ++ '>' :: '>' :: (sp2 ++ m ++ sp3)))
  | blank {sp} (hs : Spaces sp) : ReplaceLine [] sp
  | comment {sp c t} (hs : Spaces sp) (hc : c = '#' ∨ c = ';') (hb : '\\' ∉ t) : ReplaceLine [] (sp ++ c :: t)

/-- The lines of a configuration which replaces keys -/
inductive ReplaceLines : List (Key × Key) → List Str → Prop
  | nil : ReplaceLines [] []
  | cons {p line ps lines} (hl : ReplaceLine p line) (hn : '\n' ∉ line) (hr : ReplaceLines ps lines) :
      ReplaceLines (p ++ ps) (line :: lines)

end KM
