import Verif.Spec.Client
/-!
# Specification: what `keymapperctl` can rely on
-/
namespace KM

/-- Is a connection of `keymapperctl` open -/
def Client.isOpen (c : Client) (s : Nat) : Bool := c.control.controls.any (fun x => x.socket == s)

/-- A name denotes a virtual key: it is its name (`Virtual1`), or the name which is given to it in the
configuration. -/
def Denotes (config : Config) (name : Str) (k : Key) : Prop :=
  isVirtualKey k = true ∧
  (getKeyByName name = k ∨
   (getKeyByName name = Key.none ∧
    ∃ pre post, config.virtualKeyAliases = pre ++ (name, k) :: post ∧ ∀ a ∈ pre, a.1 ≠ name))

/-- A virtual key is down -/
def toldStep (k : Key) (b : Bool) : ClientOp → Bool
  | .server (.virtualKeyState k' st) => if k' = k then decide (st = .Down) else b
  | .disconnected => false
  | _ => b

/-- A virtual key is down: this was told last for it, since the connection to the server was lost -/
def toldDown (k : Key) (ops : List ClientOp) : Bool := ops.foldl (toldStep k) false

/-- The state of a virtual key -/
def stateOf (down : Bool) : KeyState := if down then .Down else .Up

/-- The id which was last announced on a connection -/
def idStep (s : Nat) (b : Option Str) : ClientOp → Option Str
  | .control _ _ s' (.setInstanceId id) => if s' = s then some id else b
  | _ => b

/-- The id which was last announced on a connection -/
def lastId (s : Nat) (ops : List ClientOp) : Option Str := ops.foldl (idStep s) none

/-- The ids which are not used for replacing an instance -/
def NoId (id : Str) : Prop := id = [] ∨ id = ['0']

instance (id : Str) : Decidable (NoId id) := inferInstanceAs (Decidable (id = [] ∨ id = ['0']))

/-- The key a step asks for or tells about -/
def ClientOp.key (c : Client) : ClientOp → Key
  | .server (.virtualKeyState k _) => k
  | .control _ _ _ (.getState name) => c.control.virtualKey name
  | .control _ _ _ (.setState name _) => c.control.virtualKey name
  | _ => Key.none

/-- The notifications with the information about a key -/
def shown (out : List CEff) : List KeyInfo := out.filterMap (fun | .showKeyInfo i => some i | _ => none)

end KM
