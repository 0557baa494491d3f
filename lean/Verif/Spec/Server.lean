import Verif.Model.ServerLoop
/-!
# Specification: histories of the server
-/
namespace KM

/-- What happens to the server: iterations of its main loop, and outside of it (while connecting):
messages of the client, the grabbed devices, the reset at the end of a connection
(`unix/main.cpp:78-86, 174-221`). -/
inductive SrvOp where
  | loop (it : Iteration)
  | message (m : Msg)
  | devices (l : List DeviceDesc)
  | reset

/-- The server after something happened -/
def srvStep (rx : Regex) (s : Srv) : SrvOp → Srv
  | .loop it => (s.iterate rx it).1
  | .message m => s.onMessage rx m
  | .devices l => s.setDeviceDescs rx l
  | .reset => s.resetConfiguration rx (Srv.flush rx) {}

/-- The server after a history; `out` are all its effects, in order. -/
def srvRun (rx : Regex) (s : Srv) (ops : List SrvOp) : Srv := ops.foldl (srvStep rx) s

/-- The messages of a client in a history -/
def SrvOp.messages : SrvOp → List Msg
  | .loop it => it.messages
  | .message m => [m]
  | _ => []

/-- Does the message replace the configuration -/
def Msg.isConfiguration : Msg → Bool
  | .configuration _ => true
  | _ => false

/-- The configuration is not replaced. -/
def SrvOp.keepsConfiguration : SrvOp → Bool
  | .reset => false
  | op => op.messages.all (fun m => !m.isConfiguration)

/-- Is the message a request for the next key -/
def Msg.isKeyRequest : Msg → Bool
  | .requestNextKeyInfo => true
  | _ => false

/-- How often a client asked for the next key -/
def keyRequests (ops : List SrvOp) : Nat := (ops.flatMap SrvOp.messages).countP Msg.isKeyRequest

/-- Is the effect the reply to a request for the next key -/
def Eff.isReply : Eff → Bool
  | .nextKeyInfo _ _ => true
  | _ => false

/-- Is the effect the announcement of the state of a virtual key -/
def Eff.isAnnouncement : Eff → Bool
  | .virtualKeyState _ _ => true
  | _ => false

/-- The virtual keys which someone who is only told about changes takes for pressed: each
announcement has to tell something new. -/
def told (pressed : List Key) : List Eff → Option (List Key)
  | [] => some pressed
  | .virtualKeyState k .Down :: l => if k ∈ pressed then none else told (pressed ++ [k]) l
  | .virtualKeyState k .Up :: l => if k ∈ pressed then told (pressed.erase k) l else none
  | .virtualKeyState _ _ :: _ => none
  | _ :: l => told pressed l

/-- The virtual keys which are pressed when everything is told, except that all virtual keys are released `n` times without telling it -/
inductive ToldAcross : Nat → List Key → List Eff → List Key → Prop
  | told {pressed l pressed'} (h : told pressed l = some pressed') : ToldAcross 0 pressed l pressed'
  | released {n pressed l pressed' rest pressed''} (h : KM.told pressed l = some pressed') (hr : ToldAcross n [] rest pressed'') :
      ToldAcross (n + 1) pressed (l ++ rest) pressed''

/-- How often the configuration is replaced -/
def SrvOp.replacements : SrvOp → Nat
  | .reset => 1
  | op => op.messages.countP (·.isConfiguration)

/-- The state of a key after it is pressed, released or toggled -/
def requested (st : KeyState) (before : Prop) : Prop :=
  match st with
  | .Down => True
  | .Up => False
  | _ => ¬ before

/-- The virtual keys which the server holds pressed -/
def Srv.pressedVirtual (s : Srv) : List Key := s.virtualDown.filter (fun k => decide (0xF100 ≤ k ∧ k ≤ 0xF1FF))

end KM
