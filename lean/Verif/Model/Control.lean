import Verif.Model.Client
/-!
# `keymapperctl`

Models `src/control/Settings.cpp`, `src/control/main.cpp` and `src/control/ClientPort.cpp`, together with the client
it talks to. Messages are sent and received completely; the encoding of the messages is modelled in
`Verif.Model.Serial`.
-/
namespace KM

/-! ## The command line -/

/-- `Settings.h:8-26` `RequestType` -/
inductive ReqType where
  | press | release | toggle | isPressed | isReleased | waitPressed | waitReleased | waitToggled | wait
  | setInstanceId | restart | stdoutResult | setConfigFile | nextKeyInfo | injectInput | injectOutput | typeString
deriving DecidableEq, Repr, Inhabited

/-- `Settings.h:28-32` `Request`; the timeout is in milliseconds -/
structure Request where
  type : ReqType
  string : Str := []
  timeout : Option Int := none
deriving DecidableEq, Repr, Inhabited

/-- `Settings.cpp:29-34` `read_sequence`: the words up to the next option, and the rest -/
def readSequence : List Str → Str × List Str
  | [] => ([], [])
  | a :: l =>
    if a.head? = some '-' then ([], a :: l)
    else ((a ++ [' ']) ++ (readSequence l).1, (readSequence l).2)

theorem readSequence_length (l : List Str) : (readSequence l).2.length ≤ l.length := by
  induction l with
  | nil => exact Nat.le_refl _
  | cons a l ih =>
    rw [readSequence]
    split
    · exact Nat.le_refl _
    · exact Nat.le_succ_of_le ih

/-- `Settings.cpp:43-45`: the timeout is only used when it is neither negative nor longer than a day -/
def limitTimeout (n : Int) : Option Int := if n < 0 ∨ n > 86400000 then none else some n

/-- `Settings.cpp:101-111`: the operations on a virtual key -/
def keyRequest (a : Str) : Option ReqType :=
  if a = "--press".toList then some .press
  else if a = "--release".toList then some .release
  else if a = "--toggle".toList then some .toggle
  else if a = "--is-pressed".toList then some .isPressed
  else if a = "--is-released".toList then some .isReleased
  else if a = "--wait-pressed".toList then some .waitPressed
  else if a = "--wait-released".toList then some .waitReleased
  else if a = "--wait-toggled".toList then some .waitToggled
  else none

/-- `Settings.cpp:23-120`: the loop over the arguments, with the timeout of the following requests -/
def parseArgs (timeout : Option Int) : List Str → Option (List Request)
  | [] => some []
  | a :: l =>
    if a = "--timeout".toList then
      match l with
      | [] => none
      | n :: l => parseArgs (limitTimeout (atoi n)) l
    else if a = "--instance".toList then
      match l with
      | [] => none
      | id :: l => (parseArgs timeout l).map (⟨.setInstanceId, id, none⟩ :: ·)
    else if a = "--wait".toList then
      match l with
      | [] => none
      | n :: l => (parseArgs (some (atoi n)) l).map (⟨.wait, [], some (atoi n)⟩ :: ·)
    else if a = "--stdout".toList then (parseArgs timeout l).map (⟨.stdoutResult, [], none⟩ :: ·)
    else if a = "--restart".toList then (parseArgs timeout l).map (⟨.restart, [], timeout⟩ :: ·)
    else if a = "--next-key-info".toList then (parseArgs timeout l).map (⟨.nextKeyInfo, [], timeout⟩ :: ·)
    else if a = "--set-config".toList then
      match l with
      | [] => none
      | f :: l => (parseArgs timeout l).map (⟨.setConfigFile, f, timeout⟩ :: ·)
    else if a = "--input".toList then
      (parseArgs timeout (readSequence l).2).map (⟨.injectInput, (readSequence l).1, timeout⟩ :: ·)
    else if a = "--output".toList then
      (parseArgs timeout (readSequence l).2).map (⟨.injectOutput, (readSequence l).1, timeout⟩ :: ·)
    else if a = "--type".toList then
      match l with
      | [] => none
      | s :: l => (parseArgs timeout l).map (⟨.typeString, s, timeout⟩ :: ·)
    else
      match keyRequest a with
      | none => none
      | some t =>
        match l with
        | [] => none
        | s :: l => (parseArgs timeout l).map (⟨t, s, timeout⟩ :: ·)
termination_by l => l.length
decreasing_by all_goals (simp_wf; try (have := readSequence_length l); omega)

/-- `Settings.cpp:20-125` `interpret_commandline`, for the arguments after the name of the program -/
def interpretCommandline (args : List Str) : Option (List Request) :=
  match parseArgs none args with
  | some (r :: l) => some (r :: l)
  | _ => none

/-! ## Talking to the client -/

/-- `main.cpp:8-15` `Result` -/
inductive CtlResult where
  | yes | no | invalidArguments | connectionFailed | timeout | keyNotFound
deriving DecidableEq, Repr, Inhabited

/-- The code of a result -/
def CtlResult.code : CtlResult → Nat
  | .yes => 0 | .no => 1 | .invalidArguments => 2 | .connectionFailed => 3 | .timeout => 4 | .keyNotFound => 5

/-- The client `keymapperctl` is connected to, and the socket of the connection -/
structure CtlHost where
  env : ClientEnv
  fs : FileSys
  filename : Str
  socket : Nat

/-- The client and `keymapperctl` at some moment -/
structure CtlSys where
  /-- what the client did since it was started -/
  hist : List ClientOp := []
  /-- the messages which were sent but not handled by the client yet -/
  sent : List CtlMsg := []
  /-- the number of messages which were read -/
  read : Nat := 0
  /-- `g_instance_id` -/
  instanceId : Str := []
  /-- what was output -/
  codes : List CtlResult := []
  infos : List KeyInfo := []

/-- What happens while `keymapperctl` waits -/
inductive SysOp where
  /-- the client does something -/
  | client (op : ClientOp)
  /-- the client handles the next message -/
  | handle (fs : FileSys) (upd : Option Window)

/-- The client -/
def CtlSys.client (h : CtlHost) (s : CtlSys) : Client := (Client.start h.env h.fs h.filename).run h.env s.hist

/-- Something happens while `keymapperctl` waits -/
def CtlSys.step (h : CtlHost) (s : CtlSys) : SysOp → CtlSys
  | .client op => { s with hist := s.hist ++ [op] }
  | .handle fs upd =>
    match s.sent with
    | [] => s
    | m :: l => { s with hist := s.hist ++ [.control fs upd h.socket m], sent := l }

/-- Something happens while `keymapperctl` waits -/
def CtlSys.run (h : CtlHost) (s : CtlSys) (ops : List SysOp) : CtlSys := ops.foldl (CtlSys.step h) s

/-- Is the connection open -/
def CtlSys.connected (h : CtlHost) (s : CtlSys) : Bool :=
  (s.client h).control.controls.any (fun x => x.socket == h.socket)

/-- The messages which can be read -/
def CtlSys.pending (h : CtlHost) (s : CtlSys) : List CtlReply :=
  ((s.client h).out.filterMap (fun
    | .control s' r => if s' = h.socket then some r else none
    | _ => none)).drop s.read

/-- `ClientPort.cpp:81-96`: reading the messages fails when there is another message -/
def lastState : List CtlReply → Option KeyState → Option (Option KeyState)
  | [], st => some st
  | .keyState _ st :: l, _ => lastState l (some st)
  | .keyInfo _ :: _, _ => none

/-- `main.cpp:26-33` `read_virtual_key_state` and `ClientPort.cpp:81-96`: everything which can be read after waiting is
read, the last state is the result. -/
def CtlSys.readState (h : CtlHost) (s : CtlSys) : CtlResult × Option KeyState × CtlSys :=
  if !s.connected h then (.connectionFailed, none, s)
  else
    match lastState (s.pending h) none with
    | none => (.connectionFailed, none, s)
    | some none => (.timeout, none, s)
    | some (some st) => (.yes, some st, { s with read := s.read + (s.pending h).length })

/-- `ClientPort.cpp:98-112`: reading the messages fails when there is another message -/
def lastInfo : List CtlReply → Option KeyInfo → Option (Option KeyInfo)
  | [], i => some i
  | .keyInfo i :: l, _ => lastInfo l (some i)
  | .keyState _ _ :: _, _ => none

/-- Send a message and wait (`main.cpp:35-54`): `ops` happens until something was received, or until the timeout -/
def CtlSys.request (h : CtlHost) (s : CtlSys) (m : CtlMsg) (ops : List SysOp) : CtlResult × Option KeyState × CtlSys :=
  if !s.connected h then (.connectionFailed, none, s)
  else (({ s with sent := s.sent ++ [m] } : CtlSys).run h ops).readState h

/-- `main.cpp:56-60` `to_result` -/
def toResult (r : CtlResult) (st : Option KeyState) : CtlResult :=
  if r ≠ .yes then r else if st = some .Down then .yes else .no

/-- `main.cpp:81-92` `request_next_key_info` -/
def CtlSys.requestInfo (h : CtlHost) (s : CtlSys) (ops : List SysOp) : CtlResult × CtlSys :=
  if !s.connected h then (.connectionFailed, s)
  else
    let s := ({ s with sent := s.sent ++ [.nextKeyInfo] } : CtlSys).run h ops
    if !s.connected h then (.connectionFailed, s)
    else
      match lastInfo (s.pending h) none with
      | none => (.connectionFailed, s)
      | some none => (.timeout, s)
      | some (some i) => (.yes, { s with read := s.read + (s.pending h).length, infos := s.infos ++ [i] })

/-- `main.cpp:114-127`: press, release and toggle -/
def CtlSys.setKey (h : CtlHost) (s : CtlSys) (key : Str) (st : KeyState) (ops : List SysOp) : CtlResult × CtlSys :=
  let r := s.request h (.setState key st) ops
  (if r.1 = .yes then (if r.2.1 = some .Up ∨ r.2.1 = some .Down then .yes else .keyNotFound) else r.1, r.2.2)

/-- `main.cpp:129-144`: is a key pressed or released -/
def CtlSys.isKey (h : CtlHost) (s : CtlSys) (key : Str) (pressed : Bool) (ops : List SysOp) : CtlResult × CtlSys :=
  let r := s.request h (.getState key) ops
  (if r.1 = .yes then
      (if r.2.1 = some .Down then (if pressed then .yes else .no)
       else if r.2.1 = some .Up then (if pressed then .no else .yes)
       else .keyNotFound)
    else r.1, r.2.2)

/-- `main.cpp:146-158`: wait until a key is pressed, released or toggled -/
def CtlSys.waitKey (h : CtlHost) (s : CtlSys) (key : Str) (until_ : Option KeyState) (ops1 ops2 : List SysOp) :
    CtlResult × CtlSys :=
  let r := s.request h (.getState key) ops1
  if r.1 = .yes then
    (if until_.isSome ∧ r.2.1 = until_ then (.yes, r.2.2)
     else
       let q := r.2.2.request h (.requestToggle key) ops2
       (q.1, q.2.2))
  else (r.1, r.2.2)

/-- `main.cpp:112-191` `make_request`. `ops1` and `ops2` happen while it waits for the first and the second reply.
`absolute` is the absolute path of a configuration (`main.cpp:72-75`; it fails when the current directory does not exist). -/
def CtlSys.makeRequest (h : CtlHost) (absolute : Str → Option Str) (s : CtlSys) (req : Request) (last : CtlResult)
    (ops1 ops2 : List SysOp) : CtlResult × CtlSys :=
  match req.type with
  | .press => s.setKey h req.string .Down ops1
  | .release => s.setKey h req.string .Up ops1
  | .toggle => s.setKey h req.string .Not ops1
  | .isPressed => s.isKey h req.string true ops1
  | .isReleased => s.isKey h req.string false ops1
  | .waitPressed => s.waitKey h req.string (some .Down) ops1 ops2
  | .waitReleased => s.waitKey h req.string (some .Up) ops1 ops2
  | .waitToggled => s.waitKey h req.string none ops1 ops2
  | .wait => (last, s.run h ops1)
  | .setInstanceId =>
    if !s.connected h then (.connectionFailed, s)
    else
      let r := ({ s with instanceId := req.string } : CtlSys).request h (.setInstanceId req.string) ops1
      (r.1, r.2.2)
  | .stdoutResult => (last, { s with codes := s.codes ++ [last] })
  | .restart => (last, s)
  | .setConfigFile =>
    match absolute req.string with
    | none => (.keyNotFound, s)
    | some f =>
      let r := s.request h (.setConfigFile f) ops1
      (toResult r.1 r.2.1, r.2.2)
  | .nextKeyInfo => s.requestInfo h ops1
  | .injectInput =>
    let r := s.request h (.injectInput req.string) ops1
    (toResult r.1 r.2.1, r.2.2)
  | .injectOutput =>
    let r := s.request h (.injectOutput req.string) ops1
    (toResult r.1 r.2.1, r.2.2)
  | .typeString =>
    let r := s.request h (.injectOutput ('"' :: (req.string ++ ['"']))) ops1
    (toResult r.1 r.2.1, r.2.2)

/-- `main.cpp:212-226`: the requests up to the end or the first restart; each one comes with what happens while it waits.
The result tells if it starts again (from the first request, connecting again when the connection failed). -/
def CtlSys.pass (h : CtlHost) (absolute : Str → Option Str) (s : CtlSys) (result : CtlResult) :
    List (Request × List SysOp × List SysOp) → CtlResult × Bool × CtlSys
  | [] => (result, false, s)
  | (req, ops1, ops2) :: l =>
    if req.type = .restart then
      (result, !(result == .connectionFailed && s.instanceId != [] && s.instanceId != ['0']), s)
    else
      let r := s.makeRequest h absolute req result ops1 ops2
      r.2.pass h absolute r.1 l

end KM

namespace KM

/-- What happens during one pass over the requests: while they wait, and when it connects again. `reconnect` is the socket of the new
connection, or `none` when it cannot connect within the timeout (`ClientPort.cpp:8-11`, the timeout itself is not modelled). That the
client notices that the previous connection was closed is one of the operations of a later wait. -/
structure PassEvents where
  waits : List (List SysOp × List SysOp) := []
  reconnect : Option Nat := none

/-- `main.cpp:207-227` `main`, after the first connection was opened: the passes over the requests, for the events of each. The result is
the code with which it ends, `none` when it is still running. -/
def CtlSys.main (absolute : Str → Option Str) (requests : List Request) :
    CtlHost → CtlSys → CtlResult → List PassEvents → Option CtlResult × CtlSys
  | _, s, _, [] => (none, s)
  | h, s, result, p :: ps =>
    let r := s.pass h absolute result (requests.zipIdx.map (fun x => (x.1, (p.waits[x.2]?).getD ([], []))))
    if r.2.1 then
      if r.1 = .connectionFailed then
        match p.reconnect with
        | none => (some .connectionFailed, r.2.2)
        | some socket =>
          CtlSys.main absolute requests { h with socket := socket }
            { r.2.2 with hist := r.2.2.hist ++ [.accept socket], sent := [], read := 0 } r.1 ps
      else CtlSys.main absolute requests h r.2.2 r.1 ps
    else (some r.1, r.2.2)

end KM
