import Verif.Model.Socket
/-!
# Establishing connections

Models `src/common/Host.cpp` on Linux: how programs connect to the server (`Host::connect`), how it accepts connections (`Host::accept`), and in which order the server does this
(`connection_loop` of `src/server/unix/main.cpp`). The functions of each program are divided into the calls of the operating system, which may happen in any order: `HostStep` is
one call of one program. A call which blocks leaves everything as it is (and is made again). The hash of the version (a `size_t`) is given by its bytes.
-/
namespace KM

/-- `sizeof(size_t)` -/
abbrev hashSize : Nat := 8

/-- Where the program which connects is: `Host.cpp:183-185` sending its hash (the remaining bytes), `:187-191` waiting for the answer, `:193-194` it has the connection, or not -/
inductive ClientPhase where
  | sending (rest : Bytes)
  | waiting
  | connected
  | failed
deriving DecidableEq, Repr, Inhabited

/-- Where the server is with a connection: not yet accepted, `Host.cpp:146-148` reading the hash (the bytes read), `:155-157` answering, `:159-160` it has the connection, it closed the
connection, or `:150-153` it noticed the mismatch (and closed it) -/
inductive ServerPhase where
  | pending
  | reading (got : Bytes)
  | answering
  | connected
  | closed
  | mismatch
deriving DecidableEq, Repr, Inhabited

/-- A connection (after `::connect` succeeded): the bytes which are underway, and for the statement of properties what both programs sent and received as messages, and if the server had
the connection -/
structure Attempt where
  hash : Bytes
  client : ClientPhase
  server : ServerPhase := .pending
  clientClosed : Bool := false
  toServer : Bytes := []
  toClient : Bytes := []
  accepted : Bool := false
  clientSent : Bytes := []
  serverReceived : Bytes := []
  serverSent : Bytes := []
  clientReceived : Bytes := []
deriving DecidableEq, Repr, Inhabited

/-- the server closed the connection -/
def Attempt.serverClosed (a : Attempt) : Bool := a.server == .closed || a.server == .mismatch

/-- the phase after some bytes of the hash were sent -/
def afterSend : Bytes → ClientPhase
  | [] => .waiting
  | b :: bs => .sending (b :: bs)

/-- `Host.cpp:183-185`: a call of `::send` which accepts at most `n` bytes; it fails when the server closed the connection (`Host.cpp:70` ignores `SIGPIPE`) -/
def Attempt.clientSend (a : Attempt) (n : Nat) : Attempt :=
  match a.client with
  | .sending rest =>
    if a.serverClosed then { a with client := .failed, clientClosed := true }
    else { a with client := afterSend (rest.drop (acceptedBytes n rest)), toServer := a.toServer ++ rest.take (acceptedBytes n rest) }
  | _ => a

/-- `Host.cpp:187-194`: the call of `::recv` for the answer; it blocks until there is one, or the server closed the connection -/
def Attempt.clientRecv (a : Attempt) : Attempt :=
  match a.client with
  | .waiting =>
    match a.toClient with
    | b :: bs => if b ≠ 0 then { a with client := .connected, toClient := bs } else { a with client := .failed, clientClosed := true, toClient := bs }
    | [] => if a.serverClosed then { a with client := .failed, clientClosed := true } else a
  | _ => a

/-- The program sends a part of its messages (`Connection::send_message`) -/
def Attempt.clientMessage (a : Attempt) (bytes : Bytes) : Attempt :=
  if a.client = .connected ∧ a.clientClosed = false then { a with toServer := a.toServer ++ bytes, clientSent := a.clientSent ++ bytes } else a

/-- The program receives at most `n` bytes of messages (`Connection::read_messages`) -/
def Attempt.clientTake (a : Attempt) (n : Nat) : Attempt :=
  if a.client = .connected ∧ a.clientClosed = false then { a with toClient := a.toClient.drop n, clientReceived := a.clientReceived ++ a.toClient.take n } else a

/-- The program closes its connection, or ends -/
def Attempt.clientClose (a : Attempt) : Attempt := { a with clientClosed := true }

/-- `Host.cpp:141-144`: the server accepts the connection -/
def Attempt.accept (a : Attempt) : Attempt := { a with server := .reading [] }

/-- `Host.cpp:148-153`: the hash is complete -/
def compareHash (hash got : Bytes) : ServerPhase :=
  if got.length = hashSize then (if got = hash then .answering else .mismatch) else .reading got

/-- `Host.cpp:146-153`: a call of `::recv` which returns at most `n` bytes; it blocks until there are some, or the connection is closed (then `accept` fails) -/
def Attempt.serverRead (hash : Bytes) (a : Attempt) (n : Nat) : Attempt :=
  match a.server with
  | .reading got =>
    if a.toServer = [] then (if a.clientClosed then { a with server := .closed } else a)
    else
      let k := receivedBytes n (hashSize - got.length) a.toServer.length
      { a with server := compareHash hash (got ++ a.toServer.take k), toServer := a.toServer.drop k }
  | _ => a

/-- `Host.cpp:155-160`: the answer (`true`) is sent; this fails when the connection is closed -/
def Attempt.serverAnswer (a : Attempt) : Attempt :=
  match a.server with
  | .answering => if a.clientClosed then { a with server := .closed } else { a with server := .connected, toClient := a.toClient ++ [1], accepted := true }
  | _ => a

/-- The server sends a part of its messages -/
def Attempt.serverMessage (a : Attempt) (bytes : Bytes) : Attempt :=
  if a.server = .connected then { a with toClient := a.toClient ++ bytes, serverSent := a.serverSent ++ bytes } else a

/-- The server receives at most `n` bytes of messages -/
def Attempt.serverTake (a : Attempt) (n : Nat) : Attempt :=
  if a.server = .connected then { a with toServer := a.toServer.drop n, serverReceived := a.serverReceived ++ a.toServer.take n } else a

/-- The server closes the connection -/
def Attempt.serverClose (a : Attempt) : Attempt := if a.serverClosed then a else { a with server := .closed }

/-- The server (its hash, the connection which it handles, the connections which wait for being accepted, and if it ended because of a mismatch) and all connections -/
structure HostSys where
  hash : Bytes
  current : Option Nat := none
  backlog : List Nat := []
  exited : Bool := false
  attempts : List Attempt := []
deriving DecidableEq, Repr, Inhabited

/-- A call of a program: `connect` is a successful call of `::connect` of a program with this hash; `server` is the next call of the server while it is not connected; the last three are
what it does with the connection it has -/
inductive HostStep where
  | connect (hash : Bytes)
  | clientSend (i n : Nat)
  | clientRecv (i : Nat)
  | clientMessage (i : Nat) (bytes : Bytes)
  | clientTake (i n : Nat)
  | clientClose (i : Nat)
  | server (n : Nat)
  | serverMessage (bytes : Bytes)
  | serverTake (n : Nat)
  | serverClose
deriving DecidableEq, Repr, Inhabited

/-- change of one connection -/
def HostSys.update (s : HostSys) (i : Nat) (f : Attempt → Attempt) : HostSys := { s with attempts := s.attempts.modify i f }

/-- `server/unix/main.cpp:177-187`: after `accept` returned without a connection, the server accepts the next; after a mismatch it ends (which closes all connections) -/
def HostSys.settle (s : HostSys) (i : Nat) : HostSys :=
  match (s.attempts[i]?).map Attempt.server with
  | some .closed => { s with current := none }
  | some .mismatch => { s with current := none, backlog := [], exited := true, attempts := s.attempts.map Attempt.serverClose }
  | _ => s

/-- `Host.cpp:137-161`, `server/unix/main.cpp:175-225`: the next call of the server while it is not connected -/
def HostSys.server (s : HostSys) (n : Nat) : HostSys :=
  match s.current with
  | none =>
    match s.backlog with
    | [] => s
    | i :: rest => { (s.update i Attempt.accept) with current := some i, backlog := rest }
  | some i => (s.update i (fun a => if a.server = .answering then a.serverAnswer else a.serverRead s.hash n)).settle i

/-- the server uses the connection it has -/
def HostSys.withCurrent (s : HostSys) (f : Attempt → Attempt) : HostSys :=
  match s.current with
  | some i => s.update i f
  | none => s

/-- `server/unix/main.cpp:222`: the server closes the connection it has (when the loop ends, or receiving the configuration failed) -/
def HostSys.close (s : HostSys) : HostSys :=
  match s.current with
  | some i => if (s.attempts[i]?).map Attempt.server = some .connected then { (s.update i Attempt.serverClose) with current := none } else s
  | none => s

/-- A step of any program. After the server ended, `::connect` does not succeed. -/
def HostSys.step (s : HostSys) : HostStep → HostSys
  | .connect hash => if s.exited then s else { s with attempts := s.attempts ++ [{ hash := hash, client := .sending hash }], backlog := s.backlog ++ [s.attempts.length] }
  | .clientSend i n => s.update i (fun a => if a.clientClosed then a else a.clientSend n)
  | .clientRecv i => s.update i (fun a => if a.clientClosed then a else a.clientRecv)
  | .clientMessage i b => s.update i (fun a => a.clientMessage b)
  | .clientTake i n => s.update i (fun a => a.clientTake n)
  | .clientClose i => s.update i Attempt.clientClose
  | .server n => if s.exited then s else s.server n
  | .serverMessage b => s.withCurrent (fun a => a.serverMessage b)
  | .serverTake n => s.withCurrent (fun a => a.serverTake n)
  | .serverClose => s.close

/-- all programs, from when the server listens -/
def HostSys.run (hash : Bytes) (steps : List HostStep) : HostSys := steps.foldl HostSys.step { hash := hash }

end KM
