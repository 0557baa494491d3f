import Verif.Model.Serial
/-!
# Sockets

Model of `src/common/Connection.cpp`: how messages get through a socket whose functions may be interrupted, may transmit only a part, or
fail. What the operating system does is given by lists of results, one for each call.
-/
namespace KM

/-! ## Sending -/

/-- The result of a call of `::send`: -1 with `EINTR`, -1 with `EWOULDBLOCK`, -1 with another error (or 0), or the number of bytes which were
accepted -/
inductive SendResult where
  | interrupted
  | wouldBlock
  | failed
  | accepted (n : Nat)
deriving DecidableEq, Repr

/-- `::send` accepts at least one byte, and not more than there are -/
def acceptedBytes (n : Nat) (buffer : Bytes) : Nat := min (max n 1) buffer.length

/-- `Connection.cpp:79-92` `send`. The result are the bytes which were accepted, the calls which were not used, and what is returned (`none`
when it is still trying) -/
def sendLoop : List SendResult → Bytes → Bytes × List SendResult × Option Bool
  | calls, [] => ([], calls, some true)
  | [], _ :: _ => ([], [], none)
  | .interrupted :: calls, b :: bs => sendLoop calls (b :: bs)
  | .wouldBlock :: calls, b :: bs => sendLoop calls (b :: bs)
  | .failed :: calls, _ :: _ => ([], calls, some false)
  | .accepted n :: calls, b :: bs =>
    let k := acceptedBytes n (b :: bs)
    let r := sendLoop calls ((b :: bs).drop k)
    ((b :: bs).take k ++ r.1, r.2)

/-- `Connection.h:105-116` `send_message`: first the size, then the message -/
def sendMessage (calls : List SendResult) (body : Bytes) : Bytes × List SendResult × Option Bool :=
  match sendLoop calls (wrU32 body.length) with
  | (a, calls, some true) => let r := sendLoop calls body; (a ++ r.1, r.2)
  | r => r

/-! ## Receiving -/

/-- The bytes which arrived and were not yet received, and whether the other side closed the connection -/
structure Pipe where
  queue : Bytes := []
  closed : Bool := false
deriving DecidableEq, Repr

/-- What happens at a call of `::recv`: -1 with `EINTR`, -1 with another error than `EINTR` and `EWOULDBLOCK`, or at most so many bytes are received -/
inductive RecvResult where
  | interrupted
  | failed
  | ready (n : Nat)
deriving DecidableEq, Repr

/-- A call of `::recv`, and the bytes which arrive before it -/
structure RecvCall where
  arrived : Bytes := []
  closes : Bool := false
  result : RecvResult
deriving DecidableEq, Repr

/-- what arrives -/
def Pipe.arrive (p : Pipe) (c : RecvCall) : Pipe := { queue := p.queue ++ c.arrived, closed := p.closed || c.closes }

/-- the number of bytes which a call of `::recv` receives, when there are some -/
def receivedBytes (n len available : Nat) : Nat := min (max n 1) (min len available)

/-- `Connection.cpp:94-114` `recv(char*, size_t)`. The result are the bytes received (`none` for -1), the calls which were not used; `none` when
it did not yet return. When there is nothing to receive, then `::recv` returns 0 if the other side closed the connection, and -1 with
`EWOULDBLOCK` otherwise. -/
def recvChars (p : Pipe) (len : Nat) : List RecvCall → Option (Option Bytes × Pipe × List RecvCall)
  | [] => if len = 0 then some (some [], p, []) else none
  | c :: calls =>
    if len = 0 then some (some [], p, c :: calls)
    else
      match c.result with
      | .interrupted => recvChars (p.arrive c) len calls
      | .failed => some (none, p.arrive c, calls)
      | .ready n =>
        let q := p.arrive c
        if q.queue.isEmpty then
          if q.closed then some (none, q, calls) else some (some [], q, calls)
        else
          let k := receivedBytes n len q.queue.length
          match recvChars { q with queue := q.queue.drop k } (len - k) calls with
          | some (some l, r) => some (some (q.queue.take k ++ l), r)
          | r => r

theorem recvChars_length {p len calls r q rest} (h : recvChars p len calls = some (r, q, rest)) :
    rest.length ≤ calls.length ∧ (len ≠ 0 → rest.length < calls.length) := by
  induction calls generalizing p len r with
  | nil =>
    unfold recvChars at h
    split at h
    · next h0 =>
      simp only [Option.some.injEq, Prod.mk.injEq] at h
      obtain ⟨_, _, rfl⟩ := h
      exact ⟨Nat.le_refl _, fun h => absurd h0 h⟩
    · simp at h
  | cons c calls ih =>
    unfold recvChars at h
    split at h
    · next h0 =>
      simp only [Option.some.injEq, Prod.mk.injEq] at h
      obtain ⟨_, _, rfl⟩ := h
      exact ⟨Nat.le_refl _, fun h => absurd h0 h⟩
    · suffices rest.length ≤ calls.length by simp only [List.length_cons]; omega
      split at h
      · exact (ih h).1
      · simp only [Option.some.injEq, Prod.mk.injEq] at h
        rw [h.2.2]; exact Nat.le_refl _
      · simp only [] at h
        split at h
        · split at h <;>
          · simp only [Option.some.injEq, Prod.mk.injEq] at h
            rw [h.2.2]; exact Nat.le_refl _
        · split at h
          · next h' =>
            simp only [Option.some.injEq, Prod.mk.injEq] at h
            obtain ⟨_, h2⟩ := h
            rw [h2] at h'
            exact (ih h').1
          · exact (ih h).1

/-- `Connection.cpp:118` `buffer_grow_size` -/
def bufferGrowSize : Nat := 1024

/-- the size of the buffer after `Connection.cpp:121-122` -/
def grownSize (pos size : Nat) : Nat := if pos = size then size + bufferGrowSize else size

/-- `Connection.cpp:116-131` `recv(std::vector<char>&)`: `content` are the bytes at the begin of the buffer of `size` bytes. The result is the
buffer (`none` when it returns false); `none` when it did not yet return. -/
def recvBuffer (p : Pipe) (content : Bytes) (size : Nat) (_hs : content.length ≤ size) (calls : List RecvCall) :
    Option (Option Bytes × Pipe × List RecvCall) :=
  match h : recvChars p (grownSize content.length size - content.length) calls with
  | none => none
  | some (none, r) => some (none, r)
  | some (some l, q, rest) =>
    if l.isEmpty then some (some content, q, rest)
    else if hl : content.length + l.length ≤ grownSize content.length size then
      recvBuffer q (content ++ l) (grownSize content.length size) (by rw [List.length_append]; exact hl) rest
    else none
termination_by calls.length
decreasing_by
  refine (recvChars_length h).2 ?_
  unfold grownSize bufferGrowSize
  split <;> omega

/-- `Connection.h:118-145` `read_messages` on a connection with the bytes `rest` of an incomplete message, when there is something to read (or
the timeout elapsed). The result is what the messages were read as, and the bytes kept (`none` when it returns false). -/
def readMessages (r : Rd α) (p : Pipe) (rest : Bytes) (calls : List RecvCall) : Option ((List α × Option Bytes) × Pipe × List RecvCall) :=
  match recvBuffer p rest rest.length (Nat.le_refl _) calls with
  | none => none
  | some (none, q) => some (([], none), q)
  | some (some buffer, q) =>
    match readLoop r { buf := buffer } with
    | (l, true, d) => some ((l, some (d.buf.drop d.pos)), q)
    | (l, false, _) => some ((l, none), q)

/-- Calls of `read_messages` until one fails, each with its calls of `::recv`. `none` when one of them did not return, or does not use all of its
calls. -/
def readAll (r : Rd α) (p : Pipe) (rest : Bytes) : List (List RecvCall) → Option (List α × Option Bytes)
  | [] => some ([], some rest)
  | calls :: more =>
    match readMessages r p rest calls with
    | some ((l, none), _, _) => some (l, none)
    | some ((l, some rest), q, []) => (readAll r q rest more).map (fun x => (l ++ x.1, x.2))
    | _ => none

end KM
