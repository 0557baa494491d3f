import Verif.Lemmas.Control
import Verif.Props.ControlLimits
/-!
# The results of `keymapperctl`

**C65** The result code of an operation tells what happened.
-/
namespace KM

/-- While `keymapperctl` waits, the client does `pre`, handles the message, and does `post`. -/
def handled (pre : List ClientOp) (f : FileSys) (u : Option Window) (post : List ClientOp) : List SysOp :=
  pre.map SysOp.client ++ .handle f u :: post.map SysOp.client

/-- The client of a host after a history -/
def CtlHost.after (h : CtlHost) (ops : List ClientOp) : Client := (Client.start h.env h.fs h.filename).run h.env ops

theorem CtlHost.after_append (h : CtlHost) (a b : List ClientOp) : h.after (a ++ b) = (h.after a).run h.env b :=
  run_append _ _ _ _

theorem CtlHost.inv (h : CtlHost) (ops : List ClientOp) : PortInv (h.after ops) :=
  (start_port h.env h.fs h.filename).run h.env ops

/-- The client handled a message while `keymapperctl` waited -/
def CtlSys.afterRequest (h : CtlHost) (s : CtlSys) (m : CtlMsg) (pre : List ClientOp) (f : FileSys) (u : Option Window)
    (post : List ClientOp) : CtlSys :=
  { s with hist := s.hist ++ pre ++ .control f u h.socket m :: post, sent := [] }

theorem CtlSys.run_handled (h : CtlHost) (s : CtlSys) (hs : s.sent = []) (m : CtlMsg) (pre post : List ClientOp)
    (f : FileSys) (u : Option Window) :
    ({ s with sent := s.sent ++ [m] } : CtlSys).run h (handled pre f u post) = s.afterRequest h m pre f u post := by
  rw [handled, CtlSys.run_handle h _ m (by simp [hs])]
  rfl

/-- What is to be read after a request, and that nothing is outstanding then -/
theorem afterRequest_replies (h : CtlHost) (s : CtlSys) (hi : s.Idle h) (m : CtlMsg) (pre post : List ClientOp) (f : FileSys)
    (u : Option Window) (ht : ∀ name, m ≠ .requestToggle name) (hn : m ≠ .nextKeyInfo)
    (hpre : ∀ op ∈ pre, ForeignOp h.socket op) (hpost : ∀ op ∈ post, ForeignOp h.socket op)
    (ho : (h.after (s.hist ++ pre ++ .control f u h.socket m :: post)).isOpen h.socket = true) :
    repliesTo h.socket (h.after (s.hist ++ pre ++ .control f u h.socket m :: post)).out =
      repliesTo h.socket (h.after s.hist).out ++ requestReplies h.env (h.after (s.hist ++ pre)) f u m ∧
    WaitsFor (h.after (s.hist ++ pre ++ .control f u h.socket m :: post)) h.socket Key.none := by
  have hno : isVirtualKey Key.none = false := by decide
  obtain ⟨h1, h2⟩ := foreign_run h.env (h.after s.hist) (h.inv _) h.socket Key.none pre hi.waits hpre
    (fun hv => by rw [hno] at hv; cases hv)
  rw [← CtlHost.after_append] at h1 h2
  have hsplit : h.after (s.hist ++ pre ++ .control f u h.socket m :: post) =
      ((h.after (s.hist ++ pre)).step h.env (.control f u h.socket m)).run h.env post := by
    rw [CtlHost.after_append]; rfl
  rw [hsplit] at ho ⊢
  have hinv2 := (h.inv (s.hist ++ pre)).step h.env (.control f u h.socket m)
  have ho2 := foreign_run_closed h.env _ hinv2 h.socket post hpost ho
  have ho1 : (h.after (s.hist ++ pre)).isOpen h.socket = true := by
    rw [isOpen_iff, ctl_after h.env _ (h.inv _)] at ho2
    rw [isOpen_iff]
    replace ho2 : Option.isSome (if h.socket = h.socket then _ else _) = true := ho2
    rw [if_pos rfl] at ho2
    cases hx : ctlOf h.socket (h.after (s.hist ++ pre)).control.controls with
    | some x => rfl
    | none =>
      rw [hx] at ho2
      cases m with
      | requestToggle name => exact absurd rfl (ht name)
      | _ => cases ho2
  have h3 := request_waits h.env _ (h.inv (s.hist ++ pre)) h.socket f u m h1 ht hn
  obtain ⟨h4, h5⟩ := foreign_run h.env _ hinv2 h.socket Key.none post h3 hpost (fun hv => by rw [hno] at hv; cases hv)
  refine ⟨?_, h4⟩
  rw [h5, (step_port h.env _ _).2.2.2 h.socket, h2]
  congr 1
  show (if h.socket = h.socket ∧ _ then _ else _) = _
  rw [if_pos ⟨rfl, ho1⟩]

theorem CtlSys.Idle.connected_of {h : CtlHost} {s : CtlSys} {ops : List ClientOp}
    (hf : ∀ op ∈ ops, ForeignOp h.socket op) (ho : (h.after (s.hist ++ ops)).isOpen h.socket = true) :
    s.connected h = true := by
  rw [CtlHost.after_append] at ho
  exact foreign_run_closed h.env _ (h.inv _) h.socket ops hf ho

/-- The reply to a request -/
theorem request_replied (h : CtlHost) (s : CtlSys) (hi : s.Idle h) (m : CtlMsg) (pre post : List ClientOp) (f : FileSys)
    (u : Option Window) (ht : ∀ name, m ≠ .requestToggle name) (hn : m ≠ .nextKeyInfo)
    (hpre : ∀ op ∈ pre, ForeignOp h.socket op) (hpost : ∀ op ∈ post, ForeignOp h.socket op)
    (ho : (h.after (s.hist ++ pre ++ .control f u h.socket m :: post)).isOpen h.socket = true)
    (hs : s.connected h = true) (k : Key) (st : KeyState)
    (hr : requestReplies h.env (h.after (s.hist ++ pre)) f u m = [.keyState k st]) :
    s.request h m (handled pre f u post) =
      (.yes, some st, { s.afterRequest h m pre f u post with read := s.read + 1 }) ∧
    ({ s.afterRequest h m pre f u post with read := s.read + 1 } : CtlSys).Idle h := by
  obtain ⟨h1, h2⟩ := afterRequest_replies h s hi m pre post f u ht hn hpre hpost ho
  rw [hr] at h1
  have hp : (s.afterRequest h m pre f u post).pending h = [.keyState k st] := by
    show (repliesTo h.socket (h.after (s.hist ++ pre ++ .control f u h.socket m :: post)).out).drop s.read = _
    rw [h1, hi.read]
    exact List.drop_left
  refine ⟨?_, ?_⟩
  · rw [CtlSys.request, hs]
    simp only [Bool.not_true, Bool.false_eq_true, if_false]
    rw [CtlSys.run_handled h s hi.sent, CtlSys.readState,
      show (s.afterRequest h m pre f u post).connected h = true from ho]
    simp only [Bool.not_true, Bool.false_eq_true, if_false]
    rw [hp]
    rfl
  · refine ⟨rfl, ?_, h2⟩
    show s.read + 1 = (repliesTo h.socket (h.after (s.hist ++ pre ++ .control f u h.socket m :: post)).out).length
    rw [h1, hi.read, List.length_append]
    rfl

/-- The reply when a key is asked for or set -/
theorem state_reply (h : CtlHost) (ops : List ClientOp) (hc : connectedAfter ops = true) (config : Config)
    (hv : (serverView (h.after ops).out).config = some config) (name : Str) (k : Key) (hd : Denotes config name k)
    (hk : k < Key.last_virtual) :
    (h.after ops).control.virtualKey name = k ∧
    (h.after ops).control.keyState k = stateOf (toldDown k ops) := by
  have hcon := run_connected h.env (Client.start h.env h.fs h.filename) ops
  rw [(start_flags h.env h.fs h.filename).2] at hcon
  obtain ⟨config', hv', ha⟩ := (start_aliases h.env h.fs h.filename).run h.env ops (hcon.trans hc)
  replace hv' : (serverView (h.after ops).out).config = some config' := hv'
  rw [hv] at hv'; cases hv'
  exact ⟨virtualKey_denoted _ config name k ha hd, table_follows h.env h.fs h.filename ops k hd.1 hk⟩

theorem unknown_reply (h : CtlHost) (ops : List ClientOp) (hc : connectedAfter ops = true) (config : Config)
    (hv : (serverView (h.after ops).out).config = some config) (name : Str) (hd : ∀ k, ¬ Denotes config name k) :
    (h.after ops).control.virtualKey name = Key.none := by
  have hcon := run_connected h.env (Client.start h.env h.fs h.filename) ops
  rw [(start_flags h.env h.fs h.filename).2] at hcon
  obtain ⟨config', hv', ha⟩ := (start_aliases h.env h.fs h.filename).run h.env ops (hcon.trans hc)
  replace hv' : (serverView (h.after ops).out).config = some config' := hv'
  rw [hv] at hv'; cases hv'
  exact virtualKey_unknown _ config name ha hd

/-- What happened until the client handled a request: it is connected to the server which has this configuration, the
connection is open until the reply is read. -/
structure Served (h : CtlHost) (s : CtlSys) (m : CtlMsg) (pre : List ClientOp) (f : FileSys) (u : Option Window)
    (post : List ClientOp) (config : Config) : Prop where
  idle : s.Idle h
  connected : s.connected h = true
  before : ∀ op ∈ pre, ForeignOp h.socket op
  after : ∀ op ∈ post, ForeignOp h.socket op
  isOpen : (h.after (s.hist ++ pre ++ .control f u h.socket m :: post)).isOpen h.socket = true
  server : connectedAfter (s.hist ++ pre) = true
  config : (serverView (h.after (s.hist ++ pre)).out).config = some config

/-- **C65** (is pressed, is released): the result tells if the key was down when the client handled the request; nothing is
outstanding afterwards. -/
theorem C65_is_pressed (h : CtlHost) (abs : Str → Option Str) (s : CtlSys) (name : Str) (timeout : Option Int)
    (last : CtlResult) (pre post : List ClientOp) (f : FileSys) (u : Option Window) (ops2 : List SysOp) (config : Config)
    (hs : Served h s (.getState name) pre f u post config) (k : Key) (hd : Denotes config name k)
    (hk : k < Key.last_virtual) :
    (s.makeRequest h abs ⟨.isPressed, name, timeout⟩ last (handled pre f u post) ops2).1 =
      (if toldDown k (s.hist ++ pre) then .yes else .no) ∧
    (s.makeRequest h abs ⟨.isReleased, name, timeout⟩ last (handled pre f u post) ops2).1 =
      (if toldDown k (s.hist ++ pre) then .no else .yes) ∧
    (s.makeRequest h abs ⟨.isPressed, name, timeout⟩ last (handled pre f u post) ops2).2.Idle h := by
  obtain ⟨e1, e2⟩ := state_reply h _ hs.server config hs.config name k hd hk
  obtain ⟨r1, r2⟩ := request_replied h s hs.idle (.getState name) pre post f u (by simp) (by simp) hs.before hs.after
    hs.isOpen hs.connected k (stateOf (toldDown k (s.hist ++ pre))) (by
      show [CtlReply.keyState _ _] = _
      rw [e1, e2])
  refine ⟨?_, ?_, ?_⟩
  · show (s.isKey h name true (handled pre f u post)).1 = _
    rw [CtlSys.isKey, r1]
    cases toldDown k (s.hist ++ pre) <;> rfl
  · show (s.isKey h name false (handled pre f u post)).1 = _
    rw [CtlSys.isKey, r1]
    cases toldDown k (s.hist ++ pre) <;> rfl
  · show (s.isKey h name true (handled pre f u post)).2.Idle h
    rw [CtlSys.isKey, r1]
    exact r2

/-- **C65** (unknown keys): the result tells that no virtual key has the name. -/
theorem C65_not_found (h : CtlHost) (abs : Str → Option Str) (s : CtlSys) (name : Str) (timeout : Option Int)
    (last : CtlResult) (pre post : List ClientOp) (f : FileSys) (u : Option Window) (ops2 : List SysOp) (config : Config)
    (hd : ∀ k, ¬ Denotes config name k) :
    (Served h s (.getState name) pre f u post config →
      (s.makeRequest h abs ⟨.isPressed, name, timeout⟩ last (handled pre f u post) ops2).1 = .keyNotFound ∧
      (s.makeRequest h abs ⟨.isReleased, name, timeout⟩ last (handled pre f u post) ops2).1 = .keyNotFound) ∧
    (∀ st t, (t, st) ∈ [(ReqType.press, KeyState.Down), (.release, .Up), (.toggle, .Not)] →
      Served h s (.setState name st) pre f u post config →
      (s.makeRequest h abs ⟨t, name, timeout⟩ last (handled pre f u post) ops2).1 = .keyNotFound) := by
  refine ⟨fun hs => ?_, fun st t ht hs => ?_⟩
  · have e1 := unknown_reply h _ hs.server config hs.config name hd
    obtain ⟨r1, -⟩ := request_replied h s hs.idle (.getState name) pre post f u (by simp) (by simp) hs.before hs.after
      hs.isOpen hs.connected Key.none .Not (by
        show [CtlReply.keyState _ _] = _
        rw [e1]; rfl)
    refine ⟨?_, ?_⟩
    · show (s.isKey h name true (handled pre f u post)).1 = _
      rw [CtlSys.isKey, r1]
      rfl
    · show (s.isKey h name false (handled pre f u post)).1 = _
      rw [CtlSys.isKey, r1]
      rfl
  · have e1 := unknown_reply h _ hs.server config hs.config name hd
    obtain ⟨r1, -⟩ := request_replied h s hs.idle (.setState name st) pre post f u (by simp) (by simp) hs.before hs.after
      hs.isOpen hs.connected Key.none .Not (by
        show [CtlReply.keyState _ _] = _
        rw [e1]; rfl)
    have : (s.makeRequest h abs ⟨t, name, timeout⟩ last (handled pre f u post) ops2) =
        s.setKey h name st (handled pre f u post) := by
      simp at ht
      rcases ht with ⟨rfl, rfl⟩ | ⟨rfl, rfl⟩ | ⟨rfl, rfl⟩ <;> rfl
    rw [this, CtlSys.setKey, r1]
    rfl

theorem toServer_append (a b : List CEff) : toServer (a ++ b) = toServer a ++ toServer b := by simp [toServer]

theorem toServer_replies (l : List (Nat × CtlReply)) : toServer (l.map (fun x => CEff.control x.1 x.2)) = [] := by
  rw [toServer, List.filterMap_eq_nil_iff]
  intro e he
  obtain ⟨x, -, rfl⟩ := List.mem_map.mp he
  rfl

/-- **C65** (press, release, toggle): the server is told to do it, the result tells that it was. -/
theorem C65_press (h : CtlHost) (abs : Str → Option Str) (s : CtlSys) (name : Str) (timeout : Option Int)
    (last : CtlResult) (pre post : List ClientOp) (f : FileSys) (u : Option Window) (ops2 : List SysOp) (config : Config)
    (st : KeyState) (t : ReqType) (ht : (t, st) ∈ [(ReqType.press, KeyState.Down), (.release, .Up), (.toggle, .Not)])
    (hs : Served h s (.setState name st) pre f u post config) (k : Key) (hd : Denotes config name k)
    (hk : k < Key.last_virtual) :
    (s.makeRequest h abs ⟨t, name, timeout⟩ last (handled pre f u post) ops2).1 = .yes ∧
    (s.makeRequest h abs ⟨t, name, timeout⟩ last (handled pre f u post) ops2).2.Idle h ∧
    toServer (h.after (s.hist ++ pre ++ [.control f u h.socket (.setState name st)])).out =
      toServer (h.after (s.hist ++ pre)).out ++ [.setVirtualKeyState k st] := by
  obtain ⟨e1, e2⟩ := state_reply h _ hs.server config hs.config name k hd hk
  obtain ⟨r1, r2⟩ := request_replied h s hs.idle (.setState name st) pre post f u (by simp) (by simp) hs.before hs.after
    hs.isOpen hs.connected k (stateOf (toldDown k (s.hist ++ pre))) (by
      show [CtlReply.keyState _ _] = _
      rw [e1, e2])
  have hreq : (s.makeRequest h abs ⟨t, name, timeout⟩ last (handled pre f u post) ops2) =
      s.setKey h name st (handled pre f u post) := by
    simp at ht
    rcases ht with ⟨rfl, rfl⟩ | ⟨rfl, rfl⟩ | ⟨rfl, rfl⟩ <;> rfl
  refine ⟨?_, ?_, ?_⟩
  · rw [hreq, CtlSys.setKey, r1]
    cases toldDown k (s.hist ++ pre) <;> rfl
  · rw [hreq, CtlSys.setKey, r1]
    exact r2
  · have hopen : (h.after (s.hist ++ pre)).isOpen h.socket = true := by
      have ho := hs.isOpen
      rw [CtlHost.after_append] at ho
      have ho2 := foreign_run_closed h.env _ ((h.inv (s.hist ++ pre)).step h.env
        (.control f u h.socket (.setState name st))) h.socket post hs.after ho
      rw [isOpen_iff, ctl_after h.env _ (h.inv _)] at ho2
      rw [isOpen_iff]
      replace ho2 : Option.isSome (if h.socket = h.socket then _ else _) = true := ho2
      rwa [if_pos rfl] at ho2
    have hcon := run_connected h.env (Client.start h.env h.fs h.filename) (s.hist ++ pre)
    rw [(start_flags h.env h.fs h.filename).2] at hcon
    replace hcon : (h.after (s.hist ++ pre)).isConnected = true := hcon.trans hs.server
    rw [CtlHost.after_append]
    show toServer (Client.out (if (h.after (s.hist ++ pre)).isOpen h.socket = true then _ else _)) = _
    rw [if_pos hopen]
    show toServer ((Client.send (h.after (s.hist ++ pre)) _).setControl _).out = _
    rw [Client.setControl, Client.send, if_pos hcon]
    simp only []
    rw [toServer_append, toServer_replies, toServer_append, e1]
    rw [List.append_nil]; rfl

/-- **C65** (inject, type): the result tells if the sequence could be parsed. -/
theorem C65_inject (h : CtlHost) (abs : Str → Option Str) (s : CtlSys) (text : Str) (timeout : Option Int)
    (last : CtlResult) (pre post : List ClientOp) (f : FileSys) (u : Option Window) (ops2 : List SysOp) (config : Config) :
    (Served h s (.injectInput text) pre f u post config →
      (s.makeRequest h abs ⟨.injectInput, text, timeout⟩ last (handled pre f u post) ops2).1 =
        (if (injectedSequence h.env text).isSome then .yes else .no)) ∧
    (Served h s (.injectOutput text) pre f u post config →
      (s.makeRequest h abs ⟨.injectOutput, text, timeout⟩ last (handled pre f u post) ops2).1 =
        (if (injectedSequence h.env text).isSome then .yes else .no)) ∧
    (Served h s (.injectOutput ('"' :: (text ++ ['"']))) pre f u post config →
      (s.makeRequest h abs ⟨.typeString, text, timeout⟩ last (handled pre f u post) ops2).1 =
        (if (injectedSequence h.env ('"' :: (text ++ ['"']))).isSome then .yes else .no)) := by
  refine ⟨fun hs => ?_, fun hs => ?_, fun hs => ?_⟩ <;>
    (obtain ⟨r1, -⟩ := request_replied h s hs.idle _ pre post f u (by simp) (by simp) hs.before hs.after
      hs.isOpen hs.connected _ _ rfl
     rw [CtlSys.makeRequest]
     simp only [r1]
     rw [toResult, if_neg (by simp)]
     cases Option.isSome _ <;> rfl)

/-- **C65** (set configuration): the result tells if the configuration is used. -/
theorem C65_set_config (h : CtlHost) (abs : Str → Option Str) (s : CtlSys) (file path : Str) (ha : abs file = some path)
    (timeout : Option Int) (last : CtlResult) (pre post : List ClientOp) (f : FileSys) (u : Option Window)
    (ops2 : List SysOp) (config : Config) (hs : Served h s (.setConfigFile path) pre f u post config) :
    (s.makeRequest h abs ⟨.setConfigFile, file, timeout⟩ last (handled pre f u post) ops2).1 =
      (if ((h.after (s.hist ++ pre)).onSetConfigFile h.env f u path).2 then .yes else .no) := by
  obtain ⟨r1, -⟩ := request_replied h s hs.idle (.setConfigFile path) pre post f u (by simp) (by simp) hs.before hs.after
    hs.isOpen hs.connected _ _ rfl
  rw [CtlSys.makeRequest]
  simp only [ha, r1]
  rw [toResult, if_neg (by simp)]
  cases (Client.onSetConfigFile _ _ _ _ _).2 <;> rfl

/-- Requests which are sent to the client -/
def ReqType.isSent : ReqType → Bool
  | .wait | .stdoutResult | .restart => false
  | _ => true

theorem request_closed (h : CtlHost) (s : CtlSys) (m : CtlMsg) (ops : List SysOp)
    (hc : s.connected h = false ∨ (({ s with sent := s.sent ++ [m] } : CtlSys).run h ops).connected h = false) :
    (s.request h m ops).1 = .connectionFailed := by
  rw [CtlSys.request]
  cases hcon : s.connected h with
  | false => rfl
  | true =>
    have hc := hc.resolve_left (by rw [hcon]; simp)
    simp only [Bool.not_true, Bool.false_eq_true, if_false]
    rw [CtlSys.readState, hc]
    rfl

/-- The message of a request, the first one when it needs two -/
def Request.message (abs : Str → Option Str) (req : Request) : Option CtlMsg :=
  match req.type with
  | .press => some (.setState req.string .Down)
  | .release => some (.setState req.string .Up)
  | .toggle => some (.setState req.string .Not)
  | .isPressed | .isReleased | .waitPressed | .waitReleased | .waitToggled => some (.getState req.string)
  | .setInstanceId => some (.setInstanceId req.string)
  | .setConfigFile => (abs req.string).map .setConfigFile
  | .nextKeyInfo => some .nextKeyInfo
  | .injectInput => some (.injectInput req.string)
  | .injectOutput => some (.injectOutput req.string)
  | .typeString => some (.injectOutput ('"' :: (req.string ++ ['"'])))
  | .wait | .stdoutResult | .restart => none

theorem connected_setId (h : CtlHost) (s : CtlSys) (id : Str) (m : CtlMsg) (ops : List SysOp) :
    (({ s with instanceId := id, sent := s.sent ++ [m] } : CtlSys).run h ops).hist =
      (({ s with sent := s.sent ++ [m] } : CtlSys).run h ops).hist := by
  have : ∀ (a b : CtlSys), a.hist = b.hist → a.sent = b.sent → (a.run h ops).hist = (b.run h ops).hist := by
    induction ops with
    | nil => intro a b h1 _; exact h1
    | cons op ops ih =>
      intro a b h1 h2
      refine ih _ _ ?_ ?_
      · cases op with
        | client op => show a.hist ++ [op] = b.hist ++ [op]; rw [h1]
        | handle f u =>
          rw [CtlSys.step, CtlSys.step, h2]
          cases b.sent with
          | nil => exact h1
          | cons m l => simp only []; rw [h1]
      · cases op with
        | client op => exact h2
        | handle f u =>
          rw [CtlSys.step, CtlSys.step, h2]
          cases hb : b.sent with
          | nil => simp only []; rw [h2, hb]
          | cons m l => rfl
  exact this _ _ rfl rfl

/-- **C65** (closed): when the connection is closed while waiting, the result tells it. -/
theorem C65_connection_failed (h : CtlHost) (abs : Str → Option Str) (s : CtlSys) (req : Request) (last : CtlResult)
    (ops1 ops2 : List SysOp) (m : CtlMsg) (hm : req.message abs = some m)
    (hc : s.connected h = false ∨ (({ s with sent := s.sent ++ [m] } : CtlSys).run h ops1).connected h = false) :
    (s.makeRequest h abs req last ops1 ops2).1 = .connectionFailed := by
  have hr := request_closed h s m ops1 hc
  obtain ⟨t, string, timeout⟩ := req
  cases t with
  | press => cases hm; show (if _ then _ else _) = _; rw [hr]; rfl
  | release => cases hm; show (if _ then _ else _) = _; rw [hr]; rfl
  | toggle => cases hm; show (if _ then _ else _) = _; rw [hr]; rfl
  | isPressed => cases hm; show (if _ then _ else _) = _; rw [hr]; rfl
  | isReleased => cases hm; show (if _ then _ else _) = _; rw [hr]; rfl
  | waitPressed =>
    cases hm
    show (CtlSys.waitKey h s string _ ops1 ops2).1 = _
    rw [CtlSys.waitKey, hr]; simp only [if_neg (show ¬ CtlResult.connectionFailed = .yes by simp)]
  | waitReleased =>
    cases hm
    show (CtlSys.waitKey h s string _ ops1 ops2).1 = _
    rw [CtlSys.waitKey, hr]; simp only [if_neg (show ¬ CtlResult.connectionFailed = .yes by simp)]
  | waitToggled =>
    cases hm
    show (CtlSys.waitKey h s string _ ops1 ops2).1 = _
    rw [CtlSys.waitKey, hr]; simp only [if_neg (show ¬ CtlResult.connectionFailed = .yes by simp)]
  | setInstanceId =>
    cases hm
    show (if _ then _ else _ : CtlResult × CtlSys).1 = _
    split
    · rfl
    · rename_i hcon
      have hcon : s.connected h = true := by simpa using hcon
      refine request_closed h ({ s with instanceId := string }) _ ops1 (.inr ?_)
      have := hc.resolve_left (by rw [hcon]; simp)
      rw [CtlSys.connected_eq, CtlSys.client] at this ⊢
      rw [← this]
      show (Client.run h.env _ (CtlSys.run h { s with instanceId := string, sent := _ } ops1).hist).isOpen _ = _
      rw [connected_setId]
  | setConfigFile =>
    obtain ⟨f, hf, rfl⟩ := Option.map_eq_some_iff.mp (show (abs string).map _ = some m from hm)
    rw [CtlSys.makeRequest]
    simp only [hf, hr]
    rfl
  | nextKeyInfo =>
    cases hm
    show (CtlSys.requestInfo h s ops1).1 = _
    rw [CtlSys.requestInfo]
    cases hcon : s.connected h with
    | false => rfl
    | true =>
      have := hc.resolve_left (by rw [hcon]; simp)
      simp only [Bool.not_true, Bool.false_eq_true, if_false]
      rw [this]
      rfl
  | injectInput => cases hm; rw [CtlSys.makeRequest]; simp only [hr]; rfl
  | injectOutput => cases hm; rw [CtlSys.makeRequest]; simp only [hr]; rfl
  | typeString => cases hm; rw [CtlSys.makeRequest]; simp only [hr]; rfl
  | wait => cases hm
  | stdoutResult => cases hm
  | restart => cases hm

private theorem lastState_all (l : List CtlReply) (hl : ∀ r ∈ l, ∃ k st, r = .keyState k st) (k : Key) (st : KeyState) (init : Option KeyState) :
    lastState (l ++ [.keyState k st]) init = some (some st) := by
  induction l generalizing init with
  | nil => rfl
  | cons r l ih =>
    obtain ⟨k', st', rfl⟩ := hl r (by simp)
    exact ih (fun r hr => hl r (by simp [hr])) _

/-- **C65** (late replies) Replies to earlier requests which were given up, and are still to be read, do not matter when the reply to this request
can be read as well: the last state counts, whatever `stale` ones are in front of it. Afterwards none of them is left. -/
theorem C65_last_reply (h : CtlHost) (abs : Str → Option Str) (s : CtlSys) (name : Str) (timeout : Option Int) (last : CtlResult)
    (ops1 ops2 : List SysOp) (hs : s.connected h = true) (stale : List CtlReply) (k : Key) (st : KeyState)
    (hstale : ∀ r ∈ stale, ∃ k st, r = .keyState k st)
    (t : CtlSys) (ht : t = ({ s with sent := s.sent ++ [.getState name] } : CtlSys).run h ops1) (ho : t.connected h = true)
    (hp : t.pending h = stale ++ [.keyState k st]) (hk : st = .Down ∨ st = .Up) :
    (s.makeRequest h abs ⟨.isPressed, name, timeout⟩ last ops1 ops2).1 = (if st = .Down then .yes else .no) ∧
    (s.makeRequest h abs ⟨.isReleased, name, timeout⟩ last ops1 ops2).1 = (if st = .Up then .yes else .no) ∧
    (s.makeRequest h abs ⟨.isPressed, name, timeout⟩ last ops1 ops2).2.pending h = [] := by
  have hr : s.request h (.getState name) ops1 = (.yes, some st, { t with read := t.read + (t.pending h).length }) := by
    rw [CtlSys.request, hs]
    simp only [Bool.not_true, Bool.false_eq_true, if_false]
    rw [← ht, CtlSys.readState, ho]
    simp only [Bool.not_true, Bool.false_eq_true, if_false]
    rw [show lastState (t.pending h) none = some (some st) by rw [hp]; exact lastState_all stale hstale k st none]
  have hpend : ({ t with read := t.read + (t.pending h).length } : CtlSys).pending h = [] := by
    have : ∀ (l : List CtlReply) (n : Nat), l.drop (n + (l.drop n).length) = [] := by
      intro l n
      apply List.drop_eq_nil_of_le
      rw [List.length_drop]; omega
    exact this _ _
  rw [CtlSys.makeRequest, CtlSys.makeRequest]
  simp only
  unfold CtlSys.isKey
  rw [hr]
  rcases hk with rfl | rfl <;> exact ⟨rfl, rfl, hpend⟩

end KM
