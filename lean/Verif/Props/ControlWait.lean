import Verif.Props.Control
/-!
# Waiting of `keymapperctl`

**C65** The result code of an operation tells what happened: timeouts, and waiting for a key.
-/
namespace KM

theorem run_not_handled (h : CtlHost) (s : CtlSys) (m : CtlMsg) (ops : List ClientOp) :
    ({ s with sent := s.sent ++ [m] } : CtlSys).run h (ops.map SysOp.client) =
      { s with sent := s.sent ++ [m], hist := s.hist ++ ops } := CtlSys.run_client h _ ops

theorem not_handled_pending (h : CtlHost) (s : CtlSys) (hi : s.Idle h) (m : CtlMsg) (ops : List ClientOp)
    (hf : ∀ op ∈ ops, ForeignOp h.socket op) :
    ({ s with sent := s.sent ++ [m], hist := s.hist ++ ops } : CtlSys).pending h = [] := by
  have hno : isVirtualKey Key.none = false := by decide
  obtain ⟨-, h2⟩ := foreign_run h.env (h.after s.hist) (h.inv _) h.socket Key.none ops hi.waits hf
    (fun hv => by rw [hno] at hv; cases hv)
  rw [← CtlHost.after_append] at h2
  show (repliesTo h.socket (h.after (s.hist ++ ops)).out).drop s.read = []
  rw [h2, hi.read]
  exact List.drop_length

theorem request_not_handled (h : CtlHost) (s : CtlSys) (hi : s.Idle h) (m : CtlMsg) (ops : List ClientOp)
    (hf : ∀ op ∈ ops, ForeignOp h.socket op) (ho : (h.after (s.hist ++ ops)).isOpen h.socket = true) :
    (s.request h m (ops.map SysOp.client)).1 = .timeout := by
  rw [CtlSys.request, CtlSys.Idle.connected_of hf ho]
  simp only [Bool.not_true, Bool.false_eq_true, if_false]
  rw [run_not_handled, CtlSys.readState,
    show ({ s with sent := s.sent ++ [m], hist := s.hist ++ ops } : CtlSys).connected h = true from ho]
  simp only [Bool.not_true, Bool.false_eq_true, if_false]
  rw [not_handled_pending h s hi m ops hf]
  rfl

/-- **C65** (timeout): when the client does not handle the request in time - whatever else it does - the result tells it. -/
theorem C65_timeout (h : CtlHost) (abs : Str → Option Str) (s : CtlSys) (hi : s.Idle h) (req : Request) (last : CtlResult)
    (ops : List ClientOp) (ops2 : List SysOp) (m : CtlMsg) (hm : req.message abs = some m)
    (hf : ∀ op ∈ ops, ForeignOp h.socket op) (ho : (h.after (s.hist ++ ops)).isOpen h.socket = true) :
    (s.makeRequest h abs req last (ops.map SysOp.client) ops2).1 = .timeout := by
  have hr := request_not_handled h s hi m ops hf ho
  obtain ⟨t, string, timeout⟩ := req
  cases t with
  | press => cases hm; show (if _ then _ else _) = _; rw [hr]; rfl
  | release => cases hm; show (if _ then _ else _) = _; rw [hr]; rfl
  | toggle => cases hm; show (if _ then _ else _) = _; rw [hr]; rfl
  | isPressed => cases hm; show (if _ then _ else _) = _; rw [hr]; rfl
  | isReleased => cases hm; show (if _ then _ else _) = _; rw [hr]; rfl
  | waitPressed =>
    cases hm
    show (CtlSys.waitKey h s string _ _ ops2).1 = _
    rw [CtlSys.waitKey, hr]; simp only [if_neg (show ¬ CtlResult.timeout = .yes by simp)]
  | waitReleased =>
    cases hm
    show (CtlSys.waitKey h s string _ _ ops2).1 = _
    rw [CtlSys.waitKey, hr]; simp only [if_neg (show ¬ CtlResult.timeout = .yes by simp)]
  | waitToggled =>
    cases hm
    show (CtlSys.waitKey h s string _ _ ops2).1 = _
    rw [CtlSys.waitKey, hr]; simp only [if_neg (show ¬ CtlResult.timeout = .yes by simp)]
  | setInstanceId =>
    cases hm
    show (if _ then _ else _ : CtlResult × CtlSys).1 = _
    rw [CtlSys.Idle.connected_of hf ho, Bool.not_true, if_neg (by simp)]
    exact request_not_handled h ({ s with instanceId := string }) ⟨hi.sent, hi.read, hi.waits⟩ _ ops hf ho
  | setConfigFile =>
    obtain ⟨f, hf', rfl⟩ := Option.map_eq_some_iff.mp (show (abs string).map _ = some m from hm)
    rw [CtlSys.makeRequest]
    simp only [hf', hr]
    rfl
  | nextKeyInfo =>
    cases hm
    show (CtlSys.requestInfo h s _).1 = _
    rw [CtlSys.requestInfo, CtlSys.Idle.connected_of hf ho]
    simp only [Bool.not_true, Bool.false_eq_true, if_false]
    rw [run_not_handled, show ({ s with sent := s.sent ++ [CtlMsg.nextKeyInfo], hist := s.hist ++ ops } : CtlSys).connected h
      = true from ho]
    simp only [Bool.not_true, Bool.false_eq_true, if_false]
    rw [not_handled_pending h s hi _ ops hf]
    rfl
  | injectInput => cases hm; rw [CtlSys.makeRequest]; simp only [hr]; rfl
  | injectOutput => cases hm; rw [CtlSys.makeRequest]; simp only [hr]; rfl
  | typeString => cases hm; rw [CtlSys.makeRequest]; simp only [hr]; rfl
  | wait => cases hm
  | stdoutResult => cases hm
  | restart => cases hm

/-! ## Waiting for a key -/

/-- The state of the key is told -/
def tells (k : Key) : ClientOp → Bool
  | .server (.virtualKeyState k' _) => k' == k
  | _ => false

theorem tells_eq {k : Key} {op : ClientOp} (h : tells k op = true) : ∃ st, op = .server (.virtualKeyState k st) := by
  unfold tells at h
  split at h
  · exact ⟨_, by rw [eq_of_beq h]⟩
  · cases h

/-- The replies to a connection which waits for a key, while something happens -/
theorem waiting_replies (env : ClientEnv) (c : Client) (hinv : PortInv c) (s : Nat) (k : Key) (hv : isVirtualKey k = true)
    (hw : WaitsFor c s k) (ops : List ClientOp) (hf : ∀ op ∈ ops, ForeignOp s op)
    (ho : (c.run env ops).isOpen s = true) :
    if ops.any (tells k) then
      WaitsFor (c.run env ops) s Key.none ∧ ∃ st, repliesTo s (c.run env ops).out = repliesTo s c.out ++ [.keyState k st]
    else WaitsFor (c.run env ops) s k ∧ repliesTo s (c.run env ops).out = repliesTo s c.out := by
  induction ops generalizing c with
  | nil => exact ⟨hw, rfl⟩
  | cons op ops ih =>
    have hf1 := hf op List.mem_cons_self
    have hf2 : ∀ o ∈ ops, ForeignOp s o := fun o ho => hf o (List.mem_cons_of_mem _ ho)
    have hinv2 := hinv.step env op
    have ho2 := foreign_run_closed env _ hinv2 s ops hf2 ho
    have ho1 := foreign_closed env c hinv s op hf1 ho2
    rw [List.any_cons]
    cases ht : tells k op with
    | true =>
      obtain ⟨st, rfl⟩ := tells_eq ht
      rw [Bool.true_or, if_pos rfl]
      obtain ⟨x, hx⟩ := Option.isSome_iff_exists.mp ((isOpen_iff c s).symm.trans ho1 : (ctlOf s c.control.controls).isSome = true)
      have hxk := ((waitsFor_iff hinv s k).mp hw) x hx
      have hw2 : WaitsFor (c.step env (.server (.virtualKeyState k st))) s Key.none := by
        rw [waitsFor_iff hinv2, ctl_after env c hinv, hx]
        show ∀ y, (if isVirtualKey k then _ else _) = some y → _
        rw [if_pos hv]
        intro y hy
        replace hy : some (if x.toggleKey = k then _ else _) = some y := hy
        rw [if_pos hxk.1] at hy
        cases hy
        exact ⟨rfl, hxk.2⟩
      have hno : isVirtualKey Key.none = false := by decide
      obtain ⟨h3, h4⟩ := foreign_run env _ hinv2 s Key.none ops hw2 hf2 (fun hv => by rw [hno] at hv; cases hv)
      refine ⟨h3, (c.step env (.server (.virtualKeyState k st))).control.keyState k, h4.trans ?_⟩
      rw [toggle_replies env c hinv s k st hv, hx, Option.filter_some, if_pos (by simpa using hxk.1)]
      rfl
    | false =>
      rw [Bool.false_or]
      obtain ⟨h1, h2⟩ := foreign_step env c hinv s k op hw hf1 (fun _ st he => by
        rw [he] at ht
        simp [tells] at ht)
      have := ih (c.step env op) hinv2 h1 hf2 ho
      rw [h2] at this
      exact this

/-- The connection is open when the client handled the message. -/
theorem open_before (h : CtlHost) (ops : List ClientOp) (f : FileSys) (u : Option Window) (m : CtlMsg)
    (post : List ClientOp) (hf : ∀ op ∈ post, ForeignOp h.socket op)
    (ho : (h.after (ops ++ .control f u h.socket m :: post)).isOpen h.socket = true) :
    (h.after ops).isOpen h.socket = true := by
  rw [CtlHost.after_append] at ho
  have ho2 := foreign_run_closed h.env _ ((h.inv ops).step h.env (.control f u h.socket m)) h.socket post hf ho
  rw [isOpen_iff, ctl_after h.env _ (h.inv _)] at ho2
  rw [isOpen_iff]
  replace ho2 : Option.isSome (if h.socket = h.socket then _ else _) = true := ho2
  rw [if_pos rfl] at ho2
  cases m with
  | requestToggle name =>
    replace ho2 : Option.isSome (if _ then _ else _) = true := ho2
    split at ho2
    · exact ho2
    · simpa using ho2
  | setInstanceId id => simpa using ho2
  | nextKeyInfo => simpa using ho2
  | _ => exact ho2

/-- Asking to be notified: it is done when the state of the key is told. -/
theorem toggle_request (h : CtlHost) (s : CtlSys) (name : Str) (pre post : List ClientOp)
    (f : FileSys) (u : Option Window) (config : Config) (hs : Served h s (.requestToggle name) pre f u post config) (k : Key)
    (hd : Denotes config name k) (hk : k < Key.last_virtual) :
    (s.request h (.requestToggle name) (handled pre f u post)).1 = (if post.any (tells k) then .yes else .timeout) ∧
    (post.any (tells k) → (s.request h (.requestToggle name) (handled pre f u post)).2.2.Idle h) := by
  have hno : isVirtualKey Key.none = false := by decide
  obtain ⟨e1, -⟩ := state_reply h _ hs.server config hs.config name k hd hk
  have hkn : k ≠ Key.none := fun he => by have := hd.1; rw [he, hno] at this; cases this
  have ho1 := open_before h _ f u _ post hs.after hs.isOpen
  obtain ⟨w1, r1⟩ := foreign_run h.env (h.after s.hist) (h.inv _) h.socket Key.none pre hs.idle.waits hs.before
    (fun hv => by rw [hno] at hv; cases hv)
  rw [← CtlHost.after_append] at w1 r1
  have w2 : WaitsFor ((h.after (s.hist ++ pre)).step h.env (.control f u h.socket (.requestToggle name))) h.socket k := by
    rw [waitsFor_iff ((h.inv _).step h.env _), ctl_after h.env _ (h.inv _)]
    intro x hx
    replace hx : (if h.socket = h.socket then (if _ = _ then _ else _) else _) = some x := hx
    rw [if_pos rfl, e1, if_neg hkn] at hx
    obtain ⟨y, hy, rfl⟩ := Option.map_eq_some_iff.mp hx
    exact ⟨rfl, (((waitsFor_iff (h.inv _) h.socket Key.none).mp w1) y hy).2⟩
  have r2 : repliesTo h.socket ((h.after (s.hist ++ pre)).step h.env (.control f u h.socket (.requestToggle name))).out =
      repliesTo h.socket (h.after s.hist).out := by
    rw [(step_port h.env _ _).2.2.2 h.socket, r1]
    have : newReplies h.env (h.after (s.hist ++ pre)) h.socket (.control f u h.socket (.requestToggle name)) = [] := by
      show (if _ then (if _ = _ then _ else _) else _) = _
      rw [e1, if_neg hkn]
      split <;> rfl
    show _ ++ newReplies h.env (h.after (s.hist ++ pre)) h.socket (.control f u h.socket (.requestToggle name)) = _
    rw [this, List.append_nil]
  have hsplit : h.after (s.hist ++ pre ++ .control f u h.socket (.requestToggle name) :: post) =
      ((h.after (s.hist ++ pre)).step h.env (.control f u h.socket (.requestToggle name))).run h.env post := by
    rw [CtlHost.after_append]; rfl
  have hwr := waiting_replies h.env _ ((h.inv (s.hist ++ pre)).step h.env (.control f u h.socket (.requestToggle name)))
    h.socket k hd.1 w2 post hs.after (by rw [← hsplit]; exact hs.isOpen)
  rw [← hsplit, r2] at hwr
  have hreq : s.request h (.requestToggle name) (handled pre f u post) =
      (s.afterRequest h (.requestToggle name) pre f u post).readState h := by
    rw [CtlSys.request, hs.connected]
    simp only [Bool.not_true, Bool.false_eq_true, if_false]
    rw [CtlSys.run_handled h s hs.idle.sent]
  rw [hreq, CtlSys.readState,
    show (s.afterRequest h (.requestToggle name) pre f u post).connected h = true from hs.isOpen]
  simp only [Bool.not_true, Bool.false_eq_true, if_false]
  have hpend : (s.afterRequest h (.requestToggle name) pre f u post).pending h =
      (repliesTo h.socket (h.after (s.hist ++ pre ++ .control f u h.socket (.requestToggle name) :: post)).out).drop
        s.read := rfl
  cases hany : post.any (tells k) with
  | true =>
    rw [hany, if_pos rfl] at hwr
    obtain ⟨w3, st, r3⟩ := hwr
    have hp : (s.afterRequest h (.requestToggle name) pre f u post).pending h = [.keyState k st] := by
      rw [hpend, r3, hs.idle.read]
      exact List.drop_left
    rw [hp]
    refine ⟨rfl, fun _ => ⟨rfl, ?_, w3⟩⟩
    show s.read + 1 =
      (repliesTo h.socket (h.after (s.hist ++ pre ++ .control f u h.socket (.requestToggle name) :: post)).out).length
    rw [r3, hs.idle.read, List.length_append]
    rfl
  | false =>
    rw [hany] at hwr
    have hp : (s.afterRequest h (.requestToggle name) pre f u post).pending h = [] := by
      rw [hpend, hwr.2, hs.idle.read]
      exact List.drop_length
    rw [hp]
    exact ⟨rfl, fun hh => by cases hh⟩

/-- The request to wait for a key -/
def waitRequest : Option Bool → ReqType
  | some true => .waitPressed
  | some false => .waitReleased
  | none => .waitToggled

/-- **C65** (wait until pressed, released, already): when the key has the state, it does not wait. -/
theorem C65_wait_already (h : CtlHost) (abs : Str → Option Str) (s : CtlSys) (name : Str) (timeout : Option Int)
    (last : CtlResult) (pre post : List ClientOp) (f : FileSys) (u : Option Window) (ops2 : List SysOp) (config : Config)
    (hs : Served h s (.getState name) pre f u post config) (k : Key) (hd : Denotes config name k)
    (hk : k < Key.last_virtual) (down : Bool) (hdown : toldDown k (s.hist ++ pre) = down) :
    (s.makeRequest h abs ⟨waitRequest (some down), name, timeout⟩ last (handled pre f u post) ops2).1 = .yes ∧
    (s.makeRequest h abs ⟨waitRequest (some down), name, timeout⟩ last (handled pre f u post) ops2).2.Idle h := by
  obtain ⟨e1, e2⟩ := state_reply h _ hs.server config hs.config name k hd hk
  obtain ⟨r1, r2⟩ := request_replied h s hs.idle (.getState name) pre post f u (by simp) (by simp) hs.before hs.after
    hs.isOpen hs.connected k (stateOf (toldDown k (s.hist ++ pre))) (by
      show [CtlReply.keyState _ _] = _
      rw [e1, e2])
  have : s.makeRequest h abs ⟨waitRequest (some down), name, timeout⟩ last (handled pre f u post) ops2 =
      s.waitKey h name (some (stateOf down)) (handled pre f u post) ops2 := by cases down <;> rfl
  rw [this, CtlSys.waitKey, r1, hdown]
  refine ⟨?_, ?_⟩
  · simp
  · simp only [if_true, Option.isSome_some, and_self]
    exact r2

/-- What happens while `keymapperctl` waits for a key: it asks for the state, and when this is not the one it waits for,
it asks to be notified. -/
structure KeyWait (h : CtlHost) (s : CtlSys) (name : Str) (pre : List ClientOp) (f : FileSys) (u : Option Window)
    (post pre2 : List ClientOp) (f2 : FileSys) (u2 : Option Window) (post2 : List ClientOp) (config : Config) : Prop where
  first : Served h s (.getState name) pre f u post config
  second : Served h { s.afterRequest h (.getState name) pre f u post with read := s.read + 1 } (.requestToggle name)
    pre2 f2 u2 post2 config

/-- **C65** (wait): when the key does not have the state, the result is success when the state of the key is told after the
client handled the request, and a timeout when it is not told until then. -/
theorem C65_wait (h : CtlHost) (abs : Str → Option Str) (s : CtlSys) (name : Str) (timeout : Option Int) (last : CtlResult)
    (pre post pre2 post2 : List ClientOp) (f f2 : FileSys) (u u2 : Option Window) (config : Config)
    (hw : KeyWait h s name pre f u post pre2 f2 u2 post2 config) (k : Key) (hd : Denotes config name k)
    (hk : k < Key.last_virtual) (state : Option Bool) (hne : state ≠ some (toldDown k (s.hist ++ pre))) :
    (s.makeRequest h abs ⟨waitRequest state, name, timeout⟩ last (handled pre f u post) (handled pre2 f2 u2 post2)).1 =
      (if post2.any (tells k) then .yes else .timeout) ∧
    (post2.any (tells k) →
      (s.makeRequest h abs ⟨waitRequest state, name, timeout⟩ last (handled pre f u post)
        (handled pre2 f2 u2 post2)).2.Idle h) := by
  have hs := hw.first
  obtain ⟨e1, e2⟩ := state_reply h _ hs.server config hs.config name k hd hk
  obtain ⟨r1, r2⟩ := request_replied h s hs.idle (.getState name) pre post f u (by simp) (by simp) hs.before hs.after
    hs.isOpen hs.connected k (stateOf (toldDown k (s.hist ++ pre))) (by
      show [CtlReply.keyState _ _] = _
      rw [e1, e2])
  have : s.makeRequest h abs ⟨waitRequest state, name, timeout⟩ last (handled pre f u post) (handled pre2 f2 u2 post2) =
      s.waitKey h name (state.map stateOf) (handled pre f u post) (handled pre2 f2 u2 post2) := by
    cases state with
    | none => rfl
    | some b => cases b <;> rfl
  rw [this, CtlSys.waitKey, r1]
  have hcond : ¬ ((state.map stateOf).isSome = true ∧
      some (stateOf (toldDown k (s.hist ++ pre))) = state.map stateOf) := by
    rintro ⟨-, he⟩
    cases state with
    | none => cases he
    | some b =>
      apply hne
      revert he
      cases b <;> cases toldDown k (s.hist ++ pre) <;> simp [stateOf]
  simp only [if_true, if_neg hcond]
  exact toggle_request h _ name pre2 post2 f2 u2 config hw.second k hd hk

theorem wait_hist (h : CtlHost) (abs : Str → Option Str) (s : CtlSys) (name : Str) (timeout : Option Int) (last : CtlResult)
    (pre post pre2 post2 : List ClientOp) (f f2 : FileSys) (u u2 : Option Window) (config : Config)
    (hw : KeyWait h s name pre f u post pre2 f2 u2 post2 config) (k : Key) (hd : Denotes config name k)
    (hk : k < Key.last_virtual) (state : Option Bool) (hne : state ≠ some (toldDown k (s.hist ++ pre))) :
    (s.makeRequest h abs ⟨waitRequest state, name, timeout⟩ last (handled pre f u post) (handled pre2 f2 u2 post2)).2.hist =
      s.hist ++ pre ++ .control f u h.socket (.getState name) :: post ++ pre2 ++
        .control f2 u2 h.socket (.requestToggle name) :: post2 := by
  have hs := hw.first
  obtain ⟨e1, e2⟩ := state_reply h _ hs.server config hs.config name k hd hk
  obtain ⟨r1, r2⟩ := request_replied h s hs.idle (.getState name) pre post f u (by simp) (by simp) hs.before hs.after
    hs.isOpen hs.connected k (stateOf (toldDown k (s.hist ++ pre))) (by
      show [CtlReply.keyState _ _] = _
      rw [e1, e2])
  have : s.makeRequest h abs ⟨waitRequest state, name, timeout⟩ last (handled pre f u post) (handled pre2 f2 u2 post2) =
      s.waitKey h name (state.map stateOf) (handled pre f u post) (handled pre2 f2 u2 post2) := by
    cases state with
    | none => rfl
    | some b => cases b <;> rfl
  rw [this, CtlSys.waitKey, r1]
  have hcond : ¬ ((state.map stateOf).isSome = true ∧
      some (stateOf (toldDown k (s.hist ++ pre))) = state.map stateOf) := by
    rintro ⟨-, he⟩
    cases state with
    | none => cases he
    | some b =>
      apply hne
      revert he
      cases b <;> cases toldDown k (s.hist ++ pre) <;> simp [stateOf]
  simp only [if_true, if_neg hcond]
  rw [CtlSys.request, hw.second.connected]
  simp only [Bool.not_true, Bool.false_eq_true, if_false]
  rw [CtlSys.run_handled h _ hw.second.idle.sent, CtlSys.readState]
  split
  · rfl
  · split <;> rfl

theorem waited_state (h : CtlHost) (s : CtlSys) (name : Str) (pre post pre2 post2 : List ClientOp) (f f2 : FileSys)
    (u u2 : Option Window) (k : Key) (state : Bool) (hne : state ≠ toldDown k (s.hist ++ pre)) (st : KeyState)
    (hquiet : ∀ op ∈ post ++ pre2 ++ post2, tells k op = false ∧ op ≠ .disconnected)
    (hchange : decide (st = .Down) ≠ toldDown k (s.hist ++ pre ++ .control f u h.socket (.getState name) :: post ++ pre2 ++
      .control f2 u2 h.socket (.requestToggle name) :: post2)) :
    toldDown k (s.hist ++ pre ++ .control f u h.socket (.getState name) :: post ++ pre2 ++
      .control f2 u2 h.socket (.requestToggle name) :: (post2 ++ [.server (.virtualKeyState k st)])) = state := by
  have hq : ∀ (ops : List ClientOp) (b : Bool), (∀ op ∈ ops, tells k op = false ∧ op ≠ .disconnected) →
      ops.foldl (toldStep k) b = b := by
    intro ops
    induction ops with
    | nil => intro b _; rfl
    | cons op ops ih =>
      intro b ho
      have h1 := ho op List.mem_cons_self
      rw [List.foldl_cons]
      have : toldStep k b op = b := by
        cases op with
        | server m =>
          cases m with
          | virtualKeyState k' st =>
            have : ¬ k' = k := by simpa [tells] using h1.1
            show (if _ then _ else _) = _
            rw [if_neg this]
          | _ => rfl
        | disconnected => exact absurd rfl h1.2
        | _ => rfl
      rw [this]
      exact ih b (fun o ho' => ho o (List.mem_cons_of_mem _ ho'))
  have e : toldDown k (s.hist ++ pre ++ .control f u h.socket (.getState name) :: post ++ pre2 ++
      .control f2 u2 h.socket (.requestToggle name) :: post2) = toldDown k (s.hist ++ pre) := by
    rw [toldDown, List.append_assoc, List.append_assoc, List.foldl_append]
    refine hq _ _ ?_
    intro op ho
    simp only [List.cons_append, List.mem_cons, List.mem_append] at ho
    rcases ho with rfl | ho | ho | rfl | ho
    · exact ⟨rfl, by simp⟩
    · exact hquiet op (by simp [ho])
    · exact hquiet op (by simp [ho])
    · exact ⟨rfl, by simp⟩
    · exact hquiet op (by simp [ho])
  rw [e] at hchange
  rw [show s.hist ++ pre ++ ClientOp.control f u h.socket (.getState name) :: post ++ pre2 ++
      .control f2 u2 h.socket (.requestToggle name) :: (post2 ++ [.server (.virtualKeyState k st)]) =
      (s.hist ++ pre ++ ClientOp.control f u h.socket (.getState name) :: post ++ pre2 ++
      .control f2 u2 h.socket (.requestToggle name) :: post2) ++ [.server (.virtualKeyState k st)] by simp]
  rw [toldDown, List.foldl_append]
  show (if k = k then decide (st = .Down) else _) = state
  rw [if_pos rfl]
  revert hne hchange
  cases decide (st = KeyState.Down) <;> cases state <;> cases toldDown k (s.hist ++ pre) <;> simp

/-- **C65** (wait, the state): `keymapperctl` asked for the state of the key, which was not the one it waits for, and to be
notified. When the client handled both before a change of the key is told, then the result is success, and the key has
the state which was waited for. -/
theorem C65_waited (h : CtlHost) (abs : Str → Option Str) (s : CtlSys) (name : Str) (timeout : Option Int)
    (last : CtlResult) (pre post pre2 post2 : List ClientOp) (f f2 : FileSys) (u u2 : Option Window) (config : Config)
    (k : Key) (st : KeyState)
    (hw : KeyWait h s name pre f u post pre2 f2 u2 (post2 ++ [.server (.virtualKeyState k st)]) config)
    (hd : Denotes config name k) (hk : k < Key.last_virtual) (state : Bool)
    (hne : state ≠ toldDown k (s.hist ++ pre))
    (hquiet : ∀ op ∈ post ++ pre2 ++ post2, tells k op = false ∧ op ≠ .disconnected)
    (hchange : decide (st = .Down) ≠ toldDown k (s.hist ++ pre ++ .control f u h.socket (.getState name) :: post ++ pre2 ++
      .control f2 u2 h.socket (.requestToggle name) :: post2)) :
    (s.makeRequest h abs ⟨waitRequest (some state), name, timeout⟩ last (handled pre f u post)
      (handled pre2 f2 u2 (post2 ++ [.server (.virtualKeyState k st)]))).1 = .yes ∧
    toldDown k (s.makeRequest h abs ⟨waitRequest (some state), name, timeout⟩ last (handled pre f u post)
      (handled pre2 f2 u2 (post2 ++ [.server (.virtualKeyState k st)]))).2.hist = state := by
  have h1 := (C65_wait h abs s name timeout last pre post pre2 _ f f2 u u2 config hw k hd hk (some state)
    (fun he => hne (Option.some.inj he))).1
  rw [show (post2 ++ [ClientOp.server (.virtualKeyState k st)]).any (tells k) = true by simp [tells], if_pos rfl] at h1
  refine ⟨h1, ?_⟩
  rw [show (s.makeRequest h abs ⟨waitRequest (some state), name, timeout⟩ last (handled pre f u post)
      (handled pre2 f2 u2 (post2 ++ [.server (.virtualKeyState k st)]))).2.hist =
      s.hist ++ pre ++ .control f u h.socket (.getState name) :: post ++ pre2 ++
        .control f2 u2 h.socket (.requestToggle name) :: (post2 ++ [.server (.virtualKeyState k st)]) from ?_]
  · exact waited_state h s name pre post pre2 post2 f f2 u u2 k state hne st hquiet hchange
  · exact wait_hist h abs s name timeout last pre post pre2 _ f f2 u u2 config hw k hd hk (some state)
      (fun he => hne (Option.some.inj he))

end KM
