import Verif.Props.ControlPort
/-!
# Waiting for virtual keys, information about the next key
-/
namespace KM

/-- A property of the control of a connection, which only depends on what it waits for -/
theorem waiting_step (s : Nat) (P : Ctl → Prop) (hP : ∀ x y : Ctl, x.toggleKey = y.toggleKey → P x → P y)
    (good : ClientOp → Prop)
    (hnone : ∀ k st x, good (.server (.virtualKeyState k st)) → isVirtualKey k = true → P x → x.toggleKey = k →
      P { x with toggleKey := Key.none })
    (haccept : good (.accept s) → P { socket := s })
    (hreq : ∀ f u name, ¬ good (.control f u s (.requestToggle name)))
    (c : Client) (op : ClientOp) (_ : PortInv c) (hg : good op)
    (h : ∀ x, ctlOf s c.control.controls = some x → P x) :
    ∀ x, ctlAfter c s (ctlOf s c.control.controls) op = some x → P x := by
  have mapped : ∀ f : Ctl → Ctl, (∀ y, (f y).toggleKey = y.toggleKey) → ∀ x,
      (ctlOf s c.control.controls).map f = some x → P x := by
    intro f hf x hx
    obtain ⟨y, hy, rfl⟩ := Option.map_eq_some_iff.mp hx
    exact hP y _ (hf y).symm (h y hy)
  intro x hx
  cases op with
  | disconnected => cases hx
  | server m =>
    cases m with
    | virtualKeyState k st =>
      replace hx : (if isVirtualKey k then _ else _) = some x := hx
      split at hx
      · rename_i hv
        obtain ⟨y, hy, rfl⟩ := Option.map_eq_some_iff.mp hx
        split
        · rename_i hk
          exact hnone k st y hg hv (h y hy) hk
        · exact h y hy
      · exact h x hx
    | nextKeyInfo k d => exact mapped _ (fun _ => by rfl) x hx
    | _ => exact h x hx
  | accept s' =>
    replace hx : (if s' = s then _ else _) = some x := hx
    split at hx
    · rename_i hs
      subst hs
      cases hc : ctlOf s' c.control.controls with
      | none => rw [hc] at hx; cases hx; exact haccept hg
      | some y => rw [hc] at hx; cases hx; exact h _ hc
    · exact h x hx
  | controlClosed s' =>
    replace hx : (if s' = s then none else _) = some x := hx
    split at hx
    · cases hx
    · exact h x hx
  | control fs upd s' m =>
    replace hx : (if s' = s then _ else _) = some x := hx
    by_cases hs : s' = s
    · rw [if_pos hs] at hx
      subst hs
      cases m with
      | requestToggle name => exact absurd hg (hreq fs upd name)
      | setInstanceId id' => exact mapped _ (fun _ => by rfl) x hx
      | nextKeyInfo => exact mapped _ (fun _ => by rfl) x hx
      | _ => exact h x hx
    · rw [if_neg hs] at hx
      cases m with
      | setInstanceId id' =>
        replace hx : (if _ then _ else _) = some x := hx
        split at hx
        · exact h x (Option.mem_filter_iff.mp hx).1
        · exact h x hx
      | _ => exact h x hx
  | _ => exact h x hx

/-- Nothing which ends the waiting of a connection for a key -/
def KeepsWaiting (s : Nat) (k : Key) (op : ClientOp) : Prop :=
  op ≠ .accept s ∧ (∀ st, op ≠ .server (.virtualKeyState k st)) ∧ ∀ f u name, op ≠ .control f u s (.requestToggle name)

/-- What a connection waits for -/
theorem waits (env : ClientEnv) (fs : FileSys) (filename : Str) (ops mid : List ClientOp) (s : Nat) (name : Str) (k : Key)
    (config : Config) (fs' : FileSys) (upd : Option Window) (hc : connectedAfter ops = true)
    (hv : (serverView ((Client.start env fs filename).run env ops).out).config = some config)
    (hd : Denotes config name k) (hmid : ∀ op ∈ mid, KeepsWaiting s k op) :
    ∀ x, ctlOf s ((Client.start env fs filename).run env
      (ops ++ .control fs' upd s (.requestToggle name) :: mid)).control.controls = some x → x.toggleKey = k := by
  have hcon := run_connected env (Client.start env fs filename) ops
  rw [(start_flags env fs filename).2] at hcon
  obtain ⟨config', hv', ha⟩ := (start_aliases env fs filename).run env ops (hcon.trans hc)
  rw [hv] at hv'; cases hv'
  have hk := virtualKey_denoted _ config name k ha hd
  have hkn : k ≠ Key.none := by
    intro he
    have := hd.1
    rw [he] at this
    revert this; decide
  rw [run_append]
  show ∀ x, ctlOf s ((((Client.start env fs filename).run env ops).step env
    (.control fs' upd s (.requestToggle name))).run env mid).control.controls = some x → _
  have h0 := (start_port env fs filename).run env ops
  refine ctl_kept env (fun x => x.toggleKey = k) s (KeepsWaiting s k) ?_ _ (h0.step env _) mid hmid ?_
  · refine waiting_step s _ (fun x y h h' => by rw [← h]; exact h') _ ?_ ?_ ?_
    · intro k' st x hg _ hx hx'
      exfalso
      rw [← hx', hx] at hg
      exact hg.2.1 st rfl
    · exact fun hg => absurd rfl hg.1
    · exact fun f u n hg => hg.2.2 f u n rfl
  · rw [ctl_after env _ h0]
    intro x hx
    replace hx : (if s = s then _ else _) = some x := hx
    rw [if_pos rfl] at hx
    replace hx : (if _ then _ else _) = some x := hx
    rw [if_neg (by rw [hk]; exact hkn)] at hx
    obtain ⟨y, hy, rfl⟩ := Option.map_eq_some_iff.mp hx
    exact hk

/-- The notifications a connection gets when the state of a key is told -/
theorem toggle_replies (env : ClientEnv) (c : Client) (hinv : PortInv c) (s : Nat) (k : Key) (st : KeyState)
    (hv : isVirtualKey k = true) :
    repliesTo s (c.step env (.server (.virtualKeyState k st))).out = repliesTo s c.out ++
      (((ctlOf s c.control.controls).filter (fun x => decide (x.toggleKey = k))).toList).map
        (fun _ => .keyState k ((c.step env (.server (.virtualKeyState k st))).control.keyState k)) := by
  rw [(step_port env _ _).2.2.2 s]
  congr 1
  show (if isVirtualKey k then _ else _) = _
  rw [if_pos hv, filter_socket hinv.sockets s (fun x => x.toggleKey = k)]
  rfl

/-- **C63** (a waiting `keymapperctl` is notified): a connection which asked to be notified about a virtual key is sent exactly one
message when the state of this key is told the next time, with the new state - whatever else happens in between, as long as it is
not closed and does not ask about another key. -/
theorem C63_notified (env : ClientEnv) (fs : FileSys) (filename : Str) (ops mid : List ClientOp) (s : Nat) (name : Str)
    (k : Key) (st : KeyState) (config : Config) (fs' : FileSys) (upd : Option Window) (hc : connectedAfter ops = true)
    (hv : (serverView ((Client.start env fs filename).run env ops).out).config = some config)
    (hd : Denotes config name k) (hk : k < Key.last_virtual) (hmid : ∀ op ∈ mid, KeepsWaiting s k op)
    (ho : ((Client.start env fs filename).run env
      (ops ++ .control fs' upd s (.requestToggle name) :: mid)).isOpen s = true) :
    repliesTo s ((Client.start env fs filename).run env (ops ++ .control fs' upd s (.requestToggle name) :: mid ++
        [.server (.virtualKeyState k st)])).out =
      repliesTo s ((Client.start env fs filename).run env (ops ++ .control fs' upd s (.requestToggle name) :: mid)).out ++
        [.keyState k (stateOf (decide (st = .Down)))] := by
  have hinv := (start_port env fs filename).run env (ops ++ .control fs' upd s (.requestToggle name) :: mid)
  have hw := waits env fs filename ops mid s name k config fs' upd hc hv hd hmid
  have ht := table_follows env fs filename (ops ++ .control fs' upd s (.requestToggle name) :: mid ++
    [.server (.virtualKeyState k st)]) k hd.1 hk
  rw [toldDown, List.foldl_append] at ht
  replace ht : _ = stateOf (if k = k then _ else _) := ht
  rw [if_pos rfl, run_snoc] at ht
  rw [run_snoc, toggle_replies env _ hinv s k st hd.1, ht]
  congr 1
  rw [isOpen_iff] at ho
  obtain ⟨x, hx⟩ := Option.isSome_iff_exists.mp ho
  rw [hx, Option.filter_some, if_pos (by simpa using hw x hx)]
  rfl

/-- **C63** (only about this key): it is not notified about other keys. -/
theorem C63_other_keys (env : ClientEnv) (fs : FileSys) (filename : Str) (ops mid : List ClientOp) (s : Nat) (name : Str)
    (k k' : Key) (st : KeyState) (config : Config) (fs' : FileSys) (upd : Option Window) (hc : connectedAfter ops = true)
    (hv : (serverView ((Client.start env fs filename).run env ops).out).config = some config)
    (hd : Denotes config name k) (hk : k' ≠ k) (hmid : ∀ op ∈ mid, KeepsWaiting s k op) :
    repliesTo s ((Client.start env fs filename).run env (ops ++ .control fs' upd s (.requestToggle name) :: mid ++
        [.server (.virtualKeyState k' st)])).out =
      repliesTo s ((Client.start env fs filename).run env
        (ops ++ .control fs' upd s (.requestToggle name) :: mid)).out := by
  have hinv := (start_port env fs filename).run env (ops ++ .control fs' upd s (.requestToggle name) :: mid)
  have hw := waits env fs filename ops mid s name k config fs' upd hc hv hd hmid
  rw [run_snoc]
  by_cases hv' : isVirtualKey k' = true
  · rw [toggle_replies env _ hinv s k' st hv']
    cases hx : ctlOf s ((Client.start env fs filename).run env
        (ops ++ .control fs' upd s (.requestToggle name) :: mid)).control.controls with
    | none => exact List.append_nil _
    | some x =>
      rw [Option.filter_some, if_neg]
      · exact List.append_nil _
      · simp only [decide_eq_true_eq]
        rw [hw x hx]
        exact Ne.symm hk
  · rw [(step_port env _ _).2.2.2 s]
    show _ ++ (if isVirtualKey k' then _ else _) = _
    rw [if_neg hv', List.append_nil]

/-- **C63** (only once): after the state of a key was told, a connection is not notified about it again, unless it
asks again. -/
theorem C63_only_once (env : ClientEnv) (fs : FileSys) (filename : Str) (ops mid : List ClientOp) (s : Nat)
    (k : Key) (st st' : KeyState) (hmid : ∀ op ∈ mid, ∀ f u name, op ≠ .control f u s (.requestToggle name)) :
    repliesTo s ((Client.start env fs filename).run env (ops ++ .server (.virtualKeyState k st) :: mid ++
        [.server (.virtualKeyState k st')])).out =
      repliesTo s ((Client.start env fs filename).run env (ops ++ .server (.virtualKeyState k st) :: mid)).out := by
  have hinv := (start_port env fs filename).run env (ops ++ .server (.virtualKeyState k st) :: mid)
  rw [run_snoc]
  by_cases hv' : isVirtualKey k = true
  · rw [toggle_replies env _ hinv s k st' hv']
    have hkn : k ≠ Key.none := by
      intro he
      rw [he] at hv'
      revert hv'; decide
    have hw : ∀ x, ctlOf s ((Client.start env fs filename).run env
        (ops ++ .server (.virtualKeyState k st) :: mid)).control.controls = some x → x.toggleKey ≠ k := by
      rw [run_append]
      show ∀ x, ctlOf s ((((Client.start env fs filename).run env ops).step env
        (.server (.virtualKeyState k st))).run env mid).control.controls = some x → _
      have h0 := (start_port env fs filename).run env ops
      refine ctl_kept env (fun x => x.toggleKey ≠ k) s
        (fun op => ∀ f u name, op ≠ .control f u s (.requestToggle name)) ?_ _ (h0.step env _) mid hmid ?_
      · refine waiting_step s _ (fun x y h h' => by rw [← h]; exact h') _ ?_ ?_ ?_
        · exact fun _ _ _ _ _ _ _ => Ne.symm hkn
        · exact fun _ => Ne.symm hkn
        · exact fun f u n hg => hg f u n rfl
      · rw [ctl_after env _ h0]
        intro x hx
        replace hx : (if isVirtualKey k then _ else _) = some x := hx
        rw [if_pos hv'] at hx
        obtain ⟨y, hy, rfl⟩ := Option.map_eq_some_iff.mp hx
        split
        · exact Ne.symm hkn
        · assumption
    cases hx : ctlOf s ((Client.start env fs filename).run env
        (ops ++ .server (.virtualKeyState k st) :: mid)).control.controls with
    | none => exact List.append_nil _
    | some x =>
      rw [Option.filter_some, if_neg (by simpa using hw x hx)]
      exact List.append_nil _
  · rw [(step_port env _ _).2.2.2 s]
    show _ ++ (if isVirtualKey k then _ else _) = _
    rw [if_neg hv', List.append_nil]

/-! ## Information about the next key -/

/-- A property of the control of a connection, which only depends on whether it requested information about a key -/
theorem asking_step (s : Nat) (b : Bool) (good : ClientOp → Prop)
    (hinfo : ∀ k d, good (.server (.nextKeyInfo k d)) → b = false)
    (haccept : good (.accept s) → b = false)
    (hreq : ∀ f u, good (.control f u s .nextKeyInfo) → b = true)
    (c : Client) (op : ClientOp) (_ : PortInv c) (hg : good op)
    (h : ∀ x, ctlOf s c.control.controls = some x → x.nextKeyInfo = b) :
    ∀ x, ctlAfter c s (ctlOf s c.control.controls) op = some x → x.nextKeyInfo = b := by
  have mapped : ∀ f : Ctl → Ctl, (∀ y, (f y).nextKeyInfo = y.nextKeyInfo) → ∀ x,
      (ctlOf s c.control.controls).map f = some x → x.nextKeyInfo = b := by
    intro f hf x hx
    obtain ⟨y, hy, rfl⟩ := Option.map_eq_some_iff.mp hx
    rw [hf]; exact h y hy
  intro x hx
  cases op with
  | disconnected => cases hx
  | server m =>
    cases m with
    | virtualKeyState k st =>
      replace hx : (if isVirtualKey k then _ else _) = some x := hx
      split at hx
      · exact mapped _ (fun y => by split <;> rfl) x hx
      · exact h x hx
    | nextKeyInfo k d =>
      obtain ⟨y, hy, rfl⟩ := Option.map_eq_some_iff.mp hx
      rw [hinfo k d hg]
    | _ => exact h x hx
  | accept s' =>
    replace hx : (if s' = s then _ else _) = some x := hx
    split at hx
    · rename_i hs
      subst hs
      cases hc : ctlOf s' c.control.controls with
      | none => rw [hc] at hx; cases hx; rw [haccept hg]; rfl
      | some y => rw [hc] at hx; cases hx; exact h _ hc
    · exact h x hx
  | controlClosed s' =>
    replace hx : (if s' = s then none else _) = some x := hx
    split at hx
    · cases hx
    · exact h x hx
  | control fs upd s' m =>
    replace hx : (if s' = s then _ else _) = some x := hx
    by_cases hs : s' = s
    · rw [if_pos hs] at hx
      subst hs
      cases m with
      | requestToggle name =>
        replace hx : (if _ then _ else _) = some x := hx
        split at hx
        · exact h x hx
        · exact mapped _ (fun _ => by rfl) x hx
      | setInstanceId id' => exact mapped _ (fun _ => by rfl) x hx
      | nextKeyInfo =>
        obtain ⟨y, hy, rfl⟩ := Option.map_eq_some_iff.mp hx
        rw [hreq fs upd hg]
      | _ => exact h x hx
    · rw [if_neg hs] at hx
      cases m with
      | setInstanceId id' =>
        replace hx : (if _ then _ else _) = some x := hx
        split at hx
        · exact h x (Option.mem_filter_iff.mp hx).1
        · exact h x hx
      | _ => exact h x hx
  | _ => exact h x hx

/-- Which replies and notifications information about a key causes -/
theorem info_replies (env : ClientEnv) (c : Client) (hinv : PortInv c) (s : Nat) (k : Key) (d : DeviceDesc) :
    repliesTo s (c.step env (.server (.nextKeyInfo k d))).out = repliesTo s c.out ++
      (((ctlOf s c.control.controls).filter (fun x => decide (x.nextKeyInfo = true))).toList).map
        (fun _ => .keyInfo ⟨k, c.window, d⟩) := by
  rw [(step_port env _ _).2.2.2 s]
  congr 1
  show List.map _ _ = _
  rw [filter_socket hinv.sockets s (fun x => x.nextKeyInfo = true)]

theorem shown_append (a b : List CEff) : shown (a ++ b) = shown a ++ shown b := by simp [shown]

theorem info_shown (env : ClientEnv) (c : Client) (k : Key) (d : DeviceDesc) :
    shown (c.step env (.server (.nextKeyInfo k d))).out =
      shown c.out ++ (if c.control.controls.any (·.nextKeyInfo) then [] else [⟨k, c.window, d⟩]) := by
  have hr : ∀ l : List (Nat × CtlReply), shown (l.map (fun x => CEff.control x.1 x.2)) = [] := by
    intro l
    rw [shown, List.filterMap_eq_nil_iff]
    intro e he
    obtain ⟨x, _, hx⟩ := List.mem_map.mp he
    rw [← hx]
  show shown (c.onNextKeyInfo k d).out = _
  rw [Client.onNextKeyInfo]
  have h1 : shown (c.setControl ((c.control.replyKeyInfo ⟨k, c.window, d⟩).1,
      (c.control.replyKeyInfo ⟨k, c.window, d⟩).2.1)).out = shown c.out := by
    show shown (c.out ++ _) = _
    rw [shown_append, hr, List.append_nil]
  by_cases h : c.control.controls.any (·.nextKeyInfo) = true
  · rw [if_pos h]
    have : (c.control.replyKeyInfo ⟨k, c.window, d⟩).2.2 = true := h
    simp only [this, if_true, List.append_nil]
    exact h1
  · rw [if_neg h]
    have : (c.control.replyKeyInfo ⟨k, c.window, d⟩).2.2 = false := Bool.eq_false_iff.mpr h
    simp only [this, Bool.false_eq_true, if_false]
    show shown (_ ++ [CEff.showKeyInfo ⟨k, c.window, d⟩]) = _
    rw [shown_append, h1]; rfl

/-- **C64** (the requested information is replied): a connection which requested information about the next key is sent exactly one
message with the key, the device and the focused window, when the server tells about the next key; nothing is shown to the user. -/
theorem C64_replied (env : ClientEnv) (fs : FileSys) (filename : Str) (ops mid : List ClientOp) (s : Nat) (k : Key)
    (d : DeviceDesc) (fs' : FileSys) (upd : Option Window)
    (hmid : ∀ op ∈ mid, op ≠ .accept s ∧ ∀ k d, op ≠ .server (.nextKeyInfo k d))
    (ho : ((Client.start env fs filename).run env (ops ++ .control fs' upd s .nextKeyInfo :: mid)).isOpen s = true) :
    repliesTo s ((Client.start env fs filename).run env (ops ++ .control fs' upd s .nextKeyInfo :: mid ++
        [.server (.nextKeyInfo k d)])).out =
      repliesTo s ((Client.start env fs filename).run env (ops ++ .control fs' upd s .nextKeyInfo :: mid)).out ++
        [.keyInfo ⟨k, ((Client.start env fs filename).run env
          (ops ++ .control fs' upd s .nextKeyInfo :: mid)).window, d⟩] ∧
    shown ((Client.start env fs filename).run env (ops ++ .control fs' upd s .nextKeyInfo :: mid ++
        [.server (.nextKeyInfo k d)])).out =
      shown ((Client.start env fs filename).run env (ops ++ .control fs' upd s .nextKeyInfo :: mid)).out := by
  have hinv := (start_port env fs filename).run env (ops ++ .control fs' upd s .nextKeyInfo :: mid)
  have hw : ∀ x, ctlOf s ((Client.start env fs filename).run env
      (ops ++ .control fs' upd s .nextKeyInfo :: mid)).control.controls = some x → x.nextKeyInfo = true := by
    rw [run_append]
    show ∀ x, ctlOf s ((((Client.start env fs filename).run env ops).step env
      (.control fs' upd s .nextKeyInfo)).run env mid).control.controls = some x → _
    have h0 := (start_port env fs filename).run env ops
    refine ctl_kept env (fun x => x.nextKeyInfo = true) s
      (fun op => op ≠ .accept s ∧ ∀ k d, op ≠ .server (.nextKeyInfo k d)) ?_ _ (h0.step env _) mid hmid ?_
    · refine asking_step s true _ ?_ ?_ ?_
      · exact fun k d hg => absurd rfl (hg.2 k d)
      · exact fun hg => absurd rfl hg.1
      · exact fun _ _ _ => rfl
    · rw [ctl_after env _ h0]
      intro x hx
      replace hx : (if s = s then _ else _) = some x := hx
      rw [if_pos rfl] at hx
      obtain ⟨y, hy, rfl⟩ := Option.map_eq_some_iff.mp hx
      rfl
  rw [run_snoc, info_replies env _ hinv s k d, info_shown]
  rw [isOpen_iff] at ho
  obtain ⟨x, hx⟩ := Option.isSome_iff_exists.mp ho
  constructor
  · rw [hx, Option.filter_some, if_pos (by simpa using hw x hx)]
    rfl
  · rw [if_pos, List.append_nil]
    exact List.any_eq_true.mpr ⟨x, (ctlOf_socket hx).2, hw x hx⟩

/-- **C64** (not requested): when no connection requested information since the last time, it is shown to the user, and
no connection is sent a message. -/
theorem C64_shown (env : ClientEnv) (fs : FileSys) (filename : Str) (ops mid : List ClientOp) (k k' : Key)
    (d d' : DeviceDesc) (hmid : ∀ op ∈ mid, ∀ f u s, op ≠ .control f u s .nextKeyInfo) :
    (∀ s, repliesTo s ((Client.start env fs filename).run env (ops ++ .server (.nextKeyInfo k d) :: mid ++
        [.server (.nextKeyInfo k' d')])).out =
      repliesTo s ((Client.start env fs filename).run env (ops ++ .server (.nextKeyInfo k d) :: mid)).out) ∧
    shown ((Client.start env fs filename).run env (ops ++ .server (.nextKeyInfo k d) :: mid ++
        [.server (.nextKeyInfo k' d')])).out =
      shown ((Client.start env fs filename).run env (ops ++ .server (.nextKeyInfo k d) :: mid)).out ++
        [⟨k', ((Client.start env fs filename).run env (ops ++ .server (.nextKeyInfo k d) :: mid)).window, d'⟩] := by
  have hinv := (start_port env fs filename).run env (ops ++ .server (.nextKeyInfo k d) :: mid)
  have hw : ∀ s, ∀ x, ctlOf s ((Client.start env fs filename).run env
      (ops ++ .server (.nextKeyInfo k d) :: mid)).control.controls = some x → x.nextKeyInfo = false := by
    intro s
    rw [run_append]
    show ∀ x, ctlOf s ((((Client.start env fs filename).run env ops).step env
      (.server (.nextKeyInfo k d))).run env mid).control.controls = some x → _
    have h0 := (start_port env fs filename).run env ops
    refine ctl_kept env (fun x => x.nextKeyInfo = false) s
      (fun op => ∀ f u s, op ≠ .control f u s .nextKeyInfo) ?_ _ (h0.step env _) mid hmid ?_
    · refine asking_step s false _ ?_ ?_ ?_
      · exact fun k d hg => rfl
      · exact fun hg => rfl
      · exact fun f u hg => absurd rfl (hg f u s)
    · rw [ctl_after env _ h0]
      intro x hx
      obtain ⟨y, hy, rfl⟩ := Option.map_eq_some_iff.mp hx
      rfl
  rw [run_snoc]
  constructor
  · intro s
    rw [info_replies env _ hinv s k' d']
    cases hx : ctlOf s ((Client.start env fs filename).run env
        (ops ++ .server (.nextKeyInfo k d) :: mid)).control.controls with
    | none => exact List.append_nil _
    | some x =>
      rw [Option.filter_some, if_neg (by simp [hw s x hx])]
      exact List.append_nil _
  · rw [info_shown, if_neg]
    intro h
    obtain ⟨x, hx, hn⟩ := List.any_eq_true.mp h
    rw [hw x.socket x (ctlOf_mem hinv.sockets hx)] at hn
    cases hn

/-- **C64** (the server is asked): the request is passed on to the server. -/
theorem C64_asked (env : ClientEnv) (c : Client) (s : Nat) (fs : FileSys) (upd : Option Window) (hc : c.isConnected = true)
    (ho : c.isOpen s = true) :
    (c.step env (.control fs upd s .nextKeyInfo)).out = c.out ++ [.server .requestNextKeyInfo] := by
  show (if c.isOpen s = true then _ else c).out = _
  rw [if_pos ho]
  show (Client.send _ _).out = _
  rw [Client.send_out]
  show c.out ++ (if c.isConnected then _ else _) = _
  rw [if_pos hc]

end KM
