import Verif.Spec.Control
import Verif.Props.Notifications
/-!
# Lemmas: a connection of `keymapperctl` while the client does something else
-/
namespace KM

theorem waitsFor_iff {c : Client} (hinv : PortInv c) (s : Nat) (k : Key) :
    WaitsFor c s k ↔ ∀ x, ctlOf s c.control.controls = some x → x.toggleKey = k ∧ x.nextKeyInfo = false := by
  constructor
  · intro h x hx
    obtain ⟨h1, h2⟩ := ctlOf_socket hx
    exact h x h2 h1
  · intro h x hx hs
    refine h x ?_
    have hf := filter_socket hinv.sockets s (fun _ => True)
    have hmem : x ∈ c.control.controls.filter (fun x => True ∧ x.socket = s) := by
      rw [List.mem_filter]; exact ⟨hx, by simp [hs]⟩
    rw [hf] at hmem
    simpa using hmem

/-- Something else happens: a connection keeps waiting, and nothing is sent to it. -/
theorem foreign_step (env : ClientEnv) (c : Client) (hinv : PortInv c) (s : Nat) (k : Key) (op : ClientOp)
    (hw : WaitsFor c s k) (hf : ForeignOp s op)
    (hk : isVirtualKey k = true → ∀ st, op ≠ .server (.virtualKeyState k st)) :
    WaitsFor (c.step env op) s k ∧ repliesTo s (c.step env op).out = repliesTo s c.out := by
  rw [waitsFor_iff hinv] at hw
  refine ⟨?_, ?_⟩
  · rw [waitsFor_iff (hinv.step env op)]
    rw [ctl_after env c hinv]
    have h1 := waiting_step s (fun x => x.toggleKey = k) (fun x y he hx => he.symm.trans hx) (fun o => o = op)
      (fun k' st x ho hv hx hxk => absurd ho.symm (by
        have : k' = k := hxk.symm.trans hx
        subst this
        exact hk hv st))
      (fun ho => absurd ho.symm hf.1) (fun f u name ho => absurd ho.symm (hf.2 f u _)) c op hinv rfl
      (fun x hx => (hw x hx).1)
    have h2 := asking_step s false (fun o => o = op) (fun _ _ _ => rfl) (fun _ => rfl)
      (fun f u ho => absurd ho.symm (hf.2 f u _)) c op hinv rfl (fun x hx => (hw x hx).2)
    exact fun x hx => ⟨h1 x hx, h2 x hx⟩
  · rw [(step_port env c op).2.2.2 s]
    have : newReplies env c s op = [] := by
      cases op with
      | server m =>
        cases m with
        | virtualKeyState k' st =>
          show (if isVirtualKey k' then _ else _) = _
          split
          · rename_i hv
            rw [filter_socket hinv.sockets s (fun x => x.toggleKey = k')]
            cases hx : ctlOf s c.control.controls with
            | none => rfl
            | some x =>
              have : ¬ x.toggleKey = k' := by
                intro he
                have hkk : k = k' := (hw x hx).1.symm.trans he
                subst hkk
                exact hk hv st rfl
              simp [Option.filter, this]
          · rfl
        | nextKeyInfo k' d =>
          show List.map _ _ = _
          rw [filter_socket hinv.sockets s (fun x => x.nextKeyInfo = true)]
          cases hx : ctlOf s c.control.controls with
          | none => rfl
          | some x => simp [Option.filter, (hw x hx).2]
        | _ => rfl
      | control f u s' m =>
        show (if s' = s ∧ _ then _ else _) = _
        rw [if_neg]
        rintro ⟨rfl, -⟩
        exact hf.2 f u m rfl
      | _ => rfl
    show _ ++ newReplies env c s op = _
    rw [this, List.append_nil]

/-- A connection which is closed stays closed. -/
theorem foreign_closed (env : ClientEnv) (c : Client) (hinv : PortInv c) (s : Nat) (op : ClientOp) (hf : ForeignOp s op)
    (h : (c.step env op).isOpen s = true) : c.isOpen s = true := by
  rw [isOpen_iff] at h ⊢
  rw [ctl_after env c hinv] at h
  cases hx : ctlOf s c.control.controls with
  | some x => rfl
  | none =>
    rw [hx] at h
    exfalso
    revert h
    cases op with
    | server m =>
      cases m with
      | virtualKeyState k st =>
        show Option.isSome (if isVirtualKey k then _ else _) = true → _
        split <;> simp
      | _ => simp [ctlAfter]
    | accept s' =>
      have : s' ≠ s := fun h => hf.1 (by rw [h])
      simp [ctlAfter, this]
    | controlClosed s' =>
      show Option.isSome (if s' = s then _ else _) = true → _
      split <;> simp
    | control f u s' m =>
      have : s' ≠ s := fun h => hf.2 f u m (by rw [h])
      show Option.isSome (if s' = s then _ else _) = true → _
      rw [if_neg this]
      cases m with
      | setInstanceId id =>
        show Option.isSome (if _ then _ else _) = true → _
        split <;> simp
      | _ => simp
    | _ => simp [ctlAfter]

/-- Several things happen. -/
theorem foreign_run (env : ClientEnv) (c : Client) (hinv : PortInv c) (s : Nat) (k : Key) (ops : List ClientOp)
    (hw : WaitsFor c s k) (hf : ∀ op ∈ ops, ForeignOp s op)
    (hk : isVirtualKey k = true → ∀ op ∈ ops, ∀ st, op ≠ .server (.virtualKeyState k st)) :
    WaitsFor (c.run env ops) s k ∧ repliesTo s (c.run env ops).out = repliesTo s c.out := by
  induction ops generalizing c with
  | nil => exact ⟨hw, rfl⟩
  | cons op ops ih =>
    obtain ⟨h1, h2⟩ := foreign_step env c hinv s k op hw (hf op List.mem_cons_self)
      (fun hv => hk hv op List.mem_cons_self)
    obtain ⟨h3, h4⟩ := ih (c.step env op) (hinv.step env op) h1 (fun o ho => hf o (List.mem_cons_of_mem _ ho))
      (fun hv o ho => hk hv o (List.mem_cons_of_mem _ ho))
    exact ⟨h3, h4.trans h2⟩

theorem foreign_run_closed (env : ClientEnv) (c : Client) (hinv : PortInv c) (s : Nat) (ops : List ClientOp)
    (hf : ∀ op ∈ ops, ForeignOp s op) (h : (c.run env ops).isOpen s = true) : c.isOpen s = true := by
  induction ops generalizing c with
  | nil => exact h
  | cons op ops ih =>
    exact foreign_closed env c hinv s op (hf op List.mem_cons_self)
      (ih (c.step env op) (hinv.step env op) (fun o ho => hf o (List.mem_cons_of_mem _ ho)) h)

/-- Requests other than to be notified leave nothing to wait for. -/
theorem request_waits (env : ClientEnv) (c : Client) (hinv : PortInv c) (s : Nat) (f : FileSys) (u : Option Window)
    (m : CtlMsg) (hw : WaitsFor c s Key.none) (ht : ∀ name, m ≠ .requestToggle name) (hn : m ≠ .nextKeyInfo) :
    WaitsFor (c.step env (.control f u s m)) s Key.none := by
  rw [waitsFor_iff hinv] at hw
  rw [waitsFor_iff (hinv.step env _), ctl_after env c hinv]
  intro x hx
  replace hx : (if s = s then _ else _) = some x := hx
  rw [if_pos rfl] at hx
  cases m with
  | requestToggle name => exact absurd rfl (ht name)
  | nextKeyInfo => exact absurd rfl hn
  | setInstanceId id =>
    obtain ⟨y, hy, rfl⟩ := Option.map_eq_some_iff.mp hx
    exact hw y hy
  | _ => exact hw x hx

/-! ## The system -/

theorem CtlSys.client_inv (h : CtlHost) (s : CtlSys) : PortInv (s.client h) :=
  (start_port h.env h.fs h.filename).run h.env s.hist

theorem CtlSys.pending_eq (h : CtlHost) (s : CtlSys) :
    s.pending h = (repliesTo h.socket (s.client h).out).drop s.read := rfl

theorem CtlSys.connected_eq (h : CtlHost) (s : CtlSys) : s.connected h = (s.client h).isOpen h.socket := rfl

theorem CtlSys.run_client (h : CtlHost) (s : CtlSys) (ops : List ClientOp) :
    s.run h (ops.map SysOp.client) = { s with hist := s.hist ++ ops } := by
  induction ops generalizing s with
  | nil => simp [CtlSys.run]
  | cons op ops ih =>
    rw [List.map_cons]
    show (s.step h (.client op)).run h _ = _
    rw [ih]
    simp [CtlSys.step]

theorem CtlSys.run_handle (h : CtlHost) (s : CtlSys) (m : CtlMsg) (hs : s.sent = [m]) (pre post : List ClientOp)
    (f : FileSys) (u : Option Window) :
    s.run h (pre.map SysOp.client ++ .handle f u :: post.map SysOp.client) =
      { s with hist := s.hist ++ pre ++ .control f u h.socket m :: post, sent := [] } := by
  have happ : ∀ a b, s.run h (a ++ b) = (s.run h a).run h b := fun a b => List.foldl_append
  rw [happ, CtlSys.run_client]
  show (CtlSys.step h _ (.handle f u)).run h _ = _
  rw [CtlSys.step]
  simp only [hs]
  rw [CtlSys.run_client]
  simp

theorem CtlSys.client_append (h : CtlHost) (s : CtlSys) (ops : List ClientOp) :
    ({ s with hist := s.hist ++ ops } : CtlSys).client h = (s.client h).run h.env ops := by
  rw [CtlSys.client, CtlSys.client, run_append]

end KM
