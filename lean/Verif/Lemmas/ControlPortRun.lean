import Verif.Lemmas.ControlPort
/-!
# Lemmas about the control port: invariants
-/
namespace KM

/-- The control of a connection -/
def ctlOf (s : Nat) (l : List Ctl) : Option Ctl := l.find? (fun x => x.socket == s)

/-- The sockets of the controls are different -/
def SocketsOk (l : List Ctl) : Prop := l.Pairwise (fun x y => x.socket ≠ y.socket)

theorem ctlOf_socket {s : Nat} {l : List Ctl} {x : Ctl} (h : ctlOf s l = some x) : x.socket = s ∧ x ∈ l :=
  ⟨by simpa using List.find?_some h, List.mem_of_find?_eq_some h⟩

theorem ctlOf_mem {l : List Ctl} (h : SocketsOk l) {x : Ctl} (hx : x ∈ l) : ctlOf x.socket l = some x := by
  induction l with
  | nil => simp at hx
  | cons y l ih =>
    rw [SocketsOk, List.pairwise_cons] at h
    rw [ctlOf, List.find?_cons]
    rcases List.mem_cons.mp hx with rfl | hx
    · simp
    · have : y.socket ≠ x.socket := h.1 x hx
      rw [show (y.socket == x.socket) = false from by simpa using this]
      exact ih h.2 hx

theorem ctlOf_none {s : Nat} {l : List Ctl} : ctlOf s l = none ↔ ∀ x ∈ l, x.socket ≠ s := by
  simp [ctlOf, List.find?_eq_none]

theorem isOpen_iff (c : Client) (s : Nat) : c.isOpen s = (ctlOf s c.control.controls).isSome := by
  rw [Client.isOpen, ctlOf, Bool.eq_iff_iff, List.find?_isSome, List.any_eq_true]

/-- Changing controls without changing their sockets -/
theorem ctlOf_map (s : Nat) (l : List Ctl) (f : Ctl → Ctl) (hf : ∀ x, (f x).socket = x.socket) :
    ctlOf s (l.map f) = (ctlOf s l).map f := by
  rw [ctlOf, List.find?_map, ctlOf]
  congr 2
  funext x
  simp [hf]

theorem SocketsOk.map {l : List Ctl} (h : SocketsOk l) (f : Ctl → Ctl) (hf : ∀ x, (f x).socket = x.socket) :
    SocketsOk (l.map f) := by
  rw [SocketsOk, List.pairwise_map]
  refine h.imp ?_
  intro a b hab
  rw [hf, hf]; exact hab

theorem SocketsOk.filter {l : List Ctl} (h : SocketsOk l) (q : Ctl → Bool) : SocketsOk (l.filter q) :=
  List.Pairwise.filter _ h

theorem ctlOf_filter {l : List Ctl} (h : SocketsOk l) (s : Nat) (q : Ctl → Bool) :
    ctlOf s (l.filter q) = (ctlOf s l).filter q := by
  cases hc : ctlOf s l with
  | none =>
    rw [ctlOf_none] at hc
    show _ = none
    rw [ctlOf_none]
    exact fun x hx => hc x (List.mem_filter.mp hx).1
  | some x =>
    obtain ⟨h1, h2⟩ := ctlOf_socket hc
    by_cases hq : q x = true
    · rw [Option.filter_some, if_pos hq, ← h1]
      exact ctlOf_mem (h.filter q) (List.mem_filter.mpr ⟨h2, hq⟩)
    · rw [Option.filter_some, if_neg hq, ctlOf_none]
      intro y hy he
      obtain ⟨hy1, hy2⟩ := List.mem_filter.mp hy
      have := ctlOf_mem h hy1
      rw [he, hc] at this
      cases this
      exact hq hy2

/-- The controls of a connection with a property are its control -/
theorem filter_socket {l : List Ctl} (h : SocketsOk l) (s : Nat) (q : Ctl → Prop) [DecidablePred q] :
    l.filter (fun x => decide (q x ∧ x.socket = s)) = ((ctlOf s l).filter (fun x => decide (q x))).toList := by
  induction l with
  | nil => rfl
  | cons y l ih =>
    rw [SocketsOk, List.pairwise_cons] at h
    rw [List.filter_cons, ctlOf, List.find?_cons]
    by_cases hs : y.socket = s
    · rw [show (y.socket == s) = true from by simpa using hs]
      have hl : l.filter (fun x => decide (q x ∧ x.socket = s)) = [] := by
        rw [List.filter_eq_nil_iff]
        intro x hx
        have := h.1 x hx
        simp only [decide_eq_true_eq, not_and]
        intro _ he
        exact this (hs.trans he.symm)
      rw [hl]
      by_cases hq : q y
      · simp [hq, hs, Option.filter]
      · simp [hq, Option.filter]
    · rw [show (y.socket == s) = false from by simpa using hs]
      rw [if_neg (by simp [hs])]
      exact ih h.2

/-- Setting the id of a control -/
def setId (id : Str) (x : Ctl) : Ctl := { x with instanceId := id }

/-- Announcing an id -/
theorem setInstanceId_controls (p : CPort) (s : Nat) (id : Str) (x : Ctl) (hx : ctlOf s p.controls = some x) :
    (p.setInstanceId s id).controls =
      if x.instanceId = id then p.controls
      else (if NoId id then p.controls else p.controls.filter (fun c => c.instanceId ≠ id)).map
        (fun c => if c.socket = s then setId id c else c) := by
  rw [CPort.setInstanceId]
  have : p.controls.find? (fun c => c.socket == s) = some x := hx
  rw [this]
  simp only
  by_cases h : x.instanceId = id
  · rw [if_neg (by simp [h]), if_pos h]
  · rw [if_pos (by simpa using h), if_neg h, CPort.modControl, CPort.disconnectById]
    by_cases hn : NoId id
    · have hn' : id = [] ∨ id = ['0'] := hn
      rw [if_pos hn]; simp only [if_pos hn']; rfl
    · have hn' : ¬ (id = [] ∨ id = ['0']) := hn
      rw [if_neg hn]; simp only [if_neg hn']; rfl

theorem setInstanceId_closed (p : CPort) (s : Nat) (id : Str) (hx : ctlOf s p.controls = none) :
    p.setInstanceId s id = p := by
  rw [CPort.setInstanceId]
  have : p.controls.find? (fun c => c.socket == s) = none := hx
  rw [this]

/-- Different controls have different ids -/
def IdsOk (l : List Ctl) : Prop :=
  ∀ x ∈ l, ∀ y ∈ l, x.instanceId = y.instanceId → ¬ NoId x.instanceId → x.socket = y.socket

/-- What always holds for the control port -/
structure PortInv (c : Client) : Prop where
  size : c.control.down.length = virtualTableSize
  sockets : SocketsOk c.control.controls
  ids : ∀ x ∈ c.control.controls, ∀ y ∈ c.control.controls, x.instanceId = y.instanceId →
    ¬ NoId x.instanceId → x.socket = y.socket

theorem ite_setId_socket (s : Nat) (id : Str) (x : Ctl) : (if x.socket = s then setId id x else x).socket = x.socket := by
  split <;> rfl

theorem PortInv.setInstanceId_sockets {c : Client} (h : PortInv c) (s : Nat) (id : Str) :
    SocketsOk (c.control.setInstanceId s id).controls := by
  cases hc : ctlOf s c.control.controls with
  | none => rw [setInstanceId_closed _ _ _ hc]; exact h.sockets
  | some x =>
    rw [setInstanceId_controls _ _ _ x hc]
    split
    · exact h.sockets
    · refine SocketsOk.map ?_ _ (ite_setId_socket s id)
      split
      · exact h.sockets
      · exact h.sockets.filter _

theorem PortInv.setInstanceId_ids {c : Client} (h : PortInv c) (s : Nat) (id : Str) :
    ∀ x ∈ (c.control.setInstanceId s id).controls, ∀ y ∈ (c.control.setInstanceId s id).controls,
      x.instanceId = y.instanceId → ¬ NoId x.instanceId → x.socket = y.socket := by
  cases hc : ctlOf s c.control.controls with
  | none => rw [setInstanceId_closed _ _ _ hc]; exact h.ids
  | some z =>
    rw [setInstanceId_controls _ _ _ z hc]
    split
    · exact h.ids
    · intro x hx y hy he hn
      obtain ⟨x', hx', rfl⟩ := List.mem_map.mp hx
      obtain ⟨y', hy', rfl⟩ := List.mem_map.mp hy
      have hmem : ∀ w ∈ (if NoId id then c.control.controls
          else c.control.controls.filter (fun c => c.instanceId ≠ id)), w ∈ c.control.controls := by
        intro w hw
        split at hw
        · exact hw
        · exact (List.mem_filter.mp hw).1
      rw [ite_setId_socket, ite_setId_socket]
      by_cases hxs : x'.socket = s
      · by_cases hys : y'.socket = s
        · rw [hxs, hys]
        · rw [if_pos hxs] at he hn
          rw [if_neg hys] at he
          have hid : ¬ NoId id := hn
          rw [if_neg hid] at hy'
          have := (List.mem_filter.mp hy').2
          simp only [ne_eq, decide_not, Bool.not_eq_eq_eq_not, Bool.not_true, decide_eq_false_iff_not] at this
          exact absurd he.symm this
      · by_cases hys : y'.socket = s
        · rw [if_neg hxs] at he hn
          rw [if_pos hys] at he
          have he' : x'.instanceId = id := he
          have hid : ¬ NoId id := by rw [← he']; exact hn
          rw [if_neg hid] at hx'
          have := (List.mem_filter.mp hx').2
          simp only [ne_eq, decide_not, Bool.not_eq_eq_eq_not, Bool.not_true, decide_eq_false_iff_not] at this
          exact absurd he this
        · rw [if_neg hxs, if_neg hys] at he
          rw [if_neg hxs] at hn
          exact h.ids x' (hmem _ hx') y' (hmem _ hy') he hn

/-- The invariant follows from the control port -/
theorem PortInv.of_port {c : Client} (p : CPort) (h1 : c.control.down = p.down) (h2 : c.control.controls = p.controls)
    (hs : p.down.length = virtualTableSize) (hk : SocketsOk p.controls)
    (hi : ∀ x ∈ p.controls, ∀ y ∈ p.controls, x.instanceId = y.instanceId →
      ¬ NoId x.instanceId → x.socket = y.socket) : PortInv c :=
  ⟨by rw [h1]; exact hs, by rw [h2]; exact hk, by rw [h2]; exact hi⟩

/-- Controls which only change in other respects -/
theorem ids_map {l : List Ctl} (f : Ctl → Ctl) (hf : ∀ x, (f x).socket = x.socket ∧ (f x).instanceId = x.instanceId)
    (hi : ∀ x ∈ l, ∀ y ∈ l, x.instanceId = y.instanceId → ¬ NoId x.instanceId → x.socket = y.socket) :
    ∀ x ∈ l.map f, ∀ y ∈ l.map f, x.instanceId = y.instanceId → ¬ NoId x.instanceId → x.socket = y.socket := by
  intro x hx y hy he hn
  obtain ⟨x', hx', rfl⟩ := List.mem_map.mp hx
  obtain ⟨y', hy', rfl⟩ := List.mem_map.mp hy
  rw [(hf x').1, (hf y').1]
  rw [(hf x').2] at he hn
  rw [(hf y').2] at he
  exact hi x' hx' y' hy' he hn

theorem PortInv.step {c : Client} (h : PortInv c) (env : ClientEnv) (op : ClientOp) : PortInv (c.step env op) := by
  obtain ⟨h1, h2, _, _⟩ := step_port env c op
  refine PortInv.of_port _ h1 h2 ?_ ?_ ?_ <;> clear h1 h2
  · cases op with
    | disconnected => exact List.length_replicate
    | server m =>
      cases m with
      | virtualKeyState k st =>
        show (c.control.onKeyState k st).1.down.length = _
        rw [CPort.onKeyState]
        split
        · show (List.set _ _ _).length = _
          rw [List.length_set]; exact h.size
        · exact h.size
      | _ => exact h.size
    | accept s =>
      show (c.control.accept s).down.length = _
      rw [CPort.accept]; split <;> exact h.size
    | control fs upd s m =>
      show (CPort.down (if _ then _ else _)).length = _
      split
      · cases m with
        | requestToggle name =>
          show (CPort.requestToggle _ _ _).1.down.length = _
          rw [CPort.requestToggle]; split <;> exact h.size
        | setInstanceId id =>
          show (CPort.setInstanceId _ _ _).down.length = _
          rw [CPort.setInstanceId]
          split
          · exact h.size
          · split
            · rw [CPort.disconnectById]
              split <;> exact h.size
            · exact h.size
        | _ => exact h.size
      · exact h.size
    | _ => exact h.size
  · cases op with
    | disconnected => exact List.Pairwise.nil
    | server m =>
      cases m with
      | virtualKeyState k st =>
        show SocketsOk (c.control.onKeyState k st).1.controls
        rw [CPort.onKeyState]
        split
        · exact h.sockets.map _ (fun x => by split <;> rfl)
        · exact h.sockets
      | nextKeyInfo k d => exact h.sockets.map _ (fun x => rfl)
      | _ => exact h.sockets
    | accept s =>
      show SocketsOk (c.control.accept s).controls
      rw [CPort.accept]
      split
      · exact h.sockets
      · rename_i hn
        rw [SocketsOk, List.pairwise_append]
        refine ⟨h.sockets, by simp, ?_⟩
        intro a ha b hb
        simp only [List.mem_singleton] at hb
        rw [hb]
        intro he
        exact hn (List.any_eq_true.mpr ⟨a, ha, by simpa using he⟩)
    | controlClosed s => exact h.sockets.filter _
    | control fs upd s m =>
      show SocketsOk (CPort.controls (if _ then _ else _))
      split
      · cases m with
        | requestToggle name =>
          show SocketsOk (CPort.requestToggle _ _ _).1.controls
          rw [CPort.requestToggle]
          split
          · exact h.sockets.map _ (fun x => by split <;> rfl)
          · exact h.sockets
        | setInstanceId id => exact h.setInstanceId_sockets s id
        | nextKeyInfo => exact h.sockets.map _ (fun x => by split <;> rfl)
        | _ => exact h.sockets
      · exact h.sockets
    | _ => exact h.sockets
  · cases op with
    | disconnected => intro x hx; cases hx
    | server m =>
      cases m with
      | virtualKeyState k st =>
        show ∀ x ∈ (c.control.onKeyState k st).1.controls, ∀ y ∈ (c.control.onKeyState k st).1.controls, _
        rw [CPort.onKeyState]
        split
        · exact ids_map _ (fun x => by split <;> exact ⟨rfl, rfl⟩) h.ids
        · exact h.ids
      | nextKeyInfo k d => exact ids_map _ (fun x => ⟨rfl, rfl⟩) h.ids
      | _ => exact h.ids
    | accept s =>
      show ∀ x ∈ (c.control.accept s).controls, ∀ y ∈ (c.control.accept s).controls, _
      rw [CPort.accept]
      split
      · exact h.ids
      · intro x hx y hy he hn
        rcases List.mem_append.mp hx with hx | hx
        · rcases List.mem_append.mp hy with hy | hy
          · exact h.ids x hx y hy he hn
          · rw [List.mem_singleton.mp hy] at he
            exact absurd (Or.inl he) hn
        · rw [List.mem_singleton.mp hx] at hn
          exact absurd (Or.inl rfl) hn
    | controlClosed s =>
      intro x hx y hy
      exact h.ids x (List.mem_filter.mp hx).1 y (List.mem_filter.mp hy).1
    | control fs upd s m =>
      show IdsOk (CPort.controls (if _ then _ else _))
      split
      · cases m with
        | requestToggle name =>
          show IdsOk (CPort.requestToggle _ _ _).1.controls
          rw [CPort.requestToggle]
          split
          · exact ids_map _ (fun x => by split <;> exact ⟨rfl, rfl⟩) h.ids
          · exact h.ids
        | setInstanceId id => exact h.setInstanceId_ids s id
        | nextKeyInfo => exact ids_map _ (fun x => by split <;> exact ⟨rfl, rfl⟩) h.ids
        | _ => exact h.ids
      · exact h.ids
    | _ => exact h.ids

theorem PortInv.run {c : Client} (h : PortInv c) (env : ClientEnv) (ops : List ClientOp) : PortInv (c.run env ops) := by
  induction ops generalizing c with
  | nil => exact h
  | cons op ops ih => exact ih (h.step env op)

theorem start_control (env : ClientEnv) (fs : FileSys) (filename : Str) :
    (Client.start env fs filename).control = {} ∧ (Client.start env fs filename).out = [] := by
  rw [Client.start, Client.loadConfig_rest]; exact ⟨rfl, rfl⟩

theorem start_port (env : ClientEnv) (fs : FileSys) (filename : Str) : PortInv (Client.start env fs filename) := by
  refine PortInv.of_port {} ?_ ?_ List.length_replicate List.Pairwise.nil (fun x hx => by cases hx) <;>
    rw [(start_control env fs filename).1]

theorem start_aliases (env : ClientEnv) (fs : FileSys) (filename : Str) : AliasInv (Client.start env fs filename) := by
  intro h
  rw [(start_flags env fs filename).2] at h
  cases h

end KM
