import Verif.Lemmas.ControlPortCtl
/-!
# What `keymapperctl` can rely on
-/
namespace KM

theorem run_snoc (env : ClientEnv) (c : Client) (ops : List ClientOp) (op : ClientOp) :
    c.run env (ops ++ [op]) = (c.run env ops).step env op := by
  rw [run_append]; rfl

/-- A property of the control of a connection which every step keeps -/
theorem ctl_kept (env : ClientEnv) (P : Ctl → Prop) (s : Nat) (good : ClientOp → Prop)
    (hstep : ∀ c op, PortInv c → good op → (∀ x, ctlOf s c.control.controls = some x → P x) →
      ∀ x, ctlAfter c s (ctlOf s c.control.controls) op = some x → P x)
    (c : Client) (hc : PortInv c) (ops : List ClientOp) (hg : ∀ op ∈ ops, good op)
    (h : ∀ x, ctlOf s c.control.controls = some x → P x) :
    ∀ x, ctlOf s (c.run env ops).control.controls = some x → P x := by
  induction ops generalizing c with
  | nil => exact h
  | cons op ops ih =>
    refine ih (c.step env op) (hc.step env op) (fun o ho => hg o (by simp [ho])) ?_
    rw [ctl_after env c hc]
    exact hstep c op hc (hg op (by simp)) h

/-! ## Instances -/

theorem replaced_step (s : Nat) (id : Str) (c : Client) (op : ClientOp) (_ : PortInv c)
    (hg : op ≠ .accept s ∧ ∀ f u id', op = .control f u s (.setInstanceId id') → id' = id)
    (h : ∀ x, ctlOf s c.control.controls = some x → x.instanceId = id) :
    ∀ x, ctlAfter c s (ctlOf s c.control.controls) op = some x → x.instanceId = id := by
  have mapped : ∀ f : Ctl → Ctl, (∀ y, (f y).instanceId = y.instanceId) → ∀ x,
      (ctlOf s c.control.controls).map f = some x → x.instanceId = id := by
    intro f hf x hx
    obtain ⟨y, hy, rfl⟩ := Option.map_eq_some_iff.mp hx
    rw [hf]; exact h y hy
  intro x hx
  cases op with
  | disconnected => cases hx
  | server m =>
    cases m with
    | virtualKeyState k st =>
      replace hx : (if isVirtualKey k then _ else _) = some x := hx
      split at hx
      · exact mapped _ (fun y => by split <;> rfl) x hx
      · exact h x hx
    | nextKeyInfo k d => exact mapped _ (fun _ => by rfl) x hx
    | _ => exact h x hx
  | accept s' =>
    replace hx : (if s' = s then _ else _) = some x := hx
    rw [if_neg (fun he => hg.1 (by rw [he]))] at hx
    exact h x hx
  | controlClosed s' =>
    replace hx : (if s' = s then none else _) = some x := hx
    split at hx
    · cases hx
    · exact h x hx
  | control fs upd s' m =>
    replace hx : (if s' = s then _ else _) = some x := hx
    by_cases hs : s' = s
    · rw [if_pos hs] at hx
      subst hs
      cases m with
      | requestToggle name =>
        replace hx : (if _ then _ else _) = some x := hx
        split at hx
        · exact h x hx
        · exact mapped _ (fun _ => by rfl) x hx
      | setInstanceId id' =>
        obtain ⟨y, hy, rfl⟩ := Option.map_eq_some_iff.mp hx
        exact hg.2 fs upd id' rfl
      | nextKeyInfo => exact mapped _ (fun _ => by rfl) x hx
      | _ => exact h x hx
    · rw [if_neg hs] at hx
      cases m with
      | setInstanceId id' =>
        replace hx : (if _ then _ else _) = some x := hx
        split at hx
        · exact h x (Option.mem_filter_iff.mp hx).1
        · exact h x hx
      | _ => exact h x hx
  | _ => exact h x hx

/-- **C47** (a newer instance replaces the older one): when a connection announced an id, and any time
later another one announces the same id, then the connection of the first one is closed and the other one is open. (Ids
which are empty or `0` do not count; the first one did not announce something else, and it is the same connection.) -/
theorem C47_replaced (env : ClientEnv) (fs : FileSys) (filename : Str) (ops mid : List ClientOp) (s1 s2 : Nat) (id : Str)
    (fs1 fs2 : FileSys) (upd1 upd2 : Option Window) (hs : s1 ≠ s2) (hid : ¬ NoId id)
    (hmid : ∀ op ∈ mid, op ≠ .accept s1 ∧ ∀ f u id', op = .control f u s1 (.setInstanceId id') → id' = id)
    (ho : ((Client.start env fs filename).run env
      (ops ++ .control fs1 upd1 s1 (.setInstanceId id) :: mid)).isOpen s2 = true) :
    ((Client.start env fs filename).run env (ops ++ .control fs1 upd1 s1 (.setInstanceId id) :: mid ++
      [.control fs2 upd2 s2 (.setInstanceId id)])).isOpen s1 = false ∧
    ((Client.start env fs filename).run env (ops ++ .control fs1 upd1 s1 (.setInstanceId id) :: mid ++
      [.control fs2 upd2 s2 (.setInstanceId id)])).isOpen s2 = true := by
  have hinv := (start_port env fs filename).run env (ops ++ .control fs1 upd1 s1 (.setInstanceId id) :: mid)
  have hid1 : ∀ x, ctlOf s1 ((Client.start env fs filename).run env
      (ops ++ .control fs1 upd1 s1 (.setInstanceId id) :: mid)).control.controls = some x → x.instanceId = id := by
    rw [run_append]
    show ∀ x, ctlOf s1 ((((Client.start env fs filename).run env ops).step env
      (.control fs1 upd1 s1 (.setInstanceId id))).run env mid).control.controls = some x → _
    have h0 := (start_port env fs filename).run env ops
    refine ctl_kept env (fun x => x.instanceId = id) s1 _ (replaced_step s1 id) _ (h0.step env _) mid hmid ?_
    rw [ctl_after env _ h0]
    intro x hx
    replace hx : (if s1 = s1 then _ else _) = some x := hx
    rw [if_pos rfl] at hx
    obtain ⟨y, hy, rfl⟩ := Option.map_eq_some_iff.mp hx
    rfl
  rw [run_snoc]
  revert hinv hid1 ho
  generalize (Client.start env fs filename).run env (ops ++ .control fs1 upd1 s1 (.setInstanceId id) :: mid) = c
  intro ho hinv hid1
  rw [isOpen_iff, isOpen_iff, ctl_after env _ hinv, ctl_after env _ hinv]
  constructor
  · show Option.isSome (if s2 = s1 then _ else _) = false
    rw [if_neg (Ne.symm hs)]
    show Option.isSome (if _ then _ else _) = false
    by_cases hx : ∃ x ∈ ctlOf s2 c.control.controls, x.instanceId = id
    · rw [if_neg (fun h => h.2.2 hx)]
      obtain ⟨x, hx, hxi⟩ := hx
      cases hc : ctlOf s1 c.control.controls with
      | none => rfl
      | some y =>
        have hy := hid1 y hc
        have := hinv.ids y (ctlOf_socket hc).2 x (ctlOf_socket hx).2 (by rw [hy, hxi]) (by rw [hy]; exact hid)
        rw [(ctlOf_socket hc).1, (ctlOf_socket hx).1] at this
        exact absurd this hs
    · rw [if_pos ⟨ho, hid, hx⟩]
      cases hc : ctlOf s1 c.control.controls with
      | none => rfl
      | some y =>
        have hy := hid1 y hc
        rw [Option.filter_some, if_neg (by simpa using hy)]; rfl
  · show Option.isSome (if s2 = s2 then _ else _) = true
    rw [if_pos rfl]
    show Option.isSome (Option.map _ _) = true
    rw [Option.isSome_map, ← isOpen_iff]; exact ho

/-- **C47** (nothing else closes a connection): a connection stays open, unless it is closed, the connection to the server is
lost, or another connection announces the id this one announced last. -/
theorem C47_stays_open (env : ClientEnv) (fs : FileSys) (filename : Str) (ops : List ClientOp) (op : ClientOp) (s : Nat)
    (ho : ((Client.start env fs filename).run env ops).isOpen s = true)
    (h1 : op ≠ .disconnected) (h2 : op ≠ .controlClosed s)
    (h3 : ∀ f u s' id, op = .control f u s' (.setInstanceId id) → s' = s ∨ NoId id ∨ lastId s ops ≠ some id) :
    ((Client.start env fs filename).run env (ops ++ [op])).isOpen s = true := by
  have hinv := (start_port env fs filename).run env ops
  rw [run_snoc]
  rw [isOpen_iff] at ho ⊢
  rw [ctl_after env _ hinv]
  obtain ⟨x, hx⟩ := Option.isSome_iff_exists.mp ho
  have hid := id_announced env fs filename ops s x hx
  rw [hx]
  cases op with
  | disconnected => exact absurd rfl h1
  | server m =>
    cases m with
    | virtualKeyState k st =>
      show Option.isSome (if isVirtualKey k then _ else _) = true
      split <;> rfl
    | _ => rfl
  | accept s' =>
    show Option.isSome (if s' = s then _ else _) = true
    split <;> rfl
  | controlClosed s' =>
    show Option.isSome (if s' = s then none else _) = true
    rw [if_neg (fun h => h2 (by rw [h]))]; rfl
  | control fs' upd s' m =>
    show Option.isSome (if s' = s then _ else _) = true
    by_cases hs : s' = s
    · rw [if_pos hs]
      cases m with
      | requestToggle name =>
        show Option.isSome (if _ then _ else _) = true
        split <;> rfl
      | _ => rfl
    · rw [if_neg hs]
      cases m with
      | setInstanceId id =>
        show Option.isSome (if _ then _ else _) = true
        split
        · rename_i hcond
          have hne : x.instanceId ≠ id := by
            intro he
            rcases h3 fs' upd s' id rfl with h | h | h
            · exact hs h
            · exact hcond.2.1 h
            · rcases hid with hid | hid
              · exact hcond.2.1 (Or.inl (by rw [← he]; exact hid))
              · exact h (by rw [hid, he])
          rw [Option.filter_some, if_pos (by simpa using hne)]; rfl
        · rfl
      | _ => rfl
  | _ => rfl

/-! ## The state of virtual keys -/

theorem virtualKey_denoted (c : Client) (config : Config) (name : Str) (k : Key)
    (ha : c.control.aliases = config.virtualKeyAliases) (hd : Denotes config name k) : c.control.virtualKey name = k := by
  obtain ⟨hv, h | ⟨hn, pre, post, hl, hp⟩⟩ := hd
  · have hne : ¬ getKeyByName name = Key.none := by
      intro he
      rw [h] at he
      rw [he] at hv
      revert hv; decide
    rw [CPort.virtualKey]
    have : (getKeyByName name == Key.none) = false := by simpa using hne
    simp only [this, Bool.false_eq_true, if_false]
    rw [h, if_pos hv]
  · rw [CPort.virtualKey]
    have hf : c.control.aliases.find? (fun a => a.1 == name) = some (name, k) := by
      rw [ha, hl, List.find?_append]
      have : pre.find? (fun a => a.1 == name) = none := by
        rw [List.find?_eq_none]
        intro a hm
        simpa using hp a hm
      rw [this]
      simp
    have : (getKeyByName name == Key.none) = true := by simpa using hn
    simp only [this, if_true, hf]
    rw [if_pos hv]

theorem virtualKey_unknown (c : Client) (config : Config) (name : Str)
    (ha : c.control.aliases = config.virtualKeyAliases) (hd : ∀ k, ¬ Denotes config name k) :
    c.control.virtualKey name = Key.none := by
  rw [CPort.virtualKey]
  by_cases hn : getKeyByName name = Key.none
  · have : (getKeyByName name == Key.none) = true := by simpa using hn
    simp only [this, if_true]
    cases hf : c.control.aliases.find? (fun a => a.1 == name) with
    | none =>
      simp only
      rw [hn]
      split <;> rfl
    | some a =>
      simp only
      split
      · rename_i hv
        exfalso
        obtain ⟨h1, pre, post, hl, hp⟩ := List.find?_eq_some_iff_append.mp hf
        have he : a.1 = name := by simpa using h1
        refine hd a.2 ⟨hv, Or.inr ⟨hn, pre, post, ?_, ?_⟩⟩
        · rw [← ha, hl, ← he]
        · intro b hb
          simpa using hp b hb
      · rfl
  · have : (getKeyByName name == Key.none) = false := by simpa using hn
    simp only [this, Bool.false_eq_true, if_false]
    split
    · rename_i hv
      exact absurd ⟨hv, Or.inl rfl⟩ (hd (getKeyByName name))
    · rfl

/-- The table follows what the server tells -/
theorem table_follows (env : ClientEnv) (fs : FileSys) (filename : Str) (ops : List ClientOp) (k : Key)
    (hv : isVirtualKey k = true) (hk : k < Key.last_virtual) :
    ((Client.start env fs filename).run env ops).control.keyState k = stateOf (toldDown k ops) := by
  have hlo : Key.first_virtual ≤ k := by
    rw [isVirtualKey] at hv
    simp only [Bool.and_eq_true, decide_eq_true_eq] at hv
    exact hv.1
  rw [CPort.keyState, if_pos hv, stateOf]
  have key : ((Client.start env fs filename).run env ops).control.down.getD (k - Key.first_virtual) false =
      toldDown k ops := by
    induction ops using list_snoc_induction with
    | h0 =>
      rw [show (Client.start env fs filename).run env [] = Client.start env fs filename from rfl,
        (start_control env fs filename).1]
      show (List.replicate _ false).getD _ false = false
      rw [List.getD_eq_getElem?_getD, List.getElem?_replicate]
      split <;> rfl
    | h1 ops op ih =>
      have hinv := (start_port env fs filename).run env ops
      rw [run_snoc, (step_port env _ op).1, toldDown, List.foldl_append]
      show _ = toldStep k (toldDown k ops) op
      rw [← ih]
      generalize (Client.start env fs filename).run env ops = c at hinv
      clear ih
      cases op with
      | disconnected =>
        show (List.replicate _ false).getD _ false = false
        rw [List.getD_eq_getElem?_getD, List.getElem?_replicate]
        split <;> rfl
      | server m =>
        cases m with
        | virtualKeyState k' st =>
          show (c.control.onKeyState k' st).1.down.getD _ _ = if k' = k then _ else _
          rw [CPort.onKeyState]
          by_cases he : k' = k
          · subst he
            rw [if_pos hv, if_pos rfl]
            show (c.control.down.set _ _).getD _ _ = _
            have hlt : k' - Key.first_virtual < c.control.down.length := by
              rw [hinv.size, virtualTableSize]
              have h1 : Key.first_virtual ≤ k' := hlo
              have h2 : k' < Key.last_virtual := hk
              show k' - Key.first_virtual < Key.last_virtual - Key.first_virtual
              exact Nat.sub_lt_sub_right h1 h2
            rw [List.getD_eq_getElem?_getD, List.getElem?_set, if_pos rfl, if_pos hlt]
            cases st <;> rfl
          · rw [if_neg he]
            split
            · rename_i hv'
              show (c.control.down.set _ _).getD _ _ = _
              have hlo' : Key.first_virtual ≤ k' := by
                rw [isVirtualKey] at hv'
                simp only [Bool.and_eq_true, decide_eq_true_eq] at hv'
                exact hv'.1
              have hne : k' - Key.first_virtual ≠ k - Key.first_virtual := by
                intro h
                apply he
                have h1 := Nat.sub_add_cancel hlo
                have h2 := Nat.sub_add_cancel hlo'
                rw [h] at h2
                exact h2.symm.trans h1
              rw [List.getD_eq_getElem?_getD, List.getElem?_set, if_neg hne, ← List.getD_eq_getElem?_getD]
            · rfl
        | _ => rfl
      | accept s =>
        show (c.control.accept s).down.getD _ _ = _
        rw [CPort.accept]; split <;> rfl
      | control fs' upd s m =>
        show (CPort.down (if _ then _ else _)).getD _ _ = c.control.down.getD _ _
        split
        · cases m with
          | requestToggle name =>
            show (CPort.requestToggle _ _ _).1.down.getD _ _ = _
            rw [CPort.requestToggle]; split <;> rfl
          | setInstanceId id =>
            show (CPort.setInstanceId _ _ _).down.getD _ _ = _
            rw [CPort.setInstanceId]
            split
            · rfl
            · split
              · rw [CPort.disconnectById]; split <;> rfl
              · rfl
          | _ => rfl
        · rfl
      | _ => rfl
  rw [key]

/-- **C40** (the state of a virtual key): a request for the state of a virtual key is replied with the state which the server told
last for it (it is up, when nothing was told since the connection). The name is the one of the key, or one which is
given in the configuration the server uses. (For all keys but `Virtual255`.) -/
theorem C40_reply (env : ClientEnv) (fs : FileSys) (filename : Str) (ops : List ClientOp) (s : Nat) (name : Str) (k : Key)
    (config : Config) (fs' : FileSys) (upd : Option Window) (hc : connectedAfter ops = true)
    (ho : ((Client.start env fs filename).run env ops).isOpen s = true)
    (hv : (serverView ((Client.start env fs filename).run env ops).out).config = some config)
    (hd : Denotes config name k) (hk : k < Key.last_virtual) :
    repliesTo s ((Client.start env fs filename).run env (ops ++ [.control fs' upd s (.getState name)])).out =
      repliesTo s ((Client.start env fs filename).run env ops).out ++ [.keyState k (stateOf (toldDown k ops))] := by
  have hcon := run_connected env (Client.start env fs filename) ops
  rw [(start_flags env fs filename).2] at hcon
  obtain ⟨config', hv', ha⟩ := (start_aliases env fs filename).run env ops (hcon.trans hc)
  rw [hv] at hv'; cases hv'
  rw [run_snoc, (step_port env _ _).2.2.2 s]
  congr 1
  show (if s = s ∧ _ then _ else _) = _
  rw [if_pos ⟨rfl, ho⟩]
  show [CtlReply.keyState _ (CPort.keyState _ _)] = _
  rw [virtualKey_denoted _ config name k ha hd, table_follows env fs filename ops k hd.1 hk]

/-- **C40** (names which are not known): the reply tells that the name does not denote a virtual key. -/
theorem C40_unknown (env : ClientEnv) (fs : FileSys) (filename : Str) (ops : List ClientOp) (s : Nat) (name : Str)
    (config : Config) (fs' : FileSys) (upd : Option Window) (hc : connectedAfter ops = true)
    (ho : ((Client.start env fs filename).run env ops).isOpen s = true)
    (hv : (serverView ((Client.start env fs filename).run env ops).out).config = some config)
    (hd : ∀ k, ¬ Denotes config name k) :
    repliesTo s ((Client.start env fs filename).run env (ops ++ [.control fs' upd s (.getState name)])).out =
      repliesTo s ((Client.start env fs filename).run env ops).out ++ [.keyState Key.none .Not] := by
  have hcon := run_connected env (Client.start env fs filename) ops
  rw [(start_flags env fs filename).2] at hcon
  obtain ⟨config', hv', ha⟩ := (start_aliases env fs filename).run env ops (hcon.trans hc)
  rw [hv] at hv'; cases hv'
  rw [run_snoc, (step_port env _ _).2.2.2 s]
  congr 1
  show (if s = s ∧ _ then _ else _) = _
  rw [if_pos ⟨rfl, ho⟩]
  show [CtlReply.keyState _ (CPort.keyState _ _)] = _
  rw [virtualKey_unknown _ config name ha hd]
  rfl

/-- **C40** (in bounds): no access is out of bounds, as long as `Virtual255` is not used. -/
theorem C40_in_bounds (env : ClientEnv) (fs : FileSys) (filename : Str) (ops : List ClientOp)
    (h : ∀ pre op post, ops = pre ++ op :: post →
      op.key ((Client.start env fs filename).run env pre) ≠ Key.last_virtual) :
    ((Client.start env fs filename).run env ops).control.ub = false := by
  induction ops using list_snoc_induction with
  | h0 =>
    rw [show (Client.start env fs filename).run env [] = Client.start env fs filename from rfl,
      (start_control env fs filename).1]
  | h1 ops op ih =>
    have hinv := (start_port env fs filename).run env ops
    have hop := h ops op [] rfl
    have ih := ih (fun pre o post he => h pre o (post ++ [op]) (by rw [he]; simp))
    rw [run_snoc, (step_port env _ op).2.2.1]
    generalize (Client.start env fs filename).run env ops = c at hinv ih hop
    have hacc : ∀ k, k ≠ Key.last_virtual → (c.control.access k).ub = false := by
      intro k hk
      show (c.control.ub || c.control.outOfBounds k) = false
      rw [ih, Bool.false_or, CPort.outOfBounds, hinv.size]
      by_cases hv : isVirtualKey k = true
      · rw [hv, Bool.true_and, decide_eq_false_iff_not, virtualTableSize]
        rw [isVirtualKey] at hv
        simp only [Bool.and_eq_true, decide_eq_true_eq] at hv
        obtain ⟨h1, h2⟩ := hv
        have h3 : k < Key.last_virtual := Nat.lt_of_le_of_ne h2 hk
        exact Nat.not_le.mpr (Nat.sub_lt_sub_right h1 h3)
      · rw [Bool.eq_false_iff.mpr hv]; rfl
    cases op with
    | disconnected => exact ih
    | server m =>
      cases m with
      | virtualKeyState k st =>
        show (c.control.onKeyState k st).1.ub = false
        rw [CPort.onKeyState]
        split
        · exact hacc k hop
        · exact ih
      | _ => exact ih
    | accept s =>
      show (c.control.accept s).ub = false
      rw [CPort.accept]; split <;> exact ih
    | control fs' upd s m =>
      show CPort.ub (if _ then _ else _) = false
      split
      · cases m with
        | getState name => exact hacc _ hop
        | setState name st => exact hacc _ hop
        | requestToggle name =>
          show (CPort.requestToggle _ _ _).1.ub = false
          rw [CPort.requestToggle]
          by_cases hk : c.control.virtualKey name = Key.none
          · rw [if_neg (fun h => h hk), hk]
            exact hacc _ (by decide)
          · rw [if_pos hk]; exact ih
        | setInstanceId id =>
          show (CPort.setInstanceId _ _ _).ub = false
          rw [CPort.setInstanceId]
          split
          · exact ih
          · split
            · rw [CPort.disconnectById]; split <;> exact ih
            · exact ih
        | _ => exact ih
      · exact ih
    | _ => exact ih

end KM
