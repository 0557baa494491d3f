import Verif.Lemmas.ControlPortRun
import Verif.Lemmas.VirtualDeviceKeys
/-!
# Lemmas about the control port: what happens to a single control
-/
namespace KM

/-- The control of a connection after a step -/
def ctlAfter (c : Client) (s : Nat) (old : Option Ctl) : ClientOp → Option Ctl
  | .disconnected => none
  | .server (.virtualKeyState k _) =>
    if isVirtualKey k then old.map (fun x => if x.toggleKey = k then { x with toggleKey := Key.none } else x) else old
  | .server (.nextKeyInfo _ _) => old.map (fun x => { x with nextKeyInfo := false })
  | .accept s' => if s' = s then some (old.getD { socket := s }) else old
  | .controlClosed s' => if s' = s then none else old
  | .control _ _ s' m =>
    if s' = s then
      match m with
      | .requestToggle name =>
        if c.control.virtualKey name = Key.none then old
        else old.map (fun x => { x with toggleKey := c.control.virtualKey name })
      | .setInstanceId id => old.map (setId id)
      | .nextKeyInfo => old.map (fun x => { x with nextKeyInfo := true })
      | _ => old
    else
      match m with
      | .setInstanceId id =>
        if c.isOpen s' ∧ ¬ NoId id ∧ ¬ (∃ x ∈ ctlOf s' c.control.controls, x.instanceId = id) then
          old.filter (fun x => x.instanceId ≠ id)
        else old
      | _ => old
  | _ => old

theorem ctlOf_modControl (p : CPort) (s s' : Nat) (f : Ctl → Ctl) (hf : ∀ x, (f x).socket = x.socket) :
    ctlOf s (p.modControl s' f).controls =
      if s' = s then (ctlOf s p.controls).map f else ctlOf s p.controls := by
  rw [CPort.modControl, ctlOf_map _ _ _ (fun x => by split <;> first | exact hf x | rfl)]
  cases h : ctlOf s p.controls with
  | none => simp
  | some x =>
    obtain ⟨h1, _⟩ := ctlOf_socket h
    by_cases hs : s' = s
    · simp [hs, h1]
    · have : ¬ x.socket = s' := fun he => hs (he.symm.trans h1)
      simp [hs, this]

theorem ctl_after (env : ClientEnv) (c : Client) (h : PortInv c) (s : Nat) (op : ClientOp) :
    ctlOf s (c.step env op).control.controls = ctlAfter c s (ctlOf s c.control.controls) op := by
  obtain ⟨_, h2, _, _⟩ := step_port env c op
  rw [h2]; clear h2
  cases op with
  | disconnected => rfl
  | server m =>
    cases m with
    | virtualKeyState k st =>
      show ctlOf s (c.control.onKeyState k st).1.controls = if isVirtualKey k then _ else _
      rw [CPort.onKeyState]
      split
      · exact ctlOf_map _ _ _ (fun x => by split <;> rfl)
      · rfl
    | nextKeyInfo k d => exact ctlOf_map _ _ _ (fun x => rfl)
    | _ => rfl
  | accept s' =>
    show ctlOf s (c.control.accept s').controls = if s' = s then _ else _
    rw [CPort.accept]
    have ho := isOpen_iff c s'
    split
    · rename_i hn
      rw [Client.isOpen, hn] at ho
      split
      · rename_i hs; subst hs
        cases hc : ctlOf s' c.control.controls with
        | none => rw [hc] at ho; cases ho
        | some x => rfl
      · rfl
    · rename_i hn
      have hn : ctlOf s' c.control.controls = none := by
        rw [Client.isOpen, Bool.eq_false_iff.mpr hn] at ho
        exact Option.isNone_iff_eq_none.mp (by rw [Option.isNone_iff_eq_none, ← Option.not_isSome_iff_eq_none, ← ho]; simp)
      show ctlOf s (c.control.controls ++ [{ socket := s' }]) = _
      rw [ctlOf, List.find?_append]
      show (ctlOf s c.control.controls).or _ = _
      by_cases hs : s' = s
      · subst hs
        rw [hn, if_pos rfl]
        simp
      · rw [if_neg hs]
        simp [hs]
  | controlClosed s' =>
    show ctlOf s (c.control.controls.filter _) = if s' = s then _ else _
    rw [ctlOf_filter h.sockets]
    cases hc : ctlOf s c.control.controls with
    | none => simp
    | some x =>
      obtain ⟨h1, _⟩ := ctlOf_socket hc
      rw [Option.filter_some, h1]
      by_cases hs : s' = s
      · simp [hs]
      · simp [hs, Ne.symm hs]
  | control fs upd s' m =>
    show ctlOf s (CPort.controls (if _ then _ else _)) = _
    by_cases ho : c.isOpen s' = true
    · rw [if_pos ho]
      by_cases hs : s' = s
      · subst hs
        show _ = if s' = s' then _ else _
        rw [if_pos rfl]
        cases m with
        | requestToggle name =>
          show ctlOf s' (CPort.requestToggle _ _ _).1.controls = if _ then _ else _
          rw [CPort.requestToggle]
          by_cases hk : c.control.virtualKey name = Key.none
          · rw [if_neg (fun h => h hk), if_pos hk]; rfl
          · rw [if_pos hk, if_neg hk]
            refine (ctlOf_modControl _ _ _ _ ?_).trans ?_
            · intro x; rfl
            · rw [if_pos rfl]
        | setInstanceId id =>
          show ctlOf s' (c.control.setInstanceId s' id).controls = Option.map _ _
          rw [isOpen_iff] at ho
          obtain ⟨x, hx⟩ := Option.isSome_iff_exists.mp ho
          rw [setInstanceId_controls _ _ _ x hx, hx]
          split
          · rename_i hi
            rw [hx, ← hi]; rfl
          · rename_i hi
            rw [ctlOf_map _ _ _ (ite_setId_socket s' id)]
            have : ctlOf s' (if NoId id then c.control.controls
                else List.filter (fun c => decide (c.instanceId ≠ id)) c.control.controls) = some x := by
              split
              · exact hx
              · rw [ctlOf_filter h.sockets, hx, Option.filter_some, if_pos (by simpa using hi)]
            rw [this]
            show some (if x.socket = s' then _ else _) = _
            rw [if_pos (ctlOf_socket hx).1]; rfl
        | nextKeyInfo =>
          show ctlOf s' (CPort.modControl _ _ _).controls = _
          refine (ctlOf_modControl _ _ _ _ ?_).trans ?_
          · intro x; rfl
          · rw [if_pos rfl]
        | _ => rfl
      · show _ = if s' = s then _ else _
        rw [if_neg hs]
        cases m with
        | requestToggle name =>
          show ctlOf s (CPort.requestToggle _ _ _).1.controls = ctlOf s _
          rw [CPort.requestToggle]
          split
          · refine (ctlOf_modControl _ _ _ _ ?_).trans ?_
            · intro x; rfl
            · rw [if_neg hs]
          · rfl
        | setInstanceId id =>
          show ctlOf s (c.control.setInstanceId s' id).controls = if _ then _ else _
          have ho' := ho
          rw [isOpen_iff] at ho'
          obtain ⟨x, hx⟩ := Option.isSome_iff_exists.mp ho'
          rw [setInstanceId_controls _ _ _ x hx, hx]
          by_cases hi : x.instanceId = id
          · rw [if_pos hi, if_neg]
            rintro ⟨_, _, h3⟩
            exact h3 ⟨x, rfl, hi⟩
          · rw [if_neg hi, ctlOf_map _ _ _ (ite_setId_socket s' id)]
            have hmap : ∀ o : Option Ctl, (∀ y ∈ o, y.socket = s) →
                o.map (fun c => if c.socket = s' then setId id c else c) = o := by
              intro o hy
              cases o with
              | none => rfl
              | some y =>
                have : ¬ y.socket = s' := by rw [hy y rfl]; exact fun h => hs h.symm
                simp [this]
            by_cases hn : NoId id
            · rw [if_pos hn, if_neg (fun h => h.2.1 hn)]
              exact hmap _ (fun y hy => (ctlOf_socket hy).1)
            · have hno : ¬ (∃ y ∈ some x, y.instanceId = id) := by
                rintro ⟨y, hy, he⟩
                cases hy
                exact hi he
              rw [if_neg hn, if_pos ⟨ho, hn, hno⟩, ctlOf_filter h.sockets]
              refine hmap _ (fun y hy => ?_)
              obtain ⟨hy, _⟩ := Option.mem_filter_iff.mp hy
              exact (ctlOf_socket hy).1
        | nextKeyInfo =>
          show ctlOf s (CPort.modControl _ _ _).controls = _
          refine (ctlOf_modControl _ _ _ _ ?_).trans ?_
          · intro x; rfl
          · rw [if_neg hs]
        | _ => rfl
    · rw [if_neg ho]
      have hn : ctlOf s' c.control.controls = none := by
        rw [isOpen_iff] at ho
        simpa using ho
      show _ = if s' = s then _ else _
      by_cases hs : s' = s
      · subst hs
        rw [if_pos rfl, hn]
        cases m with
        | requestToggle name => show _ = if _ then _ else _; split <;> rfl
        | _ => rfl
      · rw [if_neg hs]
        cases m with
        | setInstanceId id =>
          show _ = if _ then _ else _
          rw [if_neg (fun h => ho h.1)]
        | _ => rfl
  | _ => rfl

/-- What a connection has announced -/
theorem id_announced (env : ClientEnv) (fs : FileSys) (filename : Str) (ops : List ClientOp) (s : Nat) (x : Ctl)
    (hx : ctlOf s ((Client.start env fs filename).run env ops).control.controls = some x) :
    x.instanceId = [] ∨ lastId s ops = some x.instanceId := by
  induction ops using list_snoc_induction generalizing x with
  | h0 =>
    exfalso
    rw [show (Client.start env fs filename).run env [] = Client.start env fs filename from rfl,
      (start_control env fs filename).1] at hx
    cases hx
  | h1 ops op ih =>
    rw [run_append] at hx
    rw [show ∀ c : Client, c.run env [op] = c.step env op from fun _ => rfl,
      ctl_after env _ ((start_port env fs filename).run env ops)] at hx
    have hl : lastId s (ops ++ [op]) = idStep s (lastId s ops) op := by
      rw [lastId, List.foldl_append]; rfl
    have mapped : ∀ f : Ctl → Ctl, (∀ y, (f y).instanceId = y.instanceId) →
        (ctlOf s ((Client.start env fs filename).run env ops).control.controls).map f = some x →
        x.instanceId = [] ∨ lastId s ops = some x.instanceId := by
      intro f hf hm
      obtain ⟨y, hy, rfl⟩ := Option.map_eq_some_iff.mp hm
      rw [hf]
      exact ih y hy
    cases op with
    | disconnected => cases hx
    | server m =>
      rw [hl]
      cases m with
      | virtualKeyState k st =>
        replace hx : (if isVirtualKey k then _ else _) = some x := hx
        split at hx
        · exact mapped _ (fun y => by split <;> rfl) hx
        · exact ih x hx
      | nextKeyInfo k d => exact mapped _ (fun _ => by rfl) hx
      | _ => exact ih x hx
    | accept s' =>
      rw [hl]
      replace hx : (if s' = s then _ else _) = some x := hx
      split at hx
      · cases hc : ctlOf s ((Client.start env fs filename).run env ops).control.controls with
        | none => rw [hc] at hx; cases hx; exact Or.inl rfl
        | some y => rw [hc] at hx; cases hx; exact ih _ hc
      · exact ih x hx
    | controlClosed s' =>
      rw [hl]
      replace hx : (if s' = s then none else _) = some x := hx
      split at hx
      · cases hx
      · exact ih x hx
    | control fs' upd s' m =>
      rw [hl]
      replace hx : (if s' = s then _ else _) = some x := hx
      by_cases hs : s' = s
      · rw [if_pos hs] at hx
        cases m with
        | requestToggle name =>
          replace hx : (if _ then _ else _) = some x := hx
          split at hx
          · exact ih x hx
          · exact mapped _ (fun _ => by rfl) hx
        | setInstanceId id =>
          right
          show (if s' = s then some id else _) = _
          rw [if_pos hs]
          obtain ⟨y, hy, rfl⟩ := Option.map_eq_some_iff.mp hx
          rfl
        | nextKeyInfo => exact mapped _ (fun _ => by rfl) hx
        | _ => exact ih x hx
      · rw [if_neg hs] at hx
        cases m with
        | setInstanceId id =>
          show _ ∨ (if s' = s then _ else _) = _
          rw [if_neg hs]
          replace hx : (if _ then _ else _) = some x := hx
          split at hx
          · exact ih x (Option.mem_filter_iff.mp hx).1
          · exact ih x hx
        | _ => exact ih x hx
    | _ => rw [hl]; exact ih x hx

end KM
