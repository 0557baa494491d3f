import Verif.Lemmas.ClientRun
/-!
# The configuration and the active contexts the server knows
-/
namespace KM

/-- **C60** (the active contexts follow the focused window): after a window `w` was seen, the contexts the
server considers active are exactly the contexts of the configuration it was sent whose window filters match
`w` - whatever happened before and happens after, until another window is seen: the configuration is updated,
another one is set, the connection is lost and established again. -/
theorem C60_follows_focus (env : ClientEnv) (fs : FileSys) (filename : Str) (ops rest : List ClientOp) (w : Window)
    (hs : NoSwitchFails env (Client.start env fs filename) (ops ++ .updateContexts (some w) :: rest))
    (ha : ClientActive ops) (hr : ∀ op ∈ rest, op.window = none ∧ op.isToggle = false)
    (hc : connectedAfter (ops ++ .updateContexts (some w) :: rest) = true) :
    ∃ config, (serverView ((Client.start env fs filename).run env
        (ops ++ .updateContexts (some w) :: rest)).out).config = some config ∧
      AreMatching env.rx config w (serverView ((Client.start env fs filename).run env
        (ops ++ .updateContexts (some w) :: rest)).out).active := by
  obtain ⟨hi, hf⟩ := start_inv env fs filename
  obtain ⟨fa, fc⟩ := start_flags env fs filename
  have hrun := (hi.run hf _ hs).1
  have hcon := run_connected env (Client.start env fs filename) (ops ++ .updateContexts (some w) :: rest)
  rw [fc] at hcon
  obtain ⟨h1, h2, h3, _⟩ := hrun (hcon.trans hc)
  refine ⟨_, h1, ?_⟩
  rw [h2, h3]
  have hact : ((Client.start env fs filename).run env (ops ++ .updateContexts (some w) :: rest)).active = true := by
    rw [run_active]
    have hrest : rest.filter ClientOp.isToggle = [] := by
      rw [List.filter_eq_nil_iff]
      intro op ho
      simp [(hr op ho).2]
    rw [List.filter_append, List.filter_cons, hrest]
    rw [ClientActive] at ha
    simp [ClientOp.isToggle, ha, fa]
  rw [if_pos hact]
  have hact' : ((Client.start env fs filename).run env ops).active = true := by
    rw [run_active, if_pos (by exact ha), fa]
  have hwin : ((Client.start env fs filename).run env (ops ++ .updateContexts (some w) :: rest)).window = w := by
    rw [run_append]
    show ((((Client.start env fs filename).run env ops).step env (.updateContexts (some w))).run env rest).window = w
    rw [run_window env _ rest (fun op ho => (hr op ho).1)]
    generalize (Client.start env fs filename).run env ops = c at hact'
    show (if (c.updateActiveContexts env.rx (some w)).2 then
      (c.updateActiveContexts env.rx (some w)).1.sendActiveContexts
      else (c.updateActiveContexts env.rx (some w)).1).window = w
    have hw : (c.updateActiveContexts env.rx (some w)).1.window = w := by
      rw [Client.updateActiveContexts.eq_def, if_neg (by simp [hact'])]
      simp only [Client.refreshContexts_eq]
    split
    · rw [Client.sendActiveContexts, send_window, hw]
    · exact hw
  rw [hwin]
  exact areMatching_matchingContexts _ _ _

/-- **C60**: while the menu item "Active" is not checked, the server considers no context active. -/
theorem C60_inactive (env : ClientEnv) (fs : FileSys) (filename : Str) (ops : List ClientOp)
    (hs : NoSwitchFails env (Client.start env fs filename) ops)
    (ha : ¬ ClientActive ops) (hc : connectedAfter ops = true) :
    (serverView ((Client.start env fs filename).run env ops).out).active = [] := by
  obtain ⟨hi, hf⟩ := start_inv env fs filename
  obtain ⟨fa, fc⟩ := start_flags env fs filename
  have hcon := run_connected env (Client.start env fs filename) ops
  rw [fc] at hcon
  obtain ⟨_, h2, h3, _⟩ := (hi.run hf _ hs).1 (hcon.trans hc)
  have hact : ((Client.start env fs filename).run env ops).active = false := by
    rw [run_active, if_neg (by exact ha), fa]; rfl
  rw [h2, h3, hact]
  rfl

/-- **C60**: in every history the contexts the server considers active are contexts of the configuration it
was sent. -/
theorem C60_in_range (env : ClientEnv) (fs : FileSys) (filename : Str) (ops : List ClientOp)
    (hs : NoSwitchFails env (Client.start env fs filename) ops) (hc : connectedAfter ops = true) :
    ∃ config, (serverView ((Client.start env fs filename).run env ops).out).config = some config ∧
      ∀ i ∈ (serverView ((Client.start env fs filename).run env ops).out).active,
        0 ≤ i ∧ i < config.contexts.length := by
  obtain ⟨hi, hf⟩ := start_inv env fs filename
  obtain ⟨fa, fc⟩ := start_flags env fs filename
  have hcon := run_connected env (Client.start env fs filename) ops
  rw [fc] at hcon
  obtain ⟨h1, h2, h3, _⟩ := (hi.run hf _ hs).1 (hcon.trans hc)
  refine ⟨_, h1, ?_⟩
  rw [h2, h3]
  split
  · intro i hi
    obtain ⟨n, hn, c, hc, _⟩ := ((areMatching_matchingContexts _ _ _).2 i).mp hi
    have := (List.getElem?_eq_some_iff.mp hc).1
    omega
  · intro i hi; simp at hi

/-- **C61** (terminal commands): when the server triggers an action, the command which is executed is the one
of the configuration the server was sent; nothing is executed when there is no such command. -/
theorem C61_executed (env : ClientEnv) (fs : FileSys) (filename : Str) (ops : List ClientOp) (i : Int)
    (hs : NoSwitchFails env (Client.start env fs filename) ops) (hc : connectedAfter ops = true) :
    ∃ config, (serverView ((Client.start env fs filename).run env ops).out).config = some config ∧
      executed ((Client.start env fs filename).run env (ops ++ [.server (.executeAction i)])).out =
        executed ((Client.start env fs filename).run env ops).out ++ (commandOf config i).toList := by
  obtain ⟨hi, hf⟩ := start_inv env fs filename
  obtain ⟨fa, fc⟩ := start_flags env fs filename
  have hcon := run_connected env (Client.start env fs filename) ops
  rw [fc] at hcon
  obtain ⟨h1, _, _, _⟩ := (hi.run hf _ hs).1 (hcon.trans hc)
  refine ⟨_, h1, ?_⟩
  rw [run_append]
  generalize (Client.start env fs filename).run env ops = c
  show executed (c.onExecuteAction i).out = _
  rw [Client.onExecuteAction, commandOf]
  by_cases h0 : 0 ≤ i
  · rw [if_pos h0, if_neg (by omega)]
    cases ha : c.file.config.actions[i.toNat]? with
    | none => simp
    | some command => simp [executed]
  · rw [if_neg h0, if_pos (by omega)]
    simp

/-- **C61**: nothing else makes the client execute a command. -/
theorem C61_only_then (env : ClientEnv) (c : Client) (op : ClientOp) (h : ∀ i, op ≠ .server (.executeAction i)) :
    executed (c.step env op).out = executed c.out := by
  obtain ⟨l, hl, ha⟩ := step_out env c op
  rw [hl, executed, List.filterMap_append, (List.filterMap_eq_nil_iff (l := l)).mpr, List.append_nil]
  · rfl
  · intro e he
    cases e with
    | execute s =>
      obtain ⟨i, hi⟩ := ha _ he
      exact absurd hi (h i)
    | _ => rfl

end KM
