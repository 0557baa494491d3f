import Verif.Lemmas.Client
/-!
# Lemmas about the client: histories
-/
namespace KM

/-- The files of a client -/
def Client.files (c : Client) : ConfigFile × List ConfigFile := (c.file, c.recent)

theorem FileInvAll.of_files {c d : Client} (h : FileInvAll c) (he : d.files = c.files) : FileInvAll d := by
  have h1 : d.file = c.file := congrArg Prod.fst he
  have h2 : d.recent = c.recent := congrArg Prod.snd he
  intro f hf
  rw [h1, h2] at hf
  exact h f hf

theorem Client.send_files (c : Client) (m : ToServer) : (c.send m).files = c.files := by
  rw [Client.send]; split <;> rfl

theorem Client.sendConfig_files (rx : Regex) (c : Client) (upd : Option Window) :
    (c.sendConfig rx upd).1.files = c.files := by
  rw [Client.files, Client.sendConfig_file, Client.sendConfig_recent, Client.files]

theorem Client.updateActiveContexts_files (rx : Regex) (c : Client) (upd : Option Window) :
    (c.updateActiveContexts rx upd).1.files = c.files := by
  rw [Client.updateActiveContexts_rest]; rfl

theorem Client.onServer_files (c : Client) (m : ToClient) : (c.onServer m).files = c.files := by
  cases m with
  | executeAction i =>
    show (c.onExecuteAction i).files = _
    rw [Client.onExecuteAction]
    split
    · split <;> rfl
    · rfl
  | virtualKeyState k st => rfl
  | nextKeyInfo k d =>
    show (c.onNextKeyInfo k d).files = _
    rw [Client.onNextKeyInfo]
    split <;> rfl

theorem Client.onInject_files (env : ClientEnv) (c : Client) (socket : Nat) (text : Str)
    (m : KeySequence → ToServer) : (c.onInject env socket text m).files = c.files := by
  rw [Client.onInject]
  split
  · exact Client.send_files _ _
  · rfl

/-- Only these operations change the files. -/
theorem Client.step_files (env : ClientEnv) (c : Client) (op : ClientOp) :
    (c.step env op).files = c.files ∨
    (∃ fs b, (c.step env op).files = (c.updateConfig env fs b).1.files) ∨
    (∃ fs filename, (c.step env op).files = (c.loadConfig env fs filename).1.files) := by
  cases op with
  | connect upd => exact Or.inl (Client.sendConfig_files _ _ _)
  | lost => exact Or.inl rfl
  | disconnected => exact Or.inl rfl
  | autoUpdate fs upd =>
    refine Or.inr (Or.inl ⟨fs, true, ?_⟩)
    show (if (c.updateConfig env fs true).2 then
      ((c.updateConfig env fs true).1.sendConfig env.rx upd).1 else (c.updateConfig env fs true).1).files = _
    split
    · exact Client.sendConfig_files _ _ _
    · rfl
  | updateContexts upd =>
    left
    show (if (c.updateActiveContexts env.rx upd).2 then
      (c.updateActiveContexts env.rx upd).1.sendActiveContexts else (c.updateActiveContexts env.rx upd).1).files = _
    split
    · rw [Client.sendActiveContexts, Client.send_files, Client.updateActiveContexts_files]
    · exact Client.updateActiveContexts_files _ _ _
  | server m => exact Or.inl (Client.onServer_files c m)
  | accept s => exact Or.inl rfl
  | control fs upd s m =>
    show (if c.control.controls.any (fun x => x.socket == s) then
      c.onControl env fs upd s m else c).files = _ ∨ _
    by_cases hs : c.control.controls.any (fun x => x.socket == s) = true
    · cases m with
      | setConfigFile filename =>
        refine Or.inr (Or.inr ⟨fs, filename, ?_⟩)
        show (if c.control.controls.any (fun x => x.socket == s) then
          c.onControl env fs upd s (.setConfigFile filename) else c).files = _
        rw [if_pos hs]
        show ((c.onSetConfigFile env fs upd filename).1).files = _
        rw [Client.onSetConfigFile]
        split
        · exact Client.sendConfig_files _ _ _
        · rfl
      | getState name => rw [if_pos hs]; exact Or.inl rfl
      | setState name st => rw [if_pos hs]; exact Or.inl (Client.send_files _ _)
      | requestToggle name => rw [if_pos hs]; exact Or.inl rfl
      | setInstanceId id => rw [if_pos hs]; exact Or.inl rfl
      | nextKeyInfo => rw [if_pos hs]; exact Or.inl (Client.send_files _ _)
      | injectInput text => rw [if_pos hs]; exact Or.inl (Client.onInject_files _ _ _ _ _)
      | injectOutput text => rw [if_pos hs]; exact Or.inl (Client.onInject_files _ _ _ _ _)
    · rw [if_neg hs]; exact Or.inl rfl
  | controlClosed s => exact Or.inl rfl
  | toggleActive upd =>
    left
    show (c.toggleActive env.rx upd).files = _
    rw [Client.toggleActive]
    split
    · rw [Client.sendActiveContexts, Client.send_files]; rfl
    · rw [Client.sendActiveContexts, Client.send_files, Client.updateActiveContexts_files]; rfl
  | reload fs upd => exact Or.inr (Or.inl ⟨fs, false, Client.sendConfig_files _ _ _⟩)
  | requestKeyInfo => exact Or.inl (Client.send_files _ _)

theorem FileInvAll.step {c : Client} (h : FileInvAll c) (env : ClientEnv) (op : ClientOp) :
    FileInvAll (c.step env op) := by
  rcases Client.step_files env c op with he | ⟨fs, b, he⟩ | ⟨fs, filename, he⟩
  · exact h.of_files he
  · refine FileInvAll.of_files ?_ he
    intro f hf
    rcases hf with hf | hf
    · rw [hf]
      exact ConfigFile.update_named env fs c.file b (h c.file (Or.inl rfl))
    · exact h f (Or.inr hf)
  · exact FileInvAll.of_files (h.loadConfig env fs filename) he

theorem ClientInv.run {env : ClientEnv} {c : Client} (hc : ClientInv env.rx c) (hf : FileInvAll c) (ops : List ClientOp)
    (hs : NoSwitchFails env c ops) : ClientInv env.rx (c.run env ops) ∧ FileInvAll (c.run env ops) := by
  induction ops generalizing c with
  | nil => exact ⟨hc, hf⟩
  | cons op ops ih => exact ih (hc.step hf.file op hs.1) (hf.step env op) hs.2

theorem start_inv (env : ClientEnv) (fs : FileSys) (filename : Str) :
    ClientInv env.rx (Client.start env fs filename) ∧ FileInvAll (Client.start env fs filename) := by
  constructor
  · intro h
    rw [Client.start, Client.loadConfig_rest] at h
    simp at h
  · refine FileInvAll.loadConfig ?_ env fs filename
    intro f hf
    rcases hf with hf | hf
    · rw [hf]; intro _; rfl
    · simp at hf

theorem areMatching_matchingContexts (rx : Regex) (config : Config) (w : Window) :
    AreMatching rx config w ((matchingContexts rx config w).map Int.ofNat) := by
  constructor
  · rw [List.pairwise_map]
    refine List.Pairwise.imp (R := (· < ·)) (fun h => Int.ofNat_lt.mpr h) ?_
    exact List.Pairwise.filter _ List.pairwise_lt_range
  · intro i
    simp only [List.mem_map, matchingContexts, List.mem_filter, List.mem_range]
    constructor
    · rintro ⟨n, ⟨hn, hm⟩, hi⟩
      refine ⟨n, hi.symm, ?_⟩
      cases hc : config.contexts[n]? with
      | none => simp [hc] at hm
      | some c =>
        simp only [hc, CContext.matches, Bool.and_eq_true] at hm
        exact ⟨c, rfl, hm.1.1, hm.1.2, hm.2⟩
    · rintro ⟨n, hi, c, hc, h1, h2, h3⟩
      refine ⟨n, ⟨(List.getElem?_eq_some_iff.mp hc).1, ?_⟩, hi.symm⟩
      simp [hc, CContext.matches, h1, h2, h3]

theorem send_active (c : Client) (m : ToServer) : (c.send m).active = c.active := by
  rw [Client.send]; split <;> rfl

theorem send_window (c : Client) (m : ToServer) : (c.send m).window = c.window := by
  rw [Client.send]; split <;> rfl

theorem sendConfig_active (rx : Regex) (c : Client) (upd : Option Window) :
    (c.sendConfig rx upd).1.active = c.active := by
  by_cases hc : c.isConnected = true
  · rw [Client.sendConfig_eq rx c upd hc]
    split <;> rfl
  · rw [Client.sendConfig, if_neg hc]

theorem sendConfig_window (rx : Regex) (c : Client) :
    (c.sendConfig rx none).1.window = c.window := by
  by_cases hc : c.isConnected = true
  · rw [Client.sendConfig_eq rx c none hc]
    split <;> rfl
  · rw [Client.sendConfig, if_neg hc]

theorem loadConfig_active (env : ClientEnv) (fs : FileSys) (c : Client) (filename : Str) :
    (c.loadConfig env fs filename).1.active = c.active ∧
    (c.loadConfig env fs filename).1.isConnected = c.isConnected ∧
    (c.loadConfig env fs filename).1.window = c.window ∧
    (c.loadConfig env fs filename).1.out = c.out := by
  rw [Client.loadConfig_rest]
  exact ⟨rfl, rfl, rfl, rfl⟩

theorem updateActiveContexts_active (rx : Regex) (c : Client) (upd : Option Window) :
    (c.updateActiveContexts rx upd).1.active = c.active := by
  rw [Client.updateActiveContexts_rest]

theorem updateActiveContexts_window (rx : Regex) (c : Client) :
    (c.updateActiveContexts rx none).1.window = c.window := by
  rw [Client.updateActiveContexts.eq_def]
  split
  · rfl
  · simp only
    split
    · rfl
    · rw [Client.refreshContexts_eq]

/-- What a step does to the state which is not about the configuration -/
theorem step_flags (env : ClientEnv) (c : Client) (op : ClientOp) :
    (c.step env op).active = (if op.isToggle then !c.active else c.active) ∧
    (c.step env op).isConnected = connectedStep c.isConnected op ∧
    (op.window = none → (c.step env op).window = c.window) := by
  cases op with
  | connect upd =>
    refine ⟨sendConfig_active _ _ _, Client.sendConfig_connected _ _ _, ?_⟩
    intro h; cases h; exact sendConfig_window _ _
  | lost => exact ⟨rfl, rfl, fun _ => rfl⟩
  | disconnected => exact ⟨rfl, rfl, fun _ => rfl⟩
  | autoUpdate fs upd =>
    show (if (c.updateConfig env fs true).2 then
      ((c.updateConfig env fs true).1.sendConfig env.rx upd).1 else (c.updateConfig env fs true).1).active = _ ∧
      (if (c.updateConfig env fs true).2 then
      ((c.updateConfig env fs true).1.sendConfig env.rx upd).1 else (c.updateConfig env fs true).1).isConnected = _ ∧
      (_ → (if (c.updateConfig env fs true).2 then
      ((c.updateConfig env fs true).1.sendConfig env.rx upd).1 else (c.updateConfig env fs true).1).window = _)
    split
    · refine ⟨sendConfig_active _ _ _, Client.sendConfig_connected _ _ _, ?_⟩
      intro h; cases h; exact sendConfig_window _ _
    · exact ⟨rfl, rfl, fun _ => rfl⟩
  | updateContexts upd =>
    show (if (c.updateActiveContexts env.rx upd).2 then
      (c.updateActiveContexts env.rx upd).1.sendActiveContexts else (c.updateActiveContexts env.rx upd).1).active = _ ∧
      (if (c.updateActiveContexts env.rx upd).2 then
      (c.updateActiveContexts env.rx upd).1.sendActiveContexts else (c.updateActiveContexts env.rx upd).1).isConnected = _ ∧
      (_ → (if (c.updateActiveContexts env.rx upd).2 then
      (c.updateActiveContexts env.rx upd).1.sendActiveContexts else (c.updateActiveContexts env.rx upd).1).window = _)
    split
    · refine ⟨?_, ?_, ?_⟩
      · rw [Client.sendActiveContexts, send_active, updateActiveContexts_active]; rfl
      · rw [Client.sendActiveContexts, Client.send_connected, Client.updateActiveContexts_connected]; rfl
      · intro h; cases h
        rw [Client.sendActiveContexts, send_window, updateActiveContexts_window]
    · refine ⟨updateActiveContexts_active _ _ _, Client.updateActiveContexts_connected _ _ _, ?_⟩
      intro h; cases h
      exact updateActiveContexts_window _ _
  | server m =>
    cases m with
    | executeAction i =>
      show (c.onExecuteAction i).active = _ ∧ (c.onExecuteAction i).isConnected = _ ∧
        (_ → (c.onExecuteAction i).window = _)
      rw [Client.onExecuteAction]
      split
      · split <;> exact ⟨rfl, rfl, fun _ => rfl⟩
      · exact ⟨rfl, rfl, fun _ => rfl⟩
    | virtualKeyState k st => exact ⟨rfl, rfl, fun _ => rfl⟩
    | nextKeyInfo k d =>
      show (c.onNextKeyInfo k d).active = _ ∧ (c.onNextKeyInfo k d).isConnected = _ ∧
        (_ → (c.onNextKeyInfo k d).window = _)
      rw [Client.onNextKeyInfo]
      split <;> exact ⟨rfl, rfl, fun _ => rfl⟩
  | accept s => exact ⟨rfl, rfl, fun _ => rfl⟩
  | control fs upd s m =>
    show (if c.control.controls.any (fun x => x.socket == s) then
      c.onControl env fs upd s m else c).active = _ ∧
      (if c.control.controls.any (fun x => x.socket == s) then
      c.onControl env fs upd s m else c).isConnected = _ ∧
      (_ → (if c.control.controls.any (fun x => x.socket == s) then
      c.onControl env fs upd s m else c).window = _)
    split
    · have hinj : ∀ (text : Str) (f : KeySequence → ToServer),
          (c.onInject env s text f).active = c.active ∧ (c.onInject env s text f).isConnected = c.isConnected ∧
          (upd = none → (c.onInject env s text f).window = c.window) := by
        intro text f
        rw [Client.onInject]
        split
        · exact ⟨send_active _ _, Client.send_connected _ _, fun _ => send_window _ _⟩
        · exact ⟨rfl, rfl, fun _ => rfl⟩
      cases m with
      | getState name => exact ⟨rfl, rfl, fun _ => rfl⟩
      | setState name st => exact ⟨send_active _ _, Client.send_connected _ _, fun _ => send_window _ _⟩
      | requestToggle name => exact ⟨rfl, rfl, fun _ => rfl⟩
      | setInstanceId id => exact ⟨rfl, rfl, fun _ => rfl⟩
      | setConfigFile filename =>
        show (c.onSetConfigFile env fs upd filename).1.active = _ ∧
          (c.onSetConfigFile env fs upd filename).1.isConnected = _ ∧
          (_ → (c.onSetConfigFile env fs upd filename).1.window = _)
        obtain ⟨h1, h2, h3, _⟩ := loadConfig_active env fs c filename
        rw [Client.onSetConfigFile]
        split
        · refine ⟨(sendConfig_active _ _ _).trans h1, (Client.sendConfig_connected _ _ _).trans h2, ?_⟩
          intro h; cases h; exact (sendConfig_window _ _).trans h3
        · exact ⟨h1, h2, fun _ => h3⟩
      | nextKeyInfo => exact ⟨send_active _ _, Client.send_connected _ _, fun _ => send_window _ _⟩
      | injectInput text => exact hinj text _
      | injectOutput text => exact hinj text _
    · exact ⟨rfl, rfl, fun _ => rfl⟩
  | controlClosed s => exact ⟨rfl, rfl, fun _ => rfl⟩
  | toggleActive upd =>
    show (c.toggleActive env.rx upd).active = _ ∧ (c.toggleActive env.rx upd).isConnected = _ ∧
      (_ → (c.toggleActive env.rx upd).window = _)
    rw [Client.toggleActive]
    split
    · rename_i h
      refine ⟨?_, ?_, ?_⟩
      · rw [Client.sendActiveContexts, send_active]; simp [h, ClientOp.isToggle]
      · rw [Client.sendActiveContexts, Client.send_connected]; rfl
      · intro _; rw [Client.sendActiveContexts, send_window]
    · rename_i h
      refine ⟨?_, ?_, ?_⟩
      · rw [Client.sendActiveContexts, send_active, updateActiveContexts_active]; simp [h, ClientOp.isToggle]
      · rw [Client.sendActiveContexts, Client.send_connected, Client.updateActiveContexts_connected]; rfl
      · intro hn; cases hn
        rw [Client.sendActiveContexts, send_window, updateActiveContexts_window]
  | reload fs upd =>
    refine ⟨sendConfig_active _ _ _, Client.sendConfig_connected _ _ _, ?_⟩
    intro h; cases h; exact sendConfig_window _ _
  | requestKeyInfo => exact ⟨send_active _ _, Client.send_connected _ _, fun _ => send_window _ _⟩

theorem run_connected (env : ClientEnv) (c : Client) (ops : List ClientOp) :
    (c.run env ops).isConnected = ops.foldl connectedStep c.isConnected := by
  induction ops generalizing c with
  | nil => rfl
  | cons op ops ih =>
    show ((c.step env op).run env ops).isConnected = _
    rw [ih, (step_flags env c op).2.1]; rfl

theorem run_active (env : ClientEnv) (c : Client) (ops : List ClientOp) :
    (c.run env ops).active = if (ops.filter ClientOp.isToggle).length % 2 = 0 then c.active else !c.active := by
  induction ops generalizing c with
  | nil => rfl
  | cons op ops ih =>
    show ((c.step env op).run env ops).active = _
    rw [ih, (step_flags env c op).1, List.filter_cons]
    by_cases ht : op.isToggle = true
    · simp only [ht, if_true, List.length_cons]
      by_cases hl : (ops.filter ClientOp.isToggle).length % 2 = 0
      · have : ((ops.filter ClientOp.isToggle).length + 1) % 2 ≠ 0 := by omega
        simp [hl, this]
      · have : ((ops.filter ClientOp.isToggle).length + 1) % 2 = 0 := by omega
        simp [hl, this]
    · simp [ht]

theorem run_window (env : ClientEnv) (c : Client) (ops : List ClientOp) (h : ∀ op ∈ ops, op.window = none) :
    (c.run env ops).window = c.window := by
  induction ops generalizing c with
  | nil => rfl
  | cons op ops ih =>
    show ((c.step env op).run env ops).window = _
    rw [ih _ (fun o ho => h o (by simp [ho])), (step_flags env c op).2.2 (h op (by simp))]

theorem run_append (env : ClientEnv) (c : Client) (a b : List ClientOp) :
    c.run env (a ++ b) = (c.run env a).run env b := List.foldl_append

theorem noSwitchFails_append (env : ClientEnv) (c : Client) (a b : List ClientOp) :
    NoSwitchFails env c (a ++ b) ↔ NoSwitchFails env c a ∧ NoSwitchFails env (c.run env a) b := by
  induction a generalizing c with
  | nil => simp [NoSwitchFails, Client.run]
  | cons op a ih =>
    simp only [List.cons_append, NoSwitchFails]
    rw [ih, and_assoc]
    rfl

theorem start_flags (env : ClientEnv) (fs : FileSys) (filename : Str) :
    (Client.start env fs filename).active = true ∧ (Client.start env fs filename).isConnected = false := by
  obtain ⟨h1, h2, _⟩ := loadConfig_active env fs {} filename
  exact ⟨h1, h2⟩

/-- What an operation can make the client do -/
def EffAllowed (op : ClientOp) (after : Client) : CEff → Prop
  | .connected => ∃ upd, op = .connect upd
  | .server (.config x) => x = after.file.config
  | .execute _ => ∃ i, op = .server (.executeAction i)
  | _ => True

theorem Client.send_out (c : Client) (m : ToServer) :
    (c.send m).out = c.out ++ (if c.isConnected then [.server m] else []) := by
  rw [Client.send]; split <;> simp

theorem Client.sendConfig_out (rx : Regex) (c : Client) (upd : Option Window) :
    ∃ l, (c.sendConfig rx upd).1.out = c.out ++ l ∧
      ∀ e ∈ l, e = .server (.config c.file.config) ∨ ∃ i, e = .server (.activeContexts i) := by
  by_cases hc : c.isConnected = true
  · rw [Client.sendConfig_eq rx c upd hc]
    split
    · exact ⟨_, rfl, by simp⟩
    · exact ⟨_, rfl, by simp⟩
  · rw [Client.sendConfig, if_neg hc]
    exact ⟨[], by simp, by simp⟩

theorem Client.sendConfig_allowed (rx : Regex) (c : Client) (upd : Option Window) (op : ClientOp) (d : Client)
    (hd : d.file.config = c.file.config) :
    ∃ l, (c.sendConfig rx upd).1.out = c.out ++ l ∧ ∀ e ∈ l, EffAllowed op d e := by
  obtain ⟨l, h1, h2⟩ := Client.sendConfig_out rx c upd
  refine ⟨l, h1, ?_⟩
  intro e he
  rcases h2 e he with h | ⟨i, h⟩
  · rw [h]; exact hd.symm
  · rw [h]; trivial

theorem Client.send_allowed (c : Client) (m : ToServer) (op : ClientOp) (d : Client)
    (hm : ∀ x, m ≠ .config x) : ∃ l, (c.send m).out = c.out ++ l ∧ ∀ e ∈ l, EffAllowed op d e := by
  refine ⟨_, Client.send_out c m, ?_⟩
  intro e he
  split at he
  · rw [List.mem_singleton] at he
    rw [he]
    cases m with
    | config x => exact absurd rfl (hm x)
    | _ => trivial
  · simp at he

theorem replies_allowed (l : List (Nat × CtlReply)) (op : ClientOp) (d : Client) :
    ∀ e ∈ l.map (fun x => CEff.control x.1 x.2), EffAllowed op d e := by
  intro e he
  obtain ⟨x, _, hx⟩ := List.mem_map.mp he
  rw [← hx]; trivial

theorem Client.onInject_allowed (env : ClientEnv) (c : Client) (socket : Nat) (text : Str)
    (m : KeySequence → ToServer) (hm : ∀ l x, m l ≠ .config x) (op : ClientOp) (d : Client) :
    ∃ l, (c.onInject env socket text m).out = c.out ++ l ∧ ∀ e ∈ l, EffAllowed op d e := by
  rw [Client.onInject]
  split
  · rename_i s _
    obtain ⟨l, h1, h2⟩ := Client.send_allowed c (m s) op d (hm s)
    refine ⟨l ++ [.control socket (.keyState Key.none .Down)], ?_, ?_⟩
    · simp [Client.reply, h1]
    · intro e he
      rcases List.mem_append.mp he with he | he
      · exact h2 e he
      · rw [List.mem_singleton.mp he]; trivial
  · exact ⟨[.control socket (.keyState Key.none .Up)], rfl, by simp [EffAllowed]⟩

/-- What a step makes the client do -/
theorem step_out (env : ClientEnv) (c : Client) (op : ClientOp) :
    ∃ l, (c.step env op).out = c.out ++ l ∧ ∀ e ∈ l, EffAllowed op (c.step env op) e := by
  have none : ∀ d : Client, ∃ l, c.out = c.out ++ l ∧ ∀ e ∈ l, EffAllowed op d e :=
    fun d => ⟨[], by simp, by simp⟩
  cases op with
  | connect upd =>
    obtain ⟨l, h1, h2⟩ := Client.sendConfig_allowed env.rx
      { c with isConnected := true, out := c.out ++ [CEff.connected] } upd (.connect upd) (c.step env (.connect upd))
      (by rw [Client.step, Client.sendConfig_file])
    refine ⟨.connected :: l, ?_, ?_⟩
    · show (Client.sendConfig env.rx { c with isConnected := true, out := c.out ++ [CEff.connected] } upd).1.out = _
      rw [h1]; simp
    · intro e he
      rcases List.mem_cons.mp he with he | he
      · rw [he]; exact ⟨upd, rfl⟩
      · exact h2 e he
  | lost => exact none _
  | disconnected => exact none _
  | autoUpdate fs upd =>
    show ∃ l, (if (c.updateConfig env fs true).2 then
      ((c.updateConfig env fs true).1.sendConfig env.rx upd).1 else (c.updateConfig env fs true).1).out = _ ∧
      ∀ e ∈ l, EffAllowed _ (if (c.updateConfig env fs true).2 then
      ((c.updateConfig env fs true).1.sendConfig env.rx upd).1 else (c.updateConfig env fs true).1) e
    split
    · exact Client.sendConfig_allowed env.rx (c.updateConfig env fs true).1 upd _ _
        (by rw [Client.sendConfig_file])
    · exact none _
  | updateContexts upd =>
    have ho : (c.updateActiveContexts env.rx upd).1.out = c.out := by rw [Client.updateActiveContexts_rest]
    show ∃ l, (if (c.updateActiveContexts env.rx upd).2 then
      (c.updateActiveContexts env.rx upd).1.sendActiveContexts else (c.updateActiveContexts env.rx upd).1).out = _ ∧
      ∀ e ∈ l, EffAllowed _ (if (c.updateActiveContexts env.rx upd).2 then
      (c.updateActiveContexts env.rx upd).1.sendActiveContexts else (c.updateActiveContexts env.rx upd).1) e
    split
    · have := Client.send_allowed (c.updateActiveContexts env.rx upd).1
        (.activeContexts ((c.updateActiveContexts env.rx upd).1.activeContexts.map Int.ofNat))
        (.updateContexts upd) (c.updateActiveContexts env.rx upd).1.sendActiveContexts (by simp)
      rw [ho] at this
      exact this
    · rw [ho]; exact none _
  | server m =>
    cases m with
    | executeAction i =>
      show ∃ l, (c.onExecuteAction i).out = _ ∧ ∀ e ∈ l, EffAllowed _ (c.onExecuteAction i) e
      rw [Client.onExecuteAction]
      split
      · split
        · exact ⟨_, rfl, by simp [EffAllowed]⟩
        · exact none _
      · exact none _
    | virtualKeyState k st => exact ⟨_, rfl, replies_allowed _ _ _⟩
    | nextKeyInfo k d =>
      show ∃ l, (c.onNextKeyInfo k d).out = _ ∧ ∀ e ∈ l, EffAllowed _ (c.onNextKeyInfo k d) e
      rw [Client.onNextKeyInfo]
      split
      · exact ⟨_, rfl, replies_allowed _ _ _⟩
      · refine ⟨_, List.append_assoc _ _ _, ?_⟩
        intro e he
        rcases List.mem_append.mp he with he | he
        · exact replies_allowed _ _ _ e he
        · rw [List.mem_singleton.mp he]; trivial
  | accept s => exact none _
  | control fs upd s m =>
    show ∃ l, (if c.control.controls.any (fun x => x.socket == s) then
      c.onControl env fs upd s m else c).out = _ ∧ ∀ e ∈ l, EffAllowed _ (if c.control.controls.any
      (fun x => x.socket == s) then c.onControl env fs upd s m else c) e
    split
    · cases m with
      | getState name => exact ⟨_, rfl, replies_allowed _ _ _⟩
      | setState name st =>
        have hr := Client.send_allowed c (.setVirtualKeyState (c.control.virtualKey name) st)
          (.control fs upd s (.setState name st)) (c.onControl env fs upd s (.setState name st)) (by simp)
        obtain ⟨l, h1, h2⟩ := hr
        refine ⟨l ++ (((c.send (.setVirtualKeyState (c.control.virtualKey name) st)).control.replyState s
          ((c.send (.setVirtualKeyState (c.control.virtualKey name) st)).control.virtualKey name)).2.map
          (fun x => CEff.control x.1 x.2)), ?_, ?_⟩
        · rw [← List.append_assoc, ← h1]; rfl
        · intro e he
          rcases List.mem_append.mp he with he | he
          · exact h2 e he
          · exact replies_allowed _ _ _ e he
      | requestToggle name => exact ⟨_, rfl, replies_allowed _ _ _⟩
      | setInstanceId id => exact ⟨[_], rfl, by simp [EffAllowed]⟩
      | setConfigFile filename =>
        show ∃ l, ((c.onSetConfigFile env fs upd filename).1.out ++ [_]) = _ ∧
          ∀ e ∈ l, EffAllowed _ ((c.onSetConfigFile env fs upd filename).1.reply _ _ _) e
        obtain ⟨_, _, _, h4⟩ := loadConfig_active env fs c filename
        rw [Client.onSetConfigFile]
        split
        · obtain ⟨l, h1, h2⟩ := Client.sendConfig_allowed env.rx (c.loadConfig env fs filename).1 upd
            (.control fs upd s (.setConfigFile filename)) (c.loadConfig env fs filename).1 rfl
          refine ⟨l ++ [.control s (.keyState Key.none
            (resultState (Client.sendConfig env.rx (Client.loadConfig env fs c filename).fst upd).snd))], ?_, ?_⟩
          · rw [h1, h4, List.append_assoc]
          · intro e he
            rcases List.mem_append.mp he with he | he
            · have := h2 e he
              cases e with
              | server m =>
                cases m with
                | config x =>
                  simp only [EffAllowed, Client.reply, Client.sendConfig_file] at this ⊢
                  exact this
                | _ => trivial
              | connected => exact this
              | execute _ => exact this
              | _ => trivial
            · rw [List.mem_singleton.mp he]; trivial
        · simp only [h4]
          exact ⟨[_], rfl, by simp [EffAllowed]⟩
      | nextKeyInfo => exact Client.send_allowed _ _ _ _ (by simp)
      | injectInput text => exact Client.onInject_allowed _ _ _ _ _ (by simp) _ _
      | injectOutput text => exact Client.onInject_allowed _ _ _ _ _ (by simp) _ _
    · exact none _
  | controlClosed s => exact none _
  | toggleActive upd =>
    show ∃ l, (c.toggleActive env.rx upd).out = _ ∧ ∀ e ∈ l, EffAllowed _ (c.toggleActive env.rx upd) e
    rw [Client.toggleActive]
    split
    · exact Client.send_allowed _ _ _ _ (by simp)
    · have ho : (({ c with active := true } : Client).updateActiveContexts env.rx upd).1.out = c.out := by
        rw [Client.updateActiveContexts_rest]
      have := Client.send_allowed (({ c with active := true } : Client).updateActiveContexts env.rx upd).1
        (.activeContexts ((({ c with active := true } : Client).updateActiveContexts env.rx upd).1.activeContexts.map
          Int.ofNat)) (.toggleActive upd)
        (({ c with active := true } : Client).updateActiveContexts env.rx upd).1.sendActiveContexts (by simp)
      rw [ho] at this
      exact this
  | reload fs upd =>
    exact Client.sendConfig_allowed env.rx (c.updateConfig env fs false).1 upd _ _
      (by rw [Client.step, Client.sendConfig_file])
  | requestKeyInfo => exact Client.send_allowed _ _ _ _ (by simp)

end KM
