import Verif.Spec.Client
/-!
# Lemmas about the client: what the server was told
-/
namespace KM

theorem serverView_append (a b : List CEff) : serverView (a ++ b) = b.foldl viewStep (serverView a) := by
  simp [serverView]

/-- What the server was told is up to date -/
def ClientInv (rx : Regex) (c : Client) : Prop :=
  c.isConnected = true →
    (serverView c.out).config = some c.file.config ∧
    (serverView c.out).active = c.activeContexts.map Int.ofNat ∧
    c.activeContexts = (if c.active then matchingContexts rx c.file.config c.window else []) ∧
    c.control.aliases = c.file.config.virtualKeyAliases

/-- An effect which does not tell the server about configurations and contexts -/
def CEff.isQuiet : CEff → Bool
  | .connected => false
  | .server (.config _) => false
  | .server (.activeContexts _) => false
  | _ => true

theorem viewStep_quiet (v : ServerView) (e : CEff) (h : e.isQuiet = true) : viewStep v e = v := by
  rcases e with _ | m | _ | _ | _
  · simp [CEff.isQuiet] at h
  · cases m <;> first | rfl | simp [CEff.isQuiet] at h
  all_goals rfl

theorem viewFold_quiet (l : List CEff) (v : ServerView) (h : ∀ e ∈ l, e.isQuiet = true) :
    l.foldl viewStep v = v := by
  induction l generalizing v with
  | nil => rfl
  | cons e l ih =>
    rw [List.foldl_cons, viewStep_quiet v e (h e (by simp))]
    exact ih v (fun e he => h e (by simp [he]))

/-- The step changed nothing the invariant is about -/
theorem ClientInv.same {rx : Regex} {c d : Client} (hc : ClientInv rx c) (hf : d.file.config = c.file.config)
    (hw : d.window = c.window) (ha : d.activeContexts = c.activeContexts) (hac : d.active = c.active)
    (hi : d.isConnected = true → c.isConnected = true) (hal : d.control.aliases = c.control.aliases)
    (ho : ∃ l, d.out = c.out ++ l ∧ ∀ e ∈ l, e.isQuiet = true) : ClientInv rx d := by
  obtain ⟨l, ho, hl⟩ := ho
  intro h
  rw [ho, serverView_append, viewFold_quiet l _ hl, hf, hw, ha, hac, hal]
  exact hc (hi h)

theorem Client.refreshContexts_eq (rx : Regex) (c : Client) :
    (c.refreshContexts rx).1 =
      { c with activeContexts := matchingContexts rx c.file.config c.window } := by
  rw [Client.refreshContexts]
  split
  · rfl
  · rename_i h
    rw [Classical.not_not.mp h]

theorem Client.refreshContexts_snd (rx : Regex) (c : Client) :
    (c.refreshContexts rx).2 = decide (matchingContexts rx c.file.config c.window ≠ c.activeContexts) := by
  rw [Client.refreshContexts]
  split
  · rename_i h; simp [h]
  · rename_i h; simp only [h, decide_false]

/-- The active contexts are either up to date, or cleared -/
theorem Client.updateActiveContexts_eq (rx : Regex) (c : Client) (upd : Option Window) (ha : c.active = true)
    (h : c.activeContexts = [] ∨ c.activeContexts = matchingContexts rx c.file.config c.window) :
    (c.updateActiveContexts rx upd).1 =
      { c with window := upd.getD c.window
               activeContexts := matchingContexts rx c.file.config (upd.getD c.window) } := by
  rw [Client.updateActiveContexts.eq_def, if_neg (by simp [ha])]
  cases upd with
  | some w => simp only [Client.refreshContexts_eq, Option.getD_some]
  | none =>
    simp only [Option.getD_none]
    by_cases he : c.activeContexts = []
    · rw [if_neg (by simp [he]), Client.refreshContexts_eq]
    · rw [if_pos (by simp [he])]
      rcases h with h | h
      · exact absurd h he
      · rw [← h]

theorem Client.updateActiveContexts_snd (rx : Regex) (c : Client) (upd : Option Window) (ha : c.active = true)
    (h : c.activeContexts = [] ∨ c.activeContexts = matchingContexts rx c.file.config c.window) :
    (c.updateActiveContexts rx upd).2 =
      decide (matchingContexts rx c.file.config (upd.getD c.window) ≠ c.activeContexts) := by
  rw [Client.updateActiveContexts.eq_def, if_neg (by simp [ha])]
  cases upd with
  | some w => simp only [Client.refreshContexts_snd, Option.getD_some]
  | none =>
    simp only [Option.getD_none]
    by_cases he : c.activeContexts = []
    · rw [if_neg (by simp [he]), Client.refreshContexts_snd]
    · rw [if_pos (by simp [he])]
      rcases h with h | h
      · exact absurd h he
      · simp [← h]

theorem Client.updateActiveContexts_inactive (rx : Regex) (c : Client) (upd : Option Window)
    (ha : c.active = false) : c.updateActiveContexts rx upd = (c, false) := by
  rw [Client.updateActiveContexts.eq_def, if_pos (by simp [ha])]

/-- Updating the active contexts only changes the window and the contexts -/
theorem Client.updateActiveContexts_rest (rx : Regex) (c : Client) (upd : Option Window) :
    (c.updateActiveContexts rx upd).1 =
      { c with window := (c.updateActiveContexts rx upd).1.window
               activeContexts := (c.updateActiveContexts rx upd).1.activeContexts } := by
  rw [Client.updateActiveContexts.eq_def]
  split
  · rfl
  · cases upd with
    | some w => simp only [Client.refreshContexts_eq]
    | none =>
      simp only
      split
      · rfl
      · simp only [Client.refreshContexts_eq]

theorem Client.updateActiveContexts_connected (rx : Regex) (c : Client) (upd : Option Window) :
    (c.updateActiveContexts rx upd).1.isConnected = c.isConnected := by
  rw [Client.updateActiveContexts_rest]

theorem Client.send_connected (c : Client) (m : ToServer) : (c.send m).isConnected = c.isConnected := by
  rw [Client.send]; split <;> rfl

/-- The state after the configuration was sent -/
theorem Client.sendConfig_eq (rx : Regex) (c : Client) (upd : Option Window) (hc : c.isConnected = true) :
    (c.sendConfig rx upd).1 =
      if c.active then
        { c with
          control := c.control.setAliases c.file.config.virtualKeyAliases
          window := upd.getD c.window
          activeContexts := matchingContexts rx c.file.config (upd.getD c.window)
          out := c.out ++ [.server (.config c.file.config), .server (.activeContexts
            ((matchingContexts rx c.file.config (upd.getD c.window)).map Int.ofNat))] }
      else
        { c with
          control := c.control.setAliases c.file.config.virtualKeyAliases
          activeContexts := []
          out := c.out ++ [.server (.config c.file.config)] } := by
  rw [Client.sendConfig, if_pos hc]
  simp only [Client.send, hc, if_true, Client.configSent]
  by_cases ha : c.active = true
  · rw [if_pos ha, if_pos ha, Client.updateActiveContexts_eq _ _ _ (by exact ha) (Or.inl rfl)]
    simp [Client.sendActiveContexts, Client.send]
  · rw [if_neg ha, if_neg ha]

theorem Client.sendConfig_connected (rx : Regex) (c : Client) (upd : Option Window) :
    (c.sendConfig rx upd).1.isConnected = c.isConnected := by
  by_cases hc : c.isConnected = true
  · rw [Client.sendConfig_eq rx c upd hc]
    split <;> rfl
  · rw [Client.sendConfig, if_neg hc]

theorem Client.sendConfig_file (rx : Regex) (c : Client) (upd : Option Window) :
    (c.sendConfig rx upd).1.file = c.file := by
  by_cases hc : c.isConnected = true
  · rw [Client.sendConfig_eq rx c upd hc]
    split <;> rfl
  · rw [Client.sendConfig, if_neg hc]

theorem Client.sendConfig_recent (rx : Regex) (c : Client) (upd : Option Window) :
    (c.sendConfig rx upd).1.recent = c.recent := by
  by_cases hc : c.isConnected = true
  · rw [Client.sendConfig_eq rx c upd hc]
    split <;> rfl
  · rw [Client.sendConfig, if_neg hc]

/-- The server knows everything after the configuration was sent. -/
theorem Client.sendConfig_inv (rx : Regex) (c : Client) (upd : Option Window) :
    ClientInv rx (c.sendConfig rx upd).1 := by
  intro h
  rw [Client.sendConfig_connected] at h
  rw [Client.sendConfig_eq rx c upd h]
  by_cases ha : c.active = true
  · rw [if_pos ha]
    simp [serverView_append, viewStep, CPort.setAliases, ha]
  · rw [if_neg ha]
    simp [serverView_append, viewStep, CPort.setAliases, ha]

theorem Client.send_quiet (c : Client) (m : ToServer) (hm : (CEff.server m).isQuiet = true) :
    ∃ l, (c.send m).out = c.out ++ l ∧ ∀ e ∈ l, e.isQuiet = true := by
  rw [Client.send]
  split
  · exact ⟨[.server m], rfl, by simp [hm]⟩
  · exact ⟨[], by simp, by simp⟩

theorem ClientInv.send {rx : Regex} {c : Client} (hc : ClientInv rx c) (m : ToServer)
    (hm : (CEff.server m).isQuiet = true) : ClientInv rx (c.send m) := by
  have ho := Client.send_quiet c m hm
  refine hc.same ?_ ?_ ?_ ?_ ?_ ?_ ho <;> (rw [Client.send]; split <;> first | rfl | exact id)

theorem ClientInv.reply {rx : Regex} {c : Client} (hc : ClientInv rx c) (socket : Nat) (k : Key) (st : KeyState) :
    ClientInv rx (c.reply socket k st) :=
  hc.same rfl rfl rfl rfl id rfl ⟨[.control socket (.keyState k st)], rfl, by simp [CEff.isQuiet]⟩

theorem ClientInv.setControl {rx : Regex} {c : Client} (hc : ClientInv rx c) (r : CPort × List (Nat × CtlReply))
    (hr : r.1.aliases = c.control.aliases) : ClientInv rx (c.setControl r) :=
  hc.same rfl rfl rfl rfl id hr ⟨_, rfl, by
    intro e he
    obtain ⟨x, _, hx⟩ := List.mem_map.mp he
    rw [← hx]; rfl⟩

theorem ClientInv.setPort {rx : Regex} {c : Client} (hc : ClientInv rx c) (p : CPort)
    (hp : p.aliases = c.control.aliases) : ClientInv rx { c with control := p } :=
  hc.same rfl rfl rfl rfl id hp ⟨[], by simp, by simp⟩

theorem CPort.setInstanceId_aliases (p : CPort) (s : Nat) (id : Str) :
    (p.setInstanceId s id).aliases = p.aliases := by
  rw [CPort.setInstanceId]
  split
  · rfl
  · split
    · rw [CPort.disconnectById]
      split <;> rfl
    · rfl

theorem CPort.requestToggle_aliases (p : CPort) (s : Nat) (k : Key) :
    (p.requestToggle s k).1.aliases = p.aliases := by
  rw [CPort.requestToggle]; split <;> rfl

theorem CPort.onKeyState_aliases (p : CPort) (k : Key) (st : KeyState) :
    (p.onKeyState k st).1.aliases = p.aliases := by
  rw [CPort.onKeyState]; split <;> rfl

theorem CPort.accept_aliases (p : CPort) (s : Nat) : (p.accept s).aliases = p.aliases := by
  rw [CPort.accept]; split <;> rfl

theorem ConfigFile.update_false (env : ClientEnv) (fs : FileSys) (f : ConfigFile) (b : Bool)
    (h : (f.update env fs b).2 = false) : (f.update env fs b).1.config = f.config := by
  rw [ConfigFile.update] at h ⊢
  split at h
  · rename_i hc; rw [if_pos hc]
  · rename_i hc
    rw [if_neg hc]
    cases hr : readConfigFile env fs f.filename with
    | none => simp only
    | some x => simp [hr] at h

theorem ConfigFile.update_true (env : ClientEnv) (fs : FileSys) (f : ConfigFile) (b : Bool)
    (h : (f.update env fs b).2 = true) :
    readConfigFile env fs f.filename = some (f.update env fs b).1.config := by
  rw [ConfigFile.update] at h ⊢
  split at h
  · simp at h
  · rename_i hc
    rw [if_neg hc]
    cases hr : readConfigFile env fs f.filename with
    | none => simp [hr] at h
    | some x => simp only

theorem ConfigFile.update_filename (env : ClientEnv) (fs : FileSys) (f : ConfigFile) (b : Bool) :
    (f.update env fs b).1.filename = f.filename := by
  rw [ConfigFile.update]
  split
  · rfl
  · split <;> rfl

theorem ConfigFile.update_unchecked (env : ClientEnv) (fs : FileSys) (f : ConfigFile) :
    (f.update env fs false).2 = (readConfigFile env fs f.filename).isSome := by
  rw [ConfigFile.update]
  simp only [Bool.false_and, Bool.false_eq_true, if_false]
  split
  · rename_i h; simp [h]
  · rename_i h; simp [h]

/-- Loading only changes the files -/
theorem Client.loadConfig_rest (env : ClientEnv) (fs : FileSys) (c : Client) (filename : Str) :
    (c.loadConfig env fs filename).1 =
      { c with file := (c.loadConfig env fs filename).1.file
               recent := (c.loadConfig env fs filename).1.recent } := by
  rw [Client.loadConfig]
  split
  · rfl
  · split
    · rw [Client.loadNew]
      split
      · split <;> rfl
      · rfl
    · rfl

theorem mem_recent_of_find {l : List ConfigFile} {filename : Str} {f : ConfigFile}
    (h : l.find? (fun f => f.filename == filename) = some f) : f ∈ l ∧ f.filename = filename := by
  have h1 := List.mem_of_find?_eq_some h
  have h2 := List.find?_some h
  exact ⟨h1, by simpa using h2⟩

/-- When loading fails, the configuration stays the one it was, unless the file was loaded before another
one, or there was no file. -/
theorem Client.loadConfig_false (env : ClientEnv) (fs : FileSys) (c : Client) (filename : Str)
    (h : (c.loadConfig env fs filename).2 = false)
    (hs : ¬ (filename ≠ c.file.filename ∧ (∃ f ∈ c.recent, f.filename = filename) ∧
      readConfigFile env fs filename = none)) :
    (c.loadConfig env fs filename).1.file.config = c.file.config ∨
    (c.file.filename = [] ∧ (c.loadConfig env fs filename).1.file.config = {}) := by
  rw [Client.loadConfig] at h ⊢
  by_cases hf : c.file.filename = filename
  · rw [if_pos hf] at h ⊢
    exact Or.inl (ConfigFile.update_false env fs c.file false h)
  · rw [if_neg hf] at h ⊢
    cases hr : c.recent.find? (fun f => f.filename == filename) with
    | none =>
      simp only [hr] at h ⊢
      rw [Client.loadNew] at h ⊢
      by_cases hl : (ConfigFile.load env fs filename).2 = true
      · simp [hl] at h
      · have hl' : (ConfigFile.load env fs filename).2 = false := by simpa using hl
        simp only [hl', Bool.not_false, if_true] at h ⊢
        by_cases he : c.file.filename.isEmpty = true
        · rw [if_pos he]
          right
          refine ⟨by simpa using he, ?_⟩
          have := ConfigFile.update_false env fs { filename := filename } true hl'
          exact this
        · rw [if_neg he]
          exact Or.inl rfl
    | some f =>
      simp only [hr] at h ⊢
      obtain ⟨hm, hn⟩ := mem_recent_of_find hr
      rw [ConfigFile.update_unchecked, hn] at h
      exact absurd ⟨fun e => hf e.symm, ⟨f, hm, hn⟩, by simpa using h⟩ hs

/-- A client without a file has no configuration -/
def FileInv (c : Client) : Prop := c.file.filename = [] → c.file.config = {}

theorem readConfigFile_nil (env : ClientEnv) (fs : FileSys) : readConfigFile env fs [] = none := by
  rw [readConfigFile, fs.noName]

theorem ConfigFile.update_named (env : ClientEnv) (fs : FileSys) (f : ConfigFile) (b : Bool)
    (h : f.filename = [] → f.config = {}) :
    (f.update env fs b).1.filename = [] → (f.update env fs b).1.config = {} := by
  intro hn
  rw [ConfigFile.update_filename] at hn
  cases hu : (f.update env fs b).2 with
  | false => rw [ConfigFile.update_false env fs f b hu, h hn]
  | true =>
    have := ConfigFile.update_true env fs f b hu
    rw [hn, readConfigFile_nil] at this
    simp at this

/-- All files of a client: one without a name has no configuration -/
def FileInvAll (c : Client) : Prop := ∀ f, f = c.file ∨ f ∈ c.recent → f.filename = [] → f.config = {}

theorem FileInvAll.file {c : Client} (h : FileInvAll c) : FileInv c := h c.file (Or.inl rfl)

theorem mem_replaceFile {filename : Str} {f g : ConfigFile} {l : List ConfigFile}
    (h : g ∈ replaceFile filename f l) : g = f ∨ g ∈ l := by
  induction l with
  | nil => simp [replaceFile] at h
  | cons a l ih =>
    rw [replaceFile] at h
    split at h
    · rcases List.mem_cons.mp h with h | h
      · exact Or.inl h
      · exact Or.inr (List.mem_cons_of_mem _ h)
    · rcases List.mem_cons.mp h with h | h
      · exact Or.inr (by simp [h])
      · rcases ih h with h | h
        · exact Or.inl h
        · exact Or.inr (List.mem_cons_of_mem _ h)

theorem FileInvAll.loadConfig {c : Client} (h : FileInvAll c) (env : ClientEnv) (fs : FileSys) (filename : Str) :
    FileInvAll (c.loadConfig env fs filename).1 := by
  rw [Client.loadConfig]
  split
  · intro f hf
    rcases hf with hf | hf
    · rw [hf]
      exact ConfigFile.update_named env fs c.file false (h c.file (Or.inl rfl))
    · exact h f (Or.inr hf)
  · split
    · rw [Client.loadNew]
      have hl : (ConfigFile.load env fs filename).1.filename = [] →
          (ConfigFile.load env fs filename).1.config = {} :=
        ConfigFile.update_named env fs { filename := filename } true (fun _ => rfl)
      split
      · split
        · intro f hf
          rcases hf with hf | hf
          · rw [hf]; exact hl
          · exact h f (Or.inr hf)
        · exact h
      · intro f hf
        rcases hf with hf | hf
        · rw [hf]; exact hl
        · simp only at hf
          split at hf
          · exact h f (Or.inr hf)
          · rcases List.mem_append.mp hf with hf | hf
            · exact h f (Or.inr hf)
            · exact h f (Or.inl (by simpa using hf))
    · rename_i g hg
      intro f hf
      rcases hf with hf | hf
      · rw [hf]
        exact ConfigFile.update_named env fs g false (h g (Or.inr (mem_recent_of_find hg).1))
      · rcases mem_replaceFile hf with hf | hf
        · exact h f (Or.inl hf)
        · exact h f (Or.inr hf)

/-- Loading fails: nothing changes for the server, unless a switch fails -/
theorem Client.loadConfig_false_eq (env : ClientEnv) (fs : FileSys) (c : Client) (filename : Str)
    (hf : FileInv c) (h : (c.loadConfig env fs filename).2 = false)
    (hs : ¬ (filename ≠ c.file.filename ∧ (∃ f ∈ c.recent, f.filename = filename) ∧
      readConfigFile env fs filename = none)) :
    (c.loadConfig env fs filename).1.file.config = c.file.config := by
  rcases Client.loadConfig_false env fs c filename h hs with h | ⟨h1, h2⟩
  · exact h
  · rw [h2, hf h1]

theorem ClientInv.loadFailed {env : ClientEnv} {c : Client} (hc : ClientInv env.rx c) (fs : FileSys) (filename : Str)
    (hf : FileInv c) (h : (c.loadConfig env fs filename).2 = false)
    (hs : ¬ (filename ≠ c.file.filename ∧ (∃ f ∈ c.recent, f.filename = filename) ∧
      readConfigFile env fs filename = none)) : ClientInv env.rx (c.loadConfig env fs filename).1 := by
  have he := Client.loadConfig_false_eq env fs c filename hf h hs
  have hr := Client.loadConfig_rest env fs c filename
  generalize (c.loadConfig env fs filename).1 = d at he hr ⊢
  rw [hr]
  exact hc.same (by simpa using he) rfl rfl rfl id rfl ⟨[], by simp, by simp⟩

theorem ClientInv.updateConfig_failed {env : ClientEnv} {c : Client} (hc : ClientInv env.rx c) (fs : FileSys) (b : Bool)
    (h : (c.updateConfig env fs b).2 = false) : ClientInv env.rx (c.updateConfig env fs b).1 :=
  hc.same (ConfigFile.update_false env fs c.file b h) rfl rfl rfl id rfl ⟨[], by simp [Client.updateConfig], by simp⟩

theorem ClientInv.updateContexts {rx : Regex} {c : Client} (hc : ClientInv rx c) (upd : Option Window) :
    ClientInv rx (if (c.updateActiveContexts rx upd).2 then (c.updateActiveContexts rx upd).1.sendActiveContexts
      else (c.updateActiveContexts rx upd).1) := by
  by_cases ha : c.active = true
  · by_cases hcon : c.isConnected = true
    · obtain ⟨h1, h2, h3, h4⟩ := hc hcon
      rw [if_pos ha] at h3
      rw [Client.updateActiveContexts_snd rx c upd ha (Or.inr h3),
        Client.updateActiveContexts_eq rx c upd ha (Or.inr h3)]
      by_cases hd : matchingContexts rx c.file.config (upd.getD c.window) ≠ c.activeContexts
      · rw [if_pos (by simpa using hd)]
        intro _
        simp [Client.sendActiveContexts, Client.send, hcon, serverView_append, viewStep, h1, ha, h4]
      · rw [if_neg (by simpa using hd)]
        intro _
        simp only [h1, h2, h4, ha, if_true, true_and, and_true]
        exact congrArg _ (Classical.not_not.mp hd).symm
    · intro h
      exfalso
      apply hcon
      revert h
      split
      · rw [Client.sendActiveContexts, Client.send_connected, Client.updateActiveContexts_connected]
        exact id
      · rw [Client.updateActiveContexts_connected]
        exact id
  · rw [Client.updateActiveContexts_inactive rx c upd (by simpa using ha)]
    simpa using hc

theorem ClientInv.toggleActive {rx : Regex} {c : Client} (hc : ClientInv rx c) (upd : Option Window) :
    ClientInv rx (c.toggleActive rx upd) := by
  rw [Client.toggleActive]
  by_cases ha : c.active = true
  · rw [if_pos ha]
    intro h
    have hcon : c.isConnected = true := by
      revert h; rw [Client.sendActiveContexts, Client.send]; split <;> exact id
    obtain ⟨h1, h2, h3, h4⟩ := hc hcon
    simp [Client.sendActiveContexts, Client.send, hcon, serverView_append, viewStep, h1, h4]
  · rw [if_neg ha]
    by_cases hcon : c.isConnected = true
    · obtain ⟨h1, h2, h3, h4⟩ := hc hcon
      rw [if_neg ha] at h3
      rw [Client.updateActiveContexts_eq rx { c with active := true } upd rfl (Or.inl h3)]
      intro _
      simp [Client.sendActiveContexts, Client.send, hcon, serverView_append, viewStep, h1, h4]
    · intro h
      exfalso
      apply hcon
      revert h
      rw [Client.sendActiveContexts, Client.send_connected, Client.updateActiveContexts_connected]
      exact id

theorem ClientInv.onServer {rx : Regex} {c : Client} (hc : ClientInv rx c) (m : ToClient) : ClientInv rx (c.onServer m) := by
  cases m with
  | executeAction i =>
    show ClientInv rx (c.onExecuteAction i)
    rw [Client.onExecuteAction]
    split
    · split
      · exact hc.same rfl rfl rfl rfl id rfl ⟨[.execute _], rfl, by simp [CEff.isQuiet]⟩
      · exact hc
    · exact hc
  | virtualKeyState k st => exact hc.setControl _ (CPort.onKeyState_aliases _ _ _)
  | nextKeyInfo k d =>
    show ClientInv rx (c.onNextKeyInfo k d)
    rw [Client.onNextKeyInfo]
    have h1 : ClientInv rx (c.setControl
      ((c.control.replyKeyInfo { key := k, window := c.window, device := d }).1,
       (c.control.replyKeyInfo { key := k, window := c.window, device := d }).2.1)) :=
      hc.setControl _ rfl
    split
    · exact h1
    · exact h1.same rfl rfl rfl rfl id rfl ⟨[.showKeyInfo _], rfl, by simp [CEff.isQuiet]⟩

theorem ClientInv.onInject {env : ClientEnv} {c : Client} (hc : ClientInv env.rx c) (socket : Nat) (text : Str)
    (m : KeySequence → ToServer) (hm : ∀ l, (CEff.server (m l)).isQuiet = true) :
    ClientInv env.rx (c.onInject env socket text m) := by
  rw [Client.onInject]
  split
  · exact (hc.send _ (hm _)).reply _ _ _
  · exact hc.reply _ _ _

theorem ClientInv.onControl {env : ClientEnv} {c : Client} (hc : ClientInv env.rx c) (hf : FileInv c) (fs : FileSys)
    (upd : Option Window) (socket : Nat) (m : CtlMsg)
    (hs : ¬ SwitchFails env c (.control fs upd socket m)) : ClientInv env.rx (c.onControl env fs upd socket m) := by
  cases m with
  | getState name => exact hc.setControl _ rfl
  | setState name st => exact (hc.send _ rfl).setControl _ rfl
  | requestToggle name => exact hc.setControl _ (CPort.requestToggle_aliases _ _ _)
  | setInstanceId id => exact (hc.setPort _ (CPort.setInstanceId_aliases _ _ _)).reply _ _ _
  | setConfigFile filename =>
    apply ClientInv.reply
    show ClientInv env.rx (c.onSetConfigFile env fs upd filename).1
    rw [Client.onSetConfigFile]
    split
    · exact Client.sendConfig_inv _ _ _
    · rename_i h
      exact hc.loadFailed fs filename hf (by simpa using h) hs
  | nextKeyInfo => exact (hc.setPort _ (by rfl)).send _ rfl
  | injectInput text => exact hc.onInject socket text _ (fun _ => rfl)
  | injectOutput text => exact hc.onInject socket text _ (fun _ => rfl)

theorem ClientInv.step {env : ClientEnv} {c : Client} (hc : ClientInv env.rx c) (hf : FileInv c) (op : ClientOp)
    (hs : ¬ SwitchFails env c op) : ClientInv env.rx (c.step env op) := by
  cases op with
  | connect upd => exact Client.sendConfig_inv _ _ _
  | lost => intro h; simp [Client.step] at h
  | disconnected => intro h; simp [Client.step] at h
  | autoUpdate fs upd =>
    show ClientInv env.rx (if (c.updateConfig env fs true).2 then
      ((c.updateConfig env fs true).1.sendConfig env.rx upd).1 else (c.updateConfig env fs true).1)
    split
    · exact Client.sendConfig_inv _ _ _
    · rename_i h
      exact hc.updateConfig_failed fs true (by simpa using h)
  | updateContexts upd => exact hc.updateContexts upd
  | server m => exact hc.onServer m
  | accept s => exact hc.setPort _ (CPort.accept_aliases _ _)
  | control fs upd s m =>
    show ClientInv env.rx (if c.control.controls.any (fun x => x.socket == s) then
      c.onControl env fs upd s m else c)
    split
    · exact hc.onControl hf fs upd s m hs
    · exact hc
  | controlClosed s => exact hc.setPort _ rfl
  | toggleActive upd => exact hc.toggleActive upd
  | reload fs upd => exact Client.sendConfig_inv _ _ _
  | requestKeyInfo => exact hc.send _ rfl

end KM
