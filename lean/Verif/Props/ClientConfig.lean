import Verif.Props.Client
import Verif.Model.StringTyper
/-!
# Loading and updating the configuration
-/
namespace KM

/-- The operation tries to read a configuration file which cannot be read: it does not exist or is not
valid. -/
def Unreadable (env : ClientEnv) (current : Str) : ClientOp → Prop
  | .autoUpdate fs _ => readConfigFile env fs current = none
  | .reload fs _ => readConfigFile env fs current = none
  | .control fs _ _ (.setConfigFile filename) => readConfigFile env fs filename = none
  | _ => False

theorem update_unreadable (env : ClientEnv) (fs : FileSys) (f : ConfigFile) (b : Bool)
    (h : readConfigFile env fs f.filename = none) : (f.update env fs b).2 = false := by
  rw [ConfigFile.update, h]
  split <;> rfl

theorem load_unreadable (env : ClientEnv) (fs : FileSys) (c : Client) (filename : Str)
    (h : readConfigFile env fs filename = none) : (c.loadConfig env fs filename).2 = false := by
  rw [Client.loadConfig]
  split
  · rename_i hf
    exact update_unreadable env fs c.file false (by rw [hf]; exact h)
  · split
    · rw [Client.loadNew]
      have : (ConfigFile.load env fs filename).2 = false := update_unreadable env fs { filename := filename } true h
      simp [this]
    · rename_i f hr
      exact update_unreadable env fs f false (by rw [(mem_recent_of_find hr).2]; exact h)

/-- **C46** (a configuration which cannot be read): when the configuration is updated, reloaded or set, but
the file does not exist or is not valid, then the server keeps the configuration it has. -/
theorem C46_keeps (env : ClientEnv) (fs : FileSys) (filename : Str) (ops : List ClientOp) (op : ClientOp)
    (hs : NoSwitchFails env (Client.start env fs filename) (ops ++ [op])) (hc : connectedAfter ops = true)
    (hu : Unreadable env ((Client.start env fs filename).run env ops).file.filename op) :
    (serverView ((Client.start env fs filename).run env (ops ++ [op])).out).config =
      (serverView ((Client.start env fs filename).run env ops).out).config ∧
    (serverView ((Client.start env fs filename).run env ops).out).config ≠ none := by
  obtain ⟨hi, hf⟩ := start_inv env fs filename
  obtain ⟨fa, fc⟩ := start_flags env fs filename
  obtain ⟨hs1, hs2, _⟩ := (noSwitchFails_append env _ ops [op]).mp hs
  obtain ⟨hi', hf'⟩ := hi.run hf ops hs1
  have hcon := run_connected env (Client.start env fs filename) ops
  rw [fc] at hcon
  have hcon := hcon.trans hc
  obtain ⟨h1, _⟩ := hi' hcon
  rw [run_append]
  generalize (Client.start env fs filename).run env ops = c at *
  show (serverView (c.step env op).out).config = _ ∧ _
  have hst : (c.step env op).isConnected = true := by
    rw [(step_flags env c op).2.1, hcon]
    cases op <;> simp [Unreadable] at hu <;> rfl
  obtain ⟨h2, _⟩ := hi'.step hf'.file op hs2 hst
  rw [h2, h1]
  refine ⟨congrArg some ?_, by simp⟩
  cases op with
  | autoUpdate fs upd =>
    have h := update_unreadable env fs c.file true hu
    show (if (c.updateConfig env fs true).2 then
      ((c.updateConfig env fs true).1.sendConfig env.rx upd).1 else (c.updateConfig env fs true).1).file.config = _
    rw [if_neg (by simp [Client.updateConfig, h])]
    exact ConfigFile.update_false env fs c.file true h
  | reload fs upd =>
    have h := update_unreadable env fs c.file false hu
    show (((c.updateConfig env fs false).1.sendConfig env.rx upd).1).file.config = _
    rw [Client.sendConfig_file]
    exact ConfigFile.update_false env fs c.file false h
  | control fs upd s m =>
    cases m with
    | setConfigFile filename =>
      have h := load_unreadable env fs c filename hu
      show (if c.control.controls.any (fun x => x.socket == s) then
        c.onControl env fs upd s (.setConfigFile filename) else c).file.config = _
      split
      · show (c.onSetConfigFile env fs upd filename).1.file.config = _
        rw [Client.onSetConfigFile, h]
        exact Client.loadConfig_false_eq env fs c filename hf'.file h hs2
      · rfl
    | _ => simp [Unreadable] at hu
  | _ => simp [Unreadable] at hu

/-- A configuration which was read from a file at some time, or the empty one -/
def WasRead (env : ClientEnv) (config : Config) : Prop :=
  config = {} ∨ ∃ fs filename, readConfigFile env fs filename = some config

theorem update_wasRead (env : ClientEnv) (fs : FileSys) (f : ConfigFile) (b : Bool) (h : WasRead env f.config) :
    WasRead env (f.update env fs b).1.config := by
  cases hu : (f.update env fs b).2 with
  | false => rw [ConfigFile.update_false env fs f b hu]; exact h
  | true => exact Or.inr ⟨fs, f.filename, ConfigFile.update_true env fs f b hu⟩

/-- All configurations of a client were read -/
def AllRead (env : ClientEnv) (c : Client) : Prop := ∀ f, f = c.file ∨ f ∈ c.recent → WasRead env f.config

theorem AllRead.of_files {env : ClientEnv} {c d : Client} (h : AllRead env c) (he : d.files = c.files) :
    AllRead env d := by
  have h1 : d.file = c.file := congrArg Prod.fst he
  have h2 : d.recent = c.recent := congrArg Prod.snd he
  intro f hf
  rw [h1, h2] at hf
  exact h f hf

theorem AllRead.loadConfig {env : ClientEnv} {c : Client} (h : AllRead env c) (fs : FileSys) (filename : Str) :
    AllRead env (c.loadConfig env fs filename).1 := by
  rw [Client.loadConfig]
  split
  · intro f hf
    rcases hf with hf | hf
    · rw [hf]; exact update_wasRead env fs c.file false (h _ (Or.inl rfl))
    · exact h f (Or.inr hf)
  · split
    · rw [Client.loadNew]
      have hl : WasRead env (ConfigFile.load env fs filename).1.config :=
        update_wasRead env fs { filename := filename } true (Or.inl rfl)
      split
      · split
        · intro f hf
          rcases hf with hf | hf
          · rw [hf]; exact hl
          · exact h f (Or.inr hf)
        · exact h
      · intro f hf
        rcases hf with hf | hf
        · rw [hf]; exact hl
        · simp only at hf
          split at hf
          · exact h f (Or.inr hf)
          · rcases List.mem_append.mp hf with hf | hf
            · exact h f (Or.inr hf)
            · exact h f (Or.inl (by simpa using hf))
    · rename_i g hg
      intro f hf
      rcases hf with hf | hf
      · rw [hf]; exact update_wasRead env fs g false (h g (Or.inr (mem_recent_of_find hg).1))
      · rcases mem_replaceFile hf with hf | hf
        · exact h f (Or.inl hf)
        · exact h f (Or.inr hf)

theorem AllRead.step {env : ClientEnv} {c : Client} (h : AllRead env c) (op : ClientOp) :
    AllRead env (c.step env op) := by
  rcases Client.step_files env c op with he | ⟨fs, b, he⟩ | ⟨fs, filename, he⟩
  · exact h.of_files he
  · refine AllRead.of_files ?_ he
    intro f hf
    rcases hf with hf | hf
    · rw [hf]; exact update_wasRead env fs c.file b (h _ (Or.inl rfl))
    · exact h f (Or.inr hf)
  · exact (h.loadConfig fs filename).of_files he

/-- **C46**: every configuration which is ever sent to the server was completely read from a file and is
valid, or is the empty one the client starts with. -/
theorem C46_valid (env : ClientEnv) (fs : FileSys) (filename : Str) (ops : List ClientOp) (config : Config)
    (h : CEff.server (.config config) ∈ ((Client.start env fs filename).run env ops).out) :
    WasRead env config := by
  have key : ∀ (ops : List ClientOp) (c : Client), AllRead env c →
      (∀ x, CEff.server (.config x) ∈ c.out → WasRead env x) →
      ∀ x, CEff.server (.config x) ∈ (c.run env ops).out → WasRead env x := by
    intro ops
    induction ops with
    | nil => intro c _ h; exact h
    | cons op ops ih =>
      intro c ha h
      refine ih (c.step env op) (ha.step op) ?_
      intro x hx
      obtain ⟨l, hl, he⟩ := step_out env c op
      rw [hl] at hx
      rcases List.mem_append.mp hx with hx | hx
      · exact h x hx
      · have : x = (c.step env op).file.config := he _ hx
        rw [this]
        exact ha.step op _ (Or.inl rfl)
  refine key ops _ ?_ ?_ config h
  · refine AllRead.loadConfig ?_ fs filename
    intro f hf
    rcases hf with hf | hf
    · rw [hf]; exact Or.inl rfl
    · simp at hf
  · intro x hx
    obtain ⟨_, _, _, h4⟩ := loadConfig_active env fs {} filename
    rw [Client.start, h4] at hx
    simp at hx

/-- **C46**: a reload sends the contents of the file, when it can be read. -/
theorem C46_reload (env : ClientEnv) (c : Client) (fs : FileSys) (upd : Option Window) (config : Config)
    (hc : c.isConnected = true) (hr : readConfigFile env fs c.file.filename = some config) :
    (serverView (c.step env (.reload fs upd)).out).config = some config := by
  have hi : ClientInv env.rx (c.step env (.reload fs upd)) := Client.sendConfig_inv _ _ _
  have hcon : (c.step env (.reload fs upd)).isConnected = true := by
    rw [(step_flags env c _).2.1]; exact hc
  rw [(hi hcon).1]
  show some (((c.updateConfig env fs false).1.sendConfig env.rx upd).1).file.config = _
  rw [Client.sendConfig_file]
  have hu : (c.file.update env fs false).2 = true := by rw [ConfigFile.update_unchecked, hr]; rfl
  have := ConfigFile.update_true env fs c.file false hu
  rw [hr] at this
  exact this.symm

theorem latestModifyTime_nil (fs : FileSys) (filename : Str) :
    latestModifyTime fs filename [] = fs.mtime filename := by
  rw [latestModifyTime]; simp

theorem loadConfig_readable (env : ClientEnv) (fs : FileSys) (c : Client) (filename : Str) (config : Config)
    (h : readConfigFile env fs filename = some config) (ht : fs.mtime filename ≠ -1) :
    (c.loadConfig env fs filename).2 = true ∧ (c.loadConfig env fs filename).1.file.config = config := by
  have unchecked : ∀ f : ConfigFile, f.filename = filename →
      (f.update env fs false).2 = true ∧ (f.update env fs false).1.config = config := by
    intro f hf
    have hu : (f.update env fs false).2 = true := by rw [ConfigFile.update_unchecked, hf, h]; rfl
    have := ConfigFile.update_true env fs f false hu
    rw [hf, h] at this
    exact ⟨hu, by simpa using this.symm⟩
  rw [Client.loadConfig]
  split
  · rename_i hf
    exact unchecked c.file hf
  · split
    · rw [Client.loadNew]
      have hl : ConfigFile.load env fs filename =
          ({ filename := filename, modifyTime := fs.mtime filename, config := config }, true) := by
        rw [ConfigFile.load, ConfigFile.update]
        simp only [h, latestModifyTime_nil]
        rw [if_neg (by simpa using ht)]
      simp [hl]
    · rename_i f hr
      exact unchecked f (mem_recent_of_find hr).2

/-- **C46**: `keymapperctl --set-config` is told that it succeeded exactly when the file could be read, and then
the server has this configuration. -/
theorem C46_set_config (env : ClientEnv) (c : Client) (fs : FileSys) (upd : Option Window) (s : Nat)
    (filename : Str) (hc : c.isConnected = true) (hs : c.control.controls.any (fun x => x.socket == s) = true)
    (ht : fs.mtime filename ≠ -1) :
    repliesTo s (c.step env (.control fs upd s (.setConfigFile filename))).out =
      repliesTo s c.out ++ [.keyState Key.none
        (if (readConfigFile env fs filename).isSome then .Down else .Up)] ∧
    (∀ config, readConfigFile env fs filename = some config →
      (serverView (c.step env (.control fs upd s (.setConfigFile filename))).out).config = some config) := by
  have hstep : c.step env (.control fs upd s (.setConfigFile filename)) =
      (c.onSetConfigFile env fs upd filename).1.reply s Key.none
        (resultState (c.onSetConfigFile env fs upd filename).2) := by
    show (if c.control.controls.any (fun x => x.socket == s) then
      c.onControl env fs upd s (.setConfigFile filename) else c) = _
    rw [if_pos hs]; rfl
  obtain ⟨_, h2, _, h4⟩ := loadConfig_active env fs c filename
  rw [hstep]
  cases hr : readConfigFile env fs filename with
  | none =>
    refine ⟨?_, by simp⟩
    rw [Client.onSetConfigFile, load_unreadable env fs c filename hr]
    simp [Client.reply, h4, repliesTo, resultState]
  | some config =>
    obtain ⟨hl, hcfg⟩ := loadConfig_readable env fs c filename config hr ht
    have hon : c.onSetConfigFile env fs upd filename =
        (c.loadConfig env fs filename).1.sendConfig env.rx upd := by
      rw [Client.onSetConfigFile, if_pos hl]
    have hcon : (c.loadConfig env fs filename).1.isConnected = true := h2.trans hc
    have hsnd : ((c.loadConfig env fs filename).1.sendConfig env.rx upd).2 = true := by
      rw [Client.sendConfig, if_pos hcon]
    constructor
    · obtain ⟨l, h5, h6⟩ := Client.sendConfig_out env.rx (c.loadConfig env fs filename).1 upd
      rw [hon, hsnd]
      simp only [Client.reply, h5, h4, repliesTo, List.filterMap_append]
      rw [(List.filterMap_eq_nil_iff (l := l)).mpr]
      · simp [resultState]
      · intro e he
        rcases h6 e he with h | ⟨i, h⟩ <;> rw [h]
    · intro config' hc'
      cases hc'
      rw [hon]
      have hi := (Client.sendConfig_inv env.rx (c.loadConfig env fs filename).1 upd).reply s Key.none
        (resultState ((c.loadConfig env fs filename).1.sendConfig env.rx upd).2)
      have hcc : (((c.loadConfig env fs filename).1.sendConfig env.rx upd).1.reply s Key.none
          (resultState ((c.loadConfig env fs filename).1.sendConfig env.rx upd).2)).isConnected = true :=
        (Client.sendConfig_connected _ _ _).trans hcon
      rw [(hi hcc).1]
      show some ((c.loadConfig env fs filename).1.sendConfig env.rx upd).1.file.config = _
      rw [Client.sendConfig_file, hcfg]

/-! ## Detecting modifications -/

theorem latestModifyTime_le (fs : FileSys) (filename : Str) (includes : List Str) (t : Int)
    (h0 : fs.mtime filename ≤ t) (hi : ∀ i ∈ includes, fs.mtime (fs.resolve filename i) ≤ t) :
    latestModifyTime fs filename includes ≤ t := by
  rw [latestModifyTime]
  split
  · exact h0
  · generalize fs.mtime filename = t0 at h0
    induction includes generalizing t0 with
    | nil => exact h0
    | cons i l ih =>
      rw [List.foldl_cons]
      refine ih (fun j hj => hi j (by simp [hj])) _ ?_
      have := hi i (by simp)
      dsimp only
      split
      · exact h0
      · omega

theorem foldl_max_ge (fs : FileSys) (filename : Str) (includes : List Str) (t0 : Int) :
    t0 ≤ includes.foldl (fun t i =>
      if fs.mtime (fs.resolve filename i) = 0 then t else max t (fs.mtime (fs.resolve filename i))) t0 := by
  induction includes generalizing t0 with
  | nil => exact Int.le_refl _
  | cons i l ih =>
    rw [List.foldl_cons]
    refine Int.le_trans ?_ (ih _)
    split <;> omega

theorem latestModifyTime_ge (fs : FileSys) (filename : Str) (includes : List Str) (hn : fs.mtime filename ≠ 0) :
    fs.mtime filename ≤ latestModifyTime fs filename includes ∧
    ∀ i ∈ includes, fs.mtime (fs.resolve filename i) ≠ 0 →
      fs.mtime (fs.resolve filename i) ≤ latestModifyTime fs filename includes := by
  rw [latestModifyTime, if_neg hn]
  refine ⟨foldl_max_ge _ _ _ _, ?_⟩
  generalize fs.mtime filename = t0
  induction includes generalizing t0 with
  | nil => intro i hi; simp at hi
  | cons j l ih =>
    intro i hi h0
    rw [List.foldl_cons]
    rcases List.mem_cons.mp hi with hi | hi
    · cases hi
      refine Int.le_trans ?_ (foldl_max_ge _ _ _ _)
      simp only [if_neg h0]
      omega
    · exact ih _ i hi h0

/-- The files a configuration consists of -/
def configFiles (fs : FileSys) (f : ConfigFile) : List Str :=
  f.filename :: f.config.includes.map (fs.resolve f.filename)

theorem update_modifyTime (env : ClientEnv) (fs : FileSys) (f : ConfigFile) (b : Bool) :
    (f.update env fs b).1.modifyTime = latestModifyTime fs f.filename f.config.includes := by
  rw [ConfigFile.update]
  split
  · rename_i h
    simp only [Bool.and_eq_true, beq_iff_eq] at h
    exact h.2.symm
  · split <;> rfl

/-- **C62** (modifications are detected): the configuration was examined at some time (`fs1`); later (`fs2`) the
file, or one included by the configuration in use, is newer than all the files of the configuration which was
in use before the examination were. Then the next automatic update reads the file: when it is valid, then the
server gets it. -/
theorem C62_detected (env : ClientEnv) (c : Client) (fs1 fs2 : FileSys) (b : Bool) (upd : Option Window)
    (config : Config) (hc : c.isConnected = true)
    (hr : readConfigFile env fs2 c.file.filename = some config)
    (hm : fs2.mtime c.file.filename ≠ 0)
    (hnew : ∃ n ∈ configFiles fs2 (c.file.update env fs1 b).1, fs2.mtime n ≠ 0 ∧
      ∀ m ∈ configFiles fs1 c.file, fs1.mtime m < fs2.mtime n) :
    (serverView ((c.updateConfig env fs1 b).1.step env (.autoUpdate fs2 upd)).out).config = some config := by
  generalize hd : (c.updateConfig env fs1 b).1 = d
  have hdf : d.file = (c.file.update env fs1 b).1 := by rw [← hd]; rfl
  have hdc : d.isConnected = true := by rw [← hd]; exact hc
  have hdn : d.file.filename = c.file.filename := by rw [hdf, ConfigFile.update_filename]
  have htime : d.file.modifyTime = latestModifyTime fs1 c.file.filename c.file.config.includes := by
    rw [hdf, update_modifyTime]
  have hne : latestModifyTime fs2 d.file.filename d.file.config.includes ≠ d.file.modifyTime := by
    obtain ⟨n, hn, hn0, hlt⟩ := hnew
    rw [htime]
    have hle : latestModifyTime fs1 c.file.filename c.file.config.includes ≤ fs2.mtime n - 1 := by
      refine latestModifyTime_le _ _ _ _ ?_ ?_
      · have := hlt c.file.filename (by simp [configFiles]); omega
      · intro i hi
        have := hlt (fs1.resolve c.file.filename i) (by
          rw [configFiles]; exact List.mem_cons_of_mem _ (List.mem_map_of_mem hi))
        omega
    have hge : fs2.mtime n ≤ latestModifyTime fs2 d.file.filename d.file.config.includes := by
      obtain ⟨g1, g2⟩ := latestModifyTime_ge fs2 d.file.filename d.file.config.includes (by rw [hdn]; exact hm)
      rw [configFiles, ← hdf] at hn
      rcases List.mem_cons.mp hn with hn | hn
      · rw [hn]; exact g1
      · obtain ⟨i, hi, hin⟩ := List.mem_map.mp hn
        rw [← hin] at hn0 ⊢
        exact g2 i hi hn0
    omega
  have hup : (d.file.update env fs2 true).2 = true ∧ (d.file.update env fs2 true).1.config = config := by
    have hc2 : ¬ (true && latestModifyTime fs2 d.file.filename d.file.config.includes == d.file.modifyTime) = true := by
      simpa using hne
    rw [ConfigFile.update, if_neg hc2, hdn, hr]
    exact ⟨rfl, rfl⟩
  have hstep : d.step env (.autoUpdate fs2 upd) = ((d.updateConfig env fs2 true).1.sendConfig env.rx upd).1 := by
    show (if (d.updateConfig env fs2 true).2 then
      ((d.updateConfig env fs2 true).1.sendConfig env.rx upd).1 else (d.updateConfig env fs2 true).1) = _
    rw [if_pos (by exact hup.1)]
  rw [hstep]
  have hcon : ((d.updateConfig env fs2 true).1.sendConfig env.rx upd).1.isConnected = true :=
    (Client.sendConfig_connected _ _ _).trans hdc
  rw [(Client.sendConfig_inv env.rx (d.updateConfig env fs2 true).1 upd hcon).1, Client.sendConfig_file]
  exact congrArg some hup.2

/-- **C62**: as long as no file is modified, the automatic update does nothing, provided that the configuration
which is in use includes the same files as the one before. -/
theorem C62_idle (env : ClientEnv) (c : Client) (fs1 fs2 : FileSys) (b : Bool) (upd : Option Window)
    (hinc : (c.file.update env fs1 b).1.config.includes = c.file.config.includes)
    (hres : fs2.resolve = fs1.resolve)
    (hsame : ∀ m ∈ configFiles fs1 c.file, fs2.mtime m = fs1.mtime m) :
    (c.updateConfig env fs1 b).1.step env (.autoUpdate fs2 upd) = (c.updateConfig env fs1 b).1 := by
  generalize hd : (c.updateConfig env fs1 b).1 = d
  have hdf : d.file = (c.file.update env fs1 b).1 := by rw [← hd]; rfl
  have hdn : d.file.filename = c.file.filename := by rw [hdf, ConfigFile.update_filename]
  have htime : d.file.modifyTime = latestModifyTime fs1 c.file.filename c.file.config.includes := by
    rw [hdf, update_modifyTime]
  have heq : latestModifyTime fs2 d.file.filename d.file.config.includes = d.file.modifyTime := by
    rw [htime, hdn, hdf, hinc, latestModifyTime, latestModifyTime, hsame _ (by simp [configFiles]), hres]
    split
    · rfl
    · have hall : ∀ i ∈ c.file.config.includes, fs2.mtime (fs1.resolve c.file.filename i) =
          fs1.mtime (fs1.resolve c.file.filename i) := by
        intro i hi
        refine hsame _ ?_
        rw [configFiles]; exact List.mem_cons_of_mem _ (List.mem_map_of_mem hi)
      generalize fs1.mtime c.file.filename = t0
      generalize c.file.config.includes = l at hall
      induction l generalizing t0 with
      | nil => rfl
      | cons i l ih =>
        rw [List.foldl_cons, List.foldl_cons, hall i (by simp)]
        exact ih _ (fun j hj => hall j (by simp [hj]))
  have hu : d.file.update env fs2 true = (d.file, false) := by
    rw [ConfigFile.update, if_pos (by simp [heq])]
  show (if (d.updateConfig env fs2 true).2 then
      ((d.updateConfig env fs2 true).1.sendConfig env.rx upd).1 else (d.updateConfig env fs2 true).1) = _
  rw [Client.updateConfig, hu]
  rfl

end KM
