import Verif.Spec.ClientProgram
import Verif.Props.ClientLimits
/-!
# C86: the program `keymapper`
-/
namespace KM

/-! ### the command line -/

private def override (s : ClientSettings) (opts : List CliOption) : ClientSettings where
  path := (lastPath opts).getD s.path
  update := s.update || opts.contains .update
  verbose := s.verbose || opts.contains .verbose
  check := s.check || opts.contains .check
  noTray := s.noTray || opts.contains .noTray
  noNotify := s.noNotify || opts.contains .noNotify

private theorem override_nil (s : ClientSettings) : override s [] = s := by
  simp [override, lastPath]

private theorem interpret_cons (s : ClientSettings) (a : Str) (rest : List Str) : interpretClientArgs s (a :: rest) =
    if a = "-u".toList ∨ a = "--update".toList then interpretClientArgs { s with update := true } rest
    else if a = "-c".toList ∨ a = "--config".toList then
      match rest with
      | [] => none
      | p :: rest => interpretClientArgs { s with path := p } rest
    else if a = "-v".toList ∨ a = "--verbose".toList then interpretClientArgs { s with verbose := true } rest
    else if a = "--check".toList then interpretClientArgs { s with check := true } rest
    else if a = "--no-tray".toList then interpretClientArgs { s with noTray := true } rest
    else if a = "--no-notify".toList then interpretClientArgs { s with noNotify := true } rest
    else none := by
  rw [interpretClientArgs.eq_def]
  rfl

private theorem interpret_written {opts args} (h : Written opts args) (s : ClientSettings) : interpretClientArgs s args = some (override s opts) := by
  induction h generalizing s with
  | nil => rw [override_nil]; rfl
  | @cons o opts l args h hs ih =>
    cases o with
    | config p =>
      have e : override { s with path := p } opts = override s (.config p :: opts) := by simp [override, lastPath]
      simp only [CliOption.spellings, List.mem_cons, List.not_mem_nil, or_false] at h
      rcases h with h | h <;> rw [h, List.cons_append, interpret_cons, if_neg (by decide +kernel), if_pos (by decide +kernel)] <;> exact (ih _).trans (by rw [e])
    | update =>
      have e : override { s with update := true } opts = override s (.update :: opts) := by simp [override, lastPath]
      simp only [CliOption.spellings, List.mem_cons, List.not_mem_nil, or_false] at h
      rcases h with h | h <;> rw [h, List.cons_append, List.nil_append, interpret_cons, if_pos (by decide +kernel), ih, e]
    | verbose =>
      have e : override { s with verbose := true } opts = override s (.verbose :: opts) := by simp [override, lastPath]
      simp only [CliOption.spellings, List.mem_cons, List.not_mem_nil, or_false] at h
      rcases h with h | h <;>
        rw [h, List.cons_append, List.nil_append, interpret_cons, if_neg (by decide +kernel), if_neg (by decide +kernel), if_pos (by decide +kernel), ih, e]
    | check =>
      have e : override { s with check := true } opts = override s (.check :: opts) := by simp [override, lastPath]
      simp only [CliOption.spellings, List.mem_cons, List.not_mem_nil, or_false] at h
      rw [h, List.cons_append, List.nil_append, interpret_cons, if_neg (by decide +kernel), if_neg (by decide +kernel), if_neg (by decide +kernel),
        if_pos rfl, ih, e]
    | noTray =>
      have e : override { s with noTray := true } opts = override s (.noTray :: opts) := by simp [override, lastPath]
      simp only [CliOption.spellings, List.mem_cons, List.not_mem_nil, or_false] at h
      rw [h, List.cons_append, List.nil_append, interpret_cons, if_neg (by decide +kernel), if_neg (by decide +kernel), if_neg (by decide +kernel),
        if_neg (by decide +kernel), if_pos rfl, ih, e]
    | noNotify =>
      have e : override { s with noNotify := true } opts = override s (.noNotify :: opts) := by simp [override, lastPath]
      simp only [CliOption.spellings, List.mem_cons, List.not_mem_nil, or_false] at h
      rw [h, List.cons_append, List.nil_append, interpret_cons, if_neg (by decide +kernel), if_neg (by decide +kernel), if_neg (by decide +kernel),
        if_neg (by decide +kernel), if_neg (by decide +kernel), if_pos rfl, ih, e]

private theorem written_of_interpret (s r : ClientSettings) (args : List Str) (h : interpretClientArgs s args = some r) : ∃ opts, Written opts args := by
  fun_induction interpretClientArgs s args with
  | case1 => exact ⟨[], .nil⟩
  | case2 s a rest ha ih =>
    obtain ⟨o, ho⟩ := ih h
    exact ⟨.update :: o, .cons (l := [a]) (by rcases ha with rfl | rfl <;> simp [CliOption.spellings]) ho⟩
  | case3 => simp at h
  | case4 s a _ ha p rest ih =>
    obtain ⟨o, ho⟩ := ih h
    exact ⟨.config p :: o, .cons (l := [a, p]) (by rcases ha with rfl | rfl <;> simp [CliOption.spellings]) ho⟩
  | case5 s a rest _ _ ha ih =>
    obtain ⟨o, ho⟩ := ih h
    exact ⟨.verbose :: o, .cons (l := [a]) (by rcases ha with rfl | rfl <;> simp [CliOption.spellings]) ho⟩
  | case6 s rest _ _ _ ih =>
    obtain ⟨o, ho⟩ := ih h
    exact ⟨.check :: o, .cons (l := ["--check".toList]) (by simp [CliOption.spellings]) ho⟩
  | case7 s rest _ _ _ _ ih =>
    obtain ⟨o, ho⟩ := ih h
    exact ⟨.noTray :: o, .cons (l := ["--no-tray".toList]) (by simp [CliOption.spellings]) ho⟩
  | case8 s rest _ _ _ _ _ ih =>
    obtain ⟨o, ho⟩ := ih h
    exact ⟨.noNotify :: o, .cons (l := ["--no-notify".toList]) (by simp [CliOption.spellings]) ho⟩
  | case9 => simp at h

/-- **C86** The command line is accepted exactly when it consists of options; each of them has its meaning, wherever it is, and the last configuration file counts. -/
theorem C86_arguments (args : List Str) (s : ClientSettings) :
    interpretClientArgs {} args = some s ↔ ∃ opts, Written opts args ∧ s = cliMeaning opts := by
  have e : ∀ opts, override {} opts = cliMeaning opts := by intro opts; simp [override, cliMeaning]
  constructor
  · intro h
    obtain ⟨opts, ho⟩ := written_of_interpret _ _ _ h
    refine ⟨opts, ho, ?_⟩
    rw [interpret_written ho, e] at h
    exact (Option.some.inj h).symm
  · rintro ⟨opts, ho, rfl⟩
    rw [interpret_written ho, e]

example : Written [.config "-u".toList, .noTray, .config "b".toList] ["-c".toList, "-u".toList, "--no-tray".toList, "--config".toList, "b".toList] ∧
    interpretClientArgs {} ["-c".toList, "-u".toList, "--no-tray".toList, "--config".toList, "b".toList] =
      some { path := "b".toList, noTray := true } ∧ interpretClientArgs {} ["-u".toList, "-c".toList] = none := by
  refine ⟨.cons (l := ["-c".toList, "-u".toList]) (by decide +kernel) (.cons (l := ["--no-tray".toList]) (by decide +kernel)
    (.cons (l := ["--config".toList, "b".toList]) (by decide +kernel) .nil)), by decide +kernel, by decide +kernel⟩

/-! ### the options of the configuration -/

private theorem apply_update (o : Str) (s : ClientSettings) :
    (s.applyOption o).update = (decide (o = "update".toList) || (s.update && !decide (o = "no-update".toList))) ∧
    (s.applyOption o).verbose = (s.verbose || decide (o = "verbose".toList)) ∧
    (s.applyOption o).noTray = (s.noTray || decide (o = "no-tray".toList)) ∧
    (s.applyOption o).noNotify = (s.noNotify || decide (o = "no-notify".toList)) ∧
    (s.applyOption o).path = s.path ∧ (s.applyOption o).check = s.check := by
  unfold ClientSettings.applyOption
  split
  · next h => subst h; simp
  · next h1 =>
    split
    · next h => subst h; simp
    · next h2 =>
      split
      · next h => subst h; simp
      · next h3 =>
        split
        · next h => subst h; simp
        · next h4 =>
          split
          · next h => subst h; simp
          · next h5 =>
            simp only [decide_eq_false h1, decide_eq_false h2, decide_eq_false h3, decide_eq_false h4, decide_eq_false h5]
            simp

/-- **C86** The options of the configuration are added to the ones of the command line. About updating automatically the last option of the configuration decides. -/
theorem C86_options (s : ClientSettings) (c : Config) :
    ((applyConfigOptions s c).update = true ↔
      (∃ a b, c.options = a ++ "update".toList :: b ∧ "no-update".toList ∉ b) ∨ (s.update = true ∧ "no-update".toList ∉ c.options)) ∧
    ((applyConfigOptions s c).verbose = true ↔ s.verbose = true ∨ "verbose".toList ∈ c.options) ∧
    ((applyConfigOptions s c).noTray = true ↔ s.noTray = true ∨ "no-tray".toList ∈ c.options) ∧
    ((applyConfigOptions s c).noNotify = true ↔ s.noNotify = true ∨ "no-notify".toList ∈ c.options) ∧
    (applyConfigOptions s c).path = s.path ∧ (applyConfigOptions s c).check = s.check := by
  unfold applyConfigOptions
  generalize c.options = l
  induction l generalizing s with
  | nil => simp
  | cons o l ih =>
    obtain ⟨h1, h2, h3, h4, h5, h6⟩ := ih (s.applyOption o)
    obtain ⟨g1, g2, g3, g4, g5, g6⟩ := apply_update o s
    rw [List.foldl_cons]
    refine ⟨?_, ?_, ?_, ?_, h5.trans g5, h6.trans g6⟩
    · rw [h1, g1]
      constructor
      · rintro (⟨a, b, rfl, hb⟩ | ⟨hu, hn⟩)
        · exact Or.inl ⟨o :: a, b, rfl, hb⟩
        · simp only [Bool.or_eq_true, decide_eq_true_eq, Bool.and_eq_true, Bool.not_eq_true', decide_eq_false_iff_not] at hu
          rcases hu with rfl | ⟨hu, ho⟩
          · exact Or.inl ⟨[], l, rfl, hn⟩
          · refine Or.inr ⟨hu, ?_⟩
            rw [List.mem_cons]
            rintro (h | h)
            · exact ho h.symm
            · exact hn h
      · rintro (⟨a, b, he, hb⟩ | ⟨hu, hn⟩)
        · cases a with
          | nil =>
            rw [List.nil_append, List.cons.injEq] at he
            obtain ⟨rfl, rfl⟩ := he
            right
            exact ⟨by simp, hb⟩
          | cons a0 a =>
            rw [List.cons_append, List.cons.injEq] at he
            exact Or.inl ⟨a, b, he.2, hb⟩
        · rw [List.mem_cons] at hn
          right
          refine ⟨?_, fun h => hn (Or.inr h)⟩
          simp only [Bool.or_eq_true, decide_eq_true_eq, Bool.and_eq_true, Bool.not_eq_true', decide_eq_false_iff_not]
          exact Or.inr ⟨hu, fun h => hn (Or.inl h.symm)⟩
    · rw [h2, g2]
      simp only [Bool.or_eq_true, decide_eq_true_eq, List.mem_cons, or_assoc, eq_comm (a := o)]
    · rw [h3, g3]
      simp only [Bool.or_eq_true, decide_eq_true_eq, List.mem_cons, or_assoc, eq_comm (a := o)]
    · rw [h4, g4]
      simp only [Bool.or_eq_true, decide_eq_true_eq, List.mem_cons, or_assoc, eq_comm (a := o)]

example : (applyConfigOptions { verbose := true } { options := ["update".toList, "no-tray".toList, "no-update".toList, "update".toList] }) =
    { update := true, verbose := true, noTray := true } := by decide +kernel

/-! ### the configuration file -/

/-- **C86** The configuration file which is given is used. Otherwise it is the first one which exists of the ones in the directory for configurations and in `/etc`; if there
is none, then the one in the current directory; and if there is none either, the one which will be created in the directory for configurations. -/
theorem C86_config_file (y : ProgSys) (filename : Str) :
    (filename ≠ [] → y.resolveConfigPath filename = y.absolute filename) ∧
    (filename = [] → ∀ dir, y.configPath = dir → dir ≠ [] → dir.getLast? ≠ some '/' →
      y.resolveConfigPath filename = (match (configCandidates dir).find? y.fileExists with
        | some path => path
        | none => if y.fileExists "keymapper.conf".toList then y.absolute "keymapper.conf".toList else dir ++ "/keymapper.conf".toList)) := by
  constructor
  · intro h
    unfold ProgSys.resolveConfigPath
    rw [if_pos (by simp [h])]
  · rintro rfl dir hd h0 hl
    have j1 : ∀ rel, joinPath dir rel = dir ++ '/' :: rel := by
      intro rel
      unfold joinPath
      rw [if_neg (by simp [h0, hl])]
    have j2 : ∀ rel, joinPath (dir ++ '/' :: "keymapper".toList) rel = (dir ++ '/' :: "keymapper".toList) ++ '/' :: rel := by
      intro rel
      unfold joinPath
      rw [if_neg (by simp)]
    have j3 : joinPath "/etc/".toList defaultConfigFilename = "/etc/keymapper.conf".toList := by decide +kernel
    have j4 : joinPath (joinPath "/etc/".toList "keymapper".toList) defaultConfigFilename = "/etc/keymapper/keymapper.conf".toList := by decide +kernel
    have e1 : dir ++ '/' :: defaultConfigFilename = dir ++ "/keymapper.conf".toList := rfl
    have e2 : (dir ++ '/' :: "keymapper".toList) ++ '/' :: defaultConfigFilename = dir ++ "/keymapper/keymapper.conf".toList := by
      rw [List.append_assoc]; rfl
    unfold ProgSys.resolveConfigPath
    rw [if_neg (by simp), hd]
    simp only [ProgSys.findConfigFile, j1, j2, j3, j4, e1, e2, configCandidates, List.find?]
    cases y.fileExists (dir ++ "/keymapper.conf".toList) with
    | true => rfl
    | false =>
      cases y.fileExists (dir ++ "/keymapper/keymapper.conf".toList) with
      | true => rfl
      | false =>
        cases y.fileExists "/etc/keymapper.conf".toList with
        | true => rfl
        | false =>
          cases y.fileExists "/etc/keymapper/keymapper.conf".toList with
          | true => rfl
          | false =>
            simp only [Bool.false_eq_true, if_false]
            show (if (!y.fileExists "keymapper.conf".toList) = true then _ else _) = _
            cases y.fileExists "keymapper.conf".toList <;> rfl

/-- **C86** The directory for configurations is the one of the environment, or the one in the home directory. -/
theorem C86_config_dir (y : ProgSys) :
    (∀ dir, y.xdgConfigHome = some dir → y.configPath = dir) ∧
    (∀ h, y.xdgConfigHome = none → (y.home = some h ∨ y.home = none ∧ y.pwDir = h) → h ≠ [] → h.getLast? ≠ some '/' →
      y.configPath = h ++ "/.config".toList) := by
  constructor
  · intro dir h
    unfold ProgSys.configPath
    rw [h]
  · intro h hx hh h0 hl
    unfold ProgSys.configPath
    rw [hx]
    have : y.homePath = h := by
      unfold ProgSys.homePath
      rcases hh with hh | ⟨hh, hp⟩
      · rw [hh]
      · rw [hh]; exact hp
    simp only [this]
    unfold joinPath
    rw [if_neg (by simp [h0, hl])]
    rfl

example : (({ home := some "/home/me".toList, fileExists := fun f => f = "/etc/keymapper.conf".toList || f = "/home/me/.config/keymapper/keymapper.conf".toList,
              absolute := id } : ProgSys).resolveConfigPath []) = "/home/me/.config/keymapper/keymapper.conf".toList := by decide +kernel

/-! ### the calls of the client -/

/-- What a part of the program does: calls of the client, messages -/
private structure Does (env : ClientEnv) (p q : Prog) : Prop where
  settings : q.settings = p.settings
  box : q.output.messageBox = p.output.messageBox
  calls : ∃ l, q.steps = p.steps ++ l ∧ q.client = p.client.run env l ∧ ∀ op ∈ l, op.inSession = true
  shown : p.output.messageBox = true → ∃ ns : List Notice, q.shown = p.shown ++ ns.flatMap (fun n => [.printed n, .notification n])

private theorem Does.rfl' {env : ClientEnv} {p : Prog} : Does env p p where
  settings := rfl
  box := rfl
  calls := ⟨[], by simp, rfl, by simp⟩
  shown _ := ⟨[], by simp⟩

private theorem Does.trans {env : ClientEnv} {p q r : Prog} (h : Does env p q) (g : Does env q r) : Does env p r where
  settings := g.settings.trans h.settings
  box := g.box.trans h.box
  calls := by
    obtain ⟨l, h1, h2, h3⟩ := h.calls
    obtain ⟨m, g1, g2, g3⟩ := g.calls
    refine ⟨l ++ m, by rw [g1, h1, List.append_assoc], by rw [g2, h2, run_append], ?_⟩
    intro op ho
    rcases List.mem_append.1 ho with ho | ho
    · exact h3 op ho
    · exact g3 op ho
  shown := by
    intro hb
    obtain ⟨l, hl⟩ := h.shown hb
    obtain ⟨m, hm⟩ := g.shown (h.box.trans hb)
    exact ⟨l ++ m, by rw [hm, hl, List.flatMap_append, List.append_assoc]⟩

private theorem Does.call {env : ClientEnv} (p : Prog) {op : ClientOp} (h : op.inSession = true) : Does env p (p.call env op) where
  settings := rfl
  box := rfl
  calls := ⟨[op], rfl, rfl, by simpa using h⟩
  shown _ := ⟨[], by simp [Prog.call]⟩

private theorem Does.calls' {env : ClientEnv} (l : List ClientOp) (p : Prog) (h : ∀ op ∈ l, op.inSession = true) : Does env p (l.foldl (Prog.call env) p) := by
  induction l generalizing p with
  | nil => exact Does.rfl'
  | cons op l ih =>
    rw [List.foldl_cons]
    exact (Does.call p (h op (List.mem_cons_self ..))).trans (ih _ (fun o ho => h o (List.mem_cons_of_mem _ ho)))

private theorem Does.say {env : ClientEnv} (p : Prog) (n : Notice) (b : Bool) : Does env p (p.say n b) where
  settings := rfl
  box := rfl
  calls := ⟨[], by simp [Prog.say], rfl, by simp⟩
  shown h := by
    refine ⟨[n], ?_⟩
    simp only [Prog.say, vprint, h, if_pos, List.flatMap_cons, List.flatMap_nil, List.append_nil]
    split <;> rfl

private theorem Does.options {env : ClientEnv} (p : Prog) : Does env p p.updateOptions where
  settings := rfl
  box := rfl
  calls := ⟨[], by simp [Prog.updateOptions], rfl, by simp⟩
  shown _ := ⟨[], by simp [Prog.updateOptions]⟩

private theorem Does.sayUpdate {env : ClientEnv} (fs : FileSys) (p : Prog) (b : Bool) : Does env p (p.sayUpdate env fs b) := by
  unfold Prog.sayUpdate
  split
  · exact Does.say _ _ _
  · split
    · exact Does.rfl'
    · exact Does.say _ _ _

private theorem Does.loseIf {env : ClientEnv} (p : Prog) (b : Bool) : Does env p (p.loseIf env b) := by
  unfold Prog.loseIf
  split
  · exact Does.call _ rfl
  · exact Does.rfl'

private theorem Does.autoUpdate {env : ClientEnv} (p : Prog) (x : Pass) : Does env p (p.autoUpdateStep env x).1 := by
  unfold Prog.autoUpdateStep
  split
  · have h : Does env p ((p.sayUpdate env x.fs true).call env (.autoUpdate x.fs x.seenConfig)) := (Does.sayUpdate _ _ _).trans (Does.call _ rfl)
    simp only
    split
    · split
      · exact h.trans (Does.options _)
      · exact h.trans (Does.say _ _ _)
    · exact h
  · exact Does.rfl'

private theorem Does.menu {env : ClientEnv} (p : Prog) (i : MenuItem) : Does env p (p.menuStep env i) := by
  unfold Prog.menuStep
  cases i with
  | active seen =>
    simp only
    split
    · exact Does.rfl'
    · exact ⟨rfl, rfl, ⟨[.toggleActive seen], rfl, rfl, by simp [ClientOp.inSession]⟩, fun _ => ⟨[], by simp [Prog.call]⟩⟩
  | configuration => exact Does.rfl'
  | reload fs seen =>
    simp only
    split
    · exact Does.rfl'
    · split
      · refine ((Does.sayUpdate fs p false).trans (Does.call _ (op := .reload fs seen) rfl)).trans (Does.trans ?_ (Does.options _))
        split
        · exact Does.rfl'
        · exact Does.say _ _ _
      · exact Does.rfl'
  | nextKeyInfo =>
    simp only
    split
    · exact Does.call _ rfl
    · exact Does.rfl'
  | help => exact Does.rfl'
  | about =>
    simp only
    split
    · exact Does.say _ _ _
    · exact Does.rfl'
  | exit =>
    simp only
    split
    · exact ⟨rfl, rfl, ⟨[], by simp, rfl, by simp⟩, fun _ => ⟨[], by simp⟩⟩
    · exact Does.rfl'

private theorem Does.menus {env : ClientEnv} (l : List MenuItem) (p : Prog) : Does env p (l.foldl (Prog.menuStep env) p) := by
  induction l generalizing p with
  | nil => exact Does.rfl'
  | cons i l ih => exact (Does.menu p i).trans (ih _)

private theorem Does.rest {env : ClientEnv} (p : Prog) (x : Pass) : Does env p (p.restOfPass env x) := by
  unfold Prog.restOfPass
  refine (Does.calls' (x.accepted.toList.map ClientOp.accept) p ?_).trans ((Does.calls' (x.controls.map ControlEvent.op) _ ?_).trans (Does.menus _ _))
  · intro op ho
    obtain ⟨n, _, rfl⟩ := List.mem_map.1 ho
    rfl
  · intro op ho
    obtain ⟨e, _, rfl⟩ := List.mem_map.1 ho
    cases e <;> rfl

private theorem Does.messages {env : ClientEnv} (p : Prog) (x : Pass) : Does env p ((x.messages.map ClientOp.server).foldl (Prog.call env) p) := by
  refine Does.calls' _ p ?_
  intro op ho
  obtain ⟨n, _, rfl⟩ := List.mem_map.1 ho
  rfl

private theorem Does.pass {env : ClientEnv} (p : Prog) (x : Pass) : Does env p (p.pass env x).1 := by
  unfold Prog.pass
  have h1 : Does env p ((p.loseIf env x.lostBeforeConfig).autoUpdateStep env x).1 := (Does.loseIf _ _).trans (Does.autoUpdate _ _)
  generalize (p.loseIf env x.lostBeforeConfig).autoUpdateStep env x = r at h1 ⊢
  simp only
  split
  · exact h1
  · have h2 : Does env p ((r.1.loseIf env x.lostBeforeContexts).contextsStep env x).1 :=
      h1.trans ((Does.loseIf _ _).trans (Does.call _ (op := .updateContexts x.seen) rfl))
    generalize (r.1.loseIf env x.lostBeforeContexts).contextsStep env x = r2 at h2 ⊢
    split
    · exact h2
    · have h3 := h2.trans ((Does.messages r2.1 x).trans (Does.loseIf _ x.lostReading))
      split
      · exact h3
      · exact h3.trans (Does.rest _ _)

private theorem Does.loop {env : ClientEnv} (l : List Pass) (p : Prog) : Does env p (p.mainLoop env l).1 := by
  induction l generalizing p with
  | nil => exact Does.rfl'
  | cons x l ih =>
    unfold Prog.mainLoop
    split
    · exact Does.rfl'
    · simp only
      split
      · exact (Does.pass p x).trans (ih _)
      · exact Does.pass p x

private theorem connections {env : ClientEnv} (sessions : List Session) (p : Prog) :
    (p.connectionLoop env sessions).1.settings = p.settings ∧
    (∃ l, (p.connectionLoop env sessions).1.steps = p.steps ++ l ∧ (p.connectionLoop env sessions).1.client = p.client.run env l ∧ InSessions l) ∧
    (p.output.messageBox = true →
      ∃ ns : List Notice, (p.connectionLoop env sessions).1.shown = p.shown ++ ns.flatMap (fun n => [.printed n, .notification n])) := by
  induction sessions generalizing p with
  | nil => exact ⟨rfl, ⟨[], by simp [Prog.connectionLoop], rfl, .none⟩, fun _ => ⟨[], by simp [Prog.connectionLoop]⟩⟩
  | cons x more ih =>
    unfold Prog.connectionLoop
    split
    · exact ⟨rfl, ⟨[], by simp, rfl, .none⟩, fun _ => ⟨[], by simp⟩⟩
    · split
      · have h := Does.say (env := env) p .connectFailed true
        exact ⟨rfl, ⟨[], by simp [Prog.say], rfl, .none⟩, h.shown⟩
      · split
        · have h := Does.say (env := env) p .sendFailed true
          exact ⟨rfl, ⟨[], by simp [Prog.say], rfl, .none⟩, h.shown⟩
        · have h := Does.loop (env := env) x.passes ((p.call env (.connect none)).updateOptions)
          simp only
          generalize ((p.call env (.connect none)).updateOptions).mainLoop env x.passes = r at h ⊢
          obtain ⟨l, h1, h2, h3⟩ := h.calls
          have h1 : r.1.steps = p.steps ++ (.connect none :: l) := by rw [h1]; simp [Prog.updateOptions, Prog.call]
          have h2 : r.1.client = p.client.run env (.connect none :: l) := h2
          split
          · obtain ⟨g1, ⟨m, g2, g3, g4⟩, g5⟩ := ih (r.1.afterSession env)
            refine ⟨g1.trans h.settings, ⟨(.connect none :: l) ++ .disconnected :: m, ?_, ?_, .ended h3 g4⟩, ?_⟩
            · rw [g2]
              show (r.1.steps ++ [.disconnected]) ++ m = _
              rw [h1]; simp
            · rw [g3, run_append]
              show (r.1.client.step env .disconnected).run env m = _
              rw [h2]; rfl
            · intro hb
              obtain ⟨ns, hn⟩ := h.shown hb
              obtain ⟨ms, hm⟩ := g5 (h.box.trans hb)
              refine ⟨ns ++ ms, ?_⟩
              rw [hm]
              show r.1.shown ++ _ = _
              rw [hn, List.flatMap_append, ← List.append_assoc]
              rfl
          · exact ⟨h.settings, ⟨_, h1, h2, .running h3⟩, h.shown⟩

/-- The settings of the command line with the path of the configuration file -/
def resolvedSettings (y : ProgSys) (s : ClientSettings) : ClientSettings := { s with path := y.resolveConfigPath s.path }

private theorem main_run {env : ClientEnv} {y : ProgSys} {fs : FileSys} {args : List Str} {sessions : List Session} {s : ClientSettings}
    (hs : interpretClientArgs {} args = some s) :
    (clientMain env y fs args sessions).1.settings = resolvedSettings y s ∧
    (clientMain env y fs args sessions).1.client =
      (Client.start env fs (y.resolveConfigPath s.path)).run env (clientMain env y fs args sessions).1.steps ∧
    InSessions (clientMain env y fs args sessions).1.steps ∧
    (∃ ns : List Notice, (clientMain env y fs args sessions).1.shown = ns.flatMap (fun n => [.printed n, .notification n])) := by
  unfold clientMain
  rw [hs]
  simp only
  obtain ⟨p, hp⟩ : ∃ p : Prog, p = { settings := { s with path := y.resolveConfigPath s.path }, client := (({} : Client).loadConfig env fs (y.resolveConfigPath s.path)).1, output := { notification := !s.noNotify, messageBox := true } } := ⟨_, rfl⟩
  obtain ⟨b, hb⟩ : ∃ b, b = (({} : Client).loadConfig env fs (y.resolveConfigPath s.path)).2 := ⟨_, rfl⟩
  rw [← hp, ← hb]
  have hc : p.client = Client.start env fs (y.resolveConfigPath s.path) := by rw [hp]; rfl
  have hst : p.settings = resolvedSettings y s := by rw [hp]; rfl
  have hbox : p.output.messageBox = true := by rw [hp]
  have hstep : p.steps = [] := by rw [hp]
  have hsh : p.shown = [] := by rw [hp]
  obtain ⟨q, hq⟩ : ∃ q : Prog, q = (if b then p else p.say .configError true) := ⟨_, rfl⟩
  have hd : Does env p q := by
    rw [hq]
    split
    · exact Does.rfl'
    · exact Does.say _ _ _
  have hqs : q.steps = [] := by rw [hq]; split <;> exact hstep
  have hqc : q.client = p.client := by rw [hq]; split <;> rfl
  rw [← hq]
  obtain ⟨ns, hns⟩ := hd.shown hbox
  rw [hsh, List.nil_append] at hns
  have fin : ∀ q' : Prog, Does env q q' → q'.steps = [] → q'.settings = resolvedSettings y s ∧
      q'.client = (Client.start env fs (y.resolveConfigPath s.path)).run env q'.steps ∧ InSessions q'.steps ∧
      (∃ ns : List Notice, q'.shown = ns.flatMap (fun n => [.printed n, .notification n])) := by
    intro q' h h0
    obtain ⟨l, h1, h2, _⟩ := h.calls
    rw [hqs, List.nil_append, h0] at h1
    rw [← h1, hqc, hc] at h2
    obtain ⟨ms, hms⟩ := h.shown (hd.box.trans hbox)
    refine ⟨h.settings.trans (hd.settings.trans hst), by rw [h0]; exact h2, by rw [h0]; exact .none, ns ++ ms, ?_⟩
    rw [hms, hns, List.flatMap_append]
  split
  · split
    · exact fin _ (Does.say _ _ _) hqs
    · exact fin _ Does.rfl' hqs
  · split
    · exact fin _ Does.rfl' hqs
    · obtain ⟨g1, ⟨l, g2, g3, g4⟩, g5⟩ := connections (env := env) sessions q
      rw [hqs, List.nil_append] at g2
      obtain ⟨ms, hms⟩ := g5 (hd.box.trans hbox)
      refine ⟨g1.trans (hd.settings.trans hst), ?_, by rw [g2]; exact g4, ns ++ ms, ?_⟩
      · rw [g3, g2, hqc, hc]
      · rw [hms, hns, List.flatMap_append]

/-- **C86** Everything the program does with the client is loading the configuration file, and then a series of connections; for each the configuration is sent at first. So
everything which is proved about the histories of the client (C46, C60, C61, C62, C63, C65) holds for the program. -/
theorem C86_history {env : ClientEnv} {y : ProgSys} {fs : FileSys} {args : List Str} {sessions : List Session} {s : ClientSettings}
    (hs : interpretClientArgs {} args = some s) :
    (clientMain env y fs args sessions).1.client =
      (Client.start env fs (y.resolveConfigPath s.path)).run env (clientMain env y fs args sessions).1.steps ∧
    InSessions (clientMain env y fs args sessions).1.steps :=
  ⟨(main_run hs).2.1, (main_run hs).2.2.1⟩

/-- **C86** Contrary to the description of the option, `--no-notify` has no effect: whatever the command line and the configuration say, every message which is printed is also
shown as a notification, because the message box, which is used instead, is a notification, too. -/
theorem C86_no_notify_counterexample {env : ClientEnv} {y : ProgSys} {fs : FileSys} {args : List Str} {sessions : List Session} {s : ClientSettings}
    (hs : interpretClientArgs {} args = some s) :
    ∃ ns : List Notice, (clientMain env y fs args sessions).1.shown = ns.flatMap (fun n => [.printed n, .notification n]) :=
  (main_run hs).2.2.2

/-! ### the exit code -/

private theorem load_start (env : ClientEnv) (fs : FileSys) (path : Str) (ht : fs.mtime path ≠ -1) :
    (({} : Client).loadConfig env fs path).2 = (readConfigFile env fs path).isSome := by
  cases h : readConfigFile env fs path with
  | none => exact load_unreadable env fs {} path h
  | some c => exact (loadConfig_readable env fs {} path c h ht).1

/-- **C86** Invalid arguments: the program only prints how it is used, and fails. -/
theorem C86_invalid_arguments {env : ClientEnv} {y : ProgSys} {fs : FileSys} {args : List Str} {sessions : List Session}
    (h : ∀ opts, ¬ Written opts args) :
    (clientMain env y fs args sessions).2 = some 1 ∧ (clientMain env y fs args sessions).1.shown = [.printed .help] ∧
    (clientMain env y fs args sessions).1.steps = [] := by
  have : interpretClientArgs {} args = none := by
    cases hi : interpretClientArgs {} args with
    | none => rfl
    | some s =>
      obtain ⟨opts, ho⟩ := written_of_interpret _ _ _ hi
      exact absurd ho (h opts)
  unfold clientMain
  rw [this]
  exact ⟨rfl, rfl, rfl⟩

example : ∀ opts, ¬ Written opts ["-u".toList, "--help".toList] := by
  intro opts h
  have : interpretClientArgs {} ["-u".toList, "--help".toList] = none := by decide +kernel
  rw [interpret_written h] at this
  simp at this

/-- **C86** `--check` tells whether the configuration is valid, also by the exit code, and never connects to the server. -/
theorem C86_check {env : ClientEnv} {y : ProgSys} {fs : FileSys} {args : List Str} {sessions : List Session} {s : ClientSettings}
    (hs : interpretClientArgs {} args = some s) (hc : s.check = true) (ht : fs.mtime (y.resolveConfigPath s.path) ≠ -1) :
    (clientMain env y fs args sessions).1.steps = [] ∧
    (match readConfigFile env fs (y.resolveConfigPath s.path) with
     | some _ => (clientMain env y fs args sessions).2 = some 0 ∧ .printed .configValid ∈ (clientMain env y fs args sessions).1.shown
     | none => (clientMain env y fs args sessions).2 = some 1 ∧ .printed .configError ∈ (clientMain env y fs args sessions).1.shown) := by
  have hl := load_start env fs _ ht
  unfold clientMain
  rw [hs]
  simp only [hc, if_pos, hl]
  cases readConfigFile env fs (y.resolveConfigPath s.path) with
  | none => exact ⟨rfl, rfl, List.mem_cons_self ..⟩
  | some c => exact ⟨rfl, rfl, List.mem_cons_self ..⟩

/-- **C86** Without a valid configuration and without a tray icon the program fails, before it connects to the server. Otherwise it connects; when this fails, then it fails. -/
theorem C86_start {env : ClientEnv} {y : ProgSys} {fs : FileSys} {args : List Str} {x : Session} {more : List Session} {s : ClientSettings}
    (hs : interpretClientArgs {} args = some s) (hc : s.check = false) (ht : fs.mtime (y.resolveConfigPath s.path) ≠ -1) :
    ((readConfigFile env fs (y.resolveConfigPath s.path)).isNone = true ∧ s.noTray = true →
      (clientMain env y fs args (x :: more)).2 = some 1 ∧ (clientMain env y fs args (x :: more)).1.steps = []) ∧
    (¬ ((readConfigFile env fs (y.resolveConfigPath s.path)).isNone = true ∧ s.noTray = true) →
      (x.connects = true ∧ x.sends = true → ∃ l, (clientMain env y fs args (x :: more)).1.steps = .connect none :: l) ∧
      (x.connects = false ∨ x.sends = false →
        (clientMain env y fs args (x :: more)).2 = some 1 ∧ (clientMain env y fs args (x :: more)).1.steps = [])) := by
  have hl := load_start env fs _ ht
  constructor
  · rintro ⟨h1, h2⟩
    unfold clientMain
    rw [hs]
    simp only [hc, hl]
    cases hr : readConfigFile env fs (y.resolveConfigPath s.path) with
    | some c => rw [hr] at h1; simp at h1
    | none =>
      rw [if_neg (by simp), if_pos (by simp [h2])]
      exact ⟨rfl, rfl⟩
  · intro h
    obtain ⟨p, hp, hsh, hst⟩ : ∃ p : Prog, clientMain env y fs args (x :: more) = p.connectionLoop env (x :: more) ∧ p.shutdown = false ∧ p.steps = [] := by
      unfold clientMain
      rw [hs]
      simp only [hc, hl]
      cases hr : readConfigFile env fs (y.resolveConfigPath s.path) with
      | some c =>
        rw [if_neg (by simp), if_neg (by simp)]
        exact ⟨_, rfl, rfl, rfl⟩
      | none =>
        rw [hr] at h
        have h2 : s.noTray = false := by simpa using h
        rw [if_neg (by simp), if_neg (by simp [h2])]
        exact ⟨_, rfl, rfl, rfl⟩
    rw [hp]
    constructor
    · rintro ⟨h1, h2⟩
      unfold Prog.connectionLoop
      rw [if_neg (by simp [hsh]), if_neg (by simp [h1]), if_neg (by simp [h2])]
      have hd := Does.loop (env := env) x.passes ((p.call env (.connect none)).updateOptions)
      simp only
      generalize ((p.call env (.connect none)).updateOptions).mainLoop env x.passes = r at hd ⊢
      obtain ⟨l, d1, _, _⟩ := hd.calls
      have d1 : r.1.steps = .connect none :: l := by rw [d1]; simp [Prog.updateOptions, Prog.call, hst]
      split
      · obtain ⟨_, ⟨m, g2, _, _⟩, _⟩ := connections (env := env) more (r.1.afterSession env)
        rw [g2]
        exact ⟨_, by show (r.1.steps ++ [.disconnected]) ++ m = _; rw [d1]; rfl⟩
      · exact ⟨l, d1⟩
    · intro hf
      unfold Prog.connectionLoop
      rw [if_neg (by simp [hsh])]
      cases h1 : x.connects with
      | false => exact ⟨rfl, hst⟩
      | true =>
        rw [if_neg (by simp)]
        have h2 : x.sends = false := by simpa [h1] using hf
        rw [if_pos (by simp [h2])]
        exact ⟨rfl, hst⟩

private theorem loop_code (env : ClientEnv) (sessions : List Session) (p : Prog) :
    ((p.connectionLoop env sessions).2 = some 0 ↔ (p.connectionLoop env sessions).1.shutdown = true) ∧
    ((p.connectionLoop env sessions).2 ≠ none → ∀ more, p.connectionLoop env (sessions ++ more) = p.connectionLoop env sessions) := by
  induction sessions generalizing p with
  | nil =>
    cases h : p.shutdown with
    | false => simp [Prog.connectionLoop, h]
    | true =>
      refine ⟨by simp [Prog.connectionLoop, h], fun _ more => ?_⟩
      cases more with
      | nil => rfl
      | cons x more => rw [List.nil_append, Prog.connectionLoop, if_pos h, Prog.connectionLoop, h]; rfl
  | cons x rest ih =>
    cases h : p.shutdown with
    | true =>
      have : ∀ l, p.connectionLoop env (x :: l) = (p, some 0) := by intro l; rw [Prog.connectionLoop, if_pos h]
      exact ⟨by simp [this, h], fun _ more => by rw [List.cons_append, this, this]⟩
    | false =>
      cases hc : x.connects with
      | false =>
        have : ∀ l, p.connectionLoop env (x :: l) = (p.say .connectFailed true, some 1) := by intro l; rw [Prog.connectionLoop, if_neg (by simp [h]), if_pos (by simp [hc])]
        refine ⟨?_, fun _ more => by rw [List.cons_append, this, this]⟩
        rw [this]
        show some 1 = some 0 ↔ p.shutdown = true
        simp [h]
      | true =>
        cases hn : x.sends with
        | false =>
          have : ∀ l, p.connectionLoop env (x :: l) = (p.say .sendFailed true, some 1) := by intro l; rw [Prog.connectionLoop, if_neg (by simp [h]), if_neg (by simp [hc]), if_pos (by simp [hn])]
          refine ⟨?_, fun _ more => by rw [List.cons_append, this, this]⟩
          rw [this]
          show some 1 = some 0 ↔ p.shutdown = true
          simp [h]
        | true =>
          have hm : ∀ (q : Prog) (l : List Pass), (q.mainLoop env l).2 = false → (q.mainLoop env l).1.shutdown = false := by
            intro q l
            induction l generalizing q with
            | nil => exact id
            | cons y l ih2 =>
              rw [Prog.mainLoop]
              split
              · simp
              · simp only
                split
                · exact ih2 _
                · simp
          have hm := hm ((p.call env (.connect none)).updateOptions) x.passes
          have : ∀ l, p.connectionLoop env (x :: l) =
              (if (((p.call env (.connect none)).updateOptions).mainLoop env x.passes).2 then
                ((((p.call env (.connect none)).updateOptions).mainLoop env x.passes).1.afterSession env).connectionLoop env l
               else ((((p.call env (.connect none)).updateOptions).mainLoop env x.passes).1, none)) := by
            intro l
            rw [Prog.connectionLoop, if_neg (by simp [h]), if_neg (by simp [hc]), if_neg (by simp [hn])]
          simp only [List.cons_append, this]
          generalize ((p.call env (.connect none)).updateOptions).mainLoop env x.passes = r at hm ⊢
          cases hr : r.2 with
          | false => simp [hm hr]
          | true => exact ih _

private theorem main_loop {env : ClientEnv} {y : ProgSys} {fs : FileSys} {args : List Str} {s : ClientSettings}
    (hs : interpretClientArgs {} args = some s) (hc : s.check = false) :
    (∃ p, ∀ sessions, clientMain env y fs args sessions = (p, some 1) ∧ p.shutdown = false) ∨
    (∃ p : Prog, p.shutdown = false ∧ p.settings = resolvedSettings y s ∧ p.client = Client.start env fs (y.resolveConfigPath s.path) ∧ p.steps = [] ∧
      p.tray = none ∧ ∀ sessions, clientMain env y fs args sessions = p.connectionLoop env sessions) := by
  unfold clientMain
  rw [hs]
  obtain ⟨path, u, v, c, nt, nn⟩ := s
  simp only at hc
  subst hc
  simp only
  cases hr : (({} : Client).loadConfig env fs (y.resolveConfigPath path)).2 with
  | true => exact Or.inr ⟨_, rfl, rfl, rfl, rfl, rfl, fun _ => rfl⟩
  | false =>
    cases nt with
    | true => exact Or.inl ⟨_, fun _ => ⟨rfl, rfl⟩⟩
    | false => exact Or.inr ⟨_, rfl, rfl, rfl, rfl, rfl, fun _ => rfl⟩

private theorem call_shutdown (env : ClientEnv) (l : List ClientOp) (p : Prog) : (l.foldl (Prog.call env) p).shutdown = p.shutdown := by
  induction l generalizing p with
  | nil => rfl
  | cons op l ih => rw [List.foldl_cons, ih]; rfl

private theorem menu_shutdown (env : ClientEnv) (l : List MenuItem) (p : Prog) (h : (l.foldl (Prog.menuStep env) p).shutdown = true) :
    p.shutdown = true ∨ ∃ i ∈ l, i matches .exit := by
  induction l generalizing p with
  | nil => exact Or.inl h
  | cons i l ih =>
    rcases ih _ h with h | ⟨j, hj, h⟩
    · cases i with
      | exit => exact Or.inr ⟨_, List.mem_cons_self .., rfl⟩
      | reload fs seen =>
        left
        unfold Prog.menuStep at h
        simp only at h
        split at h
        · exact h
        · split at h
          · have e : ∀ q : Prog, (q.sayUpdate env fs false).shutdown = q.shutdown := by
              intro q
              unfold Prog.sayUpdate
              split
              · rfl
              · split <;> rfl
            have : ((if ((p.sayUpdate env fs false).call env (.reload fs seen)).client.isConnected = true then
                (p.sayUpdate env fs false).call env (.reload fs seen) else
                ((p.sayUpdate env fs false).call env (.reload fs seen)).say .sendFailed true).shutdown) = p.shutdown := by
              split <;> exact e p
            exact this.symm.trans h
          · exact h
      | active seen => left; unfold Prog.menuStep at h; simp only at h; split at h <;> exact h
      | nextKeyInfo => left; unfold Prog.menuStep at h; simp only at h; split at h <;> exact h
      | about => left; unfold Prog.menuStep at h; simp only at h; split at h <;> exact h
      | configuration => exact Or.inl h
      | help => exact Or.inl h
    · exact Or.inr ⟨j, List.mem_cons_of_mem _ hj, h⟩

private theorem loseIf_shutdown (env : ClientEnv) (p : Prog) (b : Bool) : (p.loseIf env b).shutdown = p.shutdown := by
  unfold Prog.loseIf; split <;> rfl

private theorem auto_shutdown (env : ClientEnv) (p : Prog) (x : Pass) : (p.autoUpdateStep env x).1.shutdown = p.shutdown := by
  have e : (p.sayUpdate env x.fs true).shutdown = p.shutdown := by
    unfold Prog.sayUpdate
    split
    · rfl
    · split <;> rfl
  unfold Prog.autoUpdateStep
  split
  · simp only
    split
    · split <;> exact e
    · exact e
  · rfl

private theorem pass_shutdown (env : ClientEnv) (p : Prog) (x : Pass) (h : (p.pass env x).1.shutdown = true) :
    p.shutdown = true ∨ ∃ i ∈ x.menu, i matches .exit := by
  have h1 : ((p.loseIf env x.lostBeforeConfig).autoUpdateStep env x).1.shutdown = p.shutdown := by rw [auto_shutdown, loseIf_shutdown]
  unfold Prog.pass at h
  generalize (p.loseIf env x.lostBeforeConfig).autoUpdateStep env x = r at h1 h
  simp only at h
  split at h
  · exact Or.inl (h1.symm.trans h)
  · have h2 : ((r.1.loseIf env x.lostBeforeContexts).contextsStep env x).1.shutdown = p.shutdown := by
      show ((r.1.loseIf env x.lostBeforeContexts)).shutdown = _
      rw [loseIf_shutdown, h1]
    generalize (r.1.loseIf env x.lostBeforeContexts).contextsStep env x = r2 at h2 h
    split at h
    · exact Or.inl (h2.symm.trans h)
    · split at h
      · left
        rw [loseIf_shutdown, call_shutdown, h2] at h
        exact h
      · rcases menu_shutdown env _ _ h with h | h
        · left
          rw [call_shutdown, call_shutdown, loseIf_shutdown, call_shutdown, h2] at h
          exact h
        · exact Or.inr h

private theorem mainLoop_shutdown (env : ClientEnv) (l : List Pass) (p : Prog) (h : (p.mainLoop env l).1.shutdown = true) :
    p.shutdown = true ∨ ∃ y ∈ l, ∃ i ∈ y.menu, i matches .exit := by
  induction l generalizing p with
  | nil => exact Or.inl h
  | cons x l ih =>
    rw [Prog.mainLoop] at h
    split at h
    · next hp => exact Or.inl hp
    · simp only at h
      have hx : (p.pass env x).1.shutdown = true → p.shutdown = true ∨ ∃ y ∈ x :: l, ∃ i ∈ y.menu, i matches .exit := by
        intro hp
        rcases pass_shutdown env p x hp with h | h
        · exact Or.inl h
        · exact Or.inr ⟨x, List.mem_cons_self .., h⟩
      split at h
      · rcases ih _ h with h | ⟨y, hy, h⟩
        · exact hx h
        · exact Or.inr ⟨y, List.mem_cons_of_mem _ hy, h⟩
      · exact hx h

private theorem loop_shutdown (env : ClientEnv) (l : List Session) (p : Prog) (h : (p.connectionLoop env l).1.shutdown = true) :
    p.shutdown = true ∨ ExitChosen l := by
  induction l generalizing p with
  | nil => exact Or.inl h
  | cons x l ih =>
    rw [Prog.connectionLoop] at h
    split at h
    · next hp => exact Or.inl hp
    · split at h
      · exact Or.inl h
      · split at h
        · exact Or.inl h
        · simp only at h
          have hx : (((p.call env (.connect none)).updateOptions).mainLoop env x.passes).1.shutdown = true → p.shutdown = true ∨ ExitChosen (x :: l) := by
            intro hp
            rcases mainLoop_shutdown env _ _ hp with h | h
            · exact Or.inl h
            · exact Or.inr ⟨x, List.mem_cons_self .., h⟩
          split at h
          · rcases ih _ h with h | ⟨y, hy, h⟩
            · exact hx h
            · exact Or.inr ⟨y, List.mem_cons_of_mem _ hy, h⟩
          · exact hx h

/-- **C86** The program only ends successfully when "Exit" was chosen in the menu (and it does when it got so far); nothing which happens afterwards matters. -/
theorem C86_exit {env : ClientEnv} {y : ProgSys} {fs : FileSys} {args : List Str} {sessions : List Session} {s : ClientSettings}
    (hs : interpretClientArgs {} args = some s) (hc : s.check = false) :
    ((clientMain env y fs args sessions).2 = some 0 ↔ (clientMain env y fs args sessions).1.shutdown = true) ∧
    ((clientMain env y fs args sessions).2 = some 0 → ExitChosen sessions) ∧
    ((clientMain env y fs args sessions).2 ≠ none → ∀ more, clientMain env y fs args (sessions ++ more) = clientMain env y fs args sessions) := by
  rcases main_loop (env := env) (y := y) (fs := fs) hs hc with ⟨p, hp⟩ | ⟨p, h0, _, _, _, _, hp⟩
  · simp [(hp _).1, (hp []).2]
  · simp only [hp]
    refine ⟨(loop_code env sessions p).1, ?_, (loop_code env sessions p).2⟩
    intro h
    rcases loop_shutdown env _ _ ((loop_code env sessions p).1.1 h) with h | h
    · rw [h0] at h; simp at h
    · exact h

/-! ### the options which are in effect -/

/-- The options of the command line and of the current configuration are in effect: whether the configuration is updated automatically, and whether there is a tray icon -/
def Prog.InEffect (p : Prog) : Prop :=
  p.auto = (applyConfigOptions p.settings p.client.file.config).update ∧
  p.tray.isSome = !(applyConfigOptions p.settings p.client.file.config).noTray

private theorem options_inEffect (p : Prog) : p.updateOptions.InEffect := by
  refine ⟨rfl, ?_⟩
  show (if (!(applyConfigOptions p.settings p.client.file.config).noTray) = true then initTray p.tray _ else none).isSome =
    !(applyConfigOptions p.settings p.client.file.config).noTray
  cases (applyConfigOptions p.settings p.client.file.config).noTray with
  | true => rfl
  | false => cases p.tray <;> rfl

private theorem InEffect.of {p q : Prog} (h : p.InEffect) (h1 : q.auto = p.auto) (h2 : q.tray.isSome = p.tray.isSome) (h3 : q.settings = p.settings)
    (h4 : q.client.file.config = p.client.file.config) : q.InEffect := by
  unfold Prog.InEffect
  rw [h1, h2, h3, h4]
  exact h

/-- Changes the configuration -/
private def ClientOp.changesConfig : ClientOp → Bool
  | .autoUpdate _ _ => true
  | .reload _ _ => true
  | .control _ _ _ (.setConfigFile _) => true
  | _ => false

private theorem step_config (env : ClientEnv) (c : Client) (op : ClientOp) (h : ClientOp.changesConfig op = false) :
    (c.step env op).file.config = c.file.config := by
  suffices hf : (c.step env op).files = c.files by exact congrArg (fun x => x.1.config) hf
  cases op with
  | connect upd => exact Client.sendConfig_files _ _ _
  | autoUpdate fs upd => simp [ClientOp.changesConfig] at h
  | updateContexts upd =>
    show (if (c.updateActiveContexts env.rx upd).2 then
      (c.updateActiveContexts env.rx upd).1.sendActiveContexts else (c.updateActiveContexts env.rx upd).1).files = _
    split
    · rw [Client.sendActiveContexts, Client.send_files, Client.updateActiveContexts_files]
    · exact Client.updateActiveContexts_files _ _ _
  | server m => exact Client.onServer_files c m
  | control fs upd s m =>
    show (if c.control.controls.any (fun x => x.socket == s) then c.onControl env fs upd s m else c).files = _
    split
    · cases m with
      | setConfigFile filename => simp [ClientOp.changesConfig] at h
      | getState name => rfl
      | setState name st => exact Client.send_files _ _
      | requestToggle name => rfl
      | setInstanceId id => rfl
      | nextKeyInfo => exact Client.send_files _ _
      | injectInput text => exact Client.onInject_files _ _ _ _ _
      | injectOutput text => exact Client.onInject_files _ _ _ _ _
    · rfl
  | toggleActive upd =>
    show (c.toggleActive env.rx upd).files = _
    rw [Client.toggleActive]
    split
    · rw [Client.sendActiveContexts, Client.send_files]; rfl
    · rw [Client.sendActiveContexts, Client.send_files, Client.updateActiveContexts_files]; rfl
  | reload fs upd => simp [ClientOp.changesConfig] at h
  | requestKeyInfo => exact Client.send_files _ _
  | lost => rfl
  | disconnected => rfl
  | accept s => rfl
  | controlClosed s => rfl

private theorem InEffect.call {env : ClientEnv} {p : Prog} (h : p.InEffect) {op : ClientOp} (ho : ClientOp.changesConfig op = false) :
    (p.call env op).InEffect := InEffect.of h rfl rfl rfl (step_config env p.client op ho)

private theorem InEffect.calls {env : ClientEnv} (l : List ClientOp) {p : Prog} (h : p.InEffect) (hl : ∀ op ∈ l, ClientOp.changesConfig op = false) :
    (l.foldl (Prog.call env) p).InEffect := by
  induction l generalizing p with
  | nil => exact h
  | cons op l ih => exact ih (InEffect.call h (hl op (List.mem_cons_self ..))) (fun o ho => hl o (List.mem_cons_of_mem _ ho))

private theorem InEffect.loseIf {env : ClientEnv} {p : Prog} (h : p.InEffect) (b : Bool) : (p.loseIf env b).InEffect := by
  unfold Prog.loseIf
  split
  · exact InEffect.call h rfl
  · exact h

private theorem update_false_config (env : ClientEnv) (fs : FileSys) (f : ConfigFile) (b : Bool) (h : (f.update env fs b).2 = false) :
    (f.update env fs b).1.config = f.config := by
  rw [ConfigFile.update] at h ⊢
  split at h
  · next hc => rw [if_pos hc]
  · next hc =>
    rw [if_neg hc]
    split at h
    · simp at h
    · rfl

private theorem sayUpdate_client (env : ClientEnv) (fs : FileSys) (p : Prog) (b : Bool) :
    (p.sayUpdate env fs b).client = p.client ∧ (p.sayUpdate env fs b).auto = p.auto ∧ (p.sayUpdate env fs b).tray = p.tray ∧
    (p.sayUpdate env fs b).settings = p.settings ∧ (p.sayUpdate env fs b).steps = p.steps := by
  unfold Prog.sayUpdate
  split
  · exact ⟨rfl, rfl, rfl, rfl, rfl⟩
  · split <;> exact ⟨rfl, rfl, rfl, rfl, rfl⟩

private theorem InEffect.auto {env : ClientEnv} {p : Prog} (h : p.InEffect) (x : Pass) (hr : (p.autoUpdateStep env x).2 = true) :
    (p.autoUpdateStep env x).1.InEffect := by
  unfold Prog.autoUpdateStep at hr ⊢
  split
  · next ha =>
    rw [if_pos ha] at hr
    simp only at hr ⊢
    split
    · next hu =>
      rw [if_pos hu] at hr
      split
      · exact options_inEffect _
      · next hc => rw [if_neg hc] at hr; simp at hr
    · next hu =>
      obtain ⟨e1, e2, e3, e4, _⟩ := sayUpdate_client env x.fs p true
      refine InEffect.of h e2 (congrArg _ e3) e4 ?_
      show ((p.sayUpdate env x.fs true).client.step env (.autoUpdate x.fs x.seenConfig)).file.config = _
      rw [e1]
      show (if (p.client.updateConfig env x.fs true).2 then ((p.client.updateConfig env x.fs true).1.sendConfig env.rx x.seenConfig).1
        else (p.client.updateConfig env x.fs true).1).file.config = _
      rw [if_neg hu]
      exact update_false_config env x.fs p.client.file true (by simpa [Client.updateConfig] using hu)
  · exact h

private theorem InEffect.menu {env : ClientEnv} {p : Prog} (h : p.InEffect) (i : MenuItem) : (p.menuStep env i).InEffect := by
  unfold Prog.menuStep
  cases i with
  | active seen =>
    simp only
    split
    · exact h
    · next t ht => exact InEffect.of h rfl (by show true = p.tray.isSome; rw [ht]; rfl) rfl (step_config env p.client (.toggleActive seen) rfl)
  | reload fs seen =>
    simp only
    split
    · exact h
    · split
      · exact options_inEffect _
      · exact h
  | nextKeyInfo =>
    simp only
    split
    · exact InEffect.call h rfl
    · exact h
  | about =>
    simp only
    split
    · exact InEffect.of h rfl rfl rfl rfl
    · exact h
  | exit =>
    simp only
    split
    · exact InEffect.of h rfl rfl rfl rfl
    · exact h
  | configuration => exact h
  | help => exact h

private theorem InEffect.menus {env : ClientEnv} (l : List MenuItem) {p : Prog} (h : p.InEffect) : (l.foldl (Prog.menuStep env) p).InEffect := by
  induction l generalizing p with
  | nil => exact h
  | cons i l ih => exact ih (InEffect.menu h i)

private theorem InEffect.pass {env : ClientEnv} {p : Prog} (h : p.InEffect) (x : Pass) (hx : ∀ e ∈ x.controls, e.setsConfig = false)
    (hr : (p.pass env x).2 = true) : (p.pass env x).1.InEffect := by
  have h1 := InEffect.auto (env := env) (InEffect.loseIf (env := env) h x.lostBeforeConfig) x
  unfold Prog.pass at hr ⊢
  generalize (p.loseIf env x.lostBeforeConfig).autoUpdateStep env x = r at h1 hr ⊢
  simp only at hr ⊢
  split
  · next hc => rw [if_pos hc] at hr; rw [hr] at hc; simp at hc
  · next hc =>
    rw [if_neg hc] at hr
    have h1 := h1 (by simpa using hc)
    have h2 : ((r.1.loseIf env x.lostBeforeContexts).contextsStep env x).1.InEffect := InEffect.call (InEffect.loseIf h1 _) (op := .updateContexts x.seen) rfl
    generalize (r.1.loseIf env x.lostBeforeContexts).contextsStep env x = r2 at h2 hr ⊢
    split
    · next hc => rw [if_pos hc] at hr; rw [hr] at hc; simp at hc
    · next hc =>
      rw [if_neg hc] at hr
      split
      · next hc => rw [if_pos hc] at hr; simp at hr
      · unfold Prog.restOfPass
        refine InEffect.menus _ (InEffect.calls _ (InEffect.calls _ (InEffect.loseIf (InEffect.calls _ h2 ?_) _) ?_) ?_)
        · intro op ho
          obtain ⟨n, _, rfl⟩ := List.mem_map.1 ho
          rfl
        · intro op ho
          obtain ⟨n, _, rfl⟩ := List.mem_map.1 ho
          rfl
        · intro op ho
          obtain ⟨e, he, rfl⟩ := List.mem_map.1 ho
          have := hx e he
          cases e with
          | closed n => rfl
          | message fs seen n m => cases m <;> first | rfl | (simp [ControlEvent.setsConfig] at this)

private theorem InEffect.loop {env : ClientEnv} (l : List Pass) {p : Prog} (h : p.InEffect) (hl : ∀ x ∈ l, ∀ e ∈ x.controls, e.setsConfig = false)
    (hr : (p.mainLoop env l).2 = false) : (p.mainLoop env l).1.InEffect := by
  induction l generalizing p with
  | nil => exact h
  | cons x l ih =>
    rw [Prog.mainLoop] at hr ⊢
    split
    · next hs => rw [if_pos hs] at hr; simp at hr
    · next hs =>
      rw [if_neg hs] at hr
      simp only at hr ⊢
      split
      · next hp =>
        rw [if_pos hp] at hr
        exact ih (InEffect.pass h x (hl x (List.mem_cons_self ..)) hp) (fun y hy => hl y (List.mem_cons_of_mem _ hy)) hr
      · next hp => rw [if_neg hp] at hr; simp at hr

private theorem InEffect.connections {env : ClientEnv} (l : List Session) {p : Prog} (hn : p.client.isConnected = false) (hl : NoSetConfig l)
    (hr : (p.connectionLoop env l).2 = none) (hc : (p.connectionLoop env l).1.client.isConnected = true) : (p.connectionLoop env l).1.InEffect := by
  induction l generalizing p with
  | nil => exact absurd hc (by show ¬ p.client.isConnected = true; simp [hn])
  | cons x l ih =>
    rw [Prog.connectionLoop] at hr hc ⊢
    split
    · next h => rw [if_pos h] at hr; simp at hr
    · next h =>
      rw [if_neg h] at hr hc
      split
      · next h => rw [if_pos h] at hr; simp at hr
      · next h =>
        rw [if_neg h] at hr hc
        split
        · next h => rw [if_pos h] at hr; simp at hr
        · next h =>
          rw [if_neg h] at hr hc
          simp only at hr hc ⊢
          split
          · next h =>
            rw [if_pos h] at hr hc
            exact ih rfl (fun y hy => hl y (List.mem_cons_of_mem _ hy)) hr hc
          · next h =>
            exact InEffect.loop x.passes (options_inEffect _) (hl x (List.mem_cons_self ..)) (by simpa using h)

/-- **C86** While the client is connected, the options in effect are the ones of the command line and of the current configuration (C86_options), unless the
configuration was set by `keymapperctl`. -/
theorem C86_options_in_effect {env : ClientEnv} {y : ProgSys} {fs : FileSys} {args : List Str} {sessions : List Session} {s : ClientSettings} {p : Prog}
    (hs : interpretClientArgs {} args = some s) (hn : NoSetConfig sessions) (hr : clientMain env y fs args sessions = (p, none))
    (hc : p.client.isConnected = true) :
    p.auto = (applyConfigOptions s p.client.file.config).update ∧
    p.tray.isSome = !(applyConfigOptions s p.client.file.config).noTray := by
  cases hk : s.check with
  | true =>
    unfold clientMain at hr
    rw [hs] at hr
    simp only [hk, if_pos] at hr
    split at hr <;> simp at hr
  | false =>
    have hset : p.settings = resolvedSettings y s := by rw [← (main_run (env := env) (y := y) (fs := fs) (sessions := sessions) hs).1, hr]
    rcases main_loop (env := env) (y := y) (fs := fs) hs hk with ⟨q, hq⟩ | ⟨q, _, _, h2, _, _, hq⟩
    · rw [(hq sessions).1] at hr
      simp at hr
    · have h0 : q.client.isConnected = false := by rw [h2]; exact (start_flags env fs _).2
      rw [hq] at hr
      have := InEffect.connections (env := env) sessions h0 hn (by rw [hr]) (by rw [hr]; exact hc)
      rw [hr] at this
      unfold Prog.InEffect at this
      rw [hset] at this
      have same : ∀ (a b : ClientSettings) (c : Config), a.update = b.update → a.noTray = b.noTray →
          (applyConfigOptions a c).update = (applyConfigOptions b c).update ∧ (applyConfigOptions a c).noTray = (applyConfigOptions b c).noTray := by
        intro a b c h1 h2
        obtain ⟨a1, _, a2, _⟩ := C86_options a c
        obtain ⟨b1, _, b2, _⟩ := C86_options b c
        constructor
        · rw [Bool.eq_iff_iff, a1, b1, h1]
        · rw [Bool.eq_iff_iff, a2, b2, h2]
      obtain ⟨s1, s2⟩ := same (resolvedSettings y s) s p.client.file.config rfl rfl
      rw [s1, s2] at this
      exact this

/-- How often the configuration was updated automatically, if it was modified -/
private def autoCount (p : Prog) : Nat := p.steps.countP ClientOp.isAutoUpdate

private theorem autoCount_call (env : ClientEnv) (p : Prog) {op : ClientOp} (h : op.isAutoUpdate = false) : autoCount (p.call env op) = autoCount p := by
  show (p.steps ++ [op]).countP ClientOp.isAutoUpdate = _
  rw [List.countP_append, List.countP_singleton, h]
  rfl

private theorem autoCount_calls (env : ClientEnv) (l : List ClientOp) (p : Prog) (h : ∀ op ∈ l, op.isAutoUpdate = false) :
    autoCount (l.foldl (Prog.call env) p) = autoCount p := by
  induction l generalizing p with
  | nil => rfl
  | cons op l ih =>
    rw [List.foldl_cons, ih _ (fun o ho => h o (List.mem_cons_of_mem _ ho)), autoCount_call env p (h op (List.mem_cons_self ..))]

private theorem autoCount_loseIf (env : ClientEnv) (p : Prog) (b : Bool) : autoCount (p.loseIf env b) = autoCount p := by
  unfold Prog.loseIf
  split
  · exact autoCount_call env p rfl
  · rfl

private theorem autoCount_menu (env : ClientEnv) (p : Prog) (i : MenuItem) : autoCount (p.menuStep env i) = autoCount p := by
  unfold Prog.menuStep
  cases i with
  | active seen =>
    simp only
    split
    · rfl
    · exact autoCount_call env { p with tray := _ } (op := .toggleActive seen) rfl
  | reload fs seen =>
    simp only
    split
    · rfl
    · split
      · obtain ⟨_, _, _, _, e5⟩ := sayUpdate_client env fs p false
        have : autoCount ((p.sayUpdate env fs false).call env (.reload fs seen)) = autoCount p := by
          rw [autoCount_call env _ rfl]
          unfold autoCount
          rw [e5]
        refine Eq.trans ?_ this
        show autoCount (if _ then _ else _) = _
        split <;> rfl
      · rfl
  | nextKeyInfo =>
    simp only
    split
    · exact autoCount_call env p rfl
    · rfl
  | about => simp only; split <;> rfl
  | exit => simp only; split <;> rfl
  | configuration => rfl
  | help => rfl

private theorem autoCount_menus (env : ClientEnv) (l : List MenuItem) (p : Prog) : autoCount (l.foldl (Prog.menuStep env) p) = autoCount p := by
  induction l generalizing p with
  | nil => rfl
  | cons i l ih => rw [List.foldl_cons, ih, autoCount_menu]

private theorem autoCount_auto (env : ClientEnv) (p : Prog) (x : Pass) :
    autoCount (p.autoUpdateStep env x).1 = autoCount p + (if p.auto then 1 else 0) := by
  unfold Prog.autoUpdateStep
  split
  · obtain ⟨_, _, _, _, e5⟩ := sayUpdate_client env x.fs p true
    have : autoCount ((p.sayUpdate env x.fs true).call env (.autoUpdate x.fs x.seenConfig)) = autoCount p + 1 := by
      show ((p.sayUpdate env x.fs true).steps ++ [ClientOp.autoUpdate x.fs x.seenConfig]).countP ClientOp.isAutoUpdate = _
      rw [List.countP_append, List.countP_singleton, e5]
      rfl
    simp only
    split
    · split <;> exact this
    · exact this
  · rfl

private theorem loseIf_auto (env : ClientEnv) (p : Prog) (b : Bool) : (p.loseIf env b).auto = p.auto := by
  unfold Prog.loseIf; split <;> rfl

private theorem autoCount_pass (env : ClientEnv) (p : Prog) (x : Pass) : autoCount (p.pass env x).1 = autoCount p + (if p.auto then 1 else 0) := by
  have h1 : autoCount ((p.loseIf env x.lostBeforeConfig).autoUpdateStep env x).1 = autoCount p + (if p.auto then 1 else 0) := by
    rw [autoCount_auto, autoCount_loseIf, loseIf_auto]
  unfold Prog.pass
  generalize (p.loseIf env x.lostBeforeConfig).autoUpdateStep env x = r at h1 ⊢
  simp only
  split
  · exact h1
  · have h2 : autoCount ((r.1.loseIf env x.lostBeforeContexts).contextsStep env x).1 = autoCount r.1 := by
      rw [← autoCount_loseIf env r.1 x.lostBeforeContexts]
      exact autoCount_call env _ (op := .updateContexts x.seen) rfl
    rw [h1] at h2
    generalize (r.1.loseIf env x.lostBeforeContexts).contextsStep env x = r2 at h2 ⊢
    split
    · exact h2
    · have h3 : autoCount (((x.messages.map ClientOp.server).foldl (Prog.call env) r2.1).loseIf env x.lostReading) = autoCount r2.1 := by
        rw [autoCount_loseIf, autoCount_calls]
        intro op ho
        obtain ⟨n, _, rfl⟩ := List.mem_map.1 ho
        rfl
      rw [h2] at h3
      split
      · exact h3
      · unfold Prog.restOfPass
        rw [autoCount_menus, autoCount_calls, autoCount_calls, h3]
        · intro op ho
          obtain ⟨n, _, rfl⟩ := List.mem_map.1 ho
          rfl
        · intro op ho
          obtain ⟨e, _, rfl⟩ := List.mem_map.1 ho
          cases e <;> rfl

/-- **C86** Whether the program looks for a modification of the configuration, once in each pass of its loop, is decided by the options of the command line
and of the configuration. -/
theorem C86_auto_update {env : ClientEnv} {y : ProgSys} {fs : FileSys} {args : List Str} {sessions : List Session} {s : ClientSettings} {p : Prog}
    (hs : interpretClientArgs {} args = some s) (hn : NoSetConfig sessions) (hr : clientMain env y fs args sessions = (p, none))
    (hc : p.client.isConnected = true) (x : Pass) :
    (p.pass env x).1.steps.countP ClientOp.isAutoUpdate =
      p.steps.countP ClientOp.isAutoUpdate + (if (applyConfigOptions s p.client.file.config).update then 1 else 0) := by
  rw [← (C86_options_in_effect hs hn hr hc).1]
  exact autoCount_pass env p x

namespace ProgramExample

/-- The files of the examples -/
def files : FileSys := listFs [("/a", "A >> B\n", 5), ("/b", "@options update no-notify\nA >> X\n", 6), ("/c", "A >> \nno", 7)]

/-- The modified files -/
def modified : FileSys := listFs [("/a", "A >> B\n", 5), ("/b", "A >> Y\n", 8)]

/-- The system of the examples -/
def sys : ProgSys := { home := some "/home/me".toList, fileExists := fun _ => false, absolute := fun f => '/' :: f }

/-- The first of the configurations -/
def a : List Str := ["-c".toList, "a".toList]

/-- The second of the configurations -/
def b : List Str := ["-c".toList, "b".toList]

/-- One connection, in which the configuration is modified -/
def sessions : List Session := [{ passes := [{ fs := files }, { fs := modified, messages := [.executeAction 0] }, { fs := modified }] }]

end ProgramExample

open ProgramExample in
/-- `C86_options_in_effect`, `C86_auto_update`, `C86_history` -/
example : interpretClientArgs {} b = some { path := "b".toList } ∧
    (clientMain exEnv sys files b sessions).2 = none ∧ (clientMain exEnv sys files b sessions).1.client.isConnected = true ∧
    (clientMain exEnv sys files b sessions).1.auto = false ∧ (clientMain exEnv sys files b (sessions.map (fun x => { x with passes := x.passes.take 1 }))).1.auto = true ∧
    (clientMain exEnv sys files b sessions).1.steps.countP ClientOp.isAutoUpdate = 2 ∧
    (clientMain exEnv sys files b sessions).1.shown = [.printed .configUpdated, .notification .configUpdated] := by decide +kernel

open ProgramExample in
example : NoSetConfig sessions := by simp [NoSetConfig, sessions]

open ProgramExample in
/-- `C86_check`, `C86_start` -/
example : (clientMain exEnv sys files ["--check".toList, "-c".toList, "c".toList] []).2 = some 1 ∧
    (clientMain exEnv sys files ["--check".toList, "-c".toList, "b".toList] []).2 = some 0 ∧
    (clientMain exEnv sys files ["--no-tray".toList, "-c".toList, "c".toList] [{}]).2 = some 1 ∧
    (clientMain exEnv sys files ["-c".toList, "c".toList] [{}]).2 = none ∧
    (clientMain exEnv sys files ["-c".toList, "c".toList] [{ connects := false }]).2 = some 1 := by decide +kernel

open ProgramExample in
/-- `C86_exit` -/
example : (clientMain exEnv sys files a [{ passes := [{ fs := files, menu := [.active none, .exit] }] }]).2 = some 0 ∧
    ExitChosen [{ passes := [{ fs := files, menu := [.active none, .exit] }] }] := by
  refine ⟨by decide +kernel, ?_⟩
  exact ⟨_, List.mem_cons_self .., _, List.mem_cons_self .., .exit, by simp, rfl⟩

open ProgramExample in
/-- `C86_no_notify_counterexample`: the option is given -/
example : interpretClientArgs {} ("--no-notify".toList :: "--check".toList :: b) = some { path := "b".toList, check := true, noNotify := true } ∧
    (clientMain exEnv sys files ("--no-notify".toList :: "--check".toList :: b) []).1.shown = [.printed .configValid, .notification .configValid] := by
  decide +kernel

open ProgramExample in
/-- **C86** `C86_options_in_effect` does not hold when the configuration is set by `keymapperctl`: its options (here to update automatically) are ignored until the
configuration is reloaded or the connection is established again. -/
theorem C86_set_config_counterexample :
    let r := clientMain exEnv sys files a [{ passes := [{ fs := files, accepted := some 1, controls := [.message files none 1 (.setConfigFile "/b".toList)] }] }]
    r.2 = none ∧ r.1.client.isConnected = true ∧ r.1.client.file.config.options = ["update".toList, "no-notify".toList] ∧ r.1.auto = false := by decide +kernel

open ProgramExample in
/-- **C86** The menu does not always show the state: after the connection was lost and established again the item "Active" is checked, although the
client is still inactive. -/
theorem C86_active_item_counterexample :
    let r := clientMain exEnv sys files a [{ passes := [{ fs := files, menu := [.active none] }, { fs := files, lostReading := true }] }, {}]
    r.1.client.isConnected = true ∧ r.1.client.active = false ∧ r.1.tray = some { reload := true, checked := true } := by decide +kernel

open ProgramExample in
/-- **C86** The item "Reload" is not added to a menu which is already shown: when a configuration which was updated automatically no longer contains this option, then there is
no way to update it by the menu. -/
theorem C86_reload_item_counterexample :
    let r := clientMain exEnv sys files b sessions
    r.1.client.isConnected = true ∧ r.1.auto = false ∧ r.1.tray = some { reload := false } := by decide +kernel

end KM
