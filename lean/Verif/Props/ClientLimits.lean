import Verif.Props.ClientConfig
/-!
# Examples and counterexamples for the configuration of the client
-/
namespace KM

/-- Some files: their names, contents and modification times -/
def listFs (l : List (String × String × Int)) : FileSys where
  mtime n := ((l.find? (fun x => x.1.toList == n)).map (·.2.2)).getD 0
  content n := if n = [] then none else (l.find? (fun x => x.1.toList == n)).map (·.2.1.toList)
  resolve _ n := n
  noName := by simp

/-- The environment of the examples -/
def exEnv : ClientEnv := ⟨genericTyper, fun _ => true, fun _ _ => false⟩

/-- A configuration with two contexts for windows, and one with a single context -/
def exFs : FileSys := listFs
  [("a", "A >> B\n\n[class='x']\nB >> $(run)\n\n[title='y']\nC >> D\n", 5), ("b", "A >> X\n", 6)]

/-- A window -/
def exWindow : Window := { cls := "x".toList, title := "an yes".toList }

/-- `C60_follows_focus`, `C61_executed`: the window is seen before the connection is lost and established again;
two contexts are active. -/
def exOps : List ClientOp :=
  [.connect none, .updateContexts (some exWindow), .lost, .disconnected, .connect none]

example : ClientActive [.connect none] ∧ connectedAfter exOps = true ∧
    (serverView ((Client.start exEnv exFs "a".toList).run exEnv exOps).out).active = [0, 1, 2] ∧
    executed ((Client.start exEnv exFs "a".toList).run exEnv (exOps ++ [.server (.executeAction 0)])).out =
      ["run".toList] := by decide +kernel

/-- `C60_inactive` -/
example : ¬ ClientActive (exOps ++ [.toggleActive none]) ∧ connectedAfter (exOps ++ [.toggleActive none]) = true ∧
    (serverView ((Client.start exEnv exFs "a".toList).run exEnv (exOps ++ [.toggleActive none])).out).active = []
    := by decide +kernel

/-! ## Switching back fails -/

/-- The configuration `a` is set, then `b` again, then `a` is no longer there. -/
def exSwitchOps : List ClientOp :=
  [.connect none, .accept 1, .control exFs none 1 (.setConfigFile "a".toList),
   .control exFs none 1 (.setConfigFile "b".toList), .control (listFs []) none 1 (.setConfigFile "a".toList)]

/-- **C60**, **C61** do not hold without the hypothesis `NoSwitchFails`: setting a configuration which was used
before, while its file cannot be read any more, fails, but the client then uses the contexts and the commands
of this configuration, while the server has the other one. It is told about active contexts which it does not
have, and commands are executed which its configuration does not contain. -/
theorem C60_switch_counterexample : ∃ (env : ClientEnv) (fs : FileSys) (filename : Str) (ops : List ClientOp),
    connectedAfter ops = true ∧
    ((Client.start env fs filename).run env ops).control.controls.length = 1 ∧
    repliesTo 1 ((Client.start env fs filename).run env ops).out =
      [.keyState Key.none .Down, .keyState Key.none .Down, .keyState Key.none .Up] ∧
    ((serverView ((Client.start env fs filename).run env ops).out).config.any
      (fun config => config.contexts.length == 1 && config.actions.length == 0)) = true ∧
    (serverView ((Client.start env fs filename).run env (ops ++ [.updateContexts (some exWindow)])).out).active =
      [0, 1, 2] ∧
    executed ((Client.start env fs filename).run env (ops ++ [.server (.executeAction 0)])).out = ["run".toList] :=
  ⟨exEnv, exFs, "b".toList, exSwitchOps, by decide +kernel⟩

/-- `C46_keeps`, `C46_set_config`, `C46_reload`: `a` can be read, `b` is not valid. -/
example : connectedAfter [.connect none, .accept 1] = true ∧
    ((Client.start exEnv exFs "a".toList).run exEnv [.connect none, .accept 1]).isConnected = true ∧
    ((Client.start exEnv exFs "a".toList).run exEnv [.connect none, .accept 1]).control.controls.any
      (fun x => x.socket == 1) = true ∧
    (readConfigFile exEnv exFs "a".toList).isSome = true ∧
    readConfigFile exEnv (listFs [("b", "A >> \nno", 1)]) "b".toList = none ∧
    exFs.mtime "a".toList ≠ -1 := by decide +kernel

/-! ## Modifications which are not detected -/

/-- A configuration which includes another one -/
def exIncluding : FileSys := listFs [("a", "@include 'i'\n", 10), ("i", "A >> B\n", 5)]
/-- The included file is modified, but it is older than the other one -/
def exIncluding2 : FileSys := listFs [("a", "@include 'i'\n", 10), ("i", "A >> X\n", 8)]

/-- **C62** is not true of a file which is replaced by one which is newer, but older than another file of the
configuration: the automatic update does nothing. -/
theorem C62_older_counterexample : ∃ (env : ClientEnv) (fs1 fs2 : FileSys) (filename inc : Str),
    fs1.mtime inc < fs2.mtime inc ∧
    ((Client.start env fs1 filename).run env [.connect none, .autoUpdate fs2 none]).file.config.includes = [inc] ∧
    (readConfigFile env fs2 filename).isSome = true ∧
    ((Client.start env fs1 filename).run env [.connect none, .autoUpdate fs2 none]).file.config ≠
      (readConfigFile env fs2 filename).getD {} :=
  ⟨exEnv, exIncluding, exIncluding2, "a".toList, "i".toList, by decide +kernel⟩

/-- A valid configuration -/
def exBroken0 : FileSys := listFs [("a", "A >> B\n", 5)]
/-- It includes another one, which is not valid -/
def exBroken1 : FileSys := listFs [("a", "@include 'i'\n", 10), ("i", "A >> \nno", 11)]
/-- The included one is corrected -/
def exBroken2 : FileSys := listFs [("a", "@include 'i'\n", 10), ("i", "A >> X\n", 20)]

/-- **C62** is not true of the files of a configuration which was not valid: a configuration includes a new file
which is not valid, correcting this file is not detected, although it is newer than everything else. -/
theorem C62_invalid_counterexample : ∃ (env : ClientEnv) (fs0 fs1 fs2 : FileSys) (filename inc : Str),
    readConfigFile env fs1 filename = none ∧
    (readConfigFile env fs2 filename).any (fun config => config.includes == [inc]) = true ∧
    fs1.mtime inc < fs2.mtime inc ∧ fs1.mtime filename < fs2.mtime inc ∧
    ((Client.start env fs0 filename).run env
      [.connect none, .autoUpdate fs1 none, .autoUpdate fs2 none]).file.config ≠
      (readConfigFile env fs2 filename).getD {} :=
  ⟨exEnv, exBroken0, exBroken1, exBroken2, "a".toList, "i".toList, by decide +kernel⟩

/-- `C62_detected`: the included file is modified after the configuration was read. -/
example : (fun fs2 : FileSys =>
    ((Client.start exEnv exIncluding "a".toList).run exEnv [.connect none]).isConnected = true ∧
    (readConfigFile exEnv fs2 "a".toList).isSome = true ∧ fs2.mtime "a".toList ≠ 0 ∧
    "i".toList ∈ configFiles fs2 (((Client.start exEnv exIncluding "a".toList).run exEnv [.connect none]).file.update
      exEnv exIncluding true).1 ∧
    ∀ m ∈ configFiles exIncluding ((Client.start exEnv exIncluding "a".toList).run exEnv [.connect none]).file,
      exIncluding.mtime m < fs2.mtime "i".toList)
    (listFs [("a", "@include 'i'\n", 10), ("i", "A >> X\n", 12)]) := by decide +kernel

end KM
