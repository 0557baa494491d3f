import Verif.Spec.Control
/-!
# The command line of `keymapperctl`

**C67** The requests are those of the options, in their order.
-/
namespace KM

theorem readSequence_words (words l : List Str) (hw : ∀ w ∈ words, w.head? ≠ some '-')
    (hl : ∀ a, l.head? = some a → a.head? = some '-') :
    readSequence (words ++ l) = (words.flatMap (· ++ [' ']), l) := by
  induction words with
  | nil =>
    cases l with
    | nil => rfl
    | cons a l =>
      rw [List.nil_append, readSequence, if_pos (hl a rfl)]
      rfl
  | cons w words ih =>
    have := ih (fun x hx => hw x (List.mem_cons_of_mem _ hx))
    rw [List.cons_append, readSequence, if_neg (hw w List.mem_cons_self), this]
    rfl

theorem keyOptionName_dash (t : ReqType) (h : (keyOptionName t).isSome = true) :
    ((keyOptionName t).getD "").toList.head? = some '-' := by
  revert h
  cases t <;> decide

theorem args_dash (o : CtlOption) (hv : o.Valid) : ∃ a l, o.args = a :: l ∧ a.head? = some '-' := by
  cases o with
  | key t name => exact ⟨_, _, rfl, keyOptionName_dash t hv⟩
  | _ => exact ⟨_, _, rfl, rfl⟩

theorem opts_dash (opts : List CtlOption) (hv : ∀ o ∈ opts, o.Valid) :
    ∀ a, (opts.flatMap CtlOption.args).head? = some a → a.head? = some '-' := by
  intro a ha
  cases opts with
  | nil => cases ha
  | cons o opts =>
    obtain ⟨b, l, hb, hd⟩ := args_dash o (hv o List.mem_cons_self)
    rw [List.flatMap_cons, hb] at ha
    cases ha
    exact hd

theorem keyRequest_name (t : ReqType) (h : (keyOptionName t).isSome = true) :
    keyRequest ((keyOptionName t).getD "").toList = some t := by
  revert h
  cases t <;> decide

theorem keyOption_other (t : ReqType) (h : (keyOptionName t).isSome = true) :
    ∀ a ∈ ["--timeout", "--instance", "--wait", "--stdout", "--restart", "--next-key-info", "--set-config", "--input",
      "--output", "--type"], ((keyOptionName t).getD "").toList ≠ a.toList := by
  revert h
  cases t <;> decide

theorem parseArgs_cons (timeout : Option Int) (a : Str) (l : List Str) : parseArgs timeout (a :: l) =
    if a = "--timeout".toList then
      match l with
      | [] => none
      | n :: l => parseArgs (limitTimeout (atoi n)) l
    else if a = "--instance".toList then
      match l with
      | [] => none
      | id :: l => (parseArgs timeout l).map (⟨.setInstanceId, id, none⟩ :: ·)
    else if a = "--wait".toList then
      match l with
      | [] => none
      | n :: l => (parseArgs (some (atoi n)) l).map (⟨.wait, [], some (atoi n)⟩ :: ·)
    else if a = "--stdout".toList then (parseArgs timeout l).map (⟨.stdoutResult, [], none⟩ :: ·)
    else if a = "--restart".toList then (parseArgs timeout l).map (⟨.restart, [], timeout⟩ :: ·)
    else if a = "--next-key-info".toList then (parseArgs timeout l).map (⟨.nextKeyInfo, [], timeout⟩ :: ·)
    else if a = "--set-config".toList then
      match l with
      | [] => none
      | f :: l => (parseArgs timeout l).map (⟨.setConfigFile, f, timeout⟩ :: ·)
    else if a = "--input".toList then
      (parseArgs timeout (readSequence l).2).map (⟨.injectInput, (readSequence l).1, timeout⟩ :: ·)
    else if a = "--output".toList then
      (parseArgs timeout (readSequence l).2).map (⟨.injectOutput, (readSequence l).1, timeout⟩ :: ·)
    else if a = "--type".toList then
      match l with
      | [] => none
      | s :: l => (parseArgs timeout l).map (⟨.typeString, s, timeout⟩ :: ·)
    else
      match keyRequest a with
      | none => none
      | some t =>
        match l with
        | [] => none
        | s :: l => (parseArgs timeout l).map (⟨t, s, timeout⟩ :: ·) := by
  rw [parseArgs.eq_def]
  cases l <;> dsimp only <;> cases keyRequest a <;> rfl

theorem parseArgs_options (opts : List CtlOption) (hv : ∀ o ∈ opts, o.Valid) (timeout : Option Int) :
    parseArgs timeout (opts.flatMap CtlOption.args) = some (optionRequests timeout opts) := by
  induction opts generalizing timeout with
  | nil => rw [List.flatMap_nil, parseArgs.eq_def]; rfl
  | cons o opts ih =>
    have hv2 : ∀ o ∈ opts, o.Valid := fun x hx => hv x (List.mem_cons_of_mem _ hx)
    have ho := hv o List.mem_cons_self
    have ih := fun t => ih hv2 t
    have hdash := opts_dash opts hv2
    rw [List.flatMap_cons, optionRequests]
    generalize opts.flatMap CtlOption.args = rest at ih hdash
    cases o with
    | timeout n =>
      show parseArgs timeout ("--timeout".toList :: n :: rest) = _
      rw [parseArgs_cons, if_pos rfl]
      try dsimp only
      rw [ih]
      show some (optionRequests (if _ then _ else _) opts) = some (optionRequests (if _ then _ else _) opts)
      congr 2
      by_cases h1 : atoi n < 0 ∨ atoi n > 86400000
      · rw [if_pos h1, if_neg (by omega)]
      · rw [if_neg h1, if_pos (by omega)]
    | «instance» id =>
      show parseArgs timeout ("--instance".toList :: id :: rest) = _
      rw [parseArgs_cons, if_neg (by decide), if_pos rfl]
      try dsimp only
      rw [ih]; rfl
    | wait n =>
      show parseArgs timeout ("--wait".toList :: n :: rest) = _
      rw [parseArgs_cons, if_neg (by decide), if_neg (by decide), if_pos rfl]
      try dsimp only
      rw [ih]; rfl
    | stdout =>
      show parseArgs timeout ("--stdout".toList :: rest) = _
      rw [parseArgs_cons, if_neg (by decide), if_neg (by decide), if_neg (by decide), if_pos rfl]
      try dsimp only
      rw [ih]; rfl
    | restart =>
      show parseArgs timeout ("--restart".toList :: rest) = _
      rw [parseArgs_cons, if_neg (by decide), if_neg (by decide), if_neg (by decide), if_neg (by decide), if_pos rfl]
      try dsimp only
      rw [ih]; rfl
    | nextKeyInfo =>
      show parseArgs timeout ("--next-key-info".toList :: rest) = _
      rw [parseArgs_cons, if_neg (by decide), if_neg (by decide), if_neg (by decide), if_neg (by decide), if_neg (by decide),
        if_pos rfl]
      try dsimp only
      rw [ih]; rfl
    | setConfig f =>
      show parseArgs timeout ("--set-config".toList :: f :: rest) = _
      rw [parseArgs_cons, if_neg (by decide), if_neg (by decide), if_neg (by decide), if_neg (by decide), if_neg (by decide),
        if_neg (by decide), if_pos rfl]
      try dsimp only
      rw [ih]; rfl
    | input words =>
      show parseArgs timeout ("--input".toList :: (words ++ rest)) = _
      rw [parseArgs_cons, if_neg (by decide), if_neg (by decide), if_neg (by decide), if_neg (by decide), if_neg (by decide),
        if_neg (by decide), if_neg (by decide), if_pos rfl, readSequence_words words rest ho hdash]
      try dsimp only
      rw [ih]; rfl
    | output words =>
      show parseArgs timeout ("--output".toList :: (words ++ rest)) = _
      rw [parseArgs_cons, if_neg (by decide), if_neg (by decide), if_neg (by decide), if_neg (by decide), if_neg (by decide),
        if_neg (by decide), if_neg (by decide), if_neg (by decide), if_pos rfl, readSequence_words words rest ho hdash]
      try dsimp only
      rw [ih]
      rfl
    | type s =>
      show parseArgs timeout ("--type".toList :: s :: rest) = _
      rw [parseArgs_cons, if_neg (by decide), if_neg (by decide), if_neg (by decide), if_neg (by decide), if_neg (by decide),
        if_neg (by decide), if_neg (by decide), if_neg (by decide), if_neg (by decide), if_pos rfl]
      try dsimp only
      rw [ih]
      rfl
    | key t name =>
      show parseArgs timeout (((keyOptionName t).getD "").toList :: name :: rest) = _
      have hk := keyRequest_name t ho
      have hne := keyOption_other t ho
      rw [parseArgs_cons, hk, if_neg (hne "--timeout" (by simp)), if_neg (hne "--instance" (by simp)),
        if_neg (hne "--wait" (by simp)), if_neg (hne "--stdout" (by simp)), if_neg (hne "--restart" (by simp)),
        if_neg (hne "--next-key-info" (by simp)), if_neg (hne "--set-config" (by simp)), if_neg (hne "--input" (by simp)),
        if_neg (hne "--output" (by simp)), if_neg (hne "--type" (by simp))]
      simp only [ih]
      rfl

/-- **C67** The requests of a command line are those of its options, in their order; each one with the timeout which was
set last. -/
theorem C67_options (opts : List CtlOption) (hv : ∀ o ∈ opts, o.Valid) (hne : optionRequests none opts ≠ []) :
    interpretCommandline (opts.flatMap CtlOption.args) = some (optionRequests none opts) := by
  rw [interpretCommandline, parseArgs_options opts hv]
  cases h : optionRequests none opts with
  | nil => exact absurd h hne
  | cons r l => rfl

/-- **C67** (rejected): a command line which begins with valid options is rejected when they are followed by a word which
is no option. -/
theorem C67_rejected (opts : List CtlOption) (hv : ∀ o ∈ opts, o.Valid) (a : Str) (l : List Str)
    (hdash : a.head? = some '-')
    (hs : a ∉ ["--timeout", "--instance", "--wait", "--stdout", "--restart", "--next-key-info", "--set-config", "--input",
      "--output", "--type"].map String.toList)
    (hk : ∀ t name, keyOptionName t = some name → a ≠ name.toList) :
    interpretCommandline (opts.flatMap CtlOption.args ++ a :: l) = none := by
  suffices h : ∀ timeout, parseArgs timeout (opts.flatMap CtlOption.args ++ a :: l) = none by
    rw [interpretCommandline, h]
  simp only [List.map_cons, List.map_nil, List.mem_cons, not_or, List.not_mem_nil, not_false_eq_true, and_true] at hs
  obtain ⟨h1, h2, h3, h4, h5, h6, h7, h8, h9, h10⟩ := hs
  have hkr : keyRequest a = none := by
    rw [keyRequest, if_neg (hk .press _ rfl), if_neg (hk .release _ rfl), if_neg (hk .toggle _ rfl),
      if_neg (hk .isPressed _ rfl), if_neg (hk .isReleased _ rfl), if_neg (hk .waitPressed _ rfl),
      if_neg (hk .waitReleased _ rfl), if_neg (hk .waitToggled _ rfl)]
  induction opts with
  | nil =>
    intro timeout
    rw [List.flatMap_nil, List.nil_append, parseArgs_cons, if_neg h1, if_neg h2, if_neg h3, if_neg h4, if_neg h5, if_neg h6,
      if_neg h7, if_neg h8, if_neg h9, if_neg h10, hkr]
  | cons o opts ih =>
    have hv2 : ∀ o ∈ opts, o.Valid := fun x hx => hv x (List.mem_cons_of_mem _ hx)
    have ho := hv o List.mem_cons_self
    have ih := ih hv2
    have hd : ∀ b, (opts.flatMap CtlOption.args ++ a :: l).head? = some b → b.head? = some '-' := by
      intro b hb
      cases hf : opts.flatMap CtlOption.args with
      | nil => rw [hf] at hb; cases hb; exact hdash
      | cons x xs =>
        rw [hf] at hb
        cases hb
        exact opts_dash opts hv2 _ (by rw [hf]; rfl)
    intro timeout
    rw [List.flatMap_cons, List.append_assoc]
    generalize opts.flatMap CtlOption.args ++ a :: l = rest at ih hd
    cases o with
    | timeout n =>
      show parseArgs timeout ("--timeout".toList :: n :: rest) = _
      rw [parseArgs_cons, if_pos rfl]
      try dsimp only
      rw [ih]
    | «instance» id =>
      show parseArgs timeout ("--instance".toList :: id :: rest) = _
      rw [parseArgs_cons, if_neg (by decide), if_pos rfl]
      try dsimp only
      rw [ih]; rfl
    | wait n =>
      show parseArgs timeout ("--wait".toList :: n :: rest) = _
      rw [parseArgs_cons, if_neg (by decide), if_neg (by decide), if_pos rfl]
      try dsimp only
      rw [ih]; rfl
    | stdout =>
      show parseArgs timeout ("--stdout".toList :: rest) = _
      rw [parseArgs_cons, if_neg (by decide), if_neg (by decide), if_neg (by decide), if_pos rfl]
      try dsimp only
      rw [ih]; rfl
    | restart =>
      show parseArgs timeout ("--restart".toList :: rest) = _
      rw [parseArgs_cons, if_neg (by decide), if_neg (by decide), if_neg (by decide), if_neg (by decide), if_pos rfl]
      try dsimp only
      rw [ih]; rfl
    | nextKeyInfo =>
      show parseArgs timeout ("--next-key-info".toList :: rest) = _
      rw [parseArgs_cons, if_neg (by decide), if_neg (by decide), if_neg (by decide), if_neg (by decide), if_neg (by decide),
        if_pos rfl]
      try dsimp only
      rw [ih]; rfl
    | setConfig f =>
      show parseArgs timeout ("--set-config".toList :: f :: rest) = _
      rw [parseArgs_cons, if_neg (by decide), if_neg (by decide), if_neg (by decide), if_neg (by decide), if_neg (by decide),
        if_neg (by decide), if_pos rfl]
      try dsimp only
      rw [ih]; rfl
    | input words =>
      show parseArgs timeout ("--input".toList :: (words ++ rest)) = _
      rw [parseArgs_cons, if_neg (by decide), if_neg (by decide), if_neg (by decide), if_neg (by decide), if_neg (by decide),
        if_neg (by decide), if_neg (by decide), if_pos rfl, readSequence_words words rest ho hd]
      try dsimp only
      rw [ih]; rfl
    | output words =>
      show parseArgs timeout ("--output".toList :: (words ++ rest)) = _
      rw [parseArgs_cons, if_neg (by decide), if_neg (by decide), if_neg (by decide), if_neg (by decide), if_neg (by decide),
        if_neg (by decide), if_neg (by decide), if_neg (by decide), if_pos rfl, readSequence_words words rest ho hd]
      try dsimp only
      rw [ih]
      rfl
    | type s =>
      show parseArgs timeout ("--type".toList :: s :: rest) = _
      rw [parseArgs_cons, if_neg (by decide), if_neg (by decide), if_neg (by decide), if_neg (by decide), if_neg (by decide),
        if_neg (by decide), if_neg (by decide), if_neg (by decide), if_neg (by decide), if_pos rfl]
      try dsimp only
      rw [ih]
      rfl
    | key t name =>
      show parseArgs timeout (((keyOptionName t).getD "").toList :: name :: rest) = _
      have hk := keyRequest_name t ho
      have hne := keyOption_other t ho
      rw [parseArgs_cons, hk, if_neg (hne "--timeout" (by simp)), if_neg (hne "--instance" (by simp)),
        if_neg (hne "--wait" (by simp)), if_neg (hne "--stdout" (by simp)), if_neg (hne "--restart" (by simp)),
        if_neg (hne "--next-key-info" (by simp)), if_neg (hne "--set-config" (by simp)), if_neg (hne "--input" (by simp)),
        if_neg (hne "--output" (by simp)), if_neg (hne "--type" (by simp))]
      simp only [ih]
      rfl

/-- A command line with an instance id, waiting for a key and typing a sequence -/
example : interpretCommandline (["--instance", "x", "--timeout", "500", "--wait-pressed", "Boss", "--output", "A", "B",
      "--restart"].map String.toList) =
    some [⟨.setInstanceId, ['x'], none⟩, ⟨.waitPressed, "Boss".toList, some 500⟩,
      ⟨.injectOutput, "A B ".toList, some 500⟩, ⟨.restart, [], some 500⟩] :=
  C67_options [.instance ['x'], .timeout "500".toList, .key .waitPressed "Boss".toList, .output [['A'], ['B']], .restart]
    (by
      intro o ho
      simp only [List.mem_cons, List.not_mem_nil, or_false] at ho
      rcases ho with rfl | rfl | rfl | rfl | rfl
      · trivial
      · trivial
      · rfl
      · intro w hw
        simp only [List.mem_cons, List.not_mem_nil, or_false] at hw
        rcases hw with rfl | rfl <;> decide
      · trivial)
    (by decide)

/-- `C67_rejected` -/
example : interpretCommandline (["--press", "Boss", "--bogus"].map String.toList) = none :=
  C67_rejected [.key .press "Boss".toList] (by intro o ho; simp at ho; subst ho; rfl) "--bogus".toList [] (by decide)
    (by decide) (by intro t name h; cases t <;> cases h <;> decide)

/-- The help says that `--timeout` "sets a timeout for the following operation": it is the one of all following
operations, and `--wait` replaces it. -/
theorem C67_timeout_counterexample :
    interpretCommandline (["--timeout", "500", "--wait-pressed", "A", "--wait-released", "A"].map String.toList) =
      some [⟨.waitPressed, ['A'], some 500⟩, ⟨.waitReleased, ['A'], some 500⟩] ∧
    interpretCommandline (["--timeout", "500", "--wait", "10", "--wait-pressed", "A"].map String.toList) =
      some [⟨.wait, [], some 10⟩, ⟨.waitPressed, ['A'], some 10⟩] := by
  decide +kernel

end KM
