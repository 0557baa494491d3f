import Verif.Lemmas.DocText
import Verif.Props.Macros
import Verif.Props.Grammar
import Verif.Props.GrammarInput
/-!
# The state of the parser after the statements of a configuration: mappings and commands
-/
namespace KM

/-- the list of commands of the parser -/
def Doc.commandList (d : Doc) : List Command :=
  d.commands.zipIdx.map (fun p => ⟨p.1, -((p.2 : Int) + 1), decide (p.1 ∈ d.mapped)⟩)

/-- what was read is represented by the state of the parser -/
structure DocRel (s : CState) (d : Doc) : Prop where
  contexts : s.cfg.contexts = d.contexts
  actions : s.cfg.actions = d.terminal
  commands : s.commands = d.commandList
  macros : s.macros = d.macros
  logical : s.logical = d.logical
  after : s.afterEmpty = d.justOpened
  system : s.systemMatched = d.current.matchesSystem
  done : s.done = d.done
  lower : s.enforceLower = d.enforceLower
  unmapped : s.allowUnmapped = d.allowUnmapped
  forward : s.forwardModifiers = d.forward
  other : s.cfg.grabDeviceFilters = d.grab ∧ s.cfg.serverDirectives = d.server ∧ s.cfg.includes = d.includes ∧ s.cfg.options = d.options

/-- logical keys have consecutive numbers, and stand for keys with lower numbers -/
def KeysInOrder (ls : List LogicalKey) : Prop := 4 ≤ ls.length ∧
  ∀ (i : Nat) (l : LogicalKey), ls[i]? = some l → l.both = Key.first_logical + i ∧ l.left < l.both ∧ l.right < l.both

/-- commands are numbered once, and used commands are known -/
structure Doc.Ok (d : Doc) : Prop where
  nodup : d.commands.Nodup
  used : ∀ b ∈ d.blocks ++ [d.current], ∀ m ∈ b.mappings, ∀ name, m.2 = .command name → name ∈ d.commands
  outputs : ∀ b ∈ d.blocks ++ [d.current], ∀ c ∈ b.commandOutputs, c.1 ∈ d.commands
  mapped : ∀ name ∈ d.mapped, name ∈ d.commands
  open' : d.current.fallsThrough = false
  keys : KeysInOrder d.logical

theorem getKey_logical {s : CState} {logical : List LogicalKey} (h : s.logical = logical) : s.getKey = namesWith logical := by
  funext name
  unfold CState.getKey namesWith
  unfold CState.getKey
  rw [h]

theorem numberInputs_append (commands : List Str) (ms : List (KeySequence × Aim)) : ∀ (n : Nat) (m : KeySequence × Aim),
    numberInputs commands n (ms ++ [m]) = numberInputs commands n ms ++ numberInputs commands (n + (outputsOf ms).length) [m] := by
  induction ms with
  | nil => intro n m; simp [numberInputs, outputsOf]
  | cons a ms ih =>
    intro n m
    obtain ⟨i, t⟩ := a
    cases t with
    | keys o =>
      rw [List.cons_append, numberInputs, numberInputs, ih]
      simp only [List.cons_append, List.cons.injEq, true_and]
      congr 1
      congr 1
      simp only [outputsOf, List.filterMap_cons, List.length_cons]
      omega
    | command name =>
      rw [List.cons_append, numberInputs, numberInputs, ih]
      simp only [List.cons_append, List.cons.injEq, true_and]
      rfl

theorem outputsOf_append (ms : List (KeySequence × Aim)) (m : KeySequence × Aim) :
    outputsOf (ms ++ [m]) = outputsOf ms ++ outputsOf [m] := by simp [outputsOf]

theorem numberInputs_congr {c1 c2 : List Str} {ms : List (KeySequence × Aim)}
    (h : ∀ m ∈ ms, ∀ name, m.2 = .command name → commandNumber c1 name = commandNumber c2 name) :
    ∀ n, numberInputs c1 n ms = numberInputs c2 n ms := by
  induction ms with
  | nil => intro n; rfl
  | cons m ms ih =>
    intro n
    obtain ⟨i, t⟩ := m
    cases t with
    | keys o => rw [numberInputs, numberInputs, ih (fun m hm => h m (by simp [hm]))]
    | command name => rw [numberInputs, numberInputs, ih (fun m hm => h m (by simp [hm])), h (i, .command name) (by simp) name rfl]

theorem commandNumber_append {commands : List Str} {name : Str} (h : name ∈ commands) (x : List Str) :
    commandNumber (commands ++ x) name = commandNumber commands name := by
  unfold commandNumber
  rw [List.idxOf_append, if_pos h]

theorem Block.context_append {commands : List Str} {b : Block} (x : List Str)
    (h1 : ∀ m ∈ b.mappings, ∀ name, m.2 = .command name → name ∈ commands) (h2 : ∀ c ∈ b.commandOutputs, c.1 ∈ commands) :
    b.context (commands ++ x) = b.context commands := by
  unfold Block.context
  rw [numberInputs_congr (c1 := commands ++ x) (c2 := commands) (fun m hm name hn => commandNumber_append (h1 m hm name hn) x)]
  have : b.commandOutputs.map (fun c => (⟨c.2, commandNumber (commands ++ x) c.1⟩ : CommandOutput)) =
      b.commandOutputs.map (fun c => ⟨c.2, commandNumber commands c.1⟩) := by
    apply List.map_congr_left
    intro c hc
    rw [commandNumber_append (h2 c hc)]
  rw [this]

theorem find_zipIdx (commands : List Str) (mapped : List Str) (name : Str) : ∀ n : Nat,
    ((commands.zipIdx n).map (fun p => (⟨p.1, -((p.2 : Int) + 1), decide (p.1 ∈ mapped)⟩ : Command))).find? (fun c => c.name == name) =
      if name ∈ commands then some ⟨name, -(((n + commands.idxOf name : Nat) : Int) + 1), decide (name ∈ mapped)⟩ else none := by
  induction commands with
  | nil => intro n; simp
  | cons a commands ih =>
    intro n
    rw [List.zipIdx_cons, List.map_cons]
    by_cases h : a = name
    · subst h
      rw [List.find?_cons_of_pos (by simp), if_pos (by simp)]
      simp
    · rw [List.find?_cons_of_neg (by simpa using h), ih]
      have e : (name ∈ a :: commands) ↔ name ∈ commands := by simp [Ne.symm h]
      by_cases hm : name ∈ commands
      · rw [if_pos hm, if_pos (e.2 hm)]
        have : (a :: commands).idxOf name = commands.idxOf name + 1 := by
          rw [List.idxOf_cons, beq_eq_false_iff_ne.2 h]
          rfl
        rw [this]
        congr 2
        omega
      · rw [if_neg hm, if_neg (fun x => hm (e.1 x))]

theorem Doc.find_command (d : Doc) (name : Str) : d.commandList.find? (fun c => c.name == name) =
    if name ∈ d.commands then some ⟨name, commandNumber d.commands name, decide (name ∈ d.mapped)⟩ else none := by
  unfold Doc.commandList
  rw [find_zipIdx]
  simp only [Nat.zero_add]
  rfl

theorem Doc.contexts_eq (d : Doc) : d.contexts = d.blocks.map (Block.context d.commands) ++ [d.current.context d.commands] := by
  unfold Doc.contexts
  simp

theorem modCurrent_doc {s : CState} {d : Doc} (h : s.cfg.contexts = d.contexts) (f : CContext → CContext) :
    (s.modCurrent f) = { s with cfg := { s.cfg with contexts := d.blocks.map (Block.context d.commands) ++ [f (d.current.context d.commands)] } } := by
  unfold CState.modCurrent
  rw [h, d.contexts_eq]
  simp

/-! ### inputs and outputs -/

theorem InExpr.ne_nil {typer : Typer} {e : InExpr} (h : e.hasKeys typer = true) : e ≠ .nil := by
  intro h'
  subst h'
  cases h

/-- reading an input -/
theorem parseInput_text {env : CEnv} {s : CState} {logical : List LogicalKey} (hl : s.logical = logical) {flag : Bool} {e : InExpr} {t : Str}
    (ht : InTextFlag (namesWith logical) flag e t) (hv : e.Valid env.typer flag false false []) (hf : e.Fresh []) (hk : e.hasKeys env.typer = true)
    (hr : flag = true → ∀ x ∈ e.meaning env.typer flag, isVirtualKey x.key = false) :
    s.parseInput env t = some (e.meaning env.typer flag) := by
  obtain ⟨h1, h2⟩ := ht.trim (InExpr.ne_nil hk)
  rw [CState.parseInput, skipSpace_eq h2.noComment, getKey_logical hl]
  rw [C72_input { isInput := true, getKey := namesWith logical, typer := env.typer, addCommands := false } rfl flag e _ h1 hv hf hk hr]
  rfl

/-- reading an output -/
theorem parseOutput_text {env : CEnv} {s : CState} {d : Doc} (hs : DocRel s d) {o : OutExpr} {t : Str} (h : OutputText env.typer (namesWith d.logical) d.enforceLower o t) :
    s.parseOutput env t = some ({ s with cfg := { s.cfg with actions := d.terminal ++ o.commands } },
      o.meaning env.typer d.terminal.length) := by
  obtain ⟨h1, h2⟩ := h.text.trim
  rw [CState.parseOutput, skipSpace_eq h2, getKey_logical hs.logical, hs.actions]
  simp only []
  have hp := C71_output { isInput := false, getKey := namesWith d.logical, typer := env.typer, actionBase := d.terminal.length } rfl rfl o _ h1 h.valid
    h.releases h.fresh
  simp only [] at hp
  rw [hp]
  simp only []
  rw [if_neg ?_]
  rw [Bool.not_eq_true]
  exact meaning_noContextActive h.valid _

/-- a single word -/
theorem SingleWord.read {t w : Str} (h : SingleWord t w) : t.dropWhile isSpaceC = w ++ (t.dropWhile isSpaceC).dropWhile isIdentChar ∧
    Spaces ((t.dropWhile isSpaceC).dropWhile isIdentChar) ∧ readIdent (skipSpace t) = (w, (t.dropWhile isSpaceC).dropWhile isIdentChar) := by
  obtain ⟨sp, sp', h1, h2, h3, rfl⟩ := h
  have hf : Firm (w ++ sp') := Firm.name h2.1 h2.2
  have hd : (sp ++ w ++ sp').dropWhile isSpaceC = w ++ sp' := by rw [List.append_assoc, hf.drop h1]
  have hb : NotBefore isIdentChar sp' := by
    cases sp' with
    | nil => exact .nil
    | cons c sp' => exact .cons (isSpaceC_noIdent (h3 c (by simp)))
  have hw := takeWhile_ends h2.2 hb
  rw [skipSpace_eq (by rw [hd]; exact hf.noComment), hd, hw.2]
  exact ⟨rfl, h3, readIdent_word h2 hb⟩

theorem skipSpace_spaces_nil {sp : Str} (h : Spaces sp) : skipSpace sp = [] := by
  have := skipSpace_spaces h []
  rwa [List.append_nil] at this

/-- the name of a command -/
theorem parseCommandName_word {s : CState} {logical : List LogicalKey} {lower : Bool} (hl : s.logical = logical) (he : s.enforceLower = lower) {t name : Str}
    (ht : SingleWord t name) (hk : CommandWord (namesWith logical) lower name) : s.parseCommandName t = name := by
  obtain ⟨-, h2, h3⟩ := ht.read
  rw [CState.parseCommandName, h3, getKey_logical hl]
  simp only [skipSpace_spaces_nil h2, hk.1, he]
  have : (lower && !startsWithLowerCase name) = false := by
    cases hlo : lower with
    | false => rfl
    | true => rw [hk.2 hlo]; rfl
  rw [this]
  rfl

/-- an output is not the name of a command -/
theorem parseCommandName_output {env : CEnv} {s : CState} {logical : List LogicalKey} {lower : Bool} (hl : s.logical = logical)
    (he : s.enforceLower = lower) {o : OutExpr} {t : Str} (h : OutputText env.typer (namesWith logical) lower o t) : s.parseCommandName t = [] := by
  obtain ⟨h1, h2⟩ := h.text.trim
  obtain ⟨u, hu⟩ : ∃ u, u = t.dropWhile isSpaceC := ⟨_, rfl⟩
  have hdef : s.parseCommandName t = if (!(skipSpace (u.dropWhile isIdentChar)).isEmpty || namesWith logical (u.takeWhile isIdentChar) != Key.none ||
      (s.enforceLower && !startsWithLowerCase (u.takeWhile isIdentChar))) = true then [] else u.takeWhile isIdentChar := by
    rw [CState.parseCommandName, skipSpace_eq h2, getKey_logical hl, ← hu]
    rfl
  rw [hdef]
  rw [← hu] at h1 h2
  have hx : NotBefore isIdentChar (u.dropWhile isIdentChar) := notBefore_dropWhile _
  have hc := h1.afterWord (u.takeWhile isIdentChar) (u.dropWhile isIdentChar) List.takeWhile_append_dropWhile.symm
    (fun c => mem_takeWhile_ident u) hx
  rw [skipSpace_eq hc]
  by_cases hempty : (u.dropWhile isIdentChar).dropWhile isSpaceC = []
  · by_cases hw : u.takeWhile isIdentChar = []
    · rw [hw]; split <;> rfl
    · rw [if_pos]
      have hsx : Spaces (u.dropWhile isIdentChar) := by
        intro c hc
        have := List.takeWhile_append_dropWhile (p := isSpaceC) (l := u.dropWhile isIdentChar)
        rw [hempty, List.append_nil] at this
        rw [← this] at hc
        exact mem_takeWhile_of hc
      have : SingleWord t (u.takeWhile isIdentChar) := by
        refine ⟨t.takeWhile isSpaceC, u.dropWhile isIdentChar, fun c hc => mem_takeWhile_of hc, ⟨hw, fun c => mem_takeWhile_ident u⟩, hsx, ?_⟩
        rw [List.append_assoc, List.takeWhile_append_dropWhile, hu, List.takeWhile_append_dropWhile]
      have hc := h.key _ this
      cases hk : namesWith logical (u.takeWhile isIdentChar) != Key.none with
      | true => simp
      | false =>
        have hk : namesWith logical (u.takeWhile isIdentChar) = Key.none := by simpa using hk
        have hlo : ¬ (lower = true → startsWithLowerCase (u.takeWhile isIdentChar) = true) := fun hx => hc ⟨hk, hx⟩
        have h1 : lower = true := by
          cases hlow : lower with
          | true => rfl
          | false => exact absurd (fun h => by rw [hlow] at h; cases h) hlo
        have h2 : startsWithLowerCase (u.takeWhile isIdentChar) = false := by
          cases hs : startsWithLowerCase (u.takeWhile isIdentChar) with
          | false => rfl
          | true => exact absurd (fun _ => hs) hlo
        rw [he, h1, h2]
        simp
  · rw [if_pos]
    simp only [Bool.or_eq_true, Bool.not_eq_true', List.isEmpty_eq_false_iff]
    exact Or.inl (Or.inl hempty)

end KM
