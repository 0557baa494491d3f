import Verif.Lemmas.DocSimple
import Verif.Props.Configuration
/-!
# The lines of a configuration

C74: a configuration which consists of definitions, mappings, contexts, stages, directives and comments, in this file and the included
ones, is accepted and means what `Doc.result` says.
-/
namespace KM

theorem commandList_mapped {d : Doc} : d.commandList.any (fun c => !c.mapped) = true ↔ ∃ n ∈ d.commands, n ∉ d.mapped := by
  unfold Doc.commandList
  rw [List.any_map, List.any_eq_true]
  constructor
  · rintro ⟨p, hp, h⟩
    obtain ⟨a, i⟩ := p
    exact ⟨a, (List.mem_zipIdx' hp).2 ▸ List.getElem_mem _, by simpa using h⟩
  · rintro ⟨n, hn, h⟩
    obtain ⟨i, hi, e⟩ := List.getElem_of_mem hn
    exact ⟨(n, i), by rw [List.mem_zipIdx_iff_getElem?]; simp [e.symm], by simpa using h⟩

/-- the state of the parser after all lines -/
theorem parseFile_doc {env : CEnv} {lines : List Str} {text : Str} {d : Doc} (hne : lines ≠ []) (hl : Doc.Lines env 10 {} lines d)
    (ht : FileText lines text) : ∃ s, CState.parseFile env 10 CState.init text = some s ∧ DocRel s d ∧ d.Ok ∧ d.Shape := by
  rw [parseFile_incl, ht.content, splitLines_join hne hl.noNewline]
  exact lines_step hl _ docRel_init docOk_init docShape_init

/-- what a configuration is, apart from its contexts -/
theorem parseConfig_doc (env : CEnv) {lines : List Str} {text : Str} {d : Doc} (hne : lines ≠ []) (hl : Doc.Lines env 10 {} lines d)
    (ht : FileText lines text) (hm : d.allowUnmapped = true ∨ ∀ n ∈ d.commands, n ∈ d.mapped) :
    ∃ s config, parseConfig env text = some config ∧ DocRel s d ∧ d.Ok ∧ d.Shape ∧ config.contexts = s.finishContexts ∧
      config.actions = d.terminal ∧
      (∀ n k, (n, k) ∈ config.virtualKeyAliases ↔ ∃ t, (n, t) ∈ d.macros ∧ namesWith d.logical t = k ∧ isVirtualKey k = true) ∧
      config.grabDeviceFilters = d.grab ∧ config.serverDirectives = d.server ∧ config.includes = d.includes ∧ config.options = d.options := by
  obtain ⟨s, h1, h2, h3, h4⟩ := parseFile_doc hne hl ht
  have hany : (!s.allowUnmapped && s.commands.any (fun c => !c.mapped)) = false := by
    rcases hm with hm | hm
    · rw [h2.unmapped, hm]; rfl
    · rw [Bool.and_eq_false_iff]
      right
      rw [← Bool.not_eq_true, h2.commands, commandList_mapped]
      rintro ⟨n, hn, h⟩
      exact h (hm n hn)
  refine ⟨s, { s.cfg with contexts := s.finishContexts, virtualKeyAliases := s.virtualKeyAliases }, ?_, h2, h3, h4, rfl, h2.actions, ?_, h2.other⟩
  · rw [parseConfig, h1]
    simp only [hany]
    rfl
  · intro n k
    simp only [CState.virtualKeyAliases, getKey_logical h2.logical, List.mem_filter, List.mem_map, mem_sortBy, h2.macros]
    constructor
    · rintro ⟨⟨⟨m, t⟩, hmem, e⟩, hv⟩
      injection e with e1 e2
      subst e1
      exact ⟨t, hmem, e2, hv⟩
    · rintro ⟨t, hmem, e, hv⟩
      exact ⟨⟨(n, t), hmem, by rw [← e]⟩, hv⟩

/-- **C74.** A configuration of well formed lines is accepted when every command has an output, or `@allow-unmapped-commands` was given.
Its contexts are the ones which the lines mean, in the order of the lines; so are the terminal commands, the filters of devices, the
directives for the server, the included files and the options. The aliases of virtual keys are known by their names. -/
theorem C74_configuration (env : CEnv) {lines : List Str} {text : Str} {d : Doc} (hne : lines ≠ []) (hl : Doc.Lines env 10 {} lines d)
    (ht : FileText lines text) (hm : d.allowUnmapped = true ∨ ∀ n ∈ d.commands, n ∈ d.mapped) (hf : d.forward = []) (hp : d.Plain) :
    ∃ config, parseConfig env text = some config ∧ config.contexts = d.result ∧ config.actions = d.terminal ∧
      (∀ n k, (n, k) ∈ config.virtualKeyAliases ↔ ∃ t, (n, t) ∈ d.macros ∧ namesWith d.logical t = k ∧ isVirtualKey k = true) ∧
      config.grabDeviceFilters = d.grab ∧ config.serverDirectives = d.server ∧ config.includes = d.includes ∧ config.options = d.options := by
  obtain ⟨s, config, h1, h2, h3, h4, h5, h6⟩ := parseConfig_doc env hne hl ht hm
  exact ⟨config, h1, h5.trans (finish_doc h2 h3 h4 hf hp), h6⟩

/-- **C74.** A configuration in which a command has no output is rejected, unless `@allow-unmapped-commands` was given. -/
theorem C74_unmapped (env : CEnv) {lines : List Str} {text : Str} {d : Doc} (hne : lines ≠ []) (hl : Doc.Lines env 10 {} lines d)
    (ht : FileText lines text) (ha : d.allowUnmapped = false) {n : Str} (hn : n ∈ d.commands) (hm : n ∉ d.mapped) : parseConfig env text = none := by
  obtain ⟨s, h1, h2, _, _⟩ := parseFile_doc hne hl ht
  have hany : s.commands.any (fun c => !c.mapped) = true := by
    rw [h2.commands, commandList_mapped]
    exact ⟨n, hn, hm⟩
  rw [parseConfig, h1]
  simp only [hany, h2.unmapped, ha]
  rfl

/-! ### examples -/

private theorem sp0 : Spaces [] := by intro c h; cases h
private theorem sp1 : Spaces [' '] := by intro c h; rw [List.mem_singleton.1 h]; decide

private theorem wordOf {n : Str} (h : (!n.isEmpty && n.all isIdentChar) = true) : Word n := by
  rw [Bool.and_eq_true] at h
  exact ⟨by simpa using h.1, by simpa using h.2⟩

private theorem notBeforeOf {f : Char → Bool} {t : Str} (h : (match t.head? with | none => true | some c => !f c) = true) :
    NotBefore f t := by
  intro c hc
  rw [hc] at h
  simpa using h

private theorem namesOf {n : Str} {k : Key} (h : (!n.isEmpty && n.all isIdentChar) = true ∧ keyOf n = k ∧ k ≠ Key.none ∧ beginsWithDelay n = false) :
    Names keyOf n k := ⟨(wordOf h.1).1, (wordOf h.1).2, h.2.1, h.2.2.1, h.2.2.2⟩

private theorem namesOf' {ls : List LogicalKey} {n : Str} {k : Key}
    (h : (!n.isEmpty && n.all isIdentChar) = true ∧ namesWith ls n = k ∧ k ≠ Key.none ∧ beginsWithDelay n = false) :
    Names (namesWith ls) n k := ⟨(wordOf h.1).1, (wordOf h.1).2, h.2.1, h.2.2.1, h.2.2.2⟩

private def exLines : List Str :=
  ["Boss = Virtual1".toList, "A >> B".toList, "C >> Boss".toList, "[system=\"Windows\"]".toList, "[title=\"x\"]".toList,
   "D >> act".toList, "act >> X".toList]

/-- the contexts which are expected -/
private def exContexts : List CContext :=
  [{ beginStage := true, systemFilterMatched := true
     inputs := [⟨[⟨Key.KeyA, .Down, 0⟩, ⟨Key.KeyA, .UpAsync, 0⟩], 0⟩, ⟨[⟨Key.KeyC, .Down, 0⟩, ⟨Key.KeyC, .UpAsync, 0⟩], 1⟩]
     outputs := [[⟨Key.KeyB, .Down, 0⟩], [⟨Key.first_virtual + 1, .Down, 0⟩]] },
   { windowTitle := ⟨['x'], false, false⟩, systemFilterMatched := true
     inputs := [⟨[⟨Key.KeyD, .Down, 0⟩, ⟨Key.KeyD, .UpAsync, 0⟩], -1⟩]
     commandOutputs := [⟨[⟨Key.KeyX, .Down, 0⟩], -1⟩] }]

private def exStatements : List Stmt :=
  [.define "Boss".toList "Virtual1".toList, .map false (.keys false [Key.KeyA] .nil) (.keys [Key.KeyB] .nil),
   .map false (.keys false [Key.KeyC] .nil) (.keys [Key.first_virtual + 1] .nil), .context [.system "Windows".toList false],
   .context [.filter .windowTitle ['x'] false false], .toCommand false (.keys false [Key.KeyD] .nil) "act".toList,
   .command "act".toList (.keys [Key.KeyX] .nil)]

private def exDoc : Doc := exStatements.foldl (Doc.step genericTyper) {}

/-- only the word `Boss` is defined -/
private theorem exMacros {t : Str} (h : 's' ∉ t) : ∀ a w b, t = a ++ w ++ b → Word w → Macros.get [("Boss".toList, "Virtual1".toList)] w = none := by
  intro a w b e _
  have : w ≠ "Boss".toList := by
    rintro rfl
    exact h (by rw [e]; simp)
  rw [Macros.get]
  simp only [List.find?, beq_eq_false_iff_ne.2 this.symm]
  rfl

private theorem exOutputable {k : Key} (h : k ≠ Key.timeout ∧ k ≠ Key.ContextActive) : Outputable k := h

private theorem exLinesDoc : Doc.Lines ⟨genericTyper, fun _ => true, fun _ => none⟩ 10 {} exLines exDoc := by
  refine .cons (st := .define "Boss".toList "Virtual1".toList) ?_ (.last (notContinued_of (by decide)) (by decide)) ?_
  · refine .define (sp := []) (n := "Boss".toList) (sp2 := [' ']) (sp3 := [' ']) (t := "Virtual1".toList) (ts := [.word "Virtual1".toList])
      (f := "Virtual1".toList) sp0 (wordOf (by decide)) sp1 sp1 (notBeforeOf rfl)
      (.word (n := "Virtual1".toList) (wordOf (by decide)) .nil (notBeforeOf rfl))
      (.word (a := "Virtual1".toList) (.plain (wordOf (by decide)) rfl) .nil) ?_ (.inr (.plain (wordOf (by decide)) rfl))
    rintro ⟨w, sp, u, -, -, e⟩
    have : '|' ∈ "Virtual1".toList := by rw [e]; simp
    exact absurd this (by decide)
  refine .cons (st := .map false (.keys false [Key.KeyA] .nil) (.keys [Key.KeyB] .nil)) ?_ (.last (notContinued_of (by decide)) (by decide)) ?_
  · exact pair_line (sp := []) (n := ['A']) (sp1 := [' ']) (sp2 := [' ']) (m := ['B']) (sp3 := []) sp0 sp1 sp1 sp0
      (namesOf (by decide +kernel)) (namesOf (by decide +kernel)) (exOutputable (by decide)) (exOutputable (by decide)) (exMacros (by decide)) (by decide) (by decide) (by decide)
  refine .cons (st := .map false (.keys false [Key.KeyC] .nil) (.keys [Key.first_virtual + 1] .nil)) ?_ (.last (notContinued_of (by decide)) (by decide)) ?_
  · refine .statement (r := "C >> Virtual1".toList) (noDefinition_of (by decide)) ?_ ?_
    · refine .text (sp := []) (t := "C >> Boss".toList) (ts := [.word ['C'], .other ' ', .other '>', .other '>', .other ' ', .word "Boss".toList])
        sp0 (notBeforeOf rfl) ?_ (fun h => absurd (h.2 ' ' (by decide)) (by decide)) ?_
      · exact .word (n := ['C']) (wordOf rfl) (.other (by decide) (fun e => absurd e (by decide)) (.other (by decide) (fun e => absurd e (by decide))
          (.other (by decide) (fun e => absurd e (by decide)) (.other (by decide) (fun e => absurd e (by decide))
          (.word (n := "Boss".toList) (wordOf (by decide)) .nil (notBeforeOf rfl)))))) (notBeforeOf rfl)
      · exact .word (n := ['C']) (.plain (wordOf rfl) rfl) (.other (.other (.other (.other (.word (a := "Virtual1".toList)
          (.alias (m := "Virtual1".toList) (wordOf (by decide)) rfl (.plain (wordOf (by decide)) rfl)) .nil)))))
    · exact .mapping (.map (t := ['C', ' ']) (u := " Virtual1".toList)
        (key_input (sp := []) (n := ['C']) (sp1 := [' ']) sp0 sp1 (namesOf (by decide +kernel)) (exOutputable (by decide)) (by decide) (by decide))
        (key_output (sp := [' ']) (m := "Virtual1".toList) (sp1 := []) sp1 sp0 (namesOf (by decide +kernel)) (exOutputable (by decide))))
        (pair_oneLine (n := ['C']) (sp1 := [' ']) (sp2 := [' ']) (m := "Virtual1".toList) (sp3 := []) sp1 sp1 sp0 (wordOf rfl) (wordOf (by decide)) (by decide))
  refine .cons (st := .context [.system "Windows".toList false]) ?_ (.last (notContinued_of (by decide)) (by decide)) ?_
  · refine .statement (r := "[system=\"Windows\"]".toList) (noDefinition_char (a := []) (c := '[') (by decide) (by decide)) ?_ ?_
    · refine .text (sp := []) (t := "[system=\"Windows\"]".toList) (ts := [.other '[', .word "system".toList, .other '=', .literal [.text "\"Windows\"".toList], .other ']'])
        sp0 (notBeforeOf rfl) ?_ (fun h => absurd (h.2 '[' (by decide)) (by decide)) ?_
      · exact .other (by decide) (fun e => absurd e (by decide)) (.word (n := "system".toList) (wordOf (by decide)) (.other (by decide) (fun e => absurd e (by decide))
          (.literal (s := "\"Windows\"".toList) (.string ⟨'"', "Windows".toList, by decide, by decide, rfl⟩) (.text (s := "\"Windows\"".toList) (t := []) (by decide) .nil)
          (.other (by decide) (fun e => absurd e (by decide)) .nil) (fun e => absurd e (by decide)))) (notBeforeOf rfl))
      · exact .other (.word (n := "system".toList) (.plain (wordOf (by decide)) rfl) (.other (.literal (.pieceText (s := "\"Windows\"".toList) (by decide) .piecesNil) (.other .nil))))
    · exact .context (sp0 := []) (sp := []) (t := "system=\"Windows\"".toList) (sp1 := []) sp0 sp0 sp0
        (.one (t := "system=\"Windows\"".toList) (sp := []) (.system (q := '"') (u := "Windows".toList) (invert := false) (sp := []) (sp' := []) (by decide) (by decide) sp0 sp0) sp0)
  refine .cons (st := .context [.filter .windowTitle ['x'] false false]) ?_ (.last (notContinued_of (by decide)) (by decide)) ?_
  · refine .statement (r := "[title=\"x\"]".toList) (noDefinition_char (a := []) (c := '[') (by decide) (by decide)) ?_ ?_
    · refine .text (sp := []) (t := "[title=\"x\"]".toList) (ts := [.other '[', .word "title".toList, .other '=', .literal [.text "\"x\"".toList], .other ']'])
        sp0 (notBeforeOf rfl) ?_ (fun h => absurd (h.2 '[' (by decide)) (by decide)) ?_
      · exact .other (by decide) (fun e => absurd e (by decide)) (.word (n := "title".toList) (wordOf (by decide)) (.other (by decide) (fun e => absurd e (by decide))
          (.literal (s := "\"x\"".toList) (.string ⟨'"', "x".toList, by decide, by decide, rfl⟩) (.text (s := "\"x\"".toList) (t := []) (by decide) .nil)
          (.other (by decide) (fun e => absurd e (by decide)) .nil) (fun e => absurd e (by decide)))) (notBeforeOf rfl))
      · exact .other (.word (n := "title".toList) (.plain (wordOf (by decide)) rfl) (.other (.literal (.pieceText (s := "\"x\"".toList) (by decide) .piecesNil) (.other .nil))))
    · exact .context (sp0 := []) (sp := []) (t := "title=\"x\"".toList) (sp1 := []) sp0 sp0 sp0
        (.one (t := "title=\"x\"".toList) (sp := []) (.filter (v := "\"x\"".toList) (sp := []) (sp' := []) .windowTitle
          (.string (q := '"') (u := ['x']) (by decide) (by decide) (by decide) (by simp [LooksLikeRegex])) sp0 sp0) sp0)
  refine .cons (st := .toCommand false (.keys false [Key.KeyD] .nil) "act".toList) ?_ (.last (notContinued_of (by decide)) (by decide)) ?_
  · obtain ⟨h1, h2⟩ := pair_expand (macros := [("Boss".toList, "Virtual1".toList)]) (sp := []) (n := ['D']) (sp1 := [' ']) (sp2 := [' ']) (m := "act".toList) (sp3 := []) sp0 sp1 sp1 sp0
      (wordOf rfl) (wordOf (by decide)) (exMacros (by decide))
    exact .statement h1 h2 (.mapping (.toCommand (t := "D ".toList) (u := " act".toList)
      (key_input (sp := []) (n := ['D']) (sp1 := [' ']) sp0 sp1 (namesOf (by decide +kernel)) (exOutputable (by decide)) (by decide) (by decide))
      ⟨[' '], [], sp1, wordOf (by decide), sp0, rfl⟩ ⟨by decide +kernel, by decide⟩)
      (pair_oneLine (n := ['D']) (sp1 := [' ']) (sp2 := [' ']) (m := "act".toList) (sp3 := []) sp1 sp1 sp0 (wordOf rfl) (wordOf (by decide)) (by decide)))
  refine .cons (st := .command "act".toList (.keys [Key.KeyX] .nil)) ?_ (.last (notContinued_of (by decide)) (by decide)) .nil
  · obtain ⟨h1, h2⟩ := pair_expand (macros := [("Boss".toList, "Virtual1".toList)]) (sp := []) (n := "act".toList) (sp1 := [' ']) (sp2 := [' ']) (m := ['X']) (sp3 := []) sp0 sp1 sp1 sp0
      (wordOf (by decide)) (wordOf rfl) (exMacros (by decide))
    exact .statement h1 h2 (.mapping (.command (t := "act ".toList) (u := " X".toList) ⟨[], [' '], sp0, wordOf (by decide), sp1, rfl⟩ (by decide) (by decide)
      (key_output (sp := [' ']) (m := ['X']) (sp1 := []) sp1 sp0 (namesOf (by decide +kernel)) (exOutputable (by decide))))
      (pair_oneLine (n := "act".toList) (sp1 := [' ']) (sp2 := [' ']) (m := ['X']) (sp3 := []) sp1 sp1 sp0 (wordOf (by decide)) (wordOf rfl) (by decide)))

/-- A configuration with all kinds of lines; the context of another system does not remain -/
example : ∃ config, parseConfig ⟨genericTyper, fun _ => true, fun _ => none⟩
    "Boss = Virtual1\nA >> B\nC >> Boss\n[system=\"Windows\"]\n[title=\"x\"]\nD >> act\nact >> X".toList = some config ∧
    config.contexts = exContexts ∧ ("Boss".toList, Key.first_virtual + 1) ∈ config.virtualKeyAliases := by
  have hr : exDoc.result = exContexts := by decide +kernel
  have hp : exDoc.Plain := by
    unfold Doc.Plain
    rw [hr]
    unfold PlainKeys
    decide +kernel
  obtain ⟨config, h1, h2, -, h3, -⟩ := C74_configuration _ (by decide) exLinesDoc (.inl ⟨rfl, notBeforeOf (by decide)⟩) (.inr (by decide)) (by decide) hp
  exact ⟨config, h1, h2.trans hr, (h3 _ _).2 ⟨"Virtual1".toList, by decide +kernel, by decide +kernel, by decide⟩⟩

/-- the environment of the next example: there is another file -/
private def exEnv : CEnv := ⟨genericTyper, fun _ => true, fun name => if name = ['f'] then some "C >> D".toList else none⟩

private def exLines2 : List Str :=
  ["@options verbose no-tray".toList, "@skip-device \"kb\"".toList, "Ext = CapsLock | Shift".toList, "A >> \\ ".toList, "B".toList,
   "@include \"f\"".toList, "@done".toList, "nonsense".toList]

private def exDoc2 : Doc :=
  { current := { stage := true, mappings := [([⟨Key.KeyA, .Down, 0⟩, ⟨Key.KeyA, .UpAsync, 0⟩], .keys [⟨Key.KeyB, .Down, 0⟩]),
      ([⟨Key.KeyC, .Down, 0⟩, ⟨Key.KeyC, .UpAsync, 0⟩], .keys [⟨Key.KeyD, .Down, 0⟩])] }
    logical := builtinKeys ++ [⟨"Ext".toList, Key.first_logical + 4, Key.CapsLock, Key.Shift⟩]
    grab := [⟨⟨"kb".toList, false, true⟩, false⟩], options := ["verbose".toList, "no-tray".toList], includes := [['f']], done := true }

private theorem exQuoted {w u : Str} (hw : Word w) (hu : ('"' ∉ u ∧ '$' ∉ u) ∧ '=' ∉ w) :
    ¬ IsDefinition ('@' :: (w ++ ' ' :: '"' :: u ++ ['"'])) ∧
    Expand [] 30 (.text ('@' :: (w ++ ' ' :: '"' :: u ++ ['"']))) ['@' :: (w ++ ' ' :: '"' :: u ++ ['"'])] := by
  constructor
  · exact noDefinition_char (a := []) (c := '@') (by simp) (by decide)
  · have e : '@' :: (w ++ ' ' :: '"' :: u ++ ['"']) = '@' :: (w ++ (' ' :: (('"' :: u ++ ['"']) ++ []))) := by simp
    have hl : ∀ c ∈ '"' :: u ++ ['"'], c ≠ '$' := by
      intro c hc
      simp only [List.cons_append, List.mem_cons, List.mem_append, List.not_mem_nil, or_false] at hc
      rcases hc with rfl | hc | rfl
      · decide
      · rintro rfl; exact hu.1.2 hc
      · decide
    rw [e]
    refine .text (sp := []) (ts := [.other '@', .word w, .other ' ', .literal [.text ('"' :: u ++ ['"'])]]) sp0 (notBeforeOf rfl) ?_
      (fun h => absurd (h.2 '@' (by simp)) (by decide)) ?_
    · refine .other (by decide) (fun e => absurd e (by decide)) (.word hw (.other (by decide) (fun e => absurd e (by decide)) ?_) (notBeforeOf rfl))
      have := PieceText.text (s := '"' :: u ++ ['"']) (t := []) (fun h => hl '$' h rfl) .nil
      rw [List.append_nil] at this
      exact .literal (.string ⟨'"', u, by decide, hu.1.1, rfl⟩) this .nil (fun h => absurd (Option.some.inj h) (by decide))
    · have := Expand.pieceText (macros := []) (l := 29) (s := '"' :: u ++ ['"']) rfl .piecesNil
      rw [List.append_nil] at this
      exact .other (.word (.plain hw rfl) (.other (.literal this .nil)))

private theorem exSimple {t : Str} (h : (match t.head? with | none => true | some c => !isSpaceC c) = true ∧ ∀ c ∈ t, isSimpleChar c = true) :
    Expand [] 30 (.text t) [t] := by
  have := expand_simple (macros := []) (sp := []) (t := t) sp0 (notBeforeOf h.1) h.2 (fun _ w _ _ _ => rfl) 28
  exact this

private theorem exLinesDoc2 : Doc.Lines exEnv 10 {} exLines2 exDoc2 := by
  refine .cons (st := .options ["verbose".toList, "no-tray".toList]) ?_ (.last (notContinued_of (by decide)) (by decide)) ?_
  · exact .statement (noDefinition_of (by decide)) (exSimple (by decide)) (.directive (sp := []) (t := "options verbose no-tray".toList) sp0 rfl
      (.options (sp := [' ']) (os := ["verbose".toList, "no-tray".toList]) sp1 (.inr (by decide)) (by decide)))
  refine .cons (st := .grab ⟨⟨"kb".toList, false, true⟩, false⟩) ?_ (.last (notContinued_of (by decide)) (by decide)) ?_
  · obtain ⟨h1, h2⟩ := exQuoted (w := "skip-device".toList) (u := "kb".toList) (wordOf (by decide)) (by decide)
    exact .statement h1 h2 (.directive (sp := []) (t := "skip-device \"kb\"".toList) sp0 rfl
      (.grab (n := "skip-device".toList) (sp := [' ']) (v := "\"kb\"".toList) (sp' := []) .skip sp1
        (.string (q := '"') (u := "kb".toList) (by decide) (by decide) (by decide) (by simp [LooksLikeRegex])) sp0))
  refine .cons (st := .either "Ext".toList Key.CapsLock [Key.Shift]) ?_ (.last (notContinued_of (by decide)) (by decide)) ?_
  · have e1 : namesWith builtinKeys "CapsLock".toList = Key.CapsLock := by decide +kernel
    have e2 : namesWith builtinKeys "Shift".toList = Key.Shift := by decide +kernel
    refine .either (sp := []) (n := "Ext".toList) (sp2 := [' ']) (t := " CapsLock | Shift".toList) sp0 (wordOf (by decide)) sp1 (by decide +kernel) ?_ (by simp)
    have h2 := AlternativesText.one (macros := []) (getKey := namesWith builtinKeys) (sp := [' ']) (w := "Shift".toList) (v := "Shift".toList) (sp' := []) sp1
      (wordOf (by decide)) (.plain (wordOf (by decide)) rfl) (by rw [e2]; decide) sp0
    have h1 := AlternativesText.cons (macros := []) (getKey := namesWith builtinKeys) (sp := [' ']) (w := "CapsLock".toList) (v := "CapsLock".toList)
      (sp' := [' ']) sp1 (wordOf (by decide)) (.plain (wordOf (by decide)) rfl) (by rw [e1]; decide) sp1 h2
    rw [e1, e2] at h1
    exact h1
  refine .cons (st := .map false (.keys false [Key.KeyA] .nil) (.keys [Key.KeyB] .nil)) (line := "A >> B".toList) (parts := ["A >> \\ ".toList, "B".toList]) ?_ ?_ ?_
  · exact pair_line (sp := []) (n := ['A']) (sp1 := [' ']) (sp2 := [' ']) (m := ['B']) (sp3 := []) sp0 sp1 sp1 sp0
      (namesOf' (by decide +kernel)) (namesOf' (by decide +kernel)) (exOutputable (by decide)) (exOutputable (by decide)) (fun _ w _ _ _ => rfl) (by decide)
      (by decide) (by decide)
  · exact .cons (a := "A >> ".toList) (sp := [' ']) sp1 (by decide) (.last (notContinued_of (by decide)) (by decide))
  obtain ⟨h1, h2⟩ := exQuoted (w := "include".toList) (u := ['f']) (wordOf (by decide)) (by decide)
  refine .include (n := 9) (name := ['f']) (text := "C >> D".toList) (inner := ["C >> D".toList]) h1 h2
    ⟨[], [' '], '"', [], sp0, sp1, by decide, by decide, sp0, rfl⟩ rfl rfl (by decide) (.inl ⟨rfl, notBeforeOf (by decide)⟩)
    (.cons (st := .map false (.keys false [Key.KeyC] .nil) (.keys [Key.KeyD] .nil)) ?_ (.last (notContinued_of (by decide)) (by decide)) .nil)
    (.last (notContinued_of (by decide)) (by decide)) ?_
  · exact pair_line (sp := []) (n := ['C']) (sp1 := [' ']) (sp2 := [' ']) (m := ['D']) (sp3 := []) sp0 sp1 sp1 sp0
      (namesOf' (by decide +kernel)) (namesOf' (by decide +kernel)) (exOutputable (by decide)) (exOutputable (by decide)) (fun _ w _ _ _ => rfl) (by decide)
      (by decide) (by decide)
  refine .cons (st := .done) (.statement (noDefinition_of (by decide)) (exSimple (by decide)) (.directive (sp := []) (t := "done".toList) sp0 rfl
    (.done (sp := []) sp0))) (.last (notContinued_of (by decide)) (by decide)) ?_
  exact .done rfl (by decide)

/-- Directives, an included file, a broken line and the definition of a key; what follows `@done` is not read -/
example : ∃ config, parseConfig exEnv
    "@options verbose no-tray\n@skip-device \"kb\"\nExt = CapsLock | Shift\nA >> \\ \nB\n@include \"f\"\n@done\nnonsense".toList = some config ∧
    config.contexts.map (fun c => c.outputs) = [[[⟨Key.KeyB, .Down, 0⟩], [⟨Key.KeyD, .Down, 0⟩]]] ∧
    config.grabDeviceFilters = [⟨⟨"kb".toList, false, true⟩, false⟩] ∧ config.options = ["verbose".toList, "no-tray".toList] ∧
    config.includes = [['f']] := by
  have hr : exDoc2.result.map (fun c => c.outputs) = [[[⟨Key.KeyB, .Down, 0⟩], [⟨Key.KeyD, .Down, 0⟩]]] := by decide +kernel
  have hp : exDoc2.Plain := by
    unfold Doc.Plain PlainKeys
    decide +kernel
  obtain ⟨config, h1, h2, -, -, h3, -, h4, h5⟩ := C74_configuration _ (by decide) exLinesDoc2 (.inl ⟨rfl, notBeforeOf (by decide)⟩) (.inr (by decide)) rfl hp
  exact ⟨config, h1, by rw [h2]; exact hr, h3, h5, h4⟩

/-- two mappings in a line -/
example : Doc.Mappings exEnv {} "A >> B\nC >> D".toList { current := exDoc2.current } := by
  have h1 : Doc.Mapping exEnv {} (.map false (.keys false [Key.KeyA] .nil) (.keys [Key.KeyB] .nil)) ("A ".toList ++ '>' :: '>' :: " B\n".toList) :=
    .map (key_input (sp := []) (n := ['A']) (sp1 := [' ']) sp0 sp1 (namesOf' (by decide +kernel)) (exOutputable (by decide)) (by decide) (by decide))
      (key_output (sp := [' ']) (m := ['B']) (sp1 := ['\n']) sp1 (by intro c h; rw [List.mem_singleton.1 h]; decide) (namesOf' (by decide +kernel)) (exOutputable (by decide)))
  refine .cons (t := "A >> B".toList) (u := "C >> D".toList) h1 (pair_oneLine (n := ['A']) (sp1 := [' ']) (sp2 := [' ']) (m := ['B']) (sp3 := []) sp1 sp1 sp0
    (wordOf rfl) (wordOf rfl) (by decide)) (notBeforeOf rfl) (.last (st := .map false (.keys false [Key.KeyC] .nil) (.keys [Key.KeyD] .nil)) ?_
    (pair_oneLine (n := ['C']) (sp1 := [' ']) (sp2 := [' ']) (m := ['D']) (sp3 := []) sp1 sp1 sp0 (wordOf rfl) (wordOf rfl) (by decide)))
  exact .map (t := "C ".toList) (u := " D".toList)
    (key_input (sp := []) (n := ['C']) (sp1 := [' ']) sp0 sp1 (namesOf' (by decide +kernel)) (exOutputable (by decide)) (by decide) (by decide))
    (key_output (sp := [' ']) (m := ['D']) (sp1 := []) sp1 sp0 (namesOf' (by decide +kernel)) (exOutputable (by decide)))

/-! ### quirks -/

/-- **A comment between two contexts** separates them: the first one has no mappings then. -/
theorem C74_comment_counterexample :
    ((parseConfig plainTyperEnv "[title=\"a\"]\n[title=\"b\"]\nA >> B".toList).map (fun c => c.contexts.map (fun c => c.windowTitle.string)) =
      some [['a'], ['b']]) ∧
    ((parseConfig plainTyperEnv "[title=\"a\"]\n# comment\n[title=\"b\"]\nA >> B".toList).map (fun c => c.contexts.map (fun c => c.windowTitle.string)) =
      some [['b']]) := by
  constructor <;> decide +kernel

/-- **A delay as only output** is not accepted, it is the name of a command. -/
theorem C74_delay_counterexample :
    (parseConfig plainTyperEnv "A >> 100ms B".toList).isSome = true ∧ parseConfig plainTyperEnv "A >> 100ms".toList = none := by
  constructor <;> decide +kernel

/-- **A last line which ends with a backslash** is not read. -/
theorem C74_backslash_counterexample :
    ((parseConfig plainTyperEnv "A >> B\nC >> D \\".toList).map (fun c => c.contexts.map (fun c => c.outputs.length)) = some [1]) ∧
    ((parseConfig plainTyperEnv "A >> B\nnonsense \\".toList).map (fun c => c.contexts.map (fun c => c.outputs.length)) = some [1]) := by
  constructor <;> decide +kernel

/-- **`>>` in a string** of an input ends the input. -/
theorem C74_arrow_counterexample :
    (parseConfig plainTyperEnv "\">\" >> B".toList).isSome = true ∧ parseConfig plainTyperEnv "\">>\" >> B".toList = none := by
  constructor <;> decide +kernel

end KM
