import Verif.Lemmas.DocSuppress
import Verif.Props.Document
import Verif.Spec.StageRun
import Verif.Spec.Serial
/-!
# Keys which are one of two keys, and forwarded modifiers

C76: the contexts of a configuration are the ones which `Doc.groups` says, with the mappings in their order.
-/
namespace KM

/-- **C76.** The contexts of an accepted configuration have, in their order, the filters, mappings and outputs of commands which the lines
mean: each mapping with a key which stands for two keys is replaced by the ones for its alternatives; the stages begin with the forwarded
modifiers; and the outputs of mappings release the forwarded modifiers of their inputs first, unless they press them. -/
theorem C76_contexts (env : CEnv) {lines : List Str} {text : Str} {d : Doc} (hne : lines ≠ []) (hl : Doc.Lines env 10 {} lines d)
    (ht : FileText lines text) (hm : d.allowUnmapped = true ∨ ∀ n ∈ d.commands, n ∈ d.mapped) :
    ∃ config gs, parseConfig env text = some config ∧ List.Forall₂ (Means d.commands) config.contexts gs ∧ Suppressed d.forward d.groups gs := by
  obtain ⟨s, config, h1, h2, h3, h4, h5, -⟩ := parseConfig_doc env hne hl ht hm
  obtain ⟨gs, h6, h7⟩ := finish_groups h2 h3 h4
  exact ⟨config, gs, h1, h5 ▸ h6, h7⟩

theorem forall₂_eq {α} {R : α → α → Prop} (hR : ∀ a b, R a b → b = a) {l l' : List α} (h : List.Forall₂ R l l') : l' = l := by
  induction h with
  | nil => rfl
  | cons hab _ ih => rw [hR _ _ hab, ih]

theorem Releases.of_none {o o' : KeySequence} (h : Releases [] o o') : o' = o := by
  obtain ⟨ns, hns, rfl⟩ := h
  cases ns with
  | nil => rfl
  | cons k ns => exact absurd (hns k (by simp)) (by simp)

theorem Suppressed.of_none {gs gs' : List Group} (h : Suppressed [] gs gs') : gs' = gs := by
  refine forall₂_eq ?_ h.groups
  rintro ⟨gh, gm, gc⟩ ⟨gh', gm', gc'⟩ ⟨h1, h2, h3⟩
  simp only at h1 h2 h3
  rw [h1, forall₂_eq ?_ h2, forall₂_eq ?_ h3]
  · rintro ⟨n, o⟩ ⟨n', o'⟩ ⟨e1, e2⟩
    simp only at e1 e2
    rw [e1, e2.of_none]
  · rintro ⟨i, a⟩ ⟨i', a'⟩ ⟨e1, e2⟩
    simp only at e1 e2
    rw [e1]
    cases e2 with
    | keys h _ => rw [h.of_none]
    | command => rfl

/-- **C76.** Without forwarded modifiers the contexts are exactly the ones which the lines mean. -/
theorem C76_logical (env : CEnv) {lines : List Str} {text : Str} {d : Doc} (hne : lines ≠ []) (hl : Doc.Lines env 10 {} lines d)
    (ht : FileText lines text) (hm : d.allowUnmapped = true ∨ ∀ n ∈ d.commands, n ∈ d.mapped) (hf : d.forward = []) :
    ∃ config, parseConfig env text = some config ∧ List.Forall₂ (Means d.commands) config.contexts d.groups := by
  obtain ⟨config, gs, h1, h2, h3⟩ := C76_contexts env hne hl ht hm
  rw [hf] at h3
  rw [h3.of_none] at h2
  exact ⟨config, h1, h2⟩

/-! ### example -/

private theorem sp0 : Spaces [] := by intro c h; cases h
private theorem sp1 : Spaces [' '] := by intro c h; rw [List.mem_singleton.1 h]; decide

private theorem notBeforeOf {f : Char → Bool} {t : Str} (h : (match t.head? with | none => true | some c => !f c) = true) :
    NotBefore f t := by
  intro c hc
  rw [hc] at h
  simpa using h

private theorem wordOf {n : Str} (h : (!n.isEmpty && n.all isIdentChar) = true) : Word n := by
  rw [Bool.and_eq_true] at h
  exact ⟨by simpa using h.1, by simpa using h.2⟩

private theorem namesOf {ls : List LogicalKey} {n : Str} {k : Key}
    (h : (!n.isEmpty && n.all isIdentChar) = true ∧ namesWith ls n = k ∧ k ≠ Key.none ∧ beginsWithDelay n = false) :
    Names (namesWith ls) n k := ⟨(wordOf h.1).1, (wordOf h.1).2, h.2.1, h.2.2.1, h.2.2.2⟩

private theorem exSimple {t : Str} (h : (match t.head? with | none => true | some c => !isSpaceC c) = true ∧ ∀ c ∈ t, isSimpleChar c = true) :
    Expand [] 30 (.text t) [t] := by
  have := expand_simple (macros := []) (sp := []) (t := t) sp0 (notBeforeOf h.1) h.2 (fun _ w _ _ _ => rfl) 28
  exact this

private def exLines : List Str := ["@forward-modifiers Control".toList, "Shift >> Alt".toList, "Control >> Y".toList]

private def exEnv : CEnv := ⟨genericTyper, fun _ => true, fun _ => none⟩

private def exDoc : Doc :=
  { current := { stage := true, mappings := [([⟨Key.Shift, .Down, 0⟩, ⟨Key.Shift, .UpAsync, 0⟩], .keys [⟨Key.Alt, .Down, 0⟩]),
      ([⟨Key.Control, .Down, 0⟩, ⟨Key.Control, .UpAsync, 0⟩], .keys [⟨Key.KeyY, .Down, 0⟩])] }
    forward := [Key.ControlLeft, Key.ControlRight] }

private theorem exLinesDoc : Doc.Lines exEnv 10 {} exLines exDoc := by
  refine .cons (st := .forward [Key.ControlLeft, Key.ControlRight]) ?_ (.last (notContinued_of (by decide)) (by decide)) ?_
  · exact .statement (noDefinition_of (by decide)) (exSimple (by decide)) (.directive (sp := []) (t := "forward-modifiers Control".toList) sp0 rfl
      (.forward (sp := [' ']) (t := "Control".toList) sp1 (.inr (by decide))
        (.both (w := "Control".toList) (l := ⟨"Control".toList, Key.first_logical + 1, Key.ControlLeft, Key.ControlRight⟩) (sp := []) (t := [])
          (wordOf (by decide)) (by decide) sp0 .nil (notBeforeOf rfl)) (by decide)))
  refine .cons (st := .map false (.keys false [Key.Shift] .nil) (.keys [Key.Alt] .nil)) ?_ (.last (notContinued_of (by decide)) (by decide)) ?_
  · exact pair_line (sp := []) (n := "Shift".toList) (sp1 := [' ']) (sp2 := [' ']) (m := "Alt".toList) (sp3 := []) sp0 sp1 sp1 sp0
      (namesOf (by decide +kernel)) (namesOf (by decide +kernel)) ⟨by decide, by decide⟩ ⟨by decide, by decide⟩ (fun _ w _ _ _ => rfl) (by decide)
      (by decide) (by decide)
  refine .cons (st := .map false (.keys false [Key.Control] .nil) (.keys [Key.KeyY] .nil)) ?_ (.last (notContinued_of (by decide)) (by decide)) .nil
  · exact pair_line (sp := []) (n := "Control".toList) (sp1 := [' ']) (sp2 := [' ']) (m := "Y".toList) (sp3 := []) sp0 sp1 sp1 sp0
      (namesOf (by decide +kernel)) (namesOf (by decide +kernel)) ⟨by decide, by decide⟩ ⟨by decide, by decide⟩ (fun _ w _ _ _ => rfl) (by decide)
      (by decide) (by decide)

private def press (k : Key) : KeySequence := [⟨k, .Down, 0⟩, ⟨k, .UpAsync, 0⟩]

/-- The forwarded modifiers, the alternatives of `Shift` and the ones of `Control`. The outputs of the latter release `Control`. -/
example : ∃ config gs, parseConfig exEnv "@forward-modifiers Control\nShift >> Alt\nControl >> Y".toList = some config ∧
    List.Forall₂ (Means []) config.contexts gs ∧ Suppressed [Key.ControlLeft, Key.ControlRight]
      [⟨{ beginStage := true, systemFilterMatched := true },
        [(press Key.ControlLeft, .keys [⟨Key.ControlLeft, .Down, 0⟩]), (press Key.ControlRight, .keys [⟨Key.ControlRight, .Down, 0⟩]),
         (press Key.ShiftLeft, .keys [⟨Key.AltLeft, .Down, 0⟩]), (press Key.ShiftRight, .keys [⟨Key.AltLeft, .Down, 0⟩]),
         (press Key.ControlLeft, .keys [⟨Key.KeyY, .Down, 0⟩]), (press Key.ControlRight, .keys [⟨Key.KeyY, .Down, 0⟩])], []⟩] gs := by
  have hg : exDoc.groups = [⟨{ beginStage := true, systemFilterMatched := true },
        [(press Key.ControlLeft, .keys [⟨Key.ControlLeft, .Down, 0⟩]), (press Key.ControlRight, .keys [⟨Key.ControlRight, .Down, 0⟩]),
         (press Key.ShiftLeft, .keys [⟨Key.AltLeft, .Down, 0⟩]), (press Key.ShiftRight, .keys [⟨Key.AltLeft, .Down, 0⟩]),
         (press Key.ControlLeft, .keys [⟨Key.KeyY, .Down, 0⟩]), (press Key.ControlRight, .keys [⟨Key.KeyY, .Down, 0⟩])], []⟩] := by decide +kernel
  obtain ⟨config, gs, h1, h2, h3⟩ := C76_contexts exEnv (by decide) exLinesDoc (.inl ⟨rfl, notBeforeOf (by decide)⟩) (.inr (by decide))
  rw [hg] at h3
  exact ⟨config, gs, h1, h2, h3⟩

/-! ### quirk -/

/-- what is output for the operations, with all contexts active -/
private def outputOf (text : String) (ops : List StageOp) : Option KeySequence :=
  (parseConfig plainTyperEnv text.toList).map (fun c =>
    (stageRun (stageInit (c.contexts.map contextOf)) (.contexts (List.range c.contexts.length) :: ops)).2)

private def shiftA : List StageOp := [.input ⟨Key.ShiftLeft, .Down, 0⟩ 0, .input ⟨Key.KeyA, .Down, 0⟩ 0, .input ⟨Key.KeyA, .Up, 0⟩ 0]

/-- **`[modifier != "Shift"]`** is active while one of the shift keys is held, unlike `[modifier = "!Shift"]`: it stands for two contexts which are
active when the left, or the right one is not held. -/
theorem C76_inverted_modifier_counterexample :
    outputOf "[modifier != \"Shift\"]\nA >> B" shiftA = some [⟨Key.ShiftLeft, .Down, 0⟩, ⟨Key.KeyB, .Down, 0⟩, ⟨Key.KeyB, .Up, 0⟩] ∧
    outputOf "[modifier = \"!Shift\"]\nA >> B" shiftA = some [⟨Key.ShiftLeft, .Down, 0⟩, ⟨Key.KeyA, .Down, 0⟩, ⟨Key.KeyA, .Up, 0⟩] := by
  constructor <;> decide +kernel

end KM
