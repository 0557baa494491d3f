import Verif.Model.ParseConfig
import Verif.Lemmas.KeyRange
/-!
# Parsing a configuration as a sequence of steps

Everything the parser does to its state, as far as contexts, commands, actions, logical keys and
forwarded modifiers are concerned, is one of a few steps. Invariants only need to be shown for these.
-/
namespace KM

/-- A key which has a name, or is the key of an unnamed intermediate logical key -/
def IsKeyName (s : CState) (k : Key) : Prop :=
  k ≠ Key.none ∧ ((∃ n, s.getKey n = k) ∨ ∃ l ∈ s.logical, l.both = k)

/-- A filter contains a regular expression when its string looks like one -/
def FilterOk (f : Filter) : Prop := f.isRegex = isRegexStr f.string

/-- No filter restricts the context -/
structure Unrestricted (c : CContext) : Prop where
  windowClass : c.windowClass = {}
  windowTitle : c.windowTitle = {}
  windowPath : c.windowPath = {}
  deviceFilter : c.deviceFilter = {}
  deviceIdFilter : c.deviceIdFilter = {}
  modifierFilter : c.modifierFilter = []
  systemFilterMatched : c.systemFilterMatched = true

/-- All filters of the context are consistent -/
structure FiltersOk (c : CContext) : Prop where
  windowClass : FilterOk c.windowClass
  windowTitle : FilterOk c.windowTitle
  windowPath : FilterOk c.windowPath
  deviceFilter : FilterOk c.deviceFilter
  deviceIdFilter : FilterOk c.deviceIdFilter

/-- A modifier filter of the configuration file -/
def ModifierFilterOk (s : CState) (l : KeySequence) : Prop :=
  ∀ e ∈ l, IsKeyName s e.key ∧ e.key ≠ Key.ContextActive ∧ (e.state = .Down ∨ e.state = .Not) ∧ e.value = 0

/-- A context as it is added -/
structure FreshContext (s : CState) (c : CContext) : Prop where
  inputs : c.inputs = []
  outputs : c.outputs = []
  commandOutputs : c.commandOutputs = []
  fallthrough : c.fallthrough = false
  stage : c.beginStage = true → Unrestricted c
  filters : FiltersOk c
  modifier : ModifierFilterOk s c.modifierFilter

/-- Nothing which is of interest changed, apart from the forwarded modifiers and the filters of
devices. -/
structure CSame (s s' : CState) : Prop where
  contexts : s'.cfg.contexts = s.cfg.contexts
  actions : s'.cfg.actions = s.cfg.actions
  commands : s'.commands = s.commands
  logical : s'.logical = s.logical
  forward : ∀ k ∈ s'.forwardModifiers, k ∈ s.forwardModifiers ∨ isDeviceKey k = true ∨
    ∃ l ∈ s.logical, k = l.left ∨ k = l.right
  grab : ∀ f ∈ s'.cfg.grabDeviceFilters, f ∈ s.cfg.grabDeviceFilters ∨ FilterOk f.toFilter
  after : s'.afterEmpty = true → s.afterEmpty = true

/-- The contexts after another one was added -/
def CState.pushContext (s : CState) (c : CContext) : List CContext :=
  if s.afterEmpty && !c.beginStage then setPrevFallthrough (s.cfg.contexts ++ [c])
  else s.cfg.contexts ++ [c]

/-- One step of the parser -/
inductive CStep (env : CEnv) : CState → CState → Prop where
  | mapping (s s1 : CState) (tin tout : Str) (input output : KeySequence) : s.afterEmpty = false →
      s.parseInput env tin = some input → s.parseOutput env tout = some (s1, output) →
      CStep env s (s1.addMapping input output)
  | command (s : CState) (tin : Str) (input : KeySequence) (name : Str) : s.afterEmpty = false →
      s.parseInput env tin = some input → name ≠ [] → s.getKey name = Key.none →
      CStep env s (s.addCommand input name)
  | commandMapping (s s1 s2 : CState) (tout : Str) (name : Str) (output : KeySequence) :
      s.afterEmpty = false →
      s.parseOutput env tout = some (s1, output) → s1.addCommandMapping name output = some s2 →
      CStep env s s2
  | unmapped (s s1 : CState) (tout : Str) (output : KeySequence) : s.allowUnmapped = true →
      s.parseOutput env tout = some (s1, output) → CStep env s s1
  | context (s : CState) (c : CContext) : FreshContext s c →
      CStep env s { s with
        cfg := { s.cfg with contexts := s.pushContext c }
        systemMatched := c.systemFilterMatched
        afterEmpty := !c.beginStage }
  | logical (s : CState) (name : Str) (left right : Key) : IsKeyName s left → IsKeyName s right →
      CStep env s (s.addLogicalKey name left right).1
  | other (s s' : CState) : CSame s s' → CStep env s s'

/-- Any number of steps -/
inductive CSteps (env : CEnv) : CState → CState → Prop where
  | refl (s : CState) : CSteps env s s
  | tail {s t u : CState} : CSteps env s t → CStep env t u → CSteps env s u

theorem CSteps.one {env : CEnv} {s t : CState} (h : CStep env s t) : CSteps env s t := .tail (.refl s) h

theorem CSteps.trans {env : CEnv} {s t u : CState} (h1 : CSteps env s t) (h2 : CSteps env t u) :
    CSteps env s u := by
  induction h2 with
  | refl => exact h1
  | tail _ h ih => exact ih.tail h

/-- Invariants are shown step by step. -/
theorem CSteps.inv {env : CEnv} {P : CState → Prop} (hstep : ∀ s t, CStep env s t → P s → P t)
    {s t : CState} (h : CSteps env s t) (hs : P s) : P t := by
  induction h with
  | refl => exact hs
  | tail _ h ih => exact hstep _ _ h ih

/-! ## Mappings -/

theorem modCurrent_after (s : CState) (f : CContext → CContext) :
    (s.modCurrent f).afterEmpty = s.afterEmpty := by
  unfold CState.modCurrent
  split <;> rfl

theorem parseOutput_after {env : CEnv} {s s1 : CState} {t : Str} {out : KeySequence}
    (h : s.parseOutput env t = some (s1, out)) : s1.afterEmpty = s.afterEmpty := by
  unfold CState.parseOutput at h
  simp only at h
  split at h
  · cases h
  · split at h
    · cases h
    · injection h with h
      simp only [Prod.mk.injEq] at h
      rw [← h.1]

theorem addCommandMapping_after {s s2 : CState} {name : Str} {output : KeySequence}
    (h : s.addCommandMapping name output = some s2) : s2.afterEmpty = s.afterEmpty := by
  unfold CState.addCommandMapping at h
  split at h
  · cases h
  · split at h
    · cases h
    · split at h
      · cases h
      · injection h with h
        rw [← h]
        exact modCurrent_after s _

theorem addCommand_after (s : CState) (input : KeySequence) (name : Str) :
    (s.addCommand input name).afterEmpty = s.afterEmpty := by
  unfold CState.addCommand
  split
  · exact modCurrent_after _ _
  · exact modCurrent_after _ _

theorem parseCommandAndMapping_steps {env : CEnv} {s s' : CState} {a b : Str} (he : s.afterEmpty = false)
    (h : s.parseCommandAndMapping env a b = some s') : CSteps env s s' ∧ s'.afterEmpty = false := by
  unfold CState.parseCommandAndMapping at h
  split at h
  · cases h
  · next input hin =>
    simp only at h
    split at h
    · next hne =>
      injection h with h
      subst h
      have hne' : s.parseCommandName b ≠ [] := by simpa using hne
      refine ⟨.one (.command s a input _ he hin hne' ?_), (addCommand_after _ _ _).trans he⟩
      unfold CState.parseCommandName at hne' ⊢
      simp only at hne' ⊢
      split
      · next hc => rw [if_pos hc] at hne'; exact absurd rfl hne'
      · next hc =>
        simp only [Bool.or_eq_true, not_or] at hc
        simpa using hc.1.2
    · split at h
      · cases h
      · next s1 output ho =>
        injection h with h
        subst h
        exact ⟨.one (.mapping s s1 a b input output he hin ho),
          (modCurrent_after _ _).trans ((parseOutput_after ho).trans he)⟩

theorem parseMapping_steps {env : CEnv} {s s' : CState} {b : Str} (he : s.afterEmpty = false)
    (h : s.parseMapping env b = some s') : CSteps env s s' ∧ s'.afterEmpty = false := by
  unfold CState.parseMapping at h
  simp only at h
  split at h
  · next out hout =>
    split at h
    · split at h
      · cases h
      · next s1 output ho =>
        exact ⟨.one (.commandMapping s s1 s' out _ output he ho h),
          (addCommandMapping_after h).trans ((parseOutput_after ho).trans he)⟩
    · split at h
      · split at h
        · cases h
        · next hu =>
          cases ho : s.parseOutput env out with
          | none => rw [ho] at h; cases h
          | some r =>
            rw [ho] at h
            injection h with h
            subst h
            exact ⟨.one (.unmapped s r.1 out r.2 (by simpa using hu) ho), (parseOutput_after ho).trans he⟩
      · exact parseCommandAndMapping_steps he h
  · unfold CState.parseMappingSequence at h
    split at h
    · exact parseCommandAndMapping_steps he h
    · cases h

theorem parseMappings_steps {env : CEnv} (it : Str) : ∀ {s s' : CState},
    s.afterEmpty = false → s.parseMappings env it = some s' → CSteps env s s' := by
  induction h : it.length using Nat.strongRecOn generalizing it with
  | ind n ih =>
    intro s s' he hp
    subst h
    unfold CState.parseMappings at hp
    split at hp
    · injection hp with hp; subst hp; exact .refl _
    · split at hp
      · cases hp
      · split at hp
        · cases hp
        · next s1 h1 =>
          split at hp
          · next hl => exact (parseMapping_steps he h1).1.trans (ih _ hl _ rfl (parseMapping_steps he h1).2 hp)
          · cases hp

/-! ## Contexts -/

theorem readFilter_ok {env : CEnv} {s : CState} {it : Str} {invert : Bool} {f : Filter} {r : Str}
    (h : s.readFilter env it invert = some (f, r)) : FilterOk f := by
  unfold CState.readFilter at h
  split at h
  · cases h
  · split at h
    · cases h
    · split at h
      · next hr =>
        split at h
        · injection h with h
          simp only [Prod.mk.injEq] at h
          rw [← h.1]
          exact hr.symm
        · cases h
      · next hr =>
        injection h with h
        simp only [Prod.mk.injEq] at h
        rw [← h.1]
        simpa [FilterOk] using hr

theorem parseModifierList_ok {s : CState} (it : Str) : ∀ {acc l : KeySequence},
    ModifierFilterOk s acc → s.parseModifierList it acc = some l → ModifierFilterOk s l := by
  induction h : it.length using Nat.strongRecOn generalizing it with
  | ind n ih =>
    intro acc l hacc hp
    subst h
    unfold CState.parseModifierList at hp
    split at hp
    · injection hp with hp; subst hp; exact hacc
    · next c cs _ =>
      simp only at hp
      generalize hn : (if (c == '!') = true then (true, cs) else (false, c :: cs)) = nb at hp
      split at hp
      · cases hp
      · next hk =>
        split at hp
        · next hl =>
          refine ih _ hl _ rfl ?_ hp
          split
          · exact hacc
          · intro e he
            simp only [Bool.or_eq_true, not_or, beq_iff_eq] at hk
            rcases List.mem_append.1 he with he | he
            · exact hacc e he
            · rw [List.mem_singleton.1 he]
              refine ⟨⟨hk.1, .inl ⟨_, rfl⟩⟩, hk.2, ?_, rfl⟩
              cases nb.1
              · exact .inl rfl
              · exact .inr rfl
        · cases hp

theorem parseAttribute_fresh {env : CEnv} {s : CState} {c c' : CContext} {a : String} {invert : Bool}
    {it r : Str} (hc : FreshContext s c ∧ c.beginStage = false)
    (h : s.parseAttribute env c a invert it = some (c', r)) :
    FreshContext s c' ∧ c'.beginStage = false := by
  obtain ⟨hc, hb⟩ := hc
  have hf : ∀ (g : Filter → CContext), (∀ f, FilterOk f → FreshContext s (g f) ∧ (g f).beginStage = false) →
      (s.readFilter env it invert).map (fun (f, r) => (g f, r)) = some (c', r) →
      FreshContext s c' ∧ c'.beginStage = false := by
    intro g hg h
    cases hr : s.readFilter env it invert with
    | none => rw [hr] at h; cases h
    | some p =>
      rw [hr] at h
      injection h with h
      simp only [Prod.mk.injEq] at h
      rw [← h.1]
      exact hg p.1 (readFilter_ok (f := p.1) (r := p.2) hr)
  unfold CState.parseAttribute at h
  split at h
  · refine hf (fun f => { c with windowClass := f }) (fun f ho => ⟨⟨hc.inputs, hc.outputs, hc.commandOutputs, hc.fallthrough, fun h => ?_, ⟨ho, hc.filters.windowTitle, hc.filters.windowPath, hc.filters.deviceFilter, hc.filters.deviceIdFilter⟩, hc.modifier⟩, hb⟩) h
    exact absurd h (by simp [hb])
  · split at h
    · refine hf (fun f => { c with windowTitle := f }) (fun f ho => ⟨⟨hc.inputs, hc.outputs, hc.commandOutputs, hc.fallthrough, fun h => ?_, ⟨hc.filters.windowClass, ho, hc.filters.windowPath, hc.filters.deviceFilter, hc.filters.deviceIdFilter⟩, hc.modifier⟩, hb⟩) h
      exact absurd h (by simp [hb])
    · split at h
      · refine hf (fun f => { c with windowPath := f }) (fun f ho => ⟨⟨hc.inputs, hc.outputs, hc.commandOutputs, hc.fallthrough, fun h => ?_, ⟨hc.filters.windowClass, hc.filters.windowTitle, ho, hc.filters.deviceFilter, hc.filters.deviceIdFilter⟩, hc.modifier⟩, hb⟩) h
        exact absurd h (by simp [hb])
      · split at h
        · cases hr : readValue it with
          | none => rw [hr] at h; cases h
          | some p =>
            rw [hr] at h
            injection h with h
            simp only [Prod.mk.injEq] at h
            rw [← h.1]
            exact ⟨⟨hc.inputs, hc.outputs, hc.commandOutputs, hc.fallthrough, fun h => absurd h (by simp [hb]), ⟨hc.filters.windowClass, hc.filters.windowTitle, hc.filters.windowPath, hc.filters.deviceFilter, hc.filters.deviceIdFilter⟩, hc.modifier⟩, hb⟩
        · split at h
          · refine hf (fun f => { c with deviceFilter := f }) (fun f ho => ⟨⟨hc.inputs, hc.outputs, hc.commandOutputs, hc.fallthrough, fun h => ?_, ⟨hc.filters.windowClass, hc.filters.windowTitle, hc.filters.windowPath, ho, hc.filters.deviceIdFilter⟩, hc.modifier⟩, hb⟩) h
            exact absurd h (by simp [hb])
          · split at h
            · refine hf (fun f => { c with deviceIdFilter := f }) (fun f ho => ⟨⟨hc.inputs, hc.outputs, hc.commandOutputs, hc.fallthrough, fun h => ?_, ⟨hc.filters.windowClass, hc.filters.windowTitle, hc.filters.windowPath, hc.filters.deviceFilter, ho⟩, hc.modifier⟩, hb⟩) h
              exact absurd h (by simp [hb])
            · split at h
              · split at h
                · cases h
                · split at h
                  · cases h
                  · next v _ =>
                    cases hr : s.parseModifierList v [] with
                    | none => rw [hr] at h; cases h
                    | some l =>
                      rw [hr] at h
                      injection h with h
                      simp only [Prod.mk.injEq] at h
                      rw [← h.1]
                      exact ⟨⟨hc.inputs, hc.outputs, hc.commandOutputs, hc.fallthrough, fun h => absurd h (by simp [hb]), ⟨hc.filters.windowClass, hc.filters.windowTitle, hc.filters.windowPath, hc.filters.deviceFilter, hc.filters.deviceIdFilter⟩, parseModifierList_ok v (by intro e he; cases he) hr⟩, hb⟩
              · cases h

theorem parseAttributes_fresh {env : CEnv} {s : CState} (it : Str) : ∀ {c c' : CContext} {r : Str},
    FreshContext s c ∧ c.beginStage = false → s.parseAttributes env c it = some (c', r) →
    FreshContext s c' ∧ c'.beginStage = false := by
  induction h : it.length using Nat.strongRecOn generalizing it with
  | ind n ih =>
    intro c c' r hc hp
    subst h
    unfold CState.parseAttributes at hp
    simp only at hp
    split at hp
    · cases hp
    · split at hp
      · split at hp
        · cases hp
        · next c1 it5 h1 =>
          have := parseAttribute_fresh hc h1
          split at hp
          · injection hp with hp
            simp only [Prod.mk.injEq] at hp
            rw [← hp.1]
            exact this
          · split at hp
            · split at hp
              · cases hp
              · split at hp
                · next hl => exact ih _ hl _ rfl this hp
                · cases hp
            · split at hp
              · cases hp
              · split at hp
                · next hl => exact ih _ hl _ rfl this hp
                · cases hp
      · cases hp

theorem fresh_new (s : CState) (b : Bool) : FreshContext s { systemFilterMatched := true, beginStage := b } :=
  ⟨rfl, rfl, rfl, rfl, fun _ => ⟨rfl, rfl, rfl, rfl, rfl, rfl, rfl⟩, ⟨rfl, rfl, rfl, rfl, rfl⟩,
    by intro e he; cases he⟩

theorem parseContextHead_fresh {env : CEnv} {s : CState} {it r : Str} {c : CContext}
    (h : s.parseContextHead env it = some (c, r)) : FreshContext s c := by
  unfold CState.parseContextHead at h
  simp only at h
  split at h
  · next r' _ =>
    cases hr : skipContextEnd r' with
    | none => rw [hr] at h; cases h
    | some x =>
      rw [hr] at h
      injection h with h
      simp only [Prod.mk.injEq] at h
      rw [← h.1]
      exact fresh_new s false
  · split at h
    · next r' _ =>
      cases hr : skipContextEnd r' with
      | none => rw [hr] at h; cases h
      | some x =>
        rw [hr] at h
        injection h with h
        simp only [Prod.mk.injEq] at h
        rw [← h.1]
        exact fresh_new s true
    · exact (parseAttributes_fresh _ ⟨fresh_new s false, rfl⟩ h).1

theorem CSame.refl (s : CState) : CSame s s :=
  ⟨rfl, rfl, rfl, rfl, fun _ h => .inl h, fun _ h => .inl h, id⟩

theorem parseContextLine_steps {env : CEnv} {s s' : CState} {it : Str}
    (h : s.parseContextLine env it = some s') : CSteps env s s' := by
  unfold CState.parseContextLine at h
  split at h
  · cases h
  · next s1 h1 =>
    unfold CState.parseContext at h1
    split at h1
    · cases h1
    · next c rest hc =>
      split at h1
      · injection h1 with h1
        subst h1
        have hlast : (s.cfg.contexts ++ [c]).getLast? = some c := by simp
        simp only [hlast] at h
        have := CStep.context (env := env) s c (parseContextHead_fresh hc)
        split at h
        · next hb =>
          injection h with h
          subst h
          simp only [CState.pushContext, hb, Bool.not_true, Bool.and_false, Bool.false_eq_true, if_false] at this
          exact .one this
        · next hb =>
          have hb : c.beginStage = false := by simpa using hb
          injection h with h
          subst h
          simp only [CState.pushContext, hb, Bool.not_false, Bool.and_true] at this
          cases hs : s.afterEmpty with
          | true =>
            rw [if_pos hs] at this
            simp only [if_true]
            exact .one this
          | false =>
            simp only [hs, Bool.false_eq_true, if_false] at this ⊢
            exact .one this
      · cases h1

/-! ## Logical keys -/

theorem getKey_mono {s : CState} {name : Str} {l r : Key} {n : Str} (h : s.getKey n ≠ Key.none) :
    (s.addLogicalKey name l r).1.getKey n = s.getKey n := by
  unfold CState.getKey CState.addLogicalKey at *
  simp only at *
  split
  · rfl
  · next hk =>
    rw [if_neg hk] at h
    rw [List.find?_append]
    cases hf : s.logical.find? (fun l => l.name == n) with
    | none => rw [hf] at h; exact absurd rfl h
    | some l => rfl

theorem IsKeyName.mono {s : CState} {k : Key} (h : IsKeyName s k) (name : Str) (l r : Key) :
    IsKeyName (s.addLogicalKey name l r).1 k := by
  refine ⟨h.1, ?_⟩
  rcases h.2 with ⟨n, hn⟩ | ⟨x, hx, hk⟩
  · exact .inl ⟨n, by rw [getKey_mono (by rw [hn]; exact h.1)]; exact hn⟩
  · exact .inr ⟨x, List.mem_append_left _ hx, hk⟩

theorem IsKeyName.both (s : CState) (name : Str) (l r : Key) :
    IsKeyName (s.addLogicalKey name l r).1 (s.addLogicalKey name l r).2 := by
  refine ⟨?_, .inr ⟨⟨name, _, l, r⟩, List.mem_append_right _ (List.mem_singleton_self _), rfl⟩⟩
  intro h
  have h : 62208 + s.logical.length = 0 := h
  omega

theorem parseLogicalGo_steps {env : CEnv} (name : Str) (it : Str) : ∀ {s s' : CState} {left : Key},
    IsKeyName s left → s.parseLogicalGo name left it = some s' → CSteps env s s' := by
  induction h : it.length using Nat.strongRecOn generalizing it with
  | ind n ih =>
    intro s s' left hk hp
    subst h
    unfold CState.parseLogicalGo at hp
    simp only at hp
    split at hp
    · cases hp
    · next nm _ =>
      split at hp
      · cases hp
      · next hr =>
        have hright : IsKeyName s (s.getKey nm) := ⟨by simpa using hr, .inl ⟨_, rfl⟩⟩
        split at hp
        · split at hp
          · next hl =>
            exact (CSteps.one (.logical s ['$'] left _ hk hright)).trans (ih _ hl _ rfl (IsKeyName.both s _ _ _) hp)
          · cases hp
        · split at hp
          · injection hp with hp
            subst hp
            exact .one (.logical s name left _ hk hright)
          · cases hp

theorem parseLogicalKey_steps {env : CEnv} {s s' : CState} {name it : Str}
    (h : s.parseLogicalKey name it = some (some s')) : CSteps env s s' := by
  unfold CState.parseLogicalKey at h
  split at h
  · cases h
  · simp only at h
    split at h
    · cases h
    · next nm _ =>
      split at h
      · next r _ =>
        split at h
        · cases h
        · next hl =>
          cases hg : s.parseLogicalGo name (s.getKey nm) r with
          | none => rw [hg] at h; cases h
          | some s1 =>
            rw [hg] at h
            injection h with h
            injection h with h
            subst h
            exact parseLogicalGo_steps name r ⟨by simpa using hl, .inl ⟨_, rfl⟩⟩ hg
      · cases h

/-! ## Directives -/

theorem addUnique_mem {ks l : List Key} {k : Key} (h : k ∈ addUnique l ks) : k ∈ l ∨ k ∈ ks := by
  unfold addUnique at h
  induction ks generalizing l with
  | nil => exact .inl h
  | cons x ks ih =>
    rw [List.foldl_cons] at h
    rcases ih h with h | h
    · split at h
      · exact .inl h
      · rcases List.mem_append.1 h with h | h
        · exact .inl h
        · exact .inr (List.mem_cons.2 (.inl (List.mem_singleton.1 h)))
    · exact .inr (List.mem_cons_of_mem _ h)

theorem parseForwardModifiers_ok {s : CState} (it : Str) : ∀ {acc l : List Key},
    s.parseForwardModifiers it acc = some l → ∀ k ∈ l, k ∈ acc ∨ isDeviceKey k = true ∨
      ∃ x ∈ s.logical, k = x.left ∨ k = x.right := by
  induction h : it.length using Nat.strongRecOn generalizing it with
  | ind n ih =>
    intro acc l hp k hk
    subst h
    unfold CState.parseForwardModifiers at hp
    split at hp
    · injection hp with hp; subst hp; exact .inl hk
    · simp only at hp
      split at hp
      · cases hp
      · split at hp
        · cases hp
        · next keys hkeys =>
          split at hp
          · next hl =>
            rcases ih _ hl _ rfl hp k hk with h | h
            · rcases addUnique_mem h with h | h
              · exact .inl h
              · right
                rw [CState.forwardKeys] at hkeys; split at hkeys
                · next x hx =>
                  injection hkeys with hkeys
                  rw [← hkeys] at h
                  refine .inr ⟨x, List.mem_of_find?_eq_some hx, ?_⟩
                  simpa using h
                · split at hkeys
                  · next hd =>
                    injection hkeys with hkeys
                    rw [← hkeys] at h
                    rw [List.mem_singleton.1 h]
                    exact .inl hd
                  · cases hkeys
            · exact .inr h
          · cases hp

theorem addGrabFilter_same {env : CEnv} {s : CState} {it : Str} {a b : Bool} {p : CState × Str}
    (h : s.addGrabFilter env it a b = some p) : CSame s p.1 := by
  unfold CState.addGrabFilter at h
  cases hr : s.readFilter env it a with
  | none => rw [hr] at h; cases h
  | some q =>
    rw [hr] at h
    injection h with h
    subst h
    refine ⟨rfl, rfl, rfl, rfl, fun _ h => .inl h, ?_, id⟩
    intro f hf
    rcases List.mem_append.1 hf with hf | hf
    · exact .inl hf
    · rw [List.mem_singleton.1 hf]
      exact .inr (readFilter_ok (f := q.1) (r := q.2) hr)

theorem same_map {α : Type} {s : CState} {o : Option α} {f : α → CState × Str} {p : CState × Str}
    (hf : ∀ a, CSame s (f a).1) (h : o.map f = some p) : CSame s p.1 := by
  cases o with
  | none => cases h
  | some a => injection h with h; subst h; exact hf a

theorem ite_or {α : Type} {c : Prop} [Decidable c] {a b : Option α} {p : α}
    (h : (if c then a else b) = some p) : a = some p ∨ b = some p := by
  by_cases hc : c
  · rw [if_pos hc] at h; exact .inl h
  · rw [if_neg hc] at h; exact .inr h

theorem directive_steps {env : CEnv} {incl : CState → Str → Option CState}
    (hincl : ∀ s t s', incl s t = some s' → CSteps env s s') {s : CState} {ident : String} {it : Str}
    {p : CState × Str} (h : s.directive env incl ident it = some p) : CSteps env s p.1 := by
  have same : ∀ {p : CState × Str}, CSame s p.1 → CSteps env s p.1 := fun h => .one (.other _ _ h)
  unfold CState.directive at h
  rcases ite_or h with h | h
  · split at h
    · cases h
    · next name rest _ =>
      split at h
      · cases h
      · next content _ =>
        cases hi : incl { s with cfg := { s.cfg with includes := s.cfg.includes ++ [name] } } content with
        | none => rw [hi] at h; cases h
        | some s1 =>
          rw [hi] at h
          injection h with h
          subst h
          refine (CSteps.one (.other s _ ?_)).trans (hincl _ _ _ hi)
          exact ⟨rfl, rfl, rfl, rfl, fun _ h => .inl h, fun _ h => .inl h, id⟩
  rcases ite_or h with h | h
  · exact same (addGrabFilter_same h)
  rcases ite_or h with h | h
  · exact same (addGrabFilter_same h)
  rcases ite_or h with h | h
  · exact same (addGrabFilter_same h)
  rcases ite_or h with h | h
  · exact same (addGrabFilter_same h)
  rcases ite_or h with h | h
  · exact same (same_map (fun _ => ⟨rfl, rfl, rfl, rfl, fun _ h => .inl h, fun _ h => .inl h, id⟩) h)
  rcases ite_or h with h | h
  · exact same (same_map (fun _ => ⟨rfl, rfl, rfl, rfl, fun _ h => .inl h, fun _ h => .inl h, id⟩) h)
  rcases ite_or h with h | h
  · cases hm : s.parseForwardModifiers it [] with
    | none => rw [hm] at h; cases h
    | some l =>
      rw [hm] at h
      injection h with h
      subst h
      refine same ⟨rfl, rfl, rfl, rfl, ?_, fun _ h => .inl h, id⟩
      intro k hk
      rcases parseForwardModifiers_ok it hm k hk with h | h
      · cases h
      · exact .inr h
  rcases ite_or h with h | h
  · injection h with h; subst h
    exact same ⟨rfl, rfl, rfl, rfl, fun _ h => .inl h, fun _ h => .inl h, id⟩
  rcases ite_or h with h | h
  · split at h
    · cases h
    · split at h
      · injection h with h; subst h; exact .refl _
      · cases h
  rcases ite_or h with h | h
  · refine same (same_map (fun a => ?_) h)
    obtain ⟨b, r⟩ := a
    cases b <;> exact ⟨rfl, rfl, rfl, rfl, fun _ h => .inl h, fun _ h => .inl h, id⟩
  rcases ite_or h with h | h
  · split at h
    · injection h with h; subst h
      exact same ⟨rfl, rfl, rfl, rfl, fun _ h => .inl h, fun _ h => .inl h, id⟩
    · cases h
  · cases h

/-! ## Lines and files -/

theorem parseStatement_steps {env : CEnv} {incl : CState → Str → Option CState}
    (hincl : ∀ s t s', incl s t = some s' → CSteps env s s') {s s' : CState} {line : Str}
    (h : s.parseStatement env incl line = some s') : CSteps env s s' := by
  unfold CState.parseStatement at h
  split at h
  · cases h
  · split at h
    · unfold CState.parseDirective at h
      split at h
      · injection h with h; subst h; exact .refl _
      · simp only at h
        split at h
        · cases h
        · next s1 rest hd =>
          split at h
          · injection h with h; subst h
            exact directive_steps hincl hd
          · cases h
    · exact parseContextLine_steps h
    · refine (CSteps.one (.other s _ ?_)).trans (parseMappings_steps _ rfl h)
      exact ⟨rfl, rfl, rfl, rfl, fun _ h => .inl h, fun _ h => .inl h, fun h => (by cases h)⟩

theorem parseLine_steps {env : CEnv} {incl : CState → Str → Option CState}
    (hincl : ∀ s t s', incl s t = some s' → CSteps env s s') {s s' : CState} {line : Str}
    (h : s.parseLine env incl line = some s') : CSteps env s s' := by
  unfold CState.parseLine at h
  simp only at h
  split at h
  · split at h
    · cases h
    · next hl =>
      injection h with h
      subst h
      exact parseLogicalKey_steps hl
    · unfold CState.parseMacro at h
      split at h
      · cases h
      · split at h
        · injection h with h; subst h
          exact .one (.other _ _ ⟨rfl, rfl, rfl, rfl, fun _ h => .inl h, fun _ h => .inl h, id⟩)
        · injection h with h; subst h; exact .refl _
  · exact parseStatement_steps hincl h

theorem parseLines_steps {env : CEnv} {incl : CState → Str → Option CState}
    (hincl : ∀ s t s', incl s t = some s' → CSteps env s s') (lines : List Str) : ∀ {prev : Str} {s s' : CState},
    CState.parseLines env incl lines prev s = some s' → CSteps env s s' := by
  induction lines with
  | nil => intro prev s s' h; injection h with h; subst h; exact .refl _
  | cons line lines ih =>
    intro prev s s' h
    unfold CState.parseLines at h
    split at h
    · injection h with h; subst h; exact .refl _
    · simp only at h
      split at h
      · exact ih h
      · split at h
        · cases h
        · next s1 h1 => exact (parseLine_steps hincl h1).trans (ih h)

theorem parseFile_steps {env : CEnv} (n : Nat) : ∀ {s s' : CState} {content : Str},
    CState.parseFile env n s content = some s' → CSteps env s s' := by
  induction n with
  | zero =>
    intro s s' content h
    exact parseLines_steps (by intro _ _ _ h; cases h) _ h
  | succ n ih =>
    intro s s' content h
    exact parseLines_steps (fun _ _ _ h => ih h) _ h

end KM
