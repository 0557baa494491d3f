import Verif.Lemmas.ConfigChain
import Verif.Lemmas.ParseKeys
import Verif.Lemmas.ParseInputFinal
/-!
# Invariants of the parser of configurations
-/
namespace KM

/-- What names can denote when there are `n` logical keys -/
def SourceKey (n : Nat) (k : Key) : Prop :=
  DeviceKey k ∨ k = Key.any ∨ k = Key.ContextActive ∨
  (Key.first_virtual ≤ k ∧ k ≤ Key.first_virtual + 255) ∨
  (Key.first_logical ≤ k ∧ k < Key.first_logical + n)

theorem SourceKey.mono {n m : Nat} (h : n ≤ m) {k : Key} (hk : SourceKey n k) : SourceKey m k := by
  rcases hk with h1 | h1 | h1 | h1 | ⟨h1, h2⟩
  · exact .inl h1
  · exact .inr (.inl h1)
  · exact .inr (.inr (.inl h1))
  · exact .inr (.inr (.inr (.inl h1)))
  · exact .inr (.inr (.inr (.inr ⟨h1, Nat.lt_of_lt_of_le h2 (Nat.add_le_add_left h _)⟩)))

theorem SourceKey.ne_none {n : Nat} {k : Key} (h : SourceKey n k) : k ≠ Key.none := by
  rintro rfl
  rcases h with ⟨h, -⟩ | h | h | ⟨h, -⟩ | ⟨h, -⟩
  · exact absurd h (by decide)
  · exact absurd h (by decide)
  · exact absurd h (by decide)
  · exact absurd h (by decide)
  · exact absurd h (by decide)

theorem SourceKey.ne_timeout {n : Nat} {k : Key} (h : SourceKey n k) : k ≠ Key.timeout := by
  rintro rfl
  rcases h with ⟨-, h⟩ | h | h | ⟨h, -⟩ | ⟨h, -⟩
  · exact absurd h (by decide)
  · exact absurd h (by decide)
  · exact absurd h (by decide)
  · exact absurd h (by decide)
  · exact absurd h (by decide)

/-- a key which is not a logical one -/
theorem SourceKey.zero {n : Nat} {k : Key} (h : SourceKey n k) (hk : k < Key.first_logical) : SourceKey 0 k := by
  rcases h with h | h | h | h | ⟨h, -⟩
  · exact .inl h
  · exact .inr (.inl h)
  · exact .inr (.inr (.inl h))
  · exact .inr (.inr (.inr (.inl h)))
  · exact absurd hk (Nat.not_lt.2 h)

theorem NamedRange.source {n : Nat} (hn : 4 ≤ n) {k : Key} (h : NamedRange k) (h0 : k ≠ Key.none) :
    SourceKey n k := by
  rcases h with h | h | h | h | h
  · exact .inl ⟨Nat.pos_of_ne_zero h0, h⟩
  · exact .inr (.inl h)
  · exact .inr (.inr (.inl h))
  · exact .inr (.inr (.inr (.inl h)))
  · refine .inr (.inr (.inr (.inr ?_)))
    simp only [List.mem_cons, List.not_mem_nil, or_false] at h
    have : Key.first_logical + 4 ≤ Key.first_logical + n := Nat.add_le_add_left hn _
    rcases h with h | h | h | h <;> subst h <;>
      exact ⟨by decide, Nat.lt_of_lt_of_le (by decide) this⟩

/-- The typer only uses keys of a keyboard -/
def TyperOk (env : CEnv) : Prop := ∀ s l, env.typer s = some l → ∀ t ∈ l, DeviceKey t.key

/-- The invariant of the definitions -/
structure StateOk (s : CState) : Prop where
  numbered : LogicalNumbered s.logical
  builtin : 4 ≤ s.logical.length
  below : ∀ (i : Nat) (l : LogicalKey), s.logical[i]? = some l → SourceKey i l.left ∧ SourceKey i l.right
  commands : ∀ (j : Nat) (c : Command), s.commands[j]? = some c → c.index = -((j : Int) + 1)
  contexts : s.cfg.contexts ≠ []

theorem StateOk.getKey {s : CState} (h : StateOk s) (n : Str) (h0 : s.getKey n ≠ Key.none) :
    SourceKey s.logical.length (s.getKey n) := by
  rcases s.getKey_range h.numbered n with h1 | h1
  · exact h1.source h.builtin h0
  · exact .inr (.inr (.inr (.inr h1)))

theorem StateOk.keyName {s : CState} (h : StateOk s) {k : Key} (hk : IsKeyName s k) :
    SourceKey s.logical.length k := by
  obtain ⟨h0, ⟨n, rfl⟩ | ⟨l, hl, rfl⟩⟩ := hk
  · exact h.getKey n h0
  · obtain ⟨i, hi⟩ := List.mem_iff_getElem?.1 hl
    rw [h.numbered i l hi]
    refine .inr (.inr (.inr (.inr ⟨Nat.le_add_right _ _, Nat.add_lt_add_left ?_ _⟩)))
    exact (List.getElem?_eq_some_iff.1 hi).1

/-- `t` has at least the definitions of `s` -/
structure Extends (s t : CState) : Prop where
  logical : s.logical <+: t.logical
  commands : s.commands.length ≤ t.commands.length
  actions : s.cfg.actions <+: t.cfg.actions

theorem modFirst_length {α : Type} (p : α → Bool) (f : α → α) (l : List α) :
    (modFirst p f l).length = l.length := by
  induction l with
  | nil => rfl
  | cons a l ih => unfold modFirst; split <;> simp [ih]

theorem modFirst_map {α β : Type} (g : α → β) (p : α → Bool) {f : α → α} (hf : ∀ a, g (f a) = g a) (l : List α) :
    (modFirst p f l).map g = l.map g := by
  induction l with
  | nil => rfl
  | cons a l ih => unfold modFirst; split <;> simp [ih, hf]

theorem pushContext_ne (s : CState) (c : CContext) : s.pushContext c ≠ [] := by
  rcases pushContext_cases s c with h | ⟨-, -, a, p, -, h⟩ <;> rw [h] <;> simp

theorem modCurrent_ne {s : CState} (h : s.cfg.contexts ≠ []) (f : CContext → CContext) :
    (s.modCurrent f).cfg.contexts ≠ [] := by
  unfold CState.modCurrent
  split
  · simp
  · exact h

theorem addCommand_state (s : CState) (input : KeySequence) (name : Str)
    (h : ∀ (j : Nat) (c : Command), s.commands[j]? = some c → c.index = -((j : Int) + 1)) :
    ∃ (s' : CState) (j : Nat), s.addCommand input name = s'.modCurrent
        (fun c => { c with inputs := c.inputs ++ [⟨input, -((j : Int) + 1)⟩] }) ∧
      j < s'.commands.length ∧
      (s' = s ∨ s' = { s with commands := s.commands ++ [⟨name, -((s.commands.length : Int) + 1), false⟩] }) := by
  unfold CState.addCommand
  split
  · next command hf =>
    obtain ⟨j, hj⟩ := List.mem_iff_getElem?.1 (List.mem_of_find?_eq_some hf)
    exact ⟨s, j, by rw [h j command hj], (List.getElem?_eq_some_iff.1 hj).1, .inl rfl⟩
  · exact ⟨_, s.commands.length, rfl, by simp, .inr rfl⟩

theorem Extends.modCurrent (s : CState) (f : CContext → CContext) : Extends s (s.modCurrent f) := by
  obtain ⟨h1, h2, h3, -⟩ := modCurrent_fields s f
  exact ⟨by rw [h3]; exact List.prefix_refl _, by rw [h2]; exact Nat.le_refl _, by rw [h1]; exact List.prefix_refl _⟩

theorem CStep.extends {env : CEnv} {s t : CState} (h : CStep env s t) : Extends s t := by
  have hmod : ∀ (u : CState) f, Extends s u → Extends s (u.modCurrent f) := by
    intro u f hu
    obtain ⟨h1, h2, h3, -⟩ := modCurrent_fields u f
    exact ⟨h3 ▸ hu.logical, h2 ▸ hu.commands, h1 ▸ hu.actions⟩
  cases h with
  | mapping s1 tin tout input output he hin hout =>
    obtain ⟨acts, -, rfl, -⟩ := parseOutput_state hout
    exact hmod _ _ ⟨List.prefix_refl _, Nat.le_refl _, List.prefix_append _ _⟩
  | command tin input name he hin hn hk =>
    unfold CState.addCommand
    split
    · exact hmod _ _ ⟨List.prefix_refl _, Nat.le_refl _, List.prefix_refl _⟩
    · exact hmod _ _ ⟨List.prefix_refl _, by simp, List.prefix_refl _⟩
  | commandMapping s1 _ tout name output he hout hm =>
    obtain ⟨acts, -, rfl, -⟩ := parseOutput_state hout
    obtain ⟨command, ctx, -, -, -, rfl⟩ := addCommandMapping_state hm
    have := hmod _ (fun c => { c with commandOutputs := c.commandOutputs ++ [⟨output, command.index⟩] })
      (⟨List.prefix_refl _, Nat.le_refl _, List.prefix_append _ _⟩ :
        Extends s { s with cfg := { s.cfg with actions := s.cfg.actions ++ acts } })
    exact ⟨this.logical, by simp [modFirst_length], this.actions⟩
  | unmapped _ tout output hu hout =>
    obtain ⟨acts, -, rfl, -⟩ := parseOutput_state hout
    exact ⟨List.prefix_refl _, Nat.le_refl _, List.prefix_append _ _⟩
  | context c hc => exact ⟨List.prefix_refl _, Nat.le_refl _, List.prefix_refl _⟩
  | logical name left right h1 h2 => exact ⟨List.prefix_append _ _, Nat.le_refl _, List.prefix_refl _⟩
  | other _ h => exact ⟨h.logical ▸ List.prefix_refl _, h.commands ▸ Nat.le_refl _, h.actions ▸ List.prefix_refl _⟩

theorem StateOk.congr {s t : CState} (h : StateOk s) (hl : t.logical = s.logical)
    (hc : t.commands.map Command.index = s.commands.map Command.index) (hx : t.cfg.contexts ≠ []) : StateOk t := by
  refine ⟨hl ▸ h.numbered, hl ▸ h.builtin, hl ▸ h.below, ?_, hx⟩
  intro j c hj
  have : (t.commands.map Command.index)[j]? = some c.index := by simp [hj]
  rw [hc, List.getElem?_map] at this
  cases hs : s.commands[j]? with
  | none => rw [hs] at this; cases this
  | some d =>
    rw [hs] at this
    injection this with this
    rw [← this]
    exact h.commands j d hs

theorem StateOk.modCurrent {s : CState} (h : StateOk s) (f : CContext → CContext) : StateOk (s.modCurrent f) := by
  obtain ⟨-, h2, h3, -⟩ := modCurrent_fields s f
  exact h.congr h3 (by rw [h2]) (modCurrent_ne h.contexts _)

theorem StateOk.step {env : CEnv} {s t : CState} (hs : CStep env s t) (h : StateOk s) : StateOk t := by
  cases hs with
  | mapping s1 tin tout input output he hin hout =>
    obtain ⟨acts, -, rfl, -⟩ := parseOutput_state hout
    have h1 : StateOk { s with cfg := { s.cfg with actions := s.cfg.actions ++ acts } } :=
      h.congr rfl rfl h.contexts
    exact h1.modCurrent _
  | command tin input name he hin hn hk =>
    obtain ⟨s', j, h1, -, h2⟩ := addCommand_state s input name h.commands
    rw [h1]
    refine StateOk.modCurrent ?_ _
    rcases h2 with rfl | rfl
    · exact h
    · refine ⟨h.numbered, h.builtin, h.below, ?_, h.contexts⟩
      intro i c hi
      rcases Nat.lt_or_ge i s.commands.length with hl | hl
      · rw [List.getElem?_append_left hl] at hi
        exact h.commands i c hi
      · rw [List.getElem?_append_right hl] at hi
        cases hd : i - s.commands.length with
        | zero =>
          rw [hd] at hi
          injection hi with hi
          rw [← hi]
          have : i = s.commands.length := by omega
          rw [this]
        | succ n => rw [hd] at hi; simp at hi
  | commandMapping s1 _ tout name output he hout hm =>
    obtain ⟨acts, -, rfl, -⟩ := parseOutput_state hout
    obtain ⟨command, ctx, -, -, -, rfl⟩ := addCommandMapping_state hm
    have h1 : StateOk { s with cfg := { s.cfg with actions := s.cfg.actions ++ acts } } :=
      h.congr rfl rfl h.contexts
    have h2 := h1.modCurrent (fun c => { c with commandOutputs := c.commandOutputs ++ [⟨output, command.index⟩] })
    refine h2.congr rfl ?_ h2.contexts
    rw [(modCurrent_fields _ _).2.1]
    exact modFirst_map Command.index (fun c => c.name == name) (f := fun c => { c with mapped := true })
      (fun _ => rfl) _
  | unmapped _ tout output hu hout =>
    obtain ⟨acts, -, rfl, -⟩ := parseOutput_state hout
    exact h.congr rfl rfl h.contexts
  | context c hc => exact h.congr rfl rfl (pushContext_ne s c)
  | logical name left right h1 h2 =>
    refine ⟨?_, by
      simp only [CState.addLogicalKey, List.length_append]; exact Nat.le_add_right_of_le h.builtin, ?_, h.commands, h.contexts⟩
    · intro i k hi
      simp only [CState.addLogicalKey] at hi
      rcases Nat.lt_or_ge i s.logical.length with hl | hl
      · rw [List.getElem?_append_left hl] at hi
        exact h.numbered i k hi
      · rw [List.getElem?_append_right hl] at hi
        cases hd : i - s.logical.length with
        | zero =>
          rw [hd] at hi
          injection hi with hi
          rw [← hi]
          have : i = s.logical.length := by omega
          rw [this]
        | succ n => rw [hd] at hi; simp at hi
    · intro i k hi
      simp only [CState.addLogicalKey] at hi
      rcases Nat.lt_or_ge i s.logical.length with hl | hl
      · rw [List.getElem?_append_left hl] at hi
        exact h.below i k hi
      · rw [List.getElem?_append_right hl] at hi
        cases hd : i - s.logical.length with
        | zero =>
          rw [hd] at hi
          injection hi with hi
          rw [← hi]
          have : i = s.logical.length := by omega
          rw [this]
          exact ⟨h.keyName h1, h.keyName h2⟩
        | succ n => rw [hd] at hi; simp at hi
  | other _ hs => exact h.congr hs.logical (by rw [hs.commands]) (by rw [hs.contexts]; exact h.contexts)

theorem StateOk.init : StateOk CState.init := by
  have hl : CState.init.logical.length = 4 := rfl
  refine ⟨?_, Nat.le_of_eq rfl, ?_, ?_, by decide⟩
  · intro i k hi
    have hlt := (List.getElem?_eq_some_iff.1 hi).1
    rw [hl] at hlt
    match i, hlt with
    | 0, _ => injection hi with hi; rw [← hi]; rfl
    | 1, _ => injection hi with hi; rw [← hi]; rfl
    | 2, _ => injection hi with hi; rw [← hi]; rfl
    | 3, _ => injection hi with hi; rw [← hi]; rfl
  · intro i k hi
    have hlt := (List.getElem?_eq_some_iff.1 hi).1
    rw [hl] at hlt
    match i, hlt with
    | 0, _ => injection hi with hi; rw [← hi]; exact ⟨.inl ⟨by decide, by decide⟩, .inl ⟨by decide, by decide⟩⟩
    | 1, _ => injection hi with hi; rw [← hi]; exact ⟨.inl ⟨by decide, by decide⟩, .inl ⟨by decide, by decide⟩⟩
    | 2, _ => injection hi with hi; rw [← hi]; exact ⟨.inl ⟨by decide, by decide⟩, .inl ⟨by decide, by decide⟩⟩
    | 3, _ => injection hi with hi; rw [← hi]; exact ⟨.inl ⟨by decide, by decide⟩, .inl ⟨by decide, by decide⟩⟩
  · intro j c hj; cases hj

/-! ## Invariants of single contexts -/

/-- What has to be shown for an invariant of single contexts -/
structure CtxHyps (env : CEnv) (P : CState → CContext → Prop) : Prop where
  mono : ∀ s t c, Extends s t → P s c → P t c
  init : P CState.init { beginStage := true, systemFilterMatched := true }
  fresh : ∀ s c, StateOk s → FreshContext s c → P s c
  fall : ∀ s c, P s c → P s { c with fallthrough := true }
  mapping : ∀ (s s1 : CState) (tin tout : Str) (input output : KeySequence) (c : CContext), StateOk s →
    Extends s s1 → s1.logical = s.logical →
    s.parseInput env tin = some input → s.parseOutput env tout = some (s1, output) → P s1 c →
    P s1 { c with inputs := c.inputs ++ [(⟨input, c.outputs.length⟩ : Input)], outputs := c.outputs ++ [output] }
  command : ∀ (s : CState) (tin : Str) (input : KeySequence) (j : Nat) (c : CContext),
    LogicalNumbered s.logical → 4 ≤ s.logical.length → s.parseInput env tin = some input → j < s.commands.length →
    P s c → P s { c with inputs := c.inputs ++ [⟨input, -((j : Int) + 1)⟩] }
  commandOutput : ∀ (s s1 : CState) (tout : Str) (output : KeySequence) (j : Nat) (c : CContext),
    StateOk s → Extends s s1 → s1.logical = s.logical → s.parseOutput env tout = some (s1, output) →
    j < s1.commands.length →
    (∀ o ∈ c.commandOutputs, o.index ≠ -((j : Int) + 1)) → P s1 c →
    P s1 { c with commandOutputs := c.commandOutputs ++ [⟨output, -((j : Int) + 1)⟩] }

theorem modCurrent_all {P : CContext → Prop} {s : CState} {f : CContext → CContext}
    (h : ∀ c ∈ s.cfg.contexts, P c) (hf : ∀ c, s.cfg.contexts.getLast? = some c → P c → P (f c)) :
    ∀ c ∈ (s.modCurrent f).cfg.contexts, P c := by
  unfold CState.modCurrent
  split
  · next c hc =>
    intro d hd
    rcases List.mem_append.1 hd with hd | hd
    · exact h d ((List.dropLast_sublist _).subset hd)
    · rw [List.mem_singleton.1 hd]
      exact hf c hc (h c (List.mem_of_getLast? hc))
  · exact h

/-- Contexts of a state which the parser reaches -/
theorem CtxHyps.steps {env : CEnv} {P : CState → CContext → Prop} (hP : CtxHyps env P) {s : CState}
    (h : CSteps env CState.init s) : StateOk s ∧ ∀ c ∈ s.cfg.contexts, P s c := by
  refine h.inv (P := fun s => StateOk s ∧ ∀ c ∈ s.cfg.contexts, P s c) ?_ ⟨StateOk.init, ?_⟩
  · intro s t hst ⟨hok, hall⟩
    refine ⟨hok.step hst, ?_⟩
    have hext := hst.extends
    cases hst with
    | mapping s1 tin tout input output he hin hout =>
      have hout' := hout
      obtain ⟨acts, -, rfl, -⟩ := parseOutput_state hout
      intro c hc
      have hx : Extends s { s with cfg := { s.cfg with actions := s.cfg.actions ++ acts } } :=
        ⟨List.prefix_refl _, Nat.le_refl _, List.prefix_append _ _⟩
      refine hP.mono { s with cfg := { s.cfg with actions := s.cfg.actions ++ acts } } _ c
        (Extends.modCurrent _ _) ?_
      refine modCurrent_all (s := { s with cfg := { s.cfg with actions := s.cfg.actions ++ acts } })
        (P := P { s with cfg := { s.cfg with actions := s.cfg.actions ++ acts } })
        (fun c hc => hP.mono _ _ c hx (hall c hc)) (fun c _ hc => ?_) c hc
      exact hP.mapping s _ tin tout input output c hok hx rfl hin hout' hc
    | command tin input name he hin hn hk =>
      obtain ⟨s', j, h1, hj, h2⟩ := addCommand_state s input name hok.commands
      intro c hc
      rw [h1] at hc ⊢
      have hx : Extends s s' ∧ s'.logical = s.logical ∧ s'.cfg.contexts = s.cfg.contexts ∧
          s'.parseInput env tin = some input := by
        rcases h2 with rfl | rfl
        · exact ⟨⟨List.prefix_refl _, Nat.le_refl _, List.prefix_refl _⟩, rfl, rfl, hin⟩
        · exact ⟨⟨List.prefix_refl _, by simp, List.prefix_refl _⟩, rfl, rfl, hin⟩
      refine hP.mono s' _ c (Extends.modCurrent _ _) ?_
      refine modCurrent_all (P := P s') (fun c hc => hP.mono _ _ c hx.1 (hall c (hx.2.2.1 ▸ hc))) (fun c _ hc => ?_) c hc
      exact hP.command s' tin input j c (hx.2.1 ▸ hok.numbered) (hx.2.1 ▸ hok.builtin) hx.2.2.2 hj hc
    | commandMapping s1 _ tout name output he hout hm =>
      have hout' := hout
      obtain ⟨acts, -, rfl, -⟩ := parseOutput_state hout
      obtain ⟨command, ctx, hf, hctx, hno, rfl⟩ := addCommandMapping_state hm
      obtain ⟨j, hj⟩ := List.mem_iff_getElem?.1 (List.mem_of_find?_eq_some hf)
      have hidx := hok.commands j command hj
      rw [hidx] at hno hext ⊢
      intro c hc
      have hx : Extends s { s with cfg := { s.cfg with actions := s.cfg.actions ++ acts } } :=
        ⟨List.prefix_refl _, Nat.le_refl _, List.prefix_append _ _⟩
      refine hP.mono { s with cfg := { s.cfg with actions := s.cfg.actions ++ acts } } _ c
        ⟨(Extends.modCurrent _ _).logical, by simp [modFirst_length], (Extends.modCurrent _ _).actions⟩ ?_
      refine modCurrent_all (s := { s with cfg := { s.cfg with actions := s.cfg.actions ++ acts } })
        (P := P { s with cfg := { s.cfg with actions := s.cfg.actions ++ acts } })
        (fun c hc => hP.mono _ _ c hx (hall c hc)) (fun c hlast hc => ?_) c hc
      refine hP.commandOutput s _ tout output j c hok hx rfl hout' (List.getElem?_eq_some_iff.1 hj).1 ?_ hc
      have : c = ctx := by
        have : some c = some ctx := hlast.symm.trans hctx
        injection this
      subst this
      intro o ho heq
      have := List.any_eq_false.1 hno o ho
      exact this (by simp [heq])
    | unmapped _ tout output hu hout =>
      obtain ⟨acts, -, rfl, -⟩ := parseOutput_state hout
      intro c hc
      exact hP.mono s _ c ⟨List.prefix_refl _, Nat.le_refl _, List.prefix_append _ _⟩ (hall c hc)
    | context c hc =>
      intro d hd
      refine hP.mono s _ d ⟨List.prefix_refl _, Nat.le_refl _, List.prefix_refl _⟩ ?_
      have hd : d ∈ s.pushContext c := hd
      rcases pushContext_cases s c with h1 | ⟨-, -, a, p, h1, h2⟩
      · rw [h1] at hd
        rcases List.mem_append.1 hd with hd | hd
        · exact hall d hd
        · rw [List.mem_singleton.1 hd]; exact hP.fresh s c hok hc
      · rw [h2] at hd
        rcases List.mem_append.1 hd with hd | hd
        · exact hall d (by rw [h1]; exact List.mem_append_left _ hd)
        · rcases List.mem_cons.1 hd with rfl | hd
          · exact hP.fall s p (hall p (by rw [h1]; simp))
          · rw [List.mem_singleton.1 hd]; exact hP.fresh s c hok hc
    | logical name left right h1 h2 => intro c hc; exact hP.mono _ _ c hext (hall c hc)
    | other _ hs => intro c hc; exact hP.mono _ _ c hext (hall c (hs.contexts ▸ hc))
  · intro c hc
    have : c = { beginStage := true, systemFilterMatched := true } := List.mem_singleton.1 hc
    rw [this]
    exact hP.init

end KM
