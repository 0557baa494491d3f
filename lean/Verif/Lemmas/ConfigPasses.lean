import Verif.Lemmas.SeqReplace
import Verif.Props.Expressions
/-!
# The contexts of parsed configurations
-/
namespace KM

/-- An output or a command output which exists -/
def RefOk (nc nout : Nat) (i : Int) : Prop := (0 ≤ i ∧ i < nout) ∨ ∃ j, j < nc ∧ i = -((j : Int) + 1)

/-- The invariant of contexts, when there are `n` logical keys, `na` terminal commands and `nc`
commands -/
structure CtxOk (n na nc : Nat) (c : CContext) : Prop where
  inputs : ∀ i ∈ c.inputs, InOk n i.input ∧ RefOk nc c.outputs.length i.outputIndex
  outputs : ∀ o ∈ c.outputs, OutOk n na o
  commands : ∀ o ∈ c.commandOutputs, OutOk n na o.output ∧ ∃ j, j < nc ∧ o.index = -((j : Int) + 1)
  nodup : (c.commandOutputs.map (·.index)).Nodup
  modifier : ∀ e ∈ c.modifierFilter, SourceKey n e.key ∧ (e.state = .Down ∨ e.state = .Not) ∧ e.value = 0
  filters : FiltersOk c

theorem RefOk.mono {nc mc n m : Nat} (h1 : nc ≤ mc) (h2 : n ≤ m) {i : Int} (h : RefOk nc n i) : RefOk mc m i := by
  rcases h with ⟨h3, h4⟩ | ⟨j, h3, h4⟩
  · exact .inl ⟨h3, by omega⟩
  · exact .inr ⟨j, by omega, h4⟩

theorem CtxOk.mono {n m na ma nc mc : Nat} (h1 : n ≤ m) (h2 : na ≤ ma) (h3 : nc ≤ mc) {c : CContext}
    (h : CtxOk n na nc c) : CtxOk m ma mc c := by
  refine ⟨?_, ?_, ?_, h.nodup, ?_, h.filters⟩
  · exact fun i hi => ⟨(h.inputs i hi).1.mono h1, (h.inputs i hi).2.mono h3 (Nat.le_refl _)⟩
  · exact fun o ho => (h.outputs o ho).mono h1 h2
  · intro o ho
    obtain ⟨h4, j, h5, h6⟩ := h.commands o ho
    exact ⟨h4.mono h1 h2, j, Nat.lt_of_lt_of_le h5 h3, h6⟩
  · exact fun e he => ⟨(h.modifier e he).1.mono h1, (h.modifier e he).2⟩

theorem filterOk_empty : FilterOk {} := rfl

/-! ## While parsing -/

theorem keySource_of {env : CEnv} (ht : TyperOk env) {s : CState} (hn : LogicalNumbered s.logical)
    (hb : 4 ≤ s.logical.length) (p : PEnv) (h1 : p.getKey = s.getKey) (h2 : p.typer = env.typer) :
    KeySource p (fun k => SourceKey s.logical.length k ∨ k = Key.timeout) := by
  refine ⟨?_, ?_, ?_, .inr rfl, .inl (.inr (.inl rfl))⟩
  · intro n h0
    rw [h1] at h0 ⊢
    rcases s.getKey_range hn n with h3 | h3
    · exact .inl (h3.source hb h0)
    · exact .inl (.inr (.inr (.inr (.inr h3))))
  · intro t l hl x hx
    rw [h2] at hl
    exact .inl (.inl (ht t l hl x hx))
  · intro k hk
    left
    refine SourceKey.mono hb ?_
    unfold TypingModifier at hk
    rcases hk with rfl | rfl | rfl | rfl
    all_goals first
      | exact .inl ⟨by decide, by decide⟩
      | exact .inr (.inr (.inr (.inr ⟨by decide, by decide⟩)))

theorem parseInput_ok {env : CEnv} (ht : TyperOk env) {s : CState} (hn : LogicalNumbered s.logical)
    (hb : 4 ≤ s.logical.length) {t : Str} {input : KeySequence} (h : s.parseInput env t = some input) :
    InOk s.logical.length input := by
  have h : (parseSequence (s.inputEnv env) (skipSpace t)).map (·.1) = some input := h
  cases hp : parseSequence (s.inputEnv env) (skipSpace t) with
  | none => rw [hp] at h; cases h
  | some r =>
    obtain ⟨l, acts⟩ := r
    rw [hp] at h
    injection h with h
    subst h
    have hk := parseInput_keys (env := s.inputEnv env) rfl (keySource_of ht hn hb _ rfl rfl) hp
    have hw := parseInput_wellFormed (env := s.inputEnv env) rfl ?_ hp
    · refine ⟨fun e he => ?_, hw.events, hw.flag, hw.press⟩
      rcases hk e he with (h | h) | h
      · exact .inl h
      · exact .inr (.inl h)
      · exact .inr (.inr h)
    · refine ⟨fun n => s.getKey_ne_timeout hn n, ?_⟩
      intro t l hl x hx
      exact (SourceKey.ne_timeout (n := 0) (.inl (ht t l hl x hx)))

theorem parseOutput_ok {env : CEnv} (ht : TyperOk env) {s s1 : CState} (hn : LogicalNumbered s.logical)
    (hb : 4 ≤ s.logical.length) {t : Str} {out : KeySequence} (h : s.parseOutput env t = some (s1, out)) :
    OutOk s1.logical.length s1.cfg.actions.length out := by
  obtain ⟨acts, hp, rfl, -⟩ := parseOutput_state h
  have hk := parseOutput_keys (env := s.outputEnv env) rfl (keySource_of ht hn hb _ rfl rfl) hp
  refine ⟨fun e he => ?_, C32_output_alphabet _ rfl _ _ _ hp, C33_output_balanced _ rfl _ _ _ hp,
    C32_marker_once _ rfl _ _ _ hp⟩
  rcases hk e he with (h | h) | ⟨⟨n, hn, h1⟩, h2⟩ | h
  · exact .inl h
  · exact .inr (.inl h)
  · refine .inr (.inr (.inl ⟨⟨s.cfg.actions.length + n, ?_, ?_⟩, h2⟩))
    · simpa using hn
    · rw [h1]; exact Nat.add_assoc _ _ _
  · exact .inr (.inr (.inr h))

theorem ctxOk_hyps {env : CEnv} (ht : TyperOk env) :
    CtxHyps env (fun s c => CtxOk s.logical.length s.cfg.actions.length s.commands.length c) where
  mono := fun s t c hx h => h.mono hx.logical.length_le hx.actions.length_le hx.commands
  init := ⟨by simp, by simp, by simp, by simp, by simp, ⟨rfl, rfl, rfl, rfl, rfl⟩⟩
  fresh := by
    intro s c hs hc
    refine ⟨by simp [hc.inputs], by simp [hc.outputs], by simp [hc.commandOutputs], by simp [hc.commandOutputs],
      ?_, hc.filters⟩
    intro e he
    obtain ⟨h1, -, h2, h3⟩ := hc.modifier e he
    exact ⟨hs.keyName h1, h2, h3⟩
  fall := fun s c h => ⟨h.inputs, h.outputs, h.commands, h.nodup, h.modifier,
    ⟨h.filters.windowClass, h.filters.windowTitle, h.filters.windowPath, h.filters.deviceFilter,
      h.filters.deviceIdFilter⟩⟩
  mapping := by
    intro s s1 tin tout input output c hs hx hl hin hout h
    refine ⟨?_, ?_, h.commands, h.nodup, h.modifier, ⟨h.filters.windowClass, h.filters.windowTitle,
      h.filters.windowPath, h.filters.deviceFilter, h.filters.deviceIdFilter⟩⟩
    · intro i hi
      rcases List.mem_append.1 hi with hi | hi
      · exact ⟨(h.inputs i hi).1, (h.inputs i hi).2.mono (Nat.le_refl _) (by simp)⟩
      · rw [List.mem_singleton.1 hi]
        refine ⟨hl ▸ parseInput_ok ht hs.numbered hs.builtin hin, .inl ⟨Int.natCast_nonneg _, ?_⟩⟩
        simp only [List.length_append, List.length_singleton]
        omega
    · intro o ho
      rcases List.mem_append.1 ho with ho | ho
      · exact h.outputs o ho
      · rw [List.mem_singleton.1 ho]
        exact parseOutput_ok ht hs.numbered hs.builtin hout
  command := by
    intro s tin input j c hn hb hin hj h
    refine ⟨?_, h.outputs, h.commands, h.nodup, h.modifier, ⟨h.filters.windowClass, h.filters.windowTitle,
      h.filters.windowPath, h.filters.deviceFilter, h.filters.deviceIdFilter⟩⟩
    intro i hi
    rcases List.mem_append.1 hi with hi | hi
    · exact h.inputs i hi
    · rw [List.mem_singleton.1 hi]
      exact ⟨parseInput_ok ht hn hb hin, .inr ⟨j, hj, rfl⟩⟩
  commandOutput := by
    intro s s1 tout output j c hs hx hl hout hj hno h
    refine ⟨h.inputs, h.outputs, ?_, ?_, h.modifier, ⟨h.filters.windowClass, h.filters.windowTitle,
      h.filters.windowPath, h.filters.deviceFilter, h.filters.deviceIdFilter⟩⟩
    · intro o ho
      rcases List.mem_append.1 ho with ho | ho
      · exact h.commands o ho
      · rw [List.mem_singleton.1 ho]
        exact ⟨parseOutput_ok ht hs.numbered hs.builtin hout, j, hj, rfl⟩
    · rw [List.map_append, List.nodup_append]
      refine ⟨h.nodup, by simp, ?_⟩
      intro a ha b hb hab
      obtain ⟨o, ho, rfl⟩ := List.mem_map.1 ha
      simp only [List.map_singleton, List.mem_singleton] at hb
      exact hno o ho (hab.trans hb)

theorem deviceKey_of_isDeviceKey {k : Key} (h : isDeviceKey k = true) : DeviceKey k := by
  unfold isDeviceKey isKeyboardKey isMouseButton isMouseWheel at h
  simp only [Bool.or_eq_true, Bool.and_eq_true, decide_eq_true_eq] at h
  rcases h with (h | h) | h
  · exact ⟨h.1.1.1, Nat.lt_of_le_of_lt h.1.1.2 (by decide)⟩
  · exact ⟨Nat.lt_of_lt_of_le (by decide) h.1, Nat.lt_of_le_of_lt h.2 (by decide)⟩
  · exact ⟨Nat.lt_of_lt_of_le (by decide) h.1, Nat.lt_of_le_of_lt h.2 (by decide)⟩

/-- The forwarded modifiers -/
theorem forward_ok {env : CEnv} {s : CState} (h : CSteps env CState.init s) :
    StateOk s ∧ ∀ k ∈ s.forwardModifiers, SourceKey s.logical.length k := by
  refine h.inv (P := fun s => StateOk s ∧ ∀ k ∈ s.forwardModifiers, SourceKey s.logical.length k) ?_
    ⟨StateOk.init, by intro k hk; cases hk⟩
  intro s t hst ⟨hok, hall⟩
  refine ⟨hok.step hst, ?_⟩
  have hext := hst.extends
  have same : t.forwardModifiers = s.forwardModifiers → ∀ k ∈ t.forwardModifiers, SourceKey t.logical.length k :=
    fun he k hk => (hall k (he ▸ hk)).mono hext.logical.length_le
  cases hst with
  | mapping s1 tin tout input output he hin hout =>
    refine same ?_
    obtain ⟨acts, -, rfl, -⟩ := parseOutput_state hout
    exact (modCurrent_fields _ _).2.2.2.1
  | command tin input name he hin hn hk =>
    refine same ?_
    unfold CState.addCommand
    split <;> exact (modCurrent_fields _ _).2.2.2.1
  | commandMapping s1 _ tout name output he hout hm =>
    refine same ?_
    obtain ⟨acts, -, rfl, -⟩ := parseOutput_state hout
    obtain ⟨command, ctx, hf, hctx, hno, rfl⟩ := addCommandMapping_state hm
    exact (modCurrent_fields _ _).2.2.2.1
  | unmapped _ tout output hu hout =>
    refine same ?_
    obtain ⟨acts, -, rfl, -⟩ := parseOutput_state hout
    rfl
  | context c hc => exact same rfl
  | logical name left right h1 h2 => exact same rfl
  | other _ hs =>
    intro k hk
    rcases hs.forward k hk with h | h | ⟨l, hl, h⟩
    · exact (hall k h).mono hext.logical.length_le
    · left
      exact deviceKey_of_isDeviceKey h
    · obtain ⟨i, hi⟩ := List.mem_iff_getElem?.1 hl
      have hb := hok.below i l hi
      have hi := Nat.le_of_lt (List.getElem?_eq_some_iff.1 hi).1
      rw [hs.logical]
      rcases h with rfl | rfl
      · exact hb.1.mono hi
      · exact hb.2.mono hi

/-! ## The passes -/

theorem CtxOk.prependForward {n na nc : Nat} {ms : List Key} (hm : ∀ k ∈ ms, SourceKey n k) {cs : List CContext}
    (h : ∀ c ∈ cs, CtxOk n na nc c) : ∀ c ∈ prependForward ms cs, CtxOk n na nc c := by
  intro c hc
  unfold KM.prependForward at hc
  obtain ⟨d, hd, rfl⟩ := List.mem_map.1 hc
  split
  · refine foldl_inv (P := CtxOk n na nc) _ ?_ d (h d hd)
    intro c k hk h
    have hk := hm k (List.mem_reverse.1 hk)
    refine ⟨?_, ?_, h.commands, h.nodup, h.modifier, ⟨h.filters.windowClass, h.filters.windowTitle,
      h.filters.windowPath, h.filters.deviceFilter, h.filters.deviceIdFilter⟩⟩
    · intro i hi
      rcases List.mem_cons.1 hi with rfl | hi
      · refine ⟨⟨?_, ?_, ?_, ?_⟩, .inl ⟨Int.natCast_nonneg _, ?_⟩⟩
        · intro e he
          simp only [List.mem_cons, List.not_mem_nil, or_false] at he
          rcases he with rfl | rfl <;> exact .inl hk
        · intro e he
          simp only [List.mem_cons, List.not_mem_nil, or_false] at he
          rcases he with rfl | rfl
          · exact .inl ⟨hk.ne_timeout, rfl, by show KeyState.Down ∈ _; decide⟩
          · exact .inl ⟨hk.ne_timeout, rfl, by show KeyState.UpAsync ∈ _; decide⟩
        · intro e he
          simp only [List.tail_cons, List.mem_cons, List.not_mem_nil, or_false] at he
          rw [he]; simp
        · exact .inl ⟨_, List.mem_cons_self, rfl, hk.ne_timeout⟩
        · simp only [List.length_append, List.length_singleton]; omega
      · exact ⟨(h.inputs i hi).1, (h.inputs i hi).2.mono (Nat.le_refl _) (by simp)⟩
    · intro o ho
      rcases List.mem_append.1 ho with ho | ho
      · exact h.outputs o ho
      · rw [List.mem_singleton.1 ho]
        refine ⟨?_, ?_, ?_, by simp⟩
        · intro e he
          rw [List.mem_singleton.1 he]; exact .inl hk
        · intro e he
          rw [List.mem_singleton.1 he]; exact .inl rfl
        · intro a ha key
          have : a = [] ∨ a = [⟨k, .Down, 0⟩] := by
            cases a with
            | nil => exact .inl rfl
            | cons x a =>
              obtain ⟨rfl, h2⟩ := List.cons_prefix_cons.1 ha
              rw [List.prefix_nil.1 h2]
              exact .inr rfl
          rcases this with rfl | rfl <;> simp [releaseCount, pressCount]
  · exact h d hd

theorem CtxOk.optimize {n na nc : Nat} {cs : List CContext} (h : ∀ c ∈ cs, CtxOk n na nc c) :
    ∀ c ∈ optimizeContexts cs, CtxOk n na nc c := by
  refine optimizeContexts_mem ?_ ?_ h
  · intro c d hc hd
    exact ⟨hd.inputs, hd.outputs, hd.commands, hd.nodup, hc.modifier, ⟨hc.filters.windowClass, hc.filters.windowTitle,
      hc.filters.windowPath, hc.filters.deviceFilter, hc.filters.deviceIdFilter⟩⟩
  · exact ⟨by simp, by simp, by simp, by simp, by simp, ⟨rfl, rfl, rfl, rfl, rfl⟩⟩

theorem InOk.pred {n : Nat} {input : KeySequence} (h : InOk (n + 1) input)
    (hk : containsKey input (Key.first_logical + n) = false) : InOk n input := by
  refine ⟨fun e he => ?_, h.events, h.flag, h.press⟩
  rcases h.keys e he with h1 | h1
  · refine .inl (h1.pred (fun h2 => ?_))
    have := List.any_eq_false.1 hk e he
    exact this (by simp [h2])
  · exact .inr h1

theorem duplicateInputs_ok {n na nc : Nat} {l : LogicalKey} (hl : LogicalAt n l) (is : List Input) :
    ∀ outs : List KeySequence, (∀ i ∈ is, InOk (n + 1) i.input ∧ RefOk nc outs.length i.outputIndex) →
      (∀ o ∈ outs, OutOk (n + 1) na o) →
      (∀ i ∈ (duplicateInputs l is outs).1,
        InOk n i.input ∧ RefOk nc (duplicateInputs l is outs).2.length i.outputIndex) ∧
      (∀ o ∈ (duplicateInputs l is outs).2, OutOk (n + 1) na o) ∧
      outs.length ≤ (duplicateInputs l is outs).2.length := by
  induction is with
  | nil =>
    intro outs hi ho
    unfold duplicateInputs
    exact ⟨by simp, ho, Nat.le_refl _⟩
  | cons i is ih =>
    intro outs hi ho
    have hi0 := hi i List.mem_cons_self
    have his : ∀ j ∈ is, InOk (n + 1) j.input ∧ RefOk nc outs.length j.outputIndex :=
      fun j hj => hi j (List.mem_cons_of_mem _ hj)
    unfold duplicateInputs
    split
    · next hc =>
      simp only
      have hleft := hi0.1.replaceKey hl hl.left
      have hright := hi0.1.replaceKey hl hl.right
      split
      · next out hout =>
        split
        · have hext := ih (outs ++ [replaceKey out l.both l.right])
            (fun j hj => ⟨(his j hj).1, (his j hj).2.mono (Nat.le_refl _) (by simp)⟩) ?_
          · obtain ⟨h1, h2, h3⟩ := hext
            simp only [List.length_append, List.length_singleton] at h3
            refine ⟨?_, h2, Nat.le_of_succ_le h3⟩
            intro j hj
            rcases List.mem_cons.1 hj with rfl | hj
            · exact ⟨hleft, hi0.2.mono (Nat.le_refl _) (Nat.le_of_succ_le h3)⟩
            · rcases List.mem_cons.1 hj with rfl | hj
              · refine ⟨hright, .inl ⟨Int.natCast_nonneg _, ?_⟩⟩
                show (outs.length : Int) < _
                exact Int.ofNat_lt.2 h3
              · exact h1 j hj
          · intro o ho'
            rcases List.mem_append.1 ho' with ho' | ho'
            · exact ho o ho'
            · rw [List.mem_singleton.1 ho']
              have hmem : out ∈ outs := by
                split at hout
                · exact List.mem_of_getElem? hout
                · cases hout
              exact ((ho out hmem).replaceKey hl hl.right).mono (Nat.le_succ _) (Nat.le_refl _)
        · obtain ⟨h1, h2, h3⟩ := ih outs his ho
          refine ⟨?_, h2, h3⟩
          intro j hj
          rcases List.mem_cons.1 hj with rfl | hj
          · exact ⟨hleft, hi0.2.mono (Nat.le_refl _) h3⟩
          · rcases List.mem_cons.1 hj with rfl | hj
            · exact ⟨hright, hi0.2.mono (Nat.le_refl _) h3⟩
            · exact h1 j hj
      · obtain ⟨h1, h2, h3⟩ := ih outs his ho
        refine ⟨?_, h2, h3⟩
        intro j hj
        rcases List.mem_cons.1 hj with rfl | hj
        · exact ⟨hleft, hi0.2.mono (Nat.le_refl _) h3⟩
        · rcases List.mem_cons.1 hj with rfl | hj
          · exact ⟨hright, hi0.2.mono (Nat.le_refl _) h3⟩
          · exact h1 j hj
    · next hc =>
      obtain ⟨h1, h2, h3⟩ := ih outs his ho
      refine ⟨?_, h2, h3⟩
      intro j hj
      rcases List.mem_cons.1 hj with rfl | hj
      · refine ⟨hi0.1.pred ?_, hi0.2.mono (Nat.le_refl _) h3⟩
        rw [← hl.both]; simpa using hc
      · exact h1 j hj

/-- A context in which the last logical key is replaced, apart from the modifier filter -/
theorem CtxOk.replaceIn {n na nc : Nat} {l : LogicalKey} (hl : LogicalAt n l) {c : CContext}
    (h : CtxOk (n + 1) na nc c) :
    let d := replaceInContext l c
    (∀ i ∈ d.inputs, InOk n i.input ∧ RefOk nc d.outputs.length i.outputIndex) ∧
    (∀ o ∈ d.outputs, OutOk n na o) ∧
    (∀ o ∈ d.commandOutputs, OutOk n na o.output ∧ ∃ j, j < nc ∧ o.index = -((j : Int) + 1)) ∧
    (d.commandOutputs.map (·.index)).Nodup ∧
    (∀ e ∈ d.modifierFilter, SourceKey (n + 1) e.key ∧ (e.state = .Down ∨ e.state = .Not) ∧ e.value = 0) ∧
    FiltersOk d := by
  intro d
  have hd := duplicateInputs_ok (nc := nc) (na := na) hl
    (c.inputs.map (fun i => { i with input := replaceNotKey i.input l.both l.left l.right }))
    (c.outputs.map (fun o => replaceNotKey o l.both l.left l.right)) ?_ ?_
  · refine ⟨?_, ?_, ?_, ?_, ?_, ?_⟩
    · intro i hi
      have := hd.1 i hi
      refine ⟨this.1, ?_⟩
      show RefOk nc (List.map _ _).length _
      rw [List.length_map]
      exact this.2
    · intro o ho
      obtain ⟨o', ho', rfl⟩ := List.mem_map.1 ho
      exact (hd.2.1 o' ho').replaceKey hl hl.left
    · intro o ho
      obtain ⟨o', ho', rfl⟩ := List.mem_map.1 ho
      obtain ⟨o'', ho'', rfl⟩ := List.mem_map.1 ho'
      obtain ⟨h1, h2⟩ := h.commands o'' ho''
      exact ⟨(h1.replaceNotKey hl).replaceKey hl hl.left, h2⟩
    · have : d.commandOutputs.map (·.index) = c.commandOutputs.map (·.index) := by
        show List.map _ (List.map _ (List.map _ _)) = _
        rw [List.map_map, List.map_map]
        rfl
      rw [this]
      exact h.nodup
    · intro e he
      have he : e ∈ replaceNotKey c.modifierFilter l.both l.left l.right := he
      rcases replaceNotKey_mem he with ⟨he, -⟩ | ⟨x, hx, hs, -, rfl | rfl⟩
      · exact h.modifier e he
      · exact ⟨hl.left.mono (Nat.le_succ _), .inr rfl, rfl⟩
      · exact ⟨hl.right.mono (Nat.le_succ _), .inr hs, (h.modifier x hx).2.2⟩
    · exact ⟨h.filters.windowClass, h.filters.windowTitle,
        h.filters.windowPath, h.filters.deviceFilter, h.filters.deviceIdFilter⟩
  · intro i hi
    obtain ⟨j, hj, rfl⟩ := List.mem_map.1 hi
    rw [List.length_map]
    exact ⟨(h.inputs j hj).1.replaceNotKey hl, (h.inputs j hj).2⟩
  · intro o ho
    obtain ⟨o', ho', rfl⟩ := List.mem_map.1 ho
    exact (h.outputs o' ho').replaceNotKey hl

theorem CtxOk.replaceLogical {n na nc : Nat} {l : LogicalKey} (hl : LogicalAt n l) {cs : List CContext}
    (h : ∀ c ∈ cs, CtxOk (n + 1) na nc c) : ∀ c ∈ replaceLogicalKey cs l, CtxOk n na nc c := by
  intro c hc
  rw [replaceLogicalKey_eq] at hc
  obtain ⟨d, hd, hc⟩ := List.mem_flatMap.1 hc
  obtain ⟨h1, h2, h3, h4, h5, h6⟩ := (h d hd).replaceIn hl
  have hmod : ∀ x, SourceKey n x → ∀ e ∈ replaceKey (replaceInContext l d).modifierFilter l.both x,
      SourceKey n e.key ∧ (e.state = .Down ∨ e.state = .Not) ∧ e.value = 0 := by
    intro x hx e he
    rcases replaceKey_mem he with ⟨he, hk⟩ | ⟨y, hy, hk, rfl⟩
    · exact ⟨(h5 e he).1.pred (hl.both ▸ hk), (h5 e he).2⟩
    · exact ⟨hx, (h5 y hy).2⟩
  unfold splitModifier at hc
  split at hc
  · simp only [List.mem_cons, List.not_mem_nil, or_false] at hc
    rcases hc with rfl | rfl
    · exact ⟨by simp, by simp, by simp, by simp, hmod _ hl.left, ⟨h6.windowClass, h6.windowTitle,
        h6.windowPath, h6.deviceFilter, h6.deviceIdFilter⟩⟩
    · exact ⟨h1, h2, h3, h4, hmod _ hl.right, ⟨h6.windowClass, h6.windowTitle,
        h6.windowPath, h6.deviceFilter, h6.deviceIdFilter⟩⟩
  · next hn =>
    rw [List.mem_singleton.1 hc]
    refine ⟨h1, h2, h3, h4, ?_, h6⟩
    intro e he
    refine ⟨(h5 e he).1.pred (fun h7 => hn ?_), (h5 e he).2⟩
    refine List.any_eq_true.2 ⟨e, he, ?_⟩
    rw [h7, hl.both]; simp

theorem CtxOk.replaceAll {na nc : Nat} (ls : List LogicalKey) :
    (∀ (i : Nat) (l : LogicalKey), ls[i]? = some l → LogicalAt i l) → ∀ cs : List CContext,
    (∀ c ∈ cs, CtxOk ls.length na nc c) → ∀ c ∈ ls.reverse.foldl replaceLogicalKey cs, CtxOk 0 na nc c := by
  induction h : ls.length generalizing ls with
  | zero => intro _ cs hcs; rw [List.eq_nil_of_length_eq_zero h]; exact hcs
  | succ n ih =>
    intro hl cs hcs
    obtain ⟨init, last, rfl⟩ : ∃ init last, ls = init ++ [last] := by
      refine ⟨ls.dropLast, ls.getLast (by intro h'; rw [h'] at h; cases h), ?_⟩
      rw [List.dropLast_concat_getLast]
    have hn : init.length = n := by simpa using h
    rw [List.reverse_append, List.reverse_singleton, List.singleton_append, List.foldl_cons]
    refine ih init hn (fun i l hi => hl i l ?_) _ ?_
    · rw [List.getElem?_append_left (List.getElem?_eq_some_iff.1 hi).1]; exact hi
    · refine CtxOk.replaceLogical (hl n last ?_) hcs
      rw [← hn]; simp

theorem CtxOk.modifyOutput {na nc : Nat} {c : CContext} (h : CtxOk 0 na nc c) {k : Key} (hk : SourceKey 0 k)
    (n : Nat) : CtxOk 0 na nc { c with outputs := c.outputs.modify n (prependNot k) } := by
  refine ⟨?_, ?_, h.commands, h.nodup, h.modifier, ⟨h.filters.windowClass, h.filters.windowTitle,
      h.filters.windowPath, h.filters.deviceFilter, h.filters.deviceIdFilter⟩⟩
  · intro i hi
    rw [List.length_modify]
    exact h.inputs i hi
  · intro o ho
    rcases List.mem_iff_getElem?.1 ho with ⟨m, hm⟩
    rw [List.getElem?_modify] at hm
    split at hm
    · cases hc : c.outputs[m]? with
      | none => rw [hc] at hm; cases hm
      | some o' =>
        rw [hc] at hm
        injection hm with hm
        rw [← hm]
        exact (h.outputs o' (List.mem_of_getElem? hc)).prependNot hk
    · cases hc : c.outputs[m]? with
      | none => rw [hc] at hm; cases hm
      | some o' =>
        rw [hc] at hm
        injection hm with hm
        rw [← hm]
        exact h.outputs o' (List.mem_of_getElem? hc)

theorem CtxOk.modifyCommands {na nc : Nat} {c : CContext} (h : CtxOk 0 na nc c) {k : Key} (hk : SourceKey 0 k)
    (i : Int) : CtxOk 0 na nc { c with commandOutputs := c.commandOutputs.map (fun o =>
        if o.index == i then { o with output := prependNot k o.output } else o) } := by
  refine ⟨h.inputs, h.outputs, ?_, ?_, h.modifier, ⟨h.filters.windowClass, h.filters.windowTitle,
      h.filters.windowPath, h.filters.deviceFilter, h.filters.deviceIdFilter⟩⟩
  · intro o ho
    obtain ⟨o', ho', rfl⟩ := List.mem_map.1 ho
    obtain ⟨h1, h2⟩ := h.commands o' ho'
    split
    · exact ⟨h1.prependNot hk, h2⟩
    · exact ⟨h1, h2⟩
  · rw [List.map_map]
    refine (List.map_congr_left (fun o _ => ?_)) ▸ h.nodup
    simp only [Function.comp]
    split <;> rfl

theorem mem_modify {α : Type} {l : List α} {n : Nat} {f : α → α} {a : α} (h : a ∈ l.modify n f) :
    a ∈ l ∨ ∃ b ∈ l, a = f b := by
  rcases List.mem_iff_getElem?.1 h with ⟨m, hm⟩
  rw [List.getElem?_modify] at hm
  cases hc : l[m]? with
  | none => rw [hc] at hm; cases hm
  | some b =>
    rw [hc] at hm
    have hb := List.mem_of_getElem? hc
    split at hm
    · injection hm with hm
      exact .inr ⟨b, hb, hm.symm⟩
    · injection hm with hm
      exact .inl (hm ▸ hb)

theorem CtxOk.suppress {na nc n : Nat} {ms : List Key} (hm : ∀ k ∈ ms, SourceKey n k) {cs : List CContext}
    (h : ∀ c ∈ cs, CtxOk 0 na nc c) : ∀ c ∈ suppressForwarded ms cs, CtxOk 0 na nc c := by
  unfold suppressForwarded
  refine foldl_inv (P := fun cs : List CContext => ∀ c ∈ cs, CtxOk 0 na nc c) _ ?_ cs h
  intro cs ci _ h
  refine foldl_inv (P := fun cs : List CContext => ∀ c ∈ cs, CtxOk 0 na nc c) _ ?_ cs h
  intro cs k hk h
  split
  · next c hc =>
    refine foldl_inv (P := fun cs : List CContext => ∀ c ∈ cs, CtxOk 0 na nc c) _ ?_ cs h
    intro cs' i hi h'
    unfold suppressInput
    split
    · next hcont =>
      have hin := ((h c (List.mem_of_getElem? hc)).inputs i hi).1
      have hk0 : SourceKey 0 k := by
        rcases hin.keys _ (List.contains_iff_mem.1 hcont) with h1 | h1 | h1
        · exact h1
        · exact absurd h1 (hm k hk).ne_timeout
        · simp [noMightMatchFlag] at h1
      split
      · intro d hd
        rcases mem_modify hd with hd | ⟨b, hb, rfl⟩
        · exact h' d hd
        · exact (h' b hb).modifyOutput hk0 _
      · intro d hd
        obtain ⟨b, hb, rfl⟩ := List.mem_map.1 hd
        exact (h' b hb).modifyCommands hk0 _
    · exact h'
  · exact h

/-- The contexts of a parsed configuration -/
theorem finishContexts_ok {env : CEnv} (ht : TyperOk env) {s : CState} (hs : CSteps env CState.init s) :
    ∀ c ∈ s.finishContexts, CtxOk 0 s.cfg.actions.length s.commands.length c := by
  obtain ⟨hok, hall⟩ := (ctxOk_hyps ht).steps hs
  obtain ⟨-, hfwd⟩ := forward_ok hs
  have hl : ∀ (i : Nat) (l : LogicalKey), s.logical[i]? = some l → LogicalAt i l :=
    fun i l hi => ⟨hok.numbered i l hi, (hok.below i l hi).1, (hok.below i l hi).2⟩
  have h3 := CtxOk.replaceAll s.logical hl _ (CtxOk.optimize (CtxOk.prependForward hfwd hall))
  unfold CState.finishContexts
  simp only
  split
  · exact h3
  · exact CtxOk.suppress hfwd h3

theorem parseConfig_ok {env : CEnv} (ht : TyperOk env) {text : Str} {config : Config}
    (h : parseConfig env text = some config) :
    ∃ nc, ∀ c ∈ config.contexts, CtxOk 0 config.actions.length nc c := by
  obtain ⟨s, hs, hc, ha, -⟩ := parseConfig_state h
  rw [hc, ha]
  exact ⟨_, finishContexts_ok ht hs⟩

end KM
