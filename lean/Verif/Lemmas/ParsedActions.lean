import Verif.Lemmas.ConfigPasses
import Verif.Spec.Flush
/-!
# The terminal commands of parsed outputs
-/
namespace KM

/-- The number of the terminal command which an event triggers -/
def actionOf (e : KeyEvent) : Option Nat :=
  if 0xF200 ≤ e.key ∧ e.key ≤ 0xF2FF ∧ e.state = .Down then some (e.key - 0xF200) else none

/-- The numbers of the terminal commands which an output triggers -/
def actionKeys (l : KeySequence) : List Nat := l.filterMap actionOf

theorem actionKeys_append (l m : KeySequence) : actionKeys (l ++ m) = actionKeys l ++ actionKeys m :=
  List.filterMap_append

theorem actionOf_none {k : Key} (h : k < 0xF200 ∨ 0xF2FF < k) (st : KeyState) (v : Nat) :
    actionOf ⟨k, st, v⟩ = none := by
  unfold actionOf
  rw [if_neg]
  rintro ⟨h1, h2, -⟩
  rcases h with h | h
  · exact absurd h1 (Nat.not_le.2 h)
  · exact absurd h2 (Nat.not_le.2 h)

theorem SourceKey.not_action {n : Nat} {k : Key} (h : SourceKey n k) : k < 0xF200 ∨ 0xF2FF < k := by
  rcases h with ⟨-, h⟩ | h | h | ⟨-, h⟩ | ⟨h, -⟩
  · exact .inl (Nat.lt_of_lt_of_le h (by decide))
  · rw [h]; exact .inl (by decide)
  · rw [h]; exact .inl (by decide)
  · exact .inl (Nat.lt_of_le_of_lt h (by decide))
  · exact .inr (Nat.lt_of_lt_of_le (by decide) h)

theorem actionKeys_none {l : KeySequence} (h : ∀ e ∈ l, e.key < 0xF200 ∨ 0xF2FF < e.key) : actionKeys l = [] := by
  unfold actionKeys
  rw [List.filterMap_eq_nil_iff]
  intro e he
  exact actionOf_none (h e he) _ _

/-! ## The expression parser -/

theorem not_action_release (k : Key) (st : KeyState) (h : st ≠ .Down) (v : Nat) : actionOf ⟨k, st, v⟩ = none := by
  unfold actionOf
  rw [if_neg]
  rintro ⟨-, -, h3⟩
  exact h h3

/-- The invariant of the parser: the terminal commands are numbered in order -/
structure ActState (base : Nat) (p : PState) : Prop where
  seq : base + p.actions.length ≤ 256 → actionKeys p.seq = (List.range p.actions.length).map (base + ·)
  buffer : ∀ k ∈ p.buffer, k < 0xF200 ∨ 0xF2FF < k
  pressed : ∀ k ∈ p.pressed, k < 0xF200 ∨ 0xF2FF < k

theorem ActState.append {base : Nat} {p : PState} (h : ActState base p) {l : KeySequence} (hl : actionKeys l = []) :
    ActState base { p with seq := p.seq ++ l } := by
  refine ⟨fun hb => ?_, h.buffer, h.pressed⟩
  rw [actionKeys_append, hl, List.append_nil]
  exact h.seq hb

theorem ActState.add {base : Nat} {p : PState} (h : ActState base p) {k : Key} {st : KeyState} {v : Nat}
    (hk : actionOf ⟨k, st, v⟩ = none) : ActState base (p.add k st v) := by
  refine h.append (l := [⟨k, st, v⟩]) ?_
  simp [actionKeys, hk]

theorem ActState.removePressed {base : Nat} {p : PState} (h : ActState base p) (k : Key) :
    ActState base (p.removePressed k) :=
  ⟨h.seq, h.buffer, fun j hj => h.pressed j (List.mem_filter.1 hj).1⟩

theorem ActState.release {base : Nat} {p : PState} (h : ActState base p) (n : Nat) :
    ActState base (p.release false n) := by
  refine ⟨(h.append ?_).seq, h.buffer, fun k hk => h.pressed k (List.mem_of_mem_take hk)⟩
  refine actionKeys_none ?_
  intro e he
  obtain ⟨k, hk, rfl⟩ := List.mem_map.1 he
  exact h.pressed k (List.mem_of_mem_drop (List.mem_reverse.1 hk))

theorem ActState.flush {base : Nat} {p : PState} (h : ActState base p) (up : Bool) :
    ActState base (p.flush false up) := by
  have hd : ∀ st, actionKeys (p.buffer.map (fun k => (⟨k, st, 0⟩ : KeyEvent))) = [] := by
    intro st
    refine actionKeys_none ?_
    intro e he
    obtain ⟨k, hk, rfl⟩ := List.mem_map.1 he
    exact h.buffer k hk
  unfold PState.flush
  simp only [Bool.false_eq_true, if_false]
  split
  · refine ⟨fun hb => ?_, by simp, fun k hk => h.pressed k (List.mem_filter.1 hk).1⟩
    simp only [actionKeys_append]
    rw [hd, hd, List.append_nil, List.append_nil]
    exact h.seq hb
  · refine ⟨fun hb => ?_, by simp, ?_⟩
    · simp only [actionKeys_append]
      rw [hd, List.append_nil]
      exact h.seq hb
    · intro k hk
      rcases List.mem_append.1 hk with hk | hk
      · exact h.pressed k hk
      · exact h.buffer k hk

theorem ActState.congr {base : Nat} {p q : PState} (h : ActState base p) (h1 : q.seq = p.seq)
    (h2 : q.actions = p.actions) (h3 : q.buffer = p.buffer) (h4 : q.pressed = p.pressed) : ActState base q :=
  ⟨by rw [h1, h2]; exact h.seq, by rw [h3]; exact h.buffer, by rw [h4]; exact h.pressed⟩

/-- What the keys of an expression can be: no terminal commands -/
def NoAction (k : Key) : Prop := k < 0xF200 ∨ 0xF2FF < k

theorem ActState.step {env : PEnv} (hs : KeySource env NoAction) {p q : PState}
    (hst : OutStep env p q) (h : ActState env.actionBase p) : ActState env.actionBase q := by
  cases hst with
  | flush => exact h.flush _
  | key n hk =>
    refine ⟨h.seq, ?_, h.pressed⟩
    intro k hk'
    rcases List.mem_append.1 hk' with hk' | hk'
    · exact h.buffer k hk'
    · rw [List.mem_singleton.1 hk']; exact hs.name n hk
  | together b => exact h.congr rfl rfl rfl rfl
  | delay v => exact (h.flush _).add (actionOf_none hs.timeout _ _)
  | addDelay l e v hl hk hst =>
    have hf := h.flush true
    refine ⟨fun hb => ?_, hf.buffer, hf.pressed⟩
    have := hf.seq hb
    rw [hl] at this
    rw [← this, actionKeys_append, actionKeys_append]
    congr 1
  | not n hk => exact ((h.flush _).removePressed _).add (not_action_release _ _ (by decide) _)
  | string s seq has ht =>
    exact ((h.flush true).append (l := seq) (actionKeys_none (fun e he => typeOutput_keys hs ht e he))).congr
      rfl rfl rfl rfl
  | command c hg hc =>
    have hf := h.flush true
    refine ⟨fun hb => ?_, hf.buffer, hf.pressed⟩
    have hb' : env.actionBase + (p.actions.length + 1) ≤ 256 := by simpa using hb
    have h1 := hf.seq (by rw [flush_actions]; omega)
    rw [flush_actions] at h1
    show actionKeys ((p.flush false true).seq ++ [_]) = _
    rw [actionKeys_append, h1]
    have : 0xF200 + (env.actionBase + p.actions.length) ≤ 0xF2FF := by omega
    have h2 : actionOf ⟨Key.first_action + env.actionBase + p.actions.length, .Down, 0⟩ =
        some (env.actionBase + p.actions.length) := by
      unfold actionOf
      have e1 : (Key.first_action + env.actionBase + p.actions.length : Nat) =
        0xF200 + (env.actionBase + p.actions.length) := Nat.add_assoc _ _ _
      rw [if_pos]
      · show some ((Key.first_action + env.actionBase + p.actions.length : Nat) - 0xF200) = _
        rw [e1, Nat.add_sub_cancel_left]
      · show (0xF200 : Nat) ≤ (Key.first_action + env.actionBase + p.actions.length : Nat) ∧
          (Key.first_action + env.actionBase + p.actions.length : Nat) ≤ 0xF2FF ∧ _
        rw [e1]
        exact ⟨Nat.le_add_right _ _, this, rfl⟩
    show _ ++ actionKeys [_] = _
    simp only [actionKeys, List.filterMap_cons, h2, List.filterMap_nil, List.length_append, List.length_singleton,
      List.range_succ, List.map_append, List.map_cons, List.map_nil]
  | marker hr hg =>
    exact ((h.flush true).add (not_action_release _ _ (by decide) _)).congr rfl rfl rfl rfl
  | groupBegin hn =>
    have h1 : ActState env.actionBase { p with before := p.pressed.length :: p.before } := h.congr rfl rfl rfl rfl
    exact (h1.flush false).congr rfl rfl rfl rfl
  | groupEnd hg => exact ((h.flush true).release (p.before.headD 0)).congr rfl rfl rfl rfl

theorem actionKeys_removeUps (l : KeySequence) : actionKeys (removeAllFromEnd l .Up) = actionKeys l := by
  have h : l = removeAllFromEnd l .Up ++ (l.reverse.takeWhile (fun e => e.state == .Up)).reverse := by
    unfold removeAllFromEnd
    rw [← List.reverse_append, List.takeWhile_append_dropWhile, List.reverse_reverse]
  conv => rhs; rw [h]
  rw [actionKeys_append]
  have : actionKeys (l.reverse.takeWhile (fun e => e.state == .Up)).reverse = [] := by
    unfold actionKeys
    rw [List.filterMap_eq_nil_iff]
    intro e he
    have hs := List.all_eq_true.1 (List.all_takeWhile (p := fun e : KeyEvent => e.state == .Up) (l := l.reverse)) e
      (List.mem_reverse.1 he)
    refine not_action_release e.key e.state ?_ e.value
    rw [eq_of_beq hs]
    decide
  rw [this, List.append_nil]

/-- The terminal commands of a parsed expression -/
theorem parseOutput_actions {env : PEnv} (hi : env.isInput = false) (hs : KeySource env NoAction)
    {str : Str} {l : KeySequence} {acts : List Str} (h : parseSequence env str = some (l, acts))
    (hb : env.actionBase + acts.length ≤ 256) :
    actionKeys l = (List.range acts.length).map (env.actionBase + ·) := by
  obtain ⟨p, hp, -, -, rfl, -, hl⟩ := parseOutput_final hi h
  have hk := hp.inv (Q := ActState env.actionBase) (fun _ _ hst h => h.step hs hst)
    ⟨fun _ => rfl, by simp, by simp⟩
  have hk := (hk.release 0).seq hb
  rcases hl with rfl | ⟨-, -, rfl⟩
  · exact hk
  · rw [actionKeys_removeUps]; exact hk

/-! ## The passes over the contexts -/

/-- All outputs of a context -/
def AllOutputs (P : KeySequence → Prop) (c : CContext) : Prop :=
  (∀ o ∈ c.outputs, P o) ∧ ∀ o ∈ c.commandOutputs, P o.output

theorem duplicateInputs_outputs {P : KeySequence → Prop} {l : LogicalKey}
    (hr : ∀ o, P o → P (replaceKey o l.both l.right)) (is : List Input) :
    ∀ outs : List KeySequence, (∀ o ∈ outs, P o) → ∀ o ∈ (duplicateInputs l is outs).2, P o := by
  induction is with
  | nil => intro outs h; unfold duplicateInputs; exact h
  | cons i is ih =>
    intro outs h
    unfold duplicateInputs
    split
    · simp only
      split
      · next out hout =>
        split
        · refine ih (outs ++ [replaceKey out l.both l.right]) ?_
          intro o ho
          rcases List.mem_append.1 ho with ho | ho
          · exact h o ho
          · rw [List.mem_singleton.1 ho]
            refine hr out (h out ?_)
            split at hout
            · exact List.mem_of_getElem? hout
            · cases hout
        · exact ih outs h
      · exact ih outs h
    · exact ih outs h

theorem AllOutputs.replaceLogical {P : KeySequence → Prop} {l : LogicalKey}
    (hn : ∀ o, P o → P (replaceNotKey o l.both l.left l.right))
    (hl : ∀ o, P o → P (replaceKey o l.both l.left)) (hr : ∀ o, P o → P (replaceKey o l.both l.right))
    {cs : List CContext} (h : ∀ c ∈ cs, AllOutputs P c) : ∀ c ∈ replaceLogicalKey cs l, AllOutputs P c := by
  intro c hc
  rw [replaceLogicalKey_eq] at hc
  obtain ⟨d, hd, hc⟩ := List.mem_flatMap.1 hc
  have hd := h d hd
  have hin : AllOutputs P (replaceInContext l d) := by
    refine ⟨?_, ?_⟩
    · intro o ho
      obtain ⟨o', ho', rfl⟩ := List.mem_map.1 ho
      refine hl _ (duplicateInputs_outputs hr _ _ ?_ o' ho')
      intro o ho
      obtain ⟨o', ho', rfl⟩ := List.mem_map.1 ho
      exact hn _ (hd.1 o' ho')
    · intro o ho
      obtain ⟨o', ho', rfl⟩ := List.mem_map.1 ho
      obtain ⟨o'', ho'', rfl⟩ := List.mem_map.1 ho'
      exact hl _ (hn _ (hd.2 o'' ho''))
  unfold splitModifier at hc
  split at hc
  · simp only [List.mem_cons, List.not_mem_nil, or_false] at hc
    rcases hc with rfl | rfl
    · exact ⟨by simp, by simp⟩
    · exact ⟨hin.1, hin.2⟩
  · rw [List.mem_singleton.1 hc]
    exact hin

theorem AllOutputs.suppress {P : KeySequence → Prop} {ms : List Key} (hp : ∀ k ∈ ms, ∀ o, P o → P (prependNot k o))
    {cs : List CContext} (h : ∀ c ∈ cs, AllOutputs P c) : ∀ c ∈ suppressForwarded ms cs, AllOutputs P c := by
  unfold suppressForwarded
  refine foldl_inv (P := fun cs : List CContext => ∀ c ∈ cs, AllOutputs P c) _ ?_ cs h
  intro cs ci _ h
  refine foldl_inv (P := fun cs : List CContext => ∀ c ∈ cs, AllOutputs P c) _ ?_ cs h
  intro cs k hk h
  split
  · next c hc =>
    refine foldl_inv (P := fun cs : List CContext => ∀ c ∈ cs, AllOutputs P c) _ ?_ cs h
    intro cs' i hi h'
    unfold suppressInput
    split
    · split
      · intro d hd
        rcases mem_modify hd with hd | ⟨b, hb, rfl⟩
        · exact h' d hd
        · refine ⟨?_, (h' b hb).2⟩
          intro o ho
          rcases mem_modify ho with ho | ⟨o', ho', rfl⟩
          · exact (h' b hb).1 o ho
          · exact hp k hk _ ((h' b hb).1 o' ho')
      · intro d hd
        obtain ⟨b, hb, rfl⟩ := List.mem_map.1 hd
        refine ⟨(h' b hb).1, ?_⟩
        intro o ho
        obtain ⟨o', ho', rfl⟩ := List.mem_map.1 ho
        split
        · exact hp k hk _ ((h' b hb).2 o' ho')
        · exact (h' b hb).2 o' ho'
    · exact h'
  · exact h

/-- A property of outputs which the passes keep -/
theorem finishContexts_outputs {P : KeySequence → Prop} {s : CState}
    (hn : ∀ l ∈ s.logical, ∀ o, P o → P (replaceNotKey o l.both l.left l.right))
    (hl : ∀ l ∈ s.logical, ∀ o, P o → P (replaceKey o l.both l.left))
    (hr : ∀ l ∈ s.logical, ∀ o, P o → P (replaceKey o l.both l.right))
    (hp : ∀ k ∈ s.forwardModifiers, ∀ o, P o → P (prependNot k o))
    (hf : ∀ k ∈ s.forwardModifiers, P [⟨k, .Down, 0⟩])
    (h : ∀ c ∈ s.cfg.contexts, AllOutputs P c) : ∀ c ∈ s.finishContexts, AllOutputs P c := by
  have h1 : ∀ c ∈ prependForward s.forwardModifiers s.cfg.contexts, AllOutputs P c := by
    intro c hc
    unfold KM.prependForward at hc
    obtain ⟨d, hd, rfl⟩ := List.mem_map.1 hc
    split
    · refine foldl_inv (P := AllOutputs P) _ ?_ d (h d hd)
      intro c k hk h
      refine ⟨?_, h.2⟩
      intro o ho
      rcases List.mem_append.1 ho with ho | ho
      · exact h.1 o ho
      · rw [List.mem_singleton.1 ho]
        exact hf k (List.mem_reverse.1 hk)
    · exact h d hd
  have h2 := optimizeContexts_mem (P := AllOutputs P) (fun c d hc hd => ⟨hd.1, hd.2⟩)
    ⟨by simp, by simp⟩ h1
  have h3 : ∀ c ∈ s.logical.reverse.foldl replaceLogicalKey
      (optimizeContexts (prependForward s.forwardModifiers s.cfg.contexts)), AllOutputs P c := by
    refine foldl_inv (P := fun cs : List CContext => ∀ c ∈ cs, AllOutputs P c) _ ?_ _ h2
    intro cs l hl' hcs
    have hl' := List.mem_reverse.1 hl'
    exact AllOutputs.replaceLogical (hn l hl') (hl l hl') (hr l hl') hcs
  unfold CState.finishContexts
  simp only
  split
  · exact h3
  · exact AllOutputs.suppress hp h3

/-! ## The terminal commands in the passes -/

theorem actionKeys_replaceNotKey (l : KeySequence) (b x y : Key) :
    actionKeys (replaceNotKey l b x y) = actionKeys l := by
  induction l with
  | nil => rfl
  | cons e l ih =>
    have h1 : replaceNotKey (e :: l) b x y =
      (if e.state == .Not && e.key == b then [⟨x, .Not, 0⟩, { e with key := y }] else [e]) ++ replaceNotKey l b x y := rfl
    have h2 : actionKeys (e :: l) = actionKeys [e] ++ actionKeys l := actionKeys_append [e] l
    rw [h1, h2, actionKeys_append, ih]
    congr 1
    split
    · next h =>
      have hs : e.state = .Not := by simp at h; exact h.1
      have h3 : ∀ (k : Key) (v : Nat), actionOf ⟨k, .Not, v⟩ = none :=
        fun k v => not_action_release _ _ (by decide) _
      have h4 : actionOf e = none := by
        have := not_action_release e.key e.state (by rw [hs]; decide) e.value
        exact this
      have h5 : actionOf { e with key := y } = none := by rw [hs]; exact h3 _ _
      simp [actionKeys, h3, h4, h5]
    · rfl

theorem actionKeys_replaceKey (l : KeySequence) {b x : Key} (hb : NoAction b) (hx : NoAction x) :
    actionKeys (replaceKey l b x) = actionKeys l := by
  induction l with
  | nil => rfl
  | cons e l ih =>
    have h1 : replaceKey (e :: l) b x = (if e.key == b then { e with key := x } else e) :: replaceKey l b x := rfl
    unfold actionKeys at *
    have h2 : actionOf (if e.key == b then { e with key := x } else e) = actionOf e := by
      split
      · next h =>
        have h3 : actionOf e = none := actionOf_none (k := e.key) (by rw [eq_of_beq h]; exact hb) _ _
        rw [h3]; exact actionOf_none hx _ _
      · rfl
    rw [h1, List.filterMap_cons, List.filterMap_cons, ih, h2]

theorem actionKeys_prependNot (l : KeySequence) (k : Key) : actionKeys (prependNot k l) = actionKeys l := by
  unfold prependNot
  split
  · have : actionOf ⟨k, .Not, 0⟩ = none := not_action_release _ _ (by decide) _
    simp [actionKeys, this]
  · rfl

/-- An output triggers the terminal commands of the expression which it was parsed from (none for
the outputs of forwarded modifiers). -/
def ActionsOf (actions : List Str) (o : KeySequence) : Prop :=
  ∃ acts : List Str,
    (acts = [] ∨ ∃ (penv : PEnv) (text : Str) (l : KeySequence),
      penv.isInput = false ∧ parseSequence penv text = some (l, acts)) ∧
    ∃ base, actionKeys o = (List.range acts.length).map (base + ·) ∧
      ∀ n, n < acts.length → actions[base + n]? = acts[n]?

theorem keySource_noAction {env : CEnv} (ht : TyperOk env) {s : CState} (hn : LogicalNumbered s.logical)
    (hb : 4 ≤ s.logical.length) : KeySource (s.outputEnv env) NoAction := by
  have h := keySource_of ht hn hb (s.outputEnv env) rfl rfl
  have key : ∀ k, (SourceKey s.logical.length k ∨ k = Key.timeout) → NoAction k := by
    rintro k (h | rfl)
    · exact h.not_action
    · exact .inl (by decide)
  exact ⟨fun n h0 => key _ (h.name n h0), fun t l hl x hx => key _ (h.typer t l hl x hx),
    fun k hk => key _ (h.modifier k hk), key _ h.timeout, key _ h.any⟩

theorem parseOutput_actionsOf {env : CEnv} (ht : TyperOk env) {s s1 : CState} (hs : StateOk s) {t : Str}
    {out : KeySequence} (h : s.parseOutput env t = some (s1, out)) {F : List Str} (hF : s1.cfg.actions <+: F)
    (hl : F.length ≤ 256) : ActionsOf F out := by
  obtain ⟨acts, hp, rfl, -⟩ := parseOutput_state h
  obtain ⟨r, rfl⟩ := hF
  refine ⟨acts, .inr ⟨_, _, _, rfl, hp⟩, s.cfg.actions.length, ?_, ?_⟩
  · refine parseOutput_actions (env := s.outputEnv env) rfl (keySource_noAction ht hs.numbered hs.builtin) hp ?_
    show s.cfg.actions.length + acts.length ≤ 256
    simp only [List.length_append] at hl
    omega
  · intro n hn
    simp only
    rw [List.append_assoc, List.getElem?_append_right (Nat.le_add_right _ _), Nat.add_sub_cancel_left,
      List.getElem?_append_left hn]

theorem actions_hyps {env : CEnv} (ht : TyperOk env) {F : List Str} (hl : F.length ≤ 256) :
    CtxHyps env (fun s c => s.cfg.actions <+: F → AllOutputs (ActionsOf F) c) where
  mono := fun s t c hx h hF => h (hx.actions.trans hF)
  init := fun _ => ⟨by simp, by simp⟩
  fresh := fun s c _ hc _ => ⟨by simp [hc.outputs], by simp [hc.commandOutputs]⟩
  fall := fun s c h hF => h hF
  mapping := by
    intro s s1 tin tout input output c hs hx _ hin hout h hF
    refine ⟨?_, (h hF).2⟩
    intro o ho
    rcases List.mem_append.1 ho with ho | ho
    · exact (h hF).1 o ho
    · rw [List.mem_singleton.1 ho]
      exact parseOutput_actionsOf ht hs hout hF hl
  command := fun s tin input j c _ _ _ _ h hF => h hF
  commandOutput := by
    intro s s1 tout output j c hs hx _ hout hj hno h hF
    refine ⟨(h hF).1, ?_⟩
    intro o ho
    rcases List.mem_append.1 ho with ho | ho
    · exact (h hF).2 o ho
    · rw [List.mem_singleton.1 ho]
      exact parseOutput_actionsOf ht hs hout hF hl

theorem ActionsOf.congr {F : List Str} {o o' : KeySequence} (h : ActionsOf F o) (he : actionKeys o' = actionKeys o) :
    ActionsOf F o' := by
  obtain ⟨acts, h1, base, h2, h3⟩ := h
  exact ⟨acts, h1, base, he.trans h2, h3⟩

theorem parseConfig_actions {env : CEnv} (ht : TyperOk env) {text : Str} {config : Config}
    (h : parseConfig env text = some config) (hl : config.actions.length ≤ 256) :
    ∀ c ∈ config.contexts, AllOutputs (ActionsOf config.actions) c := by
  obtain ⟨s, hs, hc, ha, -⟩ := parseConfig_state h
  rw [hc, ha]
  rw [ha] at hl
  obtain ⟨hok, hall⟩ := (actions_hyps ht hl).steps hs
  obtain ⟨-, hfwd⟩ := forward_ok hs
  have hlog : ∀ l ∈ s.logical, NoAction l.both ∧ NoAction l.left ∧ NoAction l.right := by
    intro l hl
    obtain ⟨i, hi⟩ := List.mem_iff_getElem?.1 hl
    refine ⟨?_, (hok.below i l hi).1.not_action, (hok.below i l hi).2.not_action⟩
    rw [hok.numbered i l hi]
    exact .inr (Nat.lt_of_lt_of_le (by decide) (Nat.le_add_right _ _))
  refine finishContexts_outputs (P := ActionsOf s.cfg.actions) ?_ ?_ ?_ ?_ ?_
    (fun c hc => hall c hc (List.prefix_refl _))
  · exact fun l _ o ho => ho.congr (actionKeys_replaceNotKey _ _ _ _)
  · exact fun l hl o ho => ho.congr (actionKeys_replaceKey _ (hlog l hl).1 (hlog l hl).2.1)
  · exact fun l hl o ho => ho.congr (actionKeys_replaceKey _ (hlog l hl).1 (hlog l hl).2.2)
  · exact fun k _ o ho => ho.congr (actionKeys_prependNot _ _)
  · intro k hk
    refine ⟨[], .inl rfl, 0, ?_, by simp⟩
    have := actionOf_none (hfwd k hk).not_action .Down 0
    simp [actionKeys, this]

end KM
