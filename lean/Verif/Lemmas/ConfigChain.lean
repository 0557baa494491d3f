import Verif.Lemmas.ConfigSteps
/-!
# Contexts which fall through are followed by a context of the same stage
-/
namespace KM

/-- `(fallthrough, beginStage)` -/
def CContext.flags (c : CContext) : Bool × Bool := (c.fallthrough, c.beginStage)

/-- A context which falls through is followed by one which does not begin a stage -/
def Chain : List (Bool × Bool) → Prop
  | [] => True
  | [c] => c.1 = false
  | c :: d :: rest => (c.1 = true → d.2 = false) ∧ Chain (d :: rest)

/-- Contexts which begin a stage have no modifier filter and are for all systems -/
def StagesPlain (cs : List CContext) : Prop :=
  ∀ c ∈ cs, c.beginStage = true → c.modifierFilter = [] ∧ c.systemFilterMatched = true

theorem Chain.cons {c : Bool × Bool} {l : List (Bool × Bool)} (h : Chain l)
    (hc : c.1 = true → ∃ d, l.head? = some d ∧ d.2 = false) : Chain (c :: l) := by
  cases l with
  | nil =>
    show c.1 = false
    cases h1 : c.1 with
    | false => rfl
    | true => obtain ⟨d, h, -⟩ := hc h1; cases h
  | cons d l =>
    refine ⟨fun h1 => ?_, h⟩
    obtain ⟨d', h, h2⟩ := hc h1
    injection h with h
    subst h
    exact h2

theorem Chain.of_cons {c : Bool × Bool} {l : List (Bool × Bool)} (h : Chain (c :: l)) :
    Chain l ∧ (c.1 = true → ∃ d, l.head? = some d ∧ d.2 = false) := by
  cases l with
  | nil => exact ⟨trivial, fun h1 => absurd h (by simp [Chain, h1])⟩
  | cons d l => exact ⟨h.2, fun h1 => ⟨d, rfl, h.1 h1⟩⟩

theorem Chain.concat {l : List (Bool × Bool)} {b : Bool} (h : Chain l) : Chain (l ++ [(false, b)]) := by
  induction l with
  | nil => rfl
  | cons c l ih =>
    obtain ⟨h1, h2⟩ := h.of_cons
    refine (ih h1).cons (fun h3 => ?_)
    obtain ⟨d, h4, h5⟩ := h2 h3
    cases l with
    | nil => cases h4
    | cons e l => exact ⟨d, h4, h5⟩

theorem Chain.setPrev {l : List (Bool × Bool)} {p q : Bool × Bool} (h : Chain (l ++ [p, q]))
    (hq : q.2 = false) : Chain (l ++ [(true, p.2), q]) := by
  induction l with
  | nil =>
    obtain ⟨h1, -⟩ := Chain.of_cons h
    exact Chain.cons h1 (fun _ => ⟨q, rfl, hq⟩)
  | cons c l ih =>
    obtain ⟨h1, h2⟩ := Chain.of_cons h
    refine Chain.cons (ih h1) (fun h3 => ?_)
    obtain ⟨d, h4, h5⟩ := h2 h3
    cases l with
    | nil =>
      injection h4 with h4
      subst h4
      exact ⟨(true, p.2), rfl, h5⟩
    | cons e l => exact ⟨d, h4, h5⟩

/-! ## While parsing -/

theorem modCurrent_map {α : Type} (g : CContext → α) {f : CContext → CContext} (hf : ∀ c, g (f c) = g c)
    (s : CState) : (s.modCurrent f).cfg.contexts.map g = s.cfg.contexts.map g := by
  unfold CState.modCurrent
  split
  · next c hc =>
    simp only [List.map_append, List.map_cons, List.map_nil, hf]
    rw [← List.map_singleton (f := g), ← List.map_append]
    congr 1
    obtain ⟨l, hl⟩ := List.getLast?_eq_some_iff.1 hc
    rw [hl]; simp
  · rfl

theorem modCurrent_fields (s : CState) (f : CContext → CContext) :
    (s.modCurrent f).cfg.actions = s.cfg.actions ∧ (s.modCurrent f).commands = s.commands ∧
    (s.modCurrent f).logical = s.logical ∧ (s.modCurrent f).forwardModifiers = s.forwardModifiers ∧
    (s.modCurrent f).cfg.grabDeviceFilters = s.cfg.grabDeviceFilters := by
  unfold CState.modCurrent
  split <;> exact ⟨rfl, rfl, rfl, rfl, rfl⟩

/-- What outputs are parsed with -/
def CState.outputEnv (s : CState) (env : CEnv) : PEnv :=
  { isInput := false, getKey := s.getKey, typer := env.typer, actionBase := s.cfg.actions.length }

/-- What inputs are parsed with -/
def CState.inputEnv (s : CState) (env : CEnv) : PEnv :=
  { isInput := true, getKey := s.getKey, typer := env.typer, addCommands := false }

theorem parseOutput_state {env : CEnv} {s s1 : CState} {t : Str} {out : KeySequence}
    (h : s.parseOutput env t = some (s1, out)) :
    ∃ acts, parseSequence (s.outputEnv env) (skipSpace t) = some (out, acts) ∧
      s1 = { s with cfg := { s.cfg with actions := s.cfg.actions ++ acts } } ∧
      containsKey out Key.ContextActive = false := by
  unfold CState.parseOutput at h
  simp only at h
  split at h
  · cases h
  · next seq acts hp =>
    split at h
    · cases h
    · next hc =>
      injection h with h
      simp only [Prod.mk.injEq] at h
      obtain ⟨rfl, rfl⟩ := h
      exact ⟨acts, hp, rfl, by simpa using hc⟩

theorem addCommandMapping_state {s s2 : CState} {name : Str} {output : KeySequence}
    (h : s.addCommandMapping name output = some s2) :
    ∃ command ctx, s.commands.find? (fun c => c.name == name) = some command ∧
      s.cfg.contexts.getLast? = some ctx ∧
      ctx.commandOutputs.any (fun o => o.index == command.index) = false ∧
      s2 = { s.modCurrent (fun c => { c with
          commandOutputs := c.commandOutputs ++ [⟨output, command.index⟩] }) with
        commands := modFirst (fun c => c.name == name) (fun c => { c with mapped := true }) s.commands } := by
  unfold CState.addCommandMapping at h
  split at h
  · cases h
  · next command hc =>
    split at h
    · cases h
    · next ctx hx =>
      split at h
      · cases h
      · next ha =>
        injection h with h
        refine ⟨command, ctx, hc, hx, by simpa using ha, ?_⟩
        rw [← h, (modCurrent_fields s _).2.1]

/-- What all steps, except for adding contexts, leave unchanged -/
theorem CStep.map {env : CEnv} {s t : CState} (h : CStep env s t) {α : Type} (g : CContext → α)
    (hg : ∀ c i o co, g { c with inputs := i, outputs := o, commandOutputs := co } = g c) :
    t.cfg.contexts.map g = s.cfg.contexts.map g ∨
    (∃ c, FreshContext s c ∧ t.cfg.contexts = s.pushContext c) := by
  cases h with
  | mapping s1 tin tout input output he hin hout =>
    left
    obtain ⟨acts, -, rfl, -⟩ := parseOutput_state hout
    exact modCurrent_map g (fun c => hg c _ _ _) _
  | command tin input name he hin hn hk =>
    left
    unfold CState.addCommand
    split
    · exact modCurrent_map g (fun c => hg c _ _ _) _
    · exact modCurrent_map g (fun c => hg c _ _ _) _
  | commandMapping s1 _ tout name output he hout hm =>
    left
    obtain ⟨acts, -, rfl, -⟩ := parseOutput_state hout
    obtain ⟨command, ctx, -, -, -, rfl⟩ := addCommandMapping_state hm
    exact modCurrent_map g (fun c => hg c _ _ _) _
  | unmapped _ tout output hu hout =>
    left
    obtain ⟨acts, -, rfl, -⟩ := parseOutput_state hout
    rfl
  | context c hc => exact .inr ⟨c, hc, rfl⟩
  | logical name left right h1 h2 => exact .inl rfl
  | other _ h => left; rw [h.contexts]

theorem setPrevFallthrough_split (l : List CContext) :
    (∃ a p q, l = a ++ [p, q] ∧ setPrevFallthrough l = a ++ [{ p with fallthrough := true }, q]) ∨
    (setPrevFallthrough l = l ∧ l.length < 2) := by
  unfold setPrevFallthrough
  match h : l.reverse with
  | [] => right; exact ⟨rfl, by simp [List.reverse_eq_nil_iff.1 h]⟩
  | [x] =>
    right
    refine ⟨rfl, ?_⟩
    have : l.reverse.length = 1 := by rw [h]; rfl
    simp at this; omega
  | q :: p :: ps =>
    left
    refine ⟨ps.reverse, p, q, ?_, by simp⟩
    have := congrArg List.reverse h
    simpa using this

theorem pushContext_cases (s : CState) (c : CContext) :
    s.pushContext c = s.cfg.contexts ++ [c] ∨
    (c.beginStage = false ∧ s.afterEmpty = true ∧ ∃ a p, s.cfg.contexts = a ++ [p] ∧
      s.pushContext c = a ++ [{ p with fallthrough := true }, c]) := by
  unfold CState.pushContext
  split
  · next h =>
    simp only [Bool.and_eq_true, Bool.not_eq_true'] at h
    rcases setPrevFallthrough_split (s.cfg.contexts ++ [c]) with ⟨a, p, q, h1, h2⟩ | ⟨h1, -⟩
    · have h1 : s.cfg.contexts ++ [c] = (a ++ [p]) ++ [q] := by simpa using h1
      obtain ⟨h3, h4⟩ := List.append_inj' h1 rfl
      injection h4 with h4
      subst h4
      exact .inr ⟨h.2, h.1, a, p, h3, h2⟩
    · exact .inl h1
  · exact .inl rfl

/-- The invariant of the contexts -/
def ChainInv (s : CState) : Prop := Chain (s.cfg.contexts.map CContext.flags) ∧ StagesPlain s.cfg.contexts

theorem stagesPlain_map {l m : List CContext}
    (h : l.map (fun c => (c.beginStage, c.modifierFilter, c.systemFilterMatched)) =
      m.map (fun c => (c.beginStage, c.modifierFilter, c.systemFilterMatched))) (hm : StagesPlain m) :
    StagesPlain l := by
  intro c hc hb
  have : (c.beginStage, c.modifierFilter, c.systemFilterMatched) ∈
      m.map (fun c => (c.beginStage, c.modifierFilter, c.systemFilterMatched)) := by
    rw [← h]; exact List.mem_map.2 ⟨c, hc, rfl⟩
  obtain ⟨d, hd, he⟩ := List.mem_map.1 this
  simp only [Prod.mk.injEq] at he
  rw [← he.2.1, ← he.2.2]
  exact hm d hd (he.1.trans hb)

theorem ChainInv.step {env : CEnv} {s t : CState} (hs : CStep env s t) (h : ChainInv s) : ChainInv t := by
  constructor
  · rcases hs.map CContext.flags (fun _ _ _ _ => rfl) with he | ⟨c, hc, he⟩
    · rw [he]; exact h.1
    · have hf : c.flags = (false, c.beginStage) := by rw [CContext.flags, hc.fallthrough]
      have hp : Chain ((s.cfg.contexts ++ [c]).map CContext.flags) := by
        rw [List.map_append, List.map_singleton, hf]
        exact h.1.concat
      rw [he]
      rcases pushContext_cases s c with h1 | ⟨hb, -, a, p, h1, h2⟩
      · rw [h1]; exact hp
      · rw [h1, List.append_assoc, List.map_append] at hp
        rw [h2, List.map_append]
        exact Chain.setPrev hp hb
  · rcases hs.map (fun c => (c.beginStage, c.modifierFilter, c.systemFilterMatched)) (fun _ _ _ _ => rfl) with
      he | ⟨c, hc, he⟩
    · exact stagesPlain_map he h.2
    · have hp : StagesPlain (s.cfg.contexts ++ [c]) := by
        intro d hd hb
        rcases List.mem_append.1 hd with hd | hd
        · exact h.2 d hd hb
        · rw [List.mem_singleton.1 hd] at hb ⊢
          exact ⟨(hc.stage hb).modifierFilter, (hc.stage hb).systemFilterMatched⟩
      rw [he]
      rcases pushContext_cases s c with h1 | ⟨hb, -, a, p, h1, h2⟩
      · rw [h1]; exact hp
      · refine stagesPlain_map (m := s.cfg.contexts ++ [c]) ?_ hp
        rw [h2, h1]; simp

theorem ChainInv.init : ChainInv CState.init := by
  refine ⟨rfl, ?_⟩
  intro c hc hb
  have : c = { beginStage := true, systemFilterMatched := true } := List.mem_singleton.1 hc
  subst this
  exact ⟨rfl, rfl⟩

/-! ## The passes -/

theorem prependForward_map {α : Type} (g : CContext → α)
    (hg : ∀ c i o co, g { c with inputs := i, outputs := o, commandOutputs := co } = g c)
    (ms : List Key) (cs : List CContext) : (prependForward ms cs).map g = cs.map g := by
  have : ∀ (l : List Key) (c : CContext), g (l.foldl (fun (c : CContext) k => { c with
        inputs := ⟨[⟨k, .Down, 0⟩, ⟨k, .UpAsync, 0⟩], c.outputs.length⟩ :: c.inputs
        outputs := c.outputs ++ [[⟨k, .Down, 0⟩]] }) c) = g c := by
    intro l
    induction l with
    | nil => intro c; rfl
    | cons k l ih => intro c; rw [List.foldl_cons, ih]; exact hg c _ _ _
  unfold prependForward
  rw [List.map_map]
  refine List.map_congr_left (fun c _ => ?_)
  simp only [Function.comp]
  split
  · exact this _ c
  · rfl

/-- the context which follows in the original order -/
def NextPlain (before : Bool) (l : List CContext) (acc : List CContext) : Prop :=
  before = true → ∃ d, acc.head? = some d ∧ ∀ c, l.head? = some c → c.fallthrough = true → d.beginStage = false

/-- The reversed list of contexts satisfies the chain condition -/
def RevChain : List CContext → Prop
  | [] => True
  | [_] => True
  | d :: c :: rest => (c.fallthrough = true → d.beginStage = false) ∧ RevChain (c :: rest)

theorem RevChain.replace {d d' : CContext} {l : List CContext} (h : RevChain (d :: l))
    (hb : d'.beginStage = d.beginStage) : RevChain (d' :: l) := by
  cases l with
  | nil => trivial
  | cons c l => exact ⟨fun h1 => hb ▸ h.1 h1, h.2⟩

theorem RevChain.of_cons {d : CContext} {l : List CContext} (h : RevChain (d :: l)) : RevChain l := by
  cases l with
  | nil => trivial
  | cons c l => exact h.2

theorem optimizeGo_chain (l : List CContext) : ∀ (before : Bool) (acc : List CContext),
    RevChain l → Chain (acc.map CContext.flags) → NextPlain before l acc →
    Chain ((optimizeGo before l acc).map CContext.flags) := by
  induction h : l.length using Nat.strongRecOn generalizing l with
  | ind n ih =>
    intro before acc hr hc hn
    subst h
    unfold optimizeGo
    split
    · exact hc
    · next c rest =>
      split
      · next hf =>
        split
        · refine ih _ (by simp) _ rfl _ _ hr.of_cons hc ?_
          intro hb
          obtain ⟨d, h1, h2⟩ := hn hb
          exact ⟨d, h1, fun _ _ _ => h2 c rfl hf⟩
        · next hk =>
          simp only [Bool.or_eq_true, not_or, Bool.not_eq_true', Bool.not_eq_false] at hk
          obtain ⟨d, h1, h2⟩ := hn hk.2
          refine ih _ (by simp) _ rfl _ _ hr.of_cons ?_ ?_
          · rw [List.map_cons]
            refine hc.cons (fun _ => ⟨d.flags, ?_, h2 c rfl hf⟩)
            rw [List.head?_map, h1]; rfl
          · intro _
            refine ⟨c, rfl, ?_⟩
            intro p hp hpf
            cases rest with
            | nil => cases hp
            | cons p' ps =>
              injection hp with hp
              subst hp
              exact hr.1 hpf
      · next hf =>
        simp only
        split
        · split
          · next p ps =>
            split
            · refine ih _ (by simp) _ rfl _ _ ?_ hc (by intro h; cases h)
              exact RevChain.replace hr.of_cons rfl
            · exact ih _ (by simp) _ rfl _ _ hr.of_cons hc (by intro h; cases h)
          · exact ih _ (by simp) _ rfl _ _ trivial hc (by intro h; cases h)
        · refine ih _ (by simp) _ rfl _ _ hr.of_cons ?_ ?_
          · rw [List.map_cons]
            exact hc.cons (fun h => absurd h hf)
          · intro _
            refine ⟨c, rfl, ?_⟩
            intro p hp hpf
            cases rest with
            | nil => cases hp
            | cons p' ps =>
              injection hp with hp
              subst hp
              exact hr.1 hpf

theorem revChain_of_chain (l : List CContext) : Chain (l.reverse.map CContext.flags) → RevChain l := by
  induction l with
  | nil => intro _; trivial
  | cons d l ih =>
    cases l with
    | nil => intro _; trivial
    | cons c l =>
      intro h
      have hh : ∀ (a : List (Bool × Bool)) (p q : Bool × Bool), Chain (a ++ [p, q]) →
          (p.1 = true → q.2 = false) := by
        intro a
        induction a with
        | nil => intro p q h; exact h.1
        | cons x a iha => intro p q h; exact iha p q (Chain.of_cons h).1
      have hp : ∀ (a b : List (Bool × Bool)), Chain (a ++ b) →
          (∀ p, a.getLast? = some p → p.1 = false) → Chain a := by
        intro a
        induction a with
        | nil => intro b _ _; trivial
        | cons x a iha =>
          intro b h hl
          obtain ⟨h1, h2⟩ := Chain.of_cons h
          cases a with
          | nil => exact hl x rfl
          | cons y a =>
            refine Chain.cons (iha b h1 (fun p hp => hl p (by simpa using hp))) (fun hx => ?_)
            obtain ⟨d, h3, h4⟩ := h2 hx
            exact ⟨y, rfl, by injection h3 with h3; rw [h3]; exact h4⟩
      simp only [List.reverse_cons, List.append_assoc, List.map_append, List.map_cons, List.map_nil] at h
      refine ⟨hh _ c.flags d.flags h, ?_⟩
      -- only the relations between neighbours are needed
      have : ∀ (m : List CContext), RevChain (d :: c :: m) → RevChain (c :: m) := fun m h => h.2
      have key : ∀ (m : List CContext) (x : CContext) (tail : List (Bool × Bool)),
          Chain ((m.reverse.map CContext.flags) ++ x.flags :: tail) → RevChain (x :: m) := by
        intro m
        induction m with
        | nil => intro _ _ _; trivial
        | cons y m ihm =>
          intro x tail h
          simp only [List.reverse_cons, List.map_append, List.map_cons, List.map_nil, List.append_assoc,
            List.cons_append, List.nil_append] at h
          refine ⟨?_, ihm y _ h⟩
          have hh' : ∀ (a : List (Bool × Bool)) (p q : Bool × Bool) (t : List (Bool × Bool)),
              Chain (a ++ p :: q :: t) → (p.1 = true → q.2 = false) := by
            intro a
            induction a with
            | nil => intro p q t h; exact h.1
            | cons x a iha => intro p q t h; exact iha p q t (Chain.of_cons h).1
          exact hh' _ _ _ _ h
      exact key l c _ h

theorem optimizeContexts_chain {cs : List CContext} (h : Chain (cs.map CContext.flags)) :
    Chain ((optimizeContexts cs).map CContext.flags) := by
  have : Chain ((optimizeGo false cs.reverse []).map CContext.flags) := by
    refine optimizeGo_chain _ _ _ (revChain_of_chain _ (by simpa using h)) trivial (by intro h; cases h)
  unfold optimizeContexts
  simp only
  split
  · rfl
  · exact this

theorem optimizeGo_mem {P : CContext → Prop} (hP : ∀ c d : CContext, P c → P d → P { c with
      inputs := d.inputs, outputs := d.outputs, commandOutputs := d.commandOutputs, fallthrough := false })
    (l : List CContext) : ∀ (before : Bool) (acc : List CContext), (∀ c ∈ l, P c) → (∀ c ∈ acc, P c) →
    ∀ c ∈ optimizeGo before l acc, P c := by
  induction h : l.length using Nat.strongRecOn generalizing l with
  | ind n ih =>
    intro before acc hl ha
    subst h
    unfold optimizeGo
    split
    · exact ha
    · next c rest =>
      have hc := hl c List.mem_cons_self
      have hrest : ∀ d ∈ rest, P d := fun d hd => hl d (List.mem_cons_of_mem _ hd)
      have hca : ∀ d ∈ c :: acc, P d := by
        intro d hd
        rcases List.mem_cons.1 hd with rfl | hd
        · exact hc
        · exact ha d hd
      split
      · split
        · exact ih _ (by simp) _ rfl _ _ hrest ha
        · exact ih _ (by simp) _ rfl _ _ hrest hca
      · simp only
        split
        · split
          · next p ps _ =>
            split
            · refine ih _ (by simp) _ rfl _ _ ?_ ha
              intro d hd
              rcases List.mem_cons.1 hd with rfl | hd
              · exact hP p c (hrest p List.mem_cons_self) hc
              · exact hrest d (List.mem_cons_of_mem _ hd)
            · exact ih _ (by simp) _ rfl _ _ hrest ha
          · exact ih _ (by simp) _ rfl _ _ (by intro d hd; cases hd) ha
        · exact ih _ (by simp) _ rfl _ _ hrest hca

/-- Properties of single contexts are kept by the optimiser, if they are kept when the mappings are
moved to another context. -/
theorem optimizeContexts_mem {P : CContext → Prop} (hP : ∀ c d : CContext, P c → P d → P { c with
      inputs := d.inputs, outputs := d.outputs, commandOutputs := d.commandOutputs, fallthrough := false })
    (h0 : P {}) {cs : List CContext} (h : ∀ c ∈ cs, P c) : ∀ c ∈ optimizeContexts cs, P c := by
  unfold optimizeContexts
  simp only
  split
  · intro c hc; rw [List.mem_singleton.1 hc]; exact h0
  · exact optimizeGo_mem hP _ _ _ (fun c hc => h c (List.mem_reverse.1 hc)) (by intro c hc; cases hc)

theorem optimizeContexts_ne_nil (cs : List CContext) : optimizeContexts cs ≠ [] := by
  unfold optimizeContexts
  simp only
  split
  · simp
  · next h => simpa using h

/-- the fields of a context which replacing a logical key leaves unchanged -/
theorem replaceInContext_fields (l : LogicalKey) (c : CContext) :
    (replaceInContext l c).fallthrough = c.fallthrough ∧ (replaceInContext l c).beginStage = c.beginStage ∧
    (replaceInContext l c).modifierFilter = replaceNotKey c.modifierFilter l.both l.left l.right ∧
    (replaceInContext l c).systemFilterMatched = c.systemFilterMatched :=
  ⟨rfl, rfl, rfl, rfl⟩

/-- The context(s) which replace one with a logical key in its modifier filter -/
def splitModifier (l : LogicalKey) (c : CContext) : List CContext :=
  if containsKey c.modifierFilter l.both then
    [{ c with
        inputs := []
        outputs := []
        commandOutputs := []
        fallthrough := true
        modifierFilter := replaceKey c.modifierFilter l.both l.left },
     { c with modifierFilter := replaceKey c.modifierFilter l.both l.right }]
  else [c]

theorem replaceLogicalKey_eq (cs : List CContext) (l : LogicalKey) :
    replaceLogicalKey cs l = cs.flatMap (fun c => splitModifier l (replaceInContext l c)) := by
  unfold replaceLogicalKey
  rw [List.flatMap_map]
  rfl

theorem replaceLogicalKey_chain (l : LogicalKey) {cs : List CContext} (h : Chain (cs.map CContext.flags))
    (hp : StagesPlain cs) : Chain ((replaceLogicalKey cs l).map CContext.flags) ∧
      StagesPlain (replaceLogicalKey cs l) ∧
      ∀ d, (cs.map CContext.flags).head? = some d →
        ∃ d', ((replaceLogicalKey cs l).map CContext.flags).head? = some d' ∧ d'.2 = d.2 := by
  rw [replaceLogicalKey_eq]
  induction cs with
  | nil => exact ⟨trivial, (by intro c hc; cases hc), by intro d hd; cases hd⟩
  | cons c cs ih =>
    obtain ⟨h1, h2⟩ := Chain.of_cons h
    obtain ⟨ih1, ih2, ih3⟩ := ih h1 (fun d hd => hp d (List.mem_cons_of_mem _ hd))
    rw [List.flatMap_cons]
    have hnext : c.fallthrough = true → ∃ d, ((List.flatMap (fun c =>
splitModifier l (replaceInContext l c)) cs).map CContext.flags).head? = some d ∧ d.2 = false := by
      intro hf
      obtain ⟨d, hd, hd2⟩ := h2 hf
      obtain ⟨d', h3, h4⟩ := ih3 d hd
      exact ⟨d', h3, h4.trans hd2⟩
    unfold splitModifier at hnext ih1 ih2 ih3 ⊢
    split
    · next hc =>
      have hb : c.beginStage = false := by
        cases hb : c.beginStage with
        | false => rfl
        | true =>
          have := (hp c List.mem_cons_self hb).1
          have hm : (replaceInContext l c).modifierFilter = [] := by
            show replaceNotKey c.modifierFilter l.both l.left l.right = []
            rw [this]; rfl
          rw [hm] at hc
          cases hc
      refine ⟨?_, ?_, ?_⟩
      · simp only [List.map_append, List.map_cons, List.map_nil, List.cons_append, List.nil_append]
        refine Chain.cons (Chain.cons ih1 hnext) (fun _ => ⟨_, rfl, hb⟩)
      · intro d hd hdb
        rcases List.mem_append.1 hd with hd | hd
        · rcases List.mem_cons.1 hd with rfl | hd
          · exact absurd (hb.symm.trans hdb) (by decide)
          · rw [List.mem_singleton.1 hd] at hdb
            exact absurd (hb.symm.trans hdb) (by decide)
        · exact ih2 d hd hdb
      · intro d hd
        injection hd with hd
        subst hd
        exact ⟨_, rfl, rfl⟩
    · refine ⟨?_, ?_, ?_⟩
      · simp only [List.map_append, List.map_cons, List.map_nil, List.cons_append, List.nil_append]
        exact Chain.cons ih1 hnext
      · intro d hd hdb
        rcases List.mem_append.1 hd with hd | hd
        · rw [List.mem_singleton.1 hd] at hdb ⊢
          have := hp c List.mem_cons_self hdb
          refine ⟨?_, this.2⟩
          show replaceNotKey c.modifierFilter l.both l.left l.right = []
          rw [this.1]; rfl
        · exact ih2 d hd hdb
      · intro d hd
        injection hd with hd
        subst hd
        exact ⟨_, rfl, rfl⟩

theorem map_modify_same {α β : Type} (g : α → β) {f : α → α} (hf : ∀ a, g (f a) = g a) (l : List α) :
    ∀ n, (l.modify n f).map g = l.map g := by
  induction l with
  | nil => intro n; cases n <;> rfl
  | cons a l ih =>
    intro n
    cases n with
    | zero => simp [hf]
    | succ n => simp [ih]

theorem suppressInput_map {α : Type} (g : CContext → α)
    (hg : ∀ c i o co, g { c with inputs := i, outputs := o, commandOutputs := co } = g c)
    (ci : Nat) (k : Key) (cs : List CContext) (i : Input) :
    (suppressInput ci k cs i).map g = cs.map g := by
  unfold suppressInput
  split
  · split
    · exact map_modify_same g (fun c => hg c _ _ _) cs ci
    · rw [List.map_map]
      exact List.map_congr_left (fun c _ => hg c _ _ _)
  · rfl

theorem foldl_keep {α β γ : Type} (g : β → γ) {f : β → α → β} (hf : ∀ b a, g (f b a) = g b) (l : List α) :
    ∀ b, g (l.foldl f b) = g b := by
  induction l with
  | nil => intro b; rfl
  | cons a l ih => intro b; rw [List.foldl_cons, ih, hf]

theorem suppressForwarded_map {α : Type} (g : CContext → α)
    (hg : ∀ c i o co, g { c with inputs := i, outputs := o, commandOutputs := co } = g c)
    (ms : List Key) (cs : List CContext) : (suppressForwarded ms cs).map g = cs.map g := by
  unfold suppressForwarded
  refine foldl_keep (List.map g) (fun cs ci => ?_) _ _
  refine foldl_keep (List.map g) (fun cs k => ?_) _ _
  split
  · exact foldl_keep (List.map g) (fun cs i => suppressInput_map g hg ci k cs i) _ _
  · rfl

/-- The contexts of a parsed configuration -/
theorem parseConfig_state {env : CEnv} {text : Str} {config : Config} (h : parseConfig env text = some config) :
    ∃ s, CSteps env CState.init s ∧ config.contexts = s.finishContexts ∧ config.actions = s.cfg.actions ∧
      config.grabDeviceFilters = s.cfg.grabDeviceFilters ∧
      config.virtualKeyAliases = s.virtualKeyAliases ∧
      (s.allowUnmapped = false → ∀ c ∈ s.commands, c.mapped = true) := by
  unfold parseConfig at h
  split at h
  · cases h
  · next s hs =>
    split at h
    · cases h
    · next hu =>
      injection h with h
      subst h
      refine ⟨s, parseFile_steps _ hs, rfl, rfl, rfl, rfl, ?_⟩
      intro ha c hc
      simp only [ha, Bool.not_false, Bool.true_and, List.any_eq_true, not_exists, not_and] at hu
      simpa using hu c hc

theorem foldl_inv {α β : Type} {P : β → Prop} {f : β → α → β} (l : List α) (hf : ∀ b, ∀ a ∈ l, P b → P (f b a)) :
    ∀ b, P b → P (l.foldl f b) := by
  induction l with
  | nil => intro b h; exact h
  | cons a l ih =>
    intro b h
    rw [List.foldl_cons]
    exact ih (fun b a ha => hf b a (List.mem_cons_of_mem _ ha)) _ (hf b a List.mem_cons_self h)

theorem finishContexts_chain {s : CState} (h : ChainInv s) : Chain (s.finishContexts.map CContext.flags) := by
  have h1 : Chain ((prependForward s.forwardModifiers s.cfg.contexts).map CContext.flags) := by
    rw [prependForward_map CContext.flags (fun _ _ _ _ => rfl)]; exact h.1
  have p1 : StagesPlain (prependForward s.forwardModifiers s.cfg.contexts) :=
    stagesPlain_map (prependForward_map _ (fun _ _ _ _ => rfl) _ _) h.2
  have h2 := optimizeContexts_chain h1
  have p2 : StagesPlain (optimizeContexts (prependForward s.forwardModifiers s.cfg.contexts)) := by
    refine optimizeContexts_mem (P := fun c => c.beginStage = true → c.modifierFilter = [] ∧ c.systemFilterMatched = true)
      (fun c d hc _ => hc) ?_ p1
    intro hb; cases hb
  have h3 : Chain ((s.logical.reverse.foldl replaceLogicalKey (optimizeContexts (prependForward
      s.forwardModifiers s.cfg.contexts))).map CContext.flags) := by
    have := foldl_inv (P := fun cs : List CContext => Chain (cs.map CContext.flags) ∧ StagesPlain cs)
      (f := replaceLogicalKey) s.logical.reverse
      (fun cs l _ hc => ⟨(replaceLogicalKey_chain l hc.1 hc.2).1, (replaceLogicalKey_chain l hc.1 hc.2).2.1⟩)
      _ ⟨h2, p2⟩
    exact this.1
  unfold CState.finishContexts
  simp only
  split
  · exact h3
  · rw [suppressForwarded_map CContext.flags (fun _ _ _ _ => rfl)]; exact h3

theorem parseConfig_chain {env : CEnv} {text : Str} {config : Config} (h : parseConfig env text = some config) :
    Chain (config.contexts.map CContext.flags) := by
  obtain ⟨s, hs, hc, -⟩ := parseConfig_state h
  rw [hc]
  exact finishContexts_chain (hs.inv (fun _ _ hs h => h.step hs) ChainInv.init)

end KM
