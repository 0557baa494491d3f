import Verif.Lemmas.DocFinish
import Verif.Spec.Logical
/-!
# Logical keys and forwarded modifiers in the contexts of a configuration
-/
namespace KM

theorem withKey_eq (both k : Key) (s : KeySequence) : withKey both k s = replaceKey s both k := by
  unfold withKey replaceKey
  apply List.map_congr_left
  intro e _
  by_cases h : e.key = both
  · simp [h]
  · simp [h]

theorem noneOfKeys_eq (l : LogicalKey) (s : KeySequence) : noneOfKeys l s = replaceNotKey s l.both l.left l.right := by
  unfold noneOfKeys replaceNotKey
  congr 1
  funext e
  by_cases h : e.state = .Not ∧ e.key = l.both
  · rw [if_pos h, if_pos (by simp [h.1, h.2])]
    obtain ⟨k, st, v⟩ := e
    simp only at h
    rw [h.1]
  · rw [if_neg h, if_neg (by simpa using h)]

theorem containsKey_mem (s : KeySequence) (k : Key) : containsKey s k = true ↔ ∃ e ∈ s, e.key = k := by
  simp [containsKey]

theorem replaceKey_other {s : KeySequence} {both k : Key} (h : containsKey s both = false) : replaceKey s both k = s := by
  have : ∀ e ∈ s, ¬ e.key = both := by
    intro e he hk
    rw [(containsKey_mem s both).2 ⟨e, he, hk⟩] at h
    cases h
  rw [replaceKey]
  exact (List.map_congr_left (fun e he => if_neg (by simpa using this e he))).trans (List.map_id _)

theorem replaceKey_gone {s : KeySequence} {both k : Key} (h : k ≠ both) : containsKey (replaceKey s both k) both = false := by
  rw [← Bool.not_eq_true, containsKey_mem]
  rintro ⟨e, he, hk⟩
  rw [replaceKey, List.mem_map] at he
  obtain ⟨x, _, rfl⟩ := he
  by_cases hx : x.key = both
  · simp only [beq_iff_eq, hx, if_true] at hk
    exact h hk
  · rw [if_neg (by simpa using hx)] at hk
    exact hx hk

/-! ### mappings with the numbers resolved -/

/-- mappings of inputs, with outputs in the list -/
def resolved (commands : List Str) (outs : List KeySequence) (is : List Input) : List (KeySequence × Option Aim) :=
  is.map (fun i => (i.input, aimOf commands outs i.outputIndex))

theorem aimOf_append {commands : List Str} {outs : List KeySequence} {idx : Int} {a : Aim} (h : aimOf commands outs idx = some a) (x : List KeySequence) :
    aimOf commands (outs ++ x) idx = some a := by
  unfold aimOf at h ⊢
  split
  · next h0 =>
    rw [if_pos h0, Option.map_eq_some_iff] at h
    obtain ⟨o, ho, rfl⟩ := h
    rw [List.getElem?_append_left (List.getElem?_eq_some_iff.1 ho).1, ho]
    rfl
  · next h0 => rwa [if_neg h0] at h

theorem aimOf_map {commands : List Str} {outs : List KeySequence} {idx : Int} (f : KeySequence → KeySequence) :
    aimOf commands (outs.map f) idx = (aimOf commands outs idx).map (Aim.map f) := by
  unfold aimOf
  split
  · rw [List.getElem?_map, Option.map_map, Option.map_map]
    rfl
  · rw [Option.map_map]
    rfl

/-- inputs are duplicated, outputs which contain the key as well -/
theorem duplicateInputs_resolved {l : LogicalKey} (hl : l.right ≠ l.both) (commands : List Str) (is : List Input) :
    ∀ (outs : List KeySequence) (ms : List (KeySequence × Aim)), resolved commands outs is = ms.map (fun m => (m.1, some m.2)) →
      ∃ extra, (duplicateInputs l is outs).2 = outs ++ extra ∧
        resolved commands ((duplicateInputs l is outs).2.map (fun o => replaceKey o l.both l.left)) (duplicateInputs l is outs).1 =
          (ms.flatMap (alternatives l)).map (fun m => (m.1, some m.2)) := by
  induction is with
  | nil =>
    intro outs ms h
    cases ms with
    | nil => exact ⟨[], by simp [duplicateInputs], rfl⟩
    | cons m ms => cases h
  | cons i is ih =>
    intro outs ms h
    cases ms with
    | nil => cases h
    | cons m ms =>
    obtain ⟨mi, ma⟩ := m
    injection h with h1 h2
    injection h1 with h3 h4
    simp only at h3 h4 h2
    have rest : ∀ x, resolved commands (outs ++ x) is = ms.map (fun m => (m.1, some m.2)) := by
      intro x
      rw [← h2]
      unfold resolved
      apply List.map_congr_left
      intro j hj
      have hmem : (j.input, aimOf commands outs j.outputIndex) ∈ ms.map (fun m => (m.1, some m.2)) := by
        rw [← h2]; exact List.mem_map_of_mem hj
      obtain ⟨m, _, hm⟩ := List.mem_map.1 hmem
      injection hm with _ hm
      rw [aimOf_append hm.symm, hm]
    rw [List.flatMap_cons, List.map_append]
    rw [duplicateInputs]
    by_cases hk : containsKey i.input l.both = true
    · rw [if_pos hk]
      have hex : ∃ e ∈ mi, e.key = l.both := by rw [← h3]; exact (containsKey_mem _ _).1 hk
      have halt : alternatives l (mi, ma) = [(replaceKey mi l.both l.left, ma.map (fun o => replaceKey o l.both l.left)),
          (replaceKey mi l.both l.right, ma.map (fun o => replaceKey o l.both l.right))] := by
        unfold alternatives
        rw [if_pos hex]
        simp only [withKey_eq, funext (withKey_eq l.both l.left), funext (withKey_eq l.both l.right)]
      rw [halt]
      cases ho : (if 0 ≤ i.outputIndex then outs[i.outputIndex.toNat]? else none) with
      | some out =>
        have h0 : 0 ≤ i.outputIndex := by
          by_cases h0 : 0 ≤ i.outputIndex
          · exact h0
          · rw [if_neg h0] at ho; cases ho
        rw [if_pos h0] at ho
        have hma : ma = .keys out := by
          unfold aimOf at h4
          rw [if_pos h0, ho] at h4
          injection h4 with h4
          exact h4.symm
        subst hma
        simp only []
        by_cases hc : containsKey out l.both = true
        · rw [if_pos hc]
          obtain ⟨x, e1, e2⟩ := ih (outs ++ [replaceKey out l.both l.right]) ms (rest _)
          simp only [] at e1 e2 ⊢
          refine ⟨[replaceKey out l.both l.right] ++ x, by rw [e1, List.append_assoc], ?_⟩
          rw [resolved, List.map_cons, List.map_cons]
          simp only [List.map_cons, List.map_nil, List.cons_append, List.nil_append]
          have f1 : aimOf commands ((duplicateInputs l is (outs ++ [replaceKey out l.both l.right])).2.map (fun o => replaceKey o l.both l.left)) i.outputIndex =
              some (.keys (replaceKey out l.both l.left)) := by
            rw [aimOf_map, e1, List.append_assoc, aimOf_append h4]
            rfl
          have f2 : aimOf commands ((duplicateInputs l is (outs ++ [replaceKey out l.both l.right])).2.map (fun o => replaceKey o l.both l.left)) (outs.length : Int) =
              some (.keys (replaceKey out l.both l.right)) := by
            rw [aimOf_map, e1]
            have : aimOf commands (outs ++ [replaceKey out l.both l.right]) (outs.length : Int) = some (.keys (replaceKey out l.both l.right)) := by
              unfold aimOf
              rw [if_pos (by omega)]
              simp
            rw [aimOf_append this]
            show some (Aim.keys (replaceKey (replaceKey out l.both l.right) l.both l.left)) = _
            rw [replaceKey_other (replaceKey_gone hl)]
          rw [f1, f2, h3]
          exact congrArg _ (congrArg _ e2)
        · rw [if_neg hc]
          have hc := Bool.eq_false_iff.2 hc
          obtain ⟨x, e1, e2⟩ := ih outs ms h2
          simp only [] at e1 e2 ⊢
          refine ⟨x, e1, ?_⟩
          have f1 : aimOf commands ((duplicateInputs l is outs).2.map (fun o => replaceKey o l.both l.left)) i.outputIndex =
              some (.keys (replaceKey out l.both l.left)) := by
            rw [aimOf_map, e1, aimOf_append h4]
            rfl
          rw [resolved, List.map_cons, List.map_cons]
          simp only [List.map_cons, List.map_nil, List.cons_append, List.nil_append]
          rw [f1, h3]
          simp only [Aim.map]
          rw [replaceKey_other (k := l.right) hc, replaceKey_other (k := l.left) hc]
          exact congrArg _ (congrArg _ e2)
      | none =>
        have hma : ∃ n, ma = .command n ∧ ¬ 0 ≤ i.outputIndex := by
          unfold aimOf at h4
          by_cases h0 : 0 ≤ i.outputIndex
          · rw [if_pos h0] at ho h4
            rw [ho] at h4
            cases h4
          · rw [if_neg h0] at h4
            rw [Option.map_eq_some_iff] at h4
            obtain ⟨n, _, hn⟩ := h4
            exact ⟨n, hn.symm, h0⟩
        obtain ⟨n, rfl, h0⟩ := hma
        obtain ⟨x, e1, e2⟩ := ih outs ms h2
        simp only [] at e1 e2 ⊢
        refine ⟨x, e1, ?_⟩
        have f1 : aimOf commands ((duplicateInputs l is outs).2.map (fun o => replaceKey o l.both l.left)) i.outputIndex = some (.command n) := by
          rw [aimOf_map, e1, aimOf_append h4]
          rfl
        rw [resolved, List.map_cons, List.map_cons]
        simp only [List.map_cons, List.map_nil, List.cons_append, List.nil_append]
        rw [f1, h3]
        exact congrArg _ (congrArg _ e2)
    · rw [if_neg hk]
      have hex : ¬ ∃ e ∈ mi, e.key = l.both := by rw [← h3, ← containsKey_mem]; exact hk
      have halt : alternatives l (mi, ma) = [(mi, ma.map (fun o => replaceKey o l.both l.left))] := by
        unfold alternatives
        rw [if_neg hex]
        simp only [funext (withKey_eq l.both l.left)]
      rw [halt]
      obtain ⟨x, e1, e2⟩ := ih outs ms h2
      simp only [] at e1 e2 ⊢
      refine ⟨x, e1, ?_⟩
      rw [resolved, List.map_cons]
      simp only [List.map_cons, List.map_nil, List.cons_append, List.nil_append]
      have f1 : aimOf commands ((duplicateInputs l is outs).2.map (fun o => replaceKey o l.both l.left)) i.outputIndex =
          some (ma.map (fun o => replaceKey o l.both l.left)) := by
        rw [aimOf_map, e1, aimOf_append h4]
        rfl
      rw [f1, h3]
      exact congrArg _ e2

/-- a logical key is replaced in one context -/
theorem Means.replaceIn {l : LogicalKey} (hl : l.right ≠ l.both) {commands : List Str} {c : CContext} {g : Group} (h : Means commands c g) :
    Means commands (replaceInContext l c) ((g.noneOf l).mapAlternatives l) := by
  have hr : resolved commands (c.outputs.map (fun o => replaceNotKey o l.both l.left l.right))
      (c.inputs.map (fun i => { i with input := replaceNotKey i.input l.both l.left l.right })) =
      (g.noneOf l).mappings.map (fun m => (m.1, some m.2)) := by
    have := congrArg (List.map (fun (x : KeySequence × Option Aim) => (noneOfKeys l x.1, x.2.map (Aim.map (noneOfKeys l))))) h.mappings
    rw [List.map_map, List.map_map] at this
    unfold resolved Group.noneOf
    rw [List.map_map, List.map_map]
    refine Eq.trans ?_ (this.trans ?_)
    · apply List.map_congr_left
      intro i _
      simp only [Function.comp, noneOfKeys_eq, funext (noneOfKeys_eq l), aimOf_map]
    · rfl
  obtain ⟨x, _, e⟩ := duplicateInputs_resolved hl commands _ _ _ hr
  refine ⟨?_, e, ?_⟩
  · show ({ c with inputs := [], outputs := [], commandOutputs := [], modifierFilter := replaceNotKey c.modifierFilter l.both l.left l.right } : CContext) =
      { g.header with modifierFilter := noneOfKeys l g.header.modifierFilter }
    rw [← h.header, noneOfKeys_eq]
  · show List.map _ (List.map _ c.commandOutputs) = _
    rw [h.commandOutputs]
    simp only [Group.noneOf, Group.mapAlternatives, List.map_map]
    apply List.map_congr_left
    intro o _
    simp only [Function.comp, noneOfKeys_eq, withKey_eq]

/-- the condition for two contexts -/
theorem any_containsKey (s : KeySequence) (k : Key) : s.any (fun e => decide (e.key = k)) = containsKey s k := rfl

/-- **a logical key is replaced in all contexts** -/
theorem means_replace {l : LogicalKey} (hl : l.right ≠ l.both) {commands : List Str} {cs : List CContext} {gs : List Group}
    (h : List.Forall₂ (Means commands) cs gs) : List.Forall₂ (Means commands) (replaceLogicalKey cs l) (gs.flatMap (Group.expand l)) := by
  induction h with
  | nil => exact .nil
  | @cons c g cs gs hc _ ih =>
    unfold replaceLogicalKey
    rw [List.map_cons, List.flatMap_cons, List.flatMap_cons]
    refine List.rel_append ?_ ih
    have hm := hc.replaceIn hl
    obtain ⟨c', hc'⟩ : ∃ c', c' = replaceInContext l c := ⟨_, rfl⟩
    obtain ⟨g', hg'⟩ : ∃ g', g' = (g.noneOf l).mapAlternatives l := ⟨_, rfl⟩
    unfold Group.expand
    rw [← hc', ← hg'] at hm ⊢
    have hfilter : g'.header.modifierFilter = c'.modifierFilter := by rw [← hm.header]
    unfold Group.filterAlternatives
    rw [any_containsKey, hfilter]
    by_cases hk : containsKey c'.modifierFilter l.both = true
    · rw [if_pos hk, if_pos hk]
      refine .cons ⟨?_, rfl, rfl⟩ (.cons ⟨?_, hm.mappings, hm.commandOutputs⟩ .nil)
      · simp only [withKey_eq, ← hm.header]
      · simp only [withKey_eq, ← hm.header]
    · rw [if_neg hk, if_neg hk]
      exact .cons hm .nil

theorem means_replaceAll {ls : List LogicalKey} (hl : ∀ l ∈ ls, l.right ≠ l.both) {commands : List Str} : ∀ {cs : List CContext} {gs : List Group},
    List.Forall₂ (Means commands) cs gs →
    List.Forall₂ (Means commands) (ls.foldl replaceLogicalKey cs) (ls.foldl (fun gs l => gs.flatMap (Group.expand l)) gs) := by
  induction ls with
  | nil => intro cs gs h; exact h
  | cons l ls ih =>
    intro cs gs h
    exact ih (fun x hx => hl x (by simp [hx])) (means_replace (hl l (by simp)) h)

/-! ### contexts with other numbers -/

theorem aimOf_index {commands : List Str} (outs : List KeySequence) (o : KeySequence) (x : List KeySequence) :
    aimOf commands (outs ++ o :: x) (outs.length : Int) = some (.keys o) := by
  unfold aimOf
  rw [if_pos (by omega)]
  simp

theorem aimOf_command {commands : List Str} {name : Str} (h : name ∈ commands) (outs : List KeySequence) :
    aimOf commands outs (commandNumber commands name) = some (.command name) := by
  unfold aimOf commandNumber
  rw [if_neg (by omega)]
  have : ((-(-((commands.idxOf name : Nat) : Int) - 1 + 0) - 1 : Int)).toNat = commands.idxOf name := by omega
  have e : (-(-((commands.idxOf name : Int) + 1)) - 1).toNat = commands.idxOf name := by omega
  rw [e, List.getElem?_eq_getElem (List.idxOf_lt_length_of_mem h)]
  simp

theorem numberInputs_resolved (commands : List Str) (ms : List (KeySequence × Aim))
    (h : ∀ m ∈ ms, ∀ name, m.2 = .command name → name ∈ commands) : ∀ (pre : List KeySequence),
    resolved commands (pre ++ outputsOf ms) (numberInputs commands pre.length ms) = ms.map (fun m => (m.1, some m.2)) := by
  induction ms with
  | nil => intro pre; rfl
  | cons m ms ih =>
    intro pre
    obtain ⟨i, a⟩ := m
    have ih := ih (fun m hm => h m (by simp [hm]))
    cases a with
    | keys o =>
      have := ih (pre ++ [o])
      rw [List.length_append, List.append_assoc] at this
      rw [numberInputs, resolved, List.map_cons, List.map_cons]
      have ho : outputsOf ((i, Aim.keys o) :: ms) = o :: outputsOf ms := rfl
      rw [ho, aimOf_index]
      exact congrArg _ this
    | command name =>
      rw [numberInputs, resolved, List.map_cons, List.map_cons]
      have ho : outputsOf ((i, Aim.command name) :: ms) = outputsOf ms := rfl
      rw [ho]
      simp only []
      rw [aimOf_command (h (i, .command name) (by simp) name rfl)]
      exact congrArg _ (ih pre)

theorem attrs_set_body (as : List Attr) : ∀ c : CContext, (as.foldl Attr.set c).inputs = c.inputs ∧ (as.foldl Attr.set c).outputs = c.outputs ∧
    (as.foldl Attr.set c).commandOutputs = c.commandOutputs := by
  induction as with
  | nil => intro c; exact ⟨rfl, rfl, rfl⟩
  | cons a as ih =>
    intro c
    have h : (a.set c).inputs = c.inputs ∧ (a.set c).outputs = c.outputs ∧ (a.set c).commandOutputs = c.commandOutputs := by
      cases a with
      | filter kind value regex invert => cases kind <;> exact ⟨rfl, rfl, rfl⟩
      | system name invert => exact ⟨rfl, rfl, rfl⟩
      | modifier keys invert => exact ⟨rfl, rfl, rfl⟩
    obtain ⟨h1, h2, h3⟩ := ih (a.set c)
    exact ⟨h1.trans h.1, h2.trans h.2.1, h3.trans h.2.2⟩

theorem Block.header_eq (b : Block) (commands : List Str) :
    { b.context commands with inputs := [], outputs := [], commandOutputs := [] } = b.group.header := by
  obtain ⟨h1, h2, h3⟩ := attrs_set_body b.attrs {}
  simp only [Block.context, Block.group, h1, h2, h3]

/-- the context of a block means its mappings -/
theorem Block.means {commands : List Str} {b : Block} (h : ∀ m ∈ b.mappings, ∀ name, m.2 = .command name → name ∈ commands) :
    Means commands (b.context commands) b.group :=
  ⟨b.header_eq commands, numberInputs_resolved commands b.mappings h [], rfl⟩

/-- contexts which mean the same -/
structure SameMeaning (commands : List Str) (c c' : CContext) : Prop where
  header : { c with inputs := [], outputs := [] } = { c' with inputs := [], outputs := [] }
  mappings : resolved commands c.outputs c.inputs = resolved commands c'.outputs c'.inputs

theorem SameMeaning.refl (commands : List Str) (c : CContext) : SameMeaning commands c c := ⟨rfl, rfl⟩

theorem SameMeaning.means {commands : List Str} {c c' : CContext} {g : Group} (h : SameMeaning commands c c') (hm : Means commands c' g) :
    Means commands c g := by
  have h1 := h.header
  injection h1
  refine ⟨?_, h.mappings.trans hm.mappings, ?_⟩
  · rw [← hm.header]
    congr 1
  · rw [← hm.commandOutputs]
    assumption

theorem SameMeaning.empty {commands : List Str} {c c' : CContext} (h : SameMeaning commands c c') : c.inputs.isEmpty = c'.inputs.isEmpty := by
  have := congrArg List.length h.mappings
  simp only [resolved, List.length_map] at this
  cases hc : c.inputs with
  | nil => rw [hc] at this; cases hc' : c'.inputs with
    | nil => rfl
    | cons => rw [hc'] at this; cases this
  | cons => rw [hc] at this; cases hc' : c'.inputs with
    | nil => rw [hc'] at this; cases this
    | cons => rfl

/-- removing contexts does not depend on the numbers -/
theorem optimizeGo_same (commands : List Str) : ∀ (n : Nat) (before : Bool) (cs cs' acc acc' : List CContext), cs.length = n →
    List.Forall₂ (SameMeaning commands) cs cs' → List.Forall₂ (SameMeaning commands) acc acc' →
    List.Forall₂ (SameMeaning commands) (optimizeGo before cs acc) (optimizeGo before cs' acc') := by
  intro n
  induction n with
  | zero =>
    intro before cs cs' acc acc' hn h ha
    cases h with
    | nil => rw [optimizeGo, optimizeGo]; exact ha
    | cons => cases hn
  | succ n ih =>
    intro before cs cs' acc acc' hn h ha
    cases h with
    | nil => cases hn
    | @cons c c' rest rest' hc hrest =>
    have hlen : rest.length = n := by simpa using hn
    have h1 := hc.header
    injection h1 with _ _ _ _ _ hmf _ _ hco hsys hinv hfall hstage
    rw [optimizeGo.eq_def, optimizeGo.eq_def before (c' :: rest')]
    simp only []
    rw [hfall, hsys, hco, hstage, hc.empty]
    have hre : rest.isEmpty = rest'.isEmpty := by
      cases hrest with
      | nil => rfl
      | cons => rfl
    rw [hre]
    split
    · split
      · exact ih before _ _ _ _ hlen hrest ha
      · exact ih before _ _ _ _ hlen hrest (.cons hc ha)
    · split
      · cases hrest with
        | nil => exact ih false [] [] _ _ hlen .nil ha
        | @cons p p' ps ps' hp hps =>
          simp only []
          have h2 := hp.header
          injection h2 with a1 a2 a3 a4 a5 a6 _ _ a7 a8 a9 a10 a11
          rw [a10]
          split
          · refine ih false _ _ _ _ (by simpa using hlen) (.cons ⟨?_, ?_⟩ hps) ha
            · simp only [CContext.mk.injEq]
              exact ⟨a1, a2, a3, a4, a5, a6, trivial, trivial, trivial, a8, a9, trivial, a11⟩
            · exact hc.mappings
          · exact ih false _ _ _ _ hlen (.cons hp hps) ha
      · exact ih true _ _ _ _ hlen hrest (.cons hc ha)

theorem optimizeContexts_same {commands : List Str} {cs cs' : List CContext} (h : List.Forall₂ (SameMeaning commands) cs cs') :
    List.Forall₂ (SameMeaning commands) (optimizeContexts cs) (optimizeContexts cs') := by
  have hrev : List.Forall₂ (SameMeaning commands) cs.reverse cs'.reverse := List.rel_reverse h
  have := optimizeGo_same commands _ false cs.reverse cs'.reverse [] [] rfl hrev .nil
  unfold optimizeContexts
  simp only []
  revert this
  generalize optimizeGo false cs.reverse [] = a
  generalize optimizeGo false cs'.reverse [] = b
  intro this
  cases this with
  | nil => exact .cons (SameMeaning.refl _ _) .nil
  | cons h1 h2 => exact .cons h1 h2

end KM
