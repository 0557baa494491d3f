import Verif.Lemmas.Document
/-!
# The passes after reading a configuration
-/
namespace KM

/-- the header of `p` with the mappings of `c` -/
def Block.withBody (p c : Block) : Block := { p with fallsThrough := false, mappings := c.mappings, commandOutputs := c.commandOutputs }

theorem Block.withBody_context (commands : List Str) (p c : Block) : (p.withBody c).context commands =
    { p.context commands with
      inputs := (c.context commands).inputs
      outputs := (c.context commands).outputs
      commandOutputs := (c.context commands).commandOutputs
      fallthrough := false } := rfl

/-- the contexts of the remaining blocks -/
def groupContexts (commands : List Str) (first : Bool) (hs : List Block) (b : Block) : List CContext :=
  (groupBlocks first hs b).map (Block.context commands)

/-- the contexts of the remaining blocks -/
def remainingContexts (commands : List Str) (first : Bool) (hs : List Block) (bs : List Block) : List CContext :=
  (remainingBlocks first hs bs).map (Block.context commands)

/-- are there no mappings -/
def Block.noBody (b : Block) : Bool := b.mappings.isEmpty && b.commandOutputs.isEmpty

theorem Block.noBody_context (commands : List Str) (b : Block) :
    ((b.context commands).inputs.isEmpty && (b.context commands).commandOutputs.isEmpty) = b.noBody := by
  unfold Block.context Block.noBody
  congr 1
  · cases h : b.mappings with
    | nil => rfl
    | cons m ms =>
      obtain ⟨i, t⟩ := m
      cases t <;> rfl
  · cases b.commandOutputs <;> rfl

theorem Block.noBody_iff (b : Block) : b.noBody = true ↔ b.mappings = [] ∧ b.commandOutputs = [] := by
  simp [Block.noBody]

/-- a context which is kept, and the ones which fall through to it -/
theorem optimizeGo_fall (commands : List Str) (hs : List Block) : (∀ h ∈ hs, h.fallsThrough = true) → ∀ (rest acc : List CContext),
    optimizeGo true (hs.map (Block.context commands) ++ rest) acc =
      optimizeGo true rest ((hs.filter Block.matchesSystem).reverse.map (Block.context commands) ++ acc) := by
  induction hs with
  | nil => intro _ rest acc; rfl
  | cons h hs ih =>
    intro hf rest acc
    rw [List.map_cons, List.cons_append, optimizeGo.eq_def]
    simp only []
    have h1 : (h.context commands).fallthrough = true := hf h (by simp)
    have h2 : (h.context commands).systemFilterMatched = h.matchesSystem := rfl
    rw [h1, h2]
    simp only [if_true, Bool.not_true, Bool.or_false, Bool.not_eq_true']
    cases hm : h.matchesSystem with
    | false =>
      rw [if_pos rfl, ih (fun x hx => hf x (by simp [hx])), List.filter_cons_of_neg (by simp [hm])]
    | true =>
      rw [if_neg (by simp), ih (fun x hx => hf x (by simp [hx])), List.filter_cons_of_pos (by simp [hm])]
      simp

/-- all contexts without mappings are removed -/
theorem optimizeGo_empty (commands : List Str) (hs : List Block) : (∀ h ∈ hs, h.fallsThrough = true ∧ h.stage = false) →
    ∀ (c : Block) (before : Bool) (rest acc : List CContext), c.fallsThrough = false → c.noBody = true →
      (c.stage = true → hs = [] ∧ rest = []) → (∀ p, rest.head? = some p → p.fallthrough = false) →
    ∃ before', optimizeGo before (c.context commands :: (hs.map (Block.context commands) ++ rest)) acc = optimizeGo before' rest acc := by
  induction hs with
  | nil =>
    intro _ c before rest acc hc hb hstage hrest
    rw [List.map_nil, List.nil_append, optimizeGo.eq_def]
    simp only []
    rw [if_neg (by show ¬ c.fallsThrough = true; simp [hc])]
    simp only [Block.noBody_context, hb, Bool.true_and]
    have hno : (rest.isEmpty || !c.stage) = true := by
      cases hst : c.stage with
      | false => simp
      | true => rw [(hstage hst).2]; rfl
    rw [show (c.context commands).beginStage = c.stage from rfl, hno, Bool.or_true, if_pos rfl]
    cases rest with
    | nil => exact ⟨false, rfl⟩
    | cons p ps =>
      simp only []
      rw [hrest p rfl]
      exact ⟨false, rfl⟩
  | cons h hs ih =>
    intro hf c before rest acc hc hb hstage hrest
    have hst : c.stage = false := by
      cases hst : c.stage with
      | false => rfl
      | true => cases (hstage hst).1
    rw [List.map_cons, List.cons_append, optimizeGo]
    rw [if_neg (by show ¬ c.fallsThrough = true; simp [hc])]
    simp only [Block.noBody_context, hb, Bool.true_and]
    rw [show (c.context commands).beginStage = c.stage from rfl, hst]
    simp only [Bool.not_false, Bool.or_true, if_true]
    have h1 : (h.context commands).fallthrough = true := (hf h (by simp)).1
    rw [h1]
    simp only [if_true]
    exact ih (fun x hx => hf x (by simp [hx])) (h.withBody c) false rest acc rfl hb
      (fun hs' => absurd hs' (by rw [show (h.withBody c).stage = h.stage from rfl, (hf h (by simp)).2]; decide)) hrest

/-- contexts with mappings -/
theorem optimizeGo_body (commands : List Str) (hs : List Block) : (∀ h ∈ hs, h.fallsThrough = true ∧ h.stage = false) →
    ∀ (c : Block) (before : Bool) (rest acc : List CContext), c.fallsThrough = false → (c.noBody = true → c.stage = true ∧ rest ≠ []) →
      (c.stage = true → c.matchesSystem = true) → (∀ p, rest.head? = some p → p.fallthrough = false) →
    ∃ before', optimizeGo before (c.context commands :: (hs.map (Block.context commands) ++ rest)) acc =
      optimizeGo before' rest ((match (c :: hs).filter Block.matchesSystem with
        | [] => []
        | l :: ls => (ls.reverse ++ [l.withBody c]).map (Block.context commands)) ++ acc) := by
  induction hs with
  | nil =>
    intro _ c before rest acc hc hb hstage hrest
    rw [List.map_nil, List.nil_append, optimizeGo.eq_def]
    simp only []
    rw [if_neg (by show ¬ c.fallsThrough = true; simp [hc])]
    simp only [Block.noBody_context]
    rw [show (c.context commands).beginStage = c.stage from rfl, show (c.context commands).systemFilterMatched = c.matchesSystem from rfl]
    cases hm : c.matchesSystem with
    | false =>
      simp only [Bool.not_false, Bool.true_or, if_true]
      rw [List.filter_cons_of_neg (by simp [hm])]
      cases rest with
      | nil => exact ⟨false, rfl⟩
      | cons p ps =>
        simp only []
        rw [hrest p rfl]
        exact ⟨false, rfl⟩
    | true =>
      have hno : (c.noBody && (rest.isEmpty || !c.stage)) = false := by
        cases hn : c.noBody with
        | false => rfl
        | true =>
          obtain ⟨a, b⟩ := hb hn
          rw [a]
          cases rest with
          | nil => exact absurd rfl b
          | cons => rfl
      rw [hno]
      simp only [Bool.not_true, Bool.or_false, Bool.false_eq_true, if_false]
      rw [List.filter_cons_of_pos (by simp [hm])]
      refine ⟨true, ?_⟩
      have : c.withBody c = c := by
        unfold Block.withBody
        cases c
        simp only at hc
        rw [hc]
      simp only [List.filter_nil, List.reverse_nil, List.nil_append, this]
      rfl
  | cons h hs ih =>
    intro hf c before rest acc hc hb hstage hrest
    cases hm : c.matchesSystem with
    | true =>
      have hno : (c.noBody && ((h.context commands :: (hs.map (Block.context commands) ++ rest)).isEmpty || !c.stage)) = false := by
        cases hn : c.noBody with
        | false => rfl
        | true =>
          obtain ⟨a, b⟩ := hb hn
          rw [a]
          rfl
      rw [List.map_cons, List.cons_append, optimizeGo]
      rw [if_neg (by show ¬ c.fallsThrough = true; simp [hc])]
      simp only [Block.noBody_context]
      rw [show (c.context commands).beginStage = c.stage from rfl, show (c.context commands).systemFilterMatched = c.matchesSystem from rfl]
      rw [hno, hm]
      simp only [Bool.not_true, Bool.or_false, Bool.false_eq_true, if_false]
      rw [List.filter_cons_of_pos (by simp [hm])]
      refine ⟨true, ?_⟩
      have hfall := optimizeGo_fall commands (h :: hs) (fun x hx => (hf x hx).1) rest (c.context commands :: acc)
      rw [List.map_cons, List.cons_append] at hfall
      rw [hfall]
      have : c.withBody c = c := by
        unfold Block.withBody
        cases c
        simp only at hc
        rw [hc]
      simp [this]
    | false =>
      have hst : c.stage = false := by
        cases hst : c.stage with
        | false => rfl
        | true => rw [hstage hst] at hm; cases hm
      have hnb : c.noBody = false := by
        cases hn : c.noBody with
        | false => rfl
        | true => rw [(hb hn).1] at hst; cases hst
      rw [List.map_cons, List.cons_append, optimizeGo]
      rw [if_neg (by show ¬ c.fallsThrough = true; simp [hc])]
      rw [show (c.context commands).systemFilterMatched = c.matchesSystem from rfl, hm]
      simp only [Bool.not_false, Bool.true_or, if_true]
      have h1 : (h.context commands).fallthrough = true := (hf h (by simp)).1
      rw [h1]
      simp only [if_true]
      obtain ⟨b', e⟩ := ih (fun x hx => hf x (by simp [hx])) (h.withBody c) false rest acc rfl
        (fun hn => absurd hn (by rw [show (h.withBody c).noBody = c.noBody from rfl, hnb]; decide))
        (fun hs' => absurd hs' (by rw [show (h.withBody c).stage = h.stage from rfl, (hf h (by simp)).2]; decide)) hrest
      refine ⟨b', ?_⟩
      rw [Block.withBody_context] at e
      rw [e]
      congr 2
      rw [List.filter_cons_of_neg (a := c) (by simp [hm])]
      cases hmh : h.matchesSystem with
      | true =>
        have : (h.withBody c).matchesSystem = true := hmh
        rw [List.filter_cons_of_pos (by simp [this]), List.filter_cons_of_pos (by simp [hmh])]
        rfl
      | false =>
        have : (h.withBody c).matchesSystem = false := hmh
        rw [List.filter_cons_of_neg (by simp [this]), List.filter_cons_of_neg (by simp [hmh])]
        cases hs.filter Block.matchesSystem with
        | nil => rfl
        | cons l ls => rfl

/-- the end of a group -/
theorem optimizeGo_group (commands : List Str) (first : Bool) (hs : List Block) (b : Block) (before : Bool) (rest acc : List CContext)
    (hf : ∀ h ∈ hs, h.fallsThrough = true ∧ h.stage = false) (hb : b.fallsThrough = false) (hst : b.stage = true → hs = [] ∧ b.matchesSystem = true)
    (hfirst : first = true ↔ hs = [] ∧ rest = []) (hrest : ∀ p, rest.head? = some p → p.fallthrough = false) :
    ∃ before', optimizeGo before (b.context commands :: (hs.reverse.map (Block.context commands) ++ rest)) acc =
      optimizeGo before' rest (groupContexts commands first hs b ++ acc) := by
  have hf' : ∀ h ∈ hs.reverse, h.fallsThrough = true ∧ h.stage = false := fun h hh => hf h (List.mem_reverse.1 hh)
  by_cases hc : b.mappings = [] ∧ b.commandOutputs = [] ∧ (first = true ∨ b.stage = false)
  · obtain ⟨b', e⟩ := optimizeGo_empty commands hs.reverse hf' b before rest acc hb ((Block.noBody_iff b).2 ⟨hc.1, hc.2.1⟩) (by
      intro hs'
      rcases hc.2.2 with h | h
      · have := hfirst.1 h
        rw [this.1]
        exact ⟨rfl, this.2⟩
      · rw [h] at hs'; cases hs') hrest
    refine ⟨b', ?_⟩
    rw [e, groupContexts, groupBlocks, if_pos hc]
    rfl
  · obtain ⟨b', e⟩ := optimizeGo_body commands hs.reverse hf' b before rest acc hb (by
      intro hn
      have hn := (Block.noBody_iff b).1 hn
      have h1 : ¬ (first = true ∨ b.stage = false) := fun h => hc ⟨hn.1, hn.2, h⟩
      have hs1 : b.stage = true := by
        cases h : b.stage with
        | true => rfl
        | false => exact absurd (Or.inr h) h1
      refine ⟨hs1, fun hr => h1 (Or.inl (hfirst.2 ⟨(hst hs1).1, hr⟩))⟩) (fun h => (hst h).2) hrest
    refine ⟨b', ?_⟩
    rw [e, groupContexts, groupBlocks, if_neg hc]
    have hrev : (b :: hs.reverse).filter Block.matchesSystem = ((hs ++ [b]).filter Block.matchesSystem).reverse := by
      rw [← List.filter_reverse]
      simp
    rw [hrev]
    congr 1
    cases h : ((hs ++ [b]).filter Block.matchesSystem).reverse with
    | nil =>
      have : (hs ++ [b]).filter Block.matchesSystem = [] := by
        have := congrArg List.reverse h
        simpa using this
      rw [this]
      rfl
    | cons l ls =>
      have : (hs ++ [b]).filter Block.matchesSystem = ls.reverse ++ [l] := by
        have := congrArg List.reverse h
        rw [List.reverse_reverse, List.reverse_cons] at this
        exact this
      rw [this]
      simp [Block.withBody]

end KM

namespace KM

/-- contexts do not fall through to stages -/
def StageAlone : List Block → Prop
  | [] => True
  | b :: bs => (b.fallsThrough = true → ∀ c, bs.head? = some c → c.stage = false) ∧ StageAlone bs

theorem StageAlone.last {bs : List Block} {c c' : Block} (h : StageAlone (bs ++ [c])) (hc : c'.stage = c.stage) : StageAlone (bs ++ [c']) := by
  induction bs with
  | nil => exact ⟨fun _ d hd => by simp at hd, trivial⟩
  | cons b bs ih =>
    obtain ⟨h1, h2⟩ := h
    refine ⟨fun hb d hd => ?_, ih h2⟩
    cases bs with
    | nil =>
      have := h1 hb c rfl
      simp at hd
      rw [← hd, hc, this]
    | cons x bs => exact h1 hb d hd

theorem StageAlone.add {bs : List Block} {c n : Block} (h : StageAlone (bs ++ [c])) (hn : c.fallsThrough = true → n.stage = false) :
    StageAlone (bs ++ [c] ++ [n]) := by
  induction bs with
  | nil =>
    refine ⟨fun hc d hd => ?_, ⟨fun _ d hd => by simp at hd, trivial⟩⟩
    simp at hd
    rw [← hd]
    exact hn hc
  | cons b bs ih =>
    obtain ⟨h1, h2⟩ := h
    refine ⟨fun hb d hd => ?_, ih h2⟩
    cases bs with
    | nil => exact h1 hb d hd
    | cons x bs => exact h1 hb d hd

/-- the shape of the contexts -/
structure Doc.Shape (d : Doc) : Prop where
  attrs : ∀ b ∈ d.blocks ++ [d.current], b.stage = true → b.attrs = []
  falls : ∀ b ∈ d.blocks ++ [d.current], b.fallsThrough = true → b.stage = false
  first : ∀ b, (d.blocks ++ [d.current]).head? = some b → b.fallsThrough = false
  alone : StageAlone (d.blocks ++ [d.current])
  opened : d.justOpened = true → d.current.stage = false ∧ d.blocks ≠ []
  last : d.current.fallsThrough = false

theorem optimizeGo_all (commands : List Str) (bs : List Block) : ∀ (first : Bool) (hs : List Block) (before : Bool) (rest acc : List CContext),
    (∀ h ∈ hs, h.fallsThrough = true ∧ h.stage = false) → (∀ b ∈ bs, b.stage = true → b.attrs = []) →
    (∀ b ∈ bs, b.fallsThrough = true → b.stage = false) → (first = true ↔ rest = []) →
    (first = true → hs = [] ∧ ∀ b, bs.head? = some b → b.fallsThrough = false) → StageAlone bs →
    (hs ≠ [] → ∀ b, bs.head? = some b → b.stage = false) → (∀ l, (hs ++ bs).getLast? = some l → l.fallsThrough = false) →
    (∀ p, rest.head? = some p → p.fallthrough = false) →
    ∃ before', optimizeGo before ((bs.reverse ++ hs.reverse).map (Block.context commands) ++ rest) acc =
      optimizeGo before' rest (remainingContexts commands first hs bs ++ acc) := by
  induction bs with
  | nil =>
    intro first hs before rest acc h1 _ _ _ _ _ _ hl _
    have : hs = [] := by
      cases hl' : hs.getLast? with
      | none => exact List.getLast?_eq_none_iff.1 hl'
      | some l =>
        have := hl l (by rw [List.append_nil]; exact hl')
        have h2 := (h1 l (List.mem_of_getLast? hl')).1
        rw [this] at h2; cases h2
    subst this
    exact ⟨before, rfl⟩
  | cons b bs ih =>
    intro first hs before rest acc h1 h2 h3 h4 h5 h6 h7 h8 h9
    rw [remainingContexts, remainingBlocks]
    by_cases hb : b.fallsThrough = true
    · rw [if_pos hb]
      have hfirst : first = false := by
        cases hf : first with
        | false => rfl
        | true => rw [(h5 hf).2 b rfl] at hb; cases hb
      have := ih first (hs ++ [b]) before rest acc (by
          intro h hh
          rcases List.mem_append.1 hh with hh | hh
          · exact h1 h hh
          · rw [List.mem_singleton.1 hh]; exact ⟨hb, h3 b (by simp) hb⟩)
        (fun x hx => h2 x (by simp [hx])) (fun x hx => h3 x (by simp [hx])) h4 (by rw [hfirst]; simp) h6.2
        (fun _ => h6.1 hb) (by rw [List.append_assoc]; exact h8) h9
      obtain ⟨b', e⟩ := this
      refine ⟨b', ?_⟩
      refine Eq.trans ?_ e
      simp
    · have hb : b.fallsThrough = false := Bool.eq_false_iff.2 hb
      rw [hb]
      simp only [Bool.false_eq_true, if_false]
      obtain ⟨b1, e1⟩ := ih false [] before (b.context commands :: (hs.reverse.map (Block.context commands) ++ rest)) acc
        (by intro h hh; cases hh) (fun x hx => h2 x (by simp [hx])) (fun x hx => h3 x (by simp [hx])) (by simp) (by simp) h6.2
        (fun h => absurd rfl h) (by
          intro l hl
          rw [List.nil_append] at hl
          refine h8 l ?_
          obtain ⟨ys, rfl⟩ := List.getLast?_eq_some_iff.1 hl
          rw [show hs ++ b :: (ys ++ [l]) = (hs ++ b :: ys) ++ [l] by simp, List.getLast?_concat])
        (by intro p hp; simp at hp; rw [← hp]; exact hb)
      obtain ⟨b2, e2⟩ := optimizeGo_group commands first hs b b1 rest (remainingContexts commands false [] bs ++ acc) h1 hb (by
          intro hs'
          refine ⟨?_, ?_⟩
          · cases hs with
            | nil => rfl
            | cons x hs => rw [h7 (by simp) b rfl] at hs'; cases hs'
          · have := h2 b (by simp) hs'
            unfold Block.matchesSystem
            rw [this]; rfl)
        ⟨fun h => ⟨(h5 h).1, h4.1 h⟩, fun h => h4.2 h.2⟩ h9
      refine ⟨b2, ?_⟩
      rw [List.map_append (f := Block.context commands) (l₁ := groupBlocks first hs b), List.append_assoc (List.map (Block.context commands) (groupBlocks first hs b))]
      refine Eq.trans ?_ e2
      rw [← e1]
      simp

theorem optimizeContexts_doc {d : Doc} (h : d.Shape) : optimizeContexts d.contexts = d.result := by
  obtain ⟨b', e⟩ := optimizeGo_all d.commands (d.blocks ++ [d.current]) true [] false [] [] (by intro x hx; cases hx) h.attrs h.falls (by simp)
    (fun _ => ⟨rfl, h.first⟩) h.alone (fun h => absurd rfl h)
    (by intro l hl; rw [List.nil_append, List.getLast?_concat] at hl; rw [← Option.some.inj hl]; exact h.last) (by intro p hp; cases hp)
  have hg : optimizeGo b' [] (remainingContexts d.commands true [] (d.blocks ++ [d.current]) ++ []) =
      remainingContexts d.commands true [] (d.blocks ++ [d.current]) := by rw [optimizeGo, List.append_nil]
  rw [hg] at e
  have hc : d.contexts.reverse = ((d.blocks ++ [d.current]).reverse ++ ([] : List Block).reverse).map (Block.context d.commands) ++ [] := by
    unfold Doc.contexts
    simp
  unfold optimizeContexts Doc.result
  rw [hc, e]
  unfold remainingContexts
  cases remainingBlocks true [] (d.blocks ++ [d.current]) <;> rfl

/-! ### logical keys -/

theorem replaceNotKey_plain {l : KeySequence} {both left right : Key} (h : ∀ e ∈ l, e.key ≠ both) : replaceNotKey l both left right = l := by
  induction l with
  | nil => rfl
  | cons e l ih =>
    unfold replaceNotKey at ih ⊢
    have hk : (e.key == both) = false := beq_eq_false_iff_ne.2 (h e (by simp))
    rw [List.flatMap_cons, ih (fun x hx => h x (by simp [hx])), hk]
    simp

theorem replaceKey_plain {l : KeySequence} {both k : Key} (h : ∀ e ∈ l, e.key ≠ both) : replaceKey l both k = l := by
  induction l with
  | nil => rfl
  | cons e l ih =>
    unfold replaceKey at ih ⊢
    have hk : (e.key == both) = false := beq_eq_false_iff_ne.2 (h e (by simp))
    rw [List.map_cons, ih (fun x hx => h x (by simp [hx])), hk]
    rfl

theorem containsKey_plain {l : KeySequence} {both : Key} (h : ∀ e ∈ l, e.key ≠ both) : containsKey l both = false := by
  rw [Bool.eq_false_iff]
  intro hc
  rw [containsKey, List.any_eq_true] at hc
  obtain ⟨x, hx, hk⟩ := hc
  exact h x hx (beq_iff_eq.1 hk)

theorem duplicateInputs_plain {l : LogicalKey} {is : List Input} (h : ∀ i ∈ is, ∀ e ∈ i.input, e.key ≠ l.both) (outs : List KeySequence) :
    duplicateInputs l is outs = (is, outs) := by
  induction is with
  | nil => rfl
  | cons i is ih =>
    rw [duplicateInputs, containsKey_plain (h i (by simp)), ih (fun x hx => h x (by simp [hx]))]
    rfl

theorem map_id_of {α : Type} {f : α → α} {l : List α} (h : ∀ x ∈ l, f x = x) : l.map f = l := by
  induction l with
  | nil => rfl
  | cons x l ih => rw [List.map_cons, h x (by simp), ih (fun y hy => h y (by simp [hy]))]

/-- no key of the context is `k` -/
def Without (k : Key) (c : CContext) : Prop := (∀ i ∈ c.inputs, ∀ e ∈ i.input, e.key ≠ k) ∧ (∀ o ∈ c.outputs, ∀ e ∈ o, e.key ≠ k) ∧
  (∀ o ∈ c.commandOutputs, ∀ e ∈ o.output, e.key ≠ k) ∧ ∀ e ∈ c.modifierFilter, e.key ≠ k

theorem replaceInContext_plain {l : LogicalKey} {c : CContext} (h : Without l.both c) : replaceInContext l c = c := by
  obtain ⟨h1, h2, h3, h4⟩ := h
  have e1 : c.inputs.map (fun i => { i with input := replaceNotKey i.input l.both l.left l.right }) = c.inputs :=
    map_id_of (fun i hi => by rw [replaceNotKey_plain (h1 i hi)])
  have e2 : c.outputs.map (fun o => replaceNotKey o l.both l.left l.right) = c.outputs :=
    map_id_of (fun o ho => replaceNotKey_plain (h2 o ho))
  have e3 : c.commandOutputs.map (fun o => { o with output := replaceNotKey o.output l.both l.left l.right }) = c.commandOutputs :=
    map_id_of (fun o ho => by rw [replaceNotKey_plain (h3 o ho)])
  have e4 : c.outputs.map (fun o => replaceKey o l.both l.left) = c.outputs := map_id_of (fun o ho => replaceKey_plain (h2 o ho))
  have e5 : c.commandOutputs.map (fun o => { o with output := replaceKey o.output l.both l.left }) = c.commandOutputs :=
    map_id_of (fun o ho => by rw [replaceKey_plain (h3 o ho)])
  rw [replaceInContext, e1, e2, e3, duplicateInputs_plain h1]
  simp only []
  rw [e4, e5, replaceNotKey_plain h4]

theorem replaceLogicalKey_plain {l : LogicalKey} {cs : List CContext} (h : ∀ c ∈ cs, Without l.both c) : replaceLogicalKey cs l = cs := by
  unfold replaceLogicalKey
  rw [map_id_of (fun c hc => replaceInContext_plain (h c hc))]
  induction cs with
  | nil => rfl
  | cons c cs ih =>
    rw [List.flatMap_cons, ih (fun x hx => h x (by simp [hx])), containsKey_plain (h c (by simp)).2.2.2]
    rfl

theorem KeysInOrder.both {ls : List LogicalKey} (h : KeysInOrder ls) : ∀ l ∈ ls, Key.first_logical ≤ l.both := by
  intro l hl
  obtain ⟨i, hi, e⟩ := List.getElem_of_mem hl
  have := (h.2 i l (by rw [List.getElem?_eq_getElem hi, e])).1
  exact this ▸ Nat.le_add_right _ _

theorem replace_all_plain {ls : List LogicalKey} {cs : List CContext} (h : ∀ c ∈ cs, ∀ l ∈ ls, Without l.both c) :
    ls.foldl replaceLogicalKey cs = cs := by
  induction ls with
  | nil => rfl
  | cons l ls ih =>
    rw [List.foldl_cons, replaceLogicalKey_plain (fun c hc => h c hc l (by simp))]
    exact ih (fun c hc x hx => h c hc x (by simp [hx]))

theorem prependForward_none (cs : List CContext) : prependForward [] cs = cs := by
  unfold prependForward
  apply map_id_of
  intro c _
  split <;> rfl

/-- the contexts of the configuration -/
theorem finish_doc {s : CState} {d : Doc} (hs : DocRel s d) (hok : d.Ok) (hd : d.Shape) (hf : d.forward = []) (hp : d.Plain) :
    s.finishContexts = d.result := by
  unfold CState.finishContexts
  rw [hs.forward, hf, prependForward_none, hs.contexts, hs.logical]
  simp only [List.isEmpty_nil, if_true]
  rw [optimizeContexts_doc hd]
  apply replace_all_plain
  intro c hc l hl
  obtain ⟨h1, h2, h3, h4⟩ := hp c hc
  have hb := hok.keys.both l (List.mem_reverse.1 hl)
  have key : ∀ {q : KeySequence}, PlainKeys q → ∀ e ∈ q, e.key ≠ l.both := by
    intro q hq e he
    have := hq e he
    exact Nat.ne_of_lt (Nat.lt_of_lt_of_le this hb)
  exact ⟨fun i hi => key (h1 i hi), fun o ho => key (h2 o ho), fun o ho => key (h3 o ho), key h4⟩

/-! ### statements keep the shape -/

theorem Doc.Shape.step {env : CEnv} {d : Doc} (h : d.Shape) {st : Stmt} : (d.step env.typer st).Shape := by
  have same : ∀ {d' : Doc}, d'.blocks = d.blocks → d'.current.stage = d.current.stage → d'.current.attrs = d.current.attrs →
      d'.current.fallsThrough = d.current.fallsThrough → (d'.justOpened = true → d.justOpened = true) → d'.Shape := by
    intro d' e1 e2 e3 e4 e5
    refine ⟨?_, ?_, ?_, ?_, ?_, ?_⟩
    · intro b hb hs
      rw [e1] at hb
      rcases List.mem_append.1 hb with hb | hb
      · exact h.attrs b (by simp [hb]) hs
      · rw [List.mem_singleton.1 hb] at hs ⊢
        rw [e2] at hs
        rw [e3]
        exact h.attrs d.current (by simp) hs
    · intro b hb hs
      rw [e1] at hb
      rcases List.mem_append.1 hb with hb | hb
      · exact h.falls b (by simp [hb]) hs
      · rw [List.mem_singleton.1 hb] at hs ⊢
        rw [e4] at hs
        rw [e2]
        exact h.falls d.current (by simp) hs
    · intro b hb
      rw [e1] at hb
      cases hbl : d.blocks with
      | nil =>
        rw [hbl] at hb
        simp at hb
        rw [← hb, e4]
        exact h.last
      | cons x xs =>
        rw [hbl] at hb
        exact h.first b (by rw [hbl]; exact hb)
    · rw [e1]; exact h.alone.last e2
    · intro hj
      rw [e2, e1]
      exact h.opened (e5 hj)
    · rw [e4]; exact h.last
  cases st with
  | nothing => exact same rfl rfl rfl rfl (by intro h; cases h)
  | define name text =>
    rw [Doc.step]
    split
    · exact same rfl rfl rfl rfl id
    · exact h
  | map flag e o => exact same rfl rfl rfl rfl (by intro h; cases h)
  | toCommand flag e name => exact same rfl rfl rfl rfl (by intro h; cases h)
  | command name o => exact same rfl rfl rfl rfl (by intro h; cases h)
  | unusedCommand o => exact same rfl rfl rfl rfl (by intro h; cases h)
  | either name k ks => exact same rfl rfl rfl rfl id
  | grab filter => exact same rfl rfl rfl rfl id
  | lowercase on => exact same rfl rfl rfl rfl id
  | unmapped on => exact same rfl rfl rfl rfl id
  | server name on => exact same rfl rfl rfl rfl id
  | forward keys => exact same rfl rfl rfl rfl id
  | options names => exact same rfl rfl rfl rfl id
  | done => exact same rfl rfl rfl rfl id
  | ignored => exact h
  | context attrs =>
    refine ⟨?_, ?_, ?_, ?_, ?_, rfl⟩
    · intro b hb hs
      simp only [Doc.step] at hb
      rcases List.mem_append.1 hb with hb | hb
      · rcases List.mem_append.1 hb with hb | hb
        · exact h.attrs b (by simp [hb]) hs
        · rw [List.mem_singleton.1 hb] at hs ⊢
          exact h.attrs d.current (by simp) hs
      · rw [List.mem_singleton.1 hb] at hs; cases hs
    · intro b hb hs
      simp only [Doc.step] at hb
      rcases List.mem_append.1 hb with hb | hb
      · rcases List.mem_append.1 hb with hb | hb
        · exact h.falls b (by simp [hb]) hs
        · rw [List.mem_singleton.1 hb] at hs ⊢
          exact (h.opened hs).1
      · rw [List.mem_singleton.1 hb] at hs ⊢
    · intro b hb
      simp only [Doc.step] at hb
      cases hbl : d.blocks with
      | nil =>
        rw [hbl] at hb
        simp at hb
        rw [← hb]
        cases hj : d.justOpened with
        | false => rfl
        | true => exact absurd hbl (h.opened hj).2
      | cons x xs =>
        rw [hbl] at hb
        exact h.first b (by rw [hbl]; exact hb)
    · simp only [Doc.step]
      exact (h.alone.last (c' := { d.current with fallsThrough := d.justOpened }) rfl).add (fun _ => rfl)
    · intro _
      exact ⟨rfl, by simp [Doc.step]⟩
  | stage =>
    refine ⟨?_, ?_, ?_, ?_, ?_, rfl⟩
    · intro b hb hs
      simp only [Doc.step] at hb
      rcases List.mem_append.1 hb with hb | hb
      · exact h.attrs b hb hs
      · rw [List.mem_singleton.1 hb]
    · intro b hb hs
      simp only [Doc.step] at hb
      rcases List.mem_append.1 hb with hb | hb
      · exact h.falls b hb hs
      · rw [List.mem_singleton.1 hb] at hs; cases hs
    · intro b hb
      simp only [Doc.step] at hb
      apply h.first
      cases hbl : d.blocks with
      | nil => rw [hbl] at hb; exact hb
      | cons x xs => rw [hbl] at hb; exact hb
    · simp only [Doc.step]
      exact h.alone.add (fun hf => by rw [h.last] at hf; cases hf)
    · intro hj; cases hj

/-- the statement uses known commands and keys -/
def Stmt.Allowed (d : Doc) : Stmt → Prop
  | .command name _ => name ∈ d.commands
  | .either _ k ks => ∀ x ∈ k :: ks, x < Key.first_logical + d.logical.length
  | _ => True

theorem KeysInOrder.add {ls : List LogicalKey} (h : KeysInOrder ls) {name : Str} {left right : Key} (hl : left < Key.first_logical + ls.length)
    (hr : right < Key.first_logical + ls.length) : KeysInOrder (ls ++ [⟨name, Key.first_logical + ls.length, left, right⟩]) := by
  refine ⟨by have := h.1; simp only [List.length_append]; omega, ?_⟩
  intro i l hi
  by_cases hlt : i < ls.length
  · rw [List.getElem?_append_left hlt] at hi
    exact h.2 i l hi
  · rw [List.getElem?_append_right (by omega), List.getElem?_singleton] at hi
    split at hi
    · next h0 =>
      injection hi with hi
      have : i = ls.length := by omega
      rw [← hi, this]
      exact ⟨rfl, hl, hr⟩
    · cases hi

theorem KeysInOrder.addKeys {name : Str} (others : List Key) : ∀ {left : Key} {ls : List LogicalKey}, KeysInOrder ls →
    (∀ x ∈ left :: others, x < Key.first_logical + ls.length) → KeysInOrder (KM.addKeys name left others ls) := by
  induction others with
  | nil => intro left ls h _; exact h
  | cons k ks ih =>
    intro left ls h hx
    cases ks with
    | nil => exact h.add (hx left (by simp)) (hx k (by simp))
    | cons m ks =>
      rw [KM.addKeys]
      · refine ih (h.add (hx left (by simp)) (hx k (by simp))) ?_
        intro x hm
        have hlen : (ls ++ [(⟨['$'], Key.first_logical + ls.length, left, k⟩ : LogicalKey)]).length = ls.length + 1 := by simp
        rw [hlen]
        rcases List.mem_cons.1 hm with rfl | hm
        · exact Nat.lt_succ_self _
        · exact Nat.lt_succ_of_lt (hx x (by simp [hm]))
      · simp

theorem Doc.Ok.step {env : CEnv} {d : Doc} (h : d.Ok) {st : Stmt} (hc : st.Allowed d) : (d.step env.typer st).Ok := by
  cases st with
  | nothing => exact ⟨h.nodup, h.used, h.outputs, h.mapped, h.open', h.keys⟩
  | define name text =>
    rw [Doc.step]
    split
    · exact ⟨h.nodup, h.used, h.outputs, h.mapped, h.open', h.keys⟩
    · exact h
  | map flag e o =>
    refine ⟨h.nodup, ?_, ?_, h.mapped, h.open', h.keys⟩
    · intro b hb m hm name hn
      simp only [Doc.step] at hb
      rcases List.mem_append.1 hb with hb | hb
      · exact h.used b (by simp [hb]) m hm name hn
      · rw [List.mem_singleton.1 hb] at hm
        rcases List.mem_append.1 hm with hm | hm
        · exact h.used d.current (by simp) m hm name hn
        · rw [List.mem_singleton.1 hm] at hn; cases hn
    · intro b hb c hc
      simp only [Doc.step] at hb
      rcases List.mem_append.1 hb with hb | hb
      · exact h.outputs b (by simp [hb]) c hc
      · rw [List.mem_singleton.1 hb] at hc
        exact h.outputs d.current (by simp) c hc
  | toCommand flag e name =>
    have hsub : ∀ n ∈ d.commands, n ∈ (if name ∈ d.commands then d.commands else d.commands ++ [name]) := by
      intro n hn; split
      · exact hn
      · simp [hn]
    have hname : name ∈ (if name ∈ d.commands then d.commands else d.commands ++ [name]) := by
      split
      · assumption
      · simp
    refine ⟨?_, ?_, ?_, fun n hn => hsub n (h.mapped n hn), h.open', h.keys⟩
    · simp only [Doc.step]
      split
      · exact h.nodup
      · next hn =>
        rw [List.nodup_append]
        refine ⟨h.nodup, by simp, ?_⟩
        intro a ha b hb
        rw [List.mem_singleton.1 hb]
        exact fun e => hn (e ▸ ha)
    · intro b hb m hm n hn
      simp only [Doc.step] at hb ⊢
      rcases List.mem_append.1 hb with hb | hb
      · exact hsub n (h.used b (by simp [hb]) m hm n hn)
      · rw [List.mem_singleton.1 hb] at hm
        rcases List.mem_append.1 hm with hm | hm
        · exact hsub n (h.used d.current (by simp) m hm n hn)
        · rw [List.mem_singleton.1 hm] at hn
          injection hn with hn
          rw [← hn]; exact hname
    · intro b hb c hc
      simp only [Doc.step] at hb ⊢
      rcases List.mem_append.1 hb with hb | hb
      · exact hsub _ (h.outputs b (by simp [hb]) c hc)
      · rw [List.mem_singleton.1 hb] at hc
        exact hsub _ (h.outputs d.current (by simp) c hc)
  | command name o =>
    have hname : name ∈ d.commands := hc
    refine ⟨h.nodup, ?_, ?_, ?_, h.open', h.keys⟩
    · intro b hb m hm n hn
      simp only [Doc.step] at hb
      rcases List.mem_append.1 hb with hb | hb
      · exact h.used b (by simp [hb]) m hm n hn
      · rw [List.mem_singleton.1 hb] at hm
        exact h.used d.current (by simp) m hm n hn
    · intro b hb c hc
      simp only [Doc.step] at hb
      rcases List.mem_append.1 hb with hb | hb
      · exact h.outputs b (by simp [hb]) c hc
      · rw [List.mem_singleton.1 hb] at hc
        rcases List.mem_append.1 hc with hc | hc
        · exact h.outputs d.current (by simp) c hc
        · rw [List.mem_singleton.1 hc]; exact hname
    · intro n hn
      rcases List.mem_append.1 hn with hn | hn
      · exact h.mapped n hn
      · rw [List.mem_singleton.1 hn]; exact hname
  | context attrs =>
    refine ⟨h.nodup, ?_, ?_, h.mapped, rfl, h.keys⟩
    · intro b hb m hm n hn
      simp only [Doc.step] at hb
      rcases List.mem_append.1 hb with hb | hb
      · rcases List.mem_append.1 hb with hb | hb
        · exact h.used b (by simp [hb]) m hm n hn
        · rw [List.mem_singleton.1 hb] at hm
          exact h.used d.current (by simp) m hm n hn
      · rw [List.mem_singleton.1 hb] at hm; cases hm
    · intro b hb c hc
      simp only [Doc.step] at hb
      rcases List.mem_append.1 hb with hb | hb
      · rcases List.mem_append.1 hb with hb | hb
        · exact h.outputs b (by simp [hb]) c hc
        · rw [List.mem_singleton.1 hb] at hc
          exact h.outputs d.current (by simp) c hc
      · rw [List.mem_singleton.1 hb] at hc; cases hc
  | stage =>
    refine ⟨h.nodup, ?_, ?_, h.mapped, rfl, h.keys⟩
    · intro b hb m hm n hn
      simp only [Doc.step] at hb
      rcases List.mem_append.1 hb with hb | hb
      · exact h.used b hb m hm n hn
      · rw [List.mem_singleton.1 hb] at hm; cases hm
    · intro b hb c hc
      simp only [Doc.step] at hb
      rcases List.mem_append.1 hb with hb | hb
      · exact h.outputs b hb c hc
      · rw [List.mem_singleton.1 hb] at hc; cases hc
  | unusedCommand o => exact ⟨h.nodup, h.used, h.outputs, h.mapped, h.open', h.keys⟩
  | either name k ks => exact ⟨h.nodup, h.used, h.outputs, h.mapped, h.open', h.keys.addKeys ks hc⟩
  | grab filter => exact ⟨h.nodup, h.used, h.outputs, h.mapped, h.open', h.keys⟩
  | lowercase on => exact ⟨h.nodup, h.used, h.outputs, h.mapped, h.open', h.keys⟩
  | unmapped on => exact ⟨h.nodup, h.used, h.outputs, h.mapped, h.open', h.keys⟩
  | server name on => exact ⟨h.nodup, h.used, h.outputs, h.mapped, h.open', h.keys⟩
  | forward keys => exact ⟨h.nodup, h.used, h.outputs, h.mapped, h.open', h.keys⟩
  | options names => exact ⟨h.nodup, h.used, h.outputs, h.mapped, h.open', h.keys⟩
  | done => exact ⟨h.nodup, h.used, h.outputs, h.mapped, h.open', h.keys⟩
  | ignored => exact h

/-! ### lines -/

theorem Doc.Mapping.allowed {env : CEnv} {d : Doc} {st : Stmt} {t : Str} (h : d.Mapping env st t) : st.Allowed d := by
  cases h with
  | command _ hm => exact hm
  | map => trivial
  | toCommand => trivial
  | unusedCommand => trivial

theorem Doc.Statement.allowed {env : CEnv} {d : Doc} {st : Stmt} {t : Str} (h : d.Statement env st t) : st.Allowed d := by
  cases h with
  | mapping hm => exact hm.allowed
  | directive _ _ hd => cases hd <;> trivial
  | nothing => trivial
  | comment => trivial
  | default => trivial
  | stage => trivial
  | context => trivial
  | ignored => trivial

/-! #### logical keys -/

theorem namesWith_add {ls : List LogicalKey} {l : LogicalKey} {w : Str} (h : namesWith ls w ≠ Key.none) : namesWith (ls ++ [l]) w = namesWith ls w := by
  unfold namesWith CState.getKey at h ⊢
  simp only [] at h ⊢
  by_cases hk : getKeyByName w != Key.none
  · rw [if_pos hk, if_pos hk]
  · rw [if_neg hk] at h ⊢
    rw [if_neg hk, List.find?_append]
    cases hf : List.find? (fun l => l.name == w) ls with
    | none => rw [hf] at h; exact absurd rfl h
    | some x => rfl

theorem namesWith_lt {ls : List LogicalKey} (h : KeysInOrder ls) (w : Str) : namesWith ls w < Key.first_logical + ls.length := by
  have h4 := h.1
  have small : ∀ k : Nat, k < Key.first_logical + 4 → k < Key.first_logical + ls.length := by intro k hk; omega
  unfold namesWith CState.getKey
  simp only []
  split
  · apply small
    rcases getKeyByName_range w with h | h | h | h | h
    · exact Nat.lt_trans h (by decide)
    · rw [h]; decide
    · rw [h]; decide
    · exact Nat.lt_of_le_of_lt h.2 (by decide)
    · simp only [List.mem_cons, List.not_mem_nil, or_false] at h
      rcases h with h | h | h | h <;> (rw [h]; decide)
  · split
    · next l hf =>
      obtain ⟨i, hi, e⟩ := List.getElem_of_mem (List.mem_of_find?_eq_some hf)
      have := (h.2 i l (by rw [List.getElem?_eq_getElem hi, e])).1
      rw [this]
      exact Nat.add_lt_add_left hi _
    · exact small _ (by decide)

theorem AlternativesText.ne_nil {macros : Macros} {getKey : Str → Key} {ks : List Key} {t : Str} (h : AlternativesText macros getKey ks t) : ks ≠ [] := by
  cases h <;> simp

theorem AlternativesText.lt {macros : Macros} {ls : List LogicalKey} (ho : KeysInOrder ls) {ks : List Key} {t : Str}
    (h : AlternativesText macros (namesWith ls) ks t) : ∀ x ∈ ks, x < Key.first_logical + ls.length := by
  induction h with
  | one => intro x hx; rw [List.mem_singleton.1 hx]; exact namesWith_lt ho _
  | cons _ _ _ _ _ _ ih =>
    intro x hx
    rcases List.mem_cons.1 hx with rfl | hx
    · exact namesWith_lt ho _
    · exact ih x hx

/-- the names are also known when further keys are defined -/
theorem AlternativesText.add {macros : Macros} {ls : List LogicalKey} {l : LogicalKey} {ks : List Key} {t : Str}
    (h : AlternativesText macros (namesWith ls) ks t) : AlternativesText macros (namesWith (ls ++ [l])) ks t := by
  induction h with
  | one h1 h2 h3 h4 h5 =>
    have e := namesWith_add (l := l) h4
    rw [← e] at h4 ⊢
    exact .one h1 h2 h3 h4 h5
  | cons h1 h2 h3 h4 h5 _ ih =>
    have e := namesWith_add (l := l) h4
    rw [← e] at h4 ⊢
    exact .cons h1 h2 h3 h4 h5 ih

theorem notIdent_spaces_char {sp : Str} (h : Spaces sp) {c : Char} (hc : isIdentChar c = false) (t : Str) : NotBefore isIdentChar (sp ++ c :: t) := by
  by_cases hne : sp = []
  · subst hne; exact .cons hc
  · exact notIdent_spaces h hne _

theorem addKeys_cons (name : Str) (left k m : Key) (ms : List Key) (ls : List LogicalKey) : addKeys name left (k :: m :: ms) ls =
    addKeys name (Key.first_logical + ls.length) (m :: ms) (ls ++ [⟨['$'], Key.first_logical + ls.length, left, k⟩]) := rfl

/-- the further keys of a definition -/
theorem parseLogicalGo_text {macros : Macros} {name : Str} : ∀ {ks : List Key} {t : Str} {ls : List LogicalKey},
    AlternativesText macros (namesWith ls) ks t → ∀ (s : CState) (left : Key), s.macros = macros → s.logical = ls →
    s.parseLogicalGo name left t = some { s with logical := addKeys name left ks ls } := by
  intro ks
  induction ks with
  | nil => intro t ls h; exact absurd rfl h.ne_nil
  | cons k ks ih =>
    intro t ls h s left hm hl
    have pre : ∀ {w v : Str}, Expand macros 30 (.text w) [v] → s.pre w = some v := by
      intro w v he
      obtain ⟨r', e, hr⟩ := expand_result he
      injection e with e; subst e
      rw [CState.pre, hm]; exact hr
    cases h with
    | @one sp w v sp' h1 h2 h3 h4 h5 =>
      have hf : Firm (w ++ sp') := Firm.name h2.1 h2.2
      rw [CState.parseLogicalGo.eq_def, List.append_assoc, hf.skipSpace_append h1, readIdent_word h2 (notIdent_spaces_nil h5)]
      simp only [pre h3]
      rw [getKey_logical hl, if_neg (by simpa using h4), skipSpace_spaces_nil h5]
      subst hl
      rfl
    | @cons sp w v sp' _ t h1 h2 h3 h4 h5 ht =>
      have hf : Firm (w ++ (sp' ++ '|' :: t)) := Firm.name h2.1 h2.2
      have hb : NotBefore isIdentChar (sp' ++ '|' :: t) := notIdent_spaces_char h5 (by decide) t
      have hsk : skipSpace (sp' ++ '|' :: t) = '|' :: t := (Firm.char (c := '|') (t := t) (by decide)).skipSpace_append h5
      have hlen : t.length < (sp ++ (w ++ (sp' ++ '|' :: t))).length := by simp only [List.length_append, List.length_cons]; omega
      rw [List.append_assoc, List.append_assoc]
      rw [CState.parseLogicalGo.eq_def, hf.skipSpace_append h1, readIdent_word h2 hb]
      simp only [pre h3]
      rw [getKey_logical hl, if_neg (by simpa using h4), hsk]
      simp only [CState.addLogicalKey]
      rw [if_pos hlen]
      subst hl
      rw [ih ht.add { s with logical := s.logical ++ [⟨['$'], Key.first_logical + s.logical.length, left, namesWith s.logical v⟩] } _ hm rfl]
      have hk : ks ≠ [] := ht.ne_nil
      obtain ⟨m, ms, rfl⟩ := List.exists_cons_of_ne_nil hk
      rw [addKeys_cons]

/-- **The definition of a key which is one of several keys** -/
theorem parseLine_either {env : CEnv} {incl : CState → Str → Option CState} {s : CState} {d : Doc} (hs : DocRel s d) {sp n sp2 t : Str} {k : Key}
    {ks : List Key} (hsp : Spaces sp) (hn : Word n) (hsp2 : Spaces sp2) (hk : namesWith d.logical n = Key.none)
    (ht : AlternativesText d.macros (namesWith d.logical) (k :: ks) t) (hks : ks ≠ []) :
    s.parseLine env incl (sp ++ n ++ sp2 ++ '=' :: t) = some { s with logical := addKeys n k ks d.logical } := by
  have hf : Firm (n ++ (sp2 ++ '=' :: t)) := Firm.name hn.1 hn.2
  have hsk : skipSpace (sp2 ++ '=' :: t) = '=' :: t := (Firm.char (c := '=') (t := t) (by decide)).skipSpace_append hsp2
  have hdef : s.parseLogicalKey n (skipSpace t) = some (some { s with logical := addKeys n k ks d.logical }) := by
    cases ht with
    | one => exact absurd rfl hks
    | @cons sp3 w v sp' _ u h1 h2 h3 h4 h5 hu =>
      obtain ⟨r', e, hr⟩ := expand_result h3
      injection e with e; subst e
      have hp : s.pre w = some v := by rw [CState.pre, hs.macros]; exact hr
      have hf : Firm (w ++ (sp' ++ '|' :: u)) := Firm.name h2.1 h2.2
      have hsk : skipSpace (sp' ++ '|' :: u) = '|' :: u := (Firm.char (c := '|') (t := u) (by decide)).skipSpace_append h5
      rw [List.append_assoc, List.append_assoc, hf.skipSpace_append h1, CState.parseLogicalKey, getKey_logical hs.logical, hk,
        readIdent_word h2 (notIdent_spaces_char h5 (by decide) u)]
      simp only [hp, hsk]
      rw [if_neg (by decide), if_neg (by simpa using h4), parseLogicalGo_text hu s _ hs.macros hs.logical]
      rfl
  rw [List.append_assoc, List.append_assoc, CState.parseLine, hf.skipSpace_append hsp, readIdent_word hn (notIdent_spaces_char hsp2 (by decide) t)]
  simp only [hsk, hdef]

theorem line_step {env : CEnv} {incl : CState → Str → Option CState} {s : CState} {d : Doc} (hs : DocRel s d) (hok : d.Ok) {st : Stmt}
    {line : Str} (h : d.Line env st line) : ∃ s', s.parseLine env incl line = some s' ∧ DocRel s' (d.step env.typer st) ∧ (d.step env.typer st).Ok := by
  cases h with
  | @statement _ _ r hd he hst =>
    obtain ⟨r', e, hr⟩ := expand_result he
    injection e with e; subst e
    have hp : s.pre line = some r := by rw [CState.pre, hs.macros]; exact hr
    obtain ⟨s', h1, h2⟩ := statement_step (incl := incl) hs hok hp hst
    exact ⟨s', by rw [parseLine_statement hd]; exact h1, h2, hok.step hst.allowed⟩
  | @define sp n sp2 sp3 t r f ts hsp hn hsp2 hsp3 hb ht hr ha hf =>
    have h1 := parseLine_definition env incl s hsp hn hsp2 hsp3 hb ht (by rw [hs.macros]; exact hr) ha
      (f := f) (by rw [getKey_logical hs.logical, hs.macros]; exact hf)
    rw [h1, hs.system, hs.macros]
    have hok' : (d.step env.typer (.define n r)).Ok := hok.step trivial
    by_cases hc : d.current.matchesSystem = true ∨ d.macros.get n = none
    · rw [if_pos (by rw [Bool.or_eq_true, Option.isNone_iff_eq_none]; exact hc)]
      refine ⟨_, rfl, ?_, hok'⟩
      rw [Doc.step, if_pos hc]
      exact ⟨hs.contexts, hs.actions, hs.commands, rfl, hs.logical, hs.after, rfl, hs.done, hs.lower, hs.unmapped, hs.forward, hs.other⟩
    · rw [if_neg (by rw [Bool.or_eq_true, Option.isNone_iff_eq_none]; exact hc)]
      refine ⟨_, rfl, ?_, hok'⟩
      rw [Doc.step, if_neg hc]
      exact hs
  | @either sp n sp2 t k ks hsp hn hsp2 hk ht hks =>
    refine ⟨_, parseLine_either hs hsp hn hsp2 hk ht hks, ?_, hok.step (ht.lt hok.keys)⟩
    exact ⟨hs.contexts, hs.actions, hs.commands, hs.macros, rfl, hs.after, hs.system, hs.done, hs.lower, hs.unmapped, hs.forward, hs.other⟩

/-! #### several mappings -/

theorem parseMappings_cons {env : CEnv} {s s' : CState} {b u : Str} (hl : OneLine b) (hb : Firm b) (h : s.parseMapping env (b ++ ['\n']) = some s') :
    s.parseMappings env (b ++ '\n' :: u) = s'.parseMappings env u := by
  obtain ⟨c, y, e, -⟩ := hb
  have hscan : skipUntilNotInString ['\n'] (b ++ '\n' :: u) = some (true, u) := by
    rw [scan_quotes hl ('\n' :: u) (.cons (by decide)), scan_hit (by decide)]
  have ht : textBefore (b ++ '\n' :: u) u = b ++ ['\n'] := by
    have := textBefore_append (b ++ ['\n']) u
    rwa [List.append_assoc] at this
  rw [CState.parseMappings.eq_def]
  subst e
  simp only [List.cons_append] at hscan ht h ⊢
  simp only [hscan, ht, h]
  rw [if_pos (by simp only [List.length_cons, List.length_append]; omega)]

theorem drop_newline {t : Str} (hf : Firm ((t ++ ['\n']).dropWhile isSpaceC)) (u : Str) : Firm (t.dropWhile isSpaceC) ∧
    (t ++ ['\n']).dropWhile isSpaceC = t.dropWhile isSpaceC ++ ['\n'] ∧ (t ++ '\n' :: u).dropWhile isSpaceC = t.dropWhile isSpaceC ++ '\n' :: u := by
  induction t with
  | nil => obtain ⟨c, y, e, -⟩ := hf; simp [isSpaceC] at e
  | cons c t ih =>
    by_cases hc : isSpaceC c = true
    · rw [List.cons_append, List.dropWhile_cons, if_pos hc] at hf
      rw [List.cons_append, List.cons_append, List.dropWhile_cons, List.dropWhile_cons, List.dropWhile_cons, if_pos hc, if_pos hc, if_pos hc]
      exact ih hf
    · rw [List.cons_append, List.dropWhile_cons, if_neg hc] at hf
      rw [List.cons_append, List.cons_append, List.dropWhile_cons, List.dropWhile_cons, List.dropWhile_cons, if_neg hc, if_neg hc, if_neg hc]
      obtain ⟨x, y, e, h⟩ := hf
      injection e with e1 e2
      subst e1
      exact ⟨⟨c, t, rfl, h⟩, rfl, rfl⟩

theorem mappings_step {env : CEnv} {d d' : Doc} {t : Str} (h : Doc.Mappings env d t d') : ∀ s, DocRel s d → d.Ok → d.Shape → d.justOpened = false →
    skipSpace t = t.dropWhile isSpaceC ∧ NotBefore (fun c => c == '@' || c == '[') (t.dropWhile isSpaceC) ∧
    ∃ s', s.parseMappings env (t.dropWhile isSpaceC) = some s' ∧ DocRel s' d' ∧ d'.Ok ∧ d'.Shape := by
  induction h with
  | @last d st t hm hl =>
    intro s hs hok hsh hj
    obtain ⟨hf, hsk, hn, s', h2, h3⟩ := mapping_step hs hok hj hm
    exact ⟨hsk, hn, s', parseMappings_line (QuotesMatch.drop hl) hf h2, h3, hok.step hm.allowed, hsh.step⟩
  | @cons d st t u d' hm hl hu hr ih =>
    intro s hs hok hsh hj
    obtain ⟨hf, hsk, hn, s1, h2, h3⟩ := mapping_step hs hok hj hm
    obtain ⟨-, -, s', h4, h5⟩ := ih s1 h3 (hok.step hm.allowed) hsh.step (hm.opened).2.2
    obtain ⟨g1, g2, g3⟩ := drop_newline hf u
    have hud : u.dropWhile isSpaceC = u := by
      cases u with
      | nil => rfl
      | cons c u => rw [List.dropWhile_cons, if_neg (by have := hu c rfl; simpa using this)]
    rw [hud] at h4
    rw [g2] at h2 hn
    refine ⟨skipSpace_eq (by rw [g3]; exact (g1.append _).noComment), ?_, s', ?_, h5⟩
    · rw [g3]
      obtain ⟨c, y, e, -⟩ := g1
      rw [e] at hn ⊢
      exact .cons (hn c rfl)
    · rw [g3, parseMappings_cons (QuotesMatch.drop hl) g1 h2, h4]

theorem Doc.Mappings.opened {env : CEnv} {d d' : Doc} {t : Str} (h : Doc.Mappings env d t d') : Doc.Mappings env { d with justOpened := false } t d' := by
  cases h with
  | last hm hl =>
    obtain ⟨h0, h1, -⟩ := hm.opened
    rw [← h1]
    exact .last h0 hl
  | cons hm hl hu hr =>
    obtain ⟨h0, h1, -⟩ := hm.opened
    rw [← h1] at hr
    exact .cons h0 hl hu hr

theorem Doc.Shape.closed {d : Doc} (h : d.Shape) : ({ d with justOpened := false } : Doc).Shape :=
  Doc.Shape.step (env := ⟨genericTyper, fun _ => true, fun _ => none⟩) (st := .nothing) h

theorem splitLines_line {l : Str} (hl : '\n' ∉ l) : splitLines l = [l] := by
  induction l with
  | nil => rfl
  | cons c l ih =>
    rw [splitLines, if_neg (by rw [beq_iff_eq]; intro e; exact hl (by simp [e])), ih (fun h => hl (by simp [h]))]

theorem splitLines_append {l : Str} (hl : '\n' ∉ l) (t : Str) : splitLines (l ++ '\n' :: t) = l :: splitLines t := by
  induction l with
  | nil => rw [List.nil_append, splitLines]; simp
  | cons c l ih =>
    rw [List.cons_append, splitLines, if_neg (by rw [beq_iff_eq]; intro e; exact hl (by simp [e])), ih (fun h => hl (by simp [h]))]

theorem splitLines_join {lines : List Str} (hne : lines ≠ []) (h : ∀ l ∈ lines, '\n' ∉ l) : splitLines (joinLines lines) = lines := by
  induction lines with
  | nil => exact absurd rfl hne
  | cons l lines ih =>
    cases lines with
    | nil => exact splitLines_line (h l (by simp))
    | cons m ms =>
      rw [joinLines, splitLines_append (h l (by simp)), ih (by simp) (fun x hx => h x (by simp [hx]))]
      simp

theorem skipStr_bom {t : Str} (h : NotBefore (· == Char.ofNat 0xEF) t) : skipStr utf8Bom t = none := by
  cases t with
  | nil => rfl
  | cons c t =>
    have hc : (Char.ofNat 0xEF == c) = false := by
      have := h c rfl
      simp only [beq_eq_false_iff_ne] at this ⊢
      exact fun e => this e.symm
    unfold utf8Bom
    rw [skipStr, if_neg (by rw [hc]; decide)]

theorem skipStr_self (a t : Str) : skipStr a (a ++ t) = some t := by
  induction a with
  | nil => rfl
  | cons c a ih => rw [List.cons_append, skipStr, if_pos (by simp), ih]

theorem FileText.content {lines : List Str} {text : Str} (h : FileText lines text) : (skipStr utf8Bom text).getD text = joinLines lines := by
  rcases h with ⟨rfl, h⟩ | rfl
  · rw [skipStr_bom h]; rfl
  · rw [show [Char.ofNat 0xEF, Char.ofNat 0xBB, Char.ofNat 0xBF] = utf8Bom from rfl, skipStr_self]; rfl

/-! #### broken lines -/

theorem trimSpaceEnd_backslash {a sp : Str} (h : Spaces sp) : trimSpaceEnd (a ++ '\\' :: sp) = a ++ ['\\'] := by
  unfold trimSpaceEnd
  have key : ∀ (l : Str), (∀ c ∈ l, isSpaceC c = true) → ∀ y : Str, (l ++ '\\' :: y).dropWhile isSpaceC = '\\' :: y := by
    intro l
    induction l with
    | nil => intro _ y; rfl
    | cons c l ih =>
      intro hl y
      rw [List.cons_append, List.dropWhile_cons, if_pos (hl c (by simp)), ih (fun d hd => hl d (by simp [hd]))]
  have e : (a ++ '\\' :: sp).reverse = sp.reverse ++ '\\' :: a.reverse := by simp
  rw [e, key _ (by intro c hc; exact h c (List.mem_reverse.1 hc))]
  simp

theorem parseLines_broken {env : CEnv} {incl : CState → Str → Option CState} {line : Str} {parts : List Str} (h : Broken line parts) :
    ∀ (lines : List Str) (prev : Str) (s : CState), s.done = false → CState.parseLines env incl (parts ++ lines) prev s =
      (s.parseLine env incl (prev ++ line)).bind (CState.parseLines env incl lines []) := by
  induction h with
  | @last l hc hn =>
    intro lines prev s hd
    rw [List.singleton_append, CState.parseLines, if_neg (by rw [hd]; decide)]
    simp only []
    rw [if_neg (by rw [beq_iff_eq]; exact fun h => hc (continued_of h))]
    cases s.parseLine env incl (prev ++ l) <;> rfl
  | @cons a sp l ls hs hn hr ih =>
    intro lines prev s hd
    rw [List.cons_append, CState.parseLines, if_neg (by rw [hd]; decide)]
    simp only [trimSpaceEnd_backslash hs]
    rw [if_pos (by simp), List.dropLast_concat, ih lines _ s hd, List.append_assoc]

theorem Broken.noNewline {line : Str} {parts : List Str} (h : Broken line parts) : ∀ l ∈ parts, '\n' ∉ l := by
  induction h with
  | last hc hn => intro l hl; rw [List.mem_singleton.1 hl]; exact hn
  | @cons a sp l ls hs hn hr ih =>
    intro x hx
    rcases List.mem_cons.1 hx with rfl | hx
    · intro h
      simp only [List.mem_append, List.mem_cons] at h hn
      rcases h with h | h | h
      · exact hn (.inl h)
      · exact absurd h (by decide)
      · exact hn (.inr h)
    · exact ih x hx

theorem Doc.Lines.noNewline {env : CEnv} {n : Nat} {d d' : Doc} {lines : List Str} (h : Doc.Lines env n d lines d') : ∀ l ∈ lines, '\n' ∉ l := by
  have both : ∀ {a b : List Str}, (∀ l ∈ a, '\n' ∉ l) → (∀ l ∈ b, '\n' ∉ l) → ∀ l ∈ a ++ b, '\n' ∉ l := by
    intro a b ha hb l hl
    rcases List.mem_append.1 hl with h | h
    · exact ha l h
    · exact hb l h
  induction h with
  | nil => intro l hl; cases hl
  | done hd hn => exact hn
  | cons hl hb hr hd ih => exact both hb.noNewline ih
  | mappings hi he hm hb hr hd ih => exact both hb.noNewline ih
  | «include» hi he ht hm hf hne htext h1 hb hr hd ih1 ih => exact both hb.noNewline ih

/-- the files which may be included -/
def inclOf (env : CEnv) : Nat → CState → Str → Option CState
  | 0 => fun _ _ => none
  | n + 1 => CState.parseFile env n

theorem parseFile_incl (env : CEnv) (n : Nat) (s : CState) (content : Str) :
    CState.parseFile env n s content = CState.parseLines env (inclOf env n) (splitLines ((skipStr utf8Bom content).getD content)) [] s := by
  cases n <;> rw [CState.parseFile] <;> rfl

/-- **The lines of a file** -/
theorem lines_step {env : CEnv} {n : Nat} {d d' : Doc} {lines : List Str} (h : Doc.Lines env n d lines d') :
    ∀ s, DocRel s d → d.Ok → d.Shape → ∃ s', CState.parseLines env (inclOf env n) lines [] s = some s' ∧ DocRel s' d' ∧ d'.Ok ∧ d'.Shape := by
  induction h with
  | nil => intro s hs hok hsh; exact ⟨s, by rw [CState.parseLines], hs, hok, hsh⟩
  | @done n d lines hd hn =>
    intro s hs hok hsh
    refine ⟨s, ?_, hs, hok, hsh⟩
    cases lines with
    | nil => rw [CState.parseLines]
    | cons l lines => rw [CState.parseLines, if_pos (by rw [hs.done]; exact hd)]
  | @cons n d st line parts lines d' hl hb hr hd ih =>
    intro s hs hok hsh
    obtain ⟨s1, h1, h2, h3⟩ := line_step (incl := inclOf env n) hs hok hl
    obtain ⟨s2, h4, h5⟩ := ih s1 h2 h3 hsh.step
    refine ⟨s2, ?_, h5⟩
    rw [parseLines_broken hb lines [] s (hs.done.trans hd), List.nil_append, h1]
    exact h4
  | @mappings n d d1 line r parts lines d' hi he hm hb hr hd ih =>
    intro s hs hok hsh
    obtain ⟨r', e, hr'⟩ := expand_result he
    injection e with e; subst e
    have hp : s.pre line = some r := by rw [CState.pre, hs.macros]; exact hr'
    obtain ⟨g1, g2, s1, h1, h2, h3, h3'⟩ := mappings_step hm.opened _ hs.closed hok.closed hsh.closed rfl
    obtain ⟨s2, h4, h5⟩ := ih s1 h2 h3 h3'
    refine ⟨s2, ?_, h5⟩
    rw [parseLines_broken hb lines [] s (hs.done.trans hd), List.nil_append, parseLine_statement hi, parseStatement_mapping hp g1 g2 h1]
    exact h4
  | @«include» n d line r name text inner d1 parts lines d' hi he ht hm hf hne htext h1 hb hr hd ih1 ih =>
    intro s hs hok hsh
    obtain ⟨r', e, hr'⟩ := expand_result he
    injection e with e; subst e
    have hp : s.pre line = some r := by rw [CState.pre, hs.macros]; exact hr'
    have hs0 : DocRel { s with cfg := { s.cfg with includes := s.cfg.includes ++ [name] } } { d with includes := d.includes ++ [name] } :=
      ⟨hs.contexts, hs.actions, hs.commands, hs.macros, hs.logical, hs.after, hs.system, hs.done, hs.lower, hs.unmapped, hs.forward,
        hs.other.1, hs.other.2.1, congrArg (· ++ [name]) hs.other.2.2.1, hs.other.2.2.2⟩
    obtain ⟨s1, g1, g2, g3, g4⟩ := ih1 _ hs0 ⟨hok.nodup, hok.used, hok.outputs, hok.mapped, hok.open', hok.keys⟩
      ⟨hsh.attrs, hsh.falls, hsh.first, hsh.alone, hsh.opened, hsh.last⟩
    obtain ⟨s2, h4, h5⟩ := ih s1 g2 g3 g4
    have hfile : CState.parseFile env n { s with cfg := { s.cfg with includes := s.cfg.includes ++ [name] } } text = some s1 := by
      rw [parseFile_incl, htext.content, splitLines_join hne h1.noNewline]
      exact g1
    refine ⟨s2, ?_, h5⟩
    rw [parseLines_broken hb lines [] s (hs.done.trans hd), List.nil_append, parseLine_statement hi]
    have hst : s.parseStatement env (inclOf env (n + 1)) line = some s1 := by
      obtain ⟨sp, sp', q, sp1, k1, k2, k3, k4, k5, rfl⟩ := ht
      have hw : Word "include".toList := ⟨by decide, by decide⟩
      have hq : isIdentChar q = false := by rcases isQuote_cases k3 with rfl | rfl <;> decide
      have e : skipSpace (sp ++ '@' :: "include".toList ++ sp' ++ q :: name ++ q :: sp1) =
          '@' :: ("include".toList ++ (sp' ++ q :: (name ++ q :: sp1))) := by
        rw [List.append_assoc, List.append_assoc, List.append_assoc, skipSpace_spaces k1]
        rw [List.cons_append, skipSpace_cons (by decide) (by decide)]
        simp only [List.cons_append]
      rw [CState.parseStatement, hp]
      simp only [e]
      rw [CState.parseDirective, hs.system, hm, readIdent_word hw (notIdent_spaces_char k2 hq _)]
      simp only [Bool.not_true, Bool.false_eq_true, if_false]
      have hstr : readString (q :: (name ++ q :: sp1)) = some (name, sp1) := by
        rw [readString, if_pos (by rcases isQuote_cases k3 with rfl | rfl <;> decide), skipUntil_char k4]
        have hl : (name ++ q :: sp1).length - sp1.length - 1 = name.length := by
          simp only [List.length_append, List.length_cons]; omega
        simp only [hl, List.take_left']
      rw [directive_include, (Firm.quote (isQuote_cases k3)).skipSpace_append k2, hstr]
      simp only [hf]
      rw [show inclOf env (n + 1) = CState.parseFile env n from rfl, hfile]
      simp only [Option.map_some, skipSpace_spaces_nil k5, List.isEmpty_nil, if_true]
    rw [hst]
    exact h4

theorem docRel_init : DocRel CState.init {} := by
  refine ⟨rfl, rfl, rfl, rfl, rfl, rfl, rfl, rfl, rfl, rfl, rfl, rfl, rfl, rfl, rfl⟩

theorem docOk_init : ({} : Doc).Ok := by
  refine ⟨by decide, ?_, ?_, (by intro n hn; cases hn), rfl, (by decide), ?_⟩
  · intro b hb m hm; simp at hb; rw [hb] at hm; cases hm
  · intro b hb m hm; simp at hb; rw [hb] at hm; cases hm
  · intro i l hi
    match i, hi with
    | 0, hi => injection hi with hi; rw [← hi]; decide
    | 1, hi => injection hi with hi; rw [← hi]; decide
    | 2, hi => injection hi with hi; rw [← hi]; decide
    | 3, hi => injection hi with hi; rw [← hi]; decide

theorem docShape_init : ({} : Doc).Shape := by
  refine ⟨?_, ?_, ?_, ⟨(by intro h; cases h), trivial⟩, (by intro h; cases h), rfl⟩
  · intro b hb _; simp at hb; rw [hb]
  · intro b hb h; simp at hb; rw [hb] at h; cases h
  · intro b hb; simp at hb; rw [← hb]

end KM
