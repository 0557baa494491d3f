import Verif.Spec.Configuration
import Verif.Lemmas.ConfigPasses
/-!
# Replacing logical keys
-/
namespace KM

theorem flatMap_congr' {α β : Type} {l : List α} {f g : α → List β} (h : ∀ a ∈ l, f a = g a) :
    l.flatMap f = l.flatMap g := by
  induction l with
  | nil => rfl
  | cons a l ih =>
    rw [List.flatMap_cons, List.flatMap_cons, h a List.mem_cons_self, ih (fun b hb => h b (List.mem_cons_of_mem _ hb))]

theorem foldl_congr' {α β : Type} (l : List α) {f g : β → α → β} (h : ∀ b, ∀ a ∈ l, f b a = g b a) {b : β} :
    l.foldl f b = l.foldl g b := by
  induction l generalizing b with
  | nil => rfl
  | cons a l ih =>
    rw [List.foldl_cons, List.foldl_cons, h b a List.mem_cons_self, ih (fun b a ha => h b a (List.mem_cons_of_mem _ ha))]

/-- the alternatives are other keys -/
def Distinct (l : LogicalKey) : Prop := l.left ≠ l.both ∧ l.right ≠ l.both

theorem standFor_eq {l : LogicalKey} (hl : Distinct l) (k : Key) (s : KeySequence) :
    replaceKey (replaceNotKey s l.both l.left l.right) l.both k = standFor l k s := by
  induction s with
  | nil => rfl
  | cons e s ih =>
    unfold replaceNotKey replaceKey at ih ⊢
    rw [List.flatMap_cons, List.map_append, ih, standFor]
    by_cases h1 : e.key = l.both
    · rw [if_pos h1]
      by_cases h2 : e.state = .Not
      · rw [if_pos h2, if_pos (by simp [h1, h2])]
        simp [hl.1, hl.2, h2]
      · rw [if_neg h2, if_neg (by simp [h2])]
        simp [h1]
    · rw [if_neg h1, if_neg (by simp [h1])]
      simp [h1]

theorem containsKey_iff (s : KeySequence) (k : Key) : containsKey s k = true ↔ ∃ e ∈ s, e.key = k := by
  simp [containsKey]

theorem contains_replaceNot {l : LogicalKey} (hl : Distinct l) (s : KeySequence) :
    containsKey (replaceNotKey s l.both l.left l.right) l.both = true ↔ Demands s l.both := by
  rw [containsKey_iff]
  constructor
  · rintro ⟨e, he, hk⟩
    rcases replaceNotKey_mem he with ⟨he, hn⟩ | ⟨d, -, -, -, rfl | rfl⟩
    · exact ⟨e, he, hk, fun h => hn ⟨h, hk⟩⟩
    · exact absurd hk hl.1
    · exact absurd hk hl.2
  · rintro ⟨e, he, hk, hs⟩
    refine ⟨e, ?_, hk⟩
    unfold replaceNotKey
    refine List.mem_flatMap.2 ⟨e, he, ?_⟩
    rw [if_neg (by simp [hs])]
    exact List.mem_singleton_self _

theorem replaceKey_absent {s : KeySequence} {b k : Key} (h : containsKey s b = false) : replaceKey s b k = s := by
  unfold replaceKey
  refine (List.map_congr_left (fun e he => ?_)).trans (List.map_id s)
  have := List.any_eq_false.1 h e he
  rw [if_neg this]; rfl

/-- What a pass makes of a mapping -/
def expand (l : LogicalKey) (m : KeySequence × Target) : List (KeySequence × Target) :=
  if Demands m.1 l.both then [chooseOne l false m, chooseOne l true m] else [chooseOne l false m]

theorem mem_expand {l : LogicalKey} {m m' : KeySequence × Target} :
    m' ∈ expand l m ↔ ∃ b, m' = chooseOne l b m := by
  unfold expand
  split
  · simp only [List.mem_cons, List.not_mem_nil, or_false]
    constructor
    · rintro (h | h)
      · exact ⟨_, h⟩
      · exact ⟨_, h⟩
    · rintro ⟨b, h⟩
      cases b
      · exact .inl h
      · exact .inr h
  · next hn =>
    simp only [List.mem_singleton]
    constructor
    · exact fun h => ⟨_, h⟩
    · rintro ⟨b, h⟩
      rw [h]
      unfold chooseOne
      simp [hn]

/-- `target` of outputs with replaced keys -/
def Target.map (f : KeySequence → KeySequence) : Target → Target
  | .output o => .output (f o)
  | t => t

theorem target_map (f : KeySequence → KeySequence) (outs : List KeySequence) (i : Int) :
    target (outs.map f) i = (target outs i).map f := by
  unfold target
  split
  · rw [List.getElem?_map]
    cases outs[i.toNat]? <;> rfl
  · rfl

theorem target_append {outs : List KeySequence} {i : Int} (h : 0 ≤ i → i < outs.length) (ext : List KeySequence) :
    target (outs ++ ext) i = target outs i := by
  unfold target
  split
  · next h0 =>
    rw [List.getElem?_append_left]
    have := h h0
    omega
  · rfl

theorem duplicateInputs_mappings {l : LogicalKey} (hl : Distinct l) (is : List Input) :
    ∀ outs : List KeySequence, (∀ i ∈ is, 0 ≤ i.outputIndex → i.outputIndex < outs.length) →
    ∃ ext, (duplicateInputs l is outs).2 = outs ++ ext ∧
      (∀ i ∈ (duplicateInputs l is outs).1, 0 ≤ i.outputIndex → i.outputIndex < (outs ++ ext).length) ∧
      (duplicateInputs l is outs).1.map (fun i =>
          (i.input, (target (outs ++ ext) i.outputIndex).map (fun o => replaceKey o l.both l.left))) =
        is.flatMap (fun i =>
          if containsKey i.input l.both then
            [(replaceKey i.input l.both l.left,
              (target outs i.outputIndex).map (fun o => replaceKey o l.both l.left)),
             (replaceKey i.input l.both l.right,
              (target outs i.outputIndex).map (fun o => replaceKey o l.both l.right))]
          else [(i.input, (target outs i.outputIndex).map (fun o => replaceKey o l.both l.left))]) := by
  induction is with
  | nil => intro outs _; exact ⟨[], by simp [duplicateInputs], by simp [duplicateInputs], by simp [duplicateInputs]⟩
  | cons i is ih =>
    intro outs hv
    have hi := hv i List.mem_cons_self
    have his : ∀ j ∈ is, 0 ≤ j.outputIndex → j.outputIndex < outs.length :=
      fun j hj => hv j (List.mem_cons_of_mem _ hj)
    rw [List.flatMap_cons]
    unfold duplicateInputs
    split
    · next hc =>
      simp only
      split
      · next out hout =>
        have h0 : 0 ≤ i.outputIndex := by
          by_cases h : 0 ≤ i.outputIndex
          · exact h
          · rw [if_neg h] at hout; cases hout
        rw [if_pos h0] at hout
        have htgt : target outs i.outputIndex = .output out := by
          unfold target; rw [if_pos h0, hout]
        split
        · next hco =>
          obtain ⟨ext, h1, h2, h3⟩ := ih (outs ++ [replaceKey out l.both l.right]) (by
            intro j hj h; have := his j hj h; simp only [List.length_append, List.length_singleton]; omega)
          simp only [List.append_assoc] at h1 h2 h3
          refine ⟨[replaceKey out l.both l.right] ++ ext, h1, ?_, ?_⟩
          · intro j hj h
            rcases List.mem_cons.1 hj with rfl | hj
            · have := hi h
              simp only [List.length_append] at this ⊢; omega
            · rcases List.mem_cons.1 hj with rfl | hj
              · simp only [List.length_append, List.length_singleton]; omega
              · exact h2 j hj h
          · rw [List.map_cons, List.map_cons, h3]
            have e1 : target (outs ++ ([replaceKey out l.both l.right] ++ ext)) i.outputIndex =
              target outs i.outputIndex := target_append hi _
            have e2 : target (outs ++ ([replaceKey out l.both l.right] ++ ext)) (outs.length : Int) =
                .output (replaceKey out l.both l.right) := by
              unfold target
              rw [if_pos (Int.natCast_nonneg _)]
              simp
            simp only [List.cons_append, List.nil_append] at e1 e2 ⊢
            rw [e1, e2, htgt]
            simp only [Target.map]
            have e3 : replaceKey (replaceKey out l.both l.right) l.both l.left = replaceKey out l.both l.right := by
              refine replaceKey_absent ?_
              cases h : containsKey (replaceKey out l.both l.right) l.both with
              | false => rfl
              | true =>
                obtain ⟨e, he, hk⟩ := (containsKey_iff _ _).1 h
                rcases replaceKey_mem he with ⟨-, h⟩ | ⟨d, -, -, rfl⟩
                · exact absurd hk h
                · exact absurd hk hl.2
            rw [e3]
            congr 2
            refine flatMap_congr' (fun j hj => ?_)
            have := target_append (his j hj) [replaceKey out l.both l.right]
            rw [this]
        · next hco =>
          obtain ⟨ext, h1, h2, h3⟩ := ih outs his
          refine ⟨ext, h1, ?_, ?_⟩
          · intro j hj h
            rcases List.mem_cons.1 hj with rfl | hj
            · have := hi h
              simp only [List.length_append] at this ⊢; omega
            · rcases List.mem_cons.1 hj with rfl | hj
              · have := hi h
                simp only [List.length_append] at this ⊢; omega
              · exact h2 j hj h
          · have hco : containsKey out l.both = false := by simpa using hco
            rw [List.map_cons, List.map_cons, h3]
            simp only [List.cons_append, List.nil_append]
            rw [target_append hi, htgt]
            simp only [Target.map]
            rw [replaceKey_absent hco, replaceKey_absent hco]
      · next hnone =>
        obtain ⟨ext, h1, h2, h3⟩ := ih outs his
        have hneg : ¬ 0 ≤ i.outputIndex := by
          intro h
          rw [if_pos h] at hnone
          have := hi h
          rw [List.getElem?_eq_none_iff] at hnone
          omega
        have htgt : ∀ o : List KeySequence, target o i.outputIndex = .command i.outputIndex := by
          intro o; unfold target; rw [if_neg hneg]
        refine ⟨ext, h1, ?_, ?_⟩
        · intro j hj h
          rcases List.mem_cons.1 hj with rfl | hj
          · exact absurd h hneg
          · rcases List.mem_cons.1 hj with rfl | hj
            · exact absurd h hneg
            · exact h2 j hj h
        · rw [List.map_cons, List.map_cons, h3]
          simp only [List.cons_append, List.nil_append]
          rw [htgt, htgt]
          rfl
    · next hc =>
      obtain ⟨ext, h1, h2, h3⟩ := ih outs his
      refine ⟨ext, h1, ?_, ?_⟩
      · intro j hj h
        rcases List.mem_cons.1 hj with rfl | hj
        · have := hi h
          simp only [List.length_append] at this ⊢; omega
        · exact h2 j hj h
      · rw [List.map_cons, h3, target_append hi]
        rfl

theorem standFor_absent {l : LogicalKey} {s : KeySequence} (h : ¬Demands s l.both) (hl : Distinct l) (k : Key) :
    standFor l k s = replaceNotKey s l.both l.left l.right := by
  rw [← standFor_eq hl]
  refine replaceKey_absent ?_
  cases hc : containsKey (replaceNotKey s l.both l.left l.right) l.both with
  | false => rfl
  | true => exact absurd ((contains_replaceNot hl s).1 hc) h

/-- The mappings after a pass -/
theorem replaceInContext_mappings {l : LogicalKey} (hl : Distinct l) {c : CContext} (hc : OutputsExist c) :
    (replaceInContext l c).mappings = c.mappings.flatMap (expand l) ∧ OutputsExist (replaceInContext l c) := by
  obtain ⟨ext, h1, h2, h3⟩ := duplicateInputs_mappings hl
    (c.inputs.map (fun i => { i with input := replaceNotKey i.input l.both l.left l.right }))
    (c.outputs.map (fun o => replaceNotKey o l.both l.left l.right)) (by
      intro i hi h
      obtain ⟨j, hj, rfl⟩ := List.mem_map.1 hi
      rw [List.length_map]
      exact hc j hj h)
  have ho : (replaceInContext l c).outputs = (duplicateInputs l
      (c.inputs.map (fun i => { i with input := replaceNotKey i.input l.both l.left l.right }))
      (c.outputs.map (fun o => replaceNotKey o l.both l.left l.right))).2.map
        (fun o => replaceKey o l.both l.left) := rfl
  have hin : (replaceInContext l c).inputs = (duplicateInputs l
      (c.inputs.map (fun i => { i with input := replaceNotKey i.input l.both l.left l.right }))
      (c.outputs.map (fun o => replaceNotKey o l.both l.left l.right))).1 := rfl
  constructor
  · unfold CContext.mappings
    rw [ho, hin, h1]
    simp only [target_map] at h3 ⊢
    rw [h3]
    simp only [List.flatMap_map]
    refine flatMap_congr' (fun i hi => ?_)
    unfold expand
    by_cases hd : Demands i.input l.both
    · rw [if_pos hd, if_pos ((contains_replaceNot hl _).2 hd)]
      unfold chooseOne
      rw [standFor_eq hl, standFor_eq hl]
      simp only [hd, and_true, Bool.false_eq_true, if_false, if_true]
      cases target c.outputs i.outputIndex with
      | output o => simp only [Target.map, Target.standFor, standFor_eq hl]
      | command j => rfl
      | missing => rfl
    · have hno : containsKey (replaceNotKey i.input l.both l.left l.right) l.both = false := by
        cases hc : containsKey (replaceNotKey i.input l.both l.left l.right) l.both with
        | false => rfl
        | true => exact absurd ((contains_replaceNot hl _).1 hc) hd
      rw [if_neg hd, if_neg (by simp [hno])]
      unfold chooseOne
      simp only [hd, and_false, if_false]
      rw [standFor_absent hd hl]
      cases target c.outputs i.outputIndex with
      | output o => simp only [Target.map, Target.standFor, standFor_eq hl]
      | command j => rfl
      | missing => rfl
  · intro i hi h
    rw [hin] at hi
    rw [ho, h1, List.length_map]
    exact h2 i hi h

/-! ## All passes -/

theorem replaceLogicalKey_append (a b : List CContext) (l : LogicalKey) :
    replaceLogicalKey (a ++ b) l = replaceLogicalKey a l ++ replaceLogicalKey b l := by
  simp [replaceLogicalKey_eq]

theorem replaceAll_append (ls : List LogicalKey) : ∀ a b : List CContext,
    ls.foldl replaceLogicalKey (a ++ b) = ls.foldl replaceLogicalKey a ++ ls.foldl replaceLogicalKey b := by
  induction ls with
  | nil => intro a b; rfl
  | cons l ls ih => intro a b; rw [List.foldl_cons, replaceLogicalKey_append, ih]; rfl

/-- Each context is replaced on its own -/
theorem replaceAll_flatMap (ls : List LogicalKey) (cs : List CContext) :
    ls.foldl replaceLogicalKey cs = cs.flatMap (fun c => ls.foldl replaceLogicalKey [c]) := by
  induction cs with
  | nil =>
    induction ls with
    | nil => rfl
    | cons l ls ih => rw [List.foldl_cons]; exact ih
  | cons c cs ih =>
    have : c :: cs = [c] ++ cs := rfl
    rw [this, replaceAll_append, ih]; rfl

/-- What does not change for the contexts which replace another one -/
structure SameFilters (c d : CContext) : Prop where
  windowClass : d.windowClass = c.windowClass
  windowTitle : d.windowTitle = c.windowTitle
  windowPath : d.windowPath = c.windowPath
  device : d.deviceFilter = c.deviceFilter
  deviceId : d.deviceIdFilter = c.deviceIdFilter
  invert : d.invertModifierFilter = c.invertModifierFilter
  beginStage : d.beginStage = c.beginStage
  system : d.systemFilterMatched = c.systemFilterMatched

theorem SameFilters.trans {a b c : CContext} (h1 : SameFilters a b) (h2 : SameFilters b c) : SameFilters a c :=
  ⟨h2.1.trans h1.1, h2.2.trans h1.2, h2.3.trans h1.3, h2.4.trans h1.4, h2.5.trans h1.5, h2.6.trans h1.6,
    h2.7.trans h1.7, h2.8.trans h1.8⟩

/-- A context without mappings which falls through -/
structure EmptyFall (c : CContext) : Prop where
  fallthrough : c.fallthrough = true
  inputs : c.inputs = []
  outputs : c.outputs = []
  commandOutputs : c.commandOutputs = []

theorem emptyFall_replaceIn (l : LogicalKey) {c : CContext} (h : EmptyFall c) : EmptyFall (replaceInContext l c) := by
  unfold replaceInContext
  simp only
  rw [h.inputs, h.outputs, h.commandOutputs]
  exact ⟨h.fallthrough, rfl, rfl, rfl⟩

theorem emptyFall_pass (l : LogicalKey) {c : CContext} (h : EmptyFall c) :
    ∀ d ∈ replaceLogicalKey [c] l, EmptyFall d ∧ SameFilters c d := by
  rw [replaceLogicalKey_eq]
  simp only [List.flatMap_cons, List.flatMap_nil, List.append_nil]
  have h1 := emptyFall_replaceIn l h
  unfold splitModifier
  split
  · intro d hd
    simp only [List.mem_cons, List.not_mem_nil, or_false] at hd
    rcases hd with rfl | rfl
    · exact ⟨⟨rfl, rfl, rfl, rfl⟩, ⟨rfl, rfl, rfl, rfl, rfl, rfl, rfl, rfl⟩⟩
    · exact ⟨⟨h1.fallthrough, h1.inputs, h1.outputs, h1.commandOutputs⟩, ⟨rfl, rfl, rfl, rfl, rfl, rfl, rfl, rfl⟩⟩
  · intro d hd
    rw [List.mem_singleton.1 hd]
    exact ⟨h1, ⟨rfl, rfl, rfl, rfl, rfl, rfl, rfl, rfl⟩⟩

theorem emptyFall_all (ls : List LogicalKey) : ∀ cs : List CContext, (∀ c ∈ cs, EmptyFall c) →
    ∀ d ∈ ls.foldl replaceLogicalKey cs, EmptyFall d := by
  intro cs h
  refine foldl_inv (P := fun cs : List CContext => ∀ c ∈ cs, EmptyFall c) ls ?_ cs h
  intro cs l _ h d hd
  rw [replaceLogicalKey_eq] at hd
  obtain ⟨c, hc, hd⟩ := List.mem_flatMap.1 hd
  refine (emptyFall_pass l (h c hc) d ?_).1
  rw [replaceLogicalKey_eq]
  simpa using hd

theorem sameFilters_pass (l : LogicalKey) (c : CContext) : ∀ d ∈ replaceLogicalKey [c] l, SameFilters c d := by
  rw [replaceLogicalKey_eq]
  simp only [List.flatMap_cons, List.flatMap_nil, List.append_nil]
  unfold splitModifier
  split
  · intro d hd
    simp only [List.mem_cons, List.not_mem_nil, or_false] at hd
    rcases hd with rfl | rfl
    · exact ⟨rfl, rfl, rfl, rfl, rfl, rfl, rfl, rfl⟩
    · exact ⟨rfl, rfl, rfl, rfl, rfl, rfl, rfl, rfl⟩
  · intro d hd
    rw [List.mem_singleton.1 hd]
    exact ⟨rfl, rfl, rfl, rfl, rfl, rfl, rfl, rfl⟩

theorem sameFilters_all (ls : List LogicalKey) (c : CContext) : ∀ d ∈ ls.foldl replaceLogicalKey [c], SameFilters c d := by
  refine foldl_inv (P := fun cs : List CContext => ∀ d ∈ cs, SameFilters c d) ls ?_ [c] ?_
  · intro cs l _ h d hd
    rw [replaceLogicalKey_eq] at hd
    obtain ⟨b, hb, hd⟩ := List.mem_flatMap.1 hd
    refine (h b hb).trans (sameFilters_pass l b d ?_)
    rw [replaceLogicalKey_eq]
    simpa using hd
  · intro d hd
    rw [List.mem_singleton.1 hd]
    exact ⟨rfl, rfl, rfl, rfl, rfl, rfl, rfl, rfl⟩

/-- the last context of the ones which replace a context -/
theorem replaceOne_last (l : LogicalKey) (c : CContext) :
    ∃ init last, replaceLogicalKey [c] l = init ++ [last] ∧ (∀ d ∈ init, EmptyFall d) ∧
      last.fallthrough = c.fallthrough ∧ last.inputs = (replaceInContext l c).inputs ∧
      last.outputs = (replaceInContext l c).outputs ∧
      last.commandOutputs = (replaceInContext l c).commandOutputs := by
  rw [replaceLogicalKey_eq]
  simp only [List.flatMap_cons, List.flatMap_nil, List.append_nil]
  unfold splitModifier
  split
  · refine ⟨[_], _, rfl, ?_, rfl, rfl, rfl, rfl⟩
    intro d hd
    rw [List.mem_singleton.1 hd]
    exact ⟨rfl, rfl, rfl, rfl⟩
  · exact ⟨[], _, rfl, by simp, rfl, rfl, rfl, rfl⟩

theorem expandAll (ls : List LogicalKey) (hd : ∀ l ∈ ls, Distinct l) (hn : ls.Nodup) : ∀ c : CContext, OutputsExist c →
    ∃ init last, ls.foldl replaceLogicalKey [c] = init ++ [last] ∧ (∀ d ∈ init, EmptyFall d) ∧
      last.fallthrough = c.fallthrough ∧ OutputsExist last ∧
      last.commandOutputs.map (·.index) = c.commandOutputs.map (·.index) ∧
      ∀ m', m' ∈ last.mappings ↔ ∃ m ∈ c.mappings, ∃ right, m' = choose right ls m := by
  induction ls with
  | nil =>
    intro c hc
    refine ⟨[], c, rfl, by simp, rfl, hc, rfl, fun m' => ?_⟩
    constructor
    · exact fun h => ⟨m', h, fun _ => false, rfl⟩
    · rintro ⟨m, hm, -, rfl⟩; exact hm
  | cons l ls ih =>
    intro c hc
    have hn' := List.nodup_cons.1 hn
    obtain ⟨init, last, h1, h2, h3, h4, h5, h6⟩ := replaceOne_last l c
    obtain ⟨hm, hv⟩ := replaceInContext_mappings (hd l List.mem_cons_self) hc
    have hlast : OutputsExist last := by
      intro i hi h
      rw [h5]
      exact hv i (h4 ▸ hi) h
    have hmap : last.mappings = (replaceInContext l c).mappings := by
      unfold CContext.mappings; rw [h4, h5]
    obtain ⟨init', last', g1, g2, g3, g4, g5, g6⟩ := ih (fun d h => hd d (List.mem_cons_of_mem _ h)) hn'.2 last hlast
    refine ⟨ls.foldl replaceLogicalKey init ++ init', last', ?_, ?_, g3.trans h3, g4, ?_, ?_⟩
    · rw [List.foldl_cons, h1, replaceAll_append, g1, List.append_assoc]
    · intro d hd
      rcases List.mem_append.1 hd with hd | hd
      · exact emptyFall_all ls init h2 d hd
      · exact g2 d hd
    · rw [g5, h6]
      show List.map _ (List.map _ (List.map _ _)) = _
      rw [List.map_map, List.map_map]
      rfl
    · intro m'
      rw [g6 m', hmap, hm]
      constructor
      · rintro ⟨m1, hm1, right, rfl⟩
        obtain ⟨m, hm, he⟩ := List.mem_flatMap.1 hm1
        obtain ⟨b, rfl⟩ := mem_expand.1 he
        refine ⟨m, hm, fun x => if x = l then b else right x, ?_⟩
        unfold choose
        rw [List.foldl_cons]
        simp only [if_true]
        refine foldl_congr' _ (fun a x hx => ?_)
        have hxl : ¬x = l := fun h => hn'.1 (h ▸ hx)
        simp only [hxl, if_false]
      · rintro ⟨m, hm, right, rfl⟩
        exact ⟨chooseOne l (right l) m, List.mem_flatMap.2 ⟨m, hm, mem_expand.2 ⟨_, rfl⟩⟩, right, rfl⟩

end KM
