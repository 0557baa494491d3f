import Verif.Lemmas.DocExpand
/-!
# Forwarded modifiers in the contexts of a configuration
-/
namespace KM

/-- a mapping of the modifier to itself is added -/
def addForward (c : CContext) (k : Key) : CContext := { c with
  inputs := ⟨[⟨k, .Down, 0⟩, ⟨k, .UpAsync, 0⟩], c.outputs.length⟩ :: c.inputs
  outputs := c.outputs ++ [[⟨k, .Down, 0⟩]] }

theorem addForward_all (commands : List Str) (ks : List Key) : ∀ (c : CContext) (ms : List (KeySequence × Aim)),
    resolved commands c.outputs c.inputs = ms.map (fun m => (m.1, some m.2)) →
    ({ ks.foldl addForward c with inputs := [], outputs := [] } : CContext) = { c with inputs := [], outputs := [] } ∧
    resolved commands (ks.foldl addForward c).outputs (ks.foldl addForward c).inputs =
      (ks.reverse.map (fun k => (([⟨k, .Down, 0⟩, ⟨k, .UpAsync, 0⟩] : KeySequence), Aim.keys [⟨k, .Down, 0⟩])) ++ ms).map (fun m => (m.1, some m.2)) := by
  induction ks with
  | nil => intro c ms h; exact ⟨rfl, h⟩
  | cons k ks ih =>
    intro c ms h
    rw [List.foldl_cons]
    obtain ⟨h1, h2⟩ := ih (addForward c k) (([⟨k, .Down, 0⟩, ⟨k, .UpAsync, 0⟩], .keys [⟨k, .Down, 0⟩]) :: ms) (by
      unfold addForward
      rw [resolved, List.map_cons, List.map_cons]
      simp only []
      rw [aimOf_index]
      congr 1
      rw [← h]
      unfold resolved
      apply List.map_congr_left
      intro j hj
      have hmem : (j.input, aimOf commands c.outputs j.outputIndex) ∈ ms.map (fun m => (m.1, some m.2)) := by
        rw [← h]; exact List.mem_map_of_mem hj
      obtain ⟨m, _, hm⟩ := List.mem_map.1 hmem
      injection hm with _ hm
      rw [aimOf_append hm.symm, hm])
    refine ⟨h1, ?_⟩
    rw [h2]
    simp

theorem Block.forward_same {commands : List Str} {b : Block} (h : ∀ m ∈ b.mappings, ∀ name, m.2 = .command name → name ∈ commands) (ks : List Key) :
    SameMeaning commands (if (b.context commands).beginStage then ks.reverse.foldl addForward (b.context commands) else b.context commands)
      ((b.forward ks).context commands) := by
  rw [show (b.context commands).beginStage = b.stage from rfl]
  unfold Block.forward
  by_cases hs : b.stage = true
  · rw [if_pos hs, if_pos hs]
    obtain ⟨h1, h2⟩ := addForward_all commands ks.reverse (b.context commands) b.mappings (numberInputs_resolved commands b.mappings h [])
    refine ⟨h1, ?_⟩
    rw [h2, List.reverse_reverse]
    refine (numberInputs_resolved commands _ ?_ []).symm
    intro m hm name hn
    rcases List.mem_append.1 hm with hm | hm
    · obtain ⟨k, _, rfl⟩ := List.mem_map.1 hm
      cases hn
    · exact h m hm name hn
  · rw [if_neg hs, if_neg hs]
    exact SameMeaning.refl _ _

theorem prependForward_same {d : Doc} (hok : d.Ok) : List.Forall₂ (SameMeaning d.commands) (prependForward d.forward d.contexts)
    ((d.blocks ++ [d.current]).map (fun b => (b.forward d.forward).context d.commands)) := by
  unfold prependForward Doc.contexts
  rw [List.map_map]
  have : ∀ bs : List Block, (∀ b ∈ bs, b ∈ d.blocks ++ [d.current]) →
      List.Forall₂ (SameMeaning d.commands)
        (bs.map ((fun c : CContext => if c.beginStage then d.forward.reverse.foldl addForward c else c) ∘ (Block.context d.commands)))
        (bs.map (fun b => (b.forward d.forward).context d.commands)) := by
    intro bs hbs
    induction bs with
    | nil => exact .nil
    | cons b bs ih =>
      exact .cons (Block.forward_same (hok.used b (hbs b (by simp))) d.forward) (ih (fun x hx => hbs x (by simp [hx])))
  exact this _ (fun b hb => hb)

theorem Block.forward_fields (ks : List Key) (b : Block) : (b.forward ks).stage = b.stage ∧ (b.forward ks).attrs = b.attrs ∧
    (b.forward ks).fallsThrough = b.fallsThrough ∧ (b.forward ks).commandOutputs = b.commandOutputs := by
  unfold Block.forward
  split
  · exact ⟨rfl, rfl, rfl, rfl⟩
  · exact ⟨rfl, rfl, rfl, rfl⟩

/-- the document in which stages begin with the forwarded modifiers -/
def Doc.withForward (d : Doc) : Doc :=
  { d with blocks := d.blocks.map (Block.forward d.forward), current := d.current.forward d.forward }

theorem Doc.withForward_blocks (d : Doc) : d.withForward.blocks ++ [d.withForward.current] = (d.blocks ++ [d.current]).map (Block.forward d.forward) := by
  simp [Doc.withForward]

theorem StageAlone.map {f : Block → Block} (hs : ∀ b, (f b).stage = b.stage) (hf : ∀ b, (f b).fallsThrough = b.fallsThrough) {bs : List Block}
    (h : StageAlone bs) : StageAlone (bs.map f) := by
  induction bs with
  | nil => exact trivial
  | cons b bs ih =>
    obtain ⟨h1, h2⟩ := h
    refine ⟨?_, ih h2⟩
    intro hb c hc
    rw [hf] at hb
    rw [List.head?_map, Option.map_eq_some_iff] at hc
    obtain ⟨x, hx, rfl⟩ := hc
    rw [hs]
    exact h1 hb x hx

theorem Doc.Shape.withForward {d : Doc} (h : d.Shape) : d.withForward.Shape := by
  have hs := fun b => (Block.forward_fields d.forward b).1
  have ha := fun b => (Block.forward_fields d.forward b).2.1
  have hf := fun b => (Block.forward_fields d.forward b).2.2.1
  refine ⟨?_, ?_, ?_, ?_, ?_, ?_⟩
  · intro b hb hst
    rw [Doc.withForward_blocks] at hb
    obtain ⟨x, hx, rfl⟩ := List.mem_map.1 hb
    rw [hs] at hst
    rw [ha]
    exact h.attrs x hx hst
  · intro b hb hst
    rw [Doc.withForward_blocks] at hb
    obtain ⟨x, hx, rfl⟩ := List.mem_map.1 hb
    rw [hf] at hst
    rw [hs]
    exact h.falls x hx hst
  · intro b hb
    rw [Doc.withForward_blocks, List.head?_map, Option.map_eq_some_iff] at hb
    obtain ⟨x, hx, rfl⟩ := hb
    rw [hf]
    exact h.first x hx
  · rw [Doc.withForward_blocks]
    exact h.alone.map hs hf
  · intro ho
    have := h.opened ho
    refine ⟨(hs d.current).trans this.1, ?_⟩
    show d.blocks.map _ ≠ []
    intro hn
    exact this.2 (List.map_eq_nil_iff.1 hn)
  · exact (hf d.current).trans h.last

theorem remainingBlocks_mem (bs : List Block) : ∀ (first : Bool) (hs : List Block), ∀ b ∈ remainingBlocks first hs bs,
    ∀ m ∈ b.mappings, ∃ x ∈ hs ++ bs, m ∈ x.mappings := by
  induction bs with
  | nil => intro first hs b hb; cases hb
  | cons a bs ih =>
    intro first hs b hb m hm
    rw [remainingBlocks] at hb
    split at hb
    · obtain ⟨x, hx, hxm⟩ := ih first (hs ++ [a]) b hb m hm
      exact ⟨x, by simpa using hx, hxm⟩
    · rcases List.mem_append.1 hb with hb | hb
      · unfold groupBlocks at hb
        split at hb
        · cases hb
        · split at hb
          · cases hb
          · rcases List.mem_append.1 hb with hb | hb
            · have := List.mem_filter.1 ((List.dropLast_sublist _).subset hb)
              refine ⟨b, ?_, hm⟩
              have := this.1
              simp only [List.mem_append, List.mem_singleton] at this
              rcases this with h | h
              · simp [h]
              · simp [h]
            · rw [List.mem_singleton.1 hb] at hm
              exact ⟨a, by simp, hm⟩
      · obtain ⟨x, hx, hxm⟩ := ih false [] b hb m hm
        exact ⟨x, by simp at hx; simp [hx], hxm⟩

/-- the contexts before forwarded modifiers are suppressed -/
theorem finish_means {d : Doc} (hok : d.Ok) (hd : d.Shape) :
    List.Forall₂ (Means d.commands) (d.logical.reverse.foldl replaceLogicalKey (optimizeContexts (prependForward d.forward d.contexts))) d.groups := by
  unfold Doc.groups
  refine means_replaceAll ?_ ?_
  · intro l hl
    obtain ⟨i, hi⟩ := List.getElem?_of_mem (List.mem_reverse.1 hl)
    exact Nat.ne_of_lt ((hok.keys.2 i l hi).2.2)
  · have h1 := optimizeContexts_same (prependForward_same hok)
    have h2 : (d.blocks ++ [d.current]).map (fun b => (b.forward d.forward).context d.commands) = d.withForward.contexts := by
      unfold Doc.contexts
      rw [Doc.withForward_blocks, List.map_map]
      rfl
    rw [h2, optimizeContexts_doc hd.withForward, Doc.result, Doc.withForward_blocks] at h1
    have hb := remainingBlocks_mem ((d.blocks ++ [d.current]).map (Block.forward d.forward)) true []
    cases hr : remainingBlocks true [] ((d.blocks ++ [d.current]).map (Block.forward d.forward)) with
    | nil =>
      rw [hr] at h1
      generalize optimizeContexts (prependForward d.forward d.contexts) = cs at h1
      cases h1 with
      | cons a b =>
        cases b
        exact .cons (a.means ⟨rfl, rfl, rfl⟩) .nil
    | cons x xs =>
      rw [hr] at h1 hb
      simp only [] at h1 ⊢
      have hm : ∀ b ∈ x :: xs, Means d.commands (b.context d.commands) b.group := by
        intro b hbm
        refine Block.means ?_
        intro m hm name hn
        obtain ⟨y, hy, hym⟩ := hb b hbm m hm
        rw [List.nil_append] at hy
        obtain ⟨z, hz, rfl⟩ := List.mem_map.1 hy
        unfold Block.forward at hym
        split at hym
        · rcases List.mem_append.1 hym with hym | hym
          · obtain ⟨k, _, rfl⟩ := List.mem_map.1 hym
            cases hn
          · exact hok.used z hz m hym name hn
        · exact hok.used z hz m hym name hn
      revert h1 hm
      generalize optimizeContexts (prependForward d.forward d.contexts) = cs
      generalize x :: xs = bs
      intro h1 hm
      rw [show d.withForward.commands = d.commands from rfl] at h1
      clear hr hb
      induction bs generalizing cs with
      | nil => cases h1; exact .nil
      | cons b bs ih =>
        cases h1 with
        | cons a r => exact .cons (a.means (hm b (by simp))) (ih _ r (fun y hy => hm y (by simp [hy])))

end KM
