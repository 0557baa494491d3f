import Verif.Lemmas.ConfigPasses
import Verif.Lemmas.Logical
/-!
# Commands of parsed configurations have outputs
-/
namespace KM

/-- one of the contexts maps the command -/
def HasCommand (cs : List CContext) (i : Int) : Prop := ∃ c ∈ cs, i ∈ c.commandOutputs.map (·.index)

/-- The invariant of the parser -/
structure CommandInv (s : CState) : Prop where
  fall : ∀ c ∈ s.cfg.contexts, c.fallthrough = true → c.inputs = [] ∧ c.commandOutputs = []
  after : s.afterEmpty = true → ∀ c, s.cfg.contexts.getLast? = some c → c.inputs = [] ∧ c.commandOutputs = []
  mapped : ∀ d ∈ s.commands, d.mapped = true → HasCommand s.cfg.contexts d.index
  last : ∀ c, s.cfg.contexts.getLast? = some c → c.fallthrough = false

theorem modCurrent_contexts {s : CState} {c : CContext} (hc : s.cfg.contexts.getLast? = some c)
    (f : CContext → CContext) : (s.modCurrent f).cfg.contexts = s.cfg.contexts.dropLast ++ [f c] := by
  unfold CState.modCurrent
  rw [hc]

theorem modCurrent_none {s : CState} (hc : s.cfg.contexts.getLast? = none) (f : CContext → CContext) :
    s.modCurrent f = s := by
  unfold CState.modCurrent
  rw [hc]

theorem HasCommand.modCurrent {s : CState} {f : CContext → CContext} {i : Int}
    (hf : ∀ c, i ∈ c.commandOutputs.map (·.index) → i ∈ (f c).commandOutputs.map (·.index))
    (h : HasCommand s.cfg.contexts i) : HasCommand (s.modCurrent f).cfg.contexts i := by
  cases hl : s.cfg.contexts.getLast? with
  | none => rw [modCurrent_none hl]; exact h
  | some c =>
    rw [modCurrent_contexts hl]
    obtain ⟨d, hd, hi⟩ := h
    obtain ⟨init, hs⟩ := List.getLast?_eq_some_iff.1 hl
    rw [hs] at hd ⊢
    rw [List.dropLast_concat]
    rcases List.mem_append.1 hd with hd | hd
    · exact ⟨d, List.mem_append_left _ hd, hi⟩
    · rw [List.mem_singleton.1 hd] at hi
      exact ⟨f c, by simp, hf c hi⟩

theorem CommandInv.mod {s : CState} (h : CommandInv s) (ha : s.afterEmpty = false) {f : CContext → CContext}
    (hf : ∀ c, (f c).fallthrough = c.fallthrough)
    (hc : ∀ c i, i ∈ c.commandOutputs.map (·.index) → i ∈ (f c).commandOutputs.map (·.index)) :
    CommandInv (s.modCurrent f) := by
  have hafter : (s.modCurrent f).afterEmpty = false := by rw [modCurrent_after]; exact ha
  cases hl : s.cfg.contexts.getLast? with
  | none => rw [modCurrent_none hl]; exact h
  | some c =>
    refine ⟨?_, fun h' => (by rw [hafter] at h'; cases h'), ?_, ?_⟩
    · rw [modCurrent_contexts hl]
      intro d hd hfall
      rcases List.mem_append.1 hd with hd | hd
      · exact h.fall d ((List.dropLast_sublist _).subset hd) hfall
      · rw [List.mem_singleton.1 hd, hf c, h.last c hl] at hfall
        cases hfall
    · intro d hd hm
      rw [(modCurrent_fields _ _).2.1] at hd
      exact (h.mapped d hd hm).modCurrent (fun c => hc c d.index)
    · rw [modCurrent_contexts hl]
      intro d hd
      rw [List.getLast?_concat] at hd
      injection hd with hd
      rw [← hd, hf c]
      exact h.last c hl

theorem mem_modFirst {α : Type} {p : α → Bool} {f : α → α} {l : List α} {a : α} (h : a ∈ modFirst p f l) :
    a ∈ l ∨ ∃ b, l.find? p = some b ∧ a = f b := by
  induction l with
  | nil => cases h
  | cons b l ih =>
    unfold modFirst at h
    split at h
    · next hp =>
      rcases List.mem_cons.1 h with rfl | h
      · exact .inr ⟨b, by simp [hp], rfl⟩
      · exact .inl (List.mem_cons_of_mem _ h)
    · next hp =>
      rcases List.mem_cons.1 h with rfl | h
      · exact .inl List.mem_cons_self
      · rcases ih h with h | ⟨c, hc, rfl⟩
        · exact .inl (List.mem_cons_of_mem _ h)
        · exact .inr ⟨c, by simp [hp, hc], rfl⟩

theorem CommandInv.step {env : CEnv} {s t : CState} (hs : CStep env s t) (h : CommandInv s) : CommandInv t := by
  cases hs with
  | mapping s1 tin tout input output he hin hout =>
    obtain ⟨acts, -, rfl, -⟩ := parseOutput_state hout
    have h1 : CommandInv { s with cfg := { s.cfg with actions := s.cfg.actions ++ acts } } :=
      ⟨h.fall, h.after, h.mapped, h.last⟩
    exact h1.mod he (fun _ => rfl) (fun _ _ hi => hi)
  | command tin input name he hin hn hk =>
    unfold CState.addCommand
    split
    · exact h.mod he (fun _ => rfl) (fun _ _ hi => hi)
    · have h1 : CommandInv { s with commands := s.commands ++ [⟨name, -((s.commands.length : Int) + 1), false⟩] } := by
        refine ⟨h.fall, h.after, ?_, h.last⟩
        intro d hd hm
        rcases List.mem_append.1 hd with hd | hd
        · exact h.mapped d hd hm
        · rw [List.mem_singleton.1 hd] at hm; cases hm
      exact h1.mod he (fun _ => rfl) (fun _ _ hi => hi)
  | commandMapping s1 _ tout name output he hout hm =>
    obtain ⟨acts, -, rfl, -⟩ := parseOutput_state hout
    obtain ⟨command, ctx, hf, hctx, -, rfl⟩ := addCommandMapping_state hm
    have h1 : CommandInv { s with cfg := { s.cfg with actions := s.cfg.actions ++ acts } } :=
      ⟨h.fall, h.after, h.mapped, h.last⟩
    have h2 := h1.mod he (f := fun c => { c with commandOutputs := c.commandOutputs ++ [⟨output, command.index⟩] })
      (fun _ => rfl) (fun c i hi => by rw [List.map_append]; exact List.mem_append_left _ hi)
    refine ⟨h2.fall, h2.after, ?_, h2.last⟩
    intro d hd hdm
    rcases mem_modFirst hd with hd | ⟨b, hb, rfl⟩
    · refine h2.mapped d ?_ hdm
      rw [(modCurrent_fields _ _).2.1]
      exact hd
    · have : b = command := by
        have := hb.symm.trans hf
        injection this
      subst this
      refine ⟨{ ctx with commandOutputs := ctx.commandOutputs ++ [⟨output, b.index⟩] }, ?_, by simp⟩
      rw [modCurrent_contexts hctx]
      simp
  | unmapped _ tout output hu hout =>
    obtain ⟨acts, -, rfl, -⟩ := parseOutput_state hout
    exact ⟨h.fall, h.after, h.mapped, h.last⟩
  | context c hc =>
    refine ⟨?_, ?_, ?_, ?_⟩
    · intro d hd hfall
      have hd : d ∈ s.pushContext c := hd
      rcases pushContext_cases s c with h1 | ⟨-, ha, a, p, h1, h2⟩
      · rw [h1] at hd
        rcases List.mem_append.1 hd with hd | hd
        · exact h.fall d hd hfall
        · rw [List.mem_singleton.1 hd]; exact ⟨hc.inputs, hc.commandOutputs⟩
      · rw [h2] at hd
        rcases List.mem_append.1 hd with hd | hd
        · exact h.fall d (by rw [h1]; exact List.mem_append_left _ hd) hfall
        · rcases List.mem_cons.1 hd with rfl | hd
          · exact h.after ha p (by rw [h1]; simp)
          · rw [List.mem_singleton.1 hd]; exact ⟨hc.inputs, hc.commandOutputs⟩
    · intro _ d hd
      have hd : (s.pushContext c).getLast? = some d := hd
      rcases pushContext_cases s c with h1 | ⟨-, ha, a, p, h1, h2⟩
      · rw [h1, List.getLast?_concat] at hd
        injection hd with hd
        rw [← hd]; exact ⟨hc.inputs, hc.commandOutputs⟩
      · rw [h2] at hd
        have : c = d := by simpa using hd
        rw [← this]; exact ⟨hc.inputs, hc.commandOutputs⟩
    · intro d hd hm
      obtain ⟨x, hx, hi⟩ := h.mapped d hd hm
      show HasCommand (s.pushContext c) d.index
      rcases pushContext_cases s c with h1 | ⟨-, ha, a, p, h1, h2⟩
      · rw [h1]; exact ⟨x, List.mem_append_left _ hx, hi⟩
      · rw [h2]
        rw [h1] at hx
        rcases List.mem_append.1 hx with hx | hx
        · exact ⟨x, List.mem_append_left _ hx, hi⟩
        · rw [List.mem_singleton.1 hx] at hi
          exact ⟨{ p with fallthrough := true }, by simp, hi⟩
    · intro d hd
      have hd : (s.pushContext c).getLast? = some d := hd
      rcases pushContext_cases s c with h1 | ⟨-, ha, a, p, h1, h2⟩
      · rw [h1, List.getLast?_concat] at hd
        injection hd with hd
        rw [← hd]; exact hc.fallthrough
      · rw [h2] at hd
        have : c = d := by simpa using hd
        rw [← this]; exact hc.fallthrough
  | logical name left right h1 h2 => exact ⟨h.fall, h.after, h.mapped, h.last⟩
  | other _ hs =>
    refine ⟨?_, ?_, ?_, ?_⟩
    · rw [hs.contexts]; exact h.fall
    · rw [hs.contexts]; exact fun ha => h.after (hs.after ha)
    · rw [hs.contexts, hs.commands]; exact h.mapped
    · rw [hs.contexts]; exact h.last

theorem CommandInv.init : CommandInv CState.init := by
  have : CState.init.cfg.contexts = [{ beginStage := true, systemFilterMatched := true }] := rfl
  refine ⟨?_, (by intro h; cases h), (by intro d hd; cases hd), ?_⟩
  · intro c hc
    rw [this] at hc
    rw [List.mem_singleton.1 hc]; intro h; cases h
  · intro c hc
    rw [this] at hc
    injection hc with hc
    rw [← hc]
    rfl

/-! ## The passes -/

theorem optimizeGo_keeps (l : List CContext) : ∀ (before : Bool) (acc : List CContext),
    (∀ c ∈ l, c.systemFilterMatched = true) → ∀ c : CContext,
    (c ∈ l ∧ c.fallthrough = false ∧ c.commandOutputs ≠ []) ∨ c ∈ acc → c ∈ optimizeGo before l acc := by
  induction h : l.length using Nat.strongRecOn generalizing l with
  | ind n ih =>
    intro before acc hl x hx
    subst h
    unfold optimizeGo
    split
    · rcases hx with ⟨hx, -⟩ | hx
      · cases hx
      · exact hx
    · next c rest =>
      have hrest : ∀ d ∈ rest, d.systemFilterMatched = true := fun d hd => hl d (List.mem_cons_of_mem _ hd)
      have skip : x ≠ c → (x ∈ rest ∧ x.fallthrough = false ∧ x.commandOutputs ≠ []) ∨ x ∈ acc := by
        intro hne
        rcases hx with ⟨hx, h2⟩ | hx
        · rcases List.mem_cons.1 hx with rfl | hx
          · exact absurd rfl hne
          · exact .inl ⟨hx, h2⟩
        · exact .inr hx
      have keep : (x ∈ rest ∧ x.fallthrough = false ∧ x.commandOutputs ≠ []) ∨ x ∈ c :: acc := by
        by_cases hne : x = c
        · exact .inr (by rw [hne]; simp)
        · rcases skip hne with h | h
          · exact .inl h
          · exact .inr (List.mem_cons_of_mem _ h)
      split
      · next hf =>
        split
        · by_cases hne : x = c
          · rcases hx with ⟨-, h2, -⟩ | hx
            · rw [hne, hf] at h2; cases h2
            · exact ih _ (by simp) _ rfl _ _ hrest _ (.inr hx)
          · exact ih _ (by simp) _ rfl _ _ hrest _ (skip hne)
        · exact ih _ (by simp) _ rfl _ _ hrest _ keep
      · next hf =>
        simp only
        split
        · next hno =>
          rw [hl c List.mem_cons_self] at hno
          simp only [Bool.not_true, Bool.false_or, Bool.and_eq_true, List.isEmpty_iff] at hno
          have hskip : (x ∈ rest ∧ x.fallthrough = false ∧ x.commandOutputs ≠ []) ∨ x ∈ acc := by
            by_cases hne : x = c
            · rcases hx with ⟨-, -, h2⟩ | hx
              · rw [hne] at h2; exact absurd hno.1.2 h2
              · exact .inr hx
            · exact skip hne
          split
          · next p ps =>
            split
            · next hpf =>
              refine ih _ (by simp) _ rfl _ _ ?_ _ ?_
              · intro d hd
                rcases List.mem_cons.1 hd with rfl | hd
                · exact hrest p List.mem_cons_self
                · exact hrest d (List.mem_cons_of_mem _ hd)
              · rcases hskip with ⟨h1, h2⟩ | h1
                · rcases List.mem_cons.1 h1 with rfl | h1
                  · rw [hpf] at h2; cases h2.1
                  · exact .inl ⟨List.mem_cons_of_mem _ h1, h2⟩
                · exact .inr h1
            · exact ih _ (by simp) _ rfl _ _ hrest _ hskip
          · exact ih _ (by simp) _ rfl _ _ (by intro d hd; cases hd) _ (by
              rcases hskip with ⟨h1, h2⟩ | h1
              · cases h1
              · exact .inr h1)
        · exact ih _ (by simp) _ rfl _ _ hrest _ keep

theorem optimizeContexts_keeps {cs : List CContext} (hs : ∀ c ∈ cs, c.systemFilterMatched = true) {c : CContext}
    (hc : c ∈ cs) (hf : c.fallthrough = false) (ho : c.commandOutputs ≠ []) : c ∈ optimizeContexts cs := by
  have := optimizeGo_keeps cs.reverse false [] (fun c hc => hs c (List.mem_reverse.1 hc)) c
    (.inl ⟨List.mem_reverse.2 hc, hf, ho⟩)
  unfold optimizeContexts
  simp only
  rw [if_neg]
  · exact this
  · intro h
    rw [List.isEmpty_iff.1 h] at this
    cases this

theorem prependForward_mem (ms : List Key) {cs : List CContext} {c : CContext} (h : c ∈ cs) :
    ∃ d ∈ prependForward ms cs, d.commandOutputs = c.commandOutputs ∧ d.fallthrough = c.fallthrough := by
  unfold prependForward
  refine ⟨_, List.mem_map.2 ⟨c, h, rfl⟩, ?_⟩
  split
  · constructor
    · refine foldl_keep CContext.commandOutputs (fun _ _ => ?_) _ _
      rfl
    · refine foldl_keep CContext.fallthrough (fun _ _ => ?_) _ _
      rfl
  · exact ⟨rfl, rfl⟩

theorem HasCommand.replaceAll (ls : List LogicalKey) : ∀ {cs : List CContext} {i : Int}, HasCommand cs i →
    HasCommand (ls.foldl replaceLogicalKey cs) i := by
  intro cs i h
  refine foldl_inv (P := fun cs => HasCommand cs i) ls ?_ cs h
  intro cs l _ ⟨c, hc, hi⟩
  obtain ⟨init, last, h1, -, -, -, -, h6⟩ := replaceOne_last l c
  refine ⟨last, ?_, ?_⟩
  · rw [replaceLogicalKey_eq]
    refine List.mem_flatMap.2 ⟨c, hc, ?_⟩
    rw [replaceLogicalKey_eq] at h1
    simp only [List.flatMap_cons, List.flatMap_nil, List.append_nil] at h1
    rw [h1]; simp
  · rw [h6]
    show i ∈ List.map _ (List.map _ (List.map _ _))
    rw [List.map_map, List.map_map]
    exact hi

theorem suppressForwarded_commands (ms : List Key) (cs : List CContext) :
    (suppressForwarded ms cs).map (fun c => c.commandOutputs.map (·.index)) =
      cs.map (fun c => c.commandOutputs.map (·.index)) := by
  unfold suppressForwarded
  refine foldl_keep (List.map (fun c : CContext => c.commandOutputs.map (·.index))) (fun cs ci => ?_) _ _
  refine foldl_keep (List.map (fun c : CContext => c.commandOutputs.map (·.index))) (fun cs k => ?_) _ _
  split
  · refine foldl_keep (List.map (fun c : CContext => c.commandOutputs.map (·.index))) (fun cs i => ?_) _ _
    unfold suppressInput
    split
    · split
      · refine map_modify_same _ (fun c => ?_) cs ci
        rfl
      · rw [List.map_map]
        refine List.map_congr_left (fun c _ => ?_)
        simp only [Function.comp, List.map_map]
        refine List.map_congr_left (fun o _ => ?_)
        simp only [Function.comp]
        split <;> rfl
    · rfl
  · rfl

theorem hasCommand_iff (cs : List CContext) (i : Int) :
    HasCommand cs i ↔ ∃ l ∈ cs.map (fun c => c.commandOutputs.map (·.index)), i ∈ l := by
  unfold HasCommand
  constructor
  · rintro ⟨c, hc, hi⟩; exact ⟨_, List.mem_map.2 ⟨c, hc, rfl⟩, hi⟩
  · rintro ⟨l, hl, hi⟩
    obtain ⟨c, hc, rfl⟩ := List.mem_map.1 hl
    exact ⟨c, hc, hi⟩

theorem finishContexts_commands {env : CEnv} {s : CState} (h : CSteps env CState.init s)
    (hs : ∀ c ∈ s.cfg.contexts, c.systemFilterMatched = true) : ∀ d ∈ s.commands, d.mapped = true →
      HasCommand s.finishContexts d.index := by
  intro d hd hm
  have hinv := h.inv (P := CommandInv) (fun _ _ hst h => h.step hst) CommandInv.init
  obtain ⟨c, hc, hi⟩ := hinv.mapped d hd hm
  have hne : c.commandOutputs ≠ [] := by
    intro h; rw [h] at hi; cases hi
  have hf : c.fallthrough = false := by
    cases hf : c.fallthrough with
    | false => rfl
    | true => exact absurd (hinv.fall c hc hf).2 hne
  obtain ⟨c', hc', h1, h2⟩ := prependForward_mem s.forwardModifiers hc
  have hs' : ∀ c ∈ prependForward s.forwardModifiers s.cfg.contexts, c.systemFilterMatched = true := by
    intro c hc
    have : c.systemFilterMatched ∈ (prependForward s.forwardModifiers s.cfg.contexts).map CContext.systemFilterMatched :=
      List.mem_map.2 ⟨c, hc, rfl⟩
    rw [prependForward_map CContext.systemFilterMatched (fun _ _ _ _ => rfl)] at this
    obtain ⟨x, hx, he⟩ := List.mem_map.1 this
    rw [← he]; exact hs x hx
  have hopt := optimizeContexts_keeps hs' hc' (h2.trans hf) (h1 ▸ hne)
  have hall : HasCommand (s.logical.reverse.foldl replaceLogicalKey (optimizeContexts (prependForward
      s.forwardModifiers s.cfg.contexts))) d.index := HasCommand.replaceAll _ ⟨c', hopt, h1 ▸ hi⟩
  unfold CState.finishContexts
  simp only
  split
  · exact hall
  · rw [hasCommand_iff, suppressForwarded_commands, ← hasCommand_iff]
    exact hall

end KM
