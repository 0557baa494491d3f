import Verif.Spec.Stages
import Verif.Lemmas.EndToEnd
/-!
# Lemmas: documents which replace keys in stages
-/
namespace KM

/-- a stage which replaces keys -/
def pairBlock (pairs : List (Key × Key)) : Block := { stage := true, mappings := pairMappings pairs }

/-- a document which replaces keys in stages -/
def stagesDoc (before : List (List (Key × Key))) (pairs : List (Key × Key)) : Doc :=
  { blocks := before.map pairBlock, current := pairBlock pairs }

theorem stagesDoc_step (typer : Typer) (before : List (List (Key × Key))) (pairs : List (Key × Key)) (a b : Key) :
    (stagesDoc before pairs).step typer (.map false (.keys false [a] .nil) (.keys [b] .nil)) = stagesDoc before (pairs ++ [(a, b)]) := by
  unfold stagesDoc pairBlock
  rw [Doc.step]
  have h1 : InExpr.meaning typer false (.keys false [a] .nil) = singleKey a := by
    simp [InExpr.meaning, InExpr.events, expectPresses, expectReleases, singleKey]
  have h2 : OutExpr.meaning typer ([] : List Str).length (.keys [b] .nil) = [⟨b, .Down, 0⟩] := by
    simp [OutExpr.meaning, OutExpr.events, OutExpr.beginsWithNot, pressKeys, releaseKeys, joinDelays, appendEvent, isDelayEvent,
      OutExpr.usesModifiers, pressedAtOnce, withoutLastReleases]
  simp only [pairMappings, List.map_append, h1, h2]
  rfl

theorem stagesDoc_stage (typer : Typer) (before : List (List (Key × Key))) (pairs : List (Key × Key)) :
    (stagesDoc before pairs).step typer .stage = stagesDoc (before ++ [pairs]) [] := by
  unfold stagesDoc
  rw [Doc.step]
  simp only [List.map_append]
  rfl

theorem stageLine_line {env : CEnv} {line : Str} (h : StageLine line) (before : List (List (Key × Key))) (pairs : List (Key × Key)) :
    (stagesDoc before pairs).Line env .stage line ∧ ¬ Continued line := by
  cases h with
  | @line sp0 sp sp' sp1 h0 hs hs' h1 =>
    have hsp : ∀ {t : Str} {c : Char}, Spaces t → isSpaceC c = false → c ∉ t := fun ht hc h => by
      have := ht _ h
      rw [hc] at this
      exact absurd this (by decide)
    have hmem : ∀ c ∈ sp ++ "stage".toList ++ sp' ++ ']' :: sp1, isSpaceC c = true ∨ c ∈ "stage]".toList := by
      intro c hc
      simp only [List.mem_append, List.mem_cons] at hc
      rcases hc with ((hc | hc) | hc) | hc | hc
      · exact .inl (hs c hc)
      · exact .inr (by
          have : "stage]".toList = "stage".toList ++ [']'] := by decide +kernel
          rw [this]; exact List.mem_append_left _ hc)
      · exact .inl (hs' c hc)
      · subst hc; exact .inr (by decide +kernel)
      · exact .inl (h1 c hc)
    refine ⟨?_, notContinued_of ?_⟩
    · have hsimple : ∀ c ∈ sp ++ "stage".toList ++ sp' ++ ']' :: sp1, isSimpleChar c = true := by
        intro c hc
        rcases hmem c hc with h | h
        · exact simple_spaces (sp := [c]) (by intro d hd; rw [List.mem_singleton.1 hd]; exact h) c (by simp)
        · have : ∀ c ∈ "stage]".toList, isSimpleChar c = true := by decide +kernel
          exact this c h
      obtain ⟨ts, t1, t2⟩ := simple_tokens ([] : Macros) _ _ (Nat.le_refl _) hsimple (fun a w b _ _ => rfl)
      have e1 : sp0 ++ '[' :: sp ++ "stage".toList ++ sp' ++ ']' :: sp1 = sp0 ++ '[' :: (sp ++ "stage".toList ++ sp' ++ ']' :: sp1) := by
        simp only [List.append_assoc, List.cons_append]
      rw [e1]
      refine .statement (r := '[' :: (sp ++ "stage".toList ++ sp' ++ ']' :: sp1)) (noDefinition_char (hsp h0 (by decide)) (by decide)) ?_ ?_
      · refine .text (ts := .other '[' :: ts) h0 ?_ (.other (by decide) (fun e => absurd e (by decide)) t1) ?_ (.other (t2 _ _))
        · intro c hc
          simp only [List.head?_cons, Option.some.injEq] at hc
          subst hc; decide
        · intro hw
          exact absurd (hw.2 '[' (by simp)) (by decide)
      · have := Doc.Statement.stage (env := env) (d := stagesDoc before pairs) (sp0 := []) (by intro c hc; cases hc) hs hs' h1
        have e2 : [] ++ '[' :: sp ++ "stage".toList ++ sp' ++ ']' :: sp1 = '[' :: (sp ++ "stage".toList ++ sp' ++ ']' :: sp1) := by
          simp only [List.append_assoc, List.cons_append, List.nil_append]
        rw [e2] at this
        exact this
    · have e1 : sp0 ++ '[' :: sp ++ "stage".toList ++ sp' ++ ']' :: sp1 = sp0 ++ '[' :: (sp ++ "stage".toList ++ sp' ++ ']' :: sp1) := by
        simp only [List.append_assoc, List.cons_append]
      rw [e1]
      intro hc
      rcases List.mem_append.1 hc with hc | hc
      · exact hsp h0 (by decide) hc
      · rcases List.mem_cons.1 hc with hc | hc
        · exact absurd hc (by decide)
        · rcases hmem _ hc with h | h
          · exact absurd h (by decide)
          · exact absurd h (by decide +kernel)

theorem replaceLine_stages {env : CEnv} {ps : List (Key × Key)} {line : Str} (h : ReplaceLine ps line) (hn : '\n' ∉ line)
    (hk : ∀ p ∈ ps, Ordinary p.1 ∧ Ordinary p.2) (before : List (List (Key × Key))) (pairs : List (Key × Key)) :
    ∃ st, (stagesDoc before pairs).Line env st line ∧ (stagesDoc before pairs).step env.typer st = stagesDoc before (pairs ++ ps) ∧ ¬ Continued line := by
  cases h with
  | @pair sp n sp1 sp2 m sp3 a b hs hs1 hs2 hs3 hn' hm hl =>
    obtain ⟨h1, h2⟩ := hk (a, b) (by simp)
    refine ⟨_, pair_line hs hs1 hs2 hs3 hn' hm (ordinary_outputable h1) (ordinary_outputable h2) (fun _ w _ _ _ => rfl)
      (by simp [stagesDoc]) hl ?_, stagesDoc_step env.typer before pairs a b, ?_⟩
    · intro h
      apply hn
      simp only [List.mem_append, List.mem_cons] at h ⊢
      rcases h with (h | h) | h
      · exact .inr (.inl (.inr h))
      · exact .inr (.inr (.inr (.inr (.inl (.inl h)))))
      · exact .inr (.inr (.inr (.inr (.inr h))))
    · refine notContinued_of ?_
      have hsp : ∀ {t : Str}, Spaces t → '\\' ∉ t := fun ht h => absurd (ht _ h) (by decide)
      have hid : ∀ {t : Str} {k}, Names keyOf t k → '\\' ∉ t := fun ht h => absurd (ht.chars _ h) (by decide)
      simp only [List.mem_append, List.mem_cons, not_or]
      exact ⟨hsp hs, ⟨hid hn', hsp hs1⟩, by decide, by decide, ⟨hsp hs2, hid hm⟩, hsp hs3⟩
  | blank hs =>
    refine ⟨.nothing, line_blank hs, by rw [List.append_nil]; rfl, notContinued_of ?_⟩
    exact fun h => absurd (hs _ h) (by decide)
  | @comment sp c t hs hc hb =>
    refine ⟨.nothing, line_comment hs hc, by rw [List.append_nil]; rfl, notContinued_of ?_⟩
    simp only [List.mem_append, List.mem_cons, not_or]
    exact ⟨fun h => absurd (hs _ h) (by decide), by rcases hc with rfl | rfl <;> decide, hb⟩

theorem replaceLines_stages {env : CEnv} {ps : List (Key × Key)} {lines : List Str} (h : ReplaceLines ps lines)
    (hk : ∀ p ∈ ps, Ordinary p.1 ∧ Ordinary p.2) (before : List (List (Key × Key))) {rest : List Str} {d : Doc} : ∀ pairs,
    Doc.Lines env 10 (stagesDoc before (pairs ++ ps)) rest d → Doc.Lines env 10 (stagesDoc before pairs) (lines ++ rest) d := by
  induction h with
  | nil => intro pairs hr; rw [List.append_nil] at hr; exact hr
  | @cons p line ps lines hl hn hr ih =>
    intro pairs hd
    obtain ⟨st, h1, h2, h3⟩ := replaceLine_stages (env := env) hl hn (fun p hp => hk p (List.mem_append_left _ hp)) before pairs
    refine Doc.Lines.cons (parts := [line]) h1 (.last h3 hn) ?_
    rw [h2]
    refine ih (fun p hp => hk p (List.mem_append_right _ hp)) _ ?_
    rw [List.append_assoc]
    exact hd

/-- the document of the lines -/
theorem sectionLines_doc {env : CEnv} {pss : List (List (Key × Key))} {lines : List Str} (h : SectionLines pss lines)
    (hk : ∀ ps ∈ pss, ∀ p ∈ ps, Ordinary p.1 ∧ Ordinary p.2) : ∀ before : List (List (Key × Key)),
    ∃ bs last, Doc.Lines env 10 (stagesDoc before []) lines (stagesDoc bs last) ∧ bs ++ [last] = before ++ pss := by
  induction h with
  | @last ps lines h =>
    intro before
    refine ⟨before, ps, ?_, rfl⟩
    have := replaceLines_stages (env := env) h (hk ps (List.mem_singleton.2 rfl)) before (rest := []) (d := stagesDoc before ps) [] .nil
    rw [List.append_nil] at this
    exact this
  | @cons ps lines line pss rest h hs hn hr ih =>
    intro before
    obtain ⟨bs, last, h1, h2⟩ := ih (fun q hq => hk q (List.mem_cons_of_mem _ hq)) (before ++ [ps])
    refine ⟨bs, last, ?_, by rw [h2, List.append_assoc]; rfl⟩
    obtain ⟨l1, l2⟩ := stageLine_line (env := env) hs before ps
    refine replaceLines_stages h (hk ps (List.mem_cons_self ..)) before [] ?_
    refine Doc.Lines.cons (parts := [line]) l1 (.last l2 hn) ?_
    rw [stagesDoc_stage]
    exact h1

theorem pairBlock_system (pairs : List (Key × Key)) : (pairBlock pairs).matchesSystem = true := rfl

theorem groupBlocks_pair (pairs : List (Key × Key)) : groupBlocks false [] (pairBlock pairs) = [pairBlock pairs] := by
  unfold groupBlocks
  rw [if_neg (by simp [pairBlock])]
  rfl

theorem groupBlocks_first {pairs : List (Key × Key)} (h : pairs ≠ []) : groupBlocks true [] (pairBlock pairs) = [pairBlock pairs] := by
  unfold groupBlocks
  rw [if_neg (by simp [pairBlock, pairMappings, h])]
  rfl

theorem remaining_pairs (pss : List (List (Key × Key))) : remainingBlocks false [] (pss.map pairBlock) = pss.map pairBlock := by
  induction pss with
  | nil => rfl
  | cons ps pss ih =>
    rw [List.map_cons, remainingBlocks, if_neg (by simp [pairBlock]), ih, groupBlocks_pair]
    rfl

theorem pairBlock_context (pairs : List (Key × Key)) : PairContext pairs (Block.context [] (pairBlock pairs)) := by
  refine ⟨?_, rfl, rfl, rfl⟩
  unfold contextOf Block.context replaceContext
  simp only [pairBlock, numberInputs_pairs, outputsOf_pairs]
  rfl

/-- the stages which remain: the first one does not when it is empty -/
def remainingPairs : List (List (Key × Key)) → List (List (Key × Key))
  | [] :: ps :: pss => ps :: pss
  | pss => pss

/-- the contexts of the document: one for every stage -/
theorem stagesDoc_result {bs : List (List (Key × Key))} {last : List (Key × Key)} {pss : List (List (Key × Key))} (h : bs ++ [last] = pss) :
    ∃ ctxs, (stagesDoc bs last).result = ctxs ∧ ctxs.length = (remainingPairs pss).length ∧
      (∀ i ps ctx, (remainingPairs pss)[i]? = some ps → ctxs[i]? = some ctx → PairContext ps ctx ∧ (0 < i → ctx.beginStage = true)) := by
  refine ⟨_, rfl, ?_⟩
  have hb : (stagesDoc bs last).blocks ++ [(stagesDoc bs last).current] = pss.map pairBlock := by
    rw [← h, List.map_append]; rfl
  have hmap : ∀ qss : List (List (Key × Key)), (∀ i ps ctx, qss[i]? = some ps → ((qss.map pairBlock).map (Block.context []))[i]? = some ctx →
      PairContext ps ctx ∧ (0 < i → ctx.beginStage = true)) := by
    intro qss i ps ctx h1 h2
    rw [List.getElem?_map, List.getElem?_map, h1] at h2
    simp only [Option.map_some, Option.some.injEq] at h2
    subst h2
    exact ⟨pairBlock_context ps, fun _ => rfl⟩
  unfold Doc.result
  rw [hb]
  match pss, h with
  | [], h => simp at h
  | [] :: [], _ =>
    show ([{}] : List CContext).length = 1 ∧ _
    refine ⟨rfl, ?_⟩
    intro i ps ctx h1 h2
    cases i with
    | zero =>
      simp only [remainingPairs, List.getElem?_cons_zero, Option.some.injEq] at h1
      have h2 : some ({} : CContext) = some ctx := h2
      rw [Option.some.injEq] at h2
      subst h1 h2
      exact ⟨⟨rfl, rfl, rfl, rfl⟩, fun h => absurd h (by decide)⟩
    | succ i => simp [remainingPairs] at h1
  | [] :: ps :: qss, _ =>
    have hr : remainingBlocks true [] (([] :: ps :: qss).map pairBlock) = (ps :: qss).map pairBlock := by
      rw [List.map_cons, remainingBlocks, if_neg (by simp [pairBlock]), remaining_pairs]
      rfl
    rw [hr]
    exact ⟨by simp [remainingPairs], hmap (ps :: qss)⟩
  | (p :: ps) :: qss, _ =>
    have hr : remainingBlocks true [] (((p :: ps) :: qss).map pairBlock) = ((p :: ps) :: qss).map pairBlock := by
      rw [List.map_cons, remainingBlocks, if_neg (by simp [pairBlock]), remaining_pairs, groupBlocks_first (by simp)]
      rfl
    rw [hr]
    exact ⟨by simp [remainingPairs], hmap ((p :: ps) :: qss)⟩

end KM
