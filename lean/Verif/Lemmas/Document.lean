import Verif.Lemmas.DocContext
/-!
# Reading the lines of a configuration
-/
namespace KM

/-! ### contexts -/

theorem foldl_apply (as : List Attr) : ∀ (c : CContext) (m : Bool), as.foldl Attr.apply { c with systemFilterMatched := m } =
    { as.foldl Attr.set c with systemFilterMatched := as.foldl Attr.systemOr m } := by
  induction as with
  | nil => intro c m; rfl
  | cons a as ih =>
    intro c m
    simp only [List.foldl_cons]
    rw [← ih]
    congr 1
    cases a with
    | filter kind => cases kind <;> rfl
    | system => rfl
    | modifier => rfl

theorem foldl_set (as : List Attr) : ∀ c : CContext, (as.foldl Attr.set c).inputs = c.inputs ∧ (as.foldl Attr.set c).outputs = c.outputs ∧
    (as.foldl Attr.set c).commandOutputs = c.commandOutputs ∧ (as.foldl Attr.set c).fallthrough = c.fallthrough ∧
    (as.foldl Attr.set c).beginStage = c.beginStage := by
  induction as with
  | nil => intro c; exact ⟨rfl, rfl, rfl, rfl, rfl⟩
  | cons a as ih =>
    intro c
    rw [List.foldl_cons]
    obtain ⟨h1, h2, h3, h4, h5⟩ := ih (a.set c)
    rw [h1, h2, h3, h4, h5]
    cases a with
    | filter kind => cases kind <;> exact ⟨rfl, rfl, rfl, rfl, rfl⟩
    | system => exact ⟨rfl, rfl, rfl, rfl, rfl⟩
    | modifier => exact ⟨rfl, rfl, rfl, rfl, rfl⟩

/-- a new context -/
theorem block_new (commands : List Str) (as : List Attr) :
    ({ attrs := as } : Block).context commands = as.foldl Attr.apply { systemFilterMatched := true } := by
  have h := foldl_apply as {} true
  obtain ⟨h1, h2, h3, h4, h5⟩ := foldl_set as {}
  rw [show ({ systemFilterMatched := true } : CContext) = { ({} : CContext) with systemFilterMatched := true } from rfl, h]
  unfold Block.context Block.matchesSystem
  simp only [numberInputs, outputsOf, List.filterMap_nil, List.map_nil]
  congr 1
  · rw [h1]
  · rw [h2]
  · rw [h3]
  · rw [h4]
  · rw [h5]

theorem block_new_system (as : List Attr) : (as.foldl Attr.apply { systemFilterMatched := true }).systemFilterMatched =
    ({ attrs := as } : Block).matchesSystem := by
  rw [← block_new []]
  rfl

theorem block_new_stage (as : List Attr) : (as.foldl Attr.apply { systemFilterMatched := true }).beginStage = false := by
  rw [← block_new []]
  rfl

theorem setPrevFallthrough_two (cs : List CContext) (p l : CContext) :
    setPrevFallthrough (cs ++ [p] ++ [l]) = cs ++ [{ p with fallthrough := true }] ++ [l] := by
  unfold setPrevFallthrough
  simp

/-- the begin of a context -/
theorem context_step {env : CEnv} {s : CState} {d : Doc} (hs : DocRel s d) (hok : d.Ok) {attrs : List Attr} {it rest : Str}
    (hh : s.parseContextHead env it = some (attrs.foldl Attr.apply { systemFilterMatched := true }, rest)) (hr : Spaces rest) :
    ∃ s', s.parseContextLine env it = some s' ∧ DocRel s' (d.step env.typer (.context attrs)) := by
  rw [CState.parseContextLine, CState.parseContext, hh]
  simp only [skipSpace_spaces_nil hr, List.isEmpty_nil, if_true, List.getLast?_concat, block_new_stage, Bool.false_eq_true, if_false]
  refine ⟨_, rfl, ?_⟩
  rw [hs.contexts, d.contexts_eq]
  have hc : ({ d.current with fallsThrough := d.justOpened } : Block).context d.commands =
      { d.current.context d.commands with fallthrough := d.justOpened } := rfl
  cases hj : d.justOpened with
  | false =>
    rw [hs.after, hj]
    simp only [Bool.false_eq_true, if_false]
    refine ⟨?_, hs.actions, hs.commands, hs.macros, hs.logical, rfl, block_new_system attrs, hs.done, hs.lower, hs.unmapped, hs.forward, hs.other⟩
    rw [Doc.contexts_eq]
    simp only [Doc.step, List.map_append, List.map_cons, List.map_nil, block_new, hj]
    have : ({ d.current with fallsThrough := false } : Block) = d.current := by
      have := hok.open'
      cases hcur : d.current
      rw [hcur] at this
      simp only at this
      rw [this]
    rw [this]
  | true =>
    rw [hs.after, hj]
    simp only [if_true]
    refine ⟨?_, hs.actions, hs.commands, hs.macros, hs.logical, rfl, block_new_system attrs, hs.done, hs.lower, hs.unmapped, hs.forward, hs.other⟩
    rw [Doc.contexts_eq]
    simp only [Doc.step, List.map_append, List.map_cons, List.map_nil, block_new, hj]
    rw [setPrevFallthrough_two]
    rfl

/-- the begin of a stage -/
theorem stage_step {env : CEnv} {s : CState} {d : Doc} (hs : DocRel s d) {it rest : Str}
    (hh : s.parseContextHead env it = some ({ systemFilterMatched := true, beginStage := true }, rest)) (hr : Spaces rest) :
    ∃ s', s.parseContextLine env it = some s' ∧ DocRel s' (d.step env.typer .stage) := by
  rw [CState.parseContextLine, CState.parseContext, hh]
  simp only [skipSpace_spaces_nil hr, List.isEmpty_nil, if_true, List.getLast?_concat]
  refine ⟨_, rfl, ?_⟩
  refine ⟨?_, hs.actions, hs.commands, hs.macros, hs.logical, rfl, rfl, hs.done, hs.lower, hs.unmapped, hs.forward, hs.other⟩
  rw [Doc.contexts_eq, hs.contexts, d.contexts_eq]
  simp only [Doc.step, List.map_append, List.map_cons, List.map_nil]
  rfl

theorem skipContextEnd_text {sp r : Str} (h : Spaces sp) : skipContextEnd (sp ++ ']' :: r) = some r := by
  rw [skipContextEnd, skipSpace_spaces h, skipSpace_cons (by decide) (by decide)]
  rfl

/-! ### statements -/

theorem InText.first {getKey : Str → Key} {e : InExpr} {t : Str} (h : InText getKey e t) : NotBefore (fun c => c == '@' || c == '[') t := by
  have sp0 : ∀ {sp x : Str}, Spaces sp → NotBefore (fun c => c == '@' || c == '[') x → NotBefore (fun c => c == '@' || c == '[') (sp ++ x) := by
    intro sp x hs hx
    cases sp with
    | nil => exact hx
    | cons c sp =>
      refine .cons ?_
      have := hs c (by simp)
      simp only [Bool.or_eq_false_iff, beq_eq_false_iff_ne]
      constructor <;> (intro e; rw [e] at this; revert this; decide)
  have word : ∀ {n x : Str}, n ≠ [] → (∀ c ∈ n, isIdentChar c = true) → NotBefore (fun c => c == '@' || c == '[') (n ++ x) := by
    intro n x hne hn
    obtain ⟨c, n, rfl⟩ := List.exists_cons_of_ne_nil hne
    refine .cons ?_
    have := hn c (by simp)
    simp only [Bool.or_eq_false_iff, beq_eq_false_iff_ne]
    constructor <;> (intro e; rw [e] at this; revert this; decide)
  have keys : ∀ {c t x}, KeysText getKey c t → NotBefore (fun c => c == '@' || c == '[') (t ++ x) := by
    intro c t x h
    cases h with
    | one hn => exact word hn.nonempty hn.chars
    | together => exact .cons (by decide)
  cases h with
  | nil hs => have := sp0 hs (x := []) .nil; rwa [List.append_nil] at this
  | keys hs hc => rw [List.append_assoc]; exact sp0 hs (keys hc)
  | hold hs hc => simp only [List.append_assoc]; exact sp0 hs (keys hc)
  | not hs => simp only [List.append_assoc, List.cons_append]; exact sp0 hs (.cons (by decide))
  | timeout hs hne hd => simp only [List.append_assoc]; exact sp0 hs (word hne (fun c hc => isDigitC_ident (hd c hc)))
  | notTimeout hs => simp only [List.append_assoc, List.cons_append]; exact sp0 hs (.cons (by decide))
  | type hs hq =>
    simp only [List.append_assoc, List.cons_append]
    refine sp0 hs (.cons ?_)
    rcases hq with rfl | rfl <;> decide

theorem InTextFlag.first {getKey : Str → Key} {flag : Bool} {e : InExpr} {t : Str} (h : InTextFlag getKey flag e t) :
    NotBefore (fun c => c == '@' || c == '[') t := by
  cases h with
  | plain h => exact h.first
  | @flag sp _ t hs h =>
    cases sp with
    | nil => exact .cons (by decide)
    | cons c sp =>
      refine .cons ?_
      have := hs c (by simp)
      simp only [Bool.or_eq_false_iff, beq_eq_false_iff_ne]
      constructor <;> (intro e; rw [e] at this; revert this; decide)

theorem QuotesMatch.drop {stop : Char → Bool} {t : Str} (h : QuotesMatch stop t) : QuotesMatch stop (t.dropWhile isSpaceC) := by
  induction h with
  | nil => exact .nil
  | @char c t hc ht ih =>
    rw [List.dropWhile_cons]
    split
    · exact ih
    · exact .char hc ht
  | @string u t hs ht hn ih =>
    obtain ⟨q, v, hq, -, rfl⟩ := id hs
    rw [List.cons_append, List.cons_append, List.dropWhile_cons_of_neg]
    · exact .string hs ht hn
    · rcases isQuote_cases hq with rfl | rfl <;> decide

/-- a line with one mapping -/
theorem parseMappings_line {env : CEnv} {s s' : CState} {b : Str} (hl : OneLine b) (hb : Firm b) (h : s.parseMapping env b = some s') :
    s.parseMappings env b = some s' := by
  obtain ⟨c, y, e, -⟩ := hb
  have hscan : skipUntilNotInString ['\n'] b = some (false, []) := by
    have := scan_quotes hl [] .nil
    rw [List.append_nil] at this
    rw [this, scan_nil]
  have ht : textBefore b [] = b := by
    have := textBefore_append b []
    rwa [List.append_nil] at this
  rw [CState.parseMappings.eq_def]
  subst e
  simp only [hscan, ht, h]
  rw [if_pos (by simp), CState.parseMappings.eq_def]

/-- lines which are neither directives nor contexts -/
theorem parseStatement_mapping {env : CEnv} {incl : CState → Str → Option CState} {s s' : CState} {line r b : Str} (hp : s.pre line = some r)
    (hr : skipSpace r = b) (h0 : NotBefore (fun c => c == '@' || c == '[') b)
    (hm : ({ s with afterEmpty := false } : CState).parseMappings env b = some s') : s.parseStatement env incl line = some s' := by
  rw [CState.parseStatement, hp]
  simp only []
  rw [hr]
  split
  · next heq => exact absurd (h0 '@' rfl) (by decide)
  · next heq => exact absurd (h0 '[' rfl) (by decide)
  · exact hm

theorem Firm.skipSpace_append {sp x : Str} (h : Firm x) (hs : Spaces sp) : skipSpace (sp ++ x) = x := by
  obtain ⟨c, y, rfl, h1, h2⟩ := h
  rw [skipSpace_spaces hs, skipSpace_cons h1 h2]

theorem Firm.append {x : Str} (h : Firm x) (y : Str) : Firm (x ++ y) := by
  obtain ⟨c, z, rfl, h1, h2⟩ := h
  exact ⟨c, z ++ y, rfl, h1, h2⟩

theorem DocRel.closed {s : CState} {d : Doc} (h : DocRel s d) : DocRel { s with afterEmpty := false } { d with justOpened := false } :=
  ⟨h.contexts, h.actions, h.commands, h.macros, h.logical, rfl, h.system, h.done, h.lower, h.unmapped, h.forward, h.other⟩

theorem Doc.Ok.closed {d : Doc} (h : d.Ok) : ({ d with justOpened := false } : Doc).Ok := ⟨h.nodup, h.used, h.outputs, h.mapped, h.open', h.keys⟩

theorem trim_append {t x : Str} (hf : Firm (t.dropWhile isSpaceC)) : skipSpace (t ++ x) = t.dropWhile isSpaceC ++ x ∧
    (t ++ x).dropWhile isSpaceC = t.dropWhile isSpaceC ++ x := by
  have e : t ++ x = t.takeWhile isSpaceC ++ (t.dropWhile isSpaceC ++ x) := by rw [← List.append_assoc, List.takeWhile_append_dropWhile]
  have hs : Spaces (t.takeWhile isSpaceC) := fun c hc => mem_takeWhile_of hc
  have h1 := (hf.append x).skipSpace_append hs
  have h2 := (hf.append x).drop hs
  rw [← e] at h1 h2
  exact ⟨h1, h2⟩

/-- **A mapping** -/
theorem mapping_step {env : CEnv} {s : CState} {d : Doc} (hs : DocRel s d) (hok : d.Ok) (hj : d.justOpened = false) {st : Stmt} {t : Str}
    (h : d.Mapping env st t) : Firm (t.dropWhile isSpaceC) ∧ skipSpace t = t.dropWhile isSpaceC ∧
      NotBefore (fun c => c == '@' || c == '[') (t.dropWhile isSpaceC) ∧
      ∃ s', s.parseMapping env (t.dropWhile isSpaceC) = some s' ∧ DocRel s' (d.step env.typer st) := by
  have word : ∀ {t name : Str}, SingleWord t name → Firm (t.dropWhile isSpaceC) ∧
      NotBefore (fun c => c == '@' || c == '[') (t.dropWhile isSpaceC) := by
    intro t name ht
    obtain ⟨sp, sp', a1, a2, a3, rfl⟩ := ht
    have hf : Firm (name ++ sp') := Firm.name a2.1 a2.2
    rw [List.append_assoc, hf.drop a1]
    refine ⟨hf, ?_⟩
    obtain ⟨c, n, rfl⟩ := List.exists_cons_of_ne_nil a2.1
    refine .cons ?_
    have := a2.2 c (by simp)
    simp only [Bool.or_eq_false_iff, beq_eq_false_iff_ne]
    constructor <;> (intro e; rw [e] at this; revert this; decide)
  cases h with
  | @map flag e o t u hi ho =>
    obtain ⟨hi1, hf⟩ := hi.trim
    obtain ⟨t', h1, h2⟩ := parseMapping_input hs hi1 hf u
    obtain ⟨s', h3, h4⟩ := map_step hs hj h2 ho
    obtain ⟨ha, hb⟩ := trim_append (x := '>' :: '>' :: u) hf
    rw [ha, hb]
    exact ⟨hf.append _, rfl, hi1.text.first.append (.cons (by decide)), s', h1.trans h3, h4⟩
  | @toCommand flag e name t u hi hu hk =>
    obtain ⟨hi1, hf⟩ := hi.trim
    obtain ⟨t', h1, h2⟩ := parseMapping_input hs hi1 hf u
    obtain ⟨s', h3, h4⟩ := toCommand_step hs hok hj h2 hu hk
    obtain ⟨ha, hb⟩ := trim_append (x := '>' :: '>' :: u) hf
    rw [ha, hb]
    exact ⟨hf.append _, rfl, hi1.text.first.append (.cons (by decide)), s', h1.trans h3, h4⟩
  | @command name o t u ht hm hn ho =>
    have h1 := parseMapping_command (env := env) (u := u) hs ht hm
    obtain ⟨s', h3, h4⟩ := command_step hs hok hj hm hn ho
    obtain ⟨hf, hw⟩ := word ht
    obtain ⟨ha, hb⟩ := trim_append (x := '>' :: '>' :: u) hf
    rw [ha, hb]
    exact ⟨hf.append _, rfl, hw.append (.cons (by decide)), s', h1.trans h3, h4⟩
  | @unusedCommand name o t u hal ht hl hm ho =>
    have h1 := parseMapping_unused (env := env) (u := u) hs ht hm hl hal
    obtain ⟨hf, hw⟩ := word ht
    obtain ⟨ha, hb⟩ := trim_append (x := '>' :: '>' :: u) hf
    rw [ha, hb]
    refine ⟨hf.append _, rfl, hw.append (.cons (by decide)), { s with cfg := { s.cfg with actions := d.terminal ++ o.commands } }, h1.trans ?_, ?_⟩
    · rw [parseOutput_text hs ho]; rfl
    · exact ⟨hs.contexts, rfl, hs.commands, hs.macros, hs.logical, hs.after.trans hj, hs.system, hs.done, hs.lower, hs.unmapped, hs.forward, hs.other⟩

theorem Doc.Mapping.opened {env : CEnv} {d : Doc} {st : Stmt} {t : Str} (h : d.Mapping env st t) :
    ({ d with justOpened := false } : Doc).Mapping env st t ∧
      ({ d with justOpened := false } : Doc).step env.typer st = d.step env.typer st ∧ (d.step env.typer st).justOpened = false := by
  cases h with
  | map hi ho => exact ⟨.map hi ho, rfl, rfl⟩
  | toCommand hi hu hk => exact ⟨.toCommand hi hu hk, rfl, rfl⟩
  | command ht hm hn ho => exact ⟨.command ht hm hn ho, rfl, rfl⟩
  | unusedCommand ha ht hl hm ho => exact ⟨.unusedCommand ha ht hl hm ho, rfl, rfl⟩

/-! ### directives -/

theorem notIdent_spaces {sp : Str} (h : Spaces sp) (hne : sp ≠ []) (t : Str) : NotBefore isIdentChar (sp ++ t) := by
  obtain ⟨c, sp, rfl⟩ := List.exists_cons_of_ne_nil hne
  exact .cons (isSpaceC_noIdent (h c (by simp)))

theorem notIdent_spaces_nil {sp : Str} (h : Spaces sp) : NotBefore isIdentChar sp := by
  cases sp with
  | nil => exact .nil
  | cons c sp => exact .cons (isSpaceC_noIdent (h c (by simp)))

/-- reading an optional truth value -/
theorem readOptionalBool_text {b : Bool} {t sp' : Str} (h : BoolText b t) (hs : Spaces sp') :
    readOptionalBool (skipSpace (t ++ sp')) = some (b, if t = [] then [] else sp') := by
  cases h with
  | none => rw [List.nil_append, skipSpace_spaces_nil hs]; rfl
  | true =>
    have hw : Word "true".toList := ⟨by decide, by decide⟩
    rw [skipSpace_name hw.1 hw.2, readOptionalBool, readIdent_word hw (notIdent_spaces_nil hs)]
    rfl
  | false =>
    have hw : Word "false".toList := ⟨by decide, by decide⟩
    rw [skipSpace_name hw.1 hw.2, readOptionalBool, readIdent_word hw (notIdent_spaces_nil hs)]
    rfl

theorem addUnique_new {acc ks : List Key} : (acc ++ ks).Nodup → addUnique acc ks = acc ++ ks := by
  induction ks generalizing acc with
  | nil => intro _; simp [addUnique]
  | cons k ks ih =>
    intro h
    have hk : acc.contains k = false := by
      rw [Bool.eq_false_iff]
      intro hc
      rw [List.nodup_append] at h
      exact h.2.2 k (by simpa using hc) k (by simp) rfl
    have := ih (acc := acc ++ [k]) (by simpa using h)
    unfold addUnique at this ⊢
    rw [List.foldl_cons, hk]
    simp only [Bool.false_eq_true, if_false]
    rw [this]
    simp

theorem ForwardText.first {logical : List LogicalKey} {ks : List Key} {t : Str} (h : ForwardText logical ks t) : t = [] ∨ Firm t := by
  cases h with
  | nil => exact .inl rfl
  | both hw => rw [List.append_assoc]; exact .inr (Firm.name hw.1 hw.2)
  | key hw => rw [List.append_assoc]; exact .inr (Firm.name hw.1 hw.2)

theorem parseForward_text {s : CState} {logical : List LogicalKey} (hl : s.logical = logical) {ks : List Key} {t : Str}
    (h : ForwardText logical ks t) : ∀ acc : List Key, (acc ++ ks).Nodup → s.parseForwardModifiers t acc = some (acc ++ ks) := by
  have step : ∀ (w sp t : Str), Word w → Spaces sp → NotBefore isIdentChar (sp ++ t) → (t = [] ∨ Firm t) → ∀ (acc ks : List Key),
      s.forwardKeys w = some ks →
      s.parseForwardModifiers (w ++ sp ++ t) acc = s.parseForwardModifiers t (addUnique acc ks) := by
    intro w sp t hw hs ha hf acc ks hk
    obtain ⟨c, w', e⟩ := List.exists_cons_of_ne_nil hw.1
    have hrd := readIdent_word hw ha
    rw [← List.append_assoc] at hrd
    have hsk : skipSpace (sp ++ t) = t := by
      rcases hf with rfl | hf
      · rw [List.append_nil, skipSpace_spaces_nil hs]
      · exact hf.skipSpace_append hs
    have hie : w.isEmpty = false := by have := hw.isEmpty; simpa using this
    have hlen : t.length < (w ++ sp ++ t).length := by
      have := List.length_pos_iff.2 hw.1
      simp only [List.length_append]; omega
    obtain ⟨x, hx⟩ : ∃ x, x = w ++ sp ++ t := ⟨_, rfl⟩
    rw [← hx] at hrd hlen ⊢
    rw [CState.parseForwardModifiers.eq_def]
    have hxc : ∃ y, x = c :: y := ⟨w' ++ sp ++ t, by rw [hx, e]; rfl⟩
    obtain ⟨y, rfl⟩ := hxc
    simp only [hrd, hie, Bool.false_eq_true, if_false, hsk]
    rw [hk]
    simp only []
    rw [if_pos hlen]
  induction h with
  | nil => intro acc _; rw [CState.parseForwardModifiers, List.append_nil]
  | @both w l sp ks t hw hf hs ht ha ih =>
    intro acc hd
    rw [step w sp t hw hs ha ht.first acc [l.left, l.right] (by rw [CState.forwardKeys, hl, hf]), addUnique_new, ih]
    · simp
    · simpa using hd
    · rw [show acc ++ l.left :: l.right :: ks = (acc ++ [l.left, l.right]) ++ ks by simp, List.nodup_append] at hd
      exact hd.1
  | @key w sp ks t hw hn hk hs ht ha ih =>
    intro acc hd
    have hf : logical.find? (fun l => l.name == w) = none := by
      rw [List.find?_eq_none]
      intro l hl'
      simpa using hn l hl'
    rw [step w sp t hw hs ha ht.first acc [getKeyByName w] (by rw [CState.forwardKeys, hl, hf, hk]; rfl), addUnique_new, ih]
    · simp
    · simpa using hd
    · rw [show acc ++ getKeyByName w :: ks = (acc ++ [getKeyByName w]) ++ ks by simp, List.nodup_append] at hd
      exact hd.1

/-- the parts between spaces -/
def splitSpaces (it : Str) : List Str :=
  it.foldr (fun c acc => if c == ' ' then [] :: acc else match acc with | p :: ps => (c :: p) :: ps | [] => [[c]]) [[]]

theorem splitSpaces_word {w : Str} (h : ' ' ∉ w) : splitSpaces w = [w] := by
  induction w with
  | nil => rfl
  | cons c w ih =>
    have hc : (c == ' ') = false := by rw [beq_eq_false_iff_ne]; rintro rfl; exact h (by simp)
    have := ih (fun hm => h (by simp [hm]))
    unfold splitSpaces at this ⊢
    rw [List.foldr_cons, this, hc]
    rfl

theorem splitSpaces_cons {w : Str} (h : ' ' ∉ w) (t : Str) : splitSpaces (w ++ ' ' :: t) = w :: splitSpaces t := by
  induction w with
  | nil => rfl
  | cons c w ih =>
    have hc : (c == ' ') = false := by rw [beq_eq_false_iff_ne]; rintro rfl; exact h (by simp)
    have := ih (fun hm => h (by simp [hm]))
    unfold splitSpaces at this ⊢
    rw [List.cons_append, List.foldr_cons, this, hc]
    rfl

theorem splitSpaces_spaced {os : List Str} (hne : os ≠ []) (h : ∀ o ∈ os, ' ' ∉ o) : splitSpaces (spaced os) = os := by
  induction os with
  | nil => exact absurd rfl hne
  | cons o os ih =>
    cases os with
    | nil => exact splitSpaces_word (h o (by simp))
    | cons p ps =>
      rw [spaced, splitSpaces_cons (h o (by simp)), ih (by simp) (fun x hx => h x (by simp [hx]))]
      simp

theorem knownOptions_word : ∀ o ∈ knownOptions, o ≠ [] ∧ ∀ c ∈ o, isIdentChar c = true := by decide

theorem spaced_firm {os : List Str} (h : ∀ o ∈ os, o ∈ knownOptions) : spaced os = [] ∨ Firm (spaced os) := by
  cases os with
  | nil => exact .inl rfl
  | cons o os =>
    obtain ⟨h1, h2⟩ := knownOptions_word o (h o (by simp))
    cases os with
    | nil => right; have := Firm.name (t := []) h1 h2; rwa [List.append_nil] at this
    | cons p ps => exact .inr (Firm.name h1 h2)

theorem splitOptions_text {os : List Str} (h : ∀ o ∈ os, o ∈ knownOptions) : splitOptions (spaced os) = os := by
  have hdef : splitOptions (spaced os) = if (splitSpaces (spaced os)).getLast? == some [] then (splitSpaces (spaced os)).dropLast
      else splitSpaces (spaced os) := rfl
  rw [hdef]
  cases os with
  | nil => rfl
  | cons o os =>
    rw [splitSpaces_spaced (by simp) (fun o ho hm => by
      have := (knownOptions_word o (h o ho)).2 ' ' hm
      revert this; decide)]
    rw [if_neg]
    intro e
    rw [beq_iff_eq] at e
    exact (knownOptions_word [] (h [] (List.mem_of_getLast? e))).1 rfl

section
variable (env : CEnv) (incl : CState → Str → Option CState) (s : CState) (it : Str)
theorem directive_lowercase : s.directive env incl (String.ofList "enforce-lowercase-commands".toList) it =
    (readOptionalBool it).map (fun (b, r) => ({ s with enforceLower := b }, r)) := by
  rw [String.ofList_toList]; rw [CState.directive]; simp only [String.reduceBEq, Bool.false_eq_true, ↓reduceIte]
theorem directive_unmapped : s.directive env incl (String.ofList "allow-unmapped-commands".toList) it =
    (readOptionalBool it).map (fun (b, r) => ({ s with allowUnmapped := b }, r)) := by
  rw [String.ofList_toList]; rw [CState.directive]; simp only [String.reduceBEq, Bool.false_eq_true, ↓reduceIte]
theorem directive_forward : s.directive env incl (String.ofList "forward-modifiers".toList) it =
    (s.parseForwardModifiers it []).map (fun l => ({ s with forwardModifiers := l }, [])) := by
  rw [String.ofList_toList]; rw [CState.directive]; simp only [String.reduceBEq, Bool.false_eq_true, ↓reduceIte]
theorem directive_done : s.directive env incl (String.ofList "done".toList) it = some ({ s with done := true }, it) := by
  rw [String.ofList_toList]; rw [CState.directive]; simp only [String.reduceBEq, Bool.false_eq_true, ↓reduceIte]
theorem directive_options : s.directive env incl (String.ofList "options".toList) it =
    if (splitOptions it).all (fun o => optionNames.contains o) then
      some ({ s with cfg := { s.cfg with options := s.cfg.options ++ splitOptions it } }, [])
    else none := by
  rw [String.ofList_toList]; rw [CState.directive]; simp only [String.reduceBEq, Bool.false_eq_true, ↓reduceIte, Bool.or_self]
theorem directive_include : s.directive env incl (String.ofList "include".toList) it =
    match readString it with
    | none => none
    | some (name, rest) =>
      match env.files name with
      | none => none
      | some content =>
        (incl { s with cfg := { s.cfg with includes := s.cfg.includes ++ [name] } } content).map
          (fun s => (s, rest)) := by
  rw [String.ofList_toList]; rw [CState.directive]; simp only [String.reduceBEq, ↓reduceIte]; rfl
variable {n : Str}
theorem directive_grab {skip byId : Bool} (h : GrabName skip byId n) : s.directive env incl (String.ofList n) it = s.addGrabFilter env it skip byId := by
  cases h <;> (rw [String.ofList_toList]; rw [CState.directive]; simp only [String.reduceBEq, Bool.false_eq_true, ↓reduceIte])
theorem directive_server (h : ServerDirective n) : s.directive env incl (String.ofList n) it = (readOptionalBool it).map (fun (b, r) =>
      (if b then { s with cfg := { s.cfg with serverDirectives := s.cfg.serverDirectives ++ [n] } } else s, r)) := by
  cases h <;> (rw [String.ofList_toList]; rw [CState.directive]; simp only [String.reduceBEq, Bool.false_eq_true, ↓reduceIte, Bool.or_true, Bool.or_false])
end

/-- **A directive** -/
theorem directive_step {env : CEnv} {incl : CState → Str → Option CState} {s : CState} {d : Doc} (hs : DocRel s d) {st : Stmt} {t : Str}
    (hm : d.current.matchesSystem = true) (h : d.Directive env st t) :
    ∃ s', s.parseDirective env incl t = some s' ∧ DocRel s' (d.step env.typer st) := by
  -- the name
  have step : ∀ (n x : Str) (s1 : CState) (rest : Str), Word n → NotBefore isIdentChar x →
      s.directive env incl (String.ofList n) (skipSpace x) = some (s1, rest) → Spaces rest → s.parseDirective env incl (n ++ x) = some s1 := by
    intro n x s1 rest hn hx h1 h2
    rw [CState.parseDirective, hs.system, hm, readIdent_word hn hx]
    simp only [Bool.not_true, Bool.false_eq_true, if_false]
    rw [h1]
    simp only [skipSpace_spaces_nil h2, List.isEmpty_nil, if_true]
  have trueValue : ∀ {sp t sp' : Str} {b : Bool}, Spaces sp → BoolText b t → Spaces sp' →
      readOptionalBool (skipSpace (sp ++ (t ++ sp'))) = some (b, if t = [] then [] else sp') := by
    intro sp t sp' b h1 h2 h3
    rw [skipSpace_spaces h1]
    exact readOptionalBool_text h2 h3
  have restSpaces : ∀ {t sp' : Str}, Spaces sp' → Spaces (if t = [] then [] else sp') := by
    intro t sp' h
    split
    · intro c hc; cases hc
    · exact h
  have before : ∀ {sp t sp' : Str} {b : Bool}, Spaces sp → (t = [] ∨ sp ≠ []) → BoolText b t → Spaces sp' →
      NotBefore isIdentChar (sp ++ (t ++ sp')) := by
    intro sp t sp' b h1 h2 h3 h4
    by_cases hne : sp = []
    · subst hne
      rcases h2 with rfl | h2
      · exact notIdent_spaces_nil h4
      · exact absurd rfl h2
    · exact notIdent_spaces h1 hne _
  cases h with
  | @grab skip byId n sp value regex v sp' hn h1 hv h2 =>
    have hf : Firm v := by
      cases hv with
      | string hq => exact Firm.quote (isQuote_cases hq)
      | regex => exact Firm.char (by decide)
      | regexIgnoreCase => exact Firm.char (by decide)
    have hb : NotBefore isIdentChar (sp ++ (v ++ sp')) := by
      by_cases hne : sp = []
      · subst hne
        cases hv with
        | string hq => rcases isQuote_cases hq with rfl | rfl <;> exact .cons (by decide)
        | regex => exact .cons (by decide)
        | regexIgnoreCase => exact .cons (by decide)
      · exact notIdent_spaces h1 hne _
    have hw : Word n := by cases hn <;> exact ⟨by decide, by decide⟩
    have hi : NotBefore (fun c => c == 'i') sp' := by
      have := spaces_notI h2 (r := []) .nil
      rwa [List.append_nil] at this
    have hr := readFilter_text (s := s) hv skip sp' hi
    refine ⟨{ s with cfg := { s.cfg with grabDeviceFilters := s.cfg.grabDeviceFilters ++ [⟨⟨value, regex, skip⟩, byId⟩] } }, ?_, ?_⟩
    · rw [List.append_assoc, List.append_assoc]
      refine step n _ _ sp' hw hb ?_ h2
      rw [(hf.append sp').skipSpace_append h1]
      rw [directive_grab env incl s _ hn, CState.addGrabFilter, hr]; rfl
    · exact ⟨hs.contexts, hs.actions, hs.commands, hs.macros, hs.logical, hs.after, hs.system, hs.done, hs.lower, hs.unmapped, hs.forward,
        congrArg (· ++ _) hs.other.1, hs.other.2⟩
  | @lowercase b sp t sp' h1 hne hb h2 =>
    refine ⟨{ s with enforceLower := b }, ?_, ?_⟩
    · rw [List.append_assoc, List.append_assoc]
      refine step _ _ _ _ ⟨by decide, by decide⟩ (before h1 hne hb h2) ?_ (restSpaces (t := t) h2)
      rw [directive_lowercase, trueValue h1 hb h2]; rfl
    · exact ⟨hs.contexts, hs.actions, hs.commands, hs.macros, hs.logical, hs.after, hs.system, hs.done, rfl, hs.unmapped, hs.forward, hs.other⟩
  | @unmapped b sp t sp' h1 hne hb h2 =>
    refine ⟨{ s with allowUnmapped := b }, ?_, ?_⟩
    · rw [List.append_assoc, List.append_assoc]
      refine step _ _ _ _ ⟨by decide, by decide⟩ (before h1 hne hb h2) ?_ (restSpaces (t := t) h2)
      rw [directive_unmapped, trueValue h1 hb h2]; rfl
    · exact ⟨hs.contexts, hs.actions, hs.commands, hs.macros, hs.logical, hs.after, hs.system, hs.done, hs.lower, rfl, hs.forward, hs.other⟩
  | @server n b sp t sp' hn h1 hne hb h2 =>
    have hw : Word n := by cases hn <;> exact ⟨by decide, by decide⟩
    refine ⟨if b then { s with cfg := { s.cfg with serverDirectives := s.cfg.serverDirectives ++ [n] } } else s, ?_, ?_⟩
    · rw [List.append_assoc, List.append_assoc]
      refine step n _ _ _ hw (before h1 hne hb h2) ?_ (restSpaces (t := t) h2)
      rw [directive_server env incl s _ hn, trueValue h1 hb h2]; rfl
    · cases b with
      | false => exact ⟨hs.contexts, hs.actions, hs.commands, hs.macros, hs.logical, hs.after, hs.system, hs.done, hs.lower, hs.unmapped, hs.forward, hs.other⟩
      | true =>
        exact ⟨hs.contexts, hs.actions, hs.commands, hs.macros, hs.logical, hs.after, hs.system, hs.done, hs.lower, hs.unmapped, hs.forward,
          hs.other.1, congrArg (· ++ _) hs.other.2.1, hs.other.2.2⟩
  | @forward ks sp t h1 hne hk hd =>
    refine ⟨{ s with forwardModifiers := ks }, ?_, ?_⟩
    · rw [List.append_assoc]
      have hb : NotBefore isIdentChar (sp ++ t) := by
        by_cases h0 : sp = []
        · rcases hne with rfl | h
          · rw [h0]; exact .nil
          · exact absurd h0 h
        · exact notIdent_spaces h1 h0 _
      have hsk : skipSpace (sp ++ t) = t := by
        rcases hk.first with rfl | hf
        · rw [List.append_nil, skipSpace_spaces_nil h1]
        · exact hf.skipSpace_append h1
      refine step _ _ _ [] ⟨by decide, by decide⟩ hb ?_ (by intro c hc; cases hc)
      rw [hsk]
      have := parseForward_text hs.logical hk [] (by simpa using hd)
      rw [directive_forward, this]; rfl
    · exact ⟨hs.contexts, hs.actions, hs.commands, hs.macros, hs.logical, hs.after, hs.system, hs.done, hs.lower, hs.unmapped, rfl, hs.other⟩
  | @options os sp h1 hne ho =>
    refine ⟨{ s with cfg := { s.cfg with options := s.cfg.options ++ os } }, ?_, ?_⟩
    · rw [List.append_assoc]
      have hb : NotBefore isIdentChar (sp ++ spaced os) := by
        by_cases h0 : sp = []
        · rcases hne with rfl | h
          · rw [h0]; exact .nil
          · exact absurd h0 h
        · exact notIdent_spaces h1 h0 _
      have hsk : skipSpace (sp ++ spaced os) = spaced os := by
        rcases spaced_firm ho with h | hf
        · rw [h, List.append_nil, skipSpace_spaces_nil h1]
        · exact hf.skipSpace_append h1
      refine step _ _ _ [] ⟨by decide, by decide⟩ hb ?_ (by intro c hc; cases hc)
      rw [hsk]
      have hall : (splitOptions (spaced os)).all (fun o => optionNames.contains o) = true := by
        rw [splitOptions_text ho, List.all_eq_true]
        intro o h
        have := ho o h
        simpa [optionNames, knownOptions] using this
      rw [directive_options, hall, splitOptions_text ho]
      rfl
    · exact ⟨hs.contexts, hs.actions, hs.commands, hs.macros, hs.logical, hs.after, hs.system, hs.done, hs.lower, hs.unmapped, hs.forward,
        hs.other.1, hs.other.2.1, hs.other.2.2.1, congrArg (· ++ _) hs.other.2.2.2⟩
  | @done sp h1 =>
    refine ⟨{ s with done := true }, ?_, ?_⟩
    · refine step _ _ _ [] ⟨by decide, by decide⟩ (notIdent_spaces_nil h1) ?_ (by intro c hc; cases hc)
      rw [skipSpace_spaces_nil h1]
      rw [directive_done]
    · exact ⟨hs.contexts, hs.actions, hs.commands, hs.macros, hs.logical, hs.after, hs.system, rfl, hs.lower, hs.unmapped, hs.forward, hs.other⟩

/-- **A statement** -/
theorem statement_step {env : CEnv} {incl : CState → Str → Option CState} {s : CState} {d : Doc} (hs : DocRel s d) (hok : d.Ok) {st : Stmt}
    {line r : Str} (hp : s.pre line = some r) (h : d.Statement env st r) :
    ∃ s', s.parseStatement env incl line = some s' ∧ DocRel s' (d.step env.typer st) := by
  cases h with
  | nothing h =>
    refine ⟨{ s with afterEmpty := false }, parseStatement_mapping hp (skipSpace_spaces_nil h) .nil ?_, ?_⟩
    · rw [CState.parseMappings.eq_def]
    · exact hs.closed
  | @comment sp c t h hc =>
    refine ⟨{ s with afterEmpty := false }, parseStatement_mapping (b := []) hp ?_ .nil ?_, ?_⟩
    · rw [skipSpace_spaces h, skipSpace]
      rcases hc with rfl | rfl <;> rfl
    · rw [CState.parseMappings.eq_def]
    · exact hs.closed
  | mapping h hl =>
    obtain ⟨h0, h1, -⟩ := h.opened
    obtain ⟨hf, hsk, hn, s', h2, h3⟩ := mapping_step hs.closed hok.closed rfl h0
    rw [h1] at h3
    exact ⟨s', parseStatement_mapping hp hsk hn (parseMappings_line (QuotesMatch.drop hl) hf h2), h3⟩
  | @directive st sp t h hm hd =>
    obtain ⟨s', h1, h2⟩ := directive_step (incl := incl) hs hm hd
    refine ⟨s', ?_, h2⟩
    rw [CState.parseStatement, hp]
    simp only []
    rw [skipSpace_spaces h, skipSpace_cons (by decide) (by decide)]
    exact h1
  | @ignored sp t h hm =>
    refine ⟨s, ?_, hs⟩
    rw [CState.parseStatement, hp]
    simp only []
    rw [skipSpace_spaces h, skipSpace_cons (by decide) (by decide)]
    simp only [CState.parseDirective, hs.system, hm]
    rfl
  | @default sp0 sp sp' sp1 h0 h1 h2 h3 =>
    have e : skipSpace (sp0 ++ '[' :: sp ++ "default".toList ++ sp' ++ ']' :: sp1) = '[' :: (sp ++ ("default".toList ++ (sp' ++ ']' :: sp1))) := by
      simp only [List.append_assoc, List.cons_append]
      rw [skipSpace_spaces h0, skipSpace_cons (by decide) (by decide)]
    have hd : skipSpace ("default".toList ++ (sp' ++ ']' :: sp1)) = "default".toList ++ (sp' ++ ']' :: sp1) :=
      skipSpace_name (name := "default".toList) (by decide) (by decide)
    have hh : s.parseContextHead env (sp ++ ("default".toList ++ (sp' ++ ']' :: sp1))) =
        some (([] : List Attr).foldl Attr.apply { systemFilterMatched := true }, sp1) := by
      rw [CState.parseContextHead, skipSpace_spaces h1]
      simp only []
      rw [hd]
      rw [show skipStr "default".toList ("default".toList ++ (sp' ++ ']' :: sp1)) = some (sp' ++ ']' :: sp1) from rfl]
      simp only []
      rw [skipContextEnd_text h2]
      rfl
    obtain ⟨s', h4, h5⟩ := context_step hs hok hh h3
    refine ⟨s', ?_, h5⟩
    rw [CState.parseStatement, hp]
    simp only []
    rw [e]
    exact h4
  | @stage sp0 sp sp' sp1 h0 h1 h2 h3 =>
    have e : skipSpace (sp0 ++ '[' :: sp ++ "stage".toList ++ sp' ++ ']' :: sp1) = '[' :: (sp ++ ("stage".toList ++ (sp' ++ ']' :: sp1))) := by
      simp only [List.append_assoc, List.cons_append]
      rw [skipSpace_spaces h0, skipSpace_cons (by decide) (by decide)]
    have hd : skipSpace ("stage".toList ++ (sp' ++ ']' :: sp1)) = "stage".toList ++ (sp' ++ ']' :: sp1) :=
      skipSpace_name (name := "stage".toList) (by decide) (by decide)
    have hh : s.parseContextHead env (sp ++ ("stage".toList ++ (sp' ++ ']' :: sp1))) =
        some ({ systemFilterMatched := true, beginStage := true }, sp1) := by
      rw [CState.parseContextHead, skipSpace_spaces h1]
      simp only []
      rw [hd]
      rw [show skipStr "default".toList ("stage".toList ++ (sp' ++ ']' :: sp1)) = none from rfl]
      rw [show skipStr "stage".toList ("stage".toList ++ (sp' ++ ']' :: sp1)) = some (sp' ++ ']' :: sp1) from rfl]
      simp only []
      rw [skipContextEnd_text h2]
      rfl
    obtain ⟨s', h4, h5⟩ := stage_step hs hh h3
    refine ⟨s', ?_, h5⟩
    rw [CState.parseStatement, hp]
    simp only []
    rw [e]
    exact h4
  | @context attrs t sp0 sp sp1 h0 h1 h3 ha =>
    have e : skipSpace (sp0 ++ '[' :: sp ++ t ++ ']' :: sp1) = '[' :: (sp ++ (t ++ ']' :: sp1)) := by
      simp only [List.append_assoc, List.cons_append]
      rw [skipSpace_spaces h0, skipSpace_cons (by decide) (by decide)]
    have hd : skipSpace (t ++ ']' :: sp1) = t ++ ']' :: sp1 := by
      obtain ⟨c, y, rfl, hc⟩ := ha.firstChar hs
      exact skipSpace_cons (isIdentChar_firm hc).1 (isIdentChar_firm hc).2
    have hskip : skipStr "default".toList (t ++ ']' :: sp1) = none ∧ skipStr "stage".toList (t ++ ']' :: sp1) = none := by
      have key : ∀ {a u}, AttrText env.validRegex (namesWith d.logical) d.macros a u → ∀ x, skipStr "default".toList (u ++ x) = none ∧
          skipStr "stage".toList (u ++ x) = none := by
        intro a u hu x
        obtain ⟨n, a1, a2, a3, a4, rfl, -, hk, -⟩ := hu.parts hs
        simp only [List.append_assoc]
        exact hk _
      cases ha with
      | one ha => rw [List.append_assoc]; exact key ha _
      | comma ha => simp only [List.append_assoc]; exact key ha _
      | space ha => simp only [List.append_assoc]; exact key ha _
    have hh : s.parseContextHead env (sp ++ (t ++ ']' :: sp1)) = some (attrs.foldl Attr.apply { systemFilterMatched := true }, sp1) := by
      rw [CState.parseContextHead, skipSpace_spaces h1]
      simp only []
      rw [hd, hskip.1]
      simp only []
      rw [hskip.2]
      simp only []
      rw [parseAttributes_text hs ha]
    obtain ⟨s', h4, h5⟩ := context_step hs hok hh h3
    refine ⟨s', ?_, h5⟩
    rw [CState.parseStatement, hp]
    simp only []
    rw [e]
    exact h4

end KM
