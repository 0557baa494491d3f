import Verif.Lemmas.MacroExpand
import Verif.Props.Configuration
/-!
# C73: aliases and macros are replaced by their definitions
-/
namespace KM

theorem skipSpace_split (t : Str) : ∃ sp, Spaces sp ∧ (t = sp ++ skipSpace t ∨ skipSpace t = []) := by
  induction t with
  | nil => exact ⟨[], by simp [Spaces], Or.inl rfl⟩
  | cons c t ih =>
    obtain ⟨sp, h, h'⟩ := ih
    rw [skipSpace]
    split
    · next hc =>
      refine ⟨c :: sp, ?_, ?_⟩
      · intro d hd
        rcases List.mem_cons.1 hd with rfl | hd
        · exact hc
        · exact h d hd
      · rcases h' with h' | h'
        · left; rw [List.cons_append, ← h']
        · exact Or.inr h'
    · split
      · exact ⟨[], by simp [Spaces], Or.inr rfl⟩
      · exact ⟨[], by simp [Spaces], Or.inl rfl⟩

theorem parseLine_statement {env : CEnv} {incl : CState → Str → Option CState} {s : CState} {line : Str} (h : ¬ IsDefinition line) :
    s.parseLine env incl line = s.parseStatement env incl line := by
  rw [CState.parseLine]
  simp only [readIdent]
  split
  · next it heq =>
    exfalso
    obtain ⟨sp2, hs2, h2 | h2⟩ := skipSpace_split ((skipSpace line).dropWhile isIdentChar)
    · obtain ⟨sp, hs, h1 | h1⟩ := skipSpace_split line
      · apply h
        refine ⟨sp, (skipSpace line).takeWhile isIdentChar, sp2, it, hs, ?_, hs2, ?_⟩
        · intro c hc
          have key : ∀ l : Str, c ∈ l.takeWhile isIdentChar → isIdentChar c = true := by
            intro l
            induction l with
            | nil => simp
            | cons d l ih =>
              rw [List.takeWhile_cons]
              split
              · next hd => intro hc; rcases List.mem_cons.1 hc with rfl | hc; exact hd; exact ih hc
              · simp
          exact key _ hc
        · rw [← heq, List.append_assoc, ← h2, List.append_assoc, List.takeWhile_append_dropWhile]
          exact h1
      · rw [h1] at heq; simp [skipSpace] at heq
    · rw [h2] at heq; simp at heq
  · rfl

/-- **C73.** A line with aliases and macros means the same as the line in which they are replaced by their definitions: here
`line` is replaced by `r`, in which nothing more is to be replaced. -/
theorem C73_line (env : CEnv) (incl : CState → Str → Option CState) (s : CState) {line r : Str} (h1 : ¬ IsDefinition line)
    (h2 : ¬ IsDefinition r) (he : Expand s.macros 30 (.text line) [r]) (hr : Expand s.macros 30 (.text r) [r]) :
    s.parseLine env incl line = s.parseLine env incl r := by
  rw [parseLine_statement h1, parseLine_statement h2]
  obtain ⟨r1, e1, p1⟩ := expand_result he
  obtain ⟨r2, e2, p2⟩ := expand_result hr
  injection e1 with e1
  injection e2 with e2
  subst e1
  subst e2
  rw [CState.parseStatement, CState.parseStatement, CState.pre, CState.pre, p1, p2]

theorem Macros.get_set (m : Macros) (n v : Str) : (m.set n v).get n = some v := by
  unfold Macros.get Macros.set
  have : (m.filter (fun p => !(p.1 == n))).find? (fun p => p.1 == n) = none := by
    rw [List.find?_eq_none]
    intro p hp
    have := (List.mem_filter.1 hp).2
    simpa using this
  rw [List.find?_append, this]
  simp

theorem Macros.get_set_other (m : Macros) {n k : Str} (v : Str) (h : k ≠ n) : (m.set n v).get k = m.get k := by
  unfold Macros.get Macros.set
  rw [List.find?_append]
  have : (m.filter (fun p => !(p.1 == n))).find? (fun p => p.1 == k) = m.find? (fun p => p.1 == k) := by
    induction m with
    | nil => rfl
    | cons p m ih =>
      by_cases hp : p.1 = n
      · rw [List.filter_cons_of_neg (by simp [hp]), List.find?_cons_of_neg (by simp [hp, Ne.symm h])]
        exact ih
      · rw [List.filter_cons_of_pos (by simp [hp])]
        by_cases hk : p.1 = k
        · rw [List.find?_cons_of_pos (by simp [hk]), List.find?_cons_of_pos (by simp [hk])]
        · rw [List.find?_cons_of_neg (by simp [hk]), List.find?_cons_of_neg (by simp [hk])]
          exact ih
  rw [this]
  cases m.find? (fun p => p.1 == k) with
  | some p => rfl
  | none => simp [Ne.symm h]

theorem skipSpace_firm {t : Str} (h : NotBefore isSpaceC t) : skipSpace t = t ∨ (skipSpace t = [] ∧ ∃ c u, t = c :: u ∧ (c = '#' ∨ c = ';')) := by
  cases t with
  | nil => exact Or.inl rfl
  | cons c t =>
    have := h c rfl
    by_cases hc : (c == '#' || c == ';') = true
    · right
      refine ⟨by rw [skipSpace]; simp [this, hc], c, t, rfl, by simpa using hc⟩
    · exact Or.inl (skipSpace_cons this (Bool.eq_false_iff.2 hc))

theorem mem_takeWhile_ident {c : Char} : ∀ l : Str, c ∈ l.takeWhile isIdentChar → isIdentChar c = true := by
  intro l
  induction l with
  | nil => simp
  | cons d l ih =>
    rw [List.takeWhile_cons]
    split
    · next hd => intro hc; rcases List.mem_cons.1 hc with rfl | hc; exact hd; exact ih hc
    · simp

theorem parseLine_definition (env : CEnv) (incl : CState → Str → Option CState) (s : CState) {sp n sp2 sp3 t r f : Str} {ts : List Tok}
    (hsp : Spaces sp) (hn : Word n) (hsp2 : Spaces sp2) (hsp3 : Spaces sp3) (hb : NotBefore isSpaceC t) (ht : TokText ts t)
    (hr : Expand s.macros 30 (.toks false ts) [r]) (ha : ¬ HasAlternatives t)
    (hf : s.getKey n ≠ Key.none ∨ Expand s.macros 30 (.text (t.takeWhile isIdentChar)) [f]) :
    s.parseLine env incl (sp ++ n ++ sp2 ++ '=' :: sp3 ++ t) =
      if s.systemMatched || (s.macros.get n).isNone then some { s with macros := s.macros.set n r } else some s := by
  obtain ⟨r', e, hr⟩ := expand_result hr
  injection e with e; subst e
  -- the name
  have e1 : skipSpace (sp ++ n ++ sp2 ++ '=' :: sp3 ++ t) = n ++ (sp2 ++ '=' :: (sp3 ++ t)) := by
    rw [List.append_assoc, List.append_assoc, List.append_assoc, skipSpace_spaces hsp]
    rw [skipSpace_name hn.1 hn.2]
    simp
  have e2 : NotBefore isIdentChar (sp2 ++ '=' :: (sp3 ++ t)) := by
    cases sp2 with
    | nil => exact .cons (by decide)
    | cons c sp2 =>
      apply NotBefore.cons
      have := hsp2 c (by simp)
      cases hc : isIdentChar c with
      | false => rfl
      | true => rw [(isIdentChar_cases hc).1] at this; exact absurd this (by decide)
  have e3 : skipSpace (sp2 ++ '=' :: (sp3 ++ t)) = '=' :: (sp3 ++ t) := by
    rw [skipSpace_spaces hsp2, skipSpace_cons (by decide) (by decide)]
  rw [CState.parseLine, e1, readIdent_word hn e2]
  simp only [e3, skipSpace_spaces hsp3]
  -- no alternatives
  have hl : s.parseLogicalKey n (skipSpace t) = some none := by
    rw [CState.parseLogicalKey]
    split
    · rfl
    · next hk =>
      have hk : s.getKey n = Key.none := by simpa using hk
      have hf : Expand s.macros 30 (.text (t.takeWhile isIdentChar)) [f] := by
        rcases hf with h | h
        · exact absurd hk h
        · exact h
      obtain ⟨f', e, hf⟩ := expand_result hf
      injection e with e; subst e
      rcases skipSpace_firm hb with h | ⟨h, c, u, hc, hcc⟩
      · rw [h]
        simp only [readIdent, CState.pre, hf]
        split
        · next u heq =>
          exfalso
          obtain ⟨sp4, hs4, h4 | h4⟩ := skipSpace_split (t.dropWhile isIdentChar)
          · apply ha
            refine ⟨t.takeWhile isIdentChar, sp4, u, fun c => mem_takeWhile_ident t, hs4, ?_⟩
            rw [← heq, List.append_assoc, ← h4, List.takeWhile_append_dropWhile]
          · rw [h4] at heq; cases heq
        · rfl
      · have hi : isIdentChar c = false := by rcases hcc with rfl | rfl <;> decide
        have : t.takeWhile isIdentChar = [] := by rw [hc, List.takeWhile_cons_of_neg (by rw [hi]; decide)]
        rw [this] at hf
        rw [h]
        simp only [readIdent, List.takeWhile_nil, List.dropWhile_nil, CState.pre, hf, skipSpace]
  rw [hl]
  -- the text
  have hm : preprocessGo (preprocess s.macros 30) s.macros false (skipSpace (skipSpace t)) = some r := by
    rcases skipSpace_firm hb with h | ⟨h, c, u, hc, hcc⟩
    · rw [h, h]; exact hr t ht
    · rw [h]
      have := hr t ht
      rw [hc] at this
      rw [preprocessGo_step (by simp)] at this
      have h1 : NotBefore isIdentChar (c :: u) := .cons (by rcases hcc with rfl | rfl <;> decide)
      have h2 : skipLiteral (c :: u) = some none := by
        apply skipLiteral_other <;> rcases hcc with rfl | rfl <;> first | decide | (intro e; exact absurd e (by decide))
      have h3 : goStep (preprocess s.macros 30) s.macros false (c :: u) = some none := by
        rw [goStep.eq_def, readIdent_other h1]
        simp only [h2, List.isEmpty_nil, Bool.not_true, Bool.false_eq_true, if_false]
        rw [if_pos (by simpa using hcc)]
      rw [h3] at this
      rw [skipSpace, preprocessGo]
      exact this
  simp only [CState.parseMacro, preprocessRange, hm]

/-- **C73.** A definition `n = t` is kept, with aliases replaced and with uses of macros with arguments as they are; other
definitions stay. -/
theorem C73_definition (env : CEnv) (incl : CState → Str → Option CState) (s : CState) {sp n sp2 sp3 t r f : Str} {ts : List Tok}
    (hsp : Spaces sp) (hn : Word n) (hsp2 : Spaces sp2) (hsp3 : Spaces sp3) (hb : NotBefore isSpaceC t) (ht : TokText ts t)
    (hr : Expand s.macros 30 (.toks false ts) [r]) (ha : ¬ HasAlternatives t)
    (hf : s.getKey n ≠ Key.none ∨ Expand s.macros 30 (.text (t.takeWhile isIdentChar)) [f]) (hs : s.systemMatched = true) :
    ∃ macros, s.parseLine env incl (sp ++ n ++ sp2 ++ '=' :: sp3 ++ t) = some { s with macros := macros } ∧
      macros.get n = some r ∧ ∀ k, k ≠ n → macros.get k = s.macros.get k := by
  refine ⟨s.macros.set n r, ?_, Macros.get_set _ _ _, fun k hk => Macros.get_set_other _ _ hk⟩
  rw [parseLine_definition env incl s hsp hn hsp2 hsp3 hb ht hr ha hf, hs]
  rfl

theorem continued_of {line : Str} (h : (trimSpaceEnd line).getLast? = some '\\') : Continued line := by
  unfold trimSpaceEnd at h
  rw [List.getLast?_reverse] at h
  obtain ⟨y, hy⟩ : ∃ y, line.reverse.dropWhile isSpaceC = '\\' :: y := by
    cases hd : line.reverse.dropWhile isSpaceC with
    | nil => rw [hd] at h; cases h
    | cons c y => rw [hd] at h; exact ⟨y, by rw [Option.some.inj h]⟩
  refine ⟨y.reverse, (line.reverse.takeWhile isSpaceC).reverse, ?_, ?_⟩
  · intro c hc
    have key : ∀ l : Str, c ∈ l.takeWhile isSpaceC → isSpaceC c = true := by
      intro l
      induction l with
      | nil => simp
      | cons d l ih =>
        rw [List.takeWhile_cons]
        split
        · next hd =>
          intro hm
          rcases List.mem_cons.1 hm with rfl | hm
          · exact hd
          · exact ih hm
        · intro hm; cases hm
    exact key _ (List.mem_reverse.1 hc)
  · have := List.takeWhile_append_dropWhile (p := isSpaceC) (l := line.reverse)
    rw [hy] at this
    have := congrArg List.reverse this
    rw [List.reverse_reverse] at this
    refine this.symm.trans ?_
    simp

theorem parseLines_append {env : CEnv} {incl : CState → Str → Option CState} {before after : List Str} : ∀ {s0 s : CState},
    (∀ l ∈ before, ¬ Continued l) → CState.parseLines env incl before [] s0 = some s → s.done = false →
    CState.parseLines env incl (before ++ after) [] s0 = CState.parseLines env incl after [] s := by
  induction before with
  | nil =>
    intro s0 s _ h _
    rw [CState.parseLines] at h
    injection h with h
    rw [h]; rfl
  | cons l ls ih =>
    intro s0 s hc h hd
    have hl : ¬ ((trimSpaceEnd l).getLast? == some '\\') = true := by
      rw [beq_iff_eq]; exact fun h => hc l (by simp) (continued_of h)
    rw [CState.parseLines] at h
    rw [List.cons_append, CState.parseLines]
    split at h
    · next h0 =>
      injection h with h
      subst h
      rw [h0] at hd; cases hd
    · next h0 =>
      rw [if_neg h0]
      simp only [] at h ⊢
      rw [if_neg hl] at h ⊢
      split at h
      · cases h
      · next s' hp => exact ih (fun l' hl' => hc l' (by simp [hl'])) h hd

/-- **C73, whole configurations.** In a configuration of the lines `before`, `line` and `after`, `line` can be replaced by the
line in which aliases and macros are replaced by the definitions in `before`; the configurations mean the same. -/
theorem C73_lines (env : CEnv) (incl : CState → Str → Option CState) {before after : List Str} {s0 s : CState} {line r : Str}
    (hs : CState.parseLines env incl before [] s0 = some s) (hd : s.done = false)
    (hb : ∀ l ∈ before, ¬ Continued l) (hc : ¬ Continued line) (hc' : ¬ Continued r) (h1 : ¬ IsDefinition line)
    (h2 : ¬ IsDefinition r) (he : Expand s.macros 30 (.text line) [r]) (hr : Expand s.macros 30 (.text r) [r]) :
    CState.parseLines env incl (before ++ line :: after) [] s0 = CState.parseLines env incl (before ++ r :: after) [] s0 := by
  have step : ∀ l : Str, ¬ Continued l → CState.parseLines env incl (l :: after) [] s =
      (s.parseLine env incl l).bind (CState.parseLines env incl after []) := by
    intro l hl
    rw [CState.parseLines, if_neg (by rw [hd]; decide)]
    simp only [List.nil_append]
    rw [if_neg (by rw [beq_iff_eq]; exact fun h => hl (continued_of h))]
    cases s.parseLine env incl l <;> rfl
  rw [parseLines_append hb hs hd, parseLines_append hb hs hd, step line hc, step r hc', C73_line env incl s h1 h2 he hr]

/-! ### not vacuous -/

private def testMacros : Macros := [("Boss".toList, "Virtual1".toList), ("twice".toList, "$0 $0".toList)]

private theorem word_of {n : Str} (h : (!n.isEmpty && n.all isIdentChar) = true) : Word n := by
  rw [Bool.and_eq_true] at h
  exact ⟨by simpa using h.1, by simpa using h.2⟩

private theorem notBefore_of {f : Char → Bool} {t : Str} (h : (match t.head? with | none => true | some c => !f c) = true) :
    NotBefore f t := by
  intro c hc
  rw [hc] at h
  simpa using h

/-- `Boss>>twice[X] # a "note"` becomes `Virtual1>>X X ` -/
private theorem testExpand : Expand testMacros 30 (.text "Boss>>twice[X] # a \"note\"".toList) ["Virtual1>>X X ".toList] := by
  have h1 : Expand testMacros 29 (.text "Boss".toList) ["Virtual1".toList] :=
    .alias (word_of (by decide)) rfl (.plain (word_of (by decide)) (by decide))
  have h2 : Expand testMacros 29 (.args ["X".toList]) ["X".toList] :=
    .argsCons (.plain (word_of (by decide)) (by decide)) .argsNil
  have h3 : BodyText [.arg 0, .text [' '], .arg 0] "$0 $0".toList :=
    .arg (ds := ['0']) (by decide) (by decide)
      (.text (s := [' ']) (by decide) (.arg (ds := ['0']) (by decide) (by decide) .nil (notBefore_of rfl))) (notBefore_of rfl)
  have h4 : Expand testMacros 29 (.text "X X".toList) ["X X".toList] :=
    .text (sp := []) (by simp [Spaces]) (notBefore_of rfl)
      (.word (n := ['X']) (word_of rfl) (.other (c := ' ') (by decide) (fun e => absurd e (by decide)) (.word (n := ['X']) (word_of rfl) .nil (notBefore_of rfl)))
        (notBefore_of rfl))
      (fun h => absurd (h.2 ' ' (by decide)) (by decide))
      (.word (a := ['X']) (.plain (word_of (by decide)) (by decide))
        (.other (.word (a := ['X']) (.plain (word_of (by decide)) (by decide)) .nil)))
  have hq : QuotesMatch (fun _ => false) " # a \"note\"".toList := by
    refine .char (by decide) (.char (by decide) (.char (by decide) (.char (by decide) (.char (by decide) ?_))))
    exact .string (s := "\"note\"".toList) (t := []) ⟨'"', "note".toList, by decide, by decide, rfl⟩ .nil .nil
  refine .text (sp := []) (ts := [.word "Boss".toList, .other '>', .other '>', .call "twice".toList ["X".toList] "X".toList, .other ' '])
    (by simp [Spaces]) (notBefore_of rfl) ?_ (fun h => absurd (h.2 ' ' (by decide)) (by decide)) ?_
  · refine .word (n := "Boss".toList) (word_of (by decide)) (.other (c := '>') (by decide) (fun e => absurd e (by decide))
      (.other (c := '>') (by decide) (fun e => absurd e (by decide)) ?_)) (notBefore_of rfl)
    refine .call (n := "twice".toList) (list := ['X']) (t := " # a \"note\"".toList) (word_of (by decide)) ?_
      (.other (c := ' ') (by decide) (fun e => absurd e (by decide)) (.comment (Or.inl rfl))) hq (notBefore_of rfl)
    exact .one (s1 := []) (s2 := []) (by simp [Spaces]) (by simp [Spaces]) ⟨notBefore_of rfl, notBefore_of rfl⟩
      (.char (by decide) .nil)
  · refine .word (a := "Virtual1".toList) h1 (.other (.other (.call (a := "X X".toList) (r := [' ']) h2 rfl h3 ?_ h4 (.other .nil))))
    exact .char (by decide) (.char (by decide) (.char (by decide) .nil))

private theorem testExpanded : Expand testMacros 30 (.text "Virtual1>>X X ".toList) ["Virtual1>>X X ".toList] := by
  have hx : Expand testMacros 29 (.text ['X']) [['X']] := .plain (word_of rfl) (by decide)
  refine .text (sp := []) (ts := [.word "Virtual1".toList, .other '>', .other '>', .word ['X'], .other ' ', .word ['X'], .other ' '])
    (by simp [Spaces]) (notBefore_of rfl) ?_ (fun h => absurd (h.2 ' ' (by decide)) (by decide)) ?_
  · refine .word (n := "Virtual1".toList) (word_of (by decide)) (.other (c := '>') (by decide) (fun e => absurd e (by decide))
      (.other (c := '>') (by decide) (fun e => absurd e (by decide)) ?_)) (notBefore_of rfl)
    exact .word (n := ['X']) (word_of rfl) (.other (c := ' ') (by decide) (fun e => absurd e (by decide))
      (.word (n := ['X']) (word_of rfl) (.other (c := ' ') (by decide) (fun e => absurd e (by decide)) .nil) (notBefore_of rfl)))
      (notBefore_of rfl)
  · exact .word (a := "Virtual1".toList) (.plain (word_of (by decide)) (by decide))
      (.other (.other (.word hx (.other (.word hx (.other .nil))))))

private theorem noDefinition {line : Str} (h : '=' ∉ line) : ¬ IsDefinition line := by
  rintro ⟨sp, n, sp2, t, -, -, -, rfl⟩
  exact h (by simp)

example (env : CEnv) (incl : CState → Str → Option CState) (s : CState) (h : s.macros = testMacros) :
    s.parseLine env incl "Boss>>twice[X] # a \"note\"".toList = s.parseLine env incl "Virtual1>>X X ".toList :=
  C73_line env incl s (noDefinition (by decide)) (noDefinition (by decide)) (h ▸ testExpand) (h ▸ testExpanded)

/-- `q = Boss twice[Y]` is kept as `Virtual1 twice[Y]` -/
example (env : CEnv) (incl : CState → Str → Option CState) (s : CState) (h : s.macros = testMacros) (hm : s.systemMatched = true) :
    ∃ macros, s.parseLine env incl "q = Boss twice[Y]".toList = some { s with macros := macros } ∧
      macros.get ['q'] = some "Virtual1 twice[Y]".toList ∧ ∀ k, k ≠ ['q'] → macros.get k = s.macros.get k := by
  refine C73_definition (sp := []) (n := ['q']) (sp2 := [' ']) (sp3 := [' ']) (t := "Boss twice[Y]".toList) (f := "Virtual1".toList)
    (ts := [.word "Boss".toList, .other ' ', .call "twice".toList [['Y']] ['Y']]) env incl s (by simp [Spaces]) (word_of (by decide))
    (by unfold Spaces; decide) (by unfold Spaces; decide) (notBefore_of rfl) ?_ ?_ ?_ (Or.inr ?_) hm
  · refine .word (n := "Boss".toList) (word_of (by decide)) (.other (c := ' ') (by decide) (fun e => absurd e (by decide)) ?_) (notBefore_of rfl)
    exact .call (n := "twice".toList) (list := ['Y']) (t := []) (word_of (by decide))
      (.one (s1 := []) (s2 := []) (by simp [Spaces]) (by simp [Spaces]) ⟨notBefore_of rfl, notBefore_of rfl⟩ (.char (by decide) .nil))
      .nil .nil .nil
  · rw [h]
    exact .word (a := "Virtual1".toList) (.alias (word_of (by decide)) rfl (.plain (word_of (by decide)) (by decide)))
      (.other (.callKept .nil))
  · rintro ⟨w, sp, u, -, -, e⟩
    have : '|' ∈ "Boss twice[Y]".toList := by rw [e]; simp
    exact absurd this (by decide)
  · rw [h]
    exact .alias (word_of (by decide)) rfl (.plain (word_of (by decide)) (by decide))

/-- `apply["$0 >> $1", F1, A, F2, B, F3]` is a line for each pair -/
private theorem testApply : Builtin "apply".toList ["\"$0 >> $1\"".toList, "F1".toList, "A".toList, "F2".toList, "B".toList, "F3".toList]
    "F1 >> A\nF2 >> B".toList := by
  have hb : BodyText [.arg 0, .text " >> ".toList, .arg 1] "$0 >> $1".toList :=
    .arg (ds := ['0']) (by decide) (by decide)
      (.text (s := " >> ".toList) (by decide) (.arg (ds := ['1']) (by decide) (by decide) .nil (notBefore_of rfl))) (notBefore_of rfl)
  exact .apply (t := "\"$0 >> $1\"".toList) (lines := true) (groups := [["F1".toList, "A".toList], ["F2".toList, "B".toList]])
    (left := ["F3".toList]) hb (by decide) (by decide) (Or.inl (by decide))
    (iff_of_true rfl ⟨"$0 ".toList, " $1".toList, by decide⟩)

/-- `div[-7, 2]` is -3, `mod[-7, 2]` is -1 -/
example : Builtin "div".toList ["-7".toList, "2".toList] "-3".toList ∧ Builtin "mod".toList ["-7".toList, "2".toList] "-1".toList := by
  have h1 : IntText (-7) "-7".toList := .neg (ds := ['7']) (by decide) (by decide) (by unfold InRange; decide)
  have h2 : IntText 2 "2".toList := .pos (ds := ['2']) (by decide) (by decide) (by unfold InRange; decide)
  have h3 : Divides (-7) 2 (-3) (-1) := by unfold Divides; decide
  exact ⟨.div h1 h2 h3 (by unfold InRange; decide), .mod h1 h2 h3 (by unfold InRange; decide)⟩

/-- further argument lists: with `pick = twice`, the text `pick[1][X]` becomes `twice[X]` and then `X X` -/
example : Expand [("pick".toList, "twice".toList), ("twice".toList, "$0 $0".toList)] 30 (.text "pick[1][X]".toList) ["X X".toList] := by
  have word : ∀ {n : Str} {l : Nat}, (!n.isEmpty && n.all isIdentChar) = true →
      Macros.get [("pick".toList, "twice".toList), ("twice".toList, "$0 $0".toList)] n = none →
      Expand [("pick".toList, "twice".toList), ("twice".toList, "$0 $0".toList)] (l + 1) (.text n) [n] :=
    fun h1 h2 => .plain (word_of h1) h2
  have args : ∀ c : Char, (isQuote c = false ∧ c ≠ '[' ∧ c ≠ ']' ∧ (c == ',') = false) → isSpaceC c = false → ArgsText [[c]] [c] :=
    fun c h1 h2 => .one (s1 := []) (s2 := []) (by simp [Spaces]) (by simp [Spaces]) ⟨.cons h2, .cons h2⟩ (.char h1 .nil)
  have h3 : BodyText [.arg 0, .text [' '], .arg 0] "$0 $0".toList :=
    .arg (ds := ['0']) (by decide) (by decide)
      (.text (s := [' ']) (by decide) (.arg (ds := ['0']) (by decide) (by decide) .nil (notBefore_of rfl))) (notBefore_of rfl)
  refine .text (sp := []) (ts := [.callMore "pick".toList [['1']] ['1'] "[X]".toList]) (by simp [Spaces]) (notBefore_of rfl)
    (.callMore (n := "pick".toList) (list := ['1']) (more := "[X]".toList) (t := []) (word_of (by decide)) (args '1' (by decide) (by decide))
      (.cons (list := ['X']) (args 'X' (by decide) (by decide)) .nil) .nil .nil .nil)
    (fun h => absurd (h.2 '[' (by decide)) (by decide)) ?_
  refine .callMore (vals := [['1']]) (m := "twice".toList) (ps := [.text "twice".toList]) (a := "X X".toList) (r := [])
    (.argsCons (word (by decide) (by decide)) .argsNil) (by decide) (.text (s := "twice".toList) (t := []) (by decide) .nil)
    (.char (by decide) (.char (by decide) (.char (by decide) (.char (by decide) (.char (by decide) .nil))))) ?_ .nil
  refine .text (sp := []) (ts := [.call "twice".toList [['X']] ['X']]) (by simp [Spaces]) (notBefore_of rfl)
    (.call (n := "twice".toList) (list := ['X']) (t := []) (word_of (by decide)) (args 'X' (by decide) (by decide)) .nil .nil .nil)
    (fun h => absurd (h.2 '[' (by decide)) (by decide)) ?_
  refine .call (vals := [['X']]) (m := "$0 $0".toList) (a := "X X".toList) (r := [])
    (.argsCons (word (by decide) (by decide)) .argsNil) (by decide) h3 (.char (by decide) (.char (by decide) (.char (by decide) .nil))) ?_ .nil
  exact .text (sp := []) (by simp [Spaces]) (notBefore_of rfl)
      (.word (n := ['X']) (word_of rfl) (.other (c := ' ') (by decide) (fun e => absurd e (by decide)) (.word (n := ['X']) (word_of rfl) .nil (notBefore_of rfl)))
        (notBefore_of rfl))
      (fun h => absurd (h.2 ' ' (by decide)) (by decide))
      (.word (a := ['X']) (word (by decide) (by decide)) (.other (.word (a := ['X']) (word (by decide) (by decide)) .nil)))

/-! ### limits -/

/-- **Comments are not always ignored.** Behind the use of a macro with arguments, an apostrophe in a comment makes the
configuration invalid. -/
theorem C73_comment_counterexample :
    (parseConfig plainTyperEnv "F1 >> repeat[A, 2] # dont".toList).isSome = true ∧
    parseConfig plainTyperEnv "F1 >> repeat[A, 2] # don't".toList = none := by
  constructor <;> decide +kernel

/-- **Not every definition is accepted.** `m[2]` can be used in a mapping, but not in the definition of `p`. -/
theorem C73_definition_counterexample :
    (parseConfig plainTyperEnv "m = repeat[A, $0]\nF1 >> m[2]".toList).isSome = true ∧
    parseConfig plainTyperEnv "m = repeat[A, $0]\np = m[2]\nF1 >> p".toList = none := by
  constructor <;> decide +kernel

/-- **Two strings next to each other** are not accepted. -/
theorem C73_strings_counterexample :
    (parseConfig plainTyperEnv "F1 >> \"a\" \"b\"".toList).isSome = true ∧
    parseConfig plainTyperEnv "F1 >> \"a\"\"b\"".toList = none := by
  constructor <;> decide +kernel

end KM
