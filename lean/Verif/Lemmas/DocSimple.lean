import Verif.Lemmas.DocFinish
/-!
# Lemmas: texts in which nothing is replaced
-/
namespace KM

/-- a character which is neither the begin of a string, comment, regular expression, command nor list of arguments -/
def isSimpleChar (c : Char) : Bool :=
  isIdentChar c || !(c == '"' || c == '\'' || c == '#' || c == ';' || c == '/' || c == '$' || c == '[')

theorem simple_other {c : Char} (h : isSimpleChar c = true) (hi : isIdentChar c = false) :
    (isIdentChar c = false ∧ isQuote c = false ∧ c ≠ '#' ∧ c ≠ ';' ∧ c ≠ '/') ∧ c ≠ '$' ∧ c ≠ '[' := by
  unfold isSimpleChar at h
  simp only [hi, Bool.false_or, Bool.not_eq_true', Bool.or_eq_false_iff, beq_eq_false_iff_ne] at h
  obtain ⟨⟨⟨⟨⟨⟨h1, h2⟩, h3⟩, h4⟩, h5⟩, h6⟩, h7⟩ := h
  exact ⟨⟨hi, by simp [isQuote, h1, h2], h3, h4, h5⟩, h6, h7⟩

/-- the tokens of simple texts -/
theorem simple_tokens (macros : Macros) : ∀ (n : Nat) (t : Str), t.length ≤ n → (∀ c ∈ t, isSimpleChar c = true) →
    (∀ a w b, t = a ++ w ++ b → Word w → macros.get w = none) →
    ∃ ts, TokText ts t ∧ ∀ l ap, Expand macros (l + 1) (.toks ap ts) [t] := by
  intro n
  induction n with
  | zero =>
    intro t hl _ _
    have : t = [] := List.length_eq_zero_iff.1 (by omega)
    subst this
    exact ⟨[], .nil, fun l ap => .nil⟩
  | succ n ih =>
    intro t hl hc hm
    cases t with
    | nil => exact ⟨[], .nil, fun l ap => .nil⟩
    | cons c t =>
      by_cases hi : isIdentChar c = true
      · obtain ⟨w, hw⟩ : ∃ w, w = (c :: t).takeWhile isIdentChar := ⟨_, rfl⟩
        obtain ⟨r, hr⟩ : ∃ r, r = (c :: t).dropWhile isIdentChar := ⟨_, rfl⟩
        have he : c :: t = w ++ r := by rw [hw, hr, List.takeWhile_append_dropWhile]
        have hword : Word w := by
          refine ⟨by rw [hw, List.takeWhile_cons, if_pos hi]; simp, fun d hd => ?_⟩
          rw [hw] at hd
          exact mem_takeWhile_ident _ hd
        have hr0 : NotBefore isIdentChar r := by
          intro d hd
          cases hrr : r with
          | nil => rw [hrr] at hd; cases hd
          | cons e r' =>
            rw [hrr] at hd; injection hd with hd
            have := List.head_dropWhile_not isIdentChar (l := c :: t) (by rw [← hr, hrr]; simp)
            simp only [← hr, hrr, List.head_cons] at this
            rw [← hd]; exact this
        have hlen : r.length ≤ n := by
          have := congrArg List.length he
          rw [List.length_append] at this
          have hpos : 0 < w.length := List.length_pos_iff.2 hword.1
          simp only [List.length_cons] at this hl
          omega
        obtain ⟨ts, h1, h2⟩ := ih r hlen (fun d hd => hc d (by rw [he]; simp [hd]))
          (fun a v b e hv => hm (w ++ a) v b (by rw [he, e]; simp) hv)
        refine ⟨.word w :: ts, ?_, fun l ap => ?_⟩
        · rw [he]
          refine .word hword h1 ?_
          intro d hd
          have hd1 := hr0 d hd
          have hmem : d ∈ c :: t := by
            rw [he]; exact List.mem_append_right _ (List.mem_of_mem_head? hd)
          have := (simple_other (hc d hmem) hd1).2.2
          simp [hd1, this]
        · rw [he]
          exact .word (.plain hword (hm [] w r (by rw [he]; rfl) hword)) (h2 l ap)
      · have hi : isIdentChar c = false := by simpa using hi
        have hs := simple_other (hc c (by simp)) hi
        simp only [List.length_cons] at hl
        obtain ⟨ts, h1, h2⟩ := ih t (by omega) (fun d hd => hc d (by simp [hd]))
          (fun a v b e hv => hm (c :: a) v b (by rw [e]; rfl) hv)
        exact ⟨.other c :: ts, .other hs.1 (fun e => absurd e hs.2.1) h1, fun l ap => .other (h2 l ap)⟩

/-- **Simple texts** in which no word is defined stay as they are (without the white space before them). -/
theorem expand_simple {macros : Macros} {sp t : Str} (hs : Spaces sp) (hn : NotBefore isSpaceC t) (hc : ∀ c ∈ t, isSimpleChar c = true)
    (hm : ∀ a w b, t = a ++ w ++ b → Word w → macros.get w = none) (l : Nat) : Expand macros (l + 2) (.text (sp ++ t)) [t] := by
  by_cases hw : Word (sp ++ t)
  · have hsp : sp = [] := by
      cases sp with
      | nil => rfl
      | cons c sp =>
        have h1 := hs c (by simp)
        have h2 := hw.2 c (by simp)
        exact absurd (isSpaceC_noIdent h1) (by simp [h2])
    subst hsp
    exact .plain hw (hm [] t [] (by simp) hw)
  · obtain ⟨ts, h1, h2⟩ := simple_tokens macros t.length t (Nat.le_refl _) hc hm
    exact .text hs hn h1 hw (h2 l true)

/-! ### `A >> B` -/

theorem spaces_append {a b : Str} (ha : Spaces a) (hb : Spaces b) : Spaces (a ++ b) := by
  intro c hc
  rcases List.mem_append.1 hc with h | h
  · exact ha c h
  · exact hb c h

theorem apart_spaces {a sp : Str} (hs : Spaces sp) : Apart a sp := by
  intro c d _ hd
  exact .inr (isSpaceC_noIdent (hs d (List.mem_of_mem_head? hd)))

theorem simple_spaces {sp : Str} (hs : Spaces sp) : ∀ c ∈ sp, isSimpleChar c = true := by
  intro c hc
  have h := hs c hc
  rw [← Bool.not_eq_false]
  intro hf
  unfold isSimpleChar at hf
  simp only [Bool.or_eq_false_iff, Bool.not_eq_false', Bool.or_eq_true, beq_iff_eq] at hf
  rcases hf.2 with (((((rfl | rfl) | rfl) | rfl) | rfl) | rfl) | rfl <;> exact absurd h (by decide)

theorem simple_word {n : Str} (h : ∀ c ∈ n, isIdentChar c = true) : ∀ c ∈ n, isSimpleChar c = true := by
  intro c hc
  simp [isSimpleChar, h c hc]

theorem noDefinition_of {line : Str} (h : '=' ∉ line) : ¬ IsDefinition line := by
  rintro ⟨sp, n, sp2, t, -, -, -, rfl⟩
  exact h (by simp)

/-- a character before the first `=` which is not part of a name -/
theorem noDefinition_char {a b : Str} {c : Char} (ha : '=' ∉ a) (hc : isIdentChar c = false ∧ isSpaceC c = false ∧ c ≠ '=') :
    ¬ IsDefinition (a ++ c :: b) := by
  rintro ⟨sp, n, sp2, t, h1, h2, h3, e⟩
  rcases List.append_eq_append_iff.1 e with ⟨u, e1, e2⟩ | ⟨u, e1, e2⟩
  · cases u with
    | nil => simp only [List.nil_append, List.cons.injEq] at e2; exact hc.2.2 e2.1
    | cons x u =>
      simp only [List.cons_append, List.cons.injEq] at e2
      have : c ∈ sp ++ n ++ sp2 := by rw [e1, e2.1]; simp
      simp only [List.mem_append] at this
      rcases this with (h | h) | h
      · rw [h1 c h] at hc; exact absurd hc.2.1 (by decide)
      · rw [h2 c h] at hc; exact absurd hc.1 (by decide)
      · rw [h3 c h] at hc; exact absurd hc.2.1 (by decide)
  · cases u with
    | nil => simp only [List.nil_append, List.cons.injEq] at e2; exact hc.2.2 e2.1.symm
    | cons x u =>
      simp only [List.cons_append, List.cons.injEq] at e2
      exact ha (by rw [e1, e2.1]; simp)

theorem notContinued_of {line : Str} (h : '\\' ∉ line) : ¬ Continued line := by
  rintro ⟨a, sp, -, rfl⟩
  exact h (by simp)

theorem oneLine_of {t : Str} (h : ∀ c ∈ t, isQuote c = false ∧ c ≠ '\n') : OneLine t := by
  induction t with
  | nil => exact .nil
  | cons c t ih => exact .char ⟨(h c (by simp)).1, by simpa using (h c (by simp)).2⟩ (ih (fun d hd => h d (by simp [hd])))

/-- the word of a text is unique -/
theorem singleWord_unique {sp w sp' v : Str} (hs : Spaces sp) (hw : Word w) (hs' : Spaces sp') (h : SingleWord (sp ++ w ++ sp') v) : v = w := by
  have h1 := SingleWord.read ⟨sp, sp', hs, hw, hs', rfl⟩
  have h2 := h.read
  have h3 := h1.1.symm.trans h2.1
  exact (List.append_cancel_right h3).symm

theorem notMem_word {x : Str} {c : Char} (hx : ∀ d ∈ x, isIdentChar d = true) (hc : isIdentChar c = false) : c ∉ x := by
  intro hmem
  rw [hx c hmem] at hc; cases hc

theorem notMem_spaces {x : Str} {c : Char} (hx : Spaces x) (hc : isSpaceC c = false) : c ∉ x := by
  intro hmem
  rw [hx c hmem] at hc; cases hc

/-- a key as input -/
theorem key_input {typer : Typer} {getKey : Str → Key} {commands : List Str} {sp n sp1 : Str} {k : Key} (hs : Spaces sp) (hs1 : Spaces sp1)
    (hn : Names getKey n k) (hk : Outputable k) (hc : n ∉ commands) (hl : startsWithLowerCase n = false) :
    InputText typer getKey commands false (.keys false [k] .nil) (sp ++ n ++ sp1) := by
  have hwn : Word n := ⟨hn.nonempty, hn.chars⟩
  refine ⟨?_, ⟨⟨by simp, by simpa using hk⟩, trivial⟩, trivial, rfl, (by intro h; cases h), ?_, ?_⟩
  · have h := InText.keys (getKey := getKey) (sp := sp) (t := n) hs (.one hn) (.nil hs1) (apart_spaces hs1)
    have hp : (n.head? == some '(') = false := by
      cases n with
      | nil => exact absurd rfl hn.nonempty
      | cons c n' =>
        have := hn.chars c (by simp)
        simp only [List.head?_cons, beq_eq_false_iff_ne, ne_eq, Option.some.injEq]
        rintro rfl
        exact absurd this (by decide)
    rw [hp] at h
    exact .plain h
  · simp only [List.mem_append]
    have := notMem_word (c := '>') hn.chars (by decide)
    have := notMem_spaces (c := '>') hs1 (by decide)
    have := notMem_spaces (c := '>') hs (by decide)
    simp [*]
  · intro w hw
    have := singleWord_unique hs hwn hs1 hw
    subst this
    exact ⟨hc, hl⟩

/-- a key as output -/
theorem key_output {typer : Typer} {getKey : Str → Key} {lower : Bool} {sp m sp1 : Str} {k : Key} (hs : Spaces sp) (hs1 : Spaces sp1)
    (hm : Names getKey m k) (hk : Outputable k) : OutputText typer getKey lower (.keys [k] .nil) (sp ++ m ++ sp1) := by
  refine ⟨.keys hs (.one hm) (.nil hs1) (apart_spaces hs1), ⟨⟨by simp, by simpa using hk⟩, trivial⟩, by simp [OutExpr.releases],
    by simp [OutExpr.Fresh, OutExpr.beginsWithNot], ?_⟩
  intro w hw
  have := singleWord_unique hs ⟨hm.nonempty, hm.chars⟩ hs1 hw
  subst this
  rintro ⟨h, -⟩
  rw [hm.key] at h; exact hm.exists_ h

theorem pair_oneLine {n sp1 sp2 m sp3 : Str} (hs1 : Spaces sp1) (hs2 : Spaces sp2) (hs3 : Spaces sp3) (hn : Word n) (hm : Word m)
    (hnl : '\n' ∉ sp1 ++ sp2 ++ sp3) : OneLine ((n ++ sp1) ++ '>' :: '>' :: (sp2 ++ m ++ sp3)) := by
  refine oneLine_of ?_
  intro c hcm
  simp only [List.mem_append, List.mem_cons] at hcm
  have q : ∀ c, isIdentChar c = true → isQuote c = false ∧ c ≠ '\n' := by
    intro c h
    refine ⟨?_, ?_⟩
    · unfold isQuote
      rw [Bool.or_eq_false_iff, beq_eq_false_iff_ne, beq_eq_false_iff_ne]
      constructor
      · rintro rfl; exact absurd h (by decide)
      · rintro rfl; exact absurd h (by decide)
    · rintro rfl; exact absurd h (by decide)
  have qs : ∀ c, isSpaceC c = true → isQuote c = false := by
    intro c h
    unfold isQuote
    rw [Bool.or_eq_false_iff, beq_eq_false_iff_ne, beq_eq_false_iff_ne]
    constructor
    · rintro rfl; exact absurd h (by decide)
    · rintro rfl; exact absurd h (by decide)
  rcases hcm with (hcm | hcm) | hcm | hcm | (hcm | hcm) | hcm
  · exact q c (hn.2 c hcm)
  · exact ⟨qs c (hs1 c hcm), fun e => hnl (by rw [← e]; simp [hcm])⟩
  · rw [hcm]; decide
  · rw [hcm]; decide
  · exact ⟨qs c (hs2 c hcm), fun e => hnl (by rw [← e]; simp [hcm])⟩
  · exact q c (hm.2 c hcm)
  · exact ⟨qs c (hs3 c hcm), fun e => hnl (by rw [← e]; simp [hcm])⟩

/-- a line of two words stays as it is -/
theorem pair_expand {macros : Macros} {sp n sp1 sp2 m sp3 : Str} (hs : Spaces sp) (hs1 : Spaces sp1) (hs2 : Spaces sp2)
    (hs3 : Spaces sp3) (hn : Word n) (hm : Word m)
    (hmac : ∀ a w b, (n ++ sp1) ++ '>' :: '>' :: (sp2 ++ m ++ sp3) = a ++ w ++ b → Word w → macros.get w = none) :
    ¬ IsDefinition (sp ++ ((n ++ sp1) ++ '>' :: '>' :: (sp2 ++ m ++ sp3))) ∧
    Expand macros 30 (.text (sp ++ ((n ++ sp1) ++ '>' :: '>' :: (sp2 ++ m ++ sp3)))) [(n ++ sp1) ++ '>' :: '>' :: (sp2 ++ m ++ sp3)] := by
  constructor
  · refine noDefinition_of ?_
    simp only [List.mem_append, List.mem_cons]
    have := notMem_word (c := '=') hn.2 (by decide)
    have := notMem_word (c := '=') hm.2 (by decide)
    have := notMem_spaces (c := '=') hs (by decide)
    have := notMem_spaces (c := '=') hs1 (by decide)
    have := notMem_spaces (c := '=') hs2 (by decide)
    have := notMem_spaces (c := '=') hs3 (by decide)
    simp [*]
  · refine expand_simple hs ?_ ?_ hmac 28
    · cases n with
      | nil => exact absurd rfl hn.1
      | cons c n' =>
        intro e he
        simp only [List.cons_append, List.head?_cons, Option.some.injEq] at he
        rw [← he]
        exact (isIdentChar_firm (hn.2 c (by simp))).1
    · intro c hcm
      simp only [List.mem_append, List.mem_cons] at hcm
      have h1 := simple_word hn.2 c
      have h2 := simple_word hm.2 c
      have h3 := simple_spaces hs1 c
      have h4 := simple_spaces hs2 c
      have h5 := simple_spaces hs3 c
      have h6 : isSimpleChar '>' = true := by decide
      grind

/-- The line `A >> B` -/
theorem pair_line {env : CEnv} {d : Doc} {sp n sp1 sp2 m sp3 : Str} {k k' : Key} (hs : Spaces sp) (hs1 : Spaces sp1) (hs2 : Spaces sp2)
    (hs3 : Spaces sp3) (hn : Names (namesWith d.logical) n k) (hm : Names (namesWith d.logical) m k') (hk : Outputable k) (hk' : Outputable k')
    (hmac : ∀ a w b, (n ++ sp1) ++ '>' :: '>' :: (sp2 ++ m ++ sp3) = a ++ w ++ b → Word w → d.macros.get w = none)
    (hc : n ∉ d.commands) (hl : startsWithLowerCase n = false) (hnl : '\n' ∉ sp1 ++ sp2 ++ sp3) :
    d.Line env (.map false (.keys false [k] .nil) (.keys [k'] .nil)) (sp ++ ((n ++ sp1) ++ '>' :: '>' :: (sp2 ++ m ++ sp3))) := by
  have hwn : Word n := ⟨hn.nonempty, hn.chars⟩
  have hwm : Word m := ⟨hm.nonempty, hm.chars⟩
  obtain ⟨h1, h2⟩ := pair_expand hs hs1 hs2 hs3 hwn hwm hmac
  exact .statement h1 h2 (.mapping (.map (key_input (sp := []) (by intro c hc; cases hc) hs1 hn hk hc hl) (key_output hs2 hs3 hm hk'))
    (pair_oneLine hs1 hs2 hs3 hwn hwm hnl))

end KM
