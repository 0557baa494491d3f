import Verif.Lemmas.MacroScan
/-!
# Replacing aliases and macros
-/
namespace KM

/-! ### arguments -/

theorem unquote_eq (s : Str) : unquote s = insertedValue s := by
  unfold unquote insertedValue isQuote
  split
  · next c d ds =>
    show _ = if some c = (d :: ds).getLast? ∧ (c == '"' || c == '\'') = true then (d :: ds).dropLast else c :: d :: ds
    by_cases h : some c = (d :: ds).getLast?
    · by_cases hq : (c == '"' || c == '\'') = true
      · have hq' : (c == '\'' || c == '"') = true := by rw [Bool.or_comm]; exact hq
        rw [if_pos (by simp only [hq', Bool.and_true, beq_iff_eq]; exact h), if_pos ⟨h, hq⟩]
      · have hq' : ¬ (c == '\'' || c == '"') = true := by rw [Bool.or_comm]; exact hq
        rw [if_neg (by simp only [Bool.and_eq_true]; exact fun e => hq' e.2), if_neg (fun e => hq e.2)]
    · rw [if_neg (by simp only [Bool.and_eq_true, beq_iff_eq]; exact fun e => h e.1), if_neg (fun e => h e.1)]
  · next h =>
    split
    · next c d ds => exact absurd rfl (h c d ds)
    · rfl

theorem tryReadNumber_digits {ds t : Str} (hne : ds ≠ []) (hd : ∀ c ∈ ds, isDigitC c = true) (ht : NotBefore isDigitC t) :
    tryReadNumber (ds ++ t) = some (digitsVal ds, t) := by
  obtain ⟨h1, h2⟩ := takeWhile_ends hd ht
  unfold tryReadNumber
  simp only [h1, h2]
  cases ds with
  | nil => exact absurd rfl hne
  | cons => rfl

theorem tryReadNumber_other {t : Str} (ht : NotBefore isDigitC t) : tryReadNumber t = none := by
  unfold tryReadNumber
  have : t.takeWhile isDigitC = [] := by
    cases t with
    | nil => rfl
    | cons c t => rw [List.takeWhile_cons_of_neg]; rw [ht c rfl]; decide
  simp [this]

theorem substituteArguments_cons {args : List Str} {c : Char} {cs : Str} (hc : c ≠ '$') :
    substituteArguments args (c :: cs) = c :: substituteArguments args cs := by
  rw [substituteArguments]
  simp [hc]

theorem substituteArguments_text {args : List Str} {s : Str} (hs : '$' ∉ s) (t : Str) :
    substituteArguments args (s ++ t) = s ++ substituteArguments args t := by
  induction s with
  | nil => rfl
  | cons c s ih =>
    rw [List.cons_append, substituteArguments_cons (by intro e; exact hs (by simp [e])), ih (fun h => hs (by simp [h]))]
    rfl

theorem substituteArguments_number {args : List Str} {cs r : Str} {n : Nat} (h : tryReadNumber cs = some (n, r)) :
    substituteArguments args ('$' :: cs) = insertedValue (args[n]?.getD []) ++ substituteArguments args r := by
  rw [substituteArguments.eq_def]
  simp only [beq_self_eq_true, if_true]
  split
  · next n' r' h' =>
    rw [h] at h'
    injection h' with h'
    injection h' with h1 h2
    subst h1 h2
    cases args[n]? with
    | none => simp [insertedValue]
    | some a => simp [unquote_eq]
  · next h' => rw [h] at h'; cases h'

theorem substituteArguments_dollar {args : List Str} {cs : Str} (h : tryReadNumber cs = none) :
    substituteArguments args ('$' :: cs) = match cs with
      | d :: ds => if d == '$' then intToStr args.length ++ substituteArguments args ds else '$' :: substituteArguments args (d :: ds)
      | [] => ['$'] := by
  rw [substituteArguments.eq_def]
  simp only [beq_self_eq_true, if_true]
  split
  · next n' r' h' => rw [h] at h'; cases h'
  · cases cs <;> rfl

theorem substituteArguments_body (args : List Str) {ps : List BodyPiece} {m : Str} (h : BodyText ps m) :
    substituteArguments args m = fillBody args ps := by
  induction h with
  | nil => rw [substituteArguments]; rfl
  | text hs ht ih => rw [substituteArguments_text hs, ih, fillBody]
  | @dollar ps t ht hn ih =>
    rw [substituteArguments_dollar (tryReadNumber_other (fun c hc => by have := hn c hc; simp at this; exact this.1)), fillBody, ← ih]
    cases t with
    | nil => simp [substituteArguments]
    | cons d ds =>
      have := hn d rfl
      simp at this
      simp [this.2]
  | @arg ds ps t hne hd ht he ih =>
    rw [List.cons_append, substituteArguments_number (tryReadNumber_digits hne hd he), ih, fillBody]
  | @count ps t ht ih =>
    rw [substituteArguments_dollar (tryReadNumber_other (.cons (by decide)))]
    simp only [beq_self_eq_true, if_true]
    rw [ih, fillBody]
    rfl

/-! ### parameters which remain -/

theorem containsVariable_false {t : Str} (h : NoParameters t) : containsVariable t = some false := by
  -- the parameters behind the next `$`
  have key : ∀ t : Str, NoParameters t → skipUntilNotInString ['$'] t = some (false, []) ∨
      ∃ r, skipUntilNotInString ['$'] t = some (true, r) ∧ r.length < t.length ∧ NoParameters r ∧
        NotBefore (fun c => isDigitC c || c == '-') r := by
    intro t h
    induction h with
    | nil => exact Or.inl (scan_nil _)
    | @char c t hc ht ih =>
      rw [scan_char hc.1 (Ne.symm hc.2)]
      rcases ih with h | ⟨r, h1, h2, h3⟩
      · exact Or.inl h
      · exact Or.inr ⟨r, h1, by simp; omega, h3⟩
    | @string s t hs ht hn ih =>
      rw [scan_string hs hn]
      rcases ih with h | ⟨r, h1, h2, h3⟩
      · exact Or.inl h
      · exact Or.inr ⟨r, h1, by simp; omega, h3⟩
    | @dollar t ht hn ih => exact Or.inr ⟨t, scan_hit (by decide) t, by simp, ht, hn⟩
  -- skipping an identifier
  have drop : ∀ r : Str, NoParameters r → NoParameters (r.dropWhile isIdentChar) := by
    intro r h
    induction h with
    | nil => exact .nil
    | @char c t hc ht ih =>
      rw [List.dropWhile_cons]
      split
      · exact ih
      · exact .char hc ht
    | @string s t hs ht hn ih =>
      obtain ⟨q, u, hq, hu, rfl⟩ := hs
      have : isIdentChar q = false := by
        unfold isQuote at hq
        simp only [Bool.or_eq_true, beq_iff_eq] at hq
        rcases hq with rfl | rfl <;> decide
      rw [List.cons_append, List.cons_append, List.dropWhile_cons_of_neg (by rw [this]; decide)]
      exact .string ⟨q, u, hq, hu, rfl⟩ ht hn
    | @dollar t ht hn ih =>
      rw [List.dropWhile_cons_of_neg (by decide)]
      exact .dollar ht hn
  suffices ∀ n (t : Str), t.length ≤ n → NoParameters t → containsVariable t = some false from this t.length t (Nat.le_refl _) h
  intro n
  induction n with
  | zero =>
    intro t hl _
    have : t = [] := List.eq_nil_of_length_eq_zero (by omega)
    subst this
    rw [containsVariable, scan_nil]
  | succ n ih =>
    intro t hl h
    rw [containsVariable]
    rcases key t h with h | ⟨r, h1, h2, h3, h4⟩
    · rw [h]
    · rw [h1]
      have hint : (parseInt (r.takeWhile isIdentChar)).isSome = false := by
        cases r with
        | nil => rfl
        | cons c cs =>
          have hc := h4 c rfl
          simp only [Bool.or_eq_false_iff, beq_eq_false_iff_ne] at hc
          rw [List.takeWhile_cons]
          split
          · unfold parseInt
            split
            · next heq => injection heq with heq; exact absurd heq hc.2
            · simp [hc.1]
          · rfl
      have hb : (!(readIdent r).1.isEmpty && (parseInt (readIdent r).1).isSome) = false := by
        show (!(r.takeWhile isIdentChar).isEmpty && (parseInt (r.takeWhile isIdentChar)).isSome) = false
        rw [hint, Bool.and_false]
      simp only [hb, Bool.false_eq_true, if_false]
      show (if (r.dropWhile isIdentChar).length < t.length then containsVariable (r.dropWhile isIdentChar) else some false) = _
      have hdl : (r.dropWhile isIdentChar).length ≤ r.length := (List.dropWhile_sublist _).length_le
      rw [if_pos (by omega)]
      exact ih _ (by omega) (drop r h3)

/-! ### literals -/

theorem skipString_other {t : Str} (h : NotBefore isQuote t) : skipString t = some none := by
  cases t with
  | nil => rfl
  | cons c cs =>
    have : (c == '\'' || c == '"') = false := by rw [Bool.or_comm]; exact h c rfl
    rw [skipString, this]
    simp

theorem skipRegexGo_text {u : Str} (hu : ∀ c ∈ u, c ≠ '/' ∧ c ≠ '\\') (r : Str) : ∀ pre : Str, pre.head? ≠ some '\\' →
    skipRegexGo pre (u ++ '/' :: r) = some r := by
  induction u with
  | nil =>
    intro pre hp
    rw [List.nil_append, skipRegexGo]
    have : pre.takeWhile (· == '\\') = [] := by
      cases pre with
      | nil => rfl
      | cons c pre =>
        rw [List.takeWhile_cons_of_neg]
        simp only [beq_iff_eq]
        intro e; exact hp (by simp [e])
    simp [this]
  | cons c u ih =>
    intro pre hp
    obtain ⟨h1, h2⟩ := hu c (by simp)
    rw [List.cons_append, skipRegexGo]
    rw [if_neg (by simpa using h1)]
    exact ih (fun d hd => hu d (by simp [hd])) _ (by simpa using h2)

theorem skipLiteral_text {s : Str} (h : Literal s) (t : Str) (hi : s.head? = some '/' → NotBefore (fun c => c == 'i') t) :
    skipLiteral (s ++ t) = some (some t) := by
  cases h with
  | string h =>
    obtain ⟨q, u, hq, hn, rfl⟩ := h
    have e : q :: u ++ [q] ++ t = q :: (u ++ q :: t) := by simp
    have hq' : (q == '\'' || q == '"') = true := by rw [Bool.or_comm]; exact hq
    rw [e, skipLiteral, skipString, if_pos hq', skipUntil_char hn]
  | @command u h =>
    have e : '$' :: '(' :: u ++ [')'] ++ t = '$' :: '(' :: (u ++ ')' :: t) := by simp
    have hs : skipTerminalCommand ('$' :: '(' :: (u ++ ')' :: t)) = some (some t) := by
      rw [skipTerminalCommand]
      simp only [skipStr, beq_self_eq_true, if_true]
      rw [scan_quotes h _ (.cons (by decide)), scan_hit (by decide)]
    rw [e, skipLiteral, skipString_other (.cons (by decide)), hs]
  | @regex u h =>
    have e : '/' :: u ++ ['/'] ++ t = '/' :: (u ++ '/' :: t) := by simp
    have hs : skipRegex ('/' :: (u ++ '/' :: t)) = some (some t) := by
      rw [skipRegex]
      simp only [beq_self_eq_true, if_true]
      rw [skipRegexGo_text h t _ (by decide)]
      have hi := hi rfl
      cases t with
      | nil => simp [skipStr]
      | cons c t =>
        have := hi c rfl
        simp only [beq_eq_false_iff_ne] at this
        simp [skipStr, Ne.symm this]
    rw [e, skipLiteral, skipString_other (.cons (by decide))]
    have hc : skipTerminalCommand ('/' :: (u ++ '/' :: t)) = some none := by
      rw [skipTerminalCommand]
      simp [skipStr]
    simp only [hc, hs]
  | @regexIgnoreCase u h =>
    have e : '/' :: u ++ ['/', 'i'] ++ t = '/' :: (u ++ '/' :: ('i' :: t)) := by simp
    have hs : skipRegex ('/' :: (u ++ '/' :: ('i' :: t))) = some (some t) := by
      rw [skipRegex]
      simp only [beq_self_eq_true, if_true]
      rw [skipRegexGo_text h _ _ (by decide)]
      simp [skipStr]
    rw [e, skipLiteral, skipString_other (.cons (by decide))]
    have hc : skipTerminalCommand ('/' :: (u ++ '/' :: ('i' :: t))) = some none := by
      rw [skipTerminalCommand]
      simp [skipStr]
    simp only [hc, hs]

theorem skipLiteral_other {c : Char} {t : Str} (h1 : isQuote c = false) (h2 : c ≠ '/') (h3 : c = '$' → NotBefore (fun c => c == '(') t) :
    skipLiteral (c :: t) = some none := by
  have hc : skipTerminalCommand (c :: t) = some none := by
    rw [skipTerminalCommand]
    by_cases hd : c = '$'
    · subst hd
      have := h3 rfl
      cases t with
      | nil => simp [skipStr]
      | cons d t =>
        have := this d rfl
        simp only [beq_eq_false_iff_ne] at this
        simp [skipStr, Ne.symm this]
    · simp [skipStr, Ne.symm hd]
  have hr : skipRegex (c :: t) = some none := by
    rw [skipRegex]
    simp [h2]
  rw [skipLiteral, skipString_other (.cons h1)]
  simp only [hc, hr]


/-! ### variables in strings -/

def openBrace (it : Str) : Bool × Str := match it with
  | '{' :: r => (true, r)
  | r => (false, r)

/-- the name behind `$` and what follows; the first component tells that it is incomplete -/
def varOf (it : Str) : Bool × Str × Str :=
  let (brace, it1) := openBrace it
  let (ident, it2) := readIdent it1
  let (closed, it3) := match it2 with
    | '}' :: r => if brace then (true, r) else (false, it2)
    | _ => (false, it2)
  (brace && !closed, ident, it3)

/-- one round of substituteVariables -/
def varStep (rec : Str → Option Str) (macros : Macros) (s it : Str) (v : Bool × Str × Str) : Option Str :=
  if v.1 || (macros.get v.2.1).isNone then
    if v.2.2.length < s.length then (substituteVariables rec macros v.2.2).map (textBefore s v.2.2 ++ ·) else none
  else
    match rec v.2.1 with
    | none => none
    | some x =>
      if v.2.2.length < s.length then
        (substituteVariables rec macros v.2.2).map ((s.take (s.length - it.length - 1)) ++ unquote x ++ ·)
      else none

theorem varOf_length (it : Str) : (varOf it).2.2.length ≤ it.length := by
  unfold varOf
  have hb : (openBrace it).2.length ≤ it.length := by
    unfold openBrace
    split <;> simp
  have hr : ∀ y : Str, (readIdent y).2.length ≤ y.length := fun y => (List.dropWhile_sublist _).length_le
  have hc : ∀ (b : Bool) (y : Str), (match y with | '}' :: r => if b then (true, r) else (false, y) | _ => (false, y)).2.length ≤ y.length := by
    intro b y
    split
    · split <;> simp
    · simp
  simp only []
  exact Nat.le_trans (hc _ _) (Nat.le_trans (hr _) hb)

theorem substituteVariables_none {rec : Str → Option Str} {macros : Macros} {s : Str} (h : skipUntil ['$'] s = none) :
    substituteVariables rec macros s = some s := by
  rw [substituteVariables.eq_def, h]

theorem substituteVariables_some {rec : Str → Option Str} {macros : Macros} {s it : Str} (h : skipUntil ['$'] s = some it) :
    substituteVariables rec macros s = varStep rec macros s it (varOf it) := by
  rw [substituteVariables.eq_def, h]
  rfl

theorem skipUntil_other {c d : Char} (h : c ≠ d) (t : Str) : skipUntil [c] (d :: t) = skipUntil [c] t := by
  rw [skipUntil]
  simp [skipStr, h]

theorem substituteVariables_char {rec : Str → Option Str} {macros : Macros} {c : Char} (hc : c ≠ '$') (t : Str) :
    substituteVariables rec macros (c :: t) = (substituteVariables rec macros t).map (c :: ·) := by
  have hs : skipUntil ['$'] (c :: t) = skipUntil ['$'] t := skipUntil_other (Ne.symm hc) t
  cases h : skipUntil ['$'] t with
  | none => rw [substituteVariables_none h, substituteVariables_none (by rw [hs, h])]; rfl
  | some it =>
    rw [substituteVariables_some h, substituteVariables_some (by rw [hs, h])]
    have hl : it.length + 1 ≤ t.length := skipUntil_length h
    have hv := varOf_length it
    generalize varOf it = v at hv ⊢
    obtain ⟨bad, ident, it3⟩ := v
    simp only [] at hv
    unfold varStep
    simp only []
    have h1 : it3.length < (c :: t).length := by simp; omega
    have h2 : it3.length < t.length := by omega
    rw [if_pos h1, if_pos h2]
    split
    · have : textBefore (c :: t) it3 = c :: textBefore t it3 := by
        unfold textBefore
        rw [show (c :: t).length - it3.length = (t.length - it3.length) + 1 by simp; omega, List.take_succ_cons]
      rw [this]
      cases substituteVariables rec macros it3 <;> simp
    · cases rec ident with
      | none => rfl
      | some x =>
        simp only []
        rw [show (c :: t).length - it.length - 1 = (t.length - it.length - 1) + 1 by simp; omega, List.take_succ_cons]
        cases substituteVariables rec macros it3 <;> simp

theorem substituteVariables_text {rec : Str → Option Str} {macros : Macros} {s : Str} (hs : '$' ∉ s) (t : Str) :
    substituteVariables rec macros (s ++ t) = (substituteVariables rec macros t).map (s ++ ·) := by
  induction s with
  | nil => simp
  | cons c s ih =>
    rw [List.cons_append, substituteVariables_char (by intro e; exact hs (by simp [e])), ih (fun h => hs (by simp [h]))]
    simp [Option.map_map, Function.comp_def]

theorem substituteVariables_dollar {rec : Str → Option Str} {macros : Macros} (it : Str) :
    substituteVariables rec macros ('$' :: it) = varStep rec macros ('$' :: it) it (varOf it) :=
  substituteVariables_some (by rw [skipUntil]; simp [skipStr])

theorem varOf_other {t : Str} (h : NotBefore (fun c => isIdentChar c || c == '{') t) : varOf t = (false, [], t) := by
  unfold varOf
  cases t with
  | nil => rfl
  | cons c t =>
    have := h c rfl
    simp only [Bool.or_eq_false_iff, beq_eq_false_iff_ne] at this
    obtain ⟨h1, h2⟩ := this
    have e : openBrace (c :: t) = (false, c :: t) := by
      unfold openBrace
      split
      · next heq => injection heq with heq; exact absurd heq h2
      · rfl
    have e2 : readIdent (c :: t) = ([], c :: t) := by simp [readIdent, h1]
    rw [e]
    simp only [e2]
    split <;> simp

theorem varOf_var {n t : Str} (hn : Word n) (ht : NotBefore isIdentChar t) : varOf (n ++ t) = (false, n, t) := by
  obtain ⟨hne, hi⟩ := hn
  unfold varOf
  have e : openBrace (n ++ t) = (false, n ++ t) := by
    unfold openBrace
    cases n with
    | nil => exact absurd rfl hne
    | cons c n =>
      have : c ≠ '{' := by intro e; have := hi c (by simp); rw [e] at this; exact absurd this (by decide)
      rw [List.cons_append]
      split
      · next heq => injection heq with heq; exact absurd heq this
      · rfl
  simp only [e]
  obtain ⟨e1, e2⟩ := takeWhile_ends hi ht
  simp only [readIdent, e1, e2]
  split <;> simp

theorem varOf_braces {n t : Str} (hn : Word n) : varOf ('{' :: (n ++ '}' :: t)) = (false, n, t) := by
  obtain ⟨hne, hi⟩ := hn
  unfold varOf
  obtain ⟨e1, e2⟩ := takeWhile_ends (b := '}' :: t) hi (by intro d hd; simp at hd; subst hd; decide)
  simp [openBrace, readIdent, e1, e2]

/-! ### builtin macros -/

theorem takeWhile_all {p : Char → Bool} {s : Str} (h : ∀ c ∈ s, p c = true) : s.takeWhile p = s := by
  have := (takeWhile_ends h (b := []) (by simp)).1
  simpa using this

theorem parseInt_digits {ds : Str} (hne : ds ≠ []) (hd : ∀ c ∈ ds, isDigitC c = true) (hv : digitsVal ds < 2147483648) :
    parseInt ds = some (digitsVal ds : Int) := by
  unfold parseInt
  split
  · next cs => exact absurd (hd '-' (by simp)) (by decide)
  · simp only [takeWhile_all hd]
    rw [if_neg (by simpa using hne), if_pos hv]

theorem parseInt_text {a : Int} {s : Str} (h : IntText a s) : parseInt s = some a := by
  cases h with
  | pos hne hd hv =>
    refine parseInt_digits hne hd ?_
    unfold InRange at hv
    omega
  | @neg ds hne hd hv =>
    unfold InRange at hv
    unfold parseInt
    simp only [takeWhile_all hd]
    rw [if_neg (by simpa using hne), if_pos (by omega)]

theorem divides_tdiv {a b q r : Int} (h : Divides a b q r) : b ≠ 0 ∧ a.tdiv b = q ∧ a.tmod b = r := by
  obtain ⟨h1, h2, h3⟩ := h
  have hb : b ≠ 0 := by intro e; subst e; simp at h2
  have ha := Int.mul_tdiv_add_tmod a b
  have hm : (a.tmod b).natAbs < b.natAbs := by
    rw [Int.natAbs_tmod]; exact Nat.mod_lt _ (Int.natAbs_pos.2 hb)
  have hs : 0 ≤ a.tmod b * a := by
    rcases Int.le_total 0 a with h0 | h0
    · exact Int.mul_nonneg (Int.tmod_nonneg _ h0) h0
    · have := Int.tmod_nonneg (a := -a) b (by omega)
      rw [Int.neg_tmod] at this
      have := Int.mul_nonneg this (show 0 ≤ -a by omega)
      rwa [Int.neg_mul_neg] at this
  -- both remainders have the sign of `a`, their difference is a multiple of `b`
  have hd : r - a.tmod b = b * (a.tdiv b - q) := by rw [Int.mul_sub]; omega
  have hlt : (r - a.tmod b).natAbs < b.natAbs := by
    rcases Int.lt_trichotomy a 0 with h0 | h0 | h0
    · have e1 : r ≤ 0 := by
        apply Int.not_lt.1; intro h; have := Int.mul_neg_of_pos_of_neg h h0; omega
      have e2 : a.tmod b ≤ 0 := by
        apply Int.not_lt.1; intro h; have := Int.mul_neg_of_pos_of_neg h h0; omega
      omega
    · subst h0
      have : (0 : Int).tmod b = 0 := Int.zero_tmod b
      rw [this]; omega
    · have e1 : 0 ≤ r := by
        apply Int.not_lt.1; intro h; have := Int.mul_neg_of_neg_of_pos h h0; omega
      have e2 : 0 ≤ a.tmod b := by
        apply Int.not_lt.1; intro h; have := Int.mul_neg_of_neg_of_pos h h0; omega
      omega
  have hz : a.tdiv b - q = 0 := by
    rcases Decidable.em (a.tdiv b - q = 0) with h | h
    · exact h
    · exfalso
      rw [hd, Int.natAbs_mul] at hlt
      have : 1 ≤ (a.tdiv b - q).natAbs := Int.natAbs_pos.2 h
      have := Nat.mul_le_mul_left b.natAbs this
      omega
  refine ⟨hb, by omega, ?_⟩
  rw [hz] at hd
  simp at hd
  omega

theorem insertedValue_cases (t : Str) : insertedValue t = t ∨ ∃ q, isQuote q = true ∧ t = q :: insertedValue t ++ [q] := by
  unfold insertedValue
  split
  · next c d ds =>
    split
    · next h =>
      right
      refine ⟨c, h.2, ?_⟩
      obtain ⟨ys, hy⟩ := List.getLast?_eq_some_iff.1 h.1.symm
      rw [hy]
      simp
    · exact Or.inl rfl
  · exact Or.inl rfl

theorem strContains_iff (n t : Str) : strContains n t = true ↔ n <:+: t := by
  induction t with
  | nil => rw [strContains]; simp
  | cons c t ih =>
    rw [strContains, Bool.or_eq_true, ih, List.isPrefixOf_iff_prefix, List.infix_cons_iff]

theorem arrow_inserted (t : Str) : ['>', '>'] <:+: t ↔ ['>', '>'] <:+: insertedValue t := by
  rcases insertedValue_cases t with h | ⟨q, hq, h⟩
  · rw [h]
  · obtain ⟨m, hm⟩ : ∃ m, insertedValue t = m := ⟨_, rfl⟩
    rw [hm] at h ⊢
    subst h
    have hq' : q ≠ '>' := by rintro rfl; exact absurd hq (by decide)
    constructor
    · intro hi
      rw [List.cons_append, List.infix_cons_iff] at hi
      rcases hi with hi | hi
      · have := List.cons_prefix_cons.1 hi
        exact absurd this.1 hq'.symm
      · obtain ⟨x, y, hxy⟩ := hi
        rcases List.eq_nil_or_concat y with rfl | ⟨y', z, rfl⟩
        · exfalso
          rw [List.append_nil] at hxy
          have := congrArg List.getLast? hxy
          simp [List.getLast?_append] at this
          exact hq' this.symm
        · refine ⟨x, y', ?_⟩
          have hxy : x ++ ['>', '>'] ++ y' ++ [z] = m ++ [q] := by simpa using hxy
          exact (List.append_inj' hxy rfl).1
    · rintro ⟨x, y, rfl⟩
      exact ⟨q :: x, y ++ [q], by simp⟩

theorem formal_other {c : Char} {t : Str} (hc : c ≠ '$') : formalArgumentCount (c :: t) = formalArgumentCount t := by
  rw [formalArgumentCount]; simp [hc]

theorem formal_text {s : Str} (hs : '$' ∉ s) (t : Str) : formalArgumentCount (s ++ t) = formalArgumentCount t := by
  induction s with
  | nil => rfl
  | cons c s ih =>
    rw [List.cons_append, formal_other (fun e => hs (by simp [e])), ih (fun h => hs (by simp [h]))]

theorem formal_number {cs r : Str} {n : Nat} (h : tryReadNumber cs = some (n, r)) :
    formalArgumentCount ('$' :: cs) = max (n + 1) (formalArgumentCount r) := by
  rw [formalArgumentCount.eq_def]
  simp only [beq_self_eq_true, if_true]
  split
  · next n' r' h' =>
    rw [h] at h'
    injection h' with h'
    injection h' with h1 h2
    subst h1 h2
    rfl
  · next h' => rw [h] at h'; cases h'

theorem formal_dollar {cs : Str} (h : tryReadNumber cs = none) : formalArgumentCount ('$' :: cs) = formalArgumentCount cs := by
  rw [formalArgumentCount.eq_def]
  simp only [beq_self_eq_true, if_true]
  split
  · next n' r' h' => rw [h] at h'; cases h'
  · rfl

/-- behind the text, there is something without parameters -/
theorem formal_body {ps : List BodyPiece} {m : Str} (h : BodyText ps m) (hc : BodyPiece.count ∉ ps) (e : Str) (he : '$' ∉ e)
    (hd : NotBefore isDigitC e) : formalArgumentCount (m ++ e) = arity ps := by
  induction h with
  | nil =>
    have := formal_text he []
    rw [List.append_nil] at this
    rw [List.nil_append, this, formalArgumentCount, arity]
  | text hs ht ih =>
    rw [List.append_assoc, formal_text hs, ih (fun h => hc (by simp [h])), arity]
    exact fun i h => by cases h
  | @dollar ps t ht hn ih =>
    rw [List.cons_append, formal_dollar, ih (fun h => hc (by simp [h])), arity]
    · exact fun i h => by cases h
    · apply tryReadNumber_other
      cases t with
      | nil => exact hd
      | cons c t =>
        have := hn c rfl
        simp at this
        exact .cons this.1
  | @arg ds ps t hne hds ht hte ih =>
    rw [List.cons_append, List.cons_append, List.append_assoc, formal_number (tryReadNumber_digits hne hds ?_),
      ih (fun h => hc (by simp [h])), arity]
    cases t with
    | nil => exact hd
    | cons c t => exact .cons (hte c rfl)
  | count => simp at hc

theorem formal_inserted {t : Str} {ps : List BodyPiece} (hb : BodyText ps (insertedValue t)) (hc : BodyPiece.count ∉ ps) :
    formalArgumentCount t = arity ps := by
  rcases insertedValue_cases t with h | ⟨q, hq, h⟩
  · rw [h] at hb
    have := formal_body hb hc [] (by simp) .nil
    rwa [List.append_nil] at this
  · have hq1 : q ≠ '$' := by rintro rfl; exact absurd hq (by decide)
    have hq2 : isDigitC q = false := by
      unfold isQuote at hq
      simp only [Bool.or_eq_true, beq_iff_eq] at hq
      rcases hq with rfl | rfl <;> decide
    rw [h, List.cons_append, formal_other hq1]
    exact formal_body hb hc [q] (by simp [Ne.symm hq1]) (.cons hq2)

theorem applyChunks_groups {text : Str} {ps : List BodyPiece} (hb : BodyText ps text) (lines : Bool) {left : List Str}
    (hl : left.length < arity ps ∨ arity ps = 0) : ∀ (groups : List (List Str)) (first : Bool),
    (∀ g ∈ groups, g.length = arity ps ∧ g ≠ []) →
    applyChunks text lines (arity ps) first (groups.flatten ++ left) =
      (if lines && !first && !groups.isEmpty then ['\n'] else []) ++ joined lines (groups.map (fun g => fillBody g ps)) := by
  intro groups
  induction groups with
  | nil =>
    intro first _
    rw [applyChunks, dif_pos (by simp; omega)]
    simp [joined]
  | cons g gs ih =>
    intro first hg
    obtain ⟨h1, h2⟩ := hg g (by simp)
    have h3 : 0 < g.length := List.length_pos_iff.2 h2
    rw [applyChunks, dif_neg (by simp; omega)]
    have e1 : ((g :: gs).flatten ++ left).take (arity ps) = g := by
      rw [List.flatten_cons, List.append_assoc, ← h1]; simp
    have e2 : ((g :: gs).flatten ++ left).drop (arity ps) = gs.flatten ++ left := by
      rw [List.flatten_cons, List.append_assoc, ← h1]; simp
    rw [e1, e2, ih false (fun g' h' => hg g' (by simp [h'])), substituteArguments_body _ hb]
    cases gs with
    | nil => simp [joined]
    | cons g' gs => simp [joined]

theorem builtin_two (name : String) {a b : Int} {s t : Str} (ha : IntText a s) (hb : IntText b t)
    (h1 : (name == "length") = false) (h2 : ["add", "sub", "mul", "div", "mod", "min", "max"].contains name = true) :
    builtinMacro name [s, t] = arithmeticMacro name a b := by
  unfold builtinMacro
  rw [if_neg (by rw [h1]; decide), if_pos h2]
  simp only [parseInt_text ha, parseInt_text hb]

theorem builtinMacro_eq {n : Str} {args : List Str} {b : Str} (h : Builtin n args b) :
    builtinMacro (String.ofList n) args = some b := by
  cases h with
  | @length q u hq =>
    rw [String.ofList_toList]
    unfold builtinMacro
    rw [if_pos (by decide)]
    have hl : (q :: u ++ [q]).getLast? = some q := List.getLast?_eq_some_iff.2 ⟨q :: u, rfl⟩
    have hh : (q :: u ++ [q]).head? = some q := by simp
    have hlen : (q :: u ++ [q]).length = u.length + 2 := by simp
    simp only [hl, hh, hlen]
    have : (decide (u.length + 2 < 2) || some q != some '"' && some q != some '\'' || some q != some q) = false := by
      unfold isQuote at hq
      simp only [Bool.or_eq_true, beq_iff_eq] at hq
      rcases hq with rfl | rfl <;> simp
    rw [if_neg (by rw [this]; decide)]
    rfl
  | @«repeat» a ds hne hd hv =>
    rw [String.ofList_toList]
    unfold builtinMacro
    rw [if_neg (by decide), if_neg (by decide), if_pos (by decide)]
    simp only [parseInt_digits hne hd hv]
    rfl
  | @repeatNegative a n s hs hn =>
    rw [String.ofList_toList]
    unfold builtinMacro
    rw [if_neg (by decide), if_neg (by decide), if_pos (by decide)]
    simp only [parseInt_text hs]
    rw [show n.toNat = 0 by omega]
    rfl
  | @default a b =>
    rw [String.ofList_toList]
    unfold builtinMacro
    rw [if_neg (by decide), if_neg (by decide), if_neg (by decide), if_pos (by decide)]
    cases a <;> simp
  | @add a b s t ha hb hr =>
    rw [String.ofList_toList, builtin_two _ ha hb (by decide) (by decide)]
    rfl
  | @sub a b s t ha hb hr =>
    rw [String.ofList_toList, builtin_two _ ha hb (by decide) (by decide)]
    rfl
  | @mul a b s t ha hb hr =>
    rw [String.ofList_toList, builtin_two _ ha hb (by decide) (by decide)]
    rfl
  | @div a b q r s t ha hb hd hq =>
    rw [String.ofList_toList, builtin_two _ ha hb (by decide) (by decide)]
    obtain ⟨h0, h1, -⟩ := divides_tdiv hd
    show some (if b != 0 then intToStr (a.tdiv b) else []) = _
    rw [if_pos (by simpa using h0), h1]
    rfl
  | @mod a b q r s t ha hb hd hq =>
    rw [String.ofList_toList, builtin_two _ ha hb (by decide) (by decide)]
    obtain ⟨h0, -, h1⟩ := divides_tdiv hd
    show some (if b != 0 then intToStr (a.tmod b) else []) = _
    rw [if_pos (by simpa using h0), h1]
    rfl
  | @divZero a s t ha hb =>
    rw [String.ofList_toList, builtin_two _ ha hb (by decide) (by decide)]
    rfl
  | @modZero a s t ha hb =>
    rw [String.ofList_toList, builtin_two _ ha hb (by decide) (by decide)]
    rfl
  | @min a b s t ha hb =>
    rw [String.ofList_toList, builtin_two _ ha hb (by decide) (by decide)]
    show some (intToStr (Min.min a b)) = _
    rw [Int.min_def]
    rfl
  | @max a b s t ha hb =>
    rw [String.ofList_toList, builtin_two _ ha hb (by decide) (by decide)]
    show some (intToStr (Max.max a b)) = _
    rw [Int.max_def]
    rfl
  | @apply t ps lines groups left hb hc hg hl hm =>
    rw [String.ofList_toList]
    unfold builtinMacro
    rw [if_neg (by decide), if_neg (by decide), if_neg (by decide), if_neg (by decide), if_pos (by decide)]
    have e : strContains ['>', '>'] t = lines := by
      rw [Bool.eq_iff_iff, strContains_iff, arrow_inserted, hm]
    simp only [e, formal_inserted hb hc, unquote_eq]
    rw [applyChunks_groups hb lines hl groups true hg]
    simp

/-! ### tokens -/

theorem skipArglist_other {t : Str} (h : NotBefore (fun c => c == '[') t) : skipArglist t = some none := by
  rw [skipArglist]
  cases t with
  | nil => rfl
  | cons c t =>
    have := h c rfl
    simp only [beq_eq_false_iff_ne] at this
    simp [skipStr, Ne.symm this]

theorem skipArglists_other {t : Str} (h : NotBefore (fun c => c == '[') t) : skipArglists t = some t := by
  rw [skipArglists, skipArglist_other h]

theorem textBefore_append (a b : Str) : textBefore (a ++ b) b = a := by
  unfold textBefore
  rw [show (a ++ b).length - b.length = a.length by simp]
  simp

theorem textBefore_self (a : Str) : textBefore a a = [] := by simp [textBefore]

/-- one round of the loop of preprocess -/
def goStep (rec : Str → Option Str) (macros : Macros) (apply : Bool) (it : Str) : Option (Option (Str × Str)) :=
  let (ident, it1) := readIdent it
  if !ident.isEmpty then
    match skipArglist it1 with
    | none => none
    | some none => (rec ident).map (fun r => some (r, it1))
    | some (some it2) =>
      if !apply then some (some (ident ++ textBefore it1 it2, it2))
      else (applyMacro rec macros ident (textBefore it1 it2) it2).map some
  else
    match skipLiteral it with
    | none => none
    | some (some it1) => (substituteVariables rec macros (textBefore it it1)).map (fun r => some (r, it1))
    | some none =>
      match it with
      | [] => none
      | c :: cs => if c == '#' || c == ';' then some none else some (some ([c], cs))

def goRest (rec : Str → Option Str) (macros : Macros) (apply : Bool) (it : Str) : Option (Option (Str × Str)) → Option Str
  | none => none
  | some none => some []
  | some (some (text, rest)) =>
    if rest.length < it.length then (preprocessGo rec macros apply rest).map (text ++ ·) else none

theorem preprocessGo_step {rec : Str → Option Str} {macros : Macros} {apply : Bool} {it : Str} (hne : it ≠ []) :
    preprocessGo rec macros apply it = goRest rec macros apply it (goStep rec macros apply it) := by
  cases it with
  | nil => exact absurd rfl hne
  | cons c cs =>
    rw [preprocessGo.eq_def]
    unfold goRest goStep
    rfl

theorem preprocessGo_text {rec : Str → Option Str} {macros : Macros} {apply : Bool} {it text rest r : Str}
    (h : goStep rec macros apply it = some (some (text, rest))) (hl : rest.length < it.length)
    (hr : preprocessGo rec macros apply rest = some r) : preprocessGo rec macros apply it = some (text ++ r) := by
  rw [preprocessGo_step (by intro e; subst e; simp at hl), h, goRest, if_pos hl, hr]
  rfl

theorem readIdent_word {n t : Str} (hn : Word n) (ht : NotBefore isIdentChar t) : readIdent (n ++ t) = (n, t) := by
  obtain ⟨e1, e2⟩ := takeWhile_ends hn.2 ht
  rw [readIdent, e1, e2]

theorem readIdent_other {t : Str} (ht : NotBefore isIdentChar t) : readIdent t = ([], t) := by
  obtain ⟨e1, e2⟩ := takeWhile_ends (a := []) (by simp) ht
  rw [readIdent]
  rw [List.nil_append] at e1 e2
  rw [e1, e2]

theorem Word.length {n : Str} (h : Word n) : 0 < n.length := List.length_pos_iff.2 h.1

theorem Word.isEmpty {n : Str} (h : Word n) : (!n.isEmpty) = true := by
  have := h.1
  cases n <;> simp at this ⊢

theorem Literal.first {s : Str} (h : Literal s) : s ≠ [] ∧ NotBefore isIdentChar s := by
  cases h with
  | string h =>
    obtain ⟨q, u, hq, -, rfl⟩ := h
    refine ⟨by simp, .cons ?_⟩
    unfold isQuote at hq
    simp only [Bool.or_eq_true, beq_iff_eq] at hq
    rcases hq with rfl | rfl <;> decide
  | command => exact ⟨by simp, .cons (by decide)⟩
  | regex => exact ⟨by simp, .cons (by decide)⟩
  | regexIgnoreCase => exact ⟨by simp, .cons (by decide)⟩

theorem notBefore_ident {f : Char → Bool} {s t : Str} (hne : s ≠ []) (h : NotBefore f s) : NotBefore f (s ++ t) := by
  cases s with
  | nil => exact absurd rfl hne
  | cons c s => exact .cons (h c rfl)

theorem NotBefore.imp {f g : Char → Bool} {t : Str} (h : NotBefore f t) (hi : ∀ c, f c = false → g c = false) : NotBefore g t :=
  fun c hc => hi c (h c hc)

/-! ### everything -/

/-- what the code does with a source -/
def Result (macros : Macros) (l : Nat) : Source → List Str → Prop
  | .text t, rs => ∃ r, rs = [r] ∧ preprocess macros l t = some r
  | .toks ap ts, rs => ∃ r, rs = [r] ∧ ∀ t, TokText ts t → preprocessGo (preprocess macros l) macros ap t = some r
  | .pieces ps, rs => ∃ r, rs = [r] ∧ ∀ t, PieceText ps t → substituteVariables (preprocess macros l) macros t = some r
  | .args as, rs => as.mapM (preprocess macros l) = some rs

theorem preprocess_word {macros : Macros} {l : Nat} {n : Str} (hn : Word n) : preprocess macros (l + 1) n =
    match macros.get n with | some m => preprocess macros l m | none => some n := by
  have h : readIdent n = (n, []) := by
    have := readIdent_word (t := []) hn .nil
    simpa using this
  rw [preprocess, h]
  simp only [hn.isEmpty, List.isEmpty_nil, Bool.and_self, if_true]
  rfl

theorem preprocess_text {macros : Macros} {l : Nat} {t : Str} (hn : ¬ Word t) : preprocess macros (l + 1) t =
    preprocessRange (preprocess macros l) macros true t := by
  rw [preprocess]
  have : (!(readIdent t).1.isEmpty && (readIdent t).2.isEmpty) = false := by
    apply Bool.eq_false_iff.2
    intro h
    simp only [Bool.and_eq_true, Bool.not_eq_true', List.isEmpty_iff, readIdent] at h
    obtain ⟨h1, h2⟩ := h
    have e : t.takeWhile isIdentChar = t := by
      have := List.takeWhile_append_dropWhile (p := isIdentChar) (l := t)
      rw [h2, List.append_nil] at this
      exact this
    apply hn
    rw [e] at h1
    refine ⟨by cases t <;> simp at h1 ⊢, fun c hc => ?_⟩
    rw [← e] at hc
    have key : ∀ l : Str, c ∈ l.takeWhile isIdentChar → isIdentChar c = true := by
      intro l
      induction l with
      | nil => simp
      | cons d l ih =>
        rw [List.takeWhile_cons]
        split
        · next hd => intro hc; rcases List.mem_cons.1 hc with rfl | hc; exact hd; exact ih hc
        · simp
    exact key t hc
  simp only [this, Bool.false_eq_true, if_false]

theorem containsVariable_true {t : Str} (h : HasParameter t) : containsVariable t = some true := by
  have key : ∀ t : Str, HasParameter t → ∃ ds r, skipUntilNotInString ['$'] t = some (true, ds ++ r) ∧ ds ≠ [] ∧
      (∀ c ∈ ds, isDigitC c = true) ∧ digitsVal ds < 2147483648 ∧ NotBefore isDigitC r := by
    intro t h
    induction h with
    | @here ds t hne hd hv he => exact ⟨ds, t, scan_hit (by decide) _, hne, hd, hv, he⟩
    | @char c t hc ht ih => rw [scan_char hc.1 (Ne.symm hc.2)]; exact ih
    | @string s t hs ht hn ih => rw [scan_string hs hn]; exact ih
  obtain ⟨ds, r, h1, h2, h3, h4, h5⟩ := key t h
  have hi : ∀ c ∈ ds, isIdentChar c = true := fun c hc => by
    have := h3 c hc
    unfold isIdentChar
    simp only [isDigitC] at this ⊢
    simp_all
  obtain ⟨x, hx⟩ : ∃ x, (ds ++ r).takeWhile isIdentChar = ds ++ x ∧ NotBefore isDigitC x := by
    refine ⟨r.takeWhile isIdentChar, ?_, ?_⟩
    · rw [List.takeWhile_append, takeWhile_all hi]; simp
    · intro c hc
      cases r with
      | nil => simp at hc
      | cons d r =>
        rw [List.takeWhile_cons] at hc
        split at hc
        · simp at hc; subst hc; exact h5 d rfl
        · simp at hc
  rw [containsVariable, h1]
  simp only [readIdent, hx.1]
  obtain ⟨c, ds', rfl⟩ := List.exists_cons_of_ne_nil h2
  have hp : parseInt (c :: ds' ++ x) = some (digitsVal (c :: ds') : Int) := by
    have htw : (c :: ds' ++ x).takeWhile isDigitC = c :: ds' := (takeWhile_ends h3 hx.2).1
    unfold parseInt
    split
    · next heq => injection heq with heq; subst heq; exact absurd (h3 '-' (by simp)) (by decide)
    · simp only [htw]
      rw [if_neg (by simp), if_pos h4]
  rw [if_pos (by rw [hp]; simp)]

theorem applyMacro_open {rec : Str → Option Str} {macros : Macros} {n list it : Str} {args vals : List Str} {text : Str}
    (h1 : argumentList list = some args) (h2 : args.mapM rec = some vals)
    (h3 : (match macros.get n with | some m => some (substituteArguments vals m) | none => builtinMacro (String.ofList n) vals) = some text)
    (h4 : containsVariable text = some true) : applyMacro rec macros n list it = some (text, it) := by
  rw [applyMacro, h1]
  simp only [h2]
  cases hg : macros.get n with
  | none =>
    rw [hg] at h3
    simp only [] at h3
    simp only [h3, h4]
  | some m =>
    rw [hg] at h3
    simp only [Option.some.injEq] at h3
    simp only [h3, h4]

theorem ListsText.quotes {m t : Str} (h : ListsText m) (ht : QuotesMatch (fun _ => false) t) :
    QuotesMatch (fun _ => false) (m ++ t) := by
  induction h with
  | nil => exact ht
  | cons ha hl ih =>
    rw [List.append_assoc]
    exact .char (by decide) (ha.balanced.quotes.append (.char (by decide) ih) (.cons (by decide)))

theorem skipArglists_lists {m t : Str} (h : ListsText m) (hm : QuotesMatch (fun _ => false) t) (he : NotBefore (fun c => c == '[') t) :
    skipArglists (m ++ t) = some t := by
  induction h with
  | nil => exact skipArglists_other he
  | @cons args list m ha hl ih =>
    have e : '[' :: list ++ ']' :: m ++ t = '[' :: (list ++ ']' :: (m ++ t)) := by simp
    rw [e, skipArglists, skipArglist_balanced ha.balanced (hl.quotes hm)]
    simp only []
    rw [if_pos (by simp; omega), ih]

theorem applyMacro_more {rec : Str → Option Str} {macros : Macros} {n list more it : Str} {args vals : List Str} {text a : Str}
    (h1 : argumentList list = some args) (h2 : args.mapM rec = some vals)
    (h3 : (match macros.get n with | some m => some (substituteArguments vals m) | none => builtinMacro (String.ofList n) vals) = some text)
    (h4 : containsVariable text = some false) (h5 : skipArglists (more ++ it) = some it) (h6 : rec (text ++ more) = some a) :
    applyMacro rec macros n list (more ++ it) = some (a, it) := by
  rw [applyMacro, h1]
  simp only [h2]
  cases hg : macros.get n with
  | none =>
    rw [hg] at h3
    simp only [] at h3
    simp only [h3, h4, h5, textBefore_append, h6]
  | some m =>
    rw [hg] at h3
    simp only [Option.some.injEq] at h3
    simp only [h3, h4, h5, textBefore_append, h6]

theorem applyMacro_eq {rec : Str → Option Str} {macros : Macros} {n list it : Str} {args vals : List Str} {text a : Str}
    (h1 : argumentList list = some args) (h2 : args.mapM rec = some vals)
    (h3 : (match macros.get n with | some m => some (substituteArguments vals m) | none => builtinMacro (String.ofList n) vals) = some text)
    (h4 : containsVariable text = some false) (h5 : NotBefore (fun c => c == '[') it) (h6 : rec text = some a) :
    applyMacro rec macros n list it = some (a, it) := by
  rw [applyMacro, h1]
  simp only [h2]
  have h3' := h3
  cases hg : macros.get n with
  | none =>
    rw [hg] at h3
    simp only [] at h3
    simp only [h3, h4, skipArglists_other h5, textBefore_self, List.append_nil, h6]
  | some m =>
    rw [hg] at h3
    simp only [Option.some.injEq] at h3
    simp only [h3, h4, skipArglists_other h5, textBefore_self, List.append_nil, h6]

theorem goStep_call {rec : Str → Option Str} {macros : Macros} {ap : Bool} {n list t : Str} {args : List Str} (hn : Word n)
    (ha : ArgsText args list) (hm : QuotesMatch (fun _ => false) t) :
    goStep rec macros ap (n ++ '[' :: list ++ ']' :: t) =
      if !ap then some (some (n ++ '[' :: list ++ [']'], t)) else (applyMacro rec macros n ('[' :: (list ++ [']'])) t).map some := by
  have e : n ++ '[' :: list ++ ']' :: t = n ++ ('[' :: (list ++ ']' :: t)) := by simp
  have e2 : textBefore ('[' :: (list ++ ']' :: t)) t = '[' :: (list ++ [']']) := by
    have := textBefore_append ('[' :: (list ++ [']'])) t
    simpa using this
  rw [e, goStep.eq_def, readIdent_word hn (.cons (by decide))]
  simp only [hn.isEmpty, if_true, skipArglist_balanced ha.balanced hm, e2]
  simp

theorem expand_result {macros : Macros} {l : Nat} {src : Source} {rs : List Str} (h : Expand macros l src rs) :
    Result macros l src rs := by
  induction h with
  | @plain l n hn hm => exact ⟨n, rfl, by rw [preprocess_word hn, hm]⟩
  | @alias l n m r hn hm hr ih =>
    obtain ⟨r', e, h⟩ := ih
    injection e with e; subst e
    exact ⟨r, rfl, by rw [preprocess_word hn, hm]; exact h⟩
  | @text l sp ts t r hs hn ht hw hr ih =>
    obtain ⟨r', e, h⟩ := ih
    injection e with e; subst e
    refine ⟨r, rfl, ?_⟩
    rw [preprocess_text hw, preprocessRange, skipSpace_spaces hs]
    have h' := h t ht
    cases t with
    | nil => exact h'
    | cons c t =>
      have hc := hn c rfl
      by_cases hc' : (c == '#' || c == ';') = true
      · have e : skipSpace (c :: t) = [] := by rw [skipSpace]; simp [hc, hc']
        rw [e]
        have : ts = [] := by
          have hc'' : c = '#' ∨ c = ';' := by simpa using hc'
          generalize htt : c :: t = tt at ht
          cases ht with
          | nil => rfl
          | comment => rfl
          | @word n ts t' hn' _ _ =>
            obtain ⟨d, n, rfl⟩ := List.exists_cons_of_ne_nil hn'.1
            injection htt with e1 e2
            subst e1
            have := hn'.2 c (by simp)
            rcases hc'' with rfl | rfl <;> exact absurd this (by decide)
          | @call n args list ts t' hn' _ _ _ _ =>
            obtain ⟨d, n, rfl⟩ := List.exists_cons_of_ne_nil hn'.1
            injection htt with e1 e2
            subst e1
            have := hn'.2 c (by simp)
            rcases hc'' with rfl | rfl <;> exact absurd this (by decide)
          | @callMore n args list more ts t' hn' _ _ _ _ _ =>
            obtain ⟨d, n, rfl⟩ := List.exists_cons_of_ne_nil hn'.1
            injection htt with e1 e2
            subst e1
            have := hn'.2 c (by simp)
            rcases hc'' with rfl | rfl <;> exact absurd this (by decide)
          | @callThen n args list ts t' hn' _ _ _ =>
            obtain ⟨d, n, rfl⟩ := List.exists_cons_of_ne_nil hn'.1
            injection htt with e1 e2
            subst e1
            have := hn'.2 c (by simp)
            rcases hc'' with rfl | rfl <;> exact absurd this (by decide)
          | @literal s ps ts t' hs' _ _ _ =>
            exfalso
            have : s.head? = some c := by
              obtain ⟨hne, _⟩ := hs'.first
              obtain ⟨d, n, rfl⟩ := List.exists_cons_of_ne_nil hne
              injection htt with e1 e2
              simp [e1]
            cases hs' with
            | string h =>
              obtain ⟨q, u, hq, -, rfl⟩ := h
              simp at this
              subst this
              rcases hc'' with rfl | rfl <;> exact absurd hq (by decide)
            | command => simp at this; subst this; rcases hc'' with h | h <;> exact absurd h (by decide)
            | regex => simp at this; subst this; rcases hc'' with h | h <;> exact absurd h (by decide)
            | regexIgnoreCase => simp at this; subst this; rcases hc'' with h | h <;> exact absurd h (by decide)
          | other hc3 _ _ =>
            injection htt with e1 e2
            subst e1
            rcases hc'' with e | e
            · exact absurd e hc3.2.2.1
            · exact absurd e hc3.2.2.2.1
        subst this
        have := h [] .nil
        exact this
      · rw [skipSpace_cons hc (Bool.eq_false_iff.2 hc')]
        exact h'
  | @nil l ap =>
    refine ⟨[], rfl, fun t ht => ?_⟩
    cases ht with
    | nil => rw [preprocessGo]
    | @comment c t hc =>
      rw [preprocessGo_step (by simp)]
      have h1 : NotBefore isIdentChar (c :: t) := .cons (by rcases hc with rfl | rfl <;> decide)
      have h2 : skipLiteral (c :: t) = some none := by
        apply skipLiteral_other <;> rcases hc with rfl | rfl <;> first | decide | (intro e; exact absurd e (by decide))
      have : goStep (preprocess macros l) macros ap (c :: t) = some none := by
        rw [goStep.eq_def, readIdent_other h1]
        simp only [h2, List.isEmpty_nil, Bool.not_true, Bool.false_eq_true, if_false]
        rw [if_pos (by simpa using hc)]
      rw [this]
      rfl
  | @word l ap n ts a r ha hr iha ihr =>
    obtain ⟨a', e, h1⟩ := iha
    injection e with e; subst e
    obtain ⟨r', e, h2⟩ := ihr
    injection e with e; subst e
    refine ⟨_, rfl, fun t ht => ?_⟩
    cases ht with
    | @word _ _ t hn ht he =>
      refine preprocessGo_text (rest := t) ?_ (by simp; exact hn.length) (h2 t ht)
      rw [goStep.eq_def, readIdent_word hn (he.imp (by simp_all))]
      simp only [hn.isEmpty, if_true, skipArglist_other (he.imp (g := fun c => c == '[') (by simp)), h1]
      rfl
  | @other l ap c ts r hr ihr =>
    obtain ⟨r', e, h2⟩ := ihr
    injection e with e; subst e
    refine ⟨_, rfl, fun t ht => ?_⟩
    cases ht with
    | @other _ _ t hc hd ht =>
      refine preprocessGo_text (text := [c]) (rest := t) ?_ (by simp) (h2 t ht)
      rw [goStep.eq_def, readIdent_other (.cons hc.1)]
      simp only [skipLiteral_other hc.2.1 hc.2.2.2.2 hd, List.isEmpty_nil, Bool.not_true, Bool.false_eq_true, if_false]
      rw [if_neg (by simp; exact ⟨hc.2.2.1, hc.2.2.2.1⟩)]
  | @literal l ap ps ts a r ha hr iha ihr =>
    obtain ⟨a', e, h1⟩ := iha
    injection e with e; subst e
    obtain ⟨r', e, h2⟩ := ihr
    injection e with e; subst e
    refine ⟨_, rfl, fun t ht => ?_⟩
    cases ht with
    | @literal s _ _ t hs hp ht hi =>
      obtain ⟨hne, hb⟩ := hs.first
      refine preprocessGo_text (rest := t) ?_ (by simp; exact List.length_pos_iff.2 hne) (h2 t ht)
      rw [goStep.eq_def, readIdent_other (notBefore_ident hne hb)]
      simp only [skipLiteral_text hs t hi, List.isEmpty_nil, Bool.not_true, Bool.false_eq_true, if_false, textBefore_append, h1 s hp]
      rfl
  | @callKept l n args list ts r hr ihr =>
    obtain ⟨r', e, h2⟩ := ihr
    injection e with e; subst e
    refine ⟨_, rfl, fun t ht => ?_⟩
    cases ht with
    | @call _ _ _ _ t hn ha ht hm he =>
      have := preprocessGo_text (it := n ++ '[' :: list ++ ']' :: t) (goStep_call (ap := false) hn ha hm) (by simp; omega) (h2 t ht)
      rw [this]
      simp
  | @call l n args list vals m ps a ts r hv hm hb hp ha hr ihv iha ihr =>
    obtain ⟨a', e, h1⟩ := iha
    injection e with e; subst e
    obtain ⟨r', e, h2⟩ := ihr
    injection e with e; subst e
    refine ⟨_, rfl, fun t ht => ?_⟩
    cases ht with
    | @call _ _ _ _ t hn ha ht hq he =>
      refine preprocessGo_text (rest := t) ?_ (by simp; omega) (h2 t ht)
      rw [goStep_call hn ha hq]
      rw [applyMacro_eq (argumentList_text ha) ihv (by rw [hm]; simp only [substituteArguments_body _ hb]) (containsVariable_false hp) he h1]
      rfl
  | @builtin l n args list vals b a ts r hv hm hb hp ha hr ihv iha ihr =>
    obtain ⟨a', e, h1⟩ := iha
    injection e with e; subst e
    obtain ⟨r', e, h2⟩ := ihr
    injection e with e; subst e
    refine ⟨_, rfl, fun t ht => ?_⟩
    cases ht with
    | @call _ _ _ _ t hn ha ht hq he =>
      refine preprocessGo_text (rest := t) ?_ (by simp; omega) (h2 t ht)
      rw [goStep_call hn ha hq]
      rw [applyMacro_eq (argumentList_text ha) ihv (by rw [hm]; exact builtinMacro_eq hb) (containsVariable_false hp) he h1]
      rfl
  | @callMore l n args list more vals m ps a ts r hv hm hb hp ha hr ihv iha ihr =>
    obtain ⟨a', e, h1⟩ := iha
    injection e with e; subst e
    obtain ⟨r', e, h2⟩ := ihr
    injection e with e; subst e
    refine ⟨_, rfl, fun t ht => ?_⟩
    cases ht with
    | @callMore _ _ _ _ _ t hn ha hl ht hq he =>
      refine preprocessGo_text (rest := t) ?_ (by simp; omega) (h2 t ht)
      rw [goStep_call hn ha (hl.quotes hq)]
      rw [applyMacro_more (argumentList_text ha) ihv (by rw [hm]; simp only [substituteArguments_body _ hb]) (containsVariable_false hp)
        (skipArglists_lists hl hq he) h1]
      rfl
  | @builtinMore l n args list more vals b a ts r hv hm hb hp ha hr ihv iha ihr =>
    obtain ⟨a', e, h1⟩ := iha
    injection e with e; subst e
    obtain ⟨r', e, h2⟩ := ihr
    injection e with e; subst e
    refine ⟨_, rfl, fun t ht => ?_⟩
    cases ht with
    | @callMore _ _ _ _ _ t hn ha hl ht hq he =>
      refine preprocessGo_text (rest := t) ?_ (by simp; omega) (h2 t ht)
      rw [goStep_call hn ha (hl.quotes hq)]
      rw [applyMacro_more (argumentList_text ha) ihv (by rw [hm]; exact builtinMacro_eq hb) (containsVariable_false hp)
        (skipArglists_lists hl hq he) h1]
      rfl
  | @callThenKept l n args list ts r hr ihr =>
    obtain ⟨r', e, h2⟩ := ihr
    injection e with e; subst e
    refine ⟨_, rfl, fun t ht => ?_⟩
    cases ht with
    | @callThen _ _ _ _ t hn ha ht hm =>
      have := preprocessGo_text (it := n ++ '[' :: list ++ ']' :: t) (goStep_call (ap := false) hn ha hm) (by simp; omega) (h2 t ht)
      rw [this]
      simp
  | @callOpen l n args list vals m ps ts r hv hm hb hp hr ihv ihr =>
    obtain ⟨r', e, h2⟩ := ihr
    injection e with e; subst e
    refine ⟨_, rfl, fun t ht => ?_⟩
    cases ht with
    | @callThen _ _ _ _ t hn ha ht hq =>
      refine preprocessGo_text (rest := t) ?_ (by simp; omega) (h2 t ht)
      rw [goStep_call hn ha hq]
      rw [applyMacro_open (argumentList_text ha) ihv (by rw [hm]; simp only [substituteArguments_body _ hb]) (containsVariable_true hp)]
      rfl
  | @builtinOpen l n args list vals b ts r hv hm hb hp hr ihv ihr =>
    obtain ⟨r', e, h2⟩ := ihr
    injection e with e; subst e
    refine ⟨_, rfl, fun t ht => ?_⟩
    cases ht with
    | @callThen _ _ _ _ t hn ha ht hq =>
      refine preprocessGo_text (rest := t) ?_ (by simp; omega) (h2 t ht)
      rw [goStep_call hn ha hq]
      rw [applyMacro_open (argumentList_text ha) ihv (by rw [hm]; exact builtinMacro_eq hb) (containsVariable_true hp)]
      rfl
  | argsNil => rfl
  | @argsCons l a as v vs ha hs iha ihs =>
    obtain ⟨a', e, h1⟩ := iha
    injection e with e; subst e
    show (a :: as).mapM (preprocess macros l) = some (v :: vs)
    rw [List.mapM_cons, h1]
    have : as.mapM (preprocess macros l) = some vs := ihs
    simp [this]
  | piecesNil =>
    refine ⟨_, rfl, fun t ht => ?_⟩
    cases ht
    exact substituteVariables_none rfl
  | @pieceText l s ps r h0 hr ih =>
    obtain ⟨r', e, h⟩ := ih
    injection e with e; subst e
    refine ⟨_, rfl, fun t ht => ?_⟩
    cases ht with
    | text hs ht => rw [substituteVariables_text hs, h _ ht]; rfl
    | dollar ht hn =>
      rw [substituteVariables_dollar, varOf_other hn, varStep]
      simp only [h0, Option.isNone_none, Bool.or_true, if_true, List.length_cons, Nat.lt_add_one, h _ ht]
      have := textBefore_append ['$'] (by assumption)
      simp_all [textBefore]
  | @var l n m a ps r hm ha hr iha ihr =>
    obtain ⟨a', e, h1⟩ := iha
    injection e with e; subst e
    obtain ⟨r', e, h⟩ := ihr
    injection e with e; subst e
    refine ⟨_, rfl, fun t ht => ?_⟩
    cases ht with
    | @var _ _ t hn ht he =>
      rw [List.cons_append, substituteVariables_dollar, varOf_var hn he, varStep]
      have hl : t.length < ('$' :: (n ++ t)).length := by simp; omega
      simp only [hm, Option.isNone_some, Bool.or_self, Bool.false_eq_true, if_false, h1, if_pos hl, h t ht, unquote_eq]
      simp
  | @varBraces l n m a ps r hm ha hr iha ihr =>
    obtain ⟨a', e, h1⟩ := iha
    injection e with e; subst e
    obtain ⟨r', e, h⟩ := ihr
    injection e with e; subst e
    refine ⟨_, rfl, fun t ht => ?_⟩
    cases ht with
    | @varBraces _ _ t hn ht =>
      rw [List.cons_append, List.cons_append, substituteVariables_dollar, varOf_braces hn, varStep]
      have hl : t.length < ('$' :: '{' :: (n ++ '}' :: t)).length := by simp; omega
      simp only [hm, Option.isNone_some, Bool.or_self, Bool.false_eq_true, if_false, h1, if_pos hl, h t ht, unquote_eq]
      simp
  | @varUnknown l n ps r hm hr ihr =>
    obtain ⟨r', e, h⟩ := ihr
    injection e with e; subst e
    refine ⟨_, rfl, fun t ht => ?_⟩
    cases ht with
    | @var _ _ t hn ht he =>
      rw [List.cons_append, substituteVariables_dollar, varOf_var hn he, varStep]
      have hl : t.length < ('$' :: (n ++ t)).length := by simp; omega
      simp only [hm, Option.isNone_none, Bool.or_true, if_true, if_pos hl, h t ht]
      have := textBefore_append ('$' :: n) t
      simp only [List.cons_append] at this
      rw [this]; rfl
  | @varBracesUnknown l n ps r hm hr ihr =>
    obtain ⟨r', e, h⟩ := ihr
    injection e with e; subst e
    refine ⟨_, rfl, fun t ht => ?_⟩
    cases ht with
    | @varBraces _ _ t hn ht =>
      rw [List.cons_append, List.cons_append, substituteVariables_dollar, varOf_braces hn, varStep]
      have hl : t.length < ('$' :: '{' :: (n ++ '}' :: t)).length := by simp; omega
      simp only [hm, Option.isNone_none, Bool.or_true, if_true, if_pos hl, h t ht]
      have := textBefore_append ('$' :: '{' :: (n ++ ['}'])) t
      simp only [List.cons_append, List.append_assoc, List.nil_append] at this
      rw [this]
      simp

end KM
