import Verif.Lemmas.ParseProgress
import Verif.Spec.Grammar
/-!
# Reading the tokens of expressions
-/
namespace KM

/-- the text does not continue a name -/
def Ends (k : Str) : Prop := ∀ d, k.head? = some d → isIdentChar d = false

theorem Ends.nil : Ends [] := by intro d h; cases h

theorem Ends.cons {c : Char} {k : Str} (h : isIdentChar c = false) : Ends (c :: k) := by
  intro d hd; simp only [List.head?_cons, Option.some.injEq] at hd; rw [← hd]; exact h

theorem Apart.ends {a b k : Str} (h : Apart a b) (ha : ∀ c, a.getLast? = some c → isIdentChar c = true) (hne : a ≠ [])
    (hk : Ends k) : Ends (b ++ k) := by
  cases b with
  | nil => exact hk
  | cons d b =>
    intro x hx
    simp only [List.cons_append, List.head?_cons, Option.some.injEq] at hx
    obtain ⟨c, hc⟩ : ∃ c, a.getLast? = some c := by
      cases h' : a.getLast? with
      | none => rw [List.getLast?_eq_none_iff] at h'; exact absurd h' hne
      | some c => exact ⟨c, rfl⟩
    have := h c d hc rfl
    rw [ha c hc] at this
    rw [← hx]
    simpa using this

theorem skipSpace_spaces {sp : Str} (h : Spaces sp) (t : Str) : skipSpace (sp ++ t) = skipSpace t := by
  induction sp with
  | nil => rfl
  | cons c cs ih =>
    rw [List.cons_append, skipSpace, if_pos (h c (by simp))]
    exact ih (fun d hd => h d (by simp [hd]))

theorem skipSpace_cons {c : Char} {t : Str} (h1 : isSpaceC c = false) (h2 : (c == '#' || c == ';') = false) :
    skipSpace (c :: t) = c :: t := by
  rw [skipSpace]; simp [h1, h2]

theorem isIdentChar_cases {c : Char} (h : isIdentChar c = true) : isSpaceC c = false ∧ (c == '#' || c == ';') = false ∧ c ≠ '!' ∧
    c ≠ '\'' ∧ c ≠ '"' ∧ c ≠ '$' ∧ c ≠ '^' ∧ c ≠ '?' ∧ c ≠ '(' ∧ c ≠ ')' ∧ c ≠ '{' ∧ c ≠ '}' := by
  have hn : c.toNat = 95 ∨ c.toNat = 45 ∨ (97 ≤ c.toNat ∧ c.toNat ≤ 122) ∨ (65 ≤ c.toNat ∧ c.toNat ≤ 90) ∨
      (48 ≤ c.toNat ∧ c.toNat ≤ 57) := by
    simp only [isIdentChar, isAlphaC, isDigitC, Bool.or_eq_true, Bool.and_eq_true, decide_eq_true_eq, beq_iff_eq,
      Char.le_def, UInt32.le_iff_toNat_le] at h
    have e : ∀ d : Char, d.val.toNat = d.toNat := fun _ => rfl
    simp only [e] at h
    rcases h with (((h | h) | h) | h) | h
    · right; right; left; exact ⟨h.1, h.2⟩
    · right; right; right; left; exact ⟨h.1, h.2⟩
    · right; right; right; right; exact ⟨h.1, h.2⟩
    · subst h; left; rfl
    · subst h; right; left; rfl
  have hne : ∀ d : Char, c.toNat ≠ d.toNat → c ≠ d := by intro d h e; exact h (by rw [e])
  have n1 : c ≠ ' ' := hne _ (by show c.toNat ≠ 32; omega)
  have n2 : c ≠ '\t' := hne _ (by show c.toNat ≠ 9; omega)
  have n3 : c ≠ '\n' := hne _ (by show c.toNat ≠ 10; omega)
  have n4 : c ≠ '\r' := hne _ (by show c.toNat ≠ 13; omega)
  refine ⟨?_, ?_, hne _ (by show c.toNat ≠ 33; omega), hne _ (by show c.toNat ≠ 39; omega), hne _ (by show c.toNat ≠ 34; omega),
    hne _ (by show c.toNat ≠ 36; omega), hne _ (by show c.toNat ≠ 94; omega), hne _ (by show c.toNat ≠ 63; omega),
    hne _ (by show c.toNat ≠ 40; omega), hne _ (by show c.toNat ≠ 41; omega), hne _ (by show c.toNat ≠ 123; omega),
    hne _ (by show c.toNat ≠ 125; omega)⟩
  · simp only [isSpaceC, Bool.or_eq_false_iff, beq_eq_false_iff_ne]
    exact ⟨⟨⟨⟨⟨n1, n2⟩, n3⟩, n4⟩, by omega⟩, by omega⟩
  · simp only [Bool.or_eq_false_iff, beq_eq_false_iff_ne]
    exact ⟨hne _ (by show c.toNat ≠ 35; omega), hne _ (by show c.toNat ≠ 59; omega)⟩

theorem isDigitC_ident {c : Char} (h : isDigitC c = true) : isIdentChar c = true := by
  simp [isIdentChar, h]

theorem takeWhile_ends {p : Char → Bool} {a b : Str} (ha : ∀ c ∈ a, p c = true) (hb : ∀ d, b.head? = some d → p d = false) :
    (a ++ b).takeWhile p = a ∧ (a ++ b).dropWhile p = b := by
  induction a with
  | nil =>
    cases b with
    | nil => exact ⟨rfl, rfl⟩
    | cons d b =>
      have := hb d rfl
      simp [this]
  | cons c a ih =>
    have h1 := ha c (by simp)
    obtain ⟨h2, h3⟩ := ih (fun x hx => ha x (by simp [hx]))
    simp only [List.cons_append, List.takeWhile_cons, List.dropWhile_cons, h1, if_true, h2, h3, and_self]

theorem readIdent_name {name k : Str} (hn : ∀ c ∈ name, isIdentChar c = true) (hk : Ends k) :
    readIdent (name ++ k) = (name, k) := by
  obtain ⟨h1, h2⟩ := takeWhile_ends hn hk
  rw [readIdent, h1, h2]

theorem readKey_text {env : PEnv} {name : Str} {key : Key} {k : Str} (hn : Names env.getKey name key) (hk : Ends k) :
    readKey env (name ++ k) = some (key, k) := by
  rw [readKey, readIdent_name hn.chars hk]
  simp only [hn.key]
  have h1 : name.isEmpty = false := by
    cases h : name with
    | nil => exact absurd h hn.nonempty
    | cons => rfl
  simp only [h1, Bool.false_eq_true, if_false, bne_iff_ne, ne_eq, hn.exists_, not_false_eq_true, if_true]

theorem skipStr_ms {t r : Str} (h : skipStr ['m', 's'] t = some r) : t = 'm' :: 's' :: r := by
  match t with
  | [] => simp [skipStr] at h
  | [c] =>
    simp only [skipStr] at h
    split at h <;> cases h
  | c :: d :: t =>
    simp only [skipStr] at h
    split at h
    · next hc =>
      split at h
      · next hd =>
        injection h with h
        rw [← beq_iff_eq.1 hc, ← beq_iff_eq.1 hd, h]
      · cases h
    · cases h

private theorem takeWhile_all {p : Char → Bool} (l : Str) : ∀ c ∈ l.takeWhile p, p c = true := by
  induction l with
  | nil => intro c h; cases h
  | cons d l ih =>
    intro c h
    rw [List.takeWhile_cons] at h
    split at h
    · next hd =>
      rcases List.mem_cons.1 h with rfl | h
      · exact hd
      · exact ih c h
    · cases h

theorem tryReadTimeout_name {name k : Str} (_hn : ∀ c ∈ name, isIdentChar c = true) (hd : beginsWithDelay name = false)
    (hk : Ends k) : tryReadTimeout (name ++ k) = none := by
  have hkd : ∀ d, k.head? = some d → isDigitC d = false := by
    intro d h
    cases hx : isDigitC d with
    | false => rfl
    | true => exact absurd (hk d h) (by rw [isDigitC_ident hx]; decide)
  cases hr : tryReadTimeout (name ++ k) with
  | none => rfl
  | some x =>
    exfalso
    unfold tryReadTimeout tryReadNumber at hr
    simp only [] at hr
    split at hr
    · cases hr
    · next n r hnum =>
      split at hnum
      · cases hnum
      · next hne =>
        injection hnum with hnum
        injection hnum with h1 h2
        split at hr
        · cases hr
        · next r' hs =>
          have hms := skipStr_ms hs
          rw [← h2] at hms
          by_cases hall : ∀ c ∈ name, isDigitC c = true
          · rw [(takeWhile_ends hall hkd).2] at hms
            have := hk 'm' (by rw [hms]; rfl)
            exact absurd this (by decide)
          · have hex : ∃ c ∈ name, isDigitC c ≠ true := by
              simpa using hall
            have hdw : (name ++ k).dropWhile isDigitC = name.dropWhile isDigitC ++ k := by
              rw [List.dropWhile_append]
              split
              · next h =>
                exfalso
                obtain ⟨c, hc, hcd⟩ := hex
                have h' : name.takeWhile isDigitC ++ name.dropWhile isDigitC = name := List.takeWhile_append_dropWhile
                rw [List.isEmpty_iff.1 h, List.append_nil] at h'
                exact hcd (takeWhile_all name c (by rw [h']; exact hc))
              · rfl
            have htw : (name ++ k).takeWhile isDigitC = name.takeWhile isDigitC := by
              rw [List.takeWhile_append]
              split
              · next h =>
                exfalso
                obtain ⟨c, hc, hcd⟩ := hex
                have h' : name.takeWhile isDigitC = name :=
                  (List.takeWhile_prefix isDigitC).eq_of_length h
                exact hcd (takeWhile_all name c (by rw [h']; exact hc))
              · rfl
            rw [hdw] at hms
            rw [htw] at hne
            have hb : ((name.dropWhile isDigitC).take 2 == ['m', 's']) = false := by
              unfold beginsWithDelay at hd
              simpa [hne] using hd
            match hx : name.dropWhile isDigitC with
            | [] =>
              rw [hx] at hms
              have := hk 'm' (by rw [List.nil_append] at hms; rw [hms]; rfl)
              exact absurd this (by decide)
            | [c] =>
              rw [hx] at hms
              simp only [List.cons_append, List.nil_append, List.cons.injEq] at hms
              have := hk 's' (by rw [hms.2]; rfl)
              exact absurd this (by decide)
            | c :: d :: l =>
              rw [hx] at hms hb
              simp only [List.cons_append, List.cons.injEq] at hms
              rw [hms.1, hms.2.1] at hb
              simp at hb

theorem tryReadTimeout_delay {ds : Str} (hne : ds ≠ []) (hd : ∀ c ∈ ds, isDigitC c = true) (hv : digitsVal ds < 2147483648) (r : Str) :
    tryReadTimeout (ds ++ 'm' :: 's' :: r) = some (min 4095 (digitsVal ds), r) := by
  obtain ⟨h1, h2⟩ := takeWhile_ends (b := 'm' :: 's' :: r) hd (by intro d h; injection h with h; rw [← h]; decide)
  unfold tryReadTimeout tryReadNumber
  simp only [h1, h2]
  have : ds.isEmpty = false := by cases ds with | nil => exact absurd rfl hne | cons => rfl
  simp only [this, Bool.false_eq_true, if_false, skipStr, beq_self_eq_true, if_true, Option.some.injEq, Prod.mk.injEq, and_true]
  unfold durationToTimeout
  simp only []
  omega

/-- a text which begins like a name -/
theorem parseStep_ident {env : PEnv} {p : PState} {c : Char} {t : Str} (hc : isIdentChar c = true) :
    parseStep env p (c :: t) = parseTimeoutOrKey env p (c :: t) := by
  obtain ⟨-, -, h1, h2, h3, h4, h5, h6, h7, h8, h9, h10⟩ := isIdentChar_cases hc
  unfold parseStep
  split
  all_goals first
    | rfl
    | (rename_i heq; injection heq with heq; exfalso; simp_all)

theorem skipSpace_name {name k : Str} (hne : name ≠ []) (hn : ∀ c ∈ name, isIdentChar c = true) : skipSpace (name ++ k) = name ++ k := by
  cases name with
  | nil => exact absurd rfl hne
  | cons c cs =>
    obtain ⟨h1, h2, -⟩ := isIdentChar_cases (hn c (by simp))
    exact skipSpace_cons h1 h2

/-- reading the name of a key -/
theorem parseLoop_name {env : PEnv} {p : PState} {sp name k : Str} {key : Key} (hs : Spaces sp) (hn : Names env.getKey name key) (hk : Ends k) :
    parseLoop env p (sp ++ name ++ k) =
      parseLoop env { (if p.together then p else p.flush env.isInput true) with
        buffer := (if p.together then p.buffer else []) ++ [key] } k := by
  apply parseLoop_next
  rw [List.append_assoc, skipSpace_spaces hs, skipSpace_name hn.nonempty hn.chars]
  have hne := hn.nonempty
  have hch := hn.chars
  have hrk := readKey_text hn hk
  have hrt := tryReadTimeout_name hch hn.noDelay hk
  cases name with
  | nil => exact absurd rfl hne
  | cons c cs =>
    rw [List.cons_append] at hrk hrt ⊢
    rw [parseStep_ident (hch c (by simp)), parseTimeoutOrKey, hrt]
    simp only []
    rw [parseKey]
    simp only [List.isEmpty_cons, Bool.or_false, Bool.false_eq_true, if_false, hrk]
    cases hp : p.together with
    | true => simp
    | false =>
      simp [flush_buffer]

/-- reading names in parentheses -/
theorem parseLoop_names {env : PEnv} {ks : List Key} {t : Str} (h : NameList env.getKey ks t) : ∀ (p : PState) (k : Str), p.together = true →
    parseLoop env p (t ++ ')' :: k) = parseLoop env { p with buffer := p.buffer ++ ks } (')' :: k) := by
  induction h with
  | nil sp hs =>
    intro p k hp
    rw [List.append_nil]
    exact parseLoop_skipSpace (skipSpace_spaces hs _)
  | @cons sp name k ks t hs hn ht ha ih =>
    intro p r hp
    have he : Ends (t ++ ')' :: r) := Apart.ends ha (fun c hc => hn.chars c (List.mem_of_getLast? hc)) hn.nonempty (Ends.cons (by decide))
    rw [List.append_assoc, parseLoop_name hs hn he]
    simp only [hp, if_true]
    rw [ih _ _ (by simp)]
    simp

/-- the keys of a term are in the buffer -/
def PState.withKeys (p : PState) (isInput : Bool) (t : Str) (c : List Key) : PState :=
  { p.flush isInput true with
    buffer := c
    seq := (p.flush isInput true).seq ++ (if isInput && t.head? == some '(' then c.map (fun k => ⟨k, .DownAsync, 0⟩) else []) }

/-- reading `A` or `(A B)` -/
theorem parseLoop_keys {env : PEnv} {c : List Key} {t : Str} (h : KeysText env.getKey c t) (p : PState) (sp k : Str) (hs : Spaces sp)
    (hp : p.together = false) (hk : (∀ d, t.getLast? = some d → isIdentChar d = true) → Ends k) :
    parseLoop env p (sp ++ t ++ k) = parseLoop env (p.withKeys env.isInput t c) k := by
  cases h with
  | @one name key hn =>
    have he := hk (fun c hc => hn.chars c (List.mem_of_getLast? hc))
    rw [parseLoop_name hs hn he]
    have ht : (t.head? == some '(') = false := by
      rw [beq_eq_false_iff_ne]
      intro h
      exact absurd (hn.chars '(' (List.mem_of_head? h)) (by decide)
    simp only [hp, Bool.false_eq_true, if_false, List.nil_append, PState.withKeys, ht, Bool.and_false, List.append_nil]
  | @together ks t h =>
    have h1 : parseLoop env p (sp ++ ('(' :: t ++ [')']) ++ k) =
        parseLoop env { p.flush env.isInput true with together := true } (t ++ ')' :: k) := by
      have e : sp ++ ('(' :: t ++ [')']) ++ k = sp ++ ('(' :: (t ++ ')' :: k)) := by simp
      rw [e]
      apply parseLoop_next
      rw [skipSpace_spaces hs, skipSpace_cons (by decide) (by decide), parseStep]
      simp only [hp, Bool.false_eq_true, if_false]
    rw [h1, parseLoop_names h _ _ rfl]
    apply parseLoop_next
    rw [skipSpace_cons (by decide) (by decide), parseStep]
    simp only [Bool.not_true, Bool.false_eq_true, if_false, flush_buffer, List.nil_append]
    unfold PState.withKeys
    have ht : (('(' :: t ++ [')']).head? == some '(') = true := rfl
    rw [ht]
    have hpt : ∀ b, (p.flush b true).together = false := by
      intro b; rw [← hp]; unfold PState.flush; split <;> (try split) <;> rfl
    cases env.isInput <;> simp [hpt]

end KM
