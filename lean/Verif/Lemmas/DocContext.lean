import Verif.Lemmas.DocStep
/-!
# Reading the filters of a context
-/
namespace KM

/-- the effect of a filter -/
def Attr.apply (c : CContext) : Attr → CContext
  | .system name invert => { c with systemFilterMatched := (name.map toLowerC == "linux".toList) != invert }
  | a => a.set c

theorem readValue_quoted {q : Char} {u : Str} (hq : isQuote q = true) (hn : q ∉ u) (r : Str) :
    readValue (q :: u ++ [q] ++ r) = some (u, r) := by
  have e : q :: u ++ [q] ++ r = q :: (u ++ q :: r) := by simp
  have hq' : (q == '\'' || q == '"') = true := by rw [Bool.or_comm]; exact hq
  rw [e, readValue, if_pos hq', skipUntil_char hn]
  simp only []
  rw [show (u ++ q :: r).length - r.length - 1 = u.length by simp; omega, List.take_left]

theorem isQuote_cases {q : Char} (hq : isQuote q = true) : q = '"' ∨ q = '\'' := by
  simpa [isQuote] using hq

theorem notRegex {u : Str} (h : ¬ LooksLikeRegex u) : isRegexStr u = false := by
  cases hr : isRegexStr u with
  | false => rfl
  | true =>
    exfalso
    apply h
    simp only [isRegexStr, Bool.and_eq_true, decide_eq_true_eq, beq_iff_eq] at hr
    obtain ⟨⟨h1, h2⟩, h3⟩ := hr
    cases u with
    | nil => simp at h2
    | cons c w =>
      simp only [List.head?_cons, Option.some.injEq] at h2
      subst h2
      rcases List.eq_nil_or_concat w with rfl | ⟨w, l, rfl⟩
      · simp at h1
      · rw [List.concat_eq_append] at h3 ⊢
        have hl : ('/' :: (w ++ [l])).getLast? = some l := List.getLast?_concat (l := '/' :: w)
        rw [hl] at h3
        by_cases hi : l = 'i'
        · subst hi
          rw [if_pos rfl] at h3
          rcases List.eq_nil_or_concat w with rfl | ⟨w, x, rfl⟩
          · exact .inr (.inr rfl)
          · rw [List.concat_eq_append] at h3 ⊢
            have e : ('/' :: (w ++ [x] ++ ['i'])).length - 2 = w.length + 1 := by simp
            rw [e, List.getElem?_cons_succ, List.append_assoc, List.getElem?_append_right (Nat.le_refl _)] at h3
            simp only [Nat.sub_self, List.cons_append, List.getElem?_cons_zero, Option.some.injEq] at h3
            subst h3
            exact .inr (.inl ⟨w, by simp⟩)
        · rw [if_neg (by simpa using hi)] at h3
          have e : ('/' :: (w ++ [l])).length - 1 = w.length + 1 := by simp
          rw [e, List.getElem?_cons_succ, List.getElem?_append_right (Nat.le_refl _)] at h3
          simp only [Nat.sub_self, List.getElem?_cons_zero, Option.some.injEq] at h3
          subst h3
          exact .inl ⟨w, rfl⟩

theorem readFilter_text {env : CEnv} {s : CState} {value v : Str} {regex : Bool} (h : FilterValue env.validRegex value regex v) (invert : Bool)
    (rest : Str) (hr : NotBefore (fun c => c == 'i') rest) :
    s.readFilter env (v ++ rest) invert = some (⟨value, regex, invert⟩, rest) := by
  cases h with
  | @string q u hq hn hne hr' =>
    have e : q :: value ++ [q] ++ rest = q :: (value ++ q :: rest) := by simp
    have hq' : (q == '\'' || q == '"') = true := by rw [Bool.or_comm]; exact hq
    have h1 : skipRegex (q :: (value ++ q :: rest)) = some none := by
      rw [skipRegex, if_neg]
      rcases isQuote_cases hq with rfl | rfl <;> decide
    have h2 : skipString (q :: (value ++ q :: rest)) = some (some rest) := by
      rw [skipString, if_pos hq', skipUntil_char hn]
    have h3 : textBefore (q :: (value ++ q :: rest)) rest = q :: (value ++ [q]) := by
      have := textBefore_append (q :: (value ++ [q])) rest
      simpa using this
    have h4 : s.readFilterString (q :: (value ++ q :: rest)) = some (value, rest) := by
      rw [CState.readFilterString, h1]
      simp only []
      rw [h2]
      simp only []
      rw [h3]
      simp
    rw [e, CState.readFilter, h4]
    simp only []
    have h5 : value.isEmpty = false := by cases value with | nil => exact absurd rfl hne | cons => rfl
    have h6 : isRegexStr value = false := notRegex hr'
    rw [h5, h6]
    rfl
  | @regex u h hv =>
    have e : '/' :: u ++ ['/'] ++ rest = '/' :: (u ++ '/' :: rest) := by simp
    have h1 : skipRegex ('/' :: (u ++ '/' :: rest)) = some (some rest) := by
      rw [skipRegex]
      simp only [beq_self_eq_true, if_true]
      rw [skipRegexGo_text h rest _ (by decide)]
      cases rest with
      | nil => simp [skipStr]
      | cons c t =>
        have := hr c rfl
        simp only [beq_eq_false_iff_ne] at this
        simp [skipStr, Ne.symm this]
    have h3 : textBefore ('/' :: (u ++ '/' :: rest)) rest = '/' :: u ++ ['/'] := by
      have := textBefore_append ('/' :: u ++ ['/']) rest
      simpa using this
    have h4 : s.readFilterString ('/' :: (u ++ '/' :: rest)) = some ('/' :: u ++ ['/'], rest) := by
      rw [CState.readFilterString, h1]
      simp only []
      rw [h3]
    rw [e, CState.readFilter, h4]
    simp only []
    have h6 : isRegexStr ('/' :: u ++ ['/']) = true := by
      unfold isRegexStr
      have : ('/' :: u ++ ['/']).getLast? = some '/' := by rw [List.getLast?_concat]
      rw [this]
      simp
    rw [h6]
    rw [hv]
    rfl
  | @regexIgnoreCase u h hv =>
    have e : '/' :: u ++ ['/', 'i'] ++ rest = '/' :: (u ++ '/' :: 'i' :: rest) := by simp
    have h1 : skipRegex ('/' :: (u ++ '/' :: 'i' :: rest)) = some (some rest) := by
      rw [skipRegex]
      simp only [beq_self_eq_true, if_true]
      rw [skipRegexGo_text h _ _ (by decide)]
      simp [skipStr]
    have h3 : textBefore ('/' :: (u ++ '/' :: 'i' :: rest)) rest = '/' :: u ++ ['/', 'i'] := by
      have := textBefore_append ('/' :: u ++ ['/', 'i']) rest
      simpa using this
    have h4 : s.readFilterString ('/' :: (u ++ '/' :: 'i' :: rest)) = some ('/' :: u ++ ['/', 'i'], rest) := by
      rw [CState.readFilterString, h1]
      simp only []
      rw [h3]
    rw [e, CState.readFilter, h4]
    simp only []
    have h6 : isRegexStr ('/' :: u ++ ['/', 'i']) = true := by
      unfold isRegexStr
      have : ('/' :: u ++ ['/', 'i']).getLast? = some 'i' := by
        rw [show '/' :: u ++ ['/', 'i'] = ('/' :: u ++ ['/']) ++ ['i'] by simp, List.getLast?_concat]
      rw [this]
      simp
    rw [h6]
    rw [hv]
    rfl

theorem containsKey_false {l : KeySequence} {k : Key} (h : k ∉ l.map (·.key)) : containsKey l k = false := by
  rw [Bool.eq_false_iff]
  intro hc
  rw [containsKey, List.any_eq_true] at hc
  obtain ⟨x, hx, hk⟩ := hc
  exact h (List.mem_map.2 ⟨x, hx, beq_iff_eq.1 hk⟩)

/-- the event of a modifier -/
def modifierEvent (k : Bool × Key) : KeyEvent := ⟨k.2, if k.1 then .Not else .Down, 0⟩

theorem parseModifierList_text {s : CState} {logical : List LogicalKey} (hl : s.logical = logical) {keys : List (Bool × Key)} {t : Str}
    (h : ModifierText (namesWith logical) keys t) :
    ∀ acc : KeySequence, (acc.map (·.key) ++ keys.map (·.2)).Nodup →
      s.parseModifierList t acc = some (acc ++ keys.map modifierEvent) := by
  induction h with
  | @nil sp hs =>
    intro acc _
    rw [CState.parseModifierList, skipSpace_spaces_nil hs]
    simp
  | @down sp n k ks t hs hn hk ht ha ih =>
    intro acc hd
    obtain ⟨c, n', e⟩ := List.exists_cons_of_ne_nil hn.1
    have hc := hn.2 c (by rw [e]; simp)
    have hsk : skipSpace (sp ++ n ++ t) = c :: (n' ++ t) := by
      rw [List.append_assoc, skipSpace_spaces hs, skipSpace_name hn.1 hn.2, e]
      rfl
    have hne : (c == '!') = false := by
      rw [beq_eq_false_iff_ne]
      intro e; rw [e] at hc; revert hc; decide
    have hrd : readIdent (c :: (n' ++ t)) = (n, t) := by
      have := readIdent_word hn ha
      rw [e] at this ⊢
      exact this
    rw [CState.parseModifierList, hsk]
    simp only [hne, Bool.false_eq_true, if_false]
    rw [hrd]
    simp only []
    rw [getKey_logical hl, hk.1]
    rw [if_neg (by simp only [Bool.or_eq_true, beq_iff_eq, not_or]; exact hk.2), if_pos (by have := hn.length; simp; omega)]
    have hka : k ∉ acc.map (·.key) := by
      intro hm
      rw [List.nodup_append] at hd
      exact hd.2.2 k hm k (by simp) rfl
    rw [containsKey_false hka]
    simp only [Bool.false_eq_true, if_false]
    rw [ih]
    · simp [modifierEvent]
    · simpa using hd
  | @not sp n k ks t hs hn hk ht ha ih =>
    intro acc hd
    have hsk : skipSpace (sp ++ '!' :: n ++ t) = '!' :: (n ++ t) := by
      rw [List.append_assoc, skipSpace_spaces hs, List.cons_append, skipSpace]
      simp [isSpaceC]
    have hrd := readIdent_word hn ha
    rw [CState.parseModifierList, hsk]
    simp only [beq_self_eq_true, if_true]
    rw [hrd]
    simp only []
    rw [getKey_logical hl, hk.1]
    rw [if_neg (by simp only [Bool.or_eq_true, beq_iff_eq, not_or]; exact hk.2), if_pos (by have := hn.length; simp; omega)]
    have hka : k ∉ acc.map (·.key) := by
      intro hm
      rw [List.nodup_append] at hd
      exact hd.2.2 k hm k (by simp) rfl
    rw [containsKey_false hka]
    simp only [Bool.false_eq_true, if_false]
    rw [ih]
    · simp [modifierEvent]
    · simpa using hd

/-- the parts of a filter -/
theorem AttrText.parts {env : CEnv} {s : CState} {d : Doc} (hs : DocRel s d) {a : Attr} {t : Str}
    (h : AttrText env.validRegex (namesWith d.logical) d.macros a t) : ∃ n sp invert sp' v, t = n ++ sp ++ compareText invert ++ sp' ++ v ∧ Word n ∧
      (∀ r, skipStr "default".toList (n ++ r) = none ∧ skipStr "stage".toList (n ++ r) = none) ∧ Spaces sp ∧ Spaces sp' ∧ Firm v ∧
      ∀ ctx rest, NotBefore (fun c => c == 'i') rest →
        s.parseAttribute env ctx (String.ofList n) invert (v ++ rest) = some (a.apply ctx, rest) := by
  cases h with
  | @filter kind value regex invert n v sp sp' hn hv h1 h2 =>
    have hf : Firm v := by
      cases hv with
      | string hq => exact Firm.quote (isQuote_cases hq)
      | regex => exact Firm.char (by decide)
      | regexIgnoreCase => exact Firm.char (by decide)
    refine ⟨n, sp, invert, sp', v, rfl, ?_, ?_, h1, h2, hf, ?_⟩
    · cases hn <;> exact ⟨by decide, by decide⟩
    · intro r; cases hn <;> exact ⟨rfl, rfl⟩
    · intro ctx rest hr
      have := readFilter_text (s := s) hv invert rest hr
      cases hn <;> simp [CState.parseAttribute, this, Attr.apply, Attr.set]
  | @system q u invert sp sp' hq hn h1 h2 =>
    refine ⟨"system".toList, sp, invert, sp', q :: u ++ [q], by simp, ⟨by decide, by decide⟩, fun r => ⟨rfl, rfl⟩, h1, h2,
      Firm.quote (isQuote_cases hq), ?_⟩
    intro ctx rest hr
    have := readValue_quoted hq hn rest
    have hl : "Linux".toList.map toLowerC = "linux".toList := by decide
    simp only [CState.parseAttribute, this, Attr.apply, equalCaseInsensitive, hl]
    cases invert <;> simp
  | @modifier q u v keys invert sp sp' hq hn he hv hd h1 h2 =>
    refine ⟨"modifier".toList, sp, invert, sp', q :: u ++ [q], by simp, ⟨by decide, by decide⟩, fun r => ⟨rfl, rfl⟩, h1, h2,
      Firm.quote (isQuote_cases hq), ?_⟩
    intro ctx rest hr
    have h3 := readValue_quoted hq hn rest
    obtain ⟨r', e, h4⟩ := expand_result he
    injection e with e; subst e
    have h5 := parseModifierList_text hs.logical hv [] (by simpa using hd)
    have h6 : s.pre u = some v := by rw [CState.pre, hs.macros]; exact h4
    simp only [CState.parseAttribute, h3, h6, h5, Attr.apply, Attr.set]
    simp [modifierEvent]

theorem compareText_first (invert : Bool) : ∃ c r, compareText invert = c :: r ∧ isSpaceC c = false ∧ isCommentC c = false ∧ isIdentChar c = false := by
  cases invert
  · exact ⟨'=', [], rfl, by decide, by decide, by decide⟩
  · exact ⟨'!', ['='], rfl, by decide, by decide, by decide⟩

theorem spaces_notI {sp r : Str} (hs : Spaces sp) (hr : NotBefore (fun c => c == 'i') r) : NotBefore (fun c => c == 'i') (sp ++ r) := by
  cases sp with
  | nil => exact hr
  | cons c sp =>
    refine .cons ?_
    have := hs c (by simp)
    rw [beq_eq_false_iff_ne]
    intro e; rw [e] at this; revert this; decide

/-- what follows a filter -/
def attrNext (s : CState) (env : CEnv) (n : Nat) (ctx : CContext) (it5 : Str) : Option (CContext × Str) :=
  match skipSpace it5 with
  | ']' :: it6 => some (ctx, it6)
  | it6 =>
    let it7 := skipSpace (match it6 with | ',' :: r => r | r => r)
    if it7.isEmpty then none
    else if it7.length < n then s.parseAttributes env ctx it7 else none

/-- one filter -/
theorem parseAttributes_one {env : CEnv} {s : CState} {d : Doc} (hs : DocRel s d) {a : Attr} {t : Str}
    (h : AttrText env.validRegex (namesWith d.logical) d.macros a t) (ctx : CContext) (rest : Str) (hr : NotBefore (fun c => c == 'i') rest) :
    s.parseAttributes env ctx (t ++ rest) = attrNext s env (t ++ rest).length (a.apply ctx) rest := by
  obtain ⟨n, sp, invert, sp', v, rfl, hn, -, h1, h2, hf, hp⟩ := h.parts hs
  obtain ⟨c, r, hc, c1, c2, c3⟩ := compareText_first invert
  have e : n ++ sp ++ compareText invert ++ sp' ++ v ++ rest = n ++ (sp ++ (compareText invert ++ (sp' ++ (v ++ rest)))) := by simp
  have hb : NotBefore isIdentChar (sp ++ (compareText invert ++ (sp' ++ (v ++ rest)))) := by
    cases sp with
    | nil => rw [hc]; exact .cons c3
    | cons b sp => exact .cons (isSpaceC_noIdent (h1 b (by simp)))
  have hsk : skipSpace (sp ++ (compareText invert ++ (sp' ++ (v ++ rest)))) = compareText invert ++ (sp' ++ (v ++ rest)) := by
    rw [skipSpace_spaces h1, hc]
    exact skipSpace_cons c1 c2
  have hsk2 : skipSpace (sp' ++ (v ++ rest)) = v ++ rest := by
    rw [skipSpace_spaces h2]
    obtain ⟨b, y, rfl, y1, y2⟩ := hf
    exact skipSpace_cons y1 y2
  have hie : n.isEmpty = false := by have := hn.isEmpty; simpa using this
  rw [e, CState.parseAttributes, readIdent_word hn hb]
  simp only [hie, Bool.false_eq_true, if_false]
  rw [hsk]
  have hnext : ∀ p : Option (CContext × Str), p = some (a.apply ctx, rest) → (match p with
      | none => none
      | some (ctx, it5) => attrNext s env (n ++ (sp ++ (compareText invert ++ (sp' ++ (v ++ rest))))).length ctx it5) =
      attrNext s env (n ++ (sp ++ (compareText invert ++ (sp' ++ (v ++ rest))))).length (a.apply ctx) rest := by
    rintro p rfl; rfl
  rw [← hnext (s.parseAttribute env ctx (String.ofList n) invert (skipSpace (sp' ++ (v ++ rest)))) (by rw [hsk2]; exact hp ctx rest hr)]
  cases invert <;> rfl

theorem AttrText.firstChar {env : CEnv} {s : CState} {d : Doc} (hs : DocRel s d) {a : Attr} {t : Str}
    (h : AttrText env.validRegex (namesWith d.logical) d.macros a t) : ∃ c y, t = c :: y ∧ isIdentChar c = true := by
  obtain ⟨n, sp, invert, sp', v, rfl, hn, -⟩ := h.parts hs
  obtain ⟨c, n', e⟩ := List.exists_cons_of_ne_nil hn.1
  exact ⟨c, n' ++ sp ++ compareText invert ++ sp' ++ v, by rw [e]; simp, hn.2 c (by rw [e]; simp)⟩

theorem AttrsText.firstChar {env : CEnv} {s : CState} {d : Doc} (hs : DocRel s d) {as : List Attr} {t : Str}
    (h : AttrsText env.validRegex (namesWith d.logical) d.macros as t) : ∃ c y, t = c :: y ∧ isIdentChar c = true := by
  cases h with
  | one ha => obtain ⟨c, y, rfl, hc⟩ := ha.firstChar hs; exact ⟨c, _, by rw [List.cons_append], hc⟩
  | comma ha => obtain ⟨c, y, rfl, hc⟩ := ha.firstChar hs; exact ⟨c, _, by simp only [List.cons_append]; rfl, hc⟩
  | space ha => obtain ⟨c, y, rfl, hc⟩ := ha.firstChar hs; exact ⟨c, _, by simp only [List.cons_append]; rfl, hc⟩

/-- all filters -/
theorem parseAttributes_text {env : CEnv} {s : CState} {d : Doc} (hs : DocRel s d) {as : List Attr} {t : Str}
    (h : AttrsText env.validRegex (namesWith d.logical) d.macros as t) : ∀ (ctx : CContext) (rest : Str),
      s.parseAttributes env ctx (t ++ ']' :: rest) = some (as.foldl Attr.apply ctx, rest) := by
  induction h with
  | @one a t sp ha h1 =>
    intro ctx rest
    rw [List.append_assoc, parseAttributes_one hs ha ctx _ (spaces_notI h1 (.cons (by decide)))]
    rw [attrNext, skipSpace_spaces h1, skipSpace_cons (by decide) (by decide)]
    rfl
  | @comma a as t u sp sp' ha h1 h2 hu ih =>
    intro ctx rest
    have e : t ++ sp ++ ',' :: sp' ++ u ++ ']' :: rest = t ++ (sp ++ (',' :: (sp' ++ (u ++ ']' :: rest)))) := by simp
    rw [e, parseAttributes_one hs ha ctx _ (spaces_notI h1 (.cons (by decide)))]
    rw [attrNext, skipSpace_spaces h1, skipSpace_cons (by decide) (by decide)]
    obtain ⟨c, y, rfl, hc⟩ := hu.firstChar hs
    have hcc := isIdentChar_firm hc
    have hsk : skipSpace (sp' ++ (c :: y ++ ']' :: rest)) = c :: y ++ ']' :: rest := by
      rw [skipSpace_spaces h2, List.cons_append]
      exact skipSpace_cons hcc.1 hcc.2
    have hnext : ∀ x : Str, x = c :: y ++ ']' :: rest →
        (if x.isEmpty = true then none
        else if x.length < (t ++ (sp ++ (',' :: (sp' ++ (c :: y ++ ']' :: rest))))).length then s.parseAttributes env (a.apply ctx) x else none) =
        some ((a :: as).foldl Attr.apply ctx, rest) := by
      rintro x rfl
      rw [if_neg (by simp), if_pos (by simp; omega), ih]
      rfl
    exact hnext _ hsk
  | @space a as t u sp ha h1 hne hu ih =>
    intro ctx rest
    have e : t ++ sp ++ u ++ ']' :: rest = t ++ (sp ++ (u ++ ']' :: rest)) := by simp
    have hi : NotBefore (fun c => c == 'i') (sp ++ (u ++ ']' :: rest)) := by
      obtain ⟨c, sp, rfl⟩ := List.exists_cons_of_ne_nil hne
      refine .cons ?_
      have := h1 c (by simp)
      rw [beq_eq_false_iff_ne]
      intro e; rw [e] at this; revert this; decide
    rw [e, parseAttributes_one hs ha ctx _ hi]
    obtain ⟨c, y, rfl, hc⟩ := hu.firstChar hs
    have hcc := isIdentChar_firm hc
    have hsk : skipSpace (c :: y ++ ']' :: rest) = c :: y ++ ']' :: rest := by
      rw [List.cons_append]
      exact skipSpace_cons hcc.1 hcc.2
    have hlt : (c :: y ++ ']' :: rest).length < (t ++ (sp ++ (c :: y ++ ']' :: rest))).length := by
      have := List.length_pos_iff.2 hne
      simp; omega
    have n1 : c ≠ ']' := by rintro rfl; revert hc; decide
    have n2 : c ≠ ',' := by rintro rfl; revert hc; decide
    rw [attrNext, skipSpace_spaces h1, hsk]
    split
    · next heq => rw [List.cons_append] at heq; injection heq with e1 e2; exact absurd e1 n1
    · split
      · next heq => rw [List.cons_append] at heq; injection heq with e1 e2; exact absurd e1 n2
      · rw [hsk, if_neg (by simp), if_pos hlt, ih]
        rfl

end KM
