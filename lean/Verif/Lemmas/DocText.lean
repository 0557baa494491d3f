import Verif.Spec.Document
import Verif.Lemmas.MacroExpand
/-!
# The texts of inputs and outputs: where they begin, where a first word ends
-/
namespace KM

/-- the begin of a comment -/
def isCommentC (c : Char) : Bool := c == '#' || c == ';'

theorem skipSpace_eq {x : Str} (h : NotBefore isCommentC (x.dropWhile isSpaceC)) : skipSpace x = x.dropWhile isSpaceC := by
  induction x with
  | nil => rfl
  | cons c x ih =>
    by_cases hc : isSpaceC c = true
    · rw [List.dropWhile_cons_of_pos hc] at h ⊢
      rw [skipSpace, if_pos hc]
      exact ih h
    · rw [List.dropWhile_cons_of_neg hc] at h ⊢
      exact skipSpace_cons (Bool.eq_false_iff.2 hc) (h c rfl)

theorem mem_takeWhile_of {p : Char → Bool} {c : Char} {l : Str} (h : c ∈ l.takeWhile p) : p c = true := by
  induction l with
  | nil => cases h
  | cons d l ih =>
    rw [List.takeWhile_cons] at h
    split at h
    · next hd =>
      rcases List.mem_cons.1 h with rfl | h
      · exact hd
      · exact ih h
    · cases h

theorem notBefore_dropWhile {p : Char → Bool} (l : Str) : NotBefore p (l.dropWhile p) := by
  induction l with
  | nil => exact .nil
  | cons d l ih =>
    rw [List.dropWhile_cons]
    split
    · exact ih
    · next hd => exact .cons (Bool.eq_false_iff.2 hd)

theorem dropWhile_spaces {sp x : Str} (hs : Spaces sp) (hx : NotBefore isSpaceC x) : (sp ++ x).dropWhile isSpaceC = x :=
  (takeWhile_ends hs hx).2

theorem isIdentChar_firm {c : Char} (h : isIdentChar c = true) : isSpaceC c = false ∧ isCommentC c = false :=
  ⟨(isIdentChar_cases h).1, (isIdentChar_cases h).2.1⟩

theorem isSpaceC_noIdent {c : Char} (h : isSpaceC c = true) : isIdentChar c = false := by
  cases hc : isIdentChar c with
  | false => rfl
  | true => rw [(isIdentChar_cases hc).1] at h; cases h

/-- A text which begins with something visible, which is not a comment -/
def Firm (x : Str) : Prop := ∃ c y, x = c :: y ∧ isSpaceC c = false ∧ isCommentC c = false

theorem Firm.drop {sp x : Str} (h : Firm x) (hs : Spaces sp) : (sp ++ x).dropWhile isSpaceC = x := by
  obtain ⟨c, y, rfl, h1, h2⟩ := h
  exact dropWhile_spaces hs (.cons h1)

theorem Firm.noComment {x : Str} (h : Firm x) : NotBefore isCommentC x := by
  obtain ⟨c, y, rfl, h1, h2⟩ := h
  exact .cons h2

theorem Firm.name {n t : Str} (hne : n ≠ []) (hn : ∀ c ∈ n, isIdentChar c = true) : Firm (n ++ t) := by
  obtain ⟨c, n, rfl⟩ := List.exists_cons_of_ne_nil hne
  have := isIdentChar_firm (hn c (by simp))
  exact ⟨c, n ++ t, rfl, this.1, this.2⟩

theorem Firm.digits {n t : Str} (hne : n ≠ []) (hn : ∀ c ∈ n, isDigitC c = true) : Firm (n ++ t) := by
  apply Firm.name hne
  exact fun c hc => isDigitC_ident (hn c hc)

theorem Firm.char {c : Char} {t : Str} (h : isSpaceC c = false ∧ isCommentC c = false) : Firm (c :: t) := ⟨c, t, rfl, h.1, h.2⟩

theorem Firm.quote {q : Char} {t : Str} (h : q = '"' ∨ q = '\'') : Firm (q :: t) := by
  apply Firm.char
  rcases h with rfl | rfl <;> decide

theorem KeysText.firm {getKey : Str → Key} {c : List Key} {t : Str} (h : KeysText getKey c t) (r : Str) : Firm (t ++ r) := by
  cases h with
  | one hn => exact Firm.name hn.nonempty hn.chars
  | together => exact Firm.char (by decide)

/-- the text of an output, apart from white space at the begin -/
theorem OutText.trim {getKey : Str → Key} {o : OutExpr} {t : Str} (h : OutText getKey o t) :
    OutText getKey o (t.dropWhile isSpaceC) ∧ NotBefore isCommentC (t.dropWhile isSpaceC) := by
  have fin : ∀ {sp x : Str} {o}, Spaces sp → Firm x → OutText getKey o x →
      OutText getKey o ((sp ++ x).dropWhile isSpaceC) ∧ NotBefore isCommentC ((sp ++ x).dropWhile isSpaceC) := by
    intro sp x o hs hx ht
    rw [hx.drop hs]
    exact ⟨ht, hx.noComment⟩
  have nil : Spaces [] := by simp [Spaces]
  cases h with
  | @nil sp hs =>
    have : t.dropWhile isSpaceC = [] := by
      have := dropWhile_spaces (x := []) hs .nil
      rwa [List.append_nil] at this
    rw [this]
    exact ⟨.nil nil, .nil⟩
  | @keys sp c t rest r hs hc hr ha =>
    rw [List.append_assoc]
    exact fin hs (hc.firm r) (by have := OutText.keys (sp := []) nil hc hr ha; simpa using this)
  | @hold sp c t sp' body b rest r hs hc hs' hb hr =>
    have e : sp ++ t ++ sp' ++ '{' :: b ++ '}' :: r = sp ++ (t ++ (sp' ++ '{' :: b ++ '}' :: r)) := by simp
    rw [e]
    exact fin hs (hc.firm _) (by have := OutText.hold (sp := []) nil hc hs' hb hr; simpa using this)
  | @not sp name k rest r hs hn hr ha =>
    rw [List.append_assoc]
    exact fin hs (Firm.char (by decide)) (by have := OutText.not (sp := []) nil hn hr ha; simpa using this)
  | @delay sp ds rest r hs hne hd hv hr =>
    rw [List.append_assoc]
    exact fin hs (Firm.digits hne hd) (by have := OutText.delay (sp := []) nil hne hd hv hr; simpa using this)
  | @type sp q s rest r hs hq hn hr =>
    have e : sp ++ q :: s ++ q :: r = sp ++ (q :: (s ++ q :: r)) := by simp
    rw [e]
    exact fin hs (Firm.quote hq) (by have := OutText.type (sp := []) nil hq hn hr; simpa using this)
  | @run sp command rest r hs hp hr =>
    have e : sp ++ '$' :: '(' :: command ++ ')' :: r = sp ++ ('$' :: '(' :: (command ++ ')' :: r)) := by simp
    rw [e]
    exact fin hs (Firm.char (by decide)) (by have := OutText.run (sp := []) nil hp hr; simpa using this)
  | @onRelease sp rest r hs hr =>
    exact fin hs (Firm.char (by decide)) (by have := OutText.onRelease (sp := []) nil hr; simpa using this)

/-- splitting off the first word -/
theorem word_unique {a b w x : Str} (h : a ++ b = w ++ x) (ha : ∀ c ∈ a, isIdentChar c = true) (hb : NotBefore isIdentChar b)
    (hw : ∀ c ∈ w, isIdentChar c = true) (hx : NotBefore isIdentChar x) : a = w ∧ b = x := by
  have h1 := takeWhile_ends ha hb
  have h2 := takeWhile_ends hw hx
  rw [h] at h1
  exact ⟨h1.1.symm.trans h2.1, h1.2.symm.trans h2.2⟩

theorem word_prefix {a b w x : Str} (h : a ++ b = w ++ x) (ha : ∀ c ∈ a, isIdentChar c = true) (hx : NotBefore isIdentChar x) :
    ∃ w', w = a ++ w' ∧ b = w' ++ x := by
  induction a generalizing w with
  | nil => exact ⟨w, rfl, by simpa using h⟩
  | cons c a ih =>
    cases w with
    | nil =>
      rw [List.nil_append] at h
      rw [← h] at hx
      have := hx c rfl
      rw [ha c (by simp)] at this
      cases this
    | cons d w =>
      injection h with h1 h2
      subst h1
      obtain ⟨w', e1, e2⟩ := ih h2 (fun d hd => ha d (by simp [hd]))
      exact ⟨w', by rw [e1]; rfl, e2⟩

theorem Names.notBefore {getKey : Str → Key} {n : Str} {k : Key} {r : Str} (hn : Names getKey n k) (ha : Apart n r) :
    NotBefore isIdentChar r := by
  intro d hd
  obtain ⟨c, hc⟩ : ∃ c, n.getLast? = some c := by
    cases h : n.getLast? with
    | none => exact absurd (List.getLast?_eq_none_iff.1 h) hn.nonempty
    | some c => exact ⟨c, rfl⟩
  rcases ha c d hc hd with h | h
  · rw [hn.chars c (List.mem_of_getLast? hc)] at h
    cases h
  · exact h

/-- what follows the first word is not a comment; `first` are texts which do not begin with a name -/
theorem after_other {sp y w x : Str} (hs : Spaces sp) (hf : Firm y) (hi : NotBefore isIdentChar y) (h : sp ++ y = w ++ x)
    (hw : ∀ c ∈ w, isIdentChar c = true) : NotBefore isCommentC (x.dropWhile isSpaceC) := by
  have hn : NotBefore isIdentChar (sp ++ y) := by
    cases sp with
    | nil => exact hi
    | cons c sp => exact .cons (isSpaceC_noIdent (hs c (by simp)))
  have : w = [] := by
    cases w with
    | nil => rfl
    | cons c w =>
      rw [h] at hn
      have := hn c rfl
      rw [hw c (by simp)] at this
      cases this
  subst this
  rw [List.nil_append] at h
  rw [← h, hf.drop hs]
  exact hf.noComment

/-- with white space in front, the first word is empty -/
theorem after_space {sp y w x : Str} (hs : Spaces sp) (hne : sp ≠ []) (hf : Firm y) (h : sp ++ y = w ++ x)
    (hw : ∀ c ∈ w, isIdentChar c = true) : NotBefore isCommentC (x.dropWhile isSpaceC) := by
  have : w = [] := by
    cases w with
    | nil => rfl
    | cons c w =>
      obtain ⟨d, sp, rfl⟩ := List.exists_cons_of_ne_nil hne
      injection h with h1 h2
      have := isSpaceC_noIdent (hs d (by simp))
      rw [h1, hw c (by simp)] at this
      cases this
  subst this
  rw [List.nil_append] at h
  rw [← h, hf.drop hs]
  exact hf.noComment

theorem Firm.cons_notIdent {c : Char} {t : Str} (h : isIdentChar c = false) : NotBefore isIdentChar (c :: t) := .cons h

theorem OutText.afterWord {getKey : Str → Key} {o : OutExpr} {t : Str} (h : OutText getKey o t) : ∀ w x : Str, t = w ++ x →
    (∀ c ∈ w, isIdentChar c = true) → NotBefore isIdentChar x → NotBefore isCommentC (x.dropWhile isSpaceC) := by
  induction h with
  | @nil sp hs =>
    intro w x e hw hx
    have : Spaces x := fun c hc => hs c (by rw [e]; simp [hc])
    have := dropWhile_spaces (x := []) this .nil
    rw [List.append_nil] at this
    rw [this]
    exact .nil
  | @keys sp c t rest r hs hc hr ha ih =>
    intro w x e hw hx
    rw [List.append_assoc] at e
    cases hc with
    | together hl => exact after_other hs (Firm.char (by decide)) (.cons (by decide)) e hw
    | @one _ k hn =>
      by_cases hsp : sp = []
      · subst hsp
        rw [List.nil_append] at e
        obtain ⟨rfl, rfl⟩ := word_unique e hn.chars (hn.notBefore ha) hw hx
        exact ih [] _ rfl (by simp) hx
      · exact after_space hs hsp (Firm.name hn.nonempty hn.chars) e hw
  | @hold sp c t sp' body b rest r hs hc hs' hb hr ihb ihr =>
    intro w x e hw hx
    have e' : sp ++ (t ++ (sp' ++ '{' :: (b ++ '}' :: r))) = w ++ x := by rw [← e]; simp
    cases hc with
    | together hl => exact after_other hs (Firm.char (by decide)) (.cons (by decide)) e' hw
    | @one _ k hn =>
      by_cases hsp : sp = []
      · subst hsp
        rw [List.nil_append] at e'
        have hb' : NotBefore isIdentChar (sp' ++ '{' :: (b ++ '}' :: r)) := by
          cases sp' with
          | nil => exact .cons (by decide)
          | cons d sp' => exact .cons (isSpaceC_noIdent (hs' d (by simp)))
        obtain ⟨rfl, rfl⟩ := word_unique e' hn.chars hb' hw hx
        have hf : Firm ('{' :: (b ++ '}' :: r)) := Firm.char (by decide)
        rw [hf.drop hs']
        exact hf.noComment
      · exact after_space hs hsp (Firm.name hn.nonempty hn.chars) e' hw
  | @not sp name k rest r hs hn hr ha ih =>
    intro w x e hw hx
    rw [List.append_assoc] at e
    exact after_other hs (Firm.char (by decide)) (.cons (by decide)) e hw
  | @delay sp ds rest r hs hne hd hv hr ih =>
    intro w x e hw hx
    rw [List.append_assoc] at e
    by_cases hsp : sp = []
    · subst hsp
      rw [List.nil_append] at e
      have e2 : (ds ++ ['m', 's']) ++ r = w ++ x := by rw [← e]; simp
      obtain ⟨w', e3, e4⟩ := word_prefix e2 (by
        intro c hc
        rcases List.mem_append.1 hc with hc | hc
        · exact isDigitC_ident (hd c hc)
        · rcases List.mem_cons.1 hc with rfl | hc
          · decide
          · rw [List.mem_singleton.1 hc]; decide) hx
      exact ih w' x e4 (fun c hc => hw c (by rw [e3]; simp [hc])) hx
    · exact after_space hs hsp (Firm.digits hne hd) e hw
  | @type sp q s rest r hs hq hn hr ih =>
    intro w x e hw hx
    have e' : sp ++ (q :: (s ++ q :: r)) = w ++ x := by rw [← e]; simp
    exact after_other hs (Firm.quote hq) (.cons (by rcases hq with rfl | rfl <;> decide)) e' hw
  | @run sp command rest r hs hp hr ih =>
    intro w x e hw hx
    have e' : sp ++ ('$' :: '(' :: (command ++ ')' :: r)) = w ++ x := by rw [← e]; simp
    exact after_other hs (Firm.char (by decide)) (.cons (by decide)) e' hw
  | @onRelease sp rest r hs hr ih =>
    intro w x e hw hx
    exact after_other hs (Firm.char (by decide)) (.cons (by decide)) e hw

/-! ### inputs -/

theorem InText.trim {getKey : Str → Key} {e : InExpr} {t : Str} (h : InText getKey e t) (hne : e ≠ .nil) :
    InText getKey e (t.dropWhile isSpaceC) ∧ Firm (t.dropWhile isSpaceC) := by
  have fin : ∀ {sp x : Str} {e}, Spaces sp → Firm x → InText getKey e x →
      InText getKey e ((sp ++ x).dropWhile isSpaceC) ∧ Firm ((sp ++ x).dropWhile isSpaceC) := by
    intro sp x o hs hx ht
    rw [hx.drop hs]
    exact ⟨ht, hx⟩
  have nil : Spaces [] := by simp [Spaces]
  cases h with
  | nil => exact absurd rfl hne
  | @keys sp c t rest r hs hc hr ha =>
    rw [List.append_assoc]
    exact fin hs (hc.firm r) (by have := InText.keys (sp := []) nil hc hr ha; simpa using this)
  | @hold sp c t sp' body b rest r hs hc hs' hb hr =>
    have e : sp ++ t ++ sp' ++ '{' :: b ++ '}' :: r = sp ++ (t ++ (sp' ++ '{' :: b ++ '}' :: r)) := by simp
    rw [e]
    exact fin hs (hc.firm _) (by have := InText.hold (sp := []) nil hc hs' hb hr; simpa using this)
  | @not sp name k rest r hs hn hr ha =>
    rw [List.append_assoc]
    exact fin hs (Firm.char (by decide)) (by have := InText.not (sp := []) nil hn hr ha; simpa using this)
  | @timeout sp ds rest r hs hne' hd hv hr =>
    rw [List.append_assoc]
    exact fin hs (Firm.digits hne' hd) (by have := InText.timeout (sp := []) nil hne' hd hv hr; simpa using this)
  | @notTimeout sp ds rest r hs hne' hd hv hr =>
    have e : sp ++ '!' :: ds ++ 'm' :: 's' :: r = sp ++ ('!' :: (ds ++ 'm' :: 's' :: r)) := by simp
    rw [e]
    exact fin hs (Firm.char (by decide)) (by have := InText.notTimeout (sp := []) nil hne' hd hv hr; simpa using this)
  | @type sp q s rest r hs hq hn hr =>
    have e : sp ++ q :: s ++ q :: r = sp ++ (q :: (s ++ q :: r)) := by simp
    rw [e]
    exact fin hs (Firm.quote hq) (by have := InText.type (sp := []) nil hq hn hr; simpa using this)

theorem InTextFlag.trim {getKey : Str → Key} {flag : Bool} {e : InExpr} {t : Str} (h : InTextFlag getKey flag e t) (hne : e ≠ .nil) :
    InTextFlag getKey flag e (t.dropWhile isSpaceC) ∧ Firm (t.dropWhile isSpaceC) := by
  cases h with
  | plain h => exact ⟨.plain (h.trim hne).1, (h.trim hne).2⟩
  | @flag sp _ t hs h =>
    have hf : Firm ('?' :: t) := Firm.char (by decide)
    rw [hf.drop hs]
    exact ⟨.flag (sp := []) (by simp [Spaces]) h, hf⟩

/-- the first word of an input which begins with one: it is the name of a key, or a key before braces -/
theorem InText.firstWord {getKey : Str → Key} {typer : Typer} {e : InExpr} {t w x : Str} (h : InText getKey e t)
    (hv : e.Valid typer false false false []) (ht : t = w ++ x) (hne : w ≠ []) (hw : ∀ c ∈ w, isIdentChar c = true)
    (hx : NotBefore isIdentChar x) : NotBefore isCommentC (x.dropWhile isSpaceC) ∧
      (Spaces x → ∃ k, Names getKey w k ∧ e = .keys false [k] .nil) := by
  -- no white space at the begin
  have nosp : ∀ {sp y : Str}, Spaces sp → sp ++ y = w ++ x → sp = [] := by
    intro sp y hs e
    cases sp with
    | nil => rfl
    | cons c sp =>
      obtain ⟨d, w, rfl⟩ := List.exists_cons_of_ne_nil hne
      injection e with e1 e2
      have := isSpaceC_noIdent (hs c (by simp))
      rw [e1, hw d (by simp)] at this
      cases this
  -- the first character is one of a word
  have head : ∀ {c : Char} {y : Str}, c :: y = w ++ x → isIdentChar c = true := by
    intro c y e
    obtain ⟨d, w, rfl⟩ := List.exists_cons_of_ne_nil hne
    injection e with e1 e2
    rw [e1]; exact hw d (by simp)
  cases h with
  | nil hs =>
    exfalso
    obtain ⟨d, w, rfl⟩ := List.exists_cons_of_ne_nil hne
    have h1 := hs d (by rw [ht]; simp)
    rw [(isIdentChar_firm (hw d (by simp))).1] at h1
    cases h1
  | @keys sp c t rest r hs hc hr ha =>
    rw [List.append_assoc] at ht
    have := nosp hs ht
    subst this
    rw [List.nil_append] at ht
    cases hc with
    | together hl => exact absurd (head ht) (by decide)
    | @one _ k hn =>
      obtain ⟨rfl, rfl⟩ := word_unique ht hn.chars (hn.notBefore ha) hw hx
      have hb : (t.head? == some '(') = false := by
        obtain ⟨d, w, rfl⟩ := List.exists_cons_of_ne_nil hne
        have := hw d (by simp)
        rw [beq_eq_false_iff_ne]
        intro e
        injection e with e
        rw [e] at this
        exact absurd this (by decide)
      constructor
      · by_cases hrest : rest = .nil
        · subst hrest
          cases hr with
          | nil hs =>
            have := dropWhile_spaces (x := []) hs .nil
            rw [List.append_nil] at this
            rw [this]; exact .nil
        · exact (hr.trim hrest).2.noComment
      · intro hsx
        refine ⟨k, hn, ?_⟩
        rw [hb]
        by_cases hrest : rest = .nil
        · rw [hrest]
        · exfalso
          obtain ⟨c, y, hc, -⟩ := (hr.trim hrest).2
          have := dropWhile_spaces (x := []) hsx .nil
          rw [List.append_nil] at this
          rw [this] at hc
          cases hc
  | @hold sp c t sp' body b rest r hs hc hs' hb hr =>
    have e' : sp ++ (t ++ (sp' ++ '{' :: (b ++ '}' :: r))) = w ++ x := by rw [← ht]; simp
    have := nosp hs e'
    subst this
    rw [List.nil_append] at e'
    cases hc with
    | together hl => exact absurd (head e') (by decide)
    | @one _ k hn =>
      have hb' : NotBefore isIdentChar (sp' ++ '{' :: (b ++ '}' :: r)) := by
        cases sp' with
        | nil => exact .cons (by decide)
        | cons d sp' => exact .cons (isSpaceC_noIdent (hs' d (by simp)))
      obtain ⟨rfl, rfl⟩ := word_unique e' hn.chars hb' hw hx
      have hf : Firm ('{' :: (b ++ '}' :: r)) := Firm.char (by decide)
      rw [hf.drop hs']
      refine ⟨hf.noComment, fun hsx => ?_⟩
      have := hsx '{' (by simp)
      exact absurd this (by decide)
  | @not sp name k rest r hs hn hr ha =>
    rw [List.append_assoc] at ht
    have := nosp hs ht
    subst this
    exact absurd (head ht) (by decide)
  | timeout => exact absurd hv.1 (by decide)
  | notTimeout => exact absurd hv.1 (by decide)
  | @type sp q s rest r hs hq hn hr =>
    have e' : sp ++ (q :: (s ++ q :: r)) = w ++ x := by rw [← ht]; simp
    have := nosp hs e'
    subst this
    have := head e'
    rcases hq with rfl | rfl <;> exact absurd this (by decide)

end KM
