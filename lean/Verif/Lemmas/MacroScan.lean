import Verif.Lemmas.GrammarText
import Verif.Spec.Macros
/-!
# Scanning texts with strings and brackets
-/
namespace KM

theorem isQuote_ne {q c : Char} (hq : isQuote q = true) (hc : isQuote c = false) : q ≠ c := by
  intro h; rw [h, hc] at hq; cases hq

theorem Quoted.ne_nil {s : Str} (h : Quoted s) : s ≠ [] := by
  obtain ⟨q, u, -, -, rfl⟩ := h; simp

theorem skipUntil_char {q : Char} {u : Str} (h : q ∉ u) (r : Str) : skipUntil [q] (u ++ q :: r) = some r := by
  induction u with
  | nil => simp [skipUntil, skipStr]
  | cons c u ih =>
    rw [List.cons_append, skipUntil]
    have hc : (q == c) = false := by
      rw [beq_eq_false_iff_ne]; intro e; exact h (by simp [e])
    simp only [skipStr, hc, Bool.false_eq_true, if_false]
    exact ih (fun hm => h (by simp [hm]))

theorem skipQuoted_string {s : Str} (h : Quoted s) (r : Str) : skipQuoted (s ++ r) = some r := by
  obtain ⟨q, u, hq, hn, rfl⟩ := h
  have e : q :: u ++ [q] ++ r = q :: (u ++ q :: r) := by simp
  rw [e, skipQuoted]
  have : (q == '"' || q == '\'') = true := hq
  rw [if_pos this, skipUntil_char hn]

theorem skipQuoted_other {t : Str} (h : NotBefore isQuote t) : skipQuoted t = some t := by
  cases t with
  | nil => rfl
  | cons c cs =>
    have : (c == '"' || c == '\'') = false := h c rfl
    rw [skipQuoted, this]
    simp

/-- scanning behind a string -/
def scanRest (c : Char) : Str → Option (Bool × Str)
  | [] => some (false, [])
  | d :: cs => if c = d then some (true, cs) else skipUntilNotInString [c] cs

/-- one step of scanning -/
theorem scan_step {c : Char} {it it1 : Str} (h : skipQuoted it = some it1) :
    skipUntilNotInString [c] it = scanRest c it1 := by
  rw [skipUntilNotInString.eq_def]
  split
  · next h' => rw [h] at h'; cases h'
  · next it2 h' =>
    rw [h] at h'
    injection h' with h'
    subst h'
    cases it1 with
    | nil => simp [skipStr, scanRest]
    | cons d cs =>
      by_cases hcd : c = d
      · simp [skipStr, hcd, scanRest]
      · simp [skipStr, hcd, scanRest]

theorem scan_nil (c : Char) : skipUntilNotInString [c] [] = some (false, []) :=
  scan_step (it := []) (it1 := []) rfl

theorem scan_hit {c : Char} (hc : isQuote c = false) (r : Str) : skipUntilNotInString [c] (c :: r) = some (true, r) := by
  rw [scan_step (skipQuoted_other (by intro d hd; injection hd with hd; rw [← hd]; exact hc))]
  simp [scanRest]

theorem scan_char {c d : Char} (hd : isQuote d = false) (hn : c ≠ d) (r : Str) :
    skipUntilNotInString [c] (d :: r) = skipUntilNotInString [c] r := by
  rw [scan_step (skipQuoted_other (by intro x hx; injection hx with hx; rw [← hx]; exact hd))]
  simp [hn, scanRest]

theorem scan_string {c : Char} {s r : Str} (hs : Quoted s) (hr : NotBefore isQuote r) :
    skipUntilNotInString [c] (s ++ r) = skipUntilNotInString [c] r := by
  rw [scan_step (skipQuoted_string hs r), scan_step (skipQuoted_other hr)]

theorem NotBefore.append {f : Char → Bool} {a b : Str} (ha : NotBefore f a) (hb : NotBefore f b) : NotBefore f (a ++ b) := by
  cases a with
  | nil => exact hb
  | cons c a => intro d hd; exact ha d hd

theorem NotBefore.cons {f : Char → Bool} {c : Char} {t : Str} (h : f c = false) : NotBefore f (c :: t) := by
  intro d hd; injection hd with hd; rw [← hd]; exact h

theorem NotBefore.nil {f : Char → Bool} : NotBefore f [] := by
  intro d hd; cases hd

/-- texts without the character are skipped -/
theorem scan_quotes {c : Char} {u : Str} (h : QuotesMatch (fun d => d == c) u) (X : Str) (hX : NotBefore isQuote X) :
    skipUntilNotInString [c] (u ++ X) = skipUntilNotInString [c] X := by
  induction h with
  | nil => rfl
  | @char d t hd ht ih =>
    rw [List.cons_append, scan_char hd.1 (by have := hd.2; simp at this; exact fun e => this e.symm), ih]
  | @string s t hs ht hn ih =>
    rw [List.append_assoc, scan_string hs (hn.append hX), ih]

theorem QuotesMatch.append {stop : Char → Bool} {a b : Str} (ha : QuotesMatch stop a) (hb : QuotesMatch stop b) (hn : NotBefore isQuote b) :
    QuotesMatch stop (a ++ b) := by
  induction ha with
  | nil => exact hb
  | char hc ht ih => exact .char hc ih
  | string hs ht hnt ih => rw [List.append_assoc]; exact .string hs ih (hnt.append hn)

/-- scanning texts with matching quotes does not fail -/
theorem scan_total {c : Char} {t : Str} (h : QuotesMatch (fun _ => false) t) :
    skipUntilNotInString [c] t = some (false, []) ∨ ∃ r, skipUntilNotInString [c] t = some (true, r) ∧ r.length < t.length := by
  induction h with
  | nil => exact Or.inl (scan_nil c)
  | @char d t hd ht ih =>
    by_cases hcd : c = d
    · subst hcd
      exact Or.inr ⟨t, scan_hit hd.1 t, by simp⟩
    · rw [scan_char hd.1 hcd]
      rcases ih with ih | ⟨r, h1, h2⟩
      · exact Or.inl ih
      · exact Or.inr ⟨r, h1, by simp; omega⟩
  | @string s t hs ht hn ih =>
    rw [scan_string hs hn]
    rcases ih with ih | ⟨r, h1, h2⟩
    · exact Or.inl ih
    · exact Or.inr ⟨r, h1, by simp; omega⟩

theorem BracketsMatch.quotes {stop : Char → Bool} {b : Str} (h : BracketsMatch stop b) : QuotesMatch (fun _ => false) b := by
  induction h with
  | nil => exact .nil
  | char hc ht ih => exact .char ⟨hc.1, rfl⟩ ih
  | string hs ht hn ih => exact .string hs ih hn
  | @brackets stop b t hb ht ih1 ih2 =>
    exact .char ⟨by decide, rfl⟩ (ih1.append (.char ⟨by decide, rfl⟩ ih2) (.cons (by decide)))

theorem BracketsMatch.weaken {stop : Char → Bool} {b : Str} (h : BracketsMatch stop b) : BracketsMatch (fun _ => false) b := by
  induction h with
  | nil => exact .nil
  | char hc ht ih => exact .char ⟨hc.1, hc.2.1, hc.2.2.1, rfl⟩ ih
  | string hs ht hn ih => exact .string hs ih hn
  | brackets hb ht ih1 ih2 => exact .brackets hb ih2

theorem BracketsMatch.append {stop : Char → Bool} {a b : Str} (ha : BracketsMatch stop a) (hb : BracketsMatch stop b) (hn : NotBefore isQuote b) :
    BracketsMatch stop (a ++ b) := by
  induction ha with
  | nil => exact hb
  | char hc ht ih => exact .char hc (ih hb)
  | string hs ht hnt ih => rw [List.append_assoc]; exact .string hs (ih hb) (hnt.append hn)
  | @brackets stop b' t hb' ht ih1 ih2 =>
    have e : '[' :: b' ++ ']' :: t ++ b = '[' :: b' ++ ']' :: (t ++ b) := by simp
    rw [e]
    exact .brackets hb' (ih2 hb)

theorem isSpaceC_other {c : Char} (h : isSpaceC c = true) : isQuote c = false ∧ c ≠ '[' ∧ c ≠ ']' ∧ c ≠ ',' := by
  have : ∀ d : Char, isSpaceC d = false → c ≠ d := by
    intro d hd e; rw [e, hd] at h; cases h
  refine ⟨?_, this _ (by decide), this _ (by decide), this _ (by decide)⟩
  unfold isQuote
  simp [this '"' (by decide), this '\'' (by decide)]

theorem Spaces.balanced {s : Str} (h : Spaces s) : BracketsMatch (fun c => c == ',') s := by
  induction s with
  | nil => exact .nil
  | cons c s ih =>
    obtain ⟨h1, h2, h3, h4⟩ := isSpaceC_other (h c (by simp))
    exact .char ⟨h1, h2, h3, by simpa using h4⟩ (ih (fun d hd => h d (by simp [hd])))

theorem Spaces.notQuote {s : Str} (h : Spaces s) : NotBefore isQuote s := by
  cases s with
  | nil => exact .nil
  | cons c s => exact .cons (isSpaceC_other (h c (by simp))).1

/-- a closing bracket is found -/
theorem scan_close {stop : Char → Bool} {b : Str} (h : BracketsMatch stop b) : ∀ Y : Str,
    ∃ r, skipUntilNotInString [']'] (b ++ ']' :: Y) = some (true, r) ∧ r.length < (b ++ ']' :: Y).length := by
  induction h with
  | nil => intro Y; exact ⟨Y, scan_hit (by decide) Y, by simp⟩
  | @char stop c t hc ht ih =>
    intro Y
    obtain ⟨r, h1, h2⟩ := ih Y
    refine ⟨r, ?_, by simp at h2 ⊢; omega⟩
    rw [List.cons_append, scan_char hc.1 (Ne.symm hc.2.2.1), h1]
  | @string stop s t hs ht hn ih =>
    intro Y
    obtain ⟨r, h1, h2⟩ := ih Y
    refine ⟨r, ?_, by simp at h2 ⊢; omega⟩
    rw [List.append_assoc, scan_string hs (hn.append (.cons (by decide))), h1]
  | @brackets stop b t hb ht ih1 ih2 =>
    intro Y
    obtain ⟨r, h1, h2⟩ := ih1 (t ++ ']' :: Y)
    refine ⟨r, ?_, by simp at h2 ⊢; omega⟩
    have e : '[' :: b ++ ']' :: t ++ ']' :: Y = '[' :: (b ++ ']' :: (t ++ ']' :: Y)) := by simp
    rw [e, scan_char (by decide) (by decide), h1]

theorem arglist_congr {a b : Str} (h1 : skipUntilNotInString [']'] a = skipUntilNotInString [']'] b)
    (h2 : skipUntilNotInString ['['] a = skipUntilNotInString ['['] b) (fuel L : Nat) :
    skipArglistGo fuel L a = skipArglistGo fuel L b := by
  cases fuel with
  | zero => rfl
  | succ fuel => rw [skipArglistGo, skipArglistGo, h1, h2]

/-- a closing bracket -/
theorem arglist_close {Y : Str} (hY : QuotesMatch (fun _ => false) Y) (fuel L : Nat) :
    skipArglistGo (fuel + 1) L (']' :: Y) = if L - 1 = 0 then some (some Y) else skipArglistGo fuel (L - 1) Y := by
  rw [skipArglistGo, scan_hit (by decide)]
  simp only []
  rw [scan_char (by decide) (by decide)]
  rcases scan_total (c := '[') hY with h | ⟨r, h, hl⟩
  · rw [h]
  · rw [h]
    simp only []
    rw [if_neg (by omega)]

/-- balanced texts are skipped -/
theorem arglist_balanced {stop : Char → Bool} {b : Str} (h : BracketsMatch stop b) : ∃ k, k ≤ b.length ∧
    ∀ (X : Str) (fuel L : Nat), QuotesMatch (fun _ => false) X → NotBefore isQuote X → 1 ≤ L →
      skipArglistGo (fuel + k) L (b ++ X) = skipArglistGo fuel L X := by
  induction h with
  | nil => exact ⟨0, by simp, fun X fuel L _ _ _ => rfl⟩
  | @char stop c t hc ht ih =>
    obtain ⟨k, hk, ih⟩ := ih
    refine ⟨k, by simp; omega, fun X fuel L hX hq hL => ?_⟩
    rw [← ih X fuel L hX hq hL, List.cons_append]
    exact arglist_congr (scan_char hc.1 (Ne.symm hc.2.2.1) _) (scan_char hc.1 (Ne.symm hc.2.1) _) _ _
  | @string stop s t hs ht hn ih =>
    obtain ⟨k, hk, ih⟩ := ih
    refine ⟨k, by simp; omega, fun X fuel L hX hq hL => ?_⟩
    rw [← ih X fuel L hX hq hL, List.append_assoc]
    exact arglist_congr (scan_string hs (hn.append hq)) (scan_string hs (hn.append hq)) _ _
  | @brackets stop b t hb ht ih1 ih2 =>
    obtain ⟨k1, hk1, ih1⟩ := ih1
    obtain ⟨k2, hk2, ih2⟩ := ih2
    refine ⟨k2 + 1 + k1 + 1, by simp; omega, fun X fuel L hX hq hL => ?_⟩
    have e : '[' :: b ++ ']' :: t ++ X = '[' :: (b ++ ']' :: (t ++ X)) := by simp
    have hY : QuotesMatch (fun _ => false) (t ++ X) := ht.quotes.append hX hq
    rw [e]
    obtain ⟨r, h1, h2⟩ := scan_close hb (t ++ X)
    have step : skipArglistGo (fuel + (k2 + 1 + k1 + 1)) L ('[' :: (b ++ ']' :: (t ++ X))) =
        skipArglistGo (fuel + k2 + 1 + k1) (L + 1) (b ++ ']' :: (t ++ X)) := by
      have ef : fuel + (k2 + 1 + k1 + 1) = (fuel + k2 + 1 + k1) + 1 := by omega
      rw [ef, skipArglistGo, scan_char (by decide) (by decide), h1, scan_hit (by decide)]
      simp only []
      rw [if_pos h2]
    rw [step, ih1 (']' :: (t ++ X)) _ (L + 1) (.char ⟨by decide, rfl⟩ hY) (.cons (by decide)) (by omega),
      arglist_close hY, if_neg (by omega), Nat.add_sub_cancel]
    exact ih2 X fuel L hX hq hL

/-- an argument list is skipped -/
theorem skipArglist_balanced {stop : Char → Bool} {b t : Str} (h : BracketsMatch stop b) (ht : QuotesMatch (fun _ => false) t) :
    skipArglist ('[' :: (b ++ ']' :: t)) = some (some t) := by
  obtain ⟨k, hk, h⟩ := arglist_balanced h
  rw [skipArglist]
  simp only [skipStr, beq_self_eq_true, if_true]
  obtain ⟨fuel, hf⟩ : ∃ fuel, (b ++ ']' :: t).length + 1 = (fuel + 1) + k :=
    ⟨(b ++ ']' :: t).length - k, by simp; omega⟩
  rw [hf, h (']' :: t) _ 1 (.char ⟨by decide, rfl⟩ ht) (.cons (by decide)) (by omega), arglist_close ht]
  rfl

/-! ### the arguments -/

theorem trim_spaces {s1 a s2 : Str} (h1 : Spaces s1) (h2 : Spaces s2) (ha : Trimmed a) : trimStr (s1 ++ a ++ s2) = a := by
  have drop : ∀ (s t : Str), Spaces s → (s ++ t).dropWhile isSpaceC = t.dropWhile isSpaceC := by
    intro s t hs
    induction s with
    | nil => rfl
    | cons c s ih =>
      rw [List.cons_append, List.dropWhile_cons_of_pos (hs c (by simp))]
      exact ih (fun d hd => hs d (by simp [hd]))
  have keep : ∀ t : Str, NotBefore isSpaceC t → t.dropWhile isSpaceC = t := by
    intro t ht
    cases t with
    | nil => rfl
    | cons c t => rw [List.dropWhile_cons_of_neg]; rw [ht c rfl]; decide
  have h2' : Spaces s2.reverse := fun c hc => h2 c (List.mem_reverse.1 hc)
  unfold trimStr trimSpaceEnd
  rw [List.append_assoc, drop _ _ h1]
  by_cases ha0 : a = []
  · subst ha0
    have : (([] : Str) ++ s2).dropWhile isSpaceC = [] := by
      have := drop s2 [] h2
      simpa using this
    rw [this]; rfl
  · have hk : (a ++ s2).dropWhile isSpaceC = a ++ s2 := by
      apply keep
      cases a with
      | nil => exact absurd rfl ha0
      | cons c a => intro d hd; exact ha.1 d hd
    rw [hk, List.reverse_append, drop _ _ h2', keep _ ha.2, List.reverse_reverse]

theorem argumentListGo_congr {a b : Str} (h1 : skipUntilNotInString [','] a = skipUntilNotInString [','] b)
    (h2 : skipUntilNotInString ['['] a = skipUntilNotInString ['['] b) (fuel : Nat) (l : Str) (args : List Str) :
    argumentListGo fuel l a args = argumentListGo fuel l b args := by
  cases fuel with
  | zero => rfl
  | succ fuel => rw [argumentListGo, argumentListGo, h1, h2]

/-- an argument is skipped -/
theorem arg_balanced {b : Str} (h : BracketsMatch (fun c => c == ',') b) : ∃ k, k ≤ b.length ∧
    ∀ (l X : Str) (fuel : Nat) (args : List Str), QuotesMatch (fun _ => false) X → NotBefore isQuote X → b.length + X.length ≤ l.length →
      X ≠ [] → argumentListGo (fuel + k) l (b ++ X) args = argumentListGo fuel l X args := by
  generalize hst : (fun c : Char => c == ',') = stop at h
  induction h with
  | nil => exact ⟨0, by simp, fun l X fuel args _ _ _ _ => rfl⟩
  | @char stop c t hc ht ih =>
    obtain ⟨k, hk, ih⟩ := ih hst
    refine ⟨k, by simp; omega, fun l X fuel args hX hq hl hne => ?_⟩
    rw [← ih l X fuel args hX hq (by simp at hl; omega) hne, List.cons_append]
    have hcc : ',' ≠ c := by
      have := hc.2.2.2
      rw [← hst] at this
      simp at this
      exact fun e => this e.symm
    exact argumentListGo_congr (scan_char hc.1 hcc _) (scan_char hc.1 (Ne.symm hc.2.1) _) _ _ _
  | @string stop s t hs ht hn ih =>
    obtain ⟨k, hk, ih⟩ := ih hst
    refine ⟨k, by simp; omega, fun l X fuel args hX hq hl hne => ?_⟩
    rw [← ih l X fuel args hX hq (by simp at hl; omega) hne, List.append_assoc]
    exact argumentListGo_congr (scan_string hs (hn.append hq)) (scan_string hs (hn.append hq)) _ _ _
  | @brackets stop b t hb ht ih1 ih2 =>
    clear ih1
    obtain ⟨k2, hk2, ih2⟩ := ih2 hst
    refine ⟨k2 + 1, by simp; omega, fun l X fuel args hX hq hl hne => ?_⟩
    have e : '[' :: b ++ ']' :: t ++ X = '[' :: (b ++ ']' :: (t ++ X)) := by simp
    have hY : QuotesMatch (fun _ => false) (t ++ X) := ht.quotes.append hX hq
    have hbY : QuotesMatch (fun _ => false) (b ++ ']' :: (t ++ X)) :=
      hb.quotes.append (.char ⟨by decide, rfl⟩ hY) (.cons (by decide))
    rw [e, ← Nat.add_assoc, argumentListGo, if_neg (by cases l with | nil => simp at hl | cons => simp)]
    rw [scan_char (by decide) (by decide)]
    have hlen : (b ++ ']' :: (t ++ X)).length ≤ l.length := by simp at hl ⊢; omega
    rcases scan_total (c := ',') hbY with h | ⟨r, h, hr⟩
    · rw [h]
      simp only []
      rw [if_pos (by simp at hlen ⊢; omega), scan_hit (by decide)]
      simp only []
      rw [if_pos (by simp; omega), skipArglist_balanced hb hY]
      simp only []
      exact ih2 l X fuel args hX hq (by simp at hl; omega) hne
    · rw [h]
      simp only []
      rw [if_pos (by omega), scan_hit (by decide)]
      simp only []
      rw [if_pos hr, skipArglist_balanced hb hY]
      simp only []
      exact ih2 l X fuel args hX hq (by simp at hl; omega) hne

theorem Spaces.before {s a : Str} (hs : Spaces s) (ha : BracketsMatch (fun c => c == ',') a) : BracketsMatch (fun c => c == ',') (s ++ a) := by
  induction s with
  | nil => exact ha
  | cons c s ih =>
    obtain ⟨h1, h2, h3, h4⟩ := isSpaceC_other (hs c (by simp))
    exact .char ⟨h1, h2, h3, by simpa using h4⟩ (ih (fun d hd => hs d (by simp [hd])))

theorem ArgsText.balanced {as : List Str} {t : Str} (h : ArgsText as t) : BracketsMatch (fun _ => false) t := by
  induction h with
  | one h1 h2 ha hb => exact ((h1.before hb).append h2.balanced h2.notQuote).weaken
  | cons h1 h2 ha hb ht ih =>
    exact (((h1.before hb).append h2.balanced h2.notQuote).weaken).append (.char (by decide) ih) (.cons (by decide))

/-- the arguments are read -/
theorem argumentListGo_text {as : List Str} {t : Str} (h : ArgsText as t) : ∀ (fuel : Nat) (args : List Str), t.length + 2 ≤ fuel →
    argumentListGo fuel (t ++ [']']) (t ++ [']']) args = some (args ++ as) := by
  induction h with
  | @one s1 a s2 h1 h2 ha hb =>
    intro fuel args hf
    obtain ⟨k, hk, hskip⟩ := arg_balanced ((h1.before hb).append h2.balanced h2.notQuote)
    obtain ⟨f, rfl⟩ : ∃ f, fuel = f + 2 + k := ⟨fuel - 2 - k, by omega⟩
    rw [hskip _ [']'] _ args (.char (by decide) .nil) (.cons (by decide)) (by simp; omega) (by simp)]
    rw [argumentListGo, if_neg (by simp), scan_char (by decide) (by decide), scan_nil]
    simp only []
    rw [if_pos (by simp; omega), scan_char (by decide) (by decide), scan_nil]
    simp only []
    have : (s1 ++ a ++ s2 ++ [']']).take ((s1 ++ a ++ s2 ++ [']']).length - ([] : Str).length - 1) = s1 ++ a ++ s2 := by
      have e : (s1 ++ a ++ s2 ++ [']']).length - ([] : Str).length - 1 = (s1 ++ a ++ s2).length := by simp; omega
      rw [e, List.take_left]
    rw [this, trim_spaces h1 h2 ha, argumentListGo]
    simp
  | @cons s1 a s2 as t h1 h2 ha hb ht ih =>
    intro fuel args hf
    obtain ⟨k, hk, hskip⟩ := arg_balanced ((h1.before hb).append h2.balanced h2.notQuote)
    have hlen : (s1 ++ a ++ s2 ++ ',' :: t).length = (s1 ++ a ++ s2).length + 1 + t.length := by simp; omega
    obtain ⟨f, rfl⟩ : ∃ f, fuel = f + 1 + k := ⟨fuel - 1 - k, by omega⟩
    have e : s1 ++ a ++ s2 ++ ',' :: t ++ [']'] = s1 ++ a ++ s2 ++ (',' :: (t ++ [']'])) := by simp
    have hq : QuotesMatch (fun _ => false) (t ++ [']']) := ht.balanced.quotes.append (.char (by decide) .nil) (.cons (by decide))
    rw [e, hskip _ (',' :: (t ++ [']'])) _ args (.char (by decide) hq) (.cons (by decide)) (by simp; omega) (by simp)]
    have htake : (s1 ++ a ++ s2 ++ ',' :: (t ++ [']'])).take ((s1 ++ a ++ s2 ++ ',' :: (t ++ [']'])).length - (t ++ [']']).length - 1) =
        s1 ++ a ++ s2 := by
      have e : (s1 ++ a ++ s2 ++ ',' :: (t ++ [']'])).length - (t ++ [']']).length - 1 = (s1 ++ a ++ s2).length := by simp; omega
      rw [e, List.take_left]
    rw [argumentListGo, if_neg (by simp), scan_hit (by decide)]
    simp only []
    rw [if_pos (by simp; omega), scan_char (by decide) (by decide)]
    have hnext : argumentListGo f (t ++ [']']) (t ++ [']']) (args ++ [a]) = some (args ++ (a :: as)) := by
      rw [ih f (args ++ [a]) (by omega)]; simp
    rcases scan_total (c := '[') hq with h | ⟨r, h, hr⟩
    · rw [h]
      simp only []
      rw [htake, trim_spaces h1 h2 ha, hnext]
    · rw [h]
      simp only []
      rw [if_neg (by omega), htake, trim_spaces h1 h2 ha, hnext]

theorem argumentList_text {as : List Str} {t : Str} (h : ArgsText as t) : argumentList ('[' :: (t ++ [']'])) = some as := by
  rw [argumentList]
  simp only [List.tail_cons]
  rw [argumentListGo_text h _ [] (by simp; omega)]
  rfl

end KM
