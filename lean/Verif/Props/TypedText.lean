import Verif.Spec.TypedText
/-!
# Typed strings

**C45** Unicode characters are typed by their hexadecimal code. **C66** A string types its characters.
-/
namespace KM

/-! ## The code of a character -/

theorem hexKeys_value : ∀ d < 16, hexValue (hexKeys.getD d Key.none) = some d ∧
    hexKeys.getD d Key.none ≠ Key.Space := by decide

/-- The values of the digits, most significant first -/
def codeDigits (c : Nat) : List Nat := if _h : c = 0 then [] else codeDigits (c / 16) ++ [c % 16]
termination_by c
decreasing_by omega

theorem codeDigits_keys (c : Nat) :
    (hexDigitKeys c).reverse.map hexValue = (codeDigits c).map some := by
  induction c using Nat.strongRecOn with
  | ind c ih =>
    rw [hexDigitKeys, codeDigits]
    by_cases h : c = 0
    · simp [h]
    · simp only [dif_neg h, List.reverse_cons, List.map_append, List.map_cons, List.map_nil]
      rw [ih (c / 16) (by omega), (hexKeys_value (c % 16) (by omega)).1]

theorem codeDigits_value (c : Nat) : (codeDigits c).foldl (fun n d => n * 16 + d) 0 = c := by
  induction c using Nat.strongRecOn with
  | ind c ih =>
    rw [codeDigits]
    by_cases h : c = 0
    · simp [h]
    · simp only [dif_neg h, List.foldl_append, List.foldl_cons, List.foldl_nil]
      rw [ih (c / 16) (by omega)]
      omega

theorem codeDigits_head (c : Nat) : (codeDigits c).head? ≠ some 0 := by
  induction c using Nat.strongRecOn with
  | ind c ih =>
    rw [codeDigits]
    by_cases h : c = 0
    · simp [h]
    · simp only [dif_neg h]
      by_cases h' : c / 16 = 0
      · rw [h', codeDigits]
        simp
        omega
      · have := ih (c / 16) (by omega)
        rw [List.head?_append]
        have hne : codeDigits (c / 16) ≠ [] := by
          rw [codeDigits, dif_neg h']; simp
        obtain ⟨d, l, hd⟩ := List.exists_cons_of_ne_nil hne
        rw [hd] at this ⊢
        exact this

/-- **C45** A character is typed as its code: Control, Shift and U, then digits, then the space. The digits, read as a
number of base 16, are the character, and the first one is not zero. -/
theorem C45_code (c : Nat) : ∃ (keys : List Key) (digits : List Nat),
    hexTypeUnicode c = { key := Key.KeyU, mods := { shift := true, control := true } } ::
      keys.map (fun k => { key := k }) ++ [{ key := Key.Space }] ∧
    keys.map hexValue = digits.map some ∧
    digits.foldl (fun n d => n * 16 + d) 0 = c ∧ digits.head? ≠ some 0 :=
  ⟨(hexDigitKeys c).reverse, codeDigits c, rfl, codeDigits_keys c, codeDigits_value c, codeDigits_head c⟩

example : hexTypeUnicode 0x20AC = [{ key := Key.KeyU, mods := { shift := true, control := true } },
    { key := Key.Numpad2 }, { key := Key.Numpad0 }, { key := Key.KeyA }, { key := Key.KeyC },
    { key := Key.Space }] := by decide +kernel

/-! ## Reading the presses -/

/-- What is pressed for a typed key -/
def TypedKey.press (t : TypedKey) : Key × Mods := (t.key, t.mods)

theorem read_digits (c : Nat) (rest : List (Key × Mods)) :
    readPresses (some 0) ((hexDigitKeys c).reverse.map (fun k => (k, ({} : Mods))) ++ rest) =
      readPresses (some c) rest := by
  induction c using Nat.strongRecOn generalizing rest with
  | ind c ih =>
    rw [hexDigitKeys]
    by_cases h : c = 0
    · simp [h]
    · simp only [dif_neg h, List.reverse_cons, List.map_append, List.map_cons, List.map_nil, List.append_assoc,
        List.cons_append, List.nil_append]
      rw [ih (c / 16) (by omega)]
      have hv := hexKeys_value (c % 16) (by omega)
      rw [readPresses, if_neg (by intro he; exact hv.2 (Prod.mk.inj he).1)]
      simp only [if_pos, hv.1]
      rw [show c / 16 * 16 + c % 16 = c by omega]

theorem read_code (c : Nat) (rest : List (Key × Mods)) :
    readPresses none ((hexTypeUnicode c).map TypedKey.press ++ rest) = (readPresses none rest).map (c :: ·) := by
  have : (hexTypeUnicode c).map TypedKey.press ++ rest =
      (Key.KeyU, { shift := true, control := true }) ::
        ((hexDigitKeys c).reverse.map (fun k => (k, ({} : Mods))) ++ ((Key.Space, {}) :: rest)) := by
    simp [hexTypeUnicode, TypedKey.press, Function.comp_def]
  rw [this, readPresses, if_pos (by decide), read_digits, readPresses, if_pos rfl]

theorem digits_layout : ∀ i < 10, usLayout (digitKeys.getD i Key.none, {}) = some (48 + i) := by decide
theorem letters_layout : ∀ i < 26, usLayout (letterKeys.getD i Key.none, {}) = some (97 + i) ∧
    usLayout (letterKeys.getD i Key.none, { shift := true }) = some (65 + i) := by decide

theorem dictionary_layout (c : Nat) (entry : List (Key × Mods)) (h : genericDictionary c = some entry) :
    ∃ p, entry = [p] ∧ beginsCode p = false ∧ usLayout p = some c := by
  rw [genericDictionary] at h
  have hb : ∀ k m, m ≠ ({ shift := true, control := true } : Mods) → beginsCode (k, m) = false := by
    intro k m hm
    rw [beginsCode, beq_eq_false_iff_ne]
    intro he
    exact hm (Prod.mk.inj he).2
  split at h
  · cases h
    refine ⟨_, rfl, hb _ _ (by decide), ?_⟩
    rw [digits_layout _ (by omega)]
    congr 1; omega
  split at h
  · cases h
    refine ⟨_, rfl, hb _ _ (by decide), ?_⟩
    rw [(letters_layout _ (by omega)).1]
    congr 1; omega
  split at h
  · cases h
    refine ⟨_, rfl, hb _ _ (by decide), ?_⟩
    rw [(letters_layout _ (by omega)).2]
    congr 1; omega
  split at h
  · cases h; subst c; exact ⟨_, rfl, by decide, by decide⟩
  split at h
  · cases h; subst c; exact ⟨_, rfl, by decide, by decide⟩
  split at h
  · cases h; subst c; exact ⟨_, rfl, by decide, by decide⟩
  split at h
  · cases h; subst c; exact ⟨_, rfl, by decide, by decide⟩
  · cases h

/-- The keys for a character -/
def charKeys (dict : Nat → Option (List (Key × Mods))) (c : Nat) : List TypedKey :=
  match dict c with
  | some entry => entry.map (fun (k, m) => { key := k, mods := m })
  | none => hexTypeUnicode c

theorem read_chars (l : List Nat) :
    readPresses none ((l.flatMap (charKeys genericDictionary)).map TypedKey.press) = some l := by
  induction l with
  | nil => rfl
  | cons c l ih =>
    rw [List.flatMap_cons, List.map_append]
    cases h : genericDictionary c with
    | none =>
      have : charKeys genericDictionary c = hexTypeUnicode c := by rw [charKeys, h]
      rw [this, read_code, ih]
      rfl
    | some entry =>
      obtain ⟨p, rfl, hb, hu⟩ := dictionary_layout c entry h
      have : (charKeys genericDictionary c).map TypedKey.press = [p] := by rw [charKeys, h]; rfl
      rw [this, List.singleton_append, readPresses, hb, hu, ih]
      rfl

theorem replaceEscape_cons (a b r c : Nat) (l : List Nat) (h : c ≠ a) :
    replaceEscape a b r (c :: l) = c :: replaceEscape a b r l := by
  cases l with
  | nil => rfl
  | cons d l => rw [replaceEscape, show (c == a) = false by simpa using h]; rfl

theorem replaceEscape_other (a b r c d : Nat) (l : List Nat) (h : d ≠ b) :
    replaceEscape a b r (c :: d :: l) = c :: replaceEscape a b r (d :: l) := by
  rw [replaceEscape, show (d == b) = false by simpa using h, Bool.and_false]; rfl

theorem replaceEscape_head (a b r : Nat) (d : Nat) (l : List Nat) :
    ∃ d' l', replaceEscape a b r (d :: l) = d' :: l' ∧ (d' = r ∨ d' = d) ∧ (d ≠ a → d' = d) := by
  cases l with
  | nil => exact ⟨d, [], rfl, .inr rfl, fun _ => rfl⟩
  | cons e l =>
    rw [replaceEscape]
    by_cases h : (d == a && e == b) = true
    · rw [if_pos h]
      refine ⟨r, _, rfl, .inl rfl, fun hd => ?_⟩
      simp at h
      exact absurd h.1 hd
    · rw [if_neg h]
      exact ⟨d, _, rfl, .inr rfl, fun _ => rfl⟩

/-- The three replacements are the ones of the specification. -/
theorem unescape_eq (l : List Nat) :
    replaceEscape 92 116 9 (replaceEscape 92 114 13 (replaceEscape 92 110 13 l)) = unescape l := by
  fun_induction unescape l with
  | case1 => rfl
  | case2 c => rfl
  | case3 c d cs h ih =>
    obtain ⟨rfl, rfl | rfl⟩ := h
    · rw [show replaceEscape 92 110 13 (92 :: 110 :: cs) = 13 :: replaceEscape 92 110 13 cs from rfl,
        replaceEscape_cons _ _ _ _ _ (by decide), replaceEscape_cons _ _ _ _ _ (by decide), ih]
    · rw [replaceEscape_other 92 110 13 92 114 _ (by decide), replaceEscape_cons 92 110 13 114 _ (by decide),
        show replaceEscape 92 114 13 (92 :: 114 :: replaceEscape 92 110 13 cs) =
          13 :: replaceEscape 92 114 13 (replaceEscape 92 110 13 cs) from rfl,
        replaceEscape_cons _ _ _ _ _ (by decide), ih]
  | case4 c d cs h1 h2 ih =>
    obtain ⟨rfl, rfl⟩ := h2
    rw [replaceEscape_other 92 110 13 92 116 _ (by decide), replaceEscape_cons 92 110 13 116 _ (by decide),
      replaceEscape_other 92 114 13 92 116 _ (by decide), replaceEscape_cons 92 114 13 116 _ (by decide),
      show ∀ l, replaceEscape 92 116 9 (92 :: 116 :: l) = 9 :: replaceEscape 92 116 9 l from fun _ => rfl, ih]
  | case5 c d cs h1 h2 ih =>
    by_cases hc : c = 92
    · subst c
      have hn : d ≠ 110 := fun h => h1 ⟨rfl, .inl h⟩
      have hr : d ≠ 114 := fun h => h1 ⟨rfl, .inr h⟩
      have ht : d ≠ 116 := fun h => h2 ⟨rfl, h⟩
      rw [replaceEscape_other _ _ _ _ _ _ hn]
      obtain ⟨d1, l1, e1, g1, -⟩ := replaceEscape_head 92 110 13 d cs
      have hd1 : d1 ≠ 114 ∧ d1 ≠ 116 := by omega
      rw [e1] at ih ⊢
      rw [replaceEscape_other _ _ _ _ _ _ hd1.1]
      obtain ⟨d2, l2, e2, g2, -⟩ := replaceEscape_head 92 114 13 d1 l1
      have hd2 : d2 ≠ 116 := by omega
      rw [e2] at ih ⊢
      rw [replaceEscape_other _ _ _ _ _ _ hd2, ih]
    · rw [replaceEscape_cons _ _ _ _ _ hc, replaceEscape_cons _ _ _ _ _ hc, replaceEscape_cons _ _ _ _ _ hc, ih]

/-- **C66** (generic typer) The keys for any string, read as a text, are the characters of the string with its escapes
replaced. -/
theorem C66_generic_typer (s : Str) : ∃ keys, genericTyper s = some keys ∧
    readPresses none (keys.map TypedKey.press) = some (unescape (s.map Char.toNat)) := by
  refine ⟨_, rfl, ?_⟩
  rw [typeCodepoints]
  rw [unescape_eq]
  exact read_chars _

example : unescape ("Hi {x}?\\n€".toList.map Char.toNat) = [72, 105, 32, 123, 120, 125, 63, 13, 0x20AC] := by
  decide +kernel

/-! ## The sequence of a string -/

theorem typedBy_append (a b : KeySequence) : typedBy (a ++ b) = b.foldl Keyboard.step (typedBy a) :=
  List.foldl_append

/-- A key which is no modifier is typed. -/
theorem step_key (kb : Keyboard) (k : Key) (v : Nat) (hk : modKeyOf k = none) :
    [(⟨k, .Down, v⟩ : KeyEvent), ⟨k, .Up, v⟩].foldl Keyboard.step kb =
      { kb with typed := kb.typed ++ [(k, kb.mods)] } := by
  simp [Keyboard.step, hk]

theorem step_mod (kb : Keyboard) (prev now : Bool) (k : Key) (m : ModKey) (hk : modKeyOf k = some m)
    (hp : kb.mods.set prev m = kb.mods) :
    (pressOutput prev now k).foldl Keyboard.step kb = { kb with mods := kb.mods.set now m } := by
  cases prev <;> cases now <;> simp [pressOutput, Keyboard.step, hk, hp]

theorem step_mods (kb : Keyboard) (now : Mods) :
    ((List.zip kb.mods.list now.list).flatMap (fun (p, n) => pressOutput p.1 n.1 p.2)).foldl Keyboard.step kb =
      { kb with mods := now } := by
  obtain ⟨⟨a, b, c, d⟩, typed⟩ := kb
  obtain ⟨a', b', c', d'⟩ := now
  simp only [Mods.list, List.zip_cons_cons, List.zip_nil_right, List.flatMap_cons, List.flatMap_nil,
    List.append_nil, List.foldl_append]
  rw [step_mod _ a a' _ .shift rfl rfl, step_mod _ b b' _ .alt rfl rfl, step_mod _ c c' _ .altGr rfl rfl,
    step_mod _ d d' _ .control rfl rfl]
  rfl

theorem typeOutputGo_types (keys : List TypedKey) (kb : Keyboard) (hk : ∀ t ∈ keys, modKeyOf t.key = none) :
    (typeOutputGo kb.mods keys).1.foldl Keyboard.step kb =
      { mods := (typeOutputGo kb.mods keys).2.1, typed := kb.typed ++ keys.map TypedKey.press } := by
  induction keys generalizing kb with
  | nil => simp [typeOutputGo]
  | cons t ts ih =>
    have ih := ih { mods := t.mods, typed := kb.typed ++ [t.press] } (fun x hx => hk x (List.mem_cons_of_mem _ hx))
    rw [typeOutputGo]
    simp only [List.foldl_append]
    rw [step_mods, step_key _ _ _ (hk t List.mem_cons_self)]
    refine ih.trans ?_
    simp

theorem release_mods (kb : Keyboard) :
    ((kb.mods.list.filter (·.1)).map (fun m => (⟨m.2, .Up, 0⟩ : KeyEvent))).foldl Keyboard.step kb =
      { kb with mods := {} } := by
  obtain ⟨⟨a, b, c, d⟩, typed⟩ := kb
  cases a <;> cases b <;> cases c <;> cases d <;> rfl

theorem typeOutput_types (typer : Typer) (s : Str) (g : Bool) (keys : List TypedKey) (hs : typer s = some keys)
    (hk : ∀ t ∈ keys, modKeyOf t.key = none) :
    ∃ l has, typeOutput typer s g = some (l, has) ∧ typedBy l = { typed := keys.map TypedKey.press } ∧
      has = keys.any (fun t => t.mods.nonZero) := by
  refine ⟨_, _, by rw [typeOutput, hs], ?_, ?_⟩
  · rw [List.append_assoc, typedBy_append, List.foldl_append]
    have h0 : typedBy (if g = true then [] else [⟨Key.any, .Not, 0⟩]) = {} := by cases g <;> rfl
    rw [h0]
    have := typeOutputGo_types keys {} hk
    rw [show (({} : Keyboard).mods) = {} from rfl] at this
    rw [this]
    refine (release_mods { mods := _, typed := _ }).trans ?_
    rfl
  · generalize ({} : Mods) = m
    clear hs hk
    induction keys generalizing m with
    | nil => rfl
    | cons t ts ih =>
      rw [typeOutputGo, List.any_cons, ← ih t.mods]

theorem skipUntil_quote (q : Char) (s rest : Str) (hs : q ∉ s) : skipUntil [q] (s ++ q :: rest) = some rest := by
  induction s with
  | nil =>
    show (match skipStr [q] (q :: rest) with | some r => some r | none => skipUntil [q] rest) = _
    rw [show skipStr [q] (q :: rest) = some rest by simp [skipStr]]
  | cons c s ih =>
    have hc : q ≠ c := fun h => hs (by simp [h])
    show (match skipStr [q] (c :: (s ++ q :: rest)) with
      | some r => some r
      | none => skipUntil [q] (s ++ q :: rest)) = _
    rw [show skipStr [q] (c :: (s ++ q :: rest)) = none by simp [skipStr, hc]]
    exact ih (fun h => hs (List.mem_cons_of_mem _ h))

theorem parseString_eq (env : PEnv) (henv : env.isInput = false) (q : Char) (s : Str) (hs : q ∉ s)
    (l : KeySequence) (has : Bool) (ht : typeOutput env.typer s false = some (l, has)) :
    parseString env {} q (s ++ [q]) = .next { seq := l, hasMod := has } [] := by
  rw [parseString, if_neg (by decide), skipUntil_quote q s [] hs]
  simp only [henv]
  have : (s ++ [q]).take ((s ++ [q]).length - ([] : Str).length - 1) = s := by simp
  rw [this]
  simp only [PState.flush]
  simp [ht]

theorem parseLoop_string (env : PEnv) (henv : env.isInput = false) (q : Char) (hq : q = '"' ∨ q = '\'') (s : Str)
    (hs : q ∉ s) (l : KeySequence) (has : Bool) (ht : typeOutput env.typer s false = some (l, has)) :
    parseLoop env {} (q :: (s ++ [q])) = some { seq := l, hasMod := has } := by
  have hsp : skipSpace (q :: (s ++ [q])) = q :: (s ++ [q]) := by
    rcases hq with rfl | rfl <;> (rw [skipSpace]; rfl)
  have hstep : parseStep env {} (q :: (s ++ [q])) = .next { seq := l, hasMod := has } [] := by
    rw [← parseString_eq env henv q s hs l has ht]
    rcases hq with rfl | rfl <;> rfl
  rw [parseLoop, hsp, hstep]
  simp only [List.length_nil, List.length_cons, Nat.zero_lt_succ, if_pos]
  rw [parseLoop]
  have : parseStep env { seq := l, hasMod := has } (skipSpace []) = .done { seq := l, hasMod := has } := by
    show parseTimeoutOrKey env { seq := l, hasMod := has } [] = _
    rw [parseTimeoutOrKey, show tryReadTimeout [] = none from rfl, parseKey]
    simp [PState.flush, henv]
  rw [this]

/-- The trailing releases of keys which are no modifiers can be left out. -/
theorem typedBy_prefix (l : KeySequence) (kb : Keyboard) (h : kb.mods = {})
    (hk : ∀ e ∈ l, e.state = .Up) : (l.foldl Keyboard.step kb) = kb := by
  induction l generalizing kb with
  | nil => rfl
  | cons e l ih =>
    rw [List.foldl_cons]
    have he := hk e List.mem_cons_self
    have : kb.step e = kb := by
      rw [Keyboard.step]
      cases hm : modKeyOf e.key with
      | none => simp [he]
      | some m =>
        simp only [he]
        obtain ⟨mods, typed⟩ := kb
        cases h
        cases m <;> rfl
    rw [this]
    exact ih kb h (fun e he => hk e (List.mem_cons_of_mem _ he))

theorem dropWhile_suffix (p : KeyEvent → Bool) (l : KeySequence) :
    ∃ t, l = (l.reverse.dropWhile p).reverse ++ t ∧ ∀ e ∈ t, p e = true := by
  refine ⟨(l.reverse.takeWhile p).reverse, ?_, ?_⟩
  · rw [← List.reverse_append, List.takeWhile_append_dropWhile, List.reverse_reverse]
  · intro e he
    have := List.all_takeWhile (l := l.reverse) (p := p)
    rw [List.all_eq_true] at this
    exact this e (by simpa using he)

/-- Removing trailing releases does not change what is typed, nor that all modifiers are released in the end when
none is held. -/
theorem typedBy_remove (l : KeySequence) (hm : ∀ e ∈ l, modKeyOf e.key = none) :
    typedBy (removeAllFromEnd l .Up) = typedBy l := by
  obtain ⟨t, ht, htu⟩ := dropWhile_suffix (fun e => e.state == .Up) l
  rw [removeAllFromEnd]
  conv => rhs; rw [ht, typedBy_append]
  symm
  apply typedBy_prefix
  · have : ∀ (l : KeySequence) (kb : Keyboard), kb.mods = {} → (∀ e ∈ l, modKeyOf e.key = none) →
        (l.foldl Keyboard.step kb).mods = {} := by
      intro l
      induction l with
      | nil => intro kb h _; exact h
      | cons e l ih =>
        intro kb h hl
        refine ih _ ?_ (fun x hx => hl x (List.mem_cons_of_mem _ hx))
        rw [Keyboard.step, hl e List.mem_cons_self]
        simp only []
        split <;> exact h
    exact this _ _ rfl (fun e he => hm e (by rw [ht]; exact List.mem_append_left _ he))
  · intro e he; simpa using htu e he

theorem typeOutputGo_noMods (keys : List TypedKey) (h : keys.any (fun t => t.mods.nonZero) = false) :
    (typeOutputGo {} keys).1 = keys.flatMap (fun t => [⟨t.key, .Down, t.value⟩, ⟨t.key, .Up, t.value⟩]) ∧
    (typeOutputGo {} keys).2.1 = {} := by
  induction keys with
  | nil => exact ⟨rfl, rfl⟩
  | cons t ts ih =>
    rw [List.any_cons, Bool.or_eq_false_iff] at h
    have hm : t.mods = {} := by
      obtain ⟨k, ⟨a, b, c, d⟩, v⟩ := t
      obtain ⟨h, -⟩ := h
      revert h
      cases a <;> cases b <;> cases c <;> cases d <;> simp [Mods.nonZero]
    rw [typeOutputGo]
    simp only [hm]
    rw [(ih h.2).1, (ih h.2).2]
    exact ⟨by simp [Mods.list, pressOutput], rfl⟩

/-- **C66** (strings) A string in an output expression types exactly the keys of its characters, each one with exactly
its modifiers, and releases the modifiers. It begins with the temporary release of all other keys. -/
theorem C66_string (env : PEnv) (henv : env.isInput = false) (q : Char) (hq : q = '"' ∨ q = '\'') (s : Str) (hs : q ∉ s)
    (keys : List TypedKey) (ht : env.typer s = some keys) (hk : ∀ t ∈ keys, modKeyOf t.key = none)
    (hc : ∀ t ∈ keys, t.key ≠ Key.ContextActive) :
    ∃ l, parseSequence env (q :: (s ++ [q])) = some (⟨Key.any, .Not, 0⟩ :: l, []) ∧
      typedBy (⟨Key.any, .Not, 0⟩ :: l) = { typed := keys.map TypedKey.press } := by
  obtain ⟨l, has, htl, htyped, hhas⟩ := typeOutput_types env.typer s false keys ht hk
  rw [parseSequence, parseLoop_string env henv q hq s hs l has htl]
  have hl := htl
  rw [typeOutput, ht] at hl
  simp only [Option.some.injEq, Prod.mk.injEq] at hl
  have hl' := hl.1
  have hca : l.any (fun e => e.key == Key.ContextActive) = false := by
    rw [← hl']
    rw [List.any_append, List.any_append, Bool.or_eq_false_iff, Bool.or_eq_false_iff]
    refine ⟨⟨rfl, ?_⟩, ?_⟩
    · clear hl hl' htl htyped hhas
      clear ht hk
      generalize ({} : Mods) = m
      induction keys generalizing m with
      | nil => rfl
      | cons t ts ih =>
        rw [typeOutputGo, List.any_append, List.any_append, Bool.or_eq_false_iff, Bool.or_eq_false_iff]
        refine ⟨⟨?_, ?_⟩, ih (fun x hx => hc x (List.mem_cons_of_mem _ hx)) _⟩
        · obtain ⟨a, b, c, d⟩ := m
          obtain ⟨k, ⟨a', b', c', d'⟩, v⟩ := t
          simp only [Mods.list, List.zip_cons_cons, List.zip_nil_right, List.flatMap_cons, List.flatMap_nil,
            List.append_nil, List.any_append, pressOutput]
          cases a <;> cases a' <;> cases b <;> cases b' <;> cases c <;> cases c' <;> cases d <;> cases d' <;> rfl
        · have := hc t List.mem_cons_self
          simp [this]
    · generalize (typeOutputGo {} keys).2.1 = m
      obtain ⟨a, b, c, d⟩ := m
      cases a <;> cases b <;> cases c <;> cases d <;> rfl
  have hcheck : ∀ l' : KeySequence, (∀ e ∈ l', e ∈ l) → checkContextActive false l' = some l' := by
    intro l' hsub
    rw [checkContextActive]
    have : l'.any (fun e => e.key == Key.ContextActive) = false := by
      rw [List.any_eq_false] at hca ⊢
      exact fun e he => hca e (hsub e he)
    rw [this]
    rfl
  simp only [parseFinish, henv]
  have hrel : (({ seq := l, hasMod := has } : PState).release false 0) = { seq := l, hasMod := has } := by
    simp [PState.release]
  rw [hrel]
  by_cases hr : (!has && allPressedAtOnce l) = true
  · simp only [hr]
    have hno : has = false := by simp at hr; exact hr.1
    obtain ⟨hgo, hlast⟩ := typeOutputGo_noMods keys (by rw [← hhas]; exact hno)
    have hl'' : l = ⟨Key.any, .Not, 0⟩ :: keys.flatMap (fun t => [⟨t.key, .Down, t.value⟩, ⟨t.key, .Up, t.value⟩]) := by
      rw [← hl', hgo, hlast]
      simp [Mods.list]
    have hmods : ∀ e ∈ l, modKeyOf e.key = none := by
      rw [hl'']
      intro e he
      rw [List.mem_cons, List.mem_flatMap] at he
      rcases he with rfl | ⟨t, htm, he⟩
      · rfl
      · simp at he
        rcases he with rfl | rfl <;> exact hk t htm
    obtain ⟨t, htt, htu⟩ := dropWhile_suffix (fun e => e.state == .Up) l
    have hcons : ∃ r, removeAllFromEnd l .Up = ⟨Key.any, .Not, 0⟩ :: r := by
      rw [removeAllFromEnd]
      cases hd : (l.reverse.dropWhile (fun e => e.state == .Up)).reverse with
      | nil =>
        rw [hd, List.nil_append] at htt
        have := htu ⟨Key.any, .Not, 0⟩ (by rw [← htt, hl'']; exact List.mem_cons_self)
        exact absurd this (by decide)
      | cons x r =>
        refine ⟨r, ?_⟩
        rw [hd, hl''] at htt
        rw [(List.cons.inj htt).1]
    obtain ⟨r, hr'⟩ := hcons
    refine ⟨r, ?_, ?_⟩
    · rw [← hr']
      simp only [if_true, Bool.false_and, Bool.false_eq_true, if_false, bne_self_eq_false]
      rw [hcheck (removeAllFromEnd l .Up) (fun e he => by
        rw [htt]; exact List.mem_append_left _ he)]
      rfl
    · rw [← hr', typedBy_remove l hmods, htyped]
  · rw [Bool.not_eq_true] at hr
    simp only [hr]
    have hl'' : ∃ r, l = ⟨Key.any, .Not, 0⟩ :: r := ⟨_, hl'.symm⟩
    obtain ⟨r, rfl⟩ := hl''
    refine ⟨r, ?_, htyped⟩
    simp only [Bool.false_and, Bool.false_eq_true, if_false, bne_self_eq_false]
    rw [hcheck _ (fun e he => he)]
    rfl

end KM
