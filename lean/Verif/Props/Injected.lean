import Verif.Props.TypedText
import Verif.Props.Expressions
import Verif.Props.VirtualDevices
import Verif.Model.Client
import Verif.Props.ClientLimits
/-!
# Injected sequences

**C41** A sequence which is injected by `keymapperctl` leaves no key pressed. **C66** `keymapperctl --type` types the text.
-/
namespace KM

/-- The state of a key changes by its presses and releases. -/
def seqDownStep (k : Key) (b : Bool) (e : KeyEvent) : Bool :=
  if e.key = k then (if e.state = .Down then true else if e.state = .Up then false else b) else b

theorem keysDownGo_spec (l : KeySequence) (down : List Key) (hn : down.Nodup) :
    (keysDownGo down l).Nodup ∧ ∀ k, k ∈ keysDownGo down l ↔ l.foldl (seqDownStep k) (decide (k ∈ down)) = true := by
  induction l generalizing down with
  | nil => exact ⟨hn, fun k => by simp [keysDownGo]⟩
  | cons e l ih =>
    rw [keysDownGo]
    split
    · next h =>
      have hn' : (down ++ [e.key]).Nodup := by
        rw [List.nodup_append]
        refine ⟨hn, by simp, ?_⟩
        intro a ha b hb hab
        rw [List.mem_singleton] at hb
        exact h.2 (by rw [← hb, ← hab]; exact ha)
      refine ⟨(ih _ hn').1, fun k => ?_⟩
      rw [(ih _ hn').2 k, List.foldl_cons]
      have : decide (k ∈ down ++ [e.key]) = seqDownStep k (decide (k ∈ down)) e := by
        rw [seqDownStep]
        by_cases hk : e.key = k
        · subst hk; simp [h.1]
        · have hk' : k ≠ e.key := fun h => hk h.symm
          simp [hk, hk']
      rw [this]
    · next h1 =>
      split
      · next h =>
        have hn' : (down.erase e.key).Nodup := hn.erase _
        refine ⟨(ih _ hn').1, fun k => ?_⟩
        rw [(ih _ hn').2 k, List.foldl_cons]
        have : decide (k ∈ down.erase e.key) = seqDownStep k (decide (k ∈ down)) e := by
          rw [seqDownStep]
          by_cases hk : e.key = k
          · subst hk
            simp [h.1, hn.mem_erase_iff]
          · have hk' : k ≠ e.key := fun h => hk h.symm
            simp [hk, hk', hn.mem_erase_iff]
        rw [this]
      · next h2 =>
        refine ⟨(ih _ hn).1, fun k => ?_⟩
        rw [(ih _ hn).2 k, List.foldl_cons]
        have : decide (k ∈ down) = seqDownStep k (decide (k ∈ down)) e := by
          rw [seqDownStep]
          by_cases hk : e.key = k
          · subst hk
            by_cases hd : e.state = .Down
            · by_cases hm : e.key ∈ down
              · simp [hd, hm]
              · exact absurd ⟨hd, hm⟩ h1
            · by_cases hu : e.state = .Up
              · by_cases hm : e.key ∈ down
                · exact absurd ⟨hu, hm⟩ h2
                · simp [hu, hm]
              · simp [hd, hu]
          · simp [hk]
        rw [← this]

/-- Presses and releases of a sequence -/
theorem lastPressed_seq (k : Key) (ops : List VOp) (l : KeySequence)
    (h : ∀ e ∈ l, e.key = k → e.state = .Down ∨ e.state = .Up) :
    lastPressed k (ops ++ l.map VOp.key) = l.foldl (seqDownStep k) (lastPressed k ops) := by
  induction l using list_snoc_induction with
  | h0 => simp
  | h1 l e ih =>
    rw [List.map_append, ← List.append_assoc, List.map_cons, List.map_nil, lastPressed_snoc,
      ih (fun e he => h e (List.mem_append_left _ he)), List.foldl_append]
    show (if e.key = k then _ else _) = seqDownStep k _ e
    rw [seqDownStep]
    by_cases hk : e.key = k
    · rw [if_pos hk, if_pos hk]
      rcases h e (by simp) hk with h | h <;> simp [h]
    · rw [if_neg hk, if_neg hk]

theorem seqDown_none (k : Key) (l : KeySequence) (b : Bool) (h : ∀ e ∈ l, e.key ≠ k) :
    l.foldl (seqDownStep k) b = b := by
  induction l generalizing b with
  | nil => rfl
  | cons e l ih =>
    rw [List.foldl_cons, seqDownStep, if_neg (h e List.mem_cons_self)]
    exact ih b (fun e he => h e (List.mem_cons_of_mem _ he))

theorem seqDown_some (k : Key) (l : KeySequence) (b b' : Bool) (h : ∃ e ∈ l, e.key = k)
    (hs : ∀ e ∈ l, e.key = k → e.state = .Down ∨ e.state = .Up) :
    l.foldl (seqDownStep k) b = l.foldl (seqDownStep k) b' := by
  induction l generalizing b b' with
  | nil => obtain ⟨e, he, -⟩ := h; cases he
  | cons e l ih =>
    rw [List.foldl_cons, List.foldl_cons]
    by_cases hk : e.key = k
    · have : seqDownStep k b e = seqDownStep k b' e := by
        rw [seqDownStep, seqDownStep, if_pos hk, if_pos hk]
        rcases hs e List.mem_cons_self hk with h | h <;> simp [h]
      rw [this]
    · obtain ⟨e', he', hk'⟩ := h
      rcases List.mem_cons.mp he' with rfl | he'
      · exact absurd hk' hk
      · exact ih _ _ ⟨e', he', hk'⟩ (fun e he => hs e (List.mem_cons_of_mem _ he))

theorem ensureAllKeysUp_released (l : KeySequence) (k : Key) : (ensureAllKeysUp l).foldl (seqDownStep k) false = false := by
  rw [ensureAllKeysUp, List.foldl_append]
  obtain ⟨-, hm⟩ := keysDownGo_spec l [] List.nodup_nil
  have hm := hm k
  have hups : ∀ (ks : List Key) (b : Bool), (ks.map (fun k => (⟨k, .Up, 0⟩ : KeyEvent))).foldl (seqDownStep k) b =
      (b && !decide (k ∈ ks)) := by
    intro ks
    induction ks with
    | nil => intro b; simp
    | cons x ks ih =>
      intro b
      rw [List.map_cons, List.foldl_cons, ih, seqDownStep]
      by_cases hx : x = k
      · simp [hx]
      · have : k ≠ x := fun h => hx h.symm
        simp [hx, this]
  rw [hups]
  simp only [List.not_mem_nil, decide_false] at hm
  cases hb : l.foldl (seqDownStep k) false with
  | false => rfl
  | true =>
    have : k ∈ keysDownGo [] l := hm.mpr hb
    simp [this]

/-- **C41** (released) After a sequence is injected, on the keyboard only the keys are pressed which were pressed before and
do not occur in it. -/
theorem C41_released (env : ClientEnv) (text : Str) (l : KeySequence) (h : injectedSequence env text = some l)
    (ops : List VOp) (k : Key) (hb : isMouseButton k = false) (hw : isMouseWheel k = false)
    (hn : ∀ e ∈ l, e.key = k → e.state = .Down ∨ e.state = .Up) :
    heldOn .keyboard k (vRun {} (ops ++ l.map VOp.key)).out =
      (heldOn .keyboard k (vRun {} ops).out && decide (∀ e ∈ l, e.key ≠ k)) := by
  rw [(C58_keys_follow _ k hb hw).1, (C58_keys_follow _ k hb hw).1, lastPressed_seq k ops l hn]
  by_cases hk : ∀ e ∈ l, e.key ≠ k
  · rw [seqDown_none k l _ hk, decide_eq_true hk, Bool.and_true]
  · have hk' : ∃ e ∈ l, e.key = k := by
      simpa using hk
    rw [seqDown_some k l _ false hk' hn]
    rw [injectedSequence, Option.map_eq_some_iff] at h
    obtain ⟨r, -, rfl⟩ := h
    rw [ensureAllKeysUp_released, decide_eq_false hk, Bool.and_false]

theorem ensureAllKeysUp_mem {l : KeySequence} {e : KeyEvent} (h : e ∈ ensureAllKeysUp l) :
    e ∈ l ∨ (e.state = .Up ∧ ∃ e' ∈ l, e'.key = e.key ∧ e'.state = .Down) := by
  rw [ensureAllKeysUp, List.mem_append] at h
  rcases h with h | h
  · exact .inl h
  · right
    rw [List.mem_map] at h
    obtain ⟨k, hk, rfl⟩ := h
    refine ⟨rfl, ?_⟩
    have hd := ((keysDownGo_spec l [] List.nodup_nil).2 k).mp hk
    have : ∀ (l : KeySequence) (b : Bool), l.foldl (seqDownStep k) b = true → b = true ∨
        ∃ e' ∈ l, e'.key = k ∧ e'.state = .Down := by
      intro l
      induction l with
      | nil => intro b h; exact .inl h
      | cons e l ih =>
        intro b h
        rw [List.foldl_cons] at h
        rcases ih _ h with h | ⟨e', he', h⟩
        · rw [seqDownStep] at h
          by_cases hk : e.key = k
          · rw [if_pos hk] at h
            by_cases hs : e.state = .Down
            · exact .inr ⟨e, List.mem_cons_self, hk, hs⟩
            · rw [if_neg hs] at h
              split at h
              · cases h
              · exact .inl h
          · rw [if_neg hk] at h
            exact .inl h
        · exact .inr ⟨e', List.mem_cons_of_mem _ he', h⟩
    rcases this l _ hd with h | h
    · simp at h
    · exact h

theorem replaceLogical_ne (k : Key) : replaceLogical k ≠ Key.Shift ∧ replaceLogical k ≠ Key.Control ∧
    replaceLogical k ≠ Key.Meta := by
  rw [replaceLogical]
  split
  · decide
  split
  · decide
  split
  · decide
  · next h1 h2 h3 => exact ⟨h1, h2, h3⟩

/-- **C41** (logical keys) An injected sequence contains neither `Shift`, `Control` nor `Meta`: they are replaced by the left
ones. -/
theorem C41_no_logical_keys (env : ClientEnv) (text : Str) (l : KeySequence) (h : injectedSequence env text = some l) :
    ∀ e ∈ l, e.key ≠ Key.Shift ∧ e.key ≠ Key.Control ∧ e.key ≠ Key.Meta := by
  rw [injectedSequence, Option.map_eq_some_iff] at h
  obtain ⟨r, -, rfl⟩ := h
  intro e he
  have : ∀ e ∈ replaceLogicalKeys r.1, e.key ≠ Key.Shift ∧ e.key ≠ Key.Control ∧ e.key ≠ Key.Meta := by
    intro e he
    rw [replaceLogicalKeys, List.mem_map] at he
    obtain ⟨e', -, rfl⟩ := he
    exact replaceLogical_ne e'.key
  rcases ensureAllKeysUp_mem he with he | ⟨-, e', he', hk, -⟩
  · exact this e he
  · rw [← hk]; exact this e' he'

/-- **C41** (the sequence) It is the one which is written, with these keys replaced, followed by releases of keys which
it presses. -/
theorem C41_completes (env : ClientEnv) (text : Str) (l : KeySequence) (h : injectedSequence env text = some l) :
    ∃ (r : KeySequence) (acts : List Str) (ups : KeySequence),
      parseSequence ⟨false, getKeyByName, env.typer, false, 0⟩ text = some (r, acts) ∧
      l = r.map (fun e => ⟨if e.key = Key.Shift then Key.ShiftLeft else if e.key = Key.Control then Key.ControlLeft
        else if e.key = Key.Meta then Key.MetaLeft else e.key, e.state, e.value⟩) ++ ups ∧
      (ups.map (·.key)).Nodup ∧
      ∀ e ∈ ups, e.state = .Up ∧ e.value = 0 ∧ ∃ e' ∈ l, e'.key = e.key ∧ e'.state = .Down := by
  have h' := h
  rw [injectedSequence, Option.map_eq_some_iff] at h
  obtain ⟨r, hr, rfl⟩ := h
  refine ⟨r.1, r.2, (keysDownGo [] (replaceLogicalKeys r.1)).map (fun k => ⟨k, .Up, 0⟩), hr, rfl, ?_, ?_⟩
  · rw [List.map_map]
    have : ((fun e : KeyEvent => e.key) ∘ fun k => (⟨k, .Up, 0⟩ : KeyEvent)) = id := rfl
    rw [this, List.map_id]
    exact (keysDownGo_spec _ _ List.nodup_nil).1
  · intro e he
    rw [List.mem_map] at he
    obtain ⟨k, hk, rfl⟩ := he
    have hd := ((keysDownGo_spec (replaceLogicalKeys r.1) [] List.nodup_nil).2 k).mp hk
    refine ⟨rfl, rfl, ?_⟩
    have hm : (⟨k, .Up, 0⟩ : KeyEvent) ∈ ensureAllKeysUp (replaceLogicalKeys r.1) := by
      rw [ensureAllKeysUp, List.mem_append]
      exact .inr (List.mem_map_of_mem hk)
    have hdown : ∃ e' ∈ replaceLogicalKeys r.1, e'.key = k ∧ e'.state = .Down := by
      have : ∀ (l : KeySequence), l.foldl (seqDownStep k) false = true → ∃ e' ∈ l, e'.key = k ∧ e'.state = .Down := by
        intro l
        induction l using list_snoc_induction with
        | h0 => intro h; cases h
        | h1 l e ih =>
          intro h
          rw [List.foldl_append] at h
          replace h : seqDownStep k _ e = true := h
          rw [seqDownStep] at h
          by_cases hk : e.key = k
          · by_cases hs : e.state = .Down
            · exact ⟨e, by simp, hk, hs⟩
            · rw [if_pos hk, if_neg hs] at h
              split at h
              · cases h
              · obtain ⟨e', he', h⟩ := ih h
                exact ⟨e', List.mem_append_left _ he', h⟩
          · rw [if_neg hk] at h
            obtain ⟨e', he', h⟩ := ih h
            exact ⟨e', List.mem_append_left _ he', h⟩
      exact this _ (by simpa using hd)
    obtain ⟨e', he', h⟩ := hdown
    exact ⟨e', by rw [ensureAllKeysUp]; exact List.mem_append_left _ he', h⟩

/-- The hypothesis of `C41_released`: the sequence, and the keys which are not released temporarily -/
example : injectedSequence exEnv "Shift{A} B".toList = some
    [⟨Key.ShiftLeft, .Down, 0⟩, ⟨Key.KeyA, .Down, 0⟩, ⟨Key.KeyA, .Up, 0⟩, ⟨Key.ShiftLeft, .Up, 0⟩, ⟨Key.KeyB, .Down, 0⟩,
     ⟨Key.KeyB, .Up, 0⟩] := by decide +kernel
example : injectedSequence exEnv "(A B)".toList = some
    [⟨Key.KeyA, .Down, 0⟩, ⟨Key.KeyB, .Down, 0⟩, ⟨Key.KeyA, .Up, 0⟩, ⟨Key.KeyB, .Up, 0⟩] := by decide +kernel

/-- **C41** does not hold of keys which are to be released temporarily: this presses them, since only a release is
written as a release; they are not released in the end. -/
theorem C41_not_counterexample : ∃ l, injectedSequence exEnv "!A B".toList = some l ∧
    heldOn .keyboard Key.KeyA (vRun {} (l.map VOp.key)).out = true :=
  ⟨[⟨Key.KeyA, .Not, 0⟩, ⟨Key.KeyB, .Down, 0⟩, ⟨Key.KeyB, .Up, 0⟩], by decide +kernel⟩

/-- **C41** does not hold of the logical key `Alt`: it is not replaced. -/
theorem C41_alt_counterexample : ∃ l, injectedSequence exEnv "Alt{A}".toList = some l ∧
    ∃ e ∈ l, e.key = Key.Alt ∧ Key.first_logical ≤ e.key :=
  ⟨[⟨Key.Alt, .Down, 0⟩, ⟨Key.KeyA, .Down, 0⟩, ⟨Key.KeyA, .Up, 0⟩, ⟨Key.Alt, .Up, 0⟩], by decide +kernel,
    ⟨Key.Alt, .Down, 0⟩, by decide⟩

/-! ## Typing a text -/

theorem modKey_replaceLogical (k : Key) : modKeyOf (replaceLogical k) = modKeyOf k := by
  rw [replaceLogical]
  split
  · next h => subst h; rfl
  split
  · next h => subst h; rfl
  split
  · next h => subst h; rfl
  · rfl

theorem typedBy_replace (l : KeySequence) (kb : Keyboard) (h : ∀ e ∈ l, modKeyOf e.key = none → e.state = .Down → replaceLogical e.key = e.key) :
    (replaceLogicalKeys l).foldl Keyboard.step kb = l.foldl Keyboard.step kb := by
  induction l generalizing kb with
  | nil => rfl
  | cons e l ih =>
    rw [replaceLogicalKeys, List.map_cons, List.foldl_cons, List.foldl_cons]
    have : kb.step { e with key := replaceLogical e.key } = kb.step e := by
      rw [Keyboard.step, Keyboard.step]
      simp only [modKey_replaceLogical]
      cases hm : modKeyOf e.key with
      | none =>
        by_cases hd : e.state = .Down
        · rw [h e List.mem_cons_self hm hd]
        · simp [hd]
      | some m => rfl
    rw [this]
    exact ih _ (fun e he => h e (List.mem_cons_of_mem _ he))

/-- The keys a text consists of: neither modifiers nor special keys -/
def PlainKey (k : Key) : Prop := modKeyOf k = none ∧ k ≠ Key.ContextActive ∧ k ≠ Key.Meta

instance (k : Key) : Decidable (PlainKey k) := inferInstanceAs (Decidable (_ ∧ _ ∧ _))

theorem typedBy_events (l : KeySequence) (kb : Keyboard) : ∀ e ∈ l, modKeyOf e.key = none → e.state = .Down →
    ∃ m, (e.key, m) ∈ (l.foldl Keyboard.step kb).typed := by
  have hmono : ∀ (l : KeySequence) (kb : Keyboard) x, x ∈ kb.typed → x ∈ (l.foldl Keyboard.step kb).typed := by
    intro l
    induction l with
    | nil => intro kb x h; exact h
    | cons e l ih =>
      intro kb x h
      refine ih _ x ?_
      rw [Keyboard.step]
      split
      · split
        · exact h
        · split <;> exact h
      · split
        · exact List.mem_append_left _ h
        · exact h
  induction l generalizing kb with
  | nil => intro e he; cases he
  | cons e l ih =>
    intro x hx hm hs
    rcases List.mem_cons.mp hx with rfl | hx
    · refine ⟨kb.mods, hmono l _ _ ?_⟩
      rw [Keyboard.step, hm]
      simp [hs]
    · exact ih _ x hx hm hs

/-- **C66** (injected) `keymapperctl --type` types a text without double quotes: exactly the keys of its characters are
pressed, each one with exactly its modifiers, and everything is released. -/
theorem C66_injected (env : ClientEnv) (s : Str) (hs : '"' ∉ s) (keys : List TypedKey) (ht : env.typer s = some keys)
    (hk : ∀ t ∈ keys, PlainKey t.key) :
    ∃ l, injectedSequence env ('"' :: (s ++ ['"'])) = some l ∧ typedBy l = { typed := keys.map TypedKey.press } := by
  obtain ⟨l, hl, htyped⟩ := C66_string ⟨false, getKeyByName, env.typer, false, 0⟩ rfl '"' (.inl rfl) s hs keys ht
    (fun t h => (hk t h).1) (fun t h => (hk t h).2.1)
  refine ⟨ensureAllKeysUp (replaceLogicalKeys (⟨Key.any, .Not, 0⟩ :: l)), ?_, ?_⟩
  · rw [injectedSequence, hl]; rfl
  · have hre : typedBy (replaceLogicalKeys (⟨Key.any, .Not, 0⟩ :: l)) = { typed := keys.map TypedKey.press } := by
      rw [← htyped]
      refine typedBy_replace _ _ (fun e he hm hd => ?_)
      obtain ⟨m, hmem⟩ := typedBy_events _ {} e he hm hd
      replace hmem : (e.key, m) ∈ (typedBy (⟨Key.any, .Not, 0⟩ :: l)).typed := hmem
      rw [htyped, List.mem_map] at hmem
      obtain ⟨t, htk, hte⟩ := hmem
      have hmeta := (hk t htk).2.2
      rw [show t.key = e.key from (Prod.mk.inj hte).1] at hmeta
      rw [replaceLogical, if_neg (fun h => by rw [h] at hm; cases hm), if_neg (fun h => by rw [h] at hm; cases hm),
        if_neg hmeta]
    rw [ensureAllKeysUp, typedBy_append, hre]
    exact typedBy_prefix _ _ rfl (fun e he => by
      rw [List.mem_map] at he; obtain ⟨k, -, rfl⟩ := he; rfl)

theorem hexDigitKeys_plain (c : Nat) : ∀ k ∈ hexDigitKeys c, PlainKey k := by
  induction c using Nat.strongRecOn with
  | ind c ih =>
    rw [hexDigitKeys]
    by_cases h : c = 0
    · simp [h]
    · rw [dif_neg h]
      intro k hk
      rcases List.mem_cons.mp hk with rfl | hk
      · have : ∀ d < 16, PlainKey (hexKeys.getD d Key.none) := by decide
        exact this _ (by omega)
      · exact ih _ (by omega) k hk

theorem charKeys_plain (c : Nat) : ∀ t ∈ charKeys genericDictionary c, PlainKey t.key := by
  intro t ht
  rw [charKeys] at ht
  cases h : genericDictionary c with
  | none =>
    rw [h] at ht
    simp only [hexTypeUnicode, List.mem_append, List.mem_map, List.mem_singleton, List.mem_reverse] at ht
    rcases ht with (rfl | ⟨k, hk, rfl⟩) | rfl
    · decide
    · exact hexDigitKeys_plain c k hk
    · decide
  | some entry =>
    rw [h] at ht
    obtain ⟨p, rfl, -, hu⟩ := dictionary_layout c entry h
    simp only [List.map_cons, List.map_nil, List.mem_singleton] at ht
    subst ht
    have hplain : ∀ k ∈ [Key.Space, Key.Tab, Key.Enter, Key.Slash] ++ letterKeys ++ digitKeys, PlainKey k := by decide
    apply hplain
    rw [usLayout] at hu
    simp only [List.mem_append, List.mem_cons]
    split at hu
    · repeat' split at hu
      all_goals simp_all
    · split at hu
      · repeat' split at hu
        all_goals simp_all
      · cases hu

/-- **C66** (generic typer, injected) What `keymapperctl --type` types, read as a text, is the text with its escapes replaced. -/
theorem C66_types_text (env : ClientEnv) (henv : env.typer = genericTyper) (s : Str) (hs : '"' ∉ s) :
    ∃ l, injectedSequence env ('"' :: (s ++ ['"'])) = some l ∧ (typedBy l).mods = {} ∧
      readPresses none (typedBy l).typed = some (unescape (s.map Char.toNat)) := by
  obtain ⟨keys, hkeys, hread⟩ := C66_generic_typer s
  have hplain : ∀ t ∈ keys, PlainKey t.key := by
    rw [genericTyper, typeCodepoints] at hkeys
    cases hkeys
    intro t ht
    rw [List.mem_flatMap] at ht
    obtain ⟨c, -, ht⟩ := ht
    exact charKeys_plain c t ht
  obtain ⟨l, hl, ht⟩ := C66_injected env s hs keys (by rw [henv]; exact hkeys) hplain
  exact ⟨l, hl, by rw [ht], by rw [ht]; exact hread⟩

example : injectedSequence exEnv "\"Hi\"".toList = some
    [⟨Key.any, .Not, 0⟩, ⟨Key.ShiftLeft, .Down, 0⟩, ⟨Key.KeyH, .Down, 0⟩, ⟨Key.KeyH, .Up, 0⟩, ⟨Key.ShiftLeft, .Up, 0⟩,
     ⟨Key.KeyI, .Down, 0⟩, ⟨Key.KeyI, .Up, 0⟩] := by decide +kernel

/-- **C66** is not true of a text with double quotes: they are not escaped, so the text ends there and what follows
is read as an expression. -/
theorem C66_quote_counterexample :
    injectedSequence exEnv ('"' :: ("a\"b".toList ++ ['"'])) = none ∧
    ∃ l, injectedSequence exEnv ('"' :: ("a\" Enter \"b".toList ++ ['"'])) = some l ∧
      readPresses none (typedBy l).typed = some [97, 13, 98] :=
  ⟨by decide +kernel, (injectedSequence exEnv ('"' :: ("a\" Enter \"b".toList ++ ['"']))).getD [], by decide +kernel, by decide +kernel⟩

end KM
