import Verif.Spec.Abbreviations
import Verif.Lemmas.ChordMatch
/-!
# What mappings yield while keys are typed one after the other, or pressed together
-/
namespace KM

theorem deviceKey_notVirtual {k : Nat} (h : isDeviceKey k = true) : isVirtualKey k = false := by
  simp only [isDeviceKey, isKeyboardKey, isMouseButton, isMouseWheel, isVirtualKey, Bool.or_eq_true, Bool.and_eq_true,
    decide_eq_true_eq, Bool.and_eq_false_iff, decide_eq_false_iff_not] at h ⊢
  have h' : k ≤ (61439 : Nat) := by
    rcases h with ((⟨⟨⟨_, h⟩, _⟩, _⟩ | ⟨_, h⟩) | ⟨_, h⟩)
    · exact h
    · exact Nat.le_trans h (by decide)
    · exact Nat.le_trans h (by decide)
  exact Or.inl (Nat.not_le.2 (Nat.lt_of_le_of_lt h' (by decide)))

theorem deviceKey_proper {k : Key} (h : isDeviceKey k = true) :
    ProperKey k ∧ k ≠ Key.ContextActive ∧ isVirtualKey k = false := by
  refine ⟨⟨?_, ?_, ?_⟩, ?_, deviceKey_notVirtual h⟩ <;> (rintro rfl; exact absurd h (by decide))

theorem presses_downs (l : List Key) : presses (l.map (fun k => ⟨k, .Down, 0⟩)) = l := by
  induction l with
  | nil => rfl
  | cons k l ih =>
    unfold presses at ih ⊢
    simp only [List.map_cons]
    rw [List.filter_cons_of_pos (by simp), List.map_cons, ih]

theorem typed_downs {P : List Key} {p : KeySequence} (h : Typed P p) (hd : ∀ e ∈ p, e.state = .Down) :
    (p.map (·.key)).Nodup ∧ ∀ k ∈ P, k ∉ p.map (·.key) := by
  induction p generalizing P with
  | nil => simp
  | cons e p ih =>
    simp only [Typed] at h
    rcases h with ⟨_, _, h3, h4⟩ | ⟨h1, _⟩
    · obtain ⟨i1, i2⟩ := ih h4 (fun x hx => hd x (by simp [hx]))
      refine ⟨by rw [List.map_cons, List.nodup_cons]; exact ⟨i2 _ (by simp), i1⟩, ?_⟩
      intro k hk
      rw [List.map_cons, List.mem_cons, not_or]
      exact ⟨fun h => h3 (h ▸ hk), i2 k (by simp [hk])⟩
    · rw [hd e (by simp)] at h1; simp at h1

theorem mem_pattern {p : Pattern} {e : KeyEvent} (h : e ∈ p.expr) : e.key ∈ p.keys ∧ e.value = 0 := by
  cases p with
  | word ks => exact ⟨(mem_typingExpr h).1, (mem_typingExpr h).2.2⟩
  | chord ks => exact ⟨(mem_chordExpr h).1, (mem_chordExpr h).2.2⟩

theorem pattern_mem {p : Pattern} {k : Key} (h : k ∈ p.keys) : ⟨k, .Down, 0⟩ ∈ p.expr := by
  cases p with
  | word ks =>
    show _ ∈ typingExpr ks
    unfold typingExpr
    rw [List.mem_flatMap]
    exact ⟨k, h, by simp⟩
  | chord ks =>
    show _ ∈ chordExpr ks
    have h : k ∈ ks := h
    simp [chordExpr, h]

theorem chordExpr_inj {a b : List Key} (h : chordExpr a = chordExpr b) : a = b := by
  have h1 := congrArg presses h
  unfold chordExpr at h1
  have h2 : ∀ l : List Key, presses (l.map (fun k => ⟨k, .DownAsync, 0⟩) ++ l.map (fun k => ⟨k, .Down, 0⟩) ++ l.map (fun k => ⟨k, .UpAsync, 0⟩)) = l := by
    intro l
    have h3 : presses (l.map (fun k => ⟨k, .DownAsync, 0⟩)) = [] := by simp [presses]
    have h4 : presses (l.map (fun k => ⟨k, .UpAsync, 0⟩)) = [] := by simp [presses]
    have happ : ∀ a b, presses (a ++ b) = presses a ++ presses b := by
      intro a b; unfold presses; rw [List.filter_append, List.map_append]
    rw [happ, happ, h3, h4, presses_downs]; simp
  rw [h2, h2] at h1
  exact h1

theorem pattern_inj {p q : Pattern} (hp : p.Proper) (h : p.expr = q.expr) : p = q := by
  have hcw : ∀ a b : List Key, a ≠ [] → typingExpr a ≠ chordExpr b := by
    intro a b ha hab
    obtain ⟨k, a, rfl⟩ := List.exists_cons_of_ne_nil ha
    cases b with
    | nil => simp [typingExpr, chordExpr] at hab
    | cons j b => simp [typingExpr, chordExpr] at hab
  cases p with
  | word a =>
    cases q with
    | word b => rw [typingExpr_inj h]
    | chord b => exact absurd h (hcw a b hp.1)
  | chord a =>
    cases q with
    | word b =>
      cases b with
      | nil =>
        obtain ⟨k, l, rfl⟩ : ∃ k l, a = k :: l := List.exists_cons_of_ne_nil hp.1
        simp [Pattern.expr, typingExpr, chordExpr] at h
      | cons k b => exact absurd h.symm (hcw (k :: b) a (by simp))
    | chord b => rw [chordExpr_inj h]

/-- only keys of the pattern are typed -/
theorem begun_keys {pat : Pattern} {p : KeySequence} (hT : Typed [] p) (h : pat.Begun p) : ∀ e ∈ p, e.key ∈ pat.keys := by
  intro e he
  cases pat with
  | word ks =>
    rcases typed_keys hT e he with h1 | h1
    · simp at h1
    · exact List.IsPrefix.mem h1 h.1
  | chord ks =>
    obtain ⟨order, _, h2, _, rfl⟩ := h
    obtain ⟨k, hk, rfl⟩ := List.mem_map.1 he
    exact h2 k hk

theorem completed_keys {pat : Pattern} {p : KeySequence} (hT : Typed [] p) (h : pat.CompletedBy p) : ∀ e ∈ p, e.key ∈ pat.keys := by
  intro e he
  cases pat with
  | word ks =>
    rcases typed_keys hT e he with h1 | h1
    · simp at h1
    · exact (h : presses p = ks) ▸ h1
  | chord ks =>
    obtain ⟨order, h2, rfl⟩ := h
    obtain ⟨k, hk, rfl⟩ := List.mem_map.1 he
    exact h2.mem_iff.1 hk

/-- before the last key is pressed -/
theorem completed_begun {pat : Pattern} {p l : KeySequence} {e : KeyEvent} (he : e.state = .Down) (h : pat.CompletedBy (p ++ (l ++ [e])))
    (hT : Typed [] (p ++ (l ++ [e]))) : pat.Begun p := by
  cases pat with
  | word ks =>
    have h : presses (p ++ (l ++ [e])) = ks := h
    have h1 : presses [e] = [e.key] := by unfold presses; simp [he]
    rw [pressed_append, pressed_append, h1] at h
    refine ⟨⟨_, h⟩, ?_⟩
    intro hh
    have := congrArg List.length h
    rw [hh] at this
    simp at this
  | chord ks =>
    obtain ⟨order, h1, h2⟩ := h
    obtain ⟨a, b, rfl, ha, hb⟩ := List.map_eq_append_iff.1 h2.symm
    have hd : ∀ x ∈ p ++ (l ++ [e]), x.state = .Down := by
      rw [h2]
      intro x hx
      obtain ⟨k, _, rfl⟩ := List.mem_map.1 hx
      rfl
    have hnd := (typed_downs hT hd).1
    rw [h2, List.map_map] at hnd
    have hnd' : (a ++ b).Nodup := by
      have hid : ((fun e : KeyEvent => e.key) ∘ fun k => (⟨k, .Down, 0⟩ : KeyEvent)) = id := rfl
      rw [hid, List.map_id] at hnd
      exact hnd
    refine ⟨a, (List.nodup_append.1 hnd').1, fun k hk => h1.mem_iff.1 (by simp [hk]), ?_, ha.symm⟩
    have hbe : e.key ∈ b := by
      have : e ∈ b.map (fun k => (⟨k, .Down, 0⟩ : KeyEvent)) := by rw [hb]; simp
      obtain ⟨k, hk, rfl⟩ := List.mem_map.1 this
      exact hk
    exact ⟨e.key, h1.mem_iff.1 (by simp [hbe]), fun hm => (List.nodup_append.1 hnd').2.2 _ hm _ hbe rfl⟩

/-- the key which is the last one of a pattern was pressed -/
theorem completed_last {pat : Pattern} {p : KeySequence} {e : KeyEvent} (he : e.state = .Down) (h : pat.CompletedBy (p ++ [e]))
    {k : Key} (hk : pat.keys.getLast? = some k) : k ∈ keysDown [] (p ++ [e]) := by
  cases pat with
  | word ks =>
    have h : presses (p ++ [e]) = ks := h
    have h1 : presses [e] = [e.key] := by unfold presses; simp [he]
    rw [pressed_append, h1] at h
    have hk : ks.getLast? = some k := hk
    rw [← h, List.getLast?_append] at hk
    simp at hk
    rw [keysDown_append]
    simp [keysDown, he, hk]
  | chord ks =>
    obtain ⟨order, h1, h2⟩ := h
    rw [h2]
    have hkm : k ∈ order := h1.mem_iff.2 (List.mem_of_mem_getLast? hk)
    have : ∀ (l : List Key) (P : List Key), k ∈ l ∨ k ∈ P → k ∈ keysDown P (l.map (fun k => ⟨k, .Down, 0⟩)) := by
      intro l
      induction l with
      | nil => intro P h; simpa [keysDown] using h
      | cons x l ih =>
        intro P h
        simp only [List.map_cons, keysDown, if_true]
        apply ih
        rcases h with h | h
        · rcases List.mem_cons.1 h with h | h
          · exact Or.inr (by simp [h])
          · exact Or.inl h
        · exact Or.inr (by simp [h])
    exact this order [] (Or.inl hkm)

section
variable {base p : KeySequence} (hp : p ≠ []) (hT : Typed [] p)
include hp hT

theorem word_result {ks : List Key} (hks : ∀ k ∈ ks, ProperKey k) (hne : ks ≠ [])
    (hb : ∀ e ∈ base, e.state = .DownMatched ∧ ProperKey e.key ∧ e.key ∉ ks) :
    (matchSeq (typingExpr ks) (base ++ p)).res =
      if presses p = ks then .matched else if presses p <+: ks then .might_match else .no_match := by
  rw [matchSeq_skip hks hne hb hp]
  exact C15_typing ks p hks hne hp hT

omit hp in
/-- a word begins to be typed, which does not begin with the keys of a chord -/
theorem chord_notMatched {g : List Key} (hg : ∀ k ∈ g, ProperKey k) {z : Key} (hz : z ∈ g) (hzp : z ∉ (presses p).take g.length)
    (hproper : ∀ e ∈ p, ProperKey e.key) : (matchSeq (chordExpr g) p).res ≠ .matched := by
  obtain ⟨D, hD⟩ : ∃ D, D = p.takeWhile (fun e => decide (e.state = .Down)) := ⟨_, rfl⟩
  obtain ⟨rest, hR⟩ : ∃ rest, rest = p.dropWhile (fun e => decide (e.state = .Down)) := ⟨_, rfl⟩
  have hpe : p = D ++ rest := by rw [hD, hR, List.takeWhile_append_dropWhile]
  have hDd : ∀ e ∈ D, e.state = .Down := by
    have := List.all_takeWhile (p := fun e : KeyEvent => decide (e.state = .Down)) (l := p)
    rw [← hD, List.all_eq_true] at this
    intro e he
    simpa using this e he
  have hrest : ∀ y ∈ rest.head?, y.state = .Up := by
    intro y hy
    have h1 := typed_state hT y (by rw [hpe]; exact List.mem_append_right _ (List.mem_of_mem_head? hy))
    have h2 := List.head?_dropWhile_not (p := fun e : KeyEvent => decide (e.state = .Down)) (l := p)
    rw [← hR] at h2
    have hy' : rest.head? = some y := hy
    rw [hy'] at h2
    rcases h1 with h1 | h1
    · simp [h1] at h2
    · exact h1
  by_cases hall : ∀ e ∈ D, e.key ∈ g
  · rw [hpe] at hT hproper ⊢
    obtain ⟨hnd, _⟩ := typed_downs (typed_append.1 hT).1 hDd
    have hlen : (D.map (·.key)).length ≤ g.length := hnd.length_le_of_subset (by
      intro k hk
      obtain ⟨e, he, rfl⟩ := List.mem_map.1 hk
      exact hall e he)
    refine (chord_missing hg hz (fun e he => ⟨Or.inl (hDd e he), ?_⟩) hrest hproper).1
    intro hez
    apply hzp
    have hpr : presses p = D.map (·.key) ++ presses rest := by
      rw [hpe, pressed_append]
      congr 1
      unfold presses
      rw [List.filter_eq_self.2 (fun e he => by simpa using hDd e he)]
    rw [hpr, List.take_append, List.take_of_length_le hlen, List.mem_append]
    left
    exact List.mem_map.2 ⟨e, he, hez⟩
  · have : ∃ e ∈ D, e.key ∉ g := by
      apply Classical.byContradiction
      intro h
      apply hall
      intro e he
      apply Classical.byContradiction
      intro hne
      exact h ⟨e, he, hne⟩
    obtain ⟨y, hy, hyg⟩ := this
    rw [chord_strange hg (y := y) (by rw [hpe]; simp [hy]) (Or.inl (hDd y hy)) hyg hproper]
    simp

/-- the mapping of the pattern which is typed -/
theorem pattern_begun {pat : Pattern} (hpat : pat.Proper)
    (hb : ∀ e ∈ base, e.state = .DownMatched ∧ ProperKey e.key ∧ e.key ∉ pat.keys) (h : pat.Begun p) :
    (matchSeq pat.expr (base ++ p)).res = .might_match := by
  have hpr : ∀ k ∈ pat.keys, ProperKey k := fun k hk => (deviceKey_proper (hpat.2.1 k hk)).1
  cases pat with
  | word ks =>
    show (matchSeq (typingExpr ks) (base ++ p)).res = _
    rw [word_result (ks := ks) hp hT hpr hpat.1 hb, if_neg h.2, if_pos h.1]
  | chord ks =>
    obtain ⟨order, h1, h2, ⟨z, hz, hzo⟩, rfl⟩ := h
    show (matchSeq (chordExpr ks) (base ++ _)).res = _
    rw [chord_skip (g := ks) hpr hpat.1 hb hp]
    have := C16_chord ks order [] hpr (hpat.2.2 ks rfl) h1 h2 (by rintro rfl; exact hp rfl) List.nodup_nil (by simp)
    simp only [List.map_nil, List.append_nil] at this
    rw [this, if_neg (fun h => hzo (h z hz)), if_pos trivial]

theorem pattern_completed {pat : Pattern} (hpat : pat.Proper)
    (hb : ∀ e ∈ base, e.state = .DownMatched ∧ ProperKey e.key ∧ e.key ∉ pat.keys) (h : pat.CompletedBy p) :
    (matchSeq pat.expr (base ++ p)).res = .matched := by
  have hpr : ∀ k ∈ pat.keys, ProperKey k := fun k hk => (deviceKey_proper (hpat.2.1 k hk)).1
  cases pat with
  | word ks =>
    show (matchSeq (typingExpr ks) (base ++ p)).res = _
    rw [word_result (ks := ks) hp hT hpr hpat.1 hb]
    exact if_pos h
  | chord ks =>
    obtain ⟨order, h1, rfl⟩ := h
    show (matchSeq (chordExpr ks) (base ++ _)).res = _
    rw [chord_skip (g := ks) hpr hpat.1 hb hp]
    exact C16_any_order ks order hpr (hpat.2.2 ks rfl) hpat.1 h1

/-- a mapping in front of it, while it begins to be typed -/
theorem pattern_apart_begun {pat q : Pattern} (hq : q.Proper) (ha : q.Apart pat)
    (hb : ∀ e ∈ base, e.state = .DownMatched ∧ ProperKey e.key ∧ e.key ∉ q.keys) (h : pat.Begun p) (hproper : ∀ e ∈ p, ProperKey e.key) :
    (matchSeq q.expr (base ++ p)).res ≠ .matched := by
  have hpr : ∀ k ∈ q.keys, ProperKey k := fun k hk => (deviceKey_proper (hq.2.1 k hk)).1
  cases q with
  | word a =>
    show (matchSeq (typingExpr a) (base ++ p)).res ≠ _
    rw [word_result (ks := a) hp hT hpr hq.1 hb, if_neg]
    · split <;> simp
    · intro hpa
      cases pat with
      | word b => exact ha.1 (hpa ▸ h.1)
      | chord g =>
        obtain ⟨order, h1, h2, _, rfl⟩ := h
        obtain ⟨⟨k, hk, hkg⟩, _⟩ := ha
        rw [presses_downs] at hpa
        exact hkg (h2 k (hpa ▸ hk))
  | chord g =>
    show (matchSeq (chordExpr g) (base ++ p)).res ≠ _
    rw [chord_skip (g := g) hpr hq.1 hb hp]
    cases pat with
    | word b =>
      obtain ⟨_, z, hz, hzb⟩ := ha
      refine chord_notMatched hT hpr hz ?_ hproper
      intro hm
      obtain ⟨t, ht⟩ := h.1
      apply hzb
      rw [← ht, List.take_append, List.mem_append]
      exact Or.inl hm
    | chord g' =>
      obtain ⟨order, h1, h2, _, rfl⟩ := h
      obtain ⟨⟨z, hz, hzg⟩, _⟩ := ha
      refine chord_notMatched hT hpr hz ?_ hproper
      intro hm
      have := List.mem_of_mem_take hm
      rw [presses_downs] at this
      exact hzg (h2 z this)

/-- a mapping in front of it, when it was typed -/
theorem pattern_apart_completed {pat q : Pattern} (hq : q.Proper) (ha : q.Apart pat)
    (hb : ∀ e ∈ base, e.state = .DownMatched ∧ ProperKey e.key ∧ e.key ∉ q.keys) (h : pat.CompletedBy p) (hproper : ∀ e ∈ p, ProperKey e.key) :
    (matchSeq q.expr (base ++ p)).res = .no_match := by
  have hpr : ∀ k ∈ q.keys, ProperKey k := fun k hk => (deviceKey_proper (hq.2.1 k hk)).1
  cases q with
  | word a =>
    show (matchSeq (typingExpr a) (base ++ p)).res = _
    rw [word_result (ks := a) hp hT hpr hq.1 hb]
    cases pat with
    | word b =>
      have h : presses p = b := h
      rw [h, if_neg (fun hh => ha.1 (by rw [hh]; exact List.prefix_refl _)), if_neg ha.2]
    | chord g =>
      obtain ⟨order, h1, rfl⟩ := h
      obtain ⟨⟨k, hk, hkg⟩, z, hz, hza⟩ := ha
      rw [presses_downs, if_neg (fun hh : order = a => hkg (h1.mem_iff.1 (hh ▸ hk))), if_neg]
      intro hpre
      obtain ⟨t, ht⟩ := hpre
      apply hza
      rw [← ht, ← h1.length_eq, List.take_left]
      exact h1.mem_iff.2 hz
  | chord g =>
    show (matchSeq (chordExpr g) (base ++ p)).res = _
    rw [chord_skip (g := g) hpr hq.1 hb hp]
    have key : ∀ k, k ∈ presses p → k ∉ g → (matchSeq (chordExpr g) p).res = .no_match := by
      intro k hk hkg
      obtain ⟨e, he, hek, hed⟩ := mem_presses hk
      exact chord_strange hpr he (Or.inl hed) (hek ▸ hkg) hproper
    cases pat with
    | word b =>
      obtain ⟨⟨k, hk, hkg⟩, _⟩ := ha
      have h : presses p = b := h
      exact key k (h ▸ hk) hkg
    | chord g' =>
      obtain ⟨order, h1, rfl⟩ := h
      obtain ⟨_, k, hk, hkg⟩ := ha
      exact key k (by rw [presses_downs]; exact h1.mem_iff.2 hk) hkg

end

/-- the release of a key does not match, when all held keys were matched before -/
theorem pattern_releaseNoMatch {pat : Pattern} (hpat : pat.Proper) {D : KeySequence} {k : Key} (hk : ProperKey k)
    (hD : ∀ e ∈ D, e.state = .DownMatched ∧ ProperKey e.key ∧ e.key ≠ k) :
    (matchSeq pat.expr (D ++ [⟨k, .Up, 0⟩])).res = .no_match := by
  have hpr : ∀ k ∈ pat.keys, ProperKey k := fun k hk => (deviceKey_proper (hpat.2.1 k hk)).1
  cases pat with
  | word ks => exact matchSeq_releaseNoMatch hk hpr hD
  | chord ks => exact chord_releaseNoMatch hk hpr hD

end KM
