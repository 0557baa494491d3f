import Verif.Lemmas.Match
/-!
# Matching a single expression (C14 - C18)
-/
namespace KM

/-! ### C14 -/

/-- **C14** No match is final: an expression (without the no-might-match marker) which does not match
a (non-empty) sequence does not match any continuation of it. -/
theorem C14_no_match_is_final (e s t : KeySequence) (hplain : Plain e) (hs : s ≠ [])
    (h : (matchSeq e s).res = .no_match) : (matchSeq e (s ++ t)).res = .no_match := by
  unfold matchSeq at *
  by_cases he : e = []
  · simp [he]
  · have h1 : (e.isEmpty || s.isEmpty) = false := by simp [he, hs]
    have h2 : (e.isEmpty || (s ++ t).isEmpty) = false := by simp [he, hs]
    rw [h1] at h
    rw [h2]
    simp only [Bool.false_eq_true, if_false] at *
    have := final (m := mInit e s) rfl hplain h t
    rw [show mInit e (s ++ t) = (mInit e s).extend t from rfl, this]
    exact h

/-- **C14** contraposed: a sequence which matches or may still match could always be continued from
its prefixes: none of them was rejected. -/
theorem C14_prefixes_not_rejected (e s t : KeySequence) (hplain : Plain e) (hs : s ≠ [])
    (h : (matchSeq e (s ++ t)).res ≠ .no_match) : (matchSeq e s).res ≠ .no_match :=
  fun hn => h (C14_no_match_is_final e s t hplain hs hn)

-- `A B` is rejected by `B`, and thus by `B A B`, while it is matched by `A B`
example : Plain (typingExpr [30, 48]) ∧ (matchSeq (typingExpr [30, 48]) [⟨48, .Down, 0⟩]).res = .no_match ∧
    (matchSeq (typingExpr [30, 48]) [⟨30, .Down, 0⟩, ⟨48, .Down, 0⟩]).res = .matched := by
  refine ⟨?_, by decide +kernel, by decide +kernel⟩
  simp [Plain, typingExpr]

-- the marker is indeed excluded for a reason: `? A B` rejects `A` but matches `A B`
example : (matchSeq (⟨0, .NoMightMatch, 0⟩ :: typingExpr [30, 48]) [⟨48, .Down, 0⟩]).res = .no_match ∧
    (matchSeq (⟨0, .NoMightMatch, 0⟩ :: typingExpr [30, 48])
      [⟨48, .Down, 0⟩, ⟨30, .Down, 0⟩, ⟨48, .Down, 0⟩]).res ≠ .no_match := by decide +kernel

/-! ### C17 -/

/-- An event at the beginning of an expression, which does not wait for anything: another key which
must not be held, an asynchronous event or the no-might-match marker -/
def Preliminary (e : KeyEvent) : Prop :=
  (e.state = .Not ∧ e.key ≠ Key.timeout) ∨ e.state = .DownAsync ∨ e.state = .UpAsync ∨
  (e.state = .NoMightMatch ∧ e.key = Key.none)

/-- The key gets pressed, or is held since before (a press which was already matched) -/
def HeldIn (k : Key) (s : KeySequence) : Prop := ∃ x ∈ s, x.key = k ∧ (x.state = .Down ∨ x.state = .DownMatched)

/-- the key must not be held: now, or after some preliminary events -/
private def Forbids (k : Key) (m : MState) : Prop :=
  (k ∈ m.nots ∧ ∀ x ∈ m.eRest, ¬ (x.key = k ∧ x.state = .Down)) ∨
  (∃ pre v rest, m.eRest = pre ++ ⟨k, .Not, v⟩ :: rest ∧ (∀ x ∈ pre, Preliminary x) ∧
    ∀ x ∈ rest, ¬ (x.key = k ∧ x.state = .Down))

private theorem heldIn_tail {k : Key} {s : KeySequence} (h : HeldIn k s)
    (hn : ¬ ((s.headD KeyEvent.zero).key = k ∧ ((s.headD KeyEvent.zero).state = .Down ∨ (s.headD KeyEvent.zero).state = .DownMatched))) :
    HeldIn k s.tail := by
  obtain ⟨x, hx, hk⟩ := h
  cases s with
  | nil => simp at hx
  | cons y s =>
    simp only [List.headD_cons, List.tail_cons] at *
    rcases List.mem_cons.mp hx with rfl | hx
    · exact absurd hk hn
    · exact ⟨x, hx, hk⟩

private theorem preliminary_step {m m' : MState} {x : KeyEvent} {er : KeySequence} (hp : Preliminary x) (he : m.eRest = x :: er)
    (h : mStep m = .inl m') : m'.eRest = er ∧ m'.sRest = m.sRest ∧
      (x.state = .Not → x.key ≠ Key.timeout → x.key ∈ m'.nots) := by
  have hee : m.ee = x := by unfold MState.ee; rw [he]; rfl
  have h0 := dropNot_fields m x
  unfold mStep at h
  split at h; · simp at h
  rw [hee] at h
  generalize m.dropNot x = m0 at h h0
  have hadv : ∀ {m1 m' : MState}, m1.advE = .inl m' → m1.eRest = x :: er → m1.sRest = m.sRest →
      m'.eRest = er ∧ m'.sRest = m.sRest ∧ m'.nots = m1.nots := by
    intro m1 m' h1 h2 h3
    obtain ⟨y, er', hy, rfl⟩ := advE_inl h1
    rw [h2] at hy
    exact ⟨by simp at hy; exact hy.2.symm, h3, rfl⟩
  have he0 : m0.eRest = x :: er := by rw [h0.1, he]
  have hs0 : m0.sRest = m.sRest := h0.2.1
  unfold mStepMain at h
  split at h; · simp at h
  split at h
  · next h1 =>
    have := hadv h he0 hs0
    exact ⟨this.1, this.2.1, fun h2 => by simp [h2] at h1⟩
  split at h
  · next h1 =>
    have := hadv h he0 hs0
    exact ⟨this.1, this.2.1, fun _ _ => by rw [this.2.2]; simp⟩
  next h1 h2 =>
  have hx : x.state = .NoMightMatch ∧ x.key = Key.none := by
    simp at h1 h2
    rcases hp with hp | hp | hp | hp
    · exact absurd (h2 hp.1) hp.2
    · exact absurd hp h1.1
    · exact absurd hp h1.2
    · exact hp
  split at h; · next h3 => simp [hx] at h3
  split at h; · next h3 => simp [unifiable, hx, unifiableKey] at h3
  split at h; · next h3 => simp [hx, Key.none, Key.timeout] at h3
  split at h
  · have := hadv h he0 hs0
    exact ⟨this.1, this.2.1, fun h4 => by simp [hx.1] at h4⟩
  next h3 => simp [hx.1] at h3

private theorem forbids_step {k : Key} (hk : k ≠ Key.timeout) {m m' : MState} (hf : Forbids k m)
    (hh : HeldIn k m.sRest) (h : mStep m = .inl m') : Forbids k m' ∧ HeldIn k m'.sRest := by
  rcases hf with ⟨hn, hd⟩ | ⟨pre, v, rest, he, hpre, hd⟩
  · have h0 := dropNot_fields m m.ee
    have hn0 : k ∈ (m.dropNot m.ee).nots := by
      unfold MState.dropNot
      split
      · next h1 =>
        simp only [List.mem_filter]
        refine ⟨hn, ?_⟩
        have : m.ee.key ≠ k := by
          intro h2
          unfold MState.ee at h1 h2
          generalize m.eRest = e at hd h1 h2
          cases e with
          | nil => simp [KeyEvent.zero] at h1
          | cons y er => exact hd y (by simp) ⟨h2, by simpa using h1⟩
        simpa using fun h => this h.symm
      · exact hn
    unfold mStep at h
    split at h; · simp at h
    generalize m.dropNot m.ee = m0 at h h0 hn0
    have hsh := mStepMain_shape h
    have hse : ¬ (m.se.key = k ∧ (m.se.state = .Down ∨ m.se.state = .DownMatched)) := by
      intro hc
      unfold mStepMain at h
      split at h
      · simp at h
      · next h1 =>
        simp [hc.1, hn0] at h1
        exact hc.2.elim (fun h => h1.1 h) (fun h => h1.2 h)
    constructor
    · refine .inl ⟨hsh.nots k hn0, ?_⟩
      intro x hx
      refine hd x ?_
      rcases hsh.e with h3 | h3
      · rw [h3, h0.1] at hx; exact hx
      · rw [h3, h0.1] at hx; exact List.mem_of_mem_tail hx
    · rcases hsh.s with h3 | h3
      · rw [h3, h0.2.1]; exact hh
      · rw [h3, h0.2.1]; exact heldIn_tail hh hse
  · cases pre with
    | nil =>
      have := preliminary_step (x := ⟨k, .Not, v⟩) (.inl ⟨rfl, hk⟩) he h
      exact ⟨.inl ⟨this.2.2 rfl hk, by rw [this.1]; exact hd⟩, by rw [this.2.1]; exact hh⟩
    | cons x pre =>
      have := preliminary_step (hpre x (by simp)) he h
      exact ⟨.inr ⟨pre, v, rest, this.1, fun y hy => hpre y (by simp [hy]), hd⟩, by rw [this.2.1]; exact hh⟩

/-- **C17** A key which must not be held prevents the match: if an expression demands at its beginning
that a key is not held, and does not demand its press later, no sequence in which it gets pressed or is
still held is matched by it. (The event `KeyEvent{}` is not generated by any device.) -/
theorem C17_not_prevents_match (pre rest s : KeySequence) (k : Key) (v : Nat) (hk : k ≠ Key.timeout)
    (hpre : ∀ x ∈ pre, Preliminary x) (hrest : ∀ x ∈ rest, ¬ (x.key = k ∧ x.state = .Down)) (hs : HeldIn k s) :
    (matchSeq (pre ++ ⟨k, .Not, v⟩ :: rest) s).res ≠ .matched ∧
    (KeyEvent.zero ∉ s → (matchSeq (pre ++ ⟨k, .Not, v⟩ :: rest) s).res = .no_match) := by
  have hne : s ≠ [] := by rintro rfl; obtain ⟨x, hx, _⟩ := hs; simp at hx
  unfold matchSeq
  have h1 : ((pre ++ ⟨k, .Not, v⟩ :: rest).isEmpty || s.isEmpty) = false := by simp [hne]
  rw [h1]
  simp only [Bool.false_eq_true, if_false]
  have key : ∀ m : MState, (Forbids k m ∧ HeldIn k m.sRest ∧ (KeyEvent.zero ∉ s → KeyEvent.zero ∉ m.sRest)) →
      (mLoop m).res ≠ .matched ∧ (KeyEvent.zero ∉ s → (mLoop m).res = .no_match) := by
    refine mLoop_inv _ (fun r => r.res ≠ .matched ∧ (KeyEvent.zero ∉ s → r.res = .no_match)) ?_ ?_
    · rintro m m' ⟨hf, hh, hz⟩ h
      have := forbids_step hk hf hh h
      refine ⟨this.1, this.2, fun h2 => ?_⟩
      have h3 := hz h2
      unfold mStep at h
      split at h; · simp at h
      have h0 := dropNot_fields m m.ee
      rcases (mStepMain_shape h).s with h4 | h4
      · rw [h4, h0.2.1]; exact h3
      · rw [h4, h0.2.1]; exact fun h5 => h3 (List.mem_of_mem_tail h5)
    · rintro m r ⟨hf, hh, hz⟩ h
      have hm : m.sRest ≠ [] := by intro h2; obtain ⟨x, hx, _⟩ := hh; simp [h2] at hx
      unfold mStep at h
      split at h
      · next h2 => simp [hm] at h2
      · have h0 := dropNot_fields m m.ee
        have := mStepMain_res h (by rw [h0.2.1]; exact hm)
        rcases this with h2 | ⟨h2, h3⟩
        · exact ⟨by simp [h2], fun _ => h2⟩
        · refine ⟨by simp [h2], fun h4 => absurd ?_ (hz h4)⟩
          obtain ⟨x, xs, hx⟩ := List.exists_cons_of_ne_nil hm
          unfold MState.se at h3
          rw [hx] at h3 ⊢
          simp at h3
          simp [h3]
  exact key (mInit (pre ++ ⟨k, .Not, v⟩ :: rest) s) ⟨.inr ⟨pre, v, rest, rfl, hpre, hrest⟩, hs, id⟩

-- `!Shift A` does not match `A` while Shift is held, but without Shift
example : (matchSeq (⟨42, .Not, 0⟩ :: typingExpr [30]) [⟨42, .DownMatched, 0⟩, ⟨30, .Down, 0⟩]).res = .no_match ∧
    (matchSeq (⟨42, .Not, 0⟩ :: typingExpr [30]) [⟨30, .Down, 0⟩]).res = .matched := by decide +kernel
example : (matchSeq ([] ++ ⟨42, .Not, 0⟩ :: typingExpr [30]) [⟨42, .DownMatched, 0⟩, ⟨30, .Down, 0⟩]).res = .no_match :=
  (C17_not_prevents_match [] (typingExpr [30]) _ 42 0 (by decide) (by simp) (by simp [typingExpr])
    ⟨⟨42, .DownMatched, 0⟩, by simp, rfl, .inr rfl⟩).2 (by decide)

/-! ### C18 -/

private theorem unifiable_any {se ee : KeyEvent} (h : unifiable se ee = true) (he : ee.key = Key.any) (hs : se.key ≠ Key.any) :
    isKeyboardKey se.key = true := by
  unfold unifiable at h
  split at h; · simp at h
  split at h; · simp at h
  split at h; · simp at h
  next h1 =>
  simp only [Bool.not_eq_true] at h1
  rw [he] at h1
  unfold unifiableKey at h1
  split at h1; · simp at h1
  split at h1; · next h2 => simp at h2; exact absurd h2 hs
  split at h1; · simp at h1
  split at h1; · next h2 => simp at h2; exact absurd h2.1 hs
  split at h1
  · next h2 => simp at h2; exact h2
  · simp at h1

/-- the keys matched by Any are fine -/
private def AnyOk (s : KeySequence) (l : List Key) : Prop := ∀ k ∈ l, isKeyboardKey k = true ∧ ∃ x ∈ s, x.key = k ∧ x.state = .Down

private def AnyStep (s : KeySequence) : MState ⊕ MOut → Prop
  | .inl m' => AnyOk s m'.any ∧ ∀ x ∈ m'.sRest, x ∈ s
  | .inr r => AnyOk s r.any

private theorem advE_any {s} {m : MState} (h : AnyOk s m.any) (hs : ∀ x ∈ m.sRest, x ∈ s) : AnyStep s m.advE := by
  unfold MState.advE; split
  · exact h
  · exact ⟨h, hs⟩

private theorem advS_any {s} {m : MState} (h : AnyOk s m.any) (hs : ∀ x ∈ m.sRest, x ∈ s) : AnyStep s m.advS := by
  unfold MState.advS; split
  · exact h
  · next h1 => exact ⟨h, fun x hx => hs x (by rw [h1]; simp; right; exact hx)⟩

private theorem advSE_any {s} {m : MState} (h : AnyOk s m.any) (hs : ∀ x ∈ m.sRest, x ∈ s) : AnyStep s m.advSE := by
  have := advS_any h hs
  unfold MState.advSE
  split
  · next m' h1 => rw [h1] at this; exact advE_any this.1 this.2
  · next h1 => rw [h1] at this; exact this

private theorem mStep_any {s} (hany : ∀ x ∈ s, x.key ≠ Key.any) {m : MState} (h : AnyOk s m.any) (hs : ∀ x ∈ m.sRest, x ∈ s) :
    AnyStep s (mStep m) := by
  unfold mStep
  split; · exact h
  have h0 := dropNot_fields m m.ee
  generalize m.dropNot m.ee = m0 at h0 ⊢
  have h' : AnyOk s m0.any := by rw [h0.2.2.2.2.1]; exact h
  have hs' : ∀ x ∈ m0.sRest, x ∈ s := by rw [h0.2.1]; exact hs
  have hse : m.se.state = .Down → m.se ∈ s := by
    unfold MState.se
    intro hd
    cases hm : m.sRest with
    | nil => simp [hm, KeyEvent.zero] at hd
    | cons x xs => exact hs _ (by simp [hm])
  generalize m.se = se at *
  generalize m.ee = ee
  unfold mStepMain
  split; · exact h'
  split; · exact advE_any h' hs'
  split; · exact advE_any h' hs'
  split
  · split
    · exact h'
    · exact advSE_any h' hs'
  split
  · next hu =>
    refine advSE_any ?_ hs'
    simp only []
    split
    · next hc =>
      simp only [Bool.and_eq_true, beq_iff_eq] at hc
      intro k hk
      rcases List.mem_append.mp hk with hk | hk
      · exact h' k hk
      · simp only [List.mem_singleton] at hk
        subst hk
        exact ⟨unifiable_any hu hc.1 (hany _ (hse hc.2)), se, hse hc.2, rfl, hc.2⟩
    · exact h'
  split; · exact h'
  split; · exact advE_any h' hs'
  unfold mStepElse
  split; · exact h'
  split; · exact advS_any h' hs'
  split; · exact advS_any h' hs'
  split; · exact advE_any h' hs'
  split; · exact advE_any h' hs'
  split; · exact advS_any h' hs'
  split
  · split
    · exact advS_any h' hs'
    · exact h'
  split; · exact advS_any h' hs'
  exact h'

/-- **C18** The keys reported as matched by Any were pressed in the sequence, and are keys of a
keyboard: no mouse buttons, wheels, virtual keys, timeouts, actions or wildcards. -/
theorem C18_any_is_pressed_keyboard_key (e s : KeySequence) (hany : ∀ x ∈ s, x.key ≠ Key.any) (k : Key)
    (hk : k ∈ (matchSeq e s).any) :
    (∃ x ∈ s, x.key = k ∧ x.state = .Down) ∧
    isMouseButton k = false ∧ isMouseWheel k = false ∧ isVirtualKey k = false ∧ isActionKey k = false ∧
    k ≠ Key.timeout ∧ k ≠ Key.any ∧ k ≠ Key.none ∧ k ≠ Key.ContextActive := by
  have key : AnyOk s (matchSeq e s).any := by
    unfold matchSeq
    split
    · intro k hk; simp at hk
    · refine mLoop_inv (fun m => AnyOk s m.any ∧ ∀ x ∈ m.sRest, x ∈ s) (fun r => AnyOk s r.any) ?_ ?_ _
        ⟨fun k hk => by simp [mInit] at hk, fun x hx => hx⟩
      · intro m m' h hstep
        have := mStep_any hany h.1 h.2
        rw [hstep] at this; exact this
      · intro m r h hstep
        have := mStep_any hany h.1 h.2
        rw [hstep] at this; exact this
  obtain ⟨h1, h2⟩ := key k hk
  refine ⟨h2, ?_⟩
  simp only [isKeyboardKey, Bool.and_eq_true, decide_eq_true_eq, Bool.not_eq_true'] at h1
  obtain ⟨⟨⟨h3, h4⟩, h5⟩, h6⟩ := h1
  have aux : ∀ n : Nat, 0 < n → n ≤ 61439 → ¬ 61696 ≤ n ∧ ¬ 61952 ≤ n ∧ n ≠ 61441 ∧ n ≠ 61440 ∧ n ≠ 0 ∧ n ≠ 61442 := by
    intros; omega
  refine ⟨h5, h6, ?_, ?_, ?_⟩
  · simp only [isVirtualKey, Bool.and_eq_false_iff, decide_eq_false_iff_not]
    exact .inl (aux k h3 h4).1
  · simp only [isActionKey, Bool.and_eq_false_iff, decide_eq_false_iff_not]
    exact .inl (aux k h3 h4).2.1
  · exact (aux k h3 h4).2.2

-- Any matches A but not a mouse button, and only this key is reported
example : (matchSeq (typingExpr [Key.any]) [⟨30, .Down, 0⟩]) = { res := .matched, any := [30] } ∧
    (matchSeq (typingExpr [Key.any]) [⟨272, .Down, 0⟩]).res = .no_match := by decide +kernel

end KM
