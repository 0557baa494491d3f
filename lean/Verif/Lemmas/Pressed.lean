import Verif.Lemmas.SeqAll
/-!
# Which keys the pending sequence shows as pressed
-/
namespace KM

/-- the last event of the key in the sequence is not a release -/
def pressedIn (l : KeySequence) (k : Key) : Bool :=
  match rfindKey l k with
  | some e => e.state != .Up
  | none => false

theorem isPhysicallyPressed_eq (s : S) (k : Key) : isPhysicallyPressed s k = pressedIn s.seq k := rfl

theorem pressedIn_nil (k) : pressedIn [] k = false := rfl

theorem rfindKey_concat (l : KeySequence) (e : KeyEvent) (k : Key) :
    rfindKey (l ++ [e]) k = if e.key = k then some e else rfindKey l k := by
  simp only [rfindKey, List.reverse_append, List.reverse_cons, List.reverse_nil, List.nil_append,
    List.cons_append, List.find?_cons]
  by_cases h : e.key = k
  · simp [h]
  · rw [beq_eq_false_iff_ne.2 h, if_neg h]

theorem bne_up {st : KeyState} (h : st ≠ .Up) : (st != KeyState.Up) = true := by
  revert h; cases st <;> decide

theorem pressedIn_concat (l : KeySequence) (e : KeyEvent) (k : Key) :
    pressedIn (l ++ [e]) k = if e.key = k then e.state != .Up else pressedIn l k := by
  unfold pressedIn
  rw [rfindKey_concat]
  by_cases h : e.key = k <;> simp [h]

/-- does an event of the key occur -/
def hasKey (l : KeySequence) (k : Key) : Bool := l.any (·.key == k)

theorem hasKey_iff {l : KeySequence} {k} : hasKey l k = true ↔ ∃ e ∈ l, e.key = k := by
  simp [hasKey]

theorem rfindKey_isSome (l : KeySequence) (k) : (rfindKey l k).isSome = hasKey l k := by
  rw [Bool.eq_iff_iff]
  simp [rfindKey, hasKey]

theorem rfindKey_append (a b : KeySequence) (k) :
    rfindKey (a ++ b) k = (rfindKey b k).or (rfindKey a k) := by
  simp [rfindKey, List.find?_append]

theorem pressedIn_append (a b : KeySequence) (k) :
    pressedIn (a ++ b) k = if hasKey b k then pressedIn b k else pressedIn a k := by
  unfold pressedIn
  rw [rfindKey_append, ← rfindKey_isSome]
  cases rfindKey b k <;> simp

theorem pressedIn_cons (e : KeyEvent) (l : KeySequence) (k) :
    pressedIn (e :: l) k = if hasKey l k then pressedIn l k else (e.key == k && e.state != .Up) := by
  rw [show e :: l = [e] ++ l from rfl, pressedIn_append]
  congr 1
  simp only [pressedIn, rfindKey, List.reverse_cons, List.reverse_nil, List.nil_append, List.find?_cons, List.find?_nil]
  by_cases h : e.key = k
  · simp [h]
  · rw [beq_eq_false_iff_ne.2 h]; rfl

theorem pressedIn_false_of_not_hasKey {l : KeySequence} {k} (h : hasKey l k = false) : pressedIn l k = false := by
  unfold pressedIn
  have := rfindKey_isSome l k
  rw [h] at this
  cases hr : rfindKey l k with
  | none => rfl
  | some e => simp [hr] at this

theorem hasKey_cons (e : KeyEvent) (l k) : hasKey (e :: l) k = (e.key == k || hasKey l k) := rfl

theorem hasKey_append (a b : KeySequence) (k) : hasKey (a ++ b) k = (hasKey a k || hasKey b k) := by
  simp [hasKey]

/-- The events of the sequence are presses and releases with value 0 -/
def SeqEvent (e : KeyEvent) : Prop :=
  e.key ≠ Key.timeout → e.state = .Down ∨ e.state = .DownMatched ∨ (e.state = .Up ∧ e.value = 0)

theorem seqEvent_inv : EventInv SeqEvent where
  matched := by intro e _ _ _; simp
  timeout := by intro e h _ h'; exact absurd h h'

/-- of the same key, last event a release: then the release is in the list -/
theorem contains_up {l : KeySequence} (hl : ∀ e ∈ l, SeqEvent e) {k : Key} (hk : k ≠ Key.timeout)
    (h : hasKey l k = true) (hp : pressedIn l k = false) : (⟨k, .Up, 0⟩ : KeyEvent) ∈ l := by
  unfold pressedIn at hp
  have hs := rfindKey_isSome l k
  rw [h] at hs
  obtain ⟨e, he⟩ := Option.isSome_iff_exists.1 hs
  rw [he] at hp
  have hm : e ∈ l := by
    have := List.mem_of_find?_eq_some he
    simpa using this
  have hkey : e.key = k := by
    have := List.find?_some he
    simpa using this
  have := hl e hm (by rw [hkey]; exact hk)
  have hup : e.state = .Up := by simpa using hp
  have hv : e.value = 0 := by
    rcases this with h | h | h
    · simp [hup] at h
    · simp [hup] at h
    · exact h.2
  have : e = ⟨k, .Up, 0⟩ := by
    cases e; simp_all
  rw [← this]; exact hm

/-- `finish_sequence` keeps which keys are pressed -/
theorem pressedIn_finishGo {n : Nat} {l : KeySequence} (hl : ∀ e ∈ l, SeqEvent e) {k : Key} (hk : k ≠ Key.timeout) :
    pressedIn (finishGo n l) k = pressedIn l k ∧
    (hasKey (finishGo n l) k = false → pressedIn l k = false) ∧
    (hasKey l k = false → hasKey (finishGo n l) k = false) ∧
    ((⟨k, .Up, 0⟩ : KeyEvent) ∉ l → hasKey (finishGo n l) k = hasKey l k) := by
  fun_induction finishGo n l with
  | case1 => exact ⟨rfl, pressedIn_false_of_not_hasKey, id, fun _ => rfl⟩
  | case2 => exact ⟨rfl, pressedIn_false_of_not_hasKey, id, fun _ => rfl⟩
  | case3 n e l h1 h2 ih =>
    obtain ⟨a, b, c, d⟩ := ih (fun e he => hl e (by simp [he]))
    have h2' : (⟨e.key, .Up, 0⟩ : KeyEvent) ∈ l := by
      simp only [List.contains_eq_mem, decide_eq_true_eq, List.mem_cons] at h2
      rcases h2 with h | h
      · have : e.state = .Up := by rw [← h]
        simp [this] at h1
      · exact h
    by_cases hek : e.key = k
    · have hk' : hasKey l k = true := hasKey_iff.2 ⟨_, h2', hek⟩
      have : pressedIn (e :: l) k = pressedIn l k := by rw [pressedIn_cons, if_pos hk']
      rw [this]
      refine ⟨a, b, ?_, ?_⟩
      · intro h; rw [hasKey_cons, hk'] at h; simp at h
      · intro h; rw [hek] at h2'; simp [h2'] at h
    · have : pressedIn (e :: l) k = pressedIn l k := by
        rw [pressedIn_cons]
        by_cases hh : hasKey l k = true
        · rw [if_pos hh]
        · rw [if_neg hh, pressedIn_false_of_not_hasKey (by simpa using hh)]; simp [hek]
      have h3 : hasKey (e :: l) k = hasKey l k := by rw [hasKey_cons]; simp [hek]
      rw [this, h3]
      refine ⟨a, b, c, fun h => d (fun h' => h (by simp [h']))⟩
  | case4 n e l h1 h2 ih =>
    obtain ⟨a, b, c, d⟩ := ih (fun e he => hl e (by simp [he]))
    have hup : (⟨e.key, .Up, 0⟩ : KeyEvent) ∉ l := by
      simp only [List.contains_eq_mem, decide_eq_true_eq, List.mem_cons] at h2
      exact fun h => h2 (Or.inr h)
    by_cases hek : e.key = k
    · subst hek
      have h5 := d hup
      have hst : e.state ≠ .Up := by
        intro hh; simp [hh] at h1
      refine ⟨?_, ?_, ?_, ?_⟩
      · rw [pressedIn_cons, pressedIn_cons, h5, a]
        rw [bne_up hst]; rfl
      · intro h; simp [hasKey_cons] at h
      · intro h; simp [hasKey_cons] at h
      · intro _; simp [hasKey_cons]
    · have h3 : ∀ l', hasKey (e :: l') k = hasKey l' k := by intro l'; rw [hasKey_cons]; simp [hek]
      have h3' : ∀ l', hasKey ({ e with state := KeyState.DownMatched } :: l') k = hasKey l' k := by
        intro l'; rw [hasKey_cons]; simp [hek]
      have h4 : ∀ (x : KeyEvent) l', x.key ≠ k → pressedIn (x :: l') k = pressedIn l' k := by
        intro x l' hx
        rw [pressedIn_cons]
        by_cases hh : hasKey l' k = true
        · rw [if_pos hh]
        · rw [if_neg hh, pressedIn_false_of_not_hasKey (by simpa using hh)]; simp [hx]
      rw [h4 _ _ hek, h4 _ _ (by exact hek), h3, h3']
      exact ⟨a, b, c, fun h => d (fun h' => h (by simp [h']))⟩
  | case5 n e l h1 h2 ih =>
    obtain ⟨a, b, c, d⟩ := ih (fun e he => hl e (by simp [he]))
    have hek : e.key ≠ k := by
      intro h; apply hk; rw [← h]; simpa using h2
    have h3 : ∀ l', hasKey (e :: l') k = hasKey l' k := by intro l'; rw [hasKey_cons]; simp [hek]
    have h3' : ∀ l', hasKey ({ e with state := KeyState.UpMatched } :: l') k = hasKey l' k := by
      intro l'; rw [hasKey_cons]; simp [hek]
    have h4 : ∀ (x : KeyEvent) l', x.key ≠ k → pressedIn (x :: l') k = pressedIn l' k := by
      intro x l' hx
      rw [pressedIn_cons]
      by_cases hh : hasKey l' k = true
      · rw [if_pos hh]
      · rw [if_neg hh, pressedIn_false_of_not_hasKey (by simpa using hh)]; simp [hx]
    rw [h4 _ _ hek, h4 _ _ (by exact hek), h3, h3']
    exact ⟨a, b, c, fun h => d (fun h' => h (by simp [h']))⟩
  | case6 n e l h1 h2 ih =>
    obtain ⟨a, b, c, d⟩ := ih (fun e he => hl e (by simp [he]))
    by_cases hek : e.key = k
    · have hev := hl e (by simp) (by rw [hek]; exact hk)
      have hup : e = ⟨k, .Up, 0⟩ := by
        rcases hev with h | h | ⟨h, hv⟩
        · simp [h] at h1
        · simp [h] at h1
        · cases e; simp_all
      have h5 : pressedIn (e :: l) k = pressedIn l k := by
        rw [pressedIn_cons]
        by_cases hh : hasKey l k = true
        · rw [if_pos hh]
        · rw [if_neg hh, pressedIn_false_of_not_hasKey (by simpa using hh)]; simp [hup]
      rw [h5]
      refine ⟨a, b, ?_, ?_⟩
      · intro h; rw [hasKey_cons] at h; simp [hek] at h
      · intro h; simp [hup] at h
    · have h3 : hasKey (e :: l) k = hasKey l k := by rw [hasKey_cons]; simp [hek]
      have h5 : pressedIn (e :: l) k = pressedIn l k := by
        rw [pressedIn_cons]
        by_cases hh : hasKey l k = true
        · rw [if_pos hh]
        · rw [if_neg hh, pressedIn_false_of_not_hasKey (by simpa using hh)]; simp [hek]
      rw [h5, h3]
      exact ⟨a, b, c, fun h => d (fun h' => h (by simp [h']))⟩

theorem pressedIn_cons_ne {e : KeyEvent} {l : KeySequence} {k} (h : e.key ≠ k) :
    pressedIn (e :: l) k = pressedIn l k := by
  rw [pressedIn_cons]
  by_cases hh : hasKey l k = true
  · rw [if_pos hh]
  · rw [if_neg hh, pressedIn_false_of_not_hasKey (by simpa using hh)]; simp [h]

theorem pressedIn_cons_up {e : KeyEvent} {l : KeySequence} {k} (h : e.state = .Up) :
    pressedIn (e :: l) k = pressedIn l k := by
  rw [pressedIn_cons]
  by_cases hh : hasKey l k = true
  · rw [if_pos hh]
  · rw [if_neg hh, pressedIn_false_of_not_hasKey (by simpa using hh)]; simp [h]

/-- `forward_from_sequence` keeps which keys are pressed -/
theorem pressedIn_forwardGo {s : S} {pre l : KeySequence} (hs : s.seq = pre ++ l) (hl : ∀ e ∈ l, SeqEvent e)
    (hpre : ∀ p ∈ pre, (⟨p.key, .Up, 0⟩ : KeyEvent) ∉ l) {k : Key} (hk : k ≠ Key.timeout) :
    pressedIn (forwardGo s pre l).seq k = pressedIn (pre ++ l) k := by
  induction l generalizing pre with
  | nil => simp [forwardGo, hs]
  | cons e rest ih =>
    unfold forwardGo
    split
    · next hd =>
      split
      · next hc =>
        show pressedIn (pre ++ rest) k = _
        rw [pressedIn_append, pressedIn_append]
        have hr : (⟨e.key, .Up, 0⟩ : KeyEvent) ∈ rest := by
          simp only [List.contains_eq_mem, decide_eq_true_eq, List.mem_cons] at hc
          rcases hc with h | h
          · have : e.state = .Up := by rw [← h]
            simp [this] at hd
          · exact h
        by_cases hek : e.key = k
        · have hk' : hasKey rest k = true := hasKey_iff.2 ⟨_, hr, hek⟩
          rw [if_pos hk', hasKey_cons, hk', Bool.or_true, if_pos rfl, pressedIn_cons, if_pos hk']
        · rw [pressedIn_cons_ne hek]
          simp [hasKey_cons, hek]
      · split
        · show pressedIn (pre ++ { e with state := .DownMatched } :: rest) k = _
          rw [pressedIn_append, pressedIn_append, pressedIn_cons, pressedIn_cons]
          have : e.state ≠ .Up := by intro h; simp [h] at hd
          rw [bne_up this]; rfl
        · rw [ih (pre := pre ++ [e]) (by simp [hs]) (fun e he => hl e (by simp [he])) ?_]
          · simp
          · intro p hp
            simp only [List.mem_append, List.mem_cons, List.not_mem_nil, or_false] at hp
            rcases hp with hp | rfl
            · exact fun h => hpre p hp (by simp [h])
            · next hc _ =>
              intro h
              apply hc
              simp [h]
    · next hd =>
      show pressedIn (pre ++ rest) k = _
      rw [pressedIn_append, pressedIn_append]
      by_cases hek : e.key = k
      · have hev := hl e (by simp) (by rw [hek]; exact hk)
        have hup : e = ⟨k, .Up, 0⟩ := by
          rcases hev with h | h | ⟨h, hv⟩
          · simp [h] at hd
          · simp [h] at hd
          · cases e; simp_all
        have hst : e.state = .Up := by rw [hup]
        have hno : hasKey pre k = false := by
          rw [Bool.eq_false_iff]
          intro h
          obtain ⟨p, hp, hpk⟩ := hasKey_iff.1 h
          apply hpre p hp
          rw [hpk, hup]; simp
        rw [pressedIn_cons_up hst]
        have : pressedIn pre k = false := pressedIn_false_of_not_hasKey hno
        rw [this, hasKey_cons]
        simp only [hek, beq_self_eq_true, Bool.true_or, if_true]
        split
        · rfl
        · next h => rw [pressedIn_false_of_not_hasKey (by simpa using h)]
      · rw [pressedIn_cons_ne hek]
        simp [hasKey_cons, hek]

theorem pressedIn_applyResult {s : S} {ev r n b} (hl : ∀ e ∈ s.seq, SeqEvent e) {k : Key} (hk : k ≠ Key.timeout) :
    pressedIn (applyResult s ev r n b).seq k = pressedIn s.seq k := by
  unfold applyResult
  split
  · next ref out input ctx =>
    have h1 : pressedIn (finishSequence (applyOutput s out (chooseTrigger s ev out input) ctx) n).seq k =
        pressedIn s.seq k := by
      unfold finishSequence
      simp only [applyOutput_seq]
      exact (pressedIn_finishGo hl hk).1
    simp only []
    split <;> exact h1
  · have h1 : pressedIn (forwardFromSequence s).seq k = pressedIn s.seq k :=
      pressedIn_forwardGo (pre := []) rfl hl (by simp) hk
    simp only []
    split <;> exact h1

theorem pressedIn_round {c ev dev u} {s : S} (hl : ∀ e ∈ s.seq, SeqEvent e) {k : Key} (hk : k ≠ Key.timeout) :
    pressedIn (round c ev dev u s).1.seq k = pressedIn s.seq k := by
  unfold KM.round
  have h1 := matchInput_seq c s true s.seq dev u
  generalize matchInput c s true s.seq dev u = mi at *
  obtain ⟨s1, r⟩ := mi
  simp only [] at *
  rw [← h1] at hl
  rw [← h1]
  split
  · exact (pressedIn_finishGo hl hk).1
  · split
    · rfl
    · have h2 := (retryStart_spec c s1 r dev u).1
      generalize retryStart c s1 r dev u = rs at *
      obtain ⟨s2, r2, n, b⟩ := rs
      simp only [] at *
      have h3 := timeoutMatched_seq s2 ev r2 b
      generalize timeoutMatched s2 ev r2 b = tm at *
      obtain ⟨s3, r3⟩ := tm
      simp only [] at *
      rw [pressedIn_applyResult _ hk]
      · rw [notTimeoutFailed_seq, h3, h2]
      · rw [notTimeoutFailed_seq, h3, h2]; exact hl

theorem pressedIn_mainLoop {c ev dev u} {s : S} (hl : ∀ e ∈ s.seq, SeqEvent e) {k : Key} (hk : k ≠ Key.timeout) :
    pressedIn (mainLoop c ev dev u s).seq k = pressedIn s.seq k := by
  fun_induction KM.mainLoop c ev dev u s with
  | case1 s hs hc ih => rw [ih (seqEvent_inv.round hl), pressedIn_round hl hk]
  | case2 s hs hc => exact pressedIn_round hl hk
  | case3 s hs => rfl

theorem rfindKey_map_state (l : KeySequence) (f : KeyEvent → KeyEvent) (hf : ∀ e, (f e).key = e.key) (k) :
    rfindKey (l.map f) k = (rfindKey l k).map f := by
  simp only [rfindKey, ← List.map_reverse, List.find?_map]
  congr 2
  funext e
  simp [hf]

theorem pressedIn_map_matched (l : KeySequence) (k) :
    pressedIn (l.map (fun e => if e.state == .Down then { e with state := .DownMatched } else e)) k = pressedIn l k := by
  unfold pressedIn
  rw [rfindKey_map_state]
  · cases rfindKey l k with
    | none => rfl
    | some e =>
      simp only [Option.map_some]
      split
      · next h => simp at h; rw [h]; rfl
      · rfl
  · intro e; split <;> rfl

theorem hasKey_eraseP_ne {l : KeySequence} {k k' : Key} (h : k' ≠ k) :
    rfindKey (l.eraseP (·.key == k')) k = rfindKey l k := by
  induction l with
  | nil => rfl
  | cons e l ih =>
    rw [List.eraseP_cons, cond_eq_ite]
    split
    · next he =>
      have : e.key ≠ k := by intro hh; apply h; rw [← hh]; exact (by simpa using he : e.key = k').symm
      rw [show e :: l = [e] ++ l from rfl, rfindKey_append]
      have : rfindKey [e] k = none := by simp [rfindKey, this]
      rw [this]; simp
    · rw [show e :: l = [e] ++ l from rfl, rfindKey_append, ← ih,
        show (e :: l.eraseP (·.key == k')) = [e] ++ l.eraseP (·.key == k') from rfl, rfindKey_append]

theorem pressedIn_rErase_concat (l : KeySequence) (ev : KeyEvent) (k : Key) :
    pressedIn (rEraseKey l ev.key ++ [ev]) k = pressedIn (l ++ [ev]) k := by
  rw [pressedIn_concat, pressedIn_concat]
  by_cases h : ev.key = k
  · simp [h]
  · rw [if_neg h, if_neg h]
    unfold pressedIn rEraseKey rfindKey
    rw [List.reverse_reverse]
    have : (l.reverse.eraseP (·.key == ev.key)).find? (·.key == k) = l.reverse.find? (·.key == k) := by
      generalize l.reverse = m
      induction m with
      | nil => rfl
      | cons a m ih =>
        rw [List.eraseP_cons, cond_eq_ite]
        split
        · next ha =>
          have : a.key ≠ k := by intro hh; exact h ((by simpa using ha : a.key = ev.key).symm.trans hh)
          rw [List.find?_cons, beq_eq_false_iff_ne.2 this]
        · rw [List.find?_cons, List.find?_cons, ih]
    rw [this]

/-- `apply_input` lines 532-548 keep which keys are pressed, when the event is the last one -/
theorem pressedIn_beforeMatchUp {s : S} {ev : KeyEvent} {l : KeySequence} (hs : s.seq = l ++ [ev]) (k : Key) :
    pressedIn (beforeMatchUp s ev).seq k = pressedIn s.seq k := by
  unfold beforeMatchUp
  split
  · next hup =>
    have hup : ev.state = .Up := by simpa using hup
    simp only []
    generalize hs1 : (if (s.timeout.bind (·.matchedOutput)).isSome = true then
      { s with seq := s.seq.map (fun e => if e.state == .Down then { e with state := .DownMatched } else e) }
      else s) = s1
    have h1 : pressedIn s1.seq k = pressedIn s.seq k := by
      subst hs1
      split
      · exact pressedIn_map_matched _ _
      · rfl
    have h2 : ∃ l', s1.seq = l' ++ [ev] := by
      subst hs1
      split
      · refine ⟨l.map (fun e => if e.state == .Down then { e with state := .DownMatched } else e), ?_⟩
        simp [hs, hup]
      · exact ⟨l, hs⟩
    obtain ⟨l', hl'⟩ := h2
    split
    · split
      · exact h1
      · next e he =>
        split
        · next hm =>
          have hm : e.state = .DownMatched := by simpa using hm
          rw [← h1]
          show pressedIn (s1.seq.eraseP (·.key == ev.key)) k = _
          by_cases hk : ev.key = k
          · -- the erased event is not the last one
            rw [hl']
            have hany : l'.any (·.key == ev.key) = true := by
              rw [hl'] at he
              simp only [findKey, List.find?_append] at he
              cases hf : l'.find? (·.key == ev.key) with
              | none =>
                rw [hf] at he
                simp at he
                rw [← he, hup] at hm
                simp at hm
              | some x =>
                have := List.mem_of_find?_eq_some hf
                have h2 := List.find?_some hf
                exact List.any_eq_true.2 ⟨x, this, h2⟩
            rw [List.any_eq_true] at hany
            obtain ⟨x, hx, hxk⟩ := hany
            rw [List.eraseP_append_left (p := (·.key == ev.key)) hxk [ev] hx]
            rw [pressedIn_concat, pressedIn_concat]
            simp [hk]
          · unfold pressedIn
            rw [hasKey_eraseP_ne hk]
        · exact h1
    · exact h1
  · rfl

theorem pressedIn_dropWhile {l : KeySequence} (hl : ∀ e ∈ l, SeqEvent e) {k : Key} (hk : k ≠ Key.timeout) :
    pressedIn (l.dropWhile (fun e => e.state == KeyState.UpMatched)) k = pressedIn l k := by
  induction l with
  | nil => rfl
  | cons e l ih =>
    rw [List.dropWhile_cons]
    split
    · next h =>
      have h : e.state = .UpMatched := by simpa using h
      rw [ih (fun e he => hl e (by simp [he])), pressedIn_cons_ne]
      intro hek
      have := hl e (by simp) (by rw [hek]; exact hk)
      simp [h] at this
    · rfl

theorem pressedIn_finishInput {c} {s : S} {ev} (hl : ∀ e ∈ s.seq, SeqEvent e) {k : Key} (hk : k ≠ Key.timeout) :
    pressedIn (finishInput c s ev).seq k = pressedIn s.seq k := by
  unfold KM.finishInput
  simp only []
  generalize hs1 : (if (ev.state == KeyState.Up) = true then releaseTriggered s ev.key (-1) else s) = s1
  have h1 : s1.seq = s.seq := by subst hs1; split <;> rfl
  have h2 := updateActiveContexts_seq c s1
  generalize updateActiveContexts c s1 = s2 at *
  rw [← h1, ← h2] at hl
  rw [← h1, ← h2]
  split <;> exact pressedIn_dropWhile hl hk

theorem mergeRepeat_pressed {s : S} {ev dev} {s' : S} {b} (h : mergeRepeat s ev dev = (s', b)) :
    (b = true → ev.state = .Down ∧ pressedIn s.seq ev.key = true ∧ s'.seq = s.seq) ∧
    (b = false → ∀ k, pressedIn (s'.seq ++ [ev]) k = pressedIn (s.seq ++ [ev]) k) := by
  unfold mergeRepeat at h
  split at h
  · next hd =>
    split at h
    · next hp =>
      split at h
      · simp only [Prod.mk.injEq] at h
        obtain ⟨rfl, rfl⟩ := h
        exact ⟨fun _ => ⟨by simpa using hd, hp, rfl⟩, by simp⟩
      · simp only [] at h
        generalize hs1 : (if (dev != noDeviceIndex && dev == s.lastPressed) = true then
          { s with lastRepeat := dev } else s) = s1 at h
        have h1 : s1.seq = s.seq := by subst hs1; split <;> rfl
        split at h
        · simp only [Prod.mk.injEq] at h
          obtain ⟨rfl, rfl⟩ := h
          exact ⟨fun _ => ⟨by simpa using hd, hp, h1⟩, by simp⟩
        · simp only [Prod.mk.injEq] at h
          obtain ⟨rfl, rfl⟩ := h
          refine ⟨by simp, fun _ k => ?_⟩
          show pressedIn (rEraseKey s1.seq ev.key ++ [ev]) k = _
          rw [h1, pressedIn_rErase_concat]
    · split at h
      · simp only [Prod.mk.injEq] at h
        obtain ⟨rfl, rfl⟩ := h
        exact ⟨by simp, fun _ _ => rfl⟩
      · simp only [Prod.mk.injEq] at h
        obtain ⟨rfl, rfl⟩ := h
        exact ⟨by simp, fun _ _ => rfl⟩
  · simp only [Prod.mk.injEq] at h
    obtain ⟨rfl, rfl⟩ := h
    exact ⟨by simp, fun _ _ => rfl⟩

theorem suppressTimeout_returned {s s' : S} {ev} (h : suppressTimeout s ev = (s', true)) :
    ev.key = Key.timeout := by
  unfold suppressTimeout at h
  split at h
  · simp at h
  · split at h
    · split at h
      · next hk => simpa using hk
      · split at h <;> simp at h
    · simp at h

theorem continueOnRelease_returned {s s' : S} {ev ctx} (h : continueOnRelease s ev ctx = (s', false)) :
    ev.state = .Down ∧ s' = s ∧ ∃ o ∈ s.onRelease, o.trigger = ev.key := by
  unfold continueOnRelease at h
  split at h
  · simp at h
  · next o ho =>
    split at h
    · next hd =>
      simp only [Prod.mk.injEq, and_true] at h
      refine ⟨by simpa using hd, h.symm, o, List.mem_of_find?_eq_some ho, ?_⟩
      have := List.find?_some ho
      simp only [isContinuedBy, Bool.and_eq_true, beq_iff_eq] at this
      exact this.1
    · simp at h

/-- After an event, a key is shown as pressed as if the event was appended; only a press is ignored
while an output waits for the release of the same key. -/
theorem pressedIn_update {c} {s : S} {ev dev} (hl : ∀ e ∈ s.seq, SeqEvent e) (hev : SeqEvent ev)
    {k : Key} (hk : k ≠ Key.timeout) :
    pressedIn (update c s ev dev).1.seq k = pressedIn (s.seq ++ [ev]) k ∨
    ((update c s ev dev).1.seq = s.seq ∧ ev.state = .Down ∧ ∃ o ∈ s.onRelease, o.trigger = ev.key) := by
  show pressedIn (applyInput c { s with exitPos := advanceExit s.exitPos ev } ev dev).seq k = _ ∨
    ((applyInput c { s with exitPos := advanceExit s.exitPos ev } ev dev).seq = s.seq ∧ _ ∧
      ∃ o ∈ ({ s with exitPos := advanceExit s.exitPos ev } : S).onRelease, o.trigger = ev.key)
  have hss : s.seq = ({ s with exitPos := advanceExit s.exitPos ev } : S).seq := rfl
  rw [hss] at hl
  rw [hss]
  generalize { s with exitPos := advanceExit s.exitPos ev } = s at *
  clear hss
  unfold KM.applyInput
  simp only []
  generalize hs0 : (if validInput ev = true then s else { s with ub := true }) = s0
  have h0 : s0.seq = s.seq := by subst hs0; split <;> rfl
  have h0' : s0.onRelease = s.onRelease := by subst hs0; split <;> rfl
  rw [← h0] at hl
  rw [← h0, ← h0']
  have h1 := continueOnRelease_seq s0 ev (-1)
  have h1' := @continueOnRelease_returned s0
  generalize hr1 : continueOnRelease s0 ev (-1) = r1 at *
  rw [← h1] at hl
  split
  · next s1 =>
    have := h1' hr1
    exact Or.inr ⟨h1, this.1, this.2.2⟩
  · left
    next s1 =>
    simp only [] at h1 hl
    have h2 := suppressTimeout_seq s1 ev
    have h2' := @suppressTimeout_returned s1
    rw [← h2] at hl
    generalize hr2 : suppressTimeout s1 ev = r2 at *
    split
    · next s2 =>
      have := h2' hr2
      rw [pressedIn_concat, if_neg (by rw [this]; exact fun h => hk h.symm)]
      simp only [] at h2
      rw [h2, h1]
    · next s2 =>
      simp only [] at h2 hl
      have h3 := mergeRepeat_seq s2 ev dev
      have h3' : ∀ e ∈ (mergeRepeat s2 ev dev).1.seq, SeqEvent e := fun e he => hl e (h3 e he)
      have h4 := @mergeRepeat_pressed s2 ev dev
      generalize hr3 : mergeRepeat s2 ev dev = r3 at *
      split
      · next s3 =>
        obtain ⟨hd, hp, hseq⟩ := (h4 rfl).1 rfl
        rw [hseq, pressedIn_concat, ← h1, ← h2]
        split
        · next hek => rw [← hek, hp]; simp [hd]
        · rfl
      · next s3 =>
        have h5 := (h4 rfl).2 rfl k
        simp only [] at h3'
        rw [← h1, ← h2, ← h5]
        have hl3 : ∀ e ∈ s3.seq ++ [ev], SeqEvent e := by
          intro x hx
          simp only [List.mem_append, List.mem_cons, List.not_mem_nil, or_false] at hx
          rcases hx with hx | rfl
          · exact h3' x hx
          · exact hev
        have hA : (updateActiveContexts c (addToHistory c { s3 with seq := s3.seq ++ [ev] } ev)).seq = s3.seq ++ [ev] := by
          rw [updateActiveContexts_seq, addToHistory_seq]
        have hB := pressedIn_beforeMatchUp hA k
        have hB' := seqEvent_inv.beforeMatchUp (ev := ev)
          (s := updateActiveContexts c (addToHistory c { s3 with seq := s3.seq ++ [ev] } ev)) (by rw [hA]; exact hl3)
        rw [pressedIn_finishInput _ hk, pressedIn_mainLoop _ hk]
        · show pressedIn (beforeMatchUp _ ev).seq k = _
          rw [hB, hA]
        · exact hB'
        · apply seqEvent_inv.mainLoop
          exact hB'

end KM
