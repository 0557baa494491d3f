import Verif.Lemmas.ParseInputInv
/-!
# The result of parsing an input expression
-/
namespace KM

theorem Foll.prefix {D : KeyEvent → Prop} {R : KeyState → Prop} {h : List Key} {l m : KeySequence}
    (hf : Foll D R h (l ++ m)) (hm : ∀ e ∈ m, ¬R e.state) : Foll D R h l := by
  intro a e b hs hd
  rcases hf a e (b ++ m) (by simp [hs]) hd with ⟨u, hu, h1, h2⟩ | h
  · rcases List.mem_append.1 hu with hu | hu
    · exact .inl ⟨u, hu, h1, h2⟩
    · exact absurd h2 (hm u hu)
  · exact .inr h

theorem parseKey_done {env : PEnv} {p q : PState} {it : Str} (h : parseKey env p it = .done q) :
    q.buffer = [] := by
  unfold parseKey at h
  by_cases he : it.isEmpty = true
  · simp only [he, Bool.or_true, if_true, PStep.done.injEq] at h
    rw [← h]
    exact flush_buffer _ _ _
  · rw [if_neg he] at h
    cases hr : readKey env it with
    | none => rw [hr] at h; cases h
    | some r => rw [hr] at h; cases h

theorem parseNot_done {env : PEnv} {p q : PState} {it : Str} : parseNot env p it ≠ .done q := by
  intro h
  unfold parseNot at h
  cases hr : readKey env it with
  | none => rw [hr] at h; cases h
  | some r =>
    rw [hr] at h
    simp only at h
    split at h
    · cases h
    · generalize (if (p.flush env.isInput env.isInput).pressed.contains r.1 && env.isInput then
        ((p.flush env.isInput env.isInput).removePressed r.1).add r.1 .UpAsync
        else (p.flush env.isInput env.isInput).removePressed r.1) = p2 at h
      split at h
      · cases h
      · split at h <;> cases h

theorem parseString_done {env : PEnv} {p q : PState} {c : Char} {it : Str} :
    parseString env p c it ≠ .done q := by
  intro h
  unfold parseString at h
  split at h
  · cases h
  · split at h
    · cases h
    · simp only at h
      split at h <;> cases h

theorem parseCommand_done {env : PEnv} {p q : PState} {it : Str} :
    parseCommand env p it ≠ .done q := by
  intro h
  unfold parseCommand at h
  split at h
  · cases h
  · split at h
    · split at h
      · cases h
      · simp only at h
        split at h <;> cases h
    · cases h

theorem parseStep_done {env : PEnv} {p q : PState} {it : Str} (h : parseStep env p it = .done q) :
    q.buffer = [] := by
  have hopt : ∀ (o : Option PState) it, PStep.ofOption o it ≠ .done q := by
    intro o it h; cases o <;> cases h
  unfold parseStep at h
  split at h
  · unfold parseBang at h
    split at h
    · split at h
      · cases h
      · exact absurd h (hopt _ _)
    · split at h
      · cases h
      · exact absurd h parseNot_done
  · exact absurd h parseString_done
  · exact absurd h parseString_done
  · exact absurd h parseCommand_done
  · split at h <;> cases h
  · split at h <;> cases h
  · split at h <;> cases h
  · split at h <;> cases h
  · unfold parseGroupBegin at h
    split at h
    · cases h
    · simp only at h
      split at h <;> cases h
  · unfold parseGroupEnd at h
    split at h <;> cases h
  · unfold parseTimeoutOrKey at h
    split at h
    · split at h
      · cases h
      · split at h
        · cases h
        · exact absurd h (hopt _ _)
    · exact parseKey_done h

theorem parseLoop_buffer {env : PEnv} {p : PState} {it : Str} {q : PState}
    (h : parseLoop env p it = some q) : q.buffer = [] := by
  fun_induction parseLoop env p it with
  | case1 p it p' hs =>
    injection h with h; subst h
    exact parseStep_done hs
  | case2 p it hs => cases h
  | case3 p it p' rest hs hl ih => exact ih h
  | case4 p it p' rest hs hl => cases h

/-- The sequence before the special handling of `ContextActive` -/
structure InputSeq (nmm : Bool) (l : KeySequence) : Prop where
  back : Prec InQ l
  async : AsyncPressed [] l
  flag : FlagInv nmm l
  released : ∃ ups, (∀ u ∈ ups, u.state = .UpAsync) ∧ PressesReleased [] (l ++ ups) ∧ (nmm = false → ups = [])
  press : ∃ d ∈ l, IsKeyPress d

theorem FlagInv.prefix' {b : Bool} {l m : KeySequence} (h : FlagInv b (l ++ m))
    (he : ∀ e ∈ m, e.state ≠ .NoMightMatch) : FlagInv b l := by
  induction m generalizing l with
  | nil => simpa using h
  | cons x m ih =>
    rw [List.append_cons] at h
    exact (ih h (fun e hm => he e (List.mem_cons_of_mem _ hm))).prefix (he x List.mem_cons_self)

theorem parseInput_final {env : PEnv} (hi : env.isInput = true) (hn : NamesNoTimeout env) {str : Str}
    {l : KeySequence} {acts : List Str} (h : parseSequence env str = some (l, acts)) :
    ∃ nmm s, InputSeq nmm s ∧ checkContextActive true s = some l ∧
      (nmm = true → ∀ e ∈ s, isVirtualKey e.key = false) := by
  unfold parseSequence at h
  split at h
  · cases h
  · next p hp =>
    have hinv : InInv p := (parseLoop_in hi hp).inv (fun _ _ hs h => h.step hn hs)
      ⟨⟨Prec.nil, Foll.nil, Foll.nil⟩, by simp [FlagInv], by simp, by simp, rfl, fun _ => rfl, by simp⟩
    have hbuf := parseLoop_buffer hp
    unfold parseFinish at h
    rw [hi] at h
    simp only [if_true, Bool.true_and] at h
    split at h
    · cases h
    · split at h
      · cases h
      · next hg =>
        have hg : p.group = 0 := by simpa using hg
        have hpr := hinv.grp0 hg
        have hcore := hinv.core
        rw [hbuf, hpr] at hcore
        generalize hq : (if p.nmm = true then { p with seq := removeAllFromEnd p.seq .UpAsync } else p) = q at h
        have hseq : InputSeq p.nmm q.seq ∨ ¬hasKeyDown q.seq = true := by
          by_cases hd : hasKeyDown q.seq = true
          · left
            rw [hasKeyDown_iff] at hd
            subst hq
            cases hnm : p.nmm
            · rw [if_neg (by simp)]
              rw [if_neg (by simp [hnm])] at hd
              refine ⟨hcore.back, hcore.async, hnm ▸ hinv.flag, ⟨[], by simp, ?_, fun _ => rfl⟩, hd⟩
              rw [List.append_nil]; exact hcore.pressed
            · rw [if_pos rfl]
              rw [if_pos (by simp [hnm])] at hd
              obtain ⟨r, hr, he⟩ := removeAllFromEnd_append p.seq .UpAsync
              have hf := hinv.flag
              rw [hnm, ← he] at hf
              rw [← he] at hcore
              refine ⟨hcore.back.prefix, hcore.async.prefix ?_, hf.prefix' ?_, ⟨r, hr, hcore.pressed, by simp⟩, hd⟩
              · intro e he; rw [hr e he]; simp
              · intro e he; rw [hr e he]; simp
          · exact .inr hd
        split at h
        · cases h
        · next hd =>
          have hd : hasKeyDown q.seq = true := by simpa using hd
          split at h
          · cases h
          · next hv =>
            rcases hseq with hseq | hseq
            · refine ⟨p.nmm, q.seq, hseq, ?_, ?_⟩
              · cases hc : checkContextActive true q.seq with
                | none => rw [hc] at h; cases h
                | some l' =>
                  rw [hc] at h
                  simp only [Option.map_some, Option.some.injEq, Prod.mk.injEq] at h
                  rw [h.1]
              · intro hnm
                have : q.nmm = true := by
                  rw [← hq]; split <;> exact hnm
                rw [this] at hv
                simpa using hv
            · exact absurd hd hseq

/-- What is known about a parsed input expression -/
structure WellFormedInput (l : KeySequence) : Prop where
  /-- only known kinds of events -/
  events : ∀ e ∈ l, InputEvent e
  /-- the flag `?` is only at the begin -/
  flag : ∀ e ∈ l.tail, e.state ≠ .NoMightMatch
  releases : ReleasesPreceded l
  async : AsyncPressed [] l
  timeouts : TimeoutsPreceded l
  /-- `ContextActive` is used alone -/
  contextActive : (∃ e ∈ l, e.key = Key.ContextActive) → l = [⟨Key.ContextActive, .Down, 0⟩]
  /-- a key is pressed; the exception is the result of `? ContextActive` -/
  press : (∃ e ∈ l, IsKeyPress e) ∨ l = [noMightMatchFlag]

theorem InputSeq.parts {nmm : Bool} {l : KeySequence} (h : InputSeq nmm l) :
    (∀ e ∈ l, InputEvent e) ∧ (∀ e ∈ l.tail, e.state ≠ .NoMightMatch) ∧ ReleasesPreceded l ∧
    TimeoutsPreceded l := by
  refine ⟨?_, ?_, ?_, ?_⟩
  · intro e he
    obtain ⟨a, b, hs⟩ := List.append_of_mem he
    exact (h.back a e b hs).1
  · intro e he
    have hf := h.flag
    unfold FlagInv at hf
    split at hf
    · obtain ⟨t, rfl, ht⟩ := hf
      exact ht e he
    · exact hf e (List.mem_of_mem_tail he)
  · intro a e b hs hk
    exact (h.back a e b hs).2.2 hk
  · intro a e b hs hk
    exact (h.back a e b hs).2.1 hk

theorem InputSeq.contextActive {nmm : Bool} {s : KeySequence} (h : InputSeq nmm s)
    (hc : ∃ e ∈ s, e.key = Key.ContextActive) (hl : s.length = 2) :
    s.dropLast = [⟨Key.ContextActive, .Down, 0⟩] ∨ s.dropLast = [noMightMatchFlag] := by
  match s, hl with
  | [x, y], _ =>
    cases nmm
    · left
      obtain ⟨ups, -, hr, h0⟩ := h.released
      rw [h0 rfl, List.append_nil] at hr
      obtain ⟨d, hd, hdp⟩ := h.press
      have hdx : d = x := by
        rcases List.mem_cons.1 hd with hd | hd
        · exact hd
        · rw [List.mem_singleton.1 hd] at hdp
          rcases hr [x] y [] rfl hdp with ⟨u, hu, -⟩ | hu
          · cases hu
          · cases hu
      subst hdx
      have hy : y.key = d.key := by
        rcases hr [] d [y] rfl hdp with ⟨u, hu, h1, -⟩ | hu
        · rw [List.mem_singleton.1 hu] at h1; exact h1
        · cases hu
      obtain ⟨e, he, hek⟩ := hc
      have hx : d.key = Key.ContextActive := by
        rcases List.mem_cons.1 he with he | he
        · rw [← he]; exact hek
        · rw [List.mem_singleton.1 he] at hek; rw [← hy]; exact hek
      have := h.parts.1 d (by simp)
      obtain ⟨dk, ds, dv⟩ := d
      simp only [IsKeyPress] at hdp hx
      obtain ⟨rfl, -⟩ := hdp
      subst hx
      rcases this with ⟨-, hv, -⟩ | ⟨hk, -⟩ | hk
      · simp only at hv; subst hv; rfl
      · cases hk
      · cases hk
    · right
      have hf := h.flag
      simp only [FlagInv, if_true] at hf
      obtain ⟨t, ht, -⟩ := hf
      simp only [List.cons.injEq] at ht
      simp [ht.1]

theorem parseInput_wellFormed {env : PEnv} (hi : env.isInput = true) (hn : NamesNoTimeout env) {str : Str}
    {l : KeySequence} {acts : List Str} (h : parseSequence env str = some (l, acts)) :
    WellFormedInput l := by
  obtain ⟨nmm, s, hs, hc, -⟩ := parseInput_final hi hn h
  unfold checkContextActive at hc
  split at hc
  · next hca =>
    have hca : ∃ e ∈ s, e.key = Key.ContextActive := by simpa using hca
    simp only [Bool.not_true, Bool.false_eq_true, if_false] at hc
    split at hc
    · cases hc
    · next hl =>
      have hl : s.length = 2 := by simpa using hl
      injection hc with hc
      subst hc
      rcases hs.contextActive hca hl with h | h
      · rw [h]
        refine ⟨?_, by simp, ?_, ?_, ?_, fun _ => rfl, .inl ⟨_, List.mem_singleton_self _, rfl, by decide⟩⟩
        · intro e he
          rw [List.mem_singleton.1 he]
          exact .inl ⟨by decide, rfl, by simp⟩
        all_goals
          intro a e b he hk
          have : e = ⟨Key.ContextActive, .Down, 0⟩ := by
            have : e ∈ [(⟨Key.ContextActive, .Down, 0⟩ : KeyEvent)] := by rw [he]; simp
            exact List.mem_singleton.1 this
          subst this
        · exact ⟨fun h => (by cases h), fun h => (by cases h)⟩
        · cases hk
        · cases hk
      · rw [h]
        refine ⟨?_, by simp, ?_, ?_, ?_, ?_, .inr rfl⟩
        · intro e he
          rw [List.mem_singleton.1 he]
          exact .inr (.inr rfl)
        rotate_right
        · rintro ⟨e, he, hk⟩
          rw [List.mem_singleton.1 he] at hk
          cases hk
        all_goals
          intro a e b he hk
          have : e = noMightMatchFlag := by
            have : e ∈ [noMightMatchFlag] := by rw [he]; simp
            exact List.mem_singleton.1 this
          subst this
        · exact ⟨fun h => (by cases h), fun h => (by cases h)⟩
        · cases hk
        · cases hk
  · next hca =>
    have hca : ∀ e ∈ s, e.key ≠ Key.ContextActive := by simpa using hca
    injection hc with hc
    subst hc
    obtain ⟨h1, h2, h3, h4⟩ := hs.parts
    exact ⟨h1, h2, h3, hs.async, h4, fun ⟨e, he, hk⟩ => absurd hk (hca e he), .inl hs.press⟩

/-- each press is followed by its release -/
theorem parseInput_released {env : PEnv} (hi : env.isInput = true) (hn : NamesNoTimeout env) {str : Str}
    {l : KeySequence} {acts : List Str} (h : parseSequence env str = some (l, acts))
    (hf : ∀ e ∈ l, e.state ≠ .NoMightMatch) (hc : ∀ e ∈ l, e.key ≠ Key.ContextActive) :
    PressesReleased [] l := by
  obtain ⟨nmm, s, hs, hc', -⟩ := parseInput_final hi hn h
  unfold checkContextActive at hc'
  split at hc'
  · next hca =>
    have hca : ∃ e ∈ s, e.key = Key.ContextActive := by simpa using hca
    simp only [Bool.not_true, Bool.false_eq_true, if_false] at hc'
    split at hc'
    · cases hc'
    · next hl =>
      have hl : s.length = 2 := by simpa using hl
      injection hc' with hc'
      subst hc'
      rcases hs.contextActive hca hl with h | h
      · exact absurd rfl (hc ⟨Key.ContextActive, .Down, 0⟩ (by rw [h]; simp))
      · exact absurd rfl (hf noMightMatchFlag (by rw [h]; simp))
  · injection hc' with hc'
    subst hc'
    obtain ⟨ups, -, hr, h0⟩ := hs.released
    cases nmm
    · rw [h0 rfl, List.append_nil] at hr
      exact hr
    · have hfl := hs.flag
      simp only [FlagInv, if_true] at hfl
      obtain ⟨t, ht, -⟩ := hfl
      exact absurd rfl (hf noMightMatchFlag (by rw [ht]; simp))

end KM
