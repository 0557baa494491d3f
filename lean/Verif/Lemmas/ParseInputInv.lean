import Verif.Lemmas.ParseInput
/-!
# Invariants of the parser of input expressions, continued
-/
namespace KM

theorem Occurs.mono {a b : KeySequence} {k : Key} {st : List KeyState} (h : Occurs a k st) :
    Occurs (a ++ b) k st := by
  obtain ⟨d, hd, h⟩ := h
  exact ⟨d, List.mem_append_left _ hd, h⟩

theorem Occurs.more {a : KeySequence} {k : Key} {st st' : List KeyState} (h : Occurs a k st)
    (hs : ∀ s ∈ st, s ∈ st') : Occurs a k st' := by
  obtain ⟨d, hd, h1, h2⟩ := h
  exact ⟨d, hd, h1, hs _ h2⟩

/-- The conditions on an event of an input expression which depend on the ones before it -/
def InQ (a : KeySequence) (e : KeyEvent) : Prop :=
  InputEvent e ∧ (e.key = Key.timeout → ∃ d ∈ a, IsKeyPress d) ∧
  (e.key ≠ Key.timeout → (e.state = .Up → Occurs a e.key [.Down, .Not] ∨ TypingModifier e.key) ∧
    (e.state = .UpAsync → Occurs a e.key [.Down] ∨ TypingModifier e.key))

theorem InQ.mono (a b : KeySequence) (e : KeyEvent) (h : InQ a e) : InQ (a ++ b) e := by
  obtain ⟨h1, h2, h3⟩ := h
  refine ⟨h1, fun hk => ?_, fun hk => ⟨fun hs => ?_, fun hs => ?_⟩⟩
  · obtain ⟨d, hd, h⟩ := h2 hk
    exact ⟨d, List.mem_append_left _ hd, h⟩
  · rcases (h3 hk).1 hs with h | h
    · exact .inl h.mono
    · exact .inr h
  · rcases (h3 hk).2 hs with h | h
    · exact .inl h.mono
    · exact .inr h

/-- the states of a key which do not depend on earlier events -/
theorem InQ.plain {a : KeySequence} {k : Key} {st : KeyState} (hk : k ≠ Key.timeout)
    (hs : st = .Down ∨ st = .DownAsync ∨ st = .Not) : InQ a ⟨k, st, 0⟩ := by
  refine ⟨.inl ⟨hk, rfl, ?_⟩, fun h => absurd h hk, fun _ => ⟨fun h => ?_, fun h => ?_⟩⟩
  · rcases hs with rfl | rfl | rfl <;> simp
  · subst h; rcases hs with h | h | h <;> cases h
  · subst h; rcases hs with h | h | h <;> cases h

theorem InQ.up {a : KeySequence} {k : Key} (hk : k ≠ Key.timeout)
    (h : Occurs a k [.Down, .Not] ∨ TypingModifier k) : InQ a ⟨k, .Up, 0⟩ :=
  ⟨.inl ⟨hk, rfl, by simp⟩, fun h => absurd h hk, fun _ => ⟨fun _ => h, fun h => (by cases h)⟩⟩

theorem InQ.upAsync {a : KeySequence} {k : Key} (hk : k ≠ Key.timeout)
    (h : Occurs a k [.Down] ∨ TypingModifier k) : InQ a ⟨k, .UpAsync, 0⟩ :=
  ⟨.inl ⟨hk, rfl, by simp⟩, fun h => absurd h hk, fun _ => ⟨fun h => (by cases h), fun _ => h⟩⟩

/-- The sequence is well-formed, up to the keys `held`, which are not yet released, and the keys
`open_`, which are not yet pressed. -/
structure CInv (held open_ : List Key) (l : KeySequence) : Prop where
  back : Prec InQ l
  async : Foll (fun e => e.state = .DownAsync) (· = .Down) open_ l
  pressed : Foll IsKeyPress (fun s => s = .Up ∨ s = .UpAsync) held l

theorem CInv.ext {h o h' o' : List Key} {l m : KeySequence} (hi : CInv h o l)
    (hq : ∀ e ∈ m, InQ l e)
    (ho : ∀ e ∈ m, e.state = .DownAsync → e.key ∈ o')
    (hoo : ∀ k ∈ o, k ∈ o' ∨ ∃ u ∈ m, u.key = k ∧ u.state = .Down)
    (hh : ∀ e ∈ m, IsKeyPress e → e.key ∈ h')
    (hhh : ∀ k ∈ h, k ∈ h' ∨ ∃ u ∈ m, u.key = k ∧ (u.state = .Up ∨ u.state = .UpAsync)) :
    CInv h' o' (l ++ m) :=
  ⟨hi.back.append InQ.mono hq, hi.async.extend ho hoo, hi.pressed.extend hh hhh⟩

/-- adding an event which is neither a press nor an optional press -/
theorem CInv.one {h o : List Key} {l : KeySequence} (hi : CInv h o l) {e : KeyEvent} (hq : InQ l e)
    (hd : ¬IsKeyPress e) (ha : e.state ≠ .DownAsync) : CInv h o (l ++ [e]) :=
  hi.ext (by simpa using hq) (by simpa using fun h => absurd h ha) (fun k hk => .inl hk)
    (by simpa using fun h => absurd h hd) (fun k hk => .inl hk)

theorem CInv.replace {h o : List Key} {l : KeySequence} {e f : KeyEvent} (hi : CInv h o (l ++ [e]))
    (hq : InQ l f) (hk : f.key = e.key) (h1 : ¬IsKeyPress f) (h2 : f.state ≠ .DownAsync)
    (h3 : e.state = .Down → f.state = .Down)
    (h4 : (e.state = .Up ∨ e.state = .UpAsync) → (f.state = .Up ∨ f.state = .UpAsync)) :
    CInv h o (l ++ [f]) :=
  ⟨hi.back.prefix.concat hq, hi.async.replaceLast hk h3 h2, hi.pressed.replaceLast hk h4 h1⟩

/-- the flag `?` occurs only at the begin -/
def FlagInv (nmm : Bool) (l : KeySequence) : Prop :=
  if nmm then ∃ t, l = noMightMatchFlag :: t ∧ ∀ e ∈ t, e.state ≠ .NoMightMatch
  else ∀ e ∈ l, e.state ≠ .NoMightMatch

theorem FlagInv.ext {b : Bool} {l m : KeySequence} (h : FlagInv b l)
    (hm : ∀ e ∈ m, e.state ≠ .NoMightMatch) : FlagInv b (l ++ m) := by
  unfold FlagInv at *
  split
  · next hb =>
    rw [if_pos hb] at h
    obtain ⟨t, rfl, ht⟩ := h
    exact ⟨t ++ m, rfl, fun e he => (List.mem_append.1 he).elim (ht e) (hm e)⟩
  · next hb =>
    rw [if_neg hb] at h
    exact fun e he => (List.mem_append.1 he).elim (h e) (hm e)

theorem FlagInv.prefix {b : Bool} {l : KeySequence} {e : KeyEvent} (h : FlagInv b (l ++ [e]))
    (he : e.state ≠ .NoMightMatch) : FlagInv b l := by
  unfold FlagInv at *
  split
  · next hb =>
    rw [if_pos hb] at h
    obtain ⟨t, h1, ht⟩ := h
    cases l with
    | nil =>
      simp at h1
      rw [h1.1] at he
      exact absurd rfl he
    | cons x l =>
      simp at h1
      obtain ⟨rfl, rfl⟩ := h1
      exact ⟨l, rfl, fun e he => ht e (List.mem_append_left _ he)⟩
  · next hb =>
    rw [if_neg hb] at h
    exact fun e he => h e (List.mem_append_left _ he)

/-- The invariant of the state of the parser -/
structure InInv (p : PState) : Prop where
  core : CInv p.pressed p.buffer p.seq
  flag : FlagInv p.nmm p.seq
  buf : ∀ k ∈ p.buffer, k ≠ Key.timeout
  pre : ∀ k ∈ p.pressed, k ≠ Key.timeout ∧ Occurs p.seq k [.Down]
  grp : p.before.length = p.group
  grp0 : p.group = 0 → p.pressed = []
  grpL : ∀ n, p.before.getLast? = some n → n = 0

theorem InInv.flushUp {p : PState} (h : InInv p) : InInv (p.flush true true) := by
  have h1 : CInv (p.pressed ++ p.buffer) [] (p.seq ++ p.buffer.map (fun k => (⟨k, .Down, 0⟩ : KeyEvent))) := by
    refine h.core.ext ?_ ?_ ?_ ?_ ?_
    · intro e he
      obtain ⟨k, hk, rfl⟩ := List.mem_map.1 he
      exact InQ.plain (h.buf k hk) (.inl rfl)
    · intro e he hs
      obtain ⟨k, hk, rfl⟩ := List.mem_map.1 he
      cases hs
    · intro k hk
      exact .inr ⟨⟨k, .Down, 0⟩, List.mem_map_of_mem hk, rfl, rfl⟩
    · intro e he _
      obtain ⟨k, hk, rfl⟩ := List.mem_map.1 he
      exact List.mem_append_right _ hk
    · exact fun k hk => .inl (List.mem_append_left _ hk)
  have h2 : CInv p.pressed [] (p.seq ++ p.buffer.map (fun k => (⟨k, .Down, 0⟩ : KeyEvent)) ++
      p.buffer.map (fun k => (⟨k, .UpAsync, 0⟩ : KeyEvent))) := by
    refine h1.ext ?_ ?_ (by simp) ?_ ?_
    · intro e he
      obtain ⟨k, hk, rfl⟩ := List.mem_map.1 he
      exact InQ.upAsync (h.buf k hk) (.inl ⟨⟨k, .Down, 0⟩,
        List.mem_append_right _ (List.mem_map_of_mem hk), rfl, by simp⟩)
    · intro e he hs
      obtain ⟨k, hk, rfl⟩ := List.mem_map.1 he
      cases hs
    · intro e he hs
      obtain ⟨k, hk, rfl⟩ := List.mem_map.1 he
      cases hs.1
    · intro k hk
      rcases List.mem_append.1 hk with hk | hk
      · exact .inl hk
      · exact .inr ⟨⟨k, .UpAsync, 0⟩, List.mem_map_of_mem hk, rfl, .inr rfl⟩
  refine ⟨h2, ?_, by simp [flush_buffer], ?_, h.grp, h.grp0, h.grpL⟩
  · refine (h.flag.ext ?_).ext ?_ <;>
    · intro e he
      obtain ⟨k, hk, rfl⟩ := List.mem_map.1 he
      simp
  · intro k hk
    refine ⟨(h.pre k hk).1, ?_⟩
    show Occurs (p.seq ++ _ ++ _) k _
    exact (h.pre k hk).2.mono.mono

theorem InInv.flushDown {p : PState} (h : InInv p) (hg : p.group ≠ 0) : InInv (p.flush true false) := by
  refine ⟨?_, ?_, by simp [flush_buffer], ?_, h.grp, fun h0 => absurd h0 hg, h.grpL⟩
  · refine h.core.ext ?_ ?_ ?_ ?_ ?_
    · intro e he
      obtain ⟨k, hk, rfl⟩ := List.mem_map.1 he
      exact InQ.plain (h.buf k hk) (.inl rfl)
    · intro e he hs
      obtain ⟨k, hk, rfl⟩ := List.mem_map.1 he
      cases hs
    · intro k hk
      exact .inr ⟨⟨k, .Down, 0⟩, List.mem_map_of_mem hk, rfl, rfl⟩
    · intro e he _
      obtain ⟨k, hk, rfl⟩ := List.mem_map.1 he
      exact List.mem_append_right _ hk
    · exact fun k hk => .inl (List.mem_append_left _ hk)
  · refine h.flag.ext ?_
    intro e he
    obtain ⟨k, hk, rfl⟩ := List.mem_map.1 he
    simp
  · intro k hk
    show _ ∧ Occurs (p.seq ++ _) k _
    rcases List.mem_append.1 hk with hk | hk
    · exact ⟨(h.pre k hk).1, (h.pre k hk).2.mono⟩
    · exact ⟨h.buf k hk, ⟨k, .Down, 0⟩, List.mem_append_right _ (List.mem_map_of_mem hk), rfl, by simp⟩

theorem InInv.notBase {p : PState} (h : InInv p) {k : Key} (hk : k ≠ Key.timeout) :
    InInv (notBase p k) := by
  have h := h.flushUp
  unfold KM.notBase
  generalize p.flush true true = q at h
  have hpre : ∀ j ∈ (q.removePressed k).pressed, j ∈ q.pressed := by
    intro j hj; exact (List.mem_filter.1 hj).1
  have hg0 : q.group = 0 → (q.removePressed k).pressed = [] := by
    intro hg; simp [PState.removePressed, h.grp0 hg]
  split
  · next hc =>
    have hkp : k ∈ q.pressed := by simpa using hc
    refine ⟨?_, ?_, h.buf, ?_, h.grp, hg0, h.grpL⟩
    · refine h.core.ext (m := [⟨k, .UpAsync, 0⟩]) ?_ (by simp) (fun j hj => .inl hj) ?_ ?_
      · intro e he
        rw [List.mem_singleton.1 he]
        exact InQ.upAsync hk (.inl (h.pre k hkp).2)
      · intro e he hs
        rw [List.mem_singleton.1 he] at hs
        cases hs.1
      · intro j hj
        by_cases hjk : j = k
        · exact .inr ⟨_, List.mem_singleton_self _, hjk.symm, .inr rfl⟩
        · left; simp [PState.add, PState.removePressed, hj, hjk]
    · exact h.flag.ext (m := [⟨k, .UpAsync, 0⟩]) (by simp)
    · intro j hj
      have := h.pre j (hpre j hj)
      exact ⟨this.1, this.2.mono⟩
  · next hc =>
    have hkp : k ∉ q.pressed := by simpa using hc
    have he : q.removePressed k = q := by
      unfold PState.removePressed
      have : q.pressed.filter (fun x => !(x == k)) = q.pressed := by
        rw [List.filter_eq_self]
        intro j hj
        have : j ≠ k := fun e => hkp (e ▸ hj)
        simp [this]
      rw [this]
    rw [he]
    exact h

/-- the invariant only depends on some of the members -/
theorem InInv.congr {p q : PState} (h : InInv p) (h1 : q.pressed = p.pressed) (h2 : q.buffer = p.buffer)
    (h3 : q.seq = p.seq) (h4 : q.nmm = p.nmm) (h5 : q.before = p.before) (h6 : q.group = p.group) :
    InInv q := by
  refine ⟨?_, ?_, ?_, ?_, ?_, ?_, ?_⟩
  · rw [h1, h2, h3]; exact h.core
  · rw [h3, h4]; exact h.flag
  · rw [h2]; exact h.buf
  · rw [h1, h3]; exact h.pre
  · rw [h5, h6]; exact h.grp
  · rw [h1, h6]; exact h.grp0
  · rw [h5]; exact h.grpL

/-- adding an event which is neither a press nor an optional press -/
theorem InInv.add {p : PState} (h : InInv p) {k : Key} {st : KeyState} {v : Nat}
    (hq : InQ p.seq ⟨k, st, v⟩) (hd : ¬IsKeyPress ⟨k, st, v⟩) (ha : st ≠ .DownAsync)
    (hn : st ≠ .NoMightMatch) : InInv (p.add k st v) := by
  refine ⟨h.core.one hq hd ha, h.flag.ext (by simpa using hn), h.buf, ?_, h.grp, h.grp0, h.grpL⟩
  intro j hj
  have := h.pre j hj
  exact ⟨this.1, this.2.mono⟩

/-- replacing the last event -/
theorem InInv.replace {p : PState} (h : InInv p) {l : KeySequence} {e f : KeyEvent}
    (hl : p.seq = l ++ [e]) (hq : InQ l f) (hk : f.key = e.key) (h1 : ¬IsKeyPress f)
    (h2 : f.state ≠ .DownAsync) (h3 : e.state = .Down → f.state = .Down ∧ e.key = Key.timeout)
    (h4 : (e.state = .Up ∨ e.state = .UpAsync) → (f.state = .Up ∨ f.state = .UpAsync))
    (h5 : e.state ≠ .NoMightMatch) (h6 : f.state ≠ .NoMightMatch) :
    InInv { p with seq := l ++ [f] } := by
  have hc := h.core
  have hf := h.flag
  rw [hl] at hc hf
  refine ⟨hc.replace hq hk h1 h2 (fun h => (h3 h).1) h4, (hf.prefix h5).ext (by simpa using h6),
    h.buf, ?_, h.grp, h.grp0, h.grpL⟩
  intro j hj
  have hp := h.pre j hj
  rw [hl] at hp
  refine ⟨hp.1, ?_⟩
  obtain ⟨d, hd, hdk, hds⟩ := hp.2
  rcases List.mem_append.1 hd with hd | hd
  · exact ⟨d, List.mem_append_left _ hd, hdk, hds⟩
  · rw [List.mem_singleton.1 hd] at hdk hds
    have := h3 (by simpa using hds)
    exact absurd (hdk.symm.trans this.2) hp.1

theorem isPressedIn_occurs {p : PState} (h : InInv p) (hb : p.buffer = []) {k : Key} (hk : k ≠ Key.timeout)
    (hkn : k ≠ Key.none) (hp : isPressedIn p.seq k = true) :
    Occurs p.seq k [.Down, .Not] ∨ TypingModifier k := by
  unfold isPressedIn at hp
  split at hp
  · next e he =>
    have hm : e ∈ p.seq := List.mem_reverse.1 (List.mem_of_find?_eq_some he)
    have hek : e.key = k := by simpa using List.find?_some he
    have hst : e.state ≠ .Up := by simpa using hp
    obtain ⟨a, b, hs⟩ := List.append_of_mem hm
    have hq := (h.core.back a e b hs).1
    rcases hq with ⟨-, -, hq⟩ | ⟨hq, -⟩ | hq
    · by_cases hd : e.state = .DownAsync
      · rcases h.core.async a e b hs hd with ⟨d, hd, h1, h2⟩ | h
        · exact .inl ⟨d, by rw [hs]; simp [hd], h1.trans hek, by simp [h2]⟩
        · rw [hb] at h; cases h
      · by_cases hu : e.state = .UpAsync
        · have := ((h.core.back a e b hs).2.2 (hek ▸ hk)).2 hu
          rw [hek] at this
          rcases this with h | h
          · rw [hs]; exact .inl ((h.more (by simp)).mono)
          · exact .inr h
        · refine .inl ⟨e, hm, hek, ?_⟩
          simp at hq ⊢
          grind
    · exact absurd (hek.symm.trans hq) hk
    · rw [hq] at hek
      exact absurd hek.symm hkn
  · cases hp

theorem syncGo_events (l acc : KeySequence) (hacc : ∀ e ∈ acc, e.state = .UpAsync) (e : KeyEvent)
    (he : e ∈ syncGo l acc) : e.state = .Up ∧ e.value = 0 ∧
      ∃ d, (d ∈ l ∨ d ∈ acc) ∧ d.key = e.key ∧ d.state = .UpAsync := by
  induction l generalizing acc with
  | nil => cases he
  | cons x l ih =>
    unfold syncGo at he
    split at he
    · obtain ⟨d, hd, rfl⟩ := List.mem_map.1 he
      exact ⟨rfl, rfl, d, .inr hd, rfl, hacc d hd⟩
    · split at he
      · cases he
      · next hx =>
        have hx : x.state = .UpAsync := by simpa using hx
        obtain ⟨h1, h2, d, h3, h4⟩ := ih (x :: acc) (by
          intro e he
          rcases List.mem_cons.1 he with rfl | he
          · exact hx
          · exact hacc e he) he
        refine ⟨h1, h2, d, ?_, h4⟩
        rcases h3 with h3 | h3
        · exact .inl (List.mem_cons_of_mem _ h3)
        · rcases List.mem_cons.1 h3 with rfl | h3
          · exact .inl (List.mem_cons_self)
          · exact .inr h3

theorem InInv.sync {p : PState} (h : InInv p) : InInv p.sync := by
  have hev := syncGo_events p.seq.reverse [] (by simp)
  refine ⟨h.core.ext ?_ ?_ (fun k hk => .inl hk) ?_ (fun k hk => .inl hk), h.flag.ext ?_, h.buf, ?_,
    h.grp, h.grp0, h.grpL⟩
  · intro e he
    obtain ⟨h1, h2, d, h3, h4, h5⟩ := hev e he
    have hd : d ∈ p.seq := by simpa using h3
    obtain ⟨a, b, hs⟩ := List.append_of_mem hd
    have hq := (h.core.back a d b hs).1
    have hkt : d.key ≠ Key.timeout := by
      rcases hq with ⟨hq, -⟩ | ⟨-, hq⟩ | hq
      · exact hq
      · rw [h5] at hq; simp at hq
      · rw [hq] at h5; cases h5
    obtain ⟨k, st, v⟩ := e
    simp only at h1 h2 h4
    subst h1; subst h2; subst h4
    refine InQ.up hkt ?_
    rcases ((h.core.back a d b hs).2.2 hkt).2 h5 with h | h
    · rw [hs]; exact .inl ((h.more (by simp)).mono)
    · exact .inr h
  · intro e he hs
    rw [(hev e he).1] at hs; cases hs
  · intro e he hs
    have := hs.1
    rw [(hev e he).1] at this; cases this
  · intro e he
    rw [(hev e he).1]; simp
  · intro k hk
    have := h.pre k hk
    exact ⟨this.1, this.2.mono⟩


/-! ## Typed strings -/

/-- the modifiers pressed by typing: none in a group -/
def typedHeld (inGroup : Bool) (m : Mods) : List Key := if inGroup then [] else m.held

theorem typing_ne_timeout {k : Key} (h : TypingModifier k) : k ≠ Key.timeout := by
  rcases h with rfl | rfl | rfl | rfl <;> decide

/-- no flag is added -/
def NoFlag (l : KeySequence) : Prop := ∀ e ∈ l, e.state ≠ .NoMightMatch

theorem CInv.pressInput {h o : List Key} {l : KeySequence} (first p n : Bool) {k : Key}
    (hk : TypingModifier k) (hi : CInv (h ++ if p then [k] else []) o l)
    (hp : p = true → Occurs l k [.Down]) :
    CInv (h ++ if n then [k] else []) o (l ++ pressInput first p n k) ∧
      (n = true → Occurs (l ++ KM.pressInput first p n k) k [.Down]) ∧ NoFlag (KM.pressInput first p n k) := by
  have hkt := typing_ne_timeout hk
  cases n
  · have h1 : CInv (h ++ if p then [k] else []) o (l ++ if first then [⟨k, .Not, 0⟩] else []) := by
      cases first
      · simpa using hi
      · exact hi.one (InQ.plain hkt (.inr (.inr rfl))) (by simp [IsKeyPress]) (by simp)
    have h2 : CInv h o (l ++ (if first then [⟨k, .Not, 0⟩] else []) ++ if p then [⟨k, .Up, 0⟩] else []) := by
      cases p
      · simpa using h1
      · refine h1.ext (m := [⟨k, .Up, 0⟩]) ?_ (by simp) (fun j hj => .inl hj) (by simp [IsKeyPress]) ?_
        · intro e he
          rw [List.mem_singleton.1 he]
          exact InQ.up hkt (.inr hk)
        · intro j hj
          rcases List.mem_append.1 hj with hj | hj
          · exact .inl hj
          · rw [List.mem_singleton.1 hj]
            exact .inr ⟨_, List.mem_singleton_self _, rfl, .inl rfl⟩
    refine ⟨?_, by simp, ?_⟩
    · simpa [KM.pressInput] using h2
    · intro e he
      unfold KM.pressInput at he
      cases first <;> cases p <;> simp at he
      · subst he; simp
      · subst he; simp
      · rcases he with rfl | rfl <;> simp
  · have h1 : CInv h o (l ++ if p then [⟨k, .UpAsync, 0⟩] else []) := by
      cases p
      · simpa using hi
      · refine hi.ext (m := [⟨k, .UpAsync, 0⟩]) ?_ (by simp) (fun j hj => .inl hj) (by simp [IsKeyPress]) ?_
        · intro e he
          rw [List.mem_singleton.1 he]
          exact InQ.upAsync hkt (.inr hk)
        · intro j hj
          rcases List.mem_append.1 hj with hj | hj
          · exact .inl hj
          · rw [List.mem_singleton.1 hj]
            exact .inr ⟨_, List.mem_singleton_self _, rfl, .inr rfl⟩
    have h2 : CInv h (o ++ [k]) (l ++ (if p then [⟨k, .UpAsync, 0⟩] else []) ++ [⟨k, .DownAsync, 0⟩]) := by
      refine h1.ext (m := [⟨k, .DownAsync, 0⟩]) ?_ (by simp) (fun j hj => .inl (List.mem_append_left _ hj))
        (by simp [IsKeyPress]) (fun j hj => .inl hj)
      intro e he
      rw [List.mem_singleton.1 he]
      exact InQ.plain hkt (.inr (.inl rfl))
    have h3 : CInv (h ++ [k]) o (l ++ (if p then [⟨k, .UpAsync, 0⟩] else []) ++ [⟨k, .DownAsync, 0⟩] ++
        [⟨k, .Down, 0⟩]) := by
      refine h2.ext (m := [⟨k, .Down, 0⟩]) ?_ (by simp) ?_ (by simp)
        (fun j hj => .inl (List.mem_append_left _ hj))
      · intro e he
        rw [List.mem_singleton.1 he]
        exact InQ.plain hkt (.inl rfl)
      · intro j hj
        rcases List.mem_append.1 hj with hj | hj
        · exact .inl hj
        · rw [List.mem_singleton.1 hj]
          exact .inr ⟨_, List.mem_singleton_self _, rfl, rfl⟩
    refine ⟨?_, fun _ => ?_, ?_⟩
    · simpa [KM.pressInput] using h3
    · exact ⟨⟨k, .Down, 0⟩, by simp [KM.pressInput], rfl, by simp⟩
    · intro e he
      unfold KM.pressInput at he
      cases p <;> simp at he
      · rcases he with rfl | rfl <;> simp
      · rcases he with rfl | rfl | rfl <;> simp

theorem CInv.heldPerm {h h' o : List Key} {l : KeySequence} (hi : CInv h o l) (hh : ∀ k ∈ h, k ∈ h') :
    CInv h' o l :=
  ⟨hi.back, hi.async, fun a e b hs hd => (hi.pressed a e b hs hd).imp id (hh _)⟩

theorem Mods.mem_held (m : Mods) (k : Key) : k ∈ m.held ↔
    k ∈ (if m.shift then [Key.Shift] else []) ∨ k ∈ (if m.alt then [Key.AltLeft] else []) ∨
    k ∈ (if m.altGr then [Key.AltRight] else []) ∨ k ∈ (if m.control then [Key.Control] else []) := by
  unfold Mods.held Mods.list
  simp only [List.filter_cons, List.filter_nil]
  cases m.shift <;> cases m.alt <;> cases m.altGr <;> cases m.control <;> simp

/-- the events which change the modifiers -/
def modsInput (first : Bool) (p n : Mods) : KeySequence :=
  (List.zip p.list n.list).flatMap (fun (p, n) => KM.pressInput first p.1 n.1 p.2)

theorem CInv.modsInput {h o : List Key} {l : KeySequence} (first : Bool) (p n : Mods)
    (hi : CInv (h ++ p.held) o l) (hp : ∀ k ∈ p.held, Occurs l k [.Down]) :
    CInv (h ++ n.held) o (l ++ modsInput first p n) ∧
      (∀ k ∈ n.held, Occurs (l ++ KM.modsInput first p n) k [.Down]) ∧ NoFlag (KM.modsInput first p n) := by
  have e : KM.modsInput first p n = KM.pressInput first p.shift n.shift Key.Shift ++
      (KM.pressInput first p.alt n.alt Key.AltLeft ++ (KM.pressInput first p.altGr n.altGr Key.AltRight ++
      KM.pressInput first p.control n.control Key.Control)) := by
    simp [KM.modsInput, Mods.list]
  rw [e]
  have m1 : p.shift = true → Occurs l Key.Shift [.Down] := fun hb =>
    hp _ ((Mods.mem_held p _).2 (.inl (by simp [hb])))
  have m2 : p.alt = true → Occurs l Key.AltLeft [.Down] := fun hb =>
    hp _ ((Mods.mem_held p _).2 (.inr (.inl (by simp [hb]))))
  have m3 : p.altGr = true → Occurs l Key.AltRight [.Down] := fun hb =>
    hp _ ((Mods.mem_held p _).2 (.inr (.inr (.inl (by simp [hb])))))
  have m4 : p.control = true → Occurs l Key.Control [.Down] := fun hb =>
    hp _ ((Mods.mem_held p _).2 (.inr (.inr (.inr (by simp [hb])))))
  generalize hA : (if p.alt then [Key.AltLeft] else ([] : List Key)) = A
  generalize hG : (if p.altGr then [Key.AltRight] else ([] : List Key)) = G
  generalize hC : (if p.control then [Key.Control] else ([] : List Key)) = C
  have h1 : CInv (h ++ A ++ G ++ C ++ (if p.shift then [Key.Shift] else [])) o l := by
    refine hi.heldPerm (fun k hk => ?_)
    rw [List.mem_append, Mods.mem_held, hA, hG, hC] at hk
    simp only [List.mem_append]
    grind
  obtain ⟨h2, o2, f2⟩ := h1.pressInput first p.shift n.shift (.inl rfl) m1
  have h3 : CInv (h ++ G ++ C ++ (if n.shift then [Key.Shift] else []) ++
      (if p.alt then [Key.AltLeft] else [])) o _ := h2.heldPerm (fun k hk => by
    rw [hA]; simp only [List.mem_append] at hk ⊢; grind)
  obtain ⟨h4, o4, f4⟩ := h3.pressInput first p.alt n.alt (.inr (.inl rfl)) (fun hb => (m2 hb).mono)
  have h5 : CInv (h ++ C ++ (if n.shift then [Key.Shift] else []) ++
      (if n.alt then [Key.AltLeft] else []) ++ (if p.altGr then [Key.AltRight] else [])) o _ :=
    h4.heldPerm (fun k hk => by rw [hG]; simp only [List.mem_append] at hk ⊢; grind)
  obtain ⟨h6, o6, f6⟩ := h5.pressInput first p.altGr n.altGr (.inr (.inr (.inl rfl)))
    (fun hb => (m3 hb).mono.mono)
  have h7 : CInv (h ++ (if n.shift then [Key.Shift] else []) ++
      (if n.alt then [Key.AltLeft] else []) ++ (if n.altGr then [Key.AltRight] else []) ++
      (if p.control then [Key.Control] else [])) o _ :=
    h6.heldPerm (fun k hk => by rw [hC]; simp only [List.mem_append] at hk ⊢; grind)
  obtain ⟨h8, o8, f8⟩ := h7.pressInput first p.control n.control (.inr (.inr (.inr rfl)))
    (fun hb => (m4 hb).mono.mono.mono)
  simp only [List.append_assoc] at h8 o8 o6 o4 o2 ⊢
  refine ⟨h8.heldPerm (fun k hk => ?_), fun k hk => ?_, ?_⟩
  · rw [List.mem_append, Mods.mem_held]
    simp only [List.mem_append] at hk
    exact hk
  · rcases (Mods.mem_held n k).1 hk with hk | hk | hk | hk
    · split at hk
      · next hb =>
        rw [List.mem_singleton.1 hk]
        have := (o2 hb).mono (b := KM.pressInput first p.alt n.alt Key.AltLeft ++
          (KM.pressInput first p.altGr n.altGr Key.AltRight ++
          KM.pressInput first p.control n.control Key.Control))
        simpa using this
      · cases hk
    · split at hk
      · next hb =>
        rw [List.mem_singleton.1 hk]
        have := (o4 hb).mono (b := KM.pressInput first p.altGr n.altGr Key.AltRight ++
          KM.pressInput first p.control n.control Key.Control)
        simpa using this
      · cases hk
    · split at hk
      · next hb =>
        rw [List.mem_singleton.1 hk]
        have := (o6 hb).mono (b := KM.pressInput first p.control n.control Key.Control)
        simpa using this
      · cases hk
    · split at hk
      · next hb =>
        rw [List.mem_singleton.1 hk]
        exact o8 hb
      · cases hk
  · intro e he
    simp only [List.mem_append] at he
    rcases he with he | he | he | he
    · exact f2 e he
    · exact f4 e he
    · exact f6 e he
    · exact f8 e he

theorem CInv.typeInputGo {h o : List Key} (inGroup : Bool) (ts : List TypedKey)
    (ht : ∀ t ∈ ts, t.key ≠ Key.timeout) (first : Bool) (prev : Mods) {l : KeySequence}
    (hi : CInv (h ++ typedHeld inGroup prev) o l)
    (hp : ∀ k ∈ typedHeld inGroup prev, Occurs l k [.Down]) :
    CInv (h ++ typedHeld inGroup (KM.typeInputGo inGroup first prev ts).2.1) o
      (l ++ (KM.typeInputGo inGroup first prev ts).1) ∧ NoFlag (KM.typeInputGo inGroup first prev ts).1 := by
  induction ts generalizing first prev l with
  | nil => simpa [KM.typeInputGo, NoFlag] using hi
  | cons t ts ih =>
    have hk := ht t (by simp)
    generalize hm : (if inGroup then ([] : KeySequence) else
      (List.zip prev.list t.mods.list).flatMap (fun (p, n) => KM.pressInput first p.1 n.1 p.2)) = mods
    have h1 : CInv (h ++ typedHeld inGroup t.mods) o (l ++ mods) ∧
        (∀ k ∈ typedHeld inGroup t.mods, Occurs (l ++ mods) k [.Down]) ∧ NoFlag mods := by
      subst hm
      cases inGroup
      · exact hi.modsInput first prev t.mods hp
      · simp only [typedHeld, if_true, List.append_nil] at hi ⊢
        exact ⟨hi, by simp, by simp [NoFlag]⟩
    have h2 : CInv ((h ++ typedHeld inGroup t.mods) ++ [t.key]) o (l ++ mods ++ [⟨t.key, .Down, 0⟩]) := by
      refine h1.1.ext ?_ (by simp) (fun j hj => .inl hj) (by simp)
        (fun j hj => .inl (List.mem_append_left _ hj))
      intro e he
      rw [List.mem_singleton.1 he]
      exact InQ.plain hk (.inl rfl)
    have h3 : CInv (h ++ typedHeld inGroup t.mods) o
        (l ++ mods ++ [⟨t.key, .Down, 0⟩] ++ [⟨t.key, .UpAsync, 0⟩]) := by
      refine h2.ext ?_ (by simp) (fun j hj => .inl hj) (by simp [IsKeyPress]) ?_
      · intro e he
        rw [List.mem_singleton.1 he]
        exact InQ.upAsync hk (.inl ⟨⟨t.key, .Down, 0⟩, by simp, rfl, by simp⟩)
      · intro j hj
        rcases List.mem_append.1 hj with hj | hj
        · exact .inl hj
        · rw [List.mem_singleton.1 hj]
          exact .inr ⟨_, List.mem_singleton_self _, rfl, .inr rfl⟩
    obtain ⟨h4, h5⟩ := ih (fun t ht' => ht t (List.mem_cons_of_mem _ ht')) false t.mods h3
      (fun k hk => (h1.2.1 k hk).mono.mono)
    simp only [KM.typeInputGo, hm]
    refine ⟨?_, ?_⟩
    · simpa using h4
    · intro e he
      simp only [List.mem_append] at he
      rcases he with (he | he) | he
      · exact h1.2.2 e he
      · simp at he
        rcases he with rfl | rfl <;> simp
      · exact h5 e he

theorem CInv.typeInput {h o : List Key} {l : KeySequence} {typer : Typer} {s : Str} {g : Bool}
    {seq : KeySequence} {has : Bool} (htt : ∀ s l, typer s = some l → ∀ t ∈ l, t.key ≠ Key.timeout)
    (ht : typeInput typer s g = some (seq, has)) (hi : CInv h o l) :
    CInv h o (l ++ seq) ∧ NoFlag seq := by
  unfold KM.typeInput at ht
  split at ht
  · cases ht
  · next keys hk =>
    obtain ⟨h1, h2⟩ := CInv.typeInputGo (h := h) (o := o) (l := l) g keys (htt s keys hk) true {}
      (by cases g <;> simpa [typedHeld, Mods.held, Mods.list] using hi)
      (by cases g <;> simp [typedHeld, Mods.held, Mods.list])
    simp only [Option.some.injEq, Prod.mk.injEq] at ht
    obtain ⟨rfl, -⟩ := ht
    generalize KM.typeInputGo g true {} keys = r at h1 h2
    have h3 : CInv h o (l ++ r.1 ++ (r.2.1.list.filter (·.1)).map (fun m => (⟨m.2, .UpAsync, 0⟩ : KeyEvent))) := by
      refine h1.ext ?_ ?_ (fun j hj => .inl hj) ?_ ?_
      · intro e he
        obtain ⟨m, hm, rfl⟩ := List.mem_map.1 he
        have : TypingModifier m.2 := by
          have := (List.mem_filter.1 hm).1
          simp [Mods.list] at this
          rcases this with rfl | rfl | rfl | rfl
          · exact .inl rfl
          · exact .inr (.inl rfl)
          · exact .inr (.inr (.inl rfl))
          · exact .inr (.inr (.inr rfl))
        exact InQ.upAsync (typing_ne_timeout this) (.inr this)
      · intro e he hs
        obtain ⟨m, hm, rfl⟩ := List.mem_map.1 he
        cases hs
      · intro e he hs
        obtain ⟨m, hm, rfl⟩ := List.mem_map.1 he
        cases hs.1
      · intro j hj
        rcases List.mem_append.1 hj with hj | hj
        · exact .inl hj
        · right
          have hj : j ∈ r.2.1.held := by
            cases g
            · exact hj
            · cases hj
          obtain ⟨m, hm, rfl⟩ := List.mem_map.1 hj
          exact ⟨⟨m.2, .UpAsync, 0⟩, List.mem_map.2 ⟨m, hm, rfl⟩, rfl, .inr rfl⟩
    refine ⟨by simpa using h3, ?_⟩
    intro e he
    rcases List.mem_append.1 he with he | he
    · exact h2 e he
    · obtain ⟨m, hm, rfl⟩ := List.mem_map.1 he
      simp


/-! ## The steps -/

/-- No name denotes a timeout, which only a duration does. -/
def NamesNoTimeout (env : PEnv) : Prop :=
  (∀ n, env.getKey n ≠ Key.timeout) ∧ ∀ s l, env.typer s = some l → ∀ t ∈ l, t.key ≠ Key.timeout

theorem hasKeyDown_iff (l : KeySequence) : hasKeyDown l = true ↔ ∃ d ∈ l, IsKeyPress d := by
  simp [hasKeyDown, IsKeyPress]

theorem InQ.timeout {a : KeySequence} {st : KeyState} {v : Nat} (hd : ∃ d ∈ a, IsKeyPress d)
    (hs : st ∈ [KeyState.Timeout_cancel_on_down, .Timeout_cancel_on_up_down,
        .NotTimeout_cancel_on_down, .NotTimeout_cancel_on_up_down]) : InQ a ⟨Key.timeout, st, v⟩ :=
  ⟨.inr (.inl ⟨rfl, hs⟩), fun _ => hd, fun h => absurd rfl h⟩

theorem InInv.step {env : PEnv} (hn : NamesNoTimeout env) {p q : PState} (hs : InStep env p q)
    (h : InInv p) : InInv q := by
  cases hs with
  | flush => exact h.flushUp
  | key n hk =>
    refine ⟨⟨h.core.back, ?_, h.core.pressed⟩, h.flag, ?_, h.pre, h.grp, h.grp0, h.grpL⟩
    · intro a e b hs hd
      exact (h.core.async a e b hs hd).imp id (List.mem_append_left _)
    · intro k hk
      rcases List.mem_append.1 hk with hk | hk
      · exact h.buf k hk
      · rw [List.mem_singleton.1 hk]; exact hn.1 n
  | togetherBegin => exact h.congr rfl rfl rfl rfl rfl rfl
  | togetherEnd =>
    refine ⟨h.core.ext ?_ ?_ (fun k hk => .inl hk) ?_ (fun k hk => .inl hk), h.flag.ext ?_, h.buf, ?_,
      h.grp, h.grp0, h.grpL⟩
    · intro e he
      obtain ⟨k, hk, rfl⟩ := List.mem_map.1 he
      exact InQ.plain (h.buf k hk) (.inr (.inl rfl))
    · intro e he _
      obtain ⟨k, hk, rfl⟩ := List.mem_map.1 he
      exact hk
    · intro e he hs
      obtain ⟨k, hk, rfl⟩ := List.mem_map.1 he
      cases hs.1
    · intro e he
      obtain ⟨k, hk, rfl⟩ := List.mem_map.1 he
      simp
    · intro k hk
      have := h.pre k hk
      exact ⟨this.1, this.2.mono⟩
  | timeout st v hd hs =>
    refine h.flushUp.add (InQ.timeout ((hasKeyDown_iff _).1 hd) hs) (by simp [IsKeyPress]) ?_ ?_
    · rintro rfl; simp at hs
    · rintro rfl; simp at hs
  | addTimeout l e v hl hk hd hs =>
    refine h.flushUp.replace hl ?_ rfl (by simp [IsKeyPress, hk]) ?_ (fun h => ⟨h, hk⟩) id ?_ ?_
    · have : InQ l ⟨Key.timeout, e.state, sumTimeouts e.value v⟩ := by
        refine InQ.timeout ?_ hs
        obtain ⟨d, hd, h1⟩ := (hasKeyDown_iff _).1 hd
        rw [hl] at hd
        rcases List.mem_append.1 hd with hd | hd
        · exact ⟨d, hd, h1⟩
        · rw [List.mem_singleton.1 hd] at h1
          exact absurd hk h1.2
      rw [← hk] at this
      exact this
    · intro h; dsimp only at h; rw [h] at hs; simp at hs
    · intro h; rw [h] at hs; simp at hs
    · intro h; dsimp only at h; rw [h] at hs; simp at hs
  | notReplace n k l hkn hk hl =>
    have hkt : k ≠ Key.timeout := hkn ▸ hn.1 n
    have h1 := h.notBase hkt
    refine h1.replace hl ?_ rfl (by simp [IsKeyPress]) (by simp) (by simp) (fun _ => .inl rfl)
      (by simp) (by simp)
    have hq := (h1.core.back l ⟨k, .UpAsync, 0⟩ [] hl).2.2 hkt
    rcases hq.2 rfl with h2 | h2
    · exact InQ.up hkt (.inl (h2.more (by simp)))
    · exact InQ.up hkt (.inr h2)
  | notUp n k hkn hk hp =>
    have hkt : k ≠ Key.timeout := hkn ▸ hn.1 n
    have h1 := h.notBase hkt
    refine h1.add (InQ.up hkt (isPressedIn_occurs h1 ?_ hkt hk hp)) (by simp [IsKeyPress]) (by simp)
      (by simp)
    unfold KM.notBase
    split <;> exact flush_buffer p true true
  | notKey n k hkn hk =>
    have hkt : k ≠ Key.timeout := hkn ▸ hn.1 n
    exact (h.notBase hkt).add (InQ.plain hkt (.inr (.inr rfl))) (by simp [IsKeyPress]) (by simp) (by simp)
  | string s seq has ht =>
    have h := h.flushUp
    obtain ⟨h1, h2⟩ := h.core.typeInput hn.2 ht
    refine ⟨h1, h.flag.ext h2, h.buf, ?_, h.grp, h.grp0, h.grpL⟩
    intro k hk
    have := h.pre k hk
    exact ⟨this.1, this.2.mono⟩
  | flag hs hb =>
    refine ⟨?_, ?_, h.buf, ?_, h.grp, h.grp0, h.grpL⟩
    · refine h.core.one ?_ (by simp [IsKeyPress]) (by simp)
      exact ⟨.inr (.inr rfl), fun h => (by cases h), fun _ => ⟨fun h => (by cases h), fun h => (by cases h)⟩⟩
    · simp [FlagInv, PState.add, hs, noMightMatchFlag]
    · intro k hk
      have := h.pre k hk
      exact ⟨this.1, this.2.mono⟩
  | groupBegin hne =>
    let p1 : PState := { p with before := p.pressed.length :: p.before, group := p.group + 1, hasMod := true }
    have h1 : InInv p1 := by
      refine ⟨h.core, h.flag, h.buf, h.pre, by simp [p1, h.grp], by simp [p1], ?_⟩
      intro n hl
      simp only [p1] at hl
      rw [List.getLast?_cons] at hl
      cases hb : p.before.getLast? with
      | none =>
        rw [hb] at hl
        have hb : p.before = [] := by simpa using hb
        have hg : p.group = 0 := by rw [← h.grp, hb]; rfl
        simp at hl
        rw [← hl, h.grp0 hg]
        rfl
      | some m =>
        rw [hb] at hl
        simp at hl
        rw [← hl]
        exact h.grpL m hb
    exact h1.flushDown (by simp [p1])
  | groupEnd hg =>
    have h := h.flushUp
    have hb := flush_before p true true
    have hgr := flush_group p true true
    generalize hq : p.flush true true = q at h hb hgr
    have h1 : InInv { q.release true (p.before.headD 0) with before := p.before.tail, group := p.group - 1 } := by
      refine ⟨?_, ?_, h.buf, ?_, ?_, ?_, ?_⟩
      · refine h.core.ext ?_ ?_ (fun k hk => .inl hk) ?_ ?_
        · intro e he
          obtain ⟨k, hk, rfl⟩ := List.mem_map.1 he
          have hk := List.mem_of_mem_drop (List.mem_reverse.1 hk)
          exact InQ.upAsync (h.pre k hk).1 (.inl (h.pre k hk).2)
        · intro e he hs
          obtain ⟨k, hk, rfl⟩ := List.mem_map.1 he
          cases hs
        · intro e he hs
          obtain ⟨k, hk, rfl⟩ := List.mem_map.1 he
          cases hs.1
        · intro k hk
          rw [← List.take_append_drop (p.before.headD 0) q.pressed] at hk
          rcases List.mem_append.1 hk with hk | hk
          · exact .inl hk
          · exact .inr ⟨⟨k, .UpAsync, 0⟩, List.mem_map_of_mem (List.mem_reverse.2 hk), rfl, .inr rfl⟩
      · refine h.flag.ext ?_
        intro e he
        obtain ⟨k, hk, rfl⟩ := List.mem_map.1 he
        simp
      · intro k hk
        have := h.pre k (List.mem_of_mem_take hk)
        exact ⟨this.1, this.2.mono⟩
      · have := h.grp
        rw [hb, hgr] at this
        simp [this]
      · intro h0
        have hl := h.grp
        rw [hb, hgr] at hl
        dsimp only at h0
        have : p.before.length = 1 := by omega
        match hbb : p.before, this with
        | [n], _ =>
          have := h.grpL n (by rw [hb, hbb]; rfl)
          subst this
          simp [PState.release]
      · intro n hl
        refine h.grpL n ?_
        rw [hb]
        dsimp only at hl
        cases hbb : p.before with
        | nil => rw [hbb] at hl; cases hl
        | cons x xs =>
          rw [hbb] at hl
          simp only [List.tail_cons] at hl
          rw [List.getLast?_cons, hl]
          rfl
    exact h1.sync

end KM
