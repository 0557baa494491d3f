import Verif.Spec.HeldBack
/-!
# What happened to the events of a single key
-/
namespace KM

/-- the state of the first event -/
def firstState (l : KeySequence) : Option KeyState := l.head?.map (·.state)
/-- the state of the last event -/
def lastKeyState (l : KeySequence) : Option KeyState := l.getLast?.map (·.state)

/-- consecutive events differ -/
def Alternates : KeySequence → Prop
  | [] => True
  | [_] => True
  | a :: b :: l => a.state ≠ b.state ∧ Alternates (b :: l)

/-- what is not yet output, when the key is held in the output (`d`); a release can be output before what is held back -/
def notYet (d : Bool) (pend : KeySequence) : KeySequence := if d = false ∧ firstState pend = some .Up then pend.tail else pend

/-- The events of a key which were input, output, are in the sequence, and whether the output key is down. `pre` is a press which was
already forwarded, `pend` is held back. -/
structure KInv' (k : Key) (inp out q : KeySequence) (d : Bool) (pre pend : KeySequence) : Prop where
  down : d = true ↔ lastKeyState out = some .Down
  seq : q = pre ++ pend
  fwd : pre = [] ∨ ∃ e : KeyEvent, pre = [e] ∧ e.state = .DownMatched
  states : ∀ e ∈ pend, e.state = .Down ∨ e = ⟨k, .Up, 0⟩
  alt : Alternates pend
  fwdUp : pre ≠ [] → firstState pend ≠ some .Down
  fwdDown : pre ≠ [] → pend = [] → d = true
  empty : pre = [] → pend = [] → d = false
  notDown : d = true → firstState pend ≠ some .Down
  inp : inp = out ++ notYet d pend

/-- see `KInv'` -/
def KInv (k : Key) (inp out q : KeySequence) (d : Bool) : Prop := ∃ pre pend, KInv' k inp out q d pre pend

theorem lastState_append {a b : KeySequence} (h : b ≠ []) : lastKeyState (a ++ b) = lastKeyState b := by
  unfold lastKeyState
  rw [List.getLast?_append]
  cases hb : b.getLast? with
  | none => rw [List.getLast?_eq_none_iff] at hb; exact absurd hb h
  | some x => rfl

theorem lastState_concat (a : KeySequence) (e : KeyEvent) : lastKeyState (a ++ [e]) = some e.state := by
  rw [lastState_append (by simp)]; rfl

theorem alternates_concat {l : KeySequence} {e : KeyEvent} (h : Alternates l) (hl : lastKeyState l ≠ some e.state) : Alternates (l ++ [e]) := by
  induction l with
  | nil => trivial
  | cons a l ih =>
    cases l with
    | nil =>
      refine ⟨?_, trivial⟩
      intro e'
      apply hl
      rw [← e']; rfl
    | cons b l =>
      refine ⟨h.1, ih h.2 ?_⟩
      intro e'
      apply hl
      rw [← e']
      unfold lastKeyState
      rw [List.getLast?_cons_cons]

theorem notYet_concat {d : Bool} {l : KeySequence} (e : KeyEvent) (h : l ≠ []) : notYet d (l ++ [e]) = notYet d l ++ [e] := by
  cases l with
  | nil => exact absurd rfl h
  | cons a l =>
    have e1 : firstState (a :: l ++ [e]) = firstState (a :: l) := rfl
    unfold notYet
    rw [e1]
    split <;> rfl

theorem firstState_concat {l : KeySequence} (e : KeyEvent) (h : l ≠ []) : firstState (l ++ [e]) = firstState l := by
  cases l with
  | nil => exact absurd rfl h
  | cons a l => rfl

theorem firstState_cases {k : Key} {l : KeySequence} (h : ∀ e ∈ l, e.state = .Down ∨ e = ⟨k, .Up, 0⟩) (hn : l ≠ []) (hd : firstState l ≠ some .Down) :
    firstState l = some .Up ∧ ∃ t, l = ⟨k, .Up, 0⟩ :: t := by
  cases l with
  | nil => exact absurd rfl hn
  | cons a l =>
    rcases h a (by simp) with h | h
    · exact absurd (by unfold firstState; simp [h]) hd
    · subst h; exact ⟨rfl, l, rfl⟩

variable {k : Key} {inp out q : KeySequence} {d : Bool} {pre pend : KeySequence}

theorem KInv'.notYet_nil (h : KInv' k inp out q d pre pend) (hp : pend = []) : inp = out := by
  rw [h.inp, hp]; unfold notYet; split <;> simp

/-- the last event of what is held back was the last event which was input -/
theorem KInv'.last (h : KInv' k inp out q d pre pend) (hp : pend ≠ []) : lastKeyState pend = some .Down ↔ lastKeyState inp = some .Down := by
  rw [h.inp]
  unfold notYet
  split
  · next hc =>
    have hd : lastKeyState out ≠ some .Down := by
      intro h'; have := h.down.2 h'; rw [hc.1] at this; cases this
    cases pend with
    | nil => exact absurd rfl hp
    | cons a l =>
      rw [List.tail_cons]
      cases l with
      | nil =>
        rw [List.append_nil]
        have ha : a.state = .Up := by simpa [firstState] using hc.2
        constructor
        · intro h'; simp [lastKeyState, ha] at h'
        · intro h'; exact absurd h' hd
      | cons b l =>
        rw [lastState_append (by simp)]
        unfold lastKeyState
        rw [List.getLast?_cons_cons]
  · rw [lastState_append hp]

theorem KInv'.last_up (h : KInv' k inp out q d pre pend) (hp : pend ≠ []) (hl : lastKeyState inp ≠ some .Down) : lastKeyState pend = some .Up := by
  have h1 := fun h' => hl ((h.last hp).1 h')
  unfold lastKeyState at h1 ⊢
  rw [List.getLast?_eq_some_getLast hp] at h1 ⊢
  rcases h.states _ (List.getLast_mem hp) with h' | h'
  · rw [Option.map_some, h'] at h1; exact absurd rfl h1
  · rw [h']; rfl

/-- a key which is not held is not considered pressed -/
theorem KInv.released (h : KInv k inp out q d) (hl : lastKeyState inp ≠ some .Down) : lastKeyState q = none ∨ lastKeyState q = some .Up := by
  obtain ⟨pre, pend, h⟩ := h
  by_cases hp : pend = []
  · have hio := h.notYet_nil hp
    have hd : d ≠ true := by
      intro hd; apply hl; rw [hio]; exact h.down.1 hd
    have hpre : pre = [] := by
      rcases h.fwd with hf | ⟨e, hf, _⟩
      · exact hf
      · exact absurd (h.fwdDown (by rw [hf]; simp) hp) hd
    left
    rw [h.seq, hp, hpre]; rfl
  · right
    rw [h.seq, lastState_append hp]
    exact h.last_up hp hl

/-- a press is appended -/
theorem KInv.press (h : KInv k inp out q d) (hl : lastKeyState inp ≠ some .Down) {ev : KeyEvent} (he : ev.state = .Down) :
    KInv k (inp ++ [ev]) out (q ++ [ev]) d := by
  obtain ⟨pre, pend, h⟩ := h
  by_cases hp : pend = []
  · have hio := h.notYet_nil hp
    have hd : d = false := by
      cases hd : d with
      | false => rfl
      | true => exact absurd (by rw [hio]; exact h.down.1 hd) hl
    have hpre : pre = [] := by
      rcases h.fwd with hf | ⟨e, hf, _⟩
      · exact hf
      · have := h.fwdDown (by rw [hf]; simp) hp
        rw [hd] at this; cases this
    refine ⟨[], [ev], h.down, by rw [h.seq, hp, hpre]; rfl, Or.inl rfl, ?_, trivial, by simp, by simp, by simp, ?_, ?_⟩
    · intro e he'; rw [List.mem_singleton] at he'; subst he'; exact Or.inl he
    · intro h'; rw [hd] at h'; cases h'
    · rw [hio]
      unfold notYet firstState
      simp [he]
  · refine ⟨pre, pend ++ [ev], h.down, by rw [h.seq, List.append_assoc], h.fwd, ?_, ?_, ?_, by simp, by simp, ?_, ?_⟩
    · intro e he'
      rcases List.mem_append.1 he' with he' | he'
      · exact h.states e he'
      · rw [List.mem_singleton] at he'; subst he'; exact Or.inl he
    · refine alternates_concat h.alt ?_
      rw [h.last_up hp hl, he]; simp
    · intro hpre; rw [firstState_concat _ hp]; exact h.fwdUp hpre
    · intro hd; rw [firstState_concat _ hp]; exact h.notDown hd
    · rw [notYet_concat _ hp, h.inp, List.append_assoc]

/-- a release is appended -/
theorem KInv.release (h : KInv k inp out q d) (hl : lastKeyState inp = some .Down) : KInv k (inp ++ [⟨k, .Up, 0⟩]) out (q ++ [⟨k, .Up, 0⟩]) d := by
  obtain ⟨pre, pend, h⟩ := h
  by_cases hp : pend = []
  · have hio := h.notYet_nil hp
    have hd : d = true := h.down.2 (by rw [← hio]; exact hl)
    refine ⟨pre, [⟨k, .Up, 0⟩], h.down, by rw [h.seq, hp, List.append_nil], h.fwd, by simp, trivial, by simp [firstState], by simp, by simp,
      by simp [firstState], ?_⟩
    rw [hio]
    unfold notYet
    rw [if_neg (by rw [hd]; simp)]
  · refine ⟨pre, pend ++ [⟨k, .Up, 0⟩], h.down, by rw [h.seq, List.append_assoc], h.fwd, ?_, ?_, ?_, by simp, by simp, ?_, ?_⟩
    · intro e he'
      rcases List.mem_append.1 he' with he' | he'
      · exact h.states e he'
      · rw [List.mem_singleton] at he'; exact Or.inr he'
    · refine alternates_concat h.alt ?_
      rw [(h.last hp).2 hl]; simp
    · intro hpre; rw [firstState_concat _ hp]; exact h.fwdUp hpre
    · intro hd; rw [firstState_concat _ hp]; exact h.notDown hd
    · rw [notYet_concat _ hp, h.inp, List.append_assoc]

/-- a press which was forwarded is removed, when the key was released meanwhile -/
theorem KInv.drop {e : KeyEvent} {t : KeySequence} (h : KInv k inp out (e :: t) d) (he : e.state = .DownMatched) (ht : t ≠ []) : KInv k inp out t d := by
  obtain ⟨pre, pend, h⟩ := h
  have hs := h.seq
  rcases h.fwd with hf | ⟨e', hf, _⟩
  · subst hf
    simp only [List.nil_append] at hs
    rcases h.states e (by rw [← hs]; simp) with h' | h'
    · rw [he] at h'; cases h'
    · rw [h'] at he; cases he
  · subst hf
    simp only [List.cons_append, List.nil_append, List.cons.injEq] at hs
    obtain ⟨_, rfl⟩ := hs
    exact ⟨[], t, h.down, rfl, Or.inl rfl, h.states, h.alt, by simp, by simp, fun _ h' => absurd h' ht, h.notDown, h.inp⟩

/-- a press is forwarded -/
theorem KInv.forward {e : KeyEvent} {t : KeySequence} (h : KInv k inp out (e :: t) d) (he : e.state = .Down) :
    KInv k inp (out ++ [e]) (if t = [] then [{ e with state := .DownMatched }] else t) true ∧ (t ≠ [] → ⟨k, .Up, 0⟩ ∈ t) ∧ d = false := by
  obtain ⟨pre, pend, h⟩ := h
  have hs := h.seq
  have hpre : pre = [] := by
    rcases h.fwd with hf | ⟨e', hf, he'⟩
    · exact hf
    · subst hf
      simp only [List.cons_append, List.nil_append, List.cons.injEq] at hs
      rw [← hs.1, he] at he'; cases he'
  subst hpre
  simp only [List.nil_append] at hs
  subst hs
  have hfs : firstState (e :: t) = some .Down := by simp [firstState, he]
  have hd : d = false := by
    cases hd : d with
    | false => rfl
    | true => exact absurd hfs (h.notDown hd)
  have hinp : inp = out ++ e :: t := by
    rw [h.inp]; unfold notYet; rw [if_neg (by rw [hfs]; simp)]
  have hlast : (true = true) ↔ lastKeyState (out ++ [e]) = some .Down := by
    rw [lastState_concat, he]; simp
  have htn : t ≠ [] → firstState t ≠ some .Down := by
    intro hn
    cases t with
    | nil => exact absurd rfl hn
    | cons b t =>
      have := h.alt.1
      rw [he] at this
      simp only [firstState, List.head?_cons, Option.map_some, ne_eq, Option.some.injEq]
      exact fun h' => this h'.symm
  have hst : ∀ x ∈ t, x.state = .Down ∨ x = ⟨k, .Up, 0⟩ := fun x hx => h.states x (by simp [hx])
  refine ⟨?_, ?_, hd⟩
  · by_cases ht : t = []
    · rw [if_pos ht]
      refine ⟨[{ e with state := .DownMatched }], [], hlast, rfl, Or.inr ⟨_, rfl, rfl⟩, by simp, trivial, by simp [firstState], by simp, by simp,
        by simp [firstState], ?_⟩
      rw [hinp, ht]
      simp [notYet]
    · rw [if_neg ht]
      refine ⟨[], t, hlast, rfl, Or.inl rfl, hst, ?_, by simp, by simp, fun _ h' => absurd h' ht, fun _ => htn ht, ?_⟩
      · cases t with
        | nil => trivial
        | cons b t => exact h.alt.2
      · rw [hinp]; simp [notYet]
  · intro ht
    obtain ⟨_, t', ht'⟩ := firstState_cases hst ht (htn ht)
    rw [ht']; simp

/-- the press of a key which was not released is the only event -/
theorem KInv.forward_up {e : KeyEvent} {t : KeySequence} (h : KInv k inp out (e :: t) d) (he : e = ⟨k, .Up, 0⟩) :
    KInv k inp (out ++ if d = true then [⟨k, .Up, 0⟩] else []) t false := by
  obtain ⟨pre, pend, h⟩ := h
  have hs := h.seq
  have hpre : pre = [] := by
    rcases h.fwd with hf | ⟨e', hf, he'⟩
    · exact hf
    · subst hf
      simp only [List.cons_append, List.nil_append, List.cons.injEq] at hs
      rw [← hs.1, he] at he'; cases he'
  subst hpre
  simp only [List.nil_append] at hs
  subst hs
  have hfs : firstState (e :: t) = some .Up := by simp [firstState, he]
  have hst : ∀ x ∈ t, x.state = .Down ∨ x = ⟨k, .Up, 0⟩ := fun x hx => h.states x (by simp [hx])
  have htn : firstState t ≠ some .Up := by
    cases t with
    | nil => simp [firstState]
    | cons b t =>
      have := h.alt.1
      rw [he] at this
      simp only [firstState, List.head?_cons, Option.map_some, ne_eq, Option.some.injEq]
      exact fun h' => this h'.symm
  have hny : notYet false t = t := by unfold notYet; rw [if_neg (by simp [htn])]
  have halt : Alternates t := by
    cases t with
    | nil => trivial
    | cons b t => exact h.alt.2
  cases hd : d with
  | true =>
    have hinp := h.inp
    unfold notYet at hinp
    rw [if_neg (by rw [hd]; simp)] at hinp
    refine ⟨[], t, ?_, rfl, Or.inl rfl, hst, halt, by simp, by simp, by simp, by simp, ?_⟩
    · rw [if_pos rfl, lastState_concat]; simp
    · rw [if_pos rfl, hinp, hny, he, List.append_assoc]; rfl
  | false =>
    have hinp := h.inp
    unfold notYet at hinp
    rw [if_pos ⟨hd, hfs⟩] at hinp
    rw [if_neg (by simp), List.append_nil]
    refine ⟨[], t, ?_, rfl, Or.inl rfl, hst, halt, by simp, by simp, by simp, by simp, ?_⟩
    · have := h.down; rw [hd] at this; exact this
    · rw [hinp, hny]; rfl

/-- a key which was released is released in the output -/
theorem KInv.early (h : KInv k inp out q d) (hl : lastKeyState inp ≠ some .Down) : KInv k inp (out ++ if d = true then [⟨k, .Up, 0⟩] else []) q false := by
  cases hd : d with
  | false =>
    rw [if_neg (by simp), List.append_nil]
    rw [hd] at h; exact h
  | true =>
    obtain ⟨pre, pend, h⟩ := h
    have hp : pend ≠ [] := by
      intro hp
      apply hl
      rw [h.notYet_nil hp]
      exact h.down.1 hd
    obtain ⟨hf, t, ht⟩ := firstState_cases h.states hp (h.notDown hd)
    have hinp := h.inp
    unfold notYet at hinp
    rw [if_neg (by rw [hd]; simp)] at hinp
    refine ⟨pre, pend, ?_, h.seq, h.fwd, h.states, h.alt, h.fwdUp, fun _ h' => absurd h' hp, fun _ _ => rfl, by simp, ?_⟩
    · rw [if_pos rfl, lastState_concat]; simp
    · rw [if_pos rfl, hinp]
      unfold notYet
      rw [if_pos ⟨rfl, hf⟩, ht, List.append_assoc]; rfl

/-- there are only events with these states -/
theorem KInv.states (h : KInv k inp out q d) : ∀ e ∈ q, e.state = .DownMatched ∨ e.state = .Down ∨ e = ⟨k, .Up, 0⟩ := by
  obtain ⟨pre, pend, h⟩ := h
  intro e he
  rw [h.seq] at he
  rcases List.mem_append.1 he with he | he
  · rcases h.fwd with hf | ⟨e', hf, hs⟩
    · rw [hf] at he; cases he
    · rw [hf, List.mem_singleton] at he; subst he; exact Or.inl hs
  · exact Or.inr (h.states e he)

/-- a press which was forwarded is not followed by another press -/
theorem KInv.fwd_first {e e' : KeyEvent} {t : KeySequence} (h : KInv k inp out (e :: e' :: t) d) (he : e.state = .DownMatched) :
    e' = ⟨k, .Up, 0⟩ := by
  obtain ⟨pre, pend, h⟩ := h
  have hs := h.seq
  rcases h.fwd with hf | ⟨x, hf, _⟩
  · subst hf
    simp only [List.nil_append] at hs
    rcases h.states e (by rw [← hs]; simp) with h' | h'
    · rw [he] at h'; cases h'
    · rw [h'] at he; cases he
  · subst hf
    simp only [List.cons_append, List.nil_append, List.cons.injEq] at hs
    obtain ⟨_, rfl⟩ := hs
    obtain ⟨_, t', ht'⟩ := firstState_cases h.states (by simp) (h.fwdUp (by simp))
    simp only [List.cons.injEq] at ht'
    exact ht'.1

/-- what was output is what was input first -/
theorem KInv.prefix (h : KInv k inp out q d) : out <+: inp := by
  obtain ⟨pre, pend, h⟩ := h
  rw [h.inp]
  exact List.prefix_append _ _

/-- nothing is held back -/
theorem KInv.done (h : KInv k inp out q d) (hq : ∀ e ∈ q, e.state = .DownMatched) : inp = out := by
  obtain ⟨pre, pend, h⟩ := h
  apply h.notYet_nil
  cases pend with
  | nil => rfl
  | cons a l =>
    have h1 := hq a (by rw [h.seq]; simp)
    rcases h.states a (by simp) with h' | h'
    · rw [h1] at h'; cases h'
    · rw [h'] at h1; cases h1

theorem KInv.init (k : Key) : KInv k [] [] [] false :=
  ⟨[], [], by simp [lastKeyState], rfl, Or.inl rfl, by simp, trivial, by simp, by simp, by simp, by simp, by simp [notYet]⟩

end KM
