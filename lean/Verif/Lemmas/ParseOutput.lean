import Verif.Lemmas.ParseSeq
import Verif.Spec.Expression
import Verif.Spec.StageRun
/-!
# Invariants of the parser of output expressions
-/
namespace KM

/-! ## Balance -/

theorem presses_append (k : Key) (a b : KeySequence) : pressCount k (a ++ b) = pressCount k a + pressCount k b :=
  List.countP_append

theorem releases_append (k : Key) (a b : KeySequence) :
    releaseCount k (a ++ b) = releaseCount k a + releaseCount k b := List.countP_append

theorem presses_one (k : Key) (e : KeyEvent) :
    pressCount k [e] = if e.state = .Down ∧ e.key = k then 1 else 0 := by
  simp [pressCount, List.countP_cons]

theorem releases_one (k : Key) (e : KeyEvent) :
    releaseCount k [e] = if e.state = .Up ∧ e.key = k then 1 else 0 := by
  simp [releaseCount, List.countP_cons]

theorem Balanced.nil : Balanced [] := by
  intro a ha k
  rw [List.prefix_nil.1 ha]
  simp [releaseCount, pressCount]

theorem Balanced.prefix {a l : KeySequence} (h : Balanced l) (ha : a <+: l) : Balanced a :=
  fun b hb k => h b (hb.trans ha) k

theorem Balanced.concat {l : KeySequence} {e : KeyEvent} (h : Balanced l)
    (he : e.state = .Up → releaseCount e.key l < pressCount e.key l) : Balanced (l ++ [e]) := by
  intro a ha k
  rcases List.prefix_concat_iff.1 ha with rfl | ha
  · have := h l (List.prefix_refl l) k
    rw [releases_append, presses_append, releases_one, presses_one]
    split
    · next hc =>
      have := he hc.1
      rw [hc.2] at this
      omega
    · omega
  · exact h a ha k

/-- The sequence is balanced, and the keys `held` (with multiplicity) can still be released. -/
def BalInv (held : List Key) (l : KeySequence) : Prop :=
  Balanced l ∧ ∀ k, held.count k + releaseCount k l ≤ pressCount k l

theorem BalInv.weaken {h h' : List Key} {l : KeySequence} (hi : BalInv h l)
    (hc : ∀ k, h'.count k ≤ h.count k) : BalInv h' l :=
  ⟨hi.1, fun k => Nat.le_trans (Nat.add_le_add_right (hc k) _) (hi.2 k)⟩

theorem BalInv.down {h : List Key} {l : KeySequence} (hi : BalInv h l) (k : Key) (v : Nat) :
    BalInv (h ++ [k]) (l ++ [⟨k, .Down, v⟩]) := by
  refine ⟨hi.1.concat (by simp), fun j => ?_⟩
  have := hi.2 j
  rw [List.count_append, releases_append, presses_append, releases_one, presses_one, List.count_singleton]
  by_cases hj : k = j <;> simp [hj] <;> omega

theorem BalInv.up {h : List Key} {l : KeySequence} (k : Key) (hi : BalInv (h ++ [k]) l) (v : Nat) :
    BalInv h (l ++ [⟨k, .Up, v⟩]) := by
  have hk := hi.2 k
  rw [List.count_append, List.count_singleton] at hk
  simp at hk
  refine ⟨hi.1.concat (fun _ => ?_), fun j => ?_⟩
  · show releaseCount k l < pressCount k l; omega
  · have := hi.2 j
    rw [List.count_append, List.count_singleton] at this
    rw [releases_append, presses_append, releases_one, presses_one]
    by_cases hj : k = j <;> simp [hj] at * <;> omega

theorem BalInv.other {h : List Key} {l : KeySequence} (hi : BalInv h l) (e : KeyEvent)
    (he : e.state ≠ .Up) : BalInv h (l ++ [e]) := by
  refine ⟨hi.1.concat (fun h => absurd h he), fun j => ?_⟩
  have := hi.2 j
  rw [releases_append, presses_append, releases_one, presses_one]
  simp only [he, false_and, if_false]
  omega

theorem BalInv.downs {h : List Key} {l : KeySequence} (hi : BalInv h l) (b : List Key) :
    BalInv (h ++ b) (l ++ b.map (fun k => ⟨k, .Down, 0⟩)) := by
  induction b generalizing h l with
  | nil => simpa using hi
  | cons k b ih => simpa using ih (hi.down k 0)

theorem BalInv.ups {h : List Key} {l : KeySequence} (b : List Key) (hi : BalInv (h ++ b) l) :
    BalInv h (l ++ b.map (fun k => ⟨k, .Up, 0⟩)) := by
  induction b generalizing h l with
  | nil => simpa using hi
  | cons k b ih =>
    have : BalInv (h ++ b) (l ++ [⟨k, .Up, 0⟩]) := by
      refine BalInv.up k (hi.weaken (fun j => ?_)) 0
      simp only [List.count_append, List.count_cons, List.count_nil]; omega
    simpa using ih this

/-- the keys of the set modifiers -/
def Mods.held (m : Mods) : List Key := (m.list.filter (·.1)).map (·.2)

theorem BalInv.pressOutput {h : List Key} {l : KeySequence} (p n : Bool) (k : Key)
    (hi : BalInv (h ++ if p then [k] else []) l) :
    BalInv (h ++ if n then [k] else []) (l ++ pressOutput p n k) := by
  cases p <;> cases n
  · simpa [KM.pressOutput] using hi
  · simpa [KM.pressOutput] using BalInv.down (by simpa using hi) k 0
  · simpa [KM.pressOutput] using BalInv.up k (by simpa using hi) 0
  · simpa [KM.pressOutput] using hi

theorem Mods.count_held (m : Mods) (k : Key) : m.held.count k =
    (if m.shift then [Key.Shift] else []).count k + (if m.alt then [Key.AltLeft] else []).count k +
    (if m.altGr then [Key.AltRight] else []).count k +
    (if m.control then [Key.Control] else []).count k := by
  unfold Mods.held Mods.list
  simp only [List.filter_cons, List.filter_nil]
  cases m.shift <;> cases m.alt <;> cases m.altGr <;> cases m.control <;>
    simp [List.count_cons] <;> omega

theorem BalInv.mods {h : List Key} {l : KeySequence} (p n : Mods) (hi : BalInv (h ++ p.held) l) :
    BalInv (h ++ n.held) (l ++ (List.zip p.list n.list).flatMap
      (fun (p, n) => KM.pressOutput p.1 n.1 p.2)) := by
  simp only [Mods.list, List.zip_cons_cons, List.zip_nil_right, List.flatMap_cons, List.flatMap_nil,
    List.append_nil, ← List.append_assoc]
  have h1 : BalInv (h ++ (if p.alt then [Key.AltLeft] else []) ++ (if p.altGr then [Key.AltRight] else []) ++
      (if p.control then [Key.Control] else []) ++ (if p.shift then [Key.Shift] else [])) l := by
    refine hi.weaken (fun k => ?_)
    simp only [List.count_append, Mods.count_held]; omega
  have h2 := h1.pressOutput p.shift n.shift Key.Shift
  have h3 : BalInv (h ++ (if p.altGr then [Key.AltRight] else []) ++
      (if p.control then [Key.Control] else []) ++ (if n.shift then [Key.Shift] else []) ++
      (if p.alt then [Key.AltLeft] else [])) (l ++ KM.pressOutput p.shift n.shift Key.Shift) := by
    refine h2.weaken (fun k => ?_)
    simp only [List.count_append]; omega
  have h4 := h3.pressOutput p.alt n.alt Key.AltLeft
  have h5 : BalInv (h ++ (if p.control then [Key.Control] else []) ++ (if n.shift then [Key.Shift] else []) ++
      (if n.alt then [Key.AltLeft] else []) ++ (if p.altGr then [Key.AltRight] else []))
      (l ++ KM.pressOutput p.shift n.shift Key.Shift ++ KM.pressOutput p.alt n.alt Key.AltLeft) := by
    refine h4.weaken (fun k => ?_)
    simp only [List.count_append]; omega
  have h6 := h5.pressOutput p.altGr n.altGr Key.AltRight
  have h7 : BalInv (h ++ (if n.shift then [Key.Shift] else []) ++
      (if n.alt then [Key.AltLeft] else []) ++ (if n.altGr then [Key.AltRight] else []) ++
      (if p.control then [Key.Control] else []))
      (l ++ KM.pressOutput p.shift n.shift Key.Shift ++ KM.pressOutput p.alt n.alt Key.AltLeft ++
        KM.pressOutput p.altGr n.altGr Key.AltRight) := by
    refine h6.weaken (fun k => ?_)
    simp only [List.count_append]; omega
  have h8 := h7.pressOutput p.control n.control Key.Control
  refine h8.weaken (fun k => ?_)
  simp only [List.count_append, Mods.count_held]; omega

theorem BalInv.typeGo {h : List Key} {l : KeySequence} (ts : List TypedKey) (prev : Mods)
    (hi : BalInv (h ++ prev.held) l) :
    BalInv (h ++ (typeOutputGo prev ts).2.1.held) (l ++ (typeOutputGo prev ts).1) := by
  induction ts generalizing l prev with
  | nil => simpa [typeOutputGo] using hi
  | cons t ts ih =>
    have h1 := hi.mods prev t.mods
    have h2 := ((h1.down t.key t.value).up t.key t.value)
    have := ih t.mods h2
    simpa [typeOutputGo] using this

theorem BalInv.typed {h : List Key} {l : KeySequence} {typer : Typer} {s : Str} {g : Bool}
    {seq : KeySequence} {has : Bool} (ht : typeOutput typer s g = some (seq, has)) (hi : BalInv h l) :
    BalInv h (l ++ seq) := by
  unfold typeOutput at ht
  split at ht
  · cases ht
  · next keys hk =>
    have h1 : BalInv h (l ++ if g then [] else [⟨Key.any, .Not, 0⟩]) := by
      cases g
      · exact hi.other _ (by simp)
      · simpa using hi
    have h2 := BalInv.typeGo (l := l ++ if g then [] else [⟨Key.any, .Not, 0⟩]) keys {}
      (by simpa [Mods.held, Mods.list] using h1)
    have h3 := BalInv.ups _ h2
    injection ht with ht
    injection ht with ht1 ht2
    subst ht1
    simpa [Mods.held, List.map_map, Function.comp_def] using h3

/-- The invariant of the state of the parser -/
def BalState (p : PState) : Prop := BalInv p.pressed p.seq

theorem BalState.flushUp {p : PState} (h : BalState p) : BalState (p.flush false true) := by
  have := BalInv.ups _ (BalInv.downs h p.buffer)
  refine (this.weaken (h' := (p.flush false true).pressed) (fun k => ?_))
  simp only [PState.flush, if_true, Bool.false_eq_true, if_false]
  exact List.Sublist.count_le k List.filter_sublist

theorem BalState.flushDown {p : PState} (h : BalState p) : BalState (p.flush false false) :=
  BalInv.downs h p.buffer

theorem BalState.release {p : PState} (h : BalState p) (n : Nat) : BalState (p.release false n) := by
  unfold BalState PState.release
  simp only [Bool.false_eq_true, if_false]
  refine BalInv.ups _ (h.weaken (fun k => ?_))
  rw [List.count_append, List.count_reverse, ← List.count_append, List.take_append_drop]
  exact Nat.le_refl _

theorem BalState.step {env : PEnv} {p q : PState} (hs : OutStep env p q) (h : BalState p) :
    BalState q := by
  cases hs with
  | flush => exact h.flushUp
  | key k hk => exact h
  | together b => exact h
  | delay v => exact h.flushUp.other _ (by simp)
  | addDelay l e v hl hk hs =>
    have h := h.flushUp
    unfold BalState at *
    rw [hl] at h
    refine ⟨(h.1.prefix (List.prefix_append l [e])).concat (by simp [hs]), fun k => ?_⟩
    have := h.2 k
    simp only [releases_append, presses_append, releases_one, presses_one, hs, hk] at *
    simp at *
    exact this
  | not k hk =>
    refine (BalInv.weaken h.flushDown (fun k => ?_)).other _ (by simp)
    exact List.Sublist.count_le k List.filter_sublist
  | string s seq has ht => exact h.flushUp.typed ht
  | command c hg hc => exact h.flushUp.other _ (by simp)
  | marker hr hg => exact h.flushUp.other _ (by simp)
  | groupBegin hn =>
    have : BalState { p with before := p.pressed.length :: p.before } := h
    exact this.flushDown
  | groupEnd hg => exact h.flushUp.release _

theorem allPressed_prefix (l : KeySequence) (st : KeyState) : removeAllFromEnd l st <+: l := by
  unfold removeAllFromEnd
  have := List.dropWhile_suffix (fun e : KeyEvent => e.state == st) (l := l.reverse)
  have := List.reverse_prefix.2 this
  simpa using this

/-- The result of parsing an output expression, in terms of the final state of the loop -/
theorem parseOutput_final {env : PEnv} (hi : env.isInput = false) {str : Str} {l : KeySequence}
    {acts : List Str} (h : parseSequence env str = some (l, acts)) :
    ∃ p, OutSteps env {} p ∧ p.together = false ∧ p.group = 0 ∧ acts = p.actions ∧
      (∀ e ∈ (p.release false 0).seq, e ∈ l → e.key ≠ Key.ContextActive) ∧
      ((l = (p.release false 0).seq) ∨
       (p.hasMod = false ∧ allPressedAtOnce (p.release false 0).seq = true ∧
        l = removeAllFromEnd (p.release false 0).seq .Up)) := by
  unfold parseSequence at h
  split at h
  · cases h
  · next p hp =>
    refine ⟨p, parseLoop_out hi hp, ?_⟩
    unfold parseFinish at h
    rw [hi] at h
    simp only [Bool.false_eq_true, if_false, Bool.false_and] at h
    split at h
    · cases h
    · next ht =>
      split at h
      · cases h
      · next hg =>
        have ht : p.together = false := by simpa using ht
        have hg : p.group = 0 := by simpa using hg
        refine ⟨ht, hg, ?_⟩
        generalize hp2 : (if (!(p.release false 0).hasMod && allPressedAtOnce (p.release false 0).seq) = true then
          { p.release false 0 with seq := removeAllFromEnd (p.release false 0).seq .Up }
          else p.release false 0) = p2 at h
        split at h
        · cases h
        · unfold checkContextActive at h
          simp only [Bool.not_false, if_true] at h
          split at h
          · cases h
          · next hc =>
            simp only [Option.map_some, Option.some.injEq, Prod.mk.injEq] at h
            obtain ⟨h1, h2⟩ := h
            have hc' : ∀ e ∈ l, e.key ≠ Key.ContextActive := by
              subst h1
              simpa using hc
            subst h1; subst h2; subst hp2
            refine ⟨?_, fun e _ he => hc' e he, ?_⟩
            · split <;> rfl
            · split
              · next hm =>
                right
                simp only [Bool.and_eq_true, Bool.not_eq_true'] at hm
                exact ⟨hm.1, hm.2, rfl⟩
              · left; rfl

theorem OutSteps.balanced {env : PEnv} {p : PState} (h : OutSteps env {} p) : BalState p :=
  h.inv (fun _ _ hs hp => hp.step hs) ⟨Balanced.nil, by intro k; simp [releaseCount, pressCount]⟩

/-! ## Alphabet -/

/-- The invariant of the state of the parser: only what the runtime can output, and one marker -/
def AlphaState (p : PState) : Prop :=
  (∀ e ∈ p.seq, OutputEvent e) ∧
  p.seq.countP (fun e => e.state == .OutputOnRelease) = (if p.onRelease then 1 else 0)

/-- Extending the sequence by events other than the marker -/
theorem AlphaState.extend {p q : PState} (h : AlphaState p) {m : KeySequence}
    (hm : ∀ e ∈ m, e.state = .Down ∨ e.state = .Up ∨ e.state = .Not) (hs : q.seq = p.seq ++ m)
    (hr : q.onRelease = p.onRelease) : AlphaState q := by
  refine ⟨?_, ?_⟩
  · rw [hs]
    intro e he
    rcases List.mem_append.1 he with he | he
    · exact h.1 e he
    · rcases hm e he with h | h | h
      · exact .inl h
      · exact .inr (.inl h)
      · exact .inr (.inr (.inl h))
  · rw [hs, hr, List.countP_append, h.2]
    have : m.countP (fun e => e.state == .OutputOnRelease) = 0 := by
      rw [List.countP_eq_zero]
      intro e he
      rcases hm e he with h | h | h <;> rw [h] <;> decide
    omega

theorem AlphaState.flush {p : PState} (h : AlphaState p) (b : Bool) : AlphaState (p.flush false b) := by
  cases b
  · refine h.extend (m := p.buffer.map (fun k => (⟨k, .Down, 0⟩ : KeyEvent))) ?_ rfl rfl
    simp
  · refine h.extend (m := p.buffer.map (fun k => (⟨k, .Down, 0⟩ : KeyEvent)) ++
      p.buffer.map (fun k => ⟨k, .Up, 0⟩)) ?_ ?_ rfl
    · simp only [List.mem_append, List.mem_map]
      rintro e (⟨k, -, rfl⟩ | ⟨k, -, rfl⟩) <;> simp
    · simp [PState.flush]

theorem typeOutputGo_events (ts : List TypedKey) (prev : Mods) (e : KeyEvent)
    (he : e ∈ (typeOutputGo prev ts).1) : e.state = .Down ∨ e.state = .Up := by
  induction ts generalizing prev with
  | nil => simp [typeOutputGo] at he
  | cons t ts ih =>
    simp only [typeOutputGo, List.mem_append, List.mem_flatMap] at he
    rcases he with (⟨x, -, hx⟩ | he) | he
    · unfold pressOutput at hx
      split at hx
      · rw [List.mem_singleton.1 hx]
        dsimp only
        split <;> simp
      · cases hx
    · simp at he
      rcases he with rfl | rfl <;> simp
    · exact ih _ he

theorem typeOutput_events {typer : Typer} {s : Str} {g : Bool} {seq : KeySequence} {has : Bool}
    (ht : typeOutput typer s g = some (seq, has)) (e : KeyEvent) (he : e ∈ seq) :
    e.state = .Down ∨ e.state = .Up ∨ e.state = .Not := by
  unfold typeOutput at ht
  split at ht
  · cases ht
  · next keys hk =>
    injection ht with ht
    injection ht with ht1 ht2
    subst ht1
    simp only [List.mem_append] at he
    rcases he with (he | he) | he
    · cases g
      · simp at he; subst he; simp
      · simp at he
    · rcases typeOutputGo_events _ _ _ he with h | h <;> simp [h]
    · obtain ⟨m, -, rfl⟩ := List.mem_map.1 he
      simp

theorem AlphaState.step {env : PEnv} {p q : PState} (hs : OutStep env p q) (h : AlphaState p) :
    AlphaState q := by
  cases hs with
  | flush => exact h.flush _
  | key k hk => exact h
  | together b => exact h
  | delay v => exact (h.flush true).extend (m := [_]) (by simp) rfl rfl
  | addDelay l e v hl hk hs =>
    have h := h.flush true
    refine ⟨?_, ?_⟩
    · intro x hx
      rcases List.mem_append.1 hx with hx | hx
      · exact h.1 x (by rw [hl]; exact List.mem_append_left _ hx)
      · rw [List.mem_singleton.1 hx]; exact .inl hs
    · have h2 := h.2
      rw [hl] at h2
      rw [List.countP_append, List.countP_singleton] at *
      simpa [hs] using h2
  | not k hk => exact (h.flush false).extend (m := [_]) (by simp) rfl rfl
  | string s seq has ht => exact (h.flush true).extend (typeOutput_events ht) rfl rfl
  | command c hg hc => exact (h.flush true).extend (m := [_]) (by simp) rfl rfl
  | marker hr hg =>
    have h := h.flush true
    refine ⟨?_, ?_⟩
    · intro x hx
      rcases List.mem_append.1 hx with hx | hx
      · exact h.1 x hx
      · rw [List.mem_singleton.1 hx]; exact .inr (.inr (.inr rfl))
    · have h2 := h.2
      rw [flush_onRelease, hr] at h2
      show List.countP _ ((p.flush false true).seq ++ [_]) = 1
      rw [List.countP_append, h2]
      decide
  | groupBegin hn =>
    have : AlphaState { p with before := p.pressed.length :: p.before } := h
    exact this.flush false
  | groupEnd hg =>
    refine (h.flush true).extend (q := { (p.flush false true).release false (p.before.headD 0) with
        before := p.before.tail, group := p.group - 1 })
      (m := ((p.flush false true).pressed.drop (p.before.headD 0)).reverse.map
        (fun k => ⟨k, .Up, 0⟩)) ?_ ?_ rfl
    · intro e he
      obtain ⟨k, -, rfl⟩ := List.mem_map.1 he
      simp
    · simp [PState.release]

theorem OutSteps.alpha {env : PEnv} {p : PState} (h : OutSteps env {} p) :
    AlphaState (p.release false 0) := by
  have : AlphaState p := h.inv (fun _ _ hs hp => hp.step hs) ⟨by simp, rfl⟩
  refine this.extend (m := p.pressed.reverse.map (fun k => ⟨k, .Up, 0⟩)) (by simp) ?_ rfl
  simp [PState.release]

/-! ## Releases -/

theorem ReleasedIn.left {a b : KeySequence} {k : Key} (h : ReleasedIn a k) : ReleasedIn (a ++ b) k := by
  obtain ⟨e, he, h⟩ := h
  exact ⟨e, List.mem_append_left _ he, h⟩

theorem ReleasedIn.right {a b : KeySequence} {k : Key} (h : ReleasedIn b k) : ReleasedIn (a ++ b) k := by
  obtain ⟨e, he, h⟩ := h
  exact ⟨e, List.mem_append_right _ he, h⟩

theorem Released.append {ex : Key → Prop} {h h' : List Key} {a b : KeySequence}
    (ha : Released ex h a) (hb : Released ex h' b)
    (hh : ∀ k ∈ h, ¬ex k → k ∈ h' ∨ ReleasedIn b k) : Released ex h' (a ++ b) := by
  intro x e y hs hd hk
  rcases List.append_eq_append_iff.1 hs with ⟨z, h1, h2⟩ | ⟨z, h1, h2⟩
  · exact hb z e y h2 hd hk
  · cases z with
    | nil => exact hb [] e y h2.symm hd hk
    | cons f z =>
      simp only [List.cons_append, List.cons.injEq] at h2
      obtain ⟨rfl, rfl⟩ := h2
      rcases ha x e z h1 hd hk with h | h
      · rcases hh _ h hk with h | h
        · exact .inl h
        · exact .inr h.right
      · exact .inr h.left

theorem Released.noDown {ex : Key → Prop} {h : List Key} {l : KeySequence}
    (hl : ∀ e ∈ l, e.state = .Down → ex e.key ∨ e.key ∈ h) : Released ex h l := by
  intro a e b hs hd hk
  rcases hl e (by rw [hs]; simp) hd with h | h
  · exact absurd h hk
  · exact .inl h

theorem Released.extend {ex : Key → Prop} {h h' : List Key} {a b : KeySequence}
    (ha : Released ex h a) (hb : ∀ e ∈ b, e.state = .Down → ex e.key ∨ e.key ∈ h')
    (hh : ∀ k ∈ h, ¬ex k → k ∈ h' ∨ ReleasedIn b k) : Released ex h' (a ++ b) :=
  ha.append (Released.noDown hb) hh

theorem Released.typeGo {ex : Key → Prop} {h : List Key} {l : KeySequence} (ts : List TypedKey)
    (prev : Mods) (hi : Released ex (h ++ prev.held) l) :
    Released ex (h ++ (typeOutputGo prev ts).2.1.held) (l ++ (typeOutputGo prev ts).1) := by
  induction ts generalizing l prev with
  | nil => simpa [typeOutputGo] using hi
  | cons t ts ih =>
    have h1 : Released ex (h ++ t.mods.held) (l ++ (List.zip prev.list t.mods.list).flatMap
        (fun (p, n) => KM.pressOutput p.1 n.1 p.2)) := by
      refine hi.extend ?_ ?_
      · intro e he hd
        right
        simp only [Mods.list, List.zip_cons_cons, List.zip_nil_right, List.flatMap_cons, List.flatMap_nil,
          List.append_nil, List.mem_append, pressOutput] at he
        simp only [List.mem_append, Mods.held, Mods.list, List.mem_map, List.mem_filter]
        rcases he with he | he | he | he
        all_goals
          split at he
          · rw [List.mem_singleton.1 he] at hd ⊢
            simp at hd
            simp [hd]
          · cases he
      · intro k hk hx
        rcases List.mem_append.1 hk with hk | hk
        · exact .inl (List.mem_append_left _ hk)
        · simp only [Mods.held, Mods.list, List.mem_map, List.mem_filter] at hk
          simp only [List.mem_append, Mods.held, Mods.list, List.mem_map, List.mem_filter, ReleasedIn,
            List.zip_cons_cons, List.zip_nil_right, List.flatMap_cons, List.flatMap_nil,
            List.append_nil, pressOutput]
          obtain ⟨⟨b, j⟩, ⟨hm, hb⟩, rfl⟩ := hk
          simp only [List.mem_cons, Prod.mk.injEq, List.not_mem_nil, or_false] at hm
          simp only at hb
          rcases hm with ⟨h1, rfl⟩ | ⟨h1, rfl⟩ | ⟨h1, rfl⟩ | ⟨h1, rfl⟩
          · cases hn : t.mods.shift
            · right; refine ⟨⟨Key.Shift, .Up, 0⟩, ?_, rfl, .inl rfl⟩; simp [← h1, hb]
            · left; right; exact ⟨(true, Key.Shift), by simp, rfl⟩
          · cases hn : t.mods.alt
            · right; refine ⟨⟨Key.AltLeft, .Up, 0⟩, ?_, rfl, .inl rfl⟩; simp [← h1, hb]
            · left; right; exact ⟨(true, Key.AltLeft), by simp, rfl⟩
          · cases hn : t.mods.altGr
            · right; refine ⟨⟨Key.AltRight, .Up, 0⟩, ?_, rfl, .inl rfl⟩; simp [← h1, hb]
            · left; right; exact ⟨(true, Key.AltRight), by simp, rfl⟩
          · cases hn : t.mods.control
            · right; refine ⟨⟨Key.Control, .Up, 0⟩, ?_, rfl, .inl rfl⟩; simp [← h1, hb]
            · left; right; exact ⟨(true, Key.Control), by simp, rfl⟩
    have h2 : Released ex ((h ++ t.mods.held) ++ [t.key]) _ :=
      h1.extend (b := [⟨t.key, .Down, t.value⟩]) (by simp)
        (fun k hk _ => .inl (List.mem_append_left _ hk))
    have h3 : Released ex (h ++ t.mods.held) _ :=
      h2.extend (b := [⟨t.key, .Up, t.value⟩]) (by simp) (fun k hk _ => by
        rcases List.mem_append.1 hk with hk | hk
        · exact .inl hk
        · rw [List.mem_singleton.1 hk]
          exact .inr ⟨_, List.mem_singleton_self _, rfl, .inl rfl⟩)
    have := ih t.mods h3
    simpa [typeOutputGo] using this

theorem Released.typed {ex : Key → Prop} {h : List Key} {l : KeySequence} {typer : Typer} {s : Str}
    {g : Bool} {seq : KeySequence} {has : Bool} (ht : typeOutput typer s g = some (seq, has))
    (hi : Released ex h l) : Released ex h (l ++ seq) := by
  unfold typeOutput at ht
  split at ht
  · cases ht
  · next keys hk =>
    have h1 : Released ex h (l ++ if g then [] else [⟨Key.any, .Not, 0⟩]) := by
      cases g
      · exact hi.extend (by simp) (fun k hk _ => .inl hk)
      · simpa using hi
    have h2 := Released.typeGo (l := l ++ if g then [] else [⟨Key.any, .Not, 0⟩]) keys {}
      (by simpa [Mods.held, Mods.list] using h1)
    have h3 : Released ex h (_ ++ (typeOutputGo {} keys).2.1.held.map (fun k => (⟨k, .Up, 0⟩ : KeyEvent))) :=
      h2.extend (by simp) (fun k hk _ => by
        rcases List.mem_append.1 hk with hk | hk
        · exact .inl hk
        · exact .inr ⟨⟨k, .Up, 0⟩, List.mem_map_of_mem hk, rfl, .inl rfl⟩)
    injection ht with ht
    injection ht with ht1 ht2
    subst ht1
    simpa [Mods.held, List.map_map, Function.comp_def] using h3

theorem DelayOrCommand.mono {b n m : Nat} (h : n ≤ m) {k : Key} (hk : DelayOrCommand b n k) :
    DelayOrCommand b m k := by
  rcases hk with hk | ⟨i, hi, hk⟩
  · exact .inl hk
  · exact .inr ⟨i, by omega, hk⟩

theorem Released.mono {ex ex' : Key → Prop} {h : List Key} {l : KeySequence} (hi : Released ex h l)
    (hx : ∀ k, ex k → ex' k) : Released ex' h l :=
  fun a e b hs hd hk => hi a e b hs hd (fun h => hk (hx _ h))

/-- The invariant of the state of the parser: what is pressed is released or marked as pressed. -/
def RelState (base : Nat) (p : PState) : Prop :=
  Released (DelayOrCommand base p.actions.length) p.pressed p.seq

theorem RelState.flushUp {base : Nat} {p : PState} (h : RelState base p) :
    RelState base (p.flush false true) := by
  unfold RelState at *
  rw [flush_actions]
  have h1 : Released _ (p.pressed ++ p.buffer) (p.seq ++ p.buffer.map (fun k => (⟨k, .Down, 0⟩ : KeyEvent))) :=
    h.extend (by
      intro e he _
      obtain ⟨k, hk, rfl⟩ := List.mem_map.1 he
      exact .inr (List.mem_append_right _ hk)) (fun k hk _ => .inl (List.mem_append_left _ hk))
  exact h1.extend (by simp) (fun k hk _ => by
    by_cases hb : k ∈ p.buffer
    · exact .inr ⟨⟨k, .Up, 0⟩, List.mem_map_of_mem hb, rfl, .inl rfl⟩
    · left
      simp only [List.mem_append, hb, or_false] at hk
      simp [PState.flush, hk, hb])

theorem RelState.flushDown {base : Nat} {p : PState} (h : RelState base p) :
    RelState base (p.flush false false) := by
  unfold RelState at *
  rw [flush_actions]
  exact h.extend (by
      intro e he _
      obtain ⟨k, hk, rfl⟩ := List.mem_map.1 he
      exact .inr (List.mem_append_right _ hk)) (fun k hk _ => .inl (List.mem_append_left _ hk))

theorem RelState.release {base : Nat} {p : PState} (h : RelState base p) (n : Nat) :
    RelState base (p.release false n) := by
  unfold RelState PState.release at *
  simp only [Bool.false_eq_true, if_false]
  refine h.extend (by
    intro e he
    obtain ⟨k, -, rfl⟩ := List.mem_map.1 he
    simp) (fun k hk _ => ?_)
  rw [← List.take_append_drop n p.pressed] at hk
  rcases List.mem_append.1 hk with hk | hk
  · exact .inl hk
  · exact .inr ⟨⟨k, .Up, 0⟩, List.mem_map_of_mem (List.mem_reverse.2 hk), rfl, .inl rfl⟩

theorem RelState.step {env : PEnv} {p q : PState} (hs : OutStep env p q)
    (h : RelState env.actionBase p) : RelState env.actionBase q := by
  cases hs with
  | flush => exact h.flushUp
  | key k hk => exact h
  | together b => exact h
  | delay v => exact h.flushUp.extend (by simp [DelayOrCommand]) (fun k hk _ => .inl hk)
  | addDelay l e v hl hk hs =>
    have h := h.flushUp
    unfold RelState at *
    rw [hl] at h
    intro a x b hsx hd hx
    dsimp only at hsx
    rcases List.eq_nil_or_concat b with rfl | ⟨b', y, rfl⟩
    · have := List.append_inj' hsx rfl
      simp only [List.cons.injEq, and_true] at this
      exact absurd (.inl (by rw [← this.2]; exact hk)) hx
    · have h1 : l ++ [{ e with value := sumTimeouts e.value v }] = (a ++ x :: b') ++ [y] := by
        rw [hsx]; simp
      have h2 := List.append_inj' h1 rfl
      simp only [List.cons.injEq, and_true] at h2
      obtain ⟨rfl, rfl⟩ := h2
      rcases h a x (b' ++ [e]) (by simp) hd hx with h | ⟨f, hf, h3, h4⟩
      · exact .inl h
      · refine .inr ⟨f, ?_, h3, h4⟩
        rcases List.mem_append.1 hf with hf | hf
        · simp [hf]
        · rw [List.mem_singleton.1 hf] at h4
          rw [hs] at h4
          simp at h4
  | not k hk =>
    unfold RelState
    refine h.flushDown.extend (a := (p.flush false false).seq) (by simp) (fun j hj _ => ?_)
    by_cases hjk : j = env.getKey k
    · exact .inr ⟨_, List.mem_singleton_self _, hjk.symm, .inr rfl⟩
    · left
      simp [PState.add, PState.removePressed, hj, hjk]
  | string s seq has ht => exact h.flushUp.typed ht
  | command c hg hc =>
    have h := h.flushUp
    unfold RelState at *
    rw [flush_actions] at h
    simp only [List.length_append, List.length_cons, List.length_nil]
    refine (h.mono (fun k => DelayOrCommand.mono (Nat.le_add_right _ 1))).extend ?_ (fun k hk _ => .inl hk)
    intro e he _
    rw [List.mem_singleton.1 he]
    exact .inl (.inr ⟨p.actions.length, by omega, rfl⟩)
  | marker hr hg => exact h.flushUp.extend (by simp) (fun k hk _ => .inl hk)
  | groupBegin hn =>
    have : RelState env.actionBase { p with before := p.pressed.length :: p.before } := h
    exact this.flushDown
  | groupEnd hg => exact h.flushUp.release _

theorem OutSteps.released {env : PEnv} {p : PState} (h : OutSteps env {} p) :
    Released (DelayOrCommand env.actionBase p.actions.length) [] (p.release false 0).seq := by
  have : RelState env.actionBase p := h.inv (fun _ _ hs hp => hp.step hs) (by
    intro a e b hs; exact absurd hs (by simp))
  exact this.release 0

theorem dropWhile_nil {α : Type} (f : α → Bool) (l : List α) (h : l.dropWhile f = []) :
    ∀ x ∈ l, f x = true := by
  induction l with
  | nil => simp
  | cons a l ih =>
    rw [List.dropWhile_cons] at h
    split at h
    · next ha =>
      intro x hx
      rcases List.mem_cons.1 hx with rfl | hx
      · exact ha
      · exact ih h x hx
    · cases h

theorem mem_takeWhile_imp {α : Type} (f : α → Bool) (l : List α) (x : α) (h : x ∈ l.takeWhile f) :
    f x = true := by
  induction l with
  | nil => simp at h
  | cons a l ih =>
    rw [List.takeWhile_cons] at h
    split at h
    · next ha =>
      rcases List.mem_cons.1 h with rfl | hx
      · exact ha
      · exact ih hx
    · cases h

theorem chord_of_allPressed {l : KeySequence} (h : allPressedAtOnce l = true) : Chord l := by
  unfold allPressedAtOnce at h
  rw [List.isEmpty_iff] at h
  replace h := dropWhile_nil _ _ h
  intro a e b hs he d hd hdd
  subst hs
  have h1 : d ∈ (a ++ e :: b).dropWhile (fun e => e.state != .Up) := by
    clear h
    induction a with
    | nil =>
      rw [List.nil_append, List.dropWhile_cons_of_neg (by simp [he])]
      exact List.mem_cons_of_mem _ hd
    | cons x a ih =>
      rw [List.cons_append]
      by_cases hx : x.state = .Up
      · rw [List.dropWhile_cons_of_neg (by simp [hx])]
        simp [hd]
      · rw [List.dropWhile_cons_of_pos (by simp [hx])]
        exact ih
  have := h d h1
  rw [hdd] at this
  simp at this

theorem removeAllFromEnd_append (l : KeySequence) (st : KeyState) :
    ∃ r, (∀ e ∈ r, e.state = st) ∧ removeAllFromEnd l st ++ r = l := by
  refine ⟨(l.reverse.takeWhile (fun e => e.state == st)).reverse, ?_, ?_⟩
  · intro e he
    have := mem_takeWhile_imp _ _ _ (List.mem_reverse.1 he)
    simpa using this
  · unfold removeAllFromEnd
    rw [← List.reverse_append, List.takeWhile_append_dropWhile, List.reverse_reverse]

end KM
