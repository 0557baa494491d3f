import Verif.Lemmas.ParseOutput
/-!
# Invariants of the parser of input expressions
-/
namespace KM

/-- `ParseKeySequence.cpp:309-312`: the state in which a negated key of an input is evaluated -/
def notBase (p : PState) (k : Key) : PState :=
  if (p.flush true true).pressed.contains k then ((p.flush true true).removePressed k).add k .UpAsync
  else (p.flush true true).removePressed k

/-- The changes of the state when parsing an input expression -/
inductive InStep (env : PEnv) : PState → PState → Prop
  | flush (p : PState) : InStep env p (p.flush true true)
  | key (p : PState) (n : Str) (hk : env.getKey n ≠ Key.none) :
      InStep env p { p with buffer := p.buffer ++ [env.getKey n] }
  | togetherBegin (p : PState) : InStep env p { p with together := true }
  | togetherEnd (p : PState) : InStep env p { p with
      seq := p.seq ++ p.buffer.map (fun k => ⟨k, .DownAsync, 0⟩), together := false }
  | timeout (p : PState) (st : KeyState) (v : Nat) (hd : hasKeyDown (p.flush true true).seq = true)
      (hs : st ∈ [KeyState.Timeout_cancel_on_down, .Timeout_cancel_on_up_down,
        .NotTimeout_cancel_on_down, .NotTimeout_cancel_on_up_down]) :
      InStep env p ((p.flush true true).add Key.timeout st v)
  | addTimeout (p : PState) (l : KeySequence) (e : KeyEvent) (v : Nat)
      (hl : (p.flush true true).seq = l ++ [e]) (hk : e.key = Key.timeout)
      (hd : hasKeyDown (p.flush true true).seq = true)
      (hs : e.state ∈ [KeyState.Timeout_cancel_on_down, .Timeout_cancel_on_up_down,
        .NotTimeout_cancel_on_down, .NotTimeout_cancel_on_up_down]) :
      InStep env p { p.flush true true with
        seq := l ++ [{ e with value := sumTimeouts e.value v }] }
  | notReplace (p : PState) (n : Str) (k : Key) (l : KeySequence) (hn : env.getKey n = k)
      (hk : k ≠ Key.none)
      (hl : (notBase p k).seq = l ++ [⟨k, .UpAsync, 0⟩]) :
      InStep env p { notBase p k with seq := l ++ [⟨k, .Up, 0⟩] }
  | notUp (p : PState) (n : Str) (k : Key) (hn : env.getKey n = k) (hk : k ≠ Key.none)
      (hp : isPressedIn (notBase p k).seq k = true) :
      InStep env p ((notBase p k).add k .Up)
  | notKey (p : PState) (n : Str) (k : Key) (hn : env.getKey n = k) (hk : k ≠ Key.none) : InStep env p ((notBase p k).add k .Not)
  | string (p : PState) (s : Str) (seq : KeySequence) (has : Bool)
      (ht : typeInput env.typer s (p.group != 0) = some (seq, has)) :
      InStep env p { p.flush true true with
        seq := (p.flush true true).seq ++ seq, hasMod := p.hasMod || has }
  | flag (p : PState) (hs : p.seq = []) (hb : p.buffer = []) :
      InStep env p { p.add Key.none .NoMightMatch with nmm := true }
  | groupBegin (p : PState)
      (hn : ({ p with before := p.pressed.length :: p.before }.flush true false).pressed ≠ []) :
      InStep env p { { p with before := p.pressed.length :: p.before }.flush true false with
        group := p.group + 1, hasMod := true }
  | groupEnd (p : PState) (hg : p.group ≠ 0) :
      InStep env p { (p.flush true true).release true (p.before.headD 0) with
        before := p.before.tail, group := p.group - 1 }.sync

/-- Several changes of the state -/
inductive InSteps (env : PEnv) : PState → PState → Prop
  | refl (p : PState) : InSteps env p p
  | tail {p q r : PState} (h : InSteps env p q) (g : InStep env q r) : InSteps env p r

theorem InSteps.one {env : PEnv} {p q : PState} (h : InStep env p q) : InSteps env p q :=
  .tail (.refl p) h

theorem InSteps.trans {env : PEnv} {p q r : PState} (h : InSteps env p q) (g : InSteps env q r) :
    InSteps env p r := by
  induction g with
  | refl => exact h
  | tail _ g ih => exact ih.tail g

theorem InSteps.inv {env : PEnv} {Q : PState → Prop} (hs : ∀ p q, InStep env p q → Q p → Q q)
    {p q : PState} (h : InSteps env p q) (hp : Q p) : Q q := by
  induction h with
  | refl => exact hp
  | tail _ g ih => exact hs _ _ g ih

theorem timeoutState_mem (isNot up : Bool) : timeoutState true isNot up ∈
    [KeyState.Timeout_cancel_on_down, .Timeout_cancel_on_up_down,
      .NotTimeout_cancel_on_down, .NotTimeout_cancel_on_up_down] := by
  cases isNot <;> cases up <;> decide

theorem addTimeout_in {env : PEnv} {p q : PState} {t : Nat} {isNot up : Bool}
    (h : p.addTimeout true t isNot up = some q) : InStep env p q := by
  unfold PState.addTimeout at h
  simp only [Bool.true_and, Bool.not_true, Bool.false_and, Bool.false_eq_true, if_false] at h
  split at h
  · cases h
  · next hd =>
    have hd : hasKeyDown (p.flush true true).seq = true := by simpa using hd
    split at h
    · next e he =>
      split at h
      · next hc =>
        injection h with h
        subst h
        have hc := Bool.and_eq_true_iff.1 hc
        have hl : (p.flush true true).seq = (p.flush true true).seq.dropLast ++ [e] := by
          obtain ⟨l, hl⟩ := List.getLast?_eq_some_iff.1 he
          rw [hl, List.dropLast_concat]
        have hs : e.state = timeoutState true isNot up := by simpa using hc.2
        exact .addTimeout p _ e t hl (by simpa using hc.1) hd (by rw [hs]; exact timeoutState_mem _ _)
      · injection h with h
        subst h
        exact .timeout p _ t hd (timeoutState_mem _ _)
    · injection h with h
      subst h
      exact .timeout p _ t hd (timeoutState_mem _ _)

theorem parseStep_in {env : PEnv} (hi : env.isInput = true) {p : PState} {it : Str} {q : PState}
    (h : (parseStep env p it).state? = some q) : InSteps env p q := by
  have hkey : ∀ p it q, (parseKey env p it).state? = some q → InSteps env p q := by
    intro p it q h
    unfold parseKey at h
    rw [hi] at h
    simp only at h
    have h1 : InSteps env p (if (!p.together || it.isEmpty) = true then p.flush true true else p) := by
      split
      · exact .one (.flush p)
      · exact .refl p
    generalize (if (!p.together || it.isEmpty) = true then p.flush true true else p) = p1 at h h1
    split at h
    · injection h with h; subst h; exact h1
    · split at h
      · cases h
      · next key rest hr =>
        injection h with h; subst h
        obtain ⟨n, rfl, hn⟩ := readKey_name hr
        exact h1.tail (.key p1 n hn)
  have hopt : ∀ (o : Option PState) it q, (PStep.ofOption o it).state? = some q → o = some q := by
    intro o it q h
    cases o with
    | none => cases h
    | some p => injection h with h; subst h; rfl
  have hstr : ∀ quote it, (parseString env p quote it).state? = some q → InSteps env p q := by
    intro quote it h
    unfold parseString at h
    split at h
    · cases h
    · split at h
      · cases h
      · simp only [hi, flush_group] at h
        split at h
        · cases h
        · next seq has ht =>
          injection h with h; subst h
          have := InStep.string (env := env) p _ seq has ht
          rw [flush_hasMod]
          exact .one this
  unfold parseStep at h
  split at h
  · -- `!`
    unfold parseBang at h
    split at h
    · split at h
      · cases h
      · rw [hi] at h
        exact .one (addTimeout_in (hopt _ _ _ h))
    · split at h
      · cases h
      · unfold parseNot at h
        split at h
        · cases h
        · next key rest hr =>
          obtain ⟨n, hn, hk⟩ := readKey_name hr
          rw [hn] at hk
          split at h
          · cases h
          · simp only [hi, Bool.and_true, Bool.true_and] at h
            change PStep.state? (if endsWithAsyncUp (notBase p key).seq key = true then
                .next { notBase p key with seq := (notBase p key).seq.dropLast ++ [⟨key, .Up, 0⟩] } rest
              else if isPressedIn (notBase p key).seq key = true then .next ((notBase p key).add key .Up) rest
              else .next ((notBase p key).add key .Not) rest) = some q at h
            split at h
            · next he =>
              injection h with h; subst h
              refine .one (.notReplace p n key _ hn hk ?_)
              unfold endsWithAsyncUp at he
              obtain ⟨l, hl⟩ := List.getLast?_eq_some_iff.1 (beq_iff_eq.1 he)
              rw [hl, List.dropLast_concat]
            · split at h
              · next hp =>
                injection h with h; subst h
                exact .one (.notUp p n key hn hk hp)
              · injection h with h; subst h
                exact .one (.notKey p n key hn hk)
  · exact hstr _ _ h
  · exact hstr _ _ h
  · -- `$`
    unfold parseCommand at h
    simp only [hi, Bool.true_or, if_true] at h
    cases h
  · -- `^`
    simp only [hi, Bool.true_or, if_true] at h
    cases h
  · -- `?`
    split at h
    · cases h
    · next hg =>
      simp only [Bool.or_eq_true, not_or, Bool.not_eq_true, Bool.not_eq_false',
        List.isEmpty_iff] at hg
      injection h with h; subst h
      exact .one (.flag p hg.1.1.2 hg.1.2)
  · -- `(`
    split at h
    · cases h
    · injection h with h; subst h
      rw [hi]
      exact (InSteps.one (.flush p)).tail (.togetherBegin _)
  · -- `)`
    split at h
    · cases h
    · injection h with h; subst h
      exact .one (.togetherEnd p)
  · -- `{`
    unfold parseGroupBegin at h
    split at h
    · cases h
    · rw [hi] at h
      simp only [flush_group] at h
      split at h
      · cases h
      · next hn =>
        injection h with h; subst h
        exact .one (.groupBegin p (by simpa using hn))
  · -- `}`
    unfold parseGroupEnd at h
    split at h
    · cases h
    · next hg =>
      injection h with h; subst h
      simp only [hi]
      have := InStep.groupEnd (env := env) p (by simpa using hg)
      have e1 := flush_before p true true
      have e2 := flush_group p true true
      rw [e1]
      have : InStep env p { (p.flush true true).release true (p.before.headD 0) with
        before := (p.flush true true).before.tail, group := (p.flush true true).group - 1 }.sync := by
        rw [e1, e2]; exact this
      exact .one this
  · -- timeout or key
    unfold parseTimeoutOrKey at h
    split at h
    · split at h
      · cases h
      · split at h
        · cases h
        · rw [hi] at h
          exact .one (addTimeout_in (hopt _ _ _ h))
    · exact hkey _ _ _ h

theorem parseLoop_in {env : PEnv} (hi : env.isInput = true) {p : PState} {it : Str} {q : PState}
    (h : parseLoop env p it = some q) : InSteps env p q := by
  fun_induction parseLoop env p it with
  | case1 p it p' hs =>
    injection h with h; subst h
    exact parseStep_in hi (by rw [hs]; rfl)
  | case2 p it hs => cases h
  | case3 p it p' rest hs hl ih =>
    exact (parseStep_in hi (by rw [hs]; rfl)).trans (ih h)
  | case4 p it p' rest hs hl => cases h


/-! ## Looking back -/

/-- Each event satisfies a condition depending on the events before it. -/
def Prec (Q : KeySequence → KeyEvent → Prop) (l : KeySequence) : Prop :=
  ∀ a e b, l = a ++ e :: b → Q a e

theorem Prec.nil {Q : KeySequence → KeyEvent → Prop} : Prec Q [] := by
  intro a e b h; simp at h

theorem Prec.prefix {Q : KeySequence → KeyEvent → Prop} {l m : KeySequence} (h : Prec Q (l ++ m)) :
    Prec Q l := by
  intro a e b hs
  exact h a e (b ++ m) (by simp [hs])

theorem Prec.concat {Q : KeySequence → KeyEvent → Prop} {l : KeySequence} {e : KeyEvent}
    (h : Prec Q l) (he : Q l e) : Prec Q (l ++ [e]) := by
  intro a x b hs
  rcases List.eq_nil_or_concat b with rfl | ⟨b', y, rfl⟩
  · have := List.append_inj' hs rfl
    simp only [List.cons.injEq, and_true] at this
    rw [← this.1, ← this.2]
    exact he
  · have h1 : l ++ [e] = (a ++ x :: b') ++ [y] := by rw [hs]; simp
    have h2 := List.append_inj' h1 rfl
    exact h a x b' h2.1

/-- the events added do not depend on each other -/
theorem Prec.append {Q : KeySequence → KeyEvent → Prop} {l m : KeySequence}
    (hm : ∀ a b e, Q a e → Q (a ++ b) e) (h : Prec Q l) (he : ∀ e ∈ m, Q l e) : Prec Q (l ++ m) := by
  induction m generalizing l with
  | nil => simpa using h
  | cons e m ih =>
    rw [List.append_cons]
    exact ih (h.concat (he e (by simp))) (fun x hx => hm _ _ _ (he x (by simp [hx])))

/-! ## Looking forward -/

/-- Each event of a kind is followed by one of another kind for the same key, or the key is one of
`held`. -/
def Foll (D : KeyEvent → Prop) (R : KeyState → Prop) (held : List Key) (l : KeySequence) : Prop :=
  ∀ a e b, l = a ++ e :: b → D e → (∃ u ∈ b, u.key = e.key ∧ R u.state) ∨ e.key ∈ held

theorem Foll.nil {D : KeyEvent → Prop} {R : KeyState → Prop} {held : List Key} : Foll D R held [] := by
  intro a e b h; simp at h

theorem Foll.append {D : KeyEvent → Prop} {R : KeyState → Prop} {h h' : List Key} {a b : KeySequence}
    (ha : Foll D R h a) (hb : Foll D R h' b)
    (hh : ∀ k ∈ h, k ∈ h' ∨ ∃ u ∈ b, u.key = k ∧ R u.state) : Foll D R h' (a ++ b) := by
  intro x e y hs hd
  rcases List.append_eq_append_iff.1 hs with ⟨z, h1, h2⟩ | ⟨z, h1, h2⟩
  · exact hb z e y h2 hd
  · cases z with
    | nil => exact hb [] e y h2.symm hd
    | cons f z =>
      simp only [List.cons_append, List.cons.injEq] at h2
      obtain ⟨rfl, rfl⟩ := h2
      rcases ha x e z h1 hd with ⟨u, hu, h⟩ | h
      · exact .inl ⟨u, List.mem_append_left _ hu, h⟩
      · rcases hh _ h with h | ⟨u, hu, h⟩
        · exact .inr h
        · exact .inl ⟨u, List.mem_append_right _ hu, h⟩

theorem Foll.extend {D : KeyEvent → Prop} {R : KeyState → Prop} {h h' : List Key} {a b : KeySequence}
    (ha : Foll D R h a) (hb : ∀ e ∈ b, D e → e.key ∈ h')
    (hh : ∀ k ∈ h, k ∈ h' ∨ ∃ u ∈ b, u.key = k ∧ R u.state) : Foll D R h' (a ++ b) := by
  refine ha.append ?_ hh
  intro x e y hs hd
  exact .inr (hb e (by rw [hs]; simp) hd)

/-- Replacing the last event by one which is as good -/
theorem Foll.replaceLast {D : KeyEvent → Prop} {R : KeyState → Prop} {h : List Key} {l : KeySequence}
    {e f : KeyEvent} (ha : Foll D R h (l ++ [e])) (hk : f.key = e.key) (hR : R e.state → R f.state)
    (hD : ¬D f) : Foll D R h (l ++ [f]) := by
  intro x d y hs hd
  rcases List.eq_nil_or_concat y with rfl | ⟨y', z, rfl⟩
  · have := List.append_inj' hs rfl
    simp only [List.cons.injEq, and_true] at this
    rw [this.2] at hD
    exact absurd hd hD
  · have h1 : l ++ [f] = (x ++ d :: y') ++ [z] := by rw [hs]; simp
    have h2 := List.append_inj' h1 rfl
    simp only [List.cons.injEq, and_true] at h2
    obtain ⟨rfl, rfl⟩ := h2
    rcases ha x d (y' ++ [e]) (by simp) hd with ⟨u, hu, h3, h4⟩ | h
    · rcases List.mem_append.1 hu with hu | hu
      · exact .inl ⟨u, by simp [hu], h3, h4⟩
      · rw [List.mem_singleton.1 hu] at h3 h4
        exact .inl ⟨f, by simp, hk.trans h3, hR h4⟩
    · exact .inr h

end KM
