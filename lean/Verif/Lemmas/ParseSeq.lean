import Verif.Model.ParseKeySequence
/-!
# The steps of the expression parser

Every iteration of the parser is one of a few changes of its state. Invariants are shown for these.
-/
namespace KM

/-- The changes of the state when parsing an output expression -/
inductive OutStep (env : PEnv) : PState → PState → Prop
  | flush (p : PState) : OutStep env p (p.flush false true)
  | key (p : PState) (n : Str) (hk : env.getKey n ≠ Key.none) :
      OutStep env p { p with buffer := p.buffer ++ [env.getKey n] }
  | together (p : PState) (b : Bool) : OutStep env p { p with together := b }
  | delay (p : PState) (v : Nat) : OutStep env p ((p.flush false true).add Key.timeout .Down v)
  | addDelay (p : PState) (l : KeySequence) (e : KeyEvent) (v : Nat)
      (hl : (p.flush false true).seq = l ++ [e]) (hk : e.key = Key.timeout) (hs : e.state = .Down) :
      OutStep env p { p.flush false true with
        seq := l ++ [{ e with value := sumTimeouts e.value v }] }
  | not (p : PState) (n : Str) (hk : env.getKey n ≠ Key.none) :
      OutStep env p (((p.flush false false).removePressed (env.getKey n)).add (env.getKey n) .Not)
  | string (p : PState) (s : Str) (seq : KeySequence) (has : Bool)
      (ht : typeOutput env.typer s (p.group != 0) = some (seq, has)) :
      OutStep env p { p.flush false true with
        seq := (p.flush false true).seq ++ seq, hasMod := p.hasMod || has }
  | command (p : PState) (c : Str) (hg : p.group = 0) (hc : env.addCommands = true) :
      OutStep env p { (p.flush false true).add
        (Key.first_action + env.actionBase + p.actions.length) .Down with
        actions := p.actions ++ [c] }
  | marker (p : PState) (hr : p.onRelease = false) (hg : p.group = 0) :
      OutStep env p { (p.flush false true).add Key.none .OutputOnRelease with onRelease := true }
  | groupBegin (p : PState)
      (hn : ({ p with before := p.pressed.length :: p.before }.flush false false).pressed ≠ []) :
      OutStep env p { { p with before := p.pressed.length :: p.before }.flush false false with
        group := p.group + 1, hasMod := true }
  | groupEnd (p : PState) (hg : p.group ≠ 0) :
      OutStep env p { (p.flush false true).release false (p.before.headD 0) with
        before := p.before.tail, group := p.group - 1 }

/-- Several changes of the state -/
inductive OutSteps (env : PEnv) : PState → PState → Prop
  | refl (p : PState) : OutSteps env p p
  | tail {p q r : PState} (h : OutSteps env p q) (g : OutStep env q r) : OutSteps env p r

theorem OutSteps.one {env : PEnv} {p q : PState} (h : OutStep env p q) : OutSteps env p q :=
  .tail (.refl p) h

theorem OutSteps.trans {env : PEnv} {p q r : PState} (h : OutSteps env p q) (g : OutSteps env q r) :
    OutSteps env p r := by
  induction g with
  | refl => exact h
  | tail _ g ih => exact ih.tail g

theorem OutSteps.inv {env : PEnv} {Q : PState → Prop} (hs : ∀ p q, OutStep env p q → Q p → Q q)
    {p q : PState} (h : OutSteps env p q) (hp : Q p) : Q q := by
  induction h with
  | refl => exact hp
  | tail _ g ih => exact hs _ _ g ih

theorem flush_group (p : PState) (a b : Bool) : (p.flush a b).group = p.group := by
  unfold PState.flush; split <;> (try split) <;> rfl

theorem flush_hasMod (p : PState) (a b : Bool) : (p.flush a b).hasMod = p.hasMod := by
  unfold PState.flush; split <;> (try split) <;> rfl

theorem flush_actions (p : PState) (a b : Bool) : (p.flush a b).actions = p.actions := by
  unfold PState.flush; split <;> (try split) <;> rfl

theorem flush_before (p : PState) (a b : Bool) : (p.flush a b).before = p.before := by
  unfold PState.flush; split <;> (try split) <;> rfl

theorem flush_onRelease (p : PState) (a b : Bool) : (p.flush a b).onRelease = p.onRelease := by
  unfold PState.flush; split <;> (try split) <;> rfl

theorem flush_nmm (p : PState) (a b : Bool) : (p.flush a b).nmm = p.nmm := by
  unfold PState.flush; split <;> (try split) <;> rfl

theorem flush_buffer (p : PState) (a b : Bool) : (p.flush a b).buffer = [] := by
  unfold PState.flush; split <;> (try split) <;> rfl

theorem addTimeout_out {env : PEnv} {p q : PState} {t : Nat} {isNot up : Bool}
    (h : p.addTimeout false t isNot up = some q) : OutStep env p q := by
  unfold PState.addTimeout at h
  simp only [Bool.false_and, Bool.false_eq_true, if_false, Bool.not_false, Bool.true_and] at h
  split at h
  · cases h
  · split at h
    · next e he =>
      split at h
      · next hc =>
        injection h with h
        subst h
        have hc := Bool.and_eq_true_iff.1 hc
        have hl : (p.flush false true).seq = (p.flush false true).seq.dropLast ++ [e] := by
          obtain ⟨l, hl⟩ := List.getLast?_eq_some_iff.1 he
          rw [hl, List.dropLast_concat]
        exact .addDelay p _ e t hl (by simpa using hc.1) (by simpa [timeoutState] using hc.2)
      · injection h with h
        subst h
        exact .delay p t
    · injection h with h
      subst h
      exact .delay p t

theorem readKey_name {env : PEnv} {it : Str} {k : Key} {rest : Str}
    (h : readKey env it = some (k, rest)) : ∃ n, env.getKey n = k ∧ env.getKey n ≠ Key.none := by
  unfold readKey at h
  simp only at h
  split at h
  · cases h
  · split at h
    · next hk =>
      injection h with h
      injection h with h1 h2
      exact ⟨_, h1, bne_iff_ne.1 hk⟩
    · cases h

/-- The next state and the end of an iteration -/
def PStep.state? : PStep → Option PState
  | .next p _ => some p
  | .done p => some p
  | .error => none

theorem parseStep_out {env : PEnv} (hi : env.isInput = false) {p : PState} {it : Str} {q : PState}
    (h : (parseStep env p it).state? = some q) : OutSteps env p q := by
  have hkey : ∀ p it q, (parseKey env p it).state? = some q → OutSteps env p q := by
    intro p it q h
    unfold parseKey at h
    rw [hi] at h
    simp only at h
    have h1 : OutSteps env p (if (!p.together || it.isEmpty) = true then p.flush false true else p) := by
      split
      · exact .one (.flush p)
      · exact .refl p
    generalize (if (!p.together || it.isEmpty) = true then p.flush false true else p) = p1 at h h1
    split at h
    · injection h with h; subst h; exact h1
    · split at h
      · cases h
      · next key rest hr =>
        injection h with h; subst h
        obtain ⟨n, rfl, hn⟩ := readKey_name hr
        exact h1.tail (.key p1 n hn)
  have hopt : ∀ (o : Option PState) it q, (PStep.ofOption o it).state? = some q → o = some q := by
    intro o it q h
    cases o with
    | none => cases h
    | some p => injection h with h; subst h; rfl
  have hstr : ∀ quote it, (parseString env p quote it).state? = some q → OutSteps env p q := by
    intro quote it h
    unfold parseString at h
    split at h
    · cases h
    · split at h
      · cases h
      · simp only [hi, Bool.false_eq_true, if_false, flush_group] at h
        split at h
        · cases h
        · next seq has ht =>
          injection h with h; subst h
          have := OutStep.string (env := env) p _ seq has ht
          rw [flush_hasMod]
          exact .one this
  unfold parseStep at h
  split at h
  · -- `!`
    unfold parseBang at h
    split at h
    · split at h
      · cases h
      · rw [hi] at h
        exact .one (addTimeout_out (hopt _ _ _ h))
    · split at h
      · cases h
      · unfold parseNot at h
        simp only [hi, Bool.false_and, Bool.false_eq_true, if_false, Bool.and_false] at h
        split at h
        · cases h
        · next key rest hr =>
          injection h with h; subst h
          obtain ⟨n, rfl, hn⟩ := readKey_name hr
          exact .one (.not p n hn)
  · exact hstr _ _ h
  · exact hstr _ _ h
  · -- `$`
    unfold parseCommand at h
    split at h
    · cases h
    · next hg =>
      have hg : p.group = 0 := by
        simp only [Bool.or_eq_true, not_or, bne_iff_ne, ne_eq, Decidable.not_not] at hg
        exact hg.2
      split at h
      · split at h
        · cases h
        · simp only [hi] at h
          split at h
          · next hc =>
            injection h with h; subst h
            rw [flush_actions]
            exact .one (.command p _ hg hc)
          · injection h with h; subst h
            exact .one (.flush p)
      · cases h
  · -- `^`
    split at h
    · cases h
    · next hg =>
      simp only [Bool.or_eq_true, not_or, bne_iff_ne, ne_eq, Decidable.not_not,
        Bool.not_eq_true] at hg
      rw [hi] at h
      injection h with h; subst h
      exact .one (.marker p hg.1.1.2 hg.2)
  · -- `?`
    rw [hi] at h
    simp only [Bool.not_false, Bool.true_or, if_true] at h
    cases h
  · -- `(`
    split at h
    · cases h
    · injection h with h; subst h
      rw [hi]
      exact (OutSteps.one (.flush p)).tail (.together _ true)
  · -- `)`
    split at h
    · cases h
    · rw [hi] at h
      injection h with h; subst h
      simp only [Bool.false_eq_true, if_false]
      exact .one (.together p false)
  · -- `{`
    unfold parseGroupBegin at h
    split at h
    · cases h
    · rw [hi] at h
      simp only [flush_group] at h
      split at h
      · cases h
      · next hn =>
        injection h with h; subst h
        exact .one (.groupBegin p (by simpa using hn))
  · -- `}`
    unfold parseGroupEnd at h
    split at h
    · cases h
    · next hg =>
      rw [hi] at h
      injection h with h; subst h
      simp only [Bool.false_eq_true, if_false]
      have := OutStep.groupEnd (env := env) p (by simpa using hg)
      have e1 := flush_before p false true
      have e2 := flush_group p false true
      rw [e1]
      have : OutStep env p { (p.flush false true).release false (p.before.headD 0) with
        before := (p.flush false true).before.tail, group := (p.flush false true).group - 1 } := by
        rw [e1, e2]; exact this
      exact .one this
  · -- timeout or key
    unfold parseTimeoutOrKey at h
    split at h
    · split at h
      · cases h
      · split at h
        · cases h
        · rw [hi] at h
          exact .one (addTimeout_out (hopt _ _ _ h))
    · exact hkey _ _ _ h

theorem parseLoop_out {env : PEnv} (hi : env.isInput = false) {p : PState} {it : Str} {q : PState}
    (h : parseLoop env p it = some q) : OutSteps env p q := by
  fun_induction parseLoop env p it with
  | case1 p it p' hs =>
    injection h with h; subst h
    exact parseStep_out hi (by rw [hs]; rfl)
  | case2 p it hs => cases h
  | case3 p it p' rest hs hl ih =>
    exact (parseStep_out hi (by rw [hs]; rfl)).trans (ih h)
  | case4 p it p' rest hs hl => cases h

end KM
