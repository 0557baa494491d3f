import Verif.Lemmas.ParseSeq
/-!
# Every iteration of the expression parser moves forward
-/
namespace KM

theorem tryReadTimeout_shorter {it r : Str} {n : Nat} (h : tryReadTimeout it = some (n, r)) : r.length < it.length := by
  unfold tryReadTimeout at h
  split at h
  · cases h
  · next m r' hn =>
    split at h
    · cases h
    · next r'' hs =>
      simp only [Option.some.injEq, Prod.mk.injEq] at h
      have h1 := skipStr_length hs
      unfold tryReadNumber at hn
      simp only [] at hn
      split at hn
      · cases hn
      · simp only [Option.some.injEq, Prod.mk.injEq] at hn
        have := (List.dropWhile_sublist (l := it) isDigitC).length_le
        rw [← h.2]
        rw [← hn.2] at h1
        simp only [List.length_cons, List.length_nil] at h1
        omega

theorem readKey_shorter {env : PEnv} {it r : Str} {k : Key} (h : readKey env it = some (k, r)) : r.length < it.length := by
  unfold readKey readIdent at h
  simp only [] at h
  split at h
  · cases h
  · next hne =>
    split at h
    · simp only [Option.some.injEq, Prod.mk.injEq] at h
      rw [← h.2]
      have h1 : it.takeWhile isIdentChar ≠ [] := by simpa using hne
      have h2 := congrArg List.length (List.takeWhile_append_dropWhile (p := isIdentChar) (l := it))
      rw [List.length_append] at h2
      have := List.length_pos_iff.2 h1
      omega
    · cases h

theorem readCommand_shorter {n : Nat} {acc it c r : Str} (h : readCommand n acc it = some (c, r)) : r.length ≤ it.length := by
  induction it generalizing n acc with
  | nil =>
    cases n with
    | zero => simp only [readCommand, Option.some.injEq, Prod.mk.injEq] at h; rw [← h.2]; exact Nat.le_refl _
    | succ n => simp [readCommand] at h
  | cons d ds ih =>
    cases n with
    | zero => simp only [readCommand, Option.some.injEq, Prod.mk.injEq] at h; rw [← h.2]; exact Nat.le_refl _
    | succ n =>
      rw [readCommand] at h
      have := ih h
      simp only [List.length_cons]
      omega

/-- every iteration moves forward -/
theorem parseStep_shorter {env : PEnv} {p q : PState} {it rest : Str} (h : parseStep env p it = .next q rest) :
    rest.length < it.length := by
  have hopt : ∀ (o : Option PState) it', PStep.ofOption o it' = .next q rest → rest = it' := by
    intro o it' h
    cases o with
    | none => cases h
    | some p => injection h with h1 h2; exact h2.symm
  have hstr : ∀ quote it', parseString env p quote it' = .next q rest → rest.length ≤ it'.length := by
    intro quote it' h
    unfold parseString at h
    split at h
    · cases h
    · split at h
      · cases h
      · next r hr =>
        simp only [] at h
        have hl := skipUntil_length hr
        cases ht : (if env.isInput = true then typeInput env.typer (it'.take (it'.length - r.length - 1)) ((p.flush env.isInput true).group != 0)
          else typeOutput env.typer (it'.take (it'.length - r.length - 1)) ((p.flush env.isInput true).group != 0)) with
        | none => rw [ht] at h; cases h
        | some x =>
          rw [ht] at h
          injection h with h1 h2
          rw [← h2]; simp only [List.length_cons, List.length_nil] at hl; omega
  unfold parseStep at h
  split at h
  · next it' =>
    unfold parseBang at h
    split at h
    · next t r ht =>
      split at h
      · cases h
      · have := tryReadTimeout_shorter ht
        rw [hopt _ _ h]; simp only [List.length_cons]; omega
    · split at h
      · cases h
      · unfold parseNot at h
        split at h
        · cases h
        · next k r hr =>
          have := readKey_shorter hr
          have hrr : rest = r := by
            split at h
            · cases h
            · simp only [] at h
              repeat' split at h
              all_goals (injection h with h1 h2; exact h2.symm)
          rw [hrr]; simp only [List.length_cons]; omega
  · have := hstr _ _ h; simp only [List.length_cons]; omega
  · have := hstr _ _ h; simp only [List.length_cons]; omega
  · next it' =>
    unfold parseCommand at h
    split at h
    · cases h
    · split at h
      · next it'' =>
        split at h
        · cases h
        · next c r hr =>
          have := readCommand_shorter hr
          simp only [] at h
          have hrr : rest = r := by
            split at h
            · injection h with h1 h2; exact h2.symm
            · injection h with h1 h2; exact h2.symm
          rw [hrr]; simp only [List.length_cons]; omega
      · cases h
  · split at h
    · cases h
    · injection h with h1 h2; rw [← h2]; simp
  · split at h
    · cases h
    · injection h with h1 h2; rw [← h2]; simp
  · split at h
    · cases h
    · injection h with h1 h2; rw [← h2]; simp
  · split at h
    · cases h
    · injection h with h1 h2; rw [← h2]; simp
  · unfold parseGroupBegin at h
    split at h
    · cases h
    · simp only [] at h
      split at h
      · cases h
      · injection h with h1 h2; rw [← h2]; simp
  · unfold parseGroupEnd at h
    split at h
    · cases h
    · simp only [] at h
      injection h with h1 h2; rw [← h2]; simp
  · unfold parseTimeoutOrKey at h
    split at h
    · next t r ht =>
      split at h
      · cases h
      · split at h
        · cases h
        · have := tryReadTimeout_shorter ht
          rw [hopt _ _ h]; exact this
    · unfold parseKey at h
      simp only [] at h
      split at h
      · cases h
      · split at h
        · cases h
        · next k r hr =>
          injection h with h1 h2
          rw [← h2]; exact readKey_shorter hr

theorem skipSpace_length (it : Str) : (skipSpace it).length ≤ it.length := by
  induction it with
  | nil => simp [skipSpace]
  | cons c cs ih =>
    rw [skipSpace]
    split
    · simp only [List.length_cons]; omega
    · split <;> simp

/-- the loop of the parser, without the check that it moves forward -/
theorem parseLoop_next {env : PEnv} {p q : PState} {it rest : Str} (h : parseStep env p (skipSpace it) = .next q rest) :
    parseLoop env p it = parseLoop env q rest := by
  have h1 := parseStep_shorter h
  have h2 := skipSpace_length it
  rw [parseLoop, h]
  simp only []
  rw [if_pos (by omega)]

theorem parseLoop_skipSpace {env : PEnv} {p : PState} {a b : Str} (h : skipSpace a = skipSpace b) :
    parseLoop env p a = parseLoop env p b := by
  cases hs : parseStep env p (skipSpace b) with
  | next q rest => rw [parseLoop_next hs, parseLoop_next (h ▸ hs)]
  | done q => rw [parseLoop, parseLoop.eq_def env p b, h, hs]
  | error => rw [parseLoop, parseLoop.eq_def env p b, h, hs]

end KM
