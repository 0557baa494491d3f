import Verif.Lemmas.GrammarIn
import Verif.Lemmas.GrammarEvents
import Verif.Model.KeyName
/-!
# C72: input expressions mean what the grammar says
-/
namespace KM

private theorem mem_released {l : KeySequence} {k : Key} {x : KeyEvent} (h : x ∈ expectReleased l k) : x ∈ l ∨ x.key = k := by
  unfold expectReleased at h
  split at h
  · rcases List.mem_append.1 h with h | h
    · exact Or.inl (List.dropLast_subset _ h)
    · rw [List.mem_singleton.1 h]; exact Or.inr rfl
  · split at h
    · split at h
      all_goals
        rcases List.mem_append.1 h with h | h
        · exact Or.inl h
        · rw [List.mem_singleton.1 h]; exact Or.inr rfl
    · rcases List.mem_append.1 h with h | h
      · exact Or.inl h
      · rw [List.mem_singleton.1 h]; exact Or.inr rfl

private theorem mem_timeout {l : KeySequence} {s : KeyState} {ms : Nat} {x : KeyEvent} (h : x ∈ expectTimeout l s ms) :
    x ∈ l ∨ x.key = Key.timeout := by
  unfold expectTimeout at h
  split at h
  · split at h
    · next d hd hc =>
      rcases List.mem_append.1 h with h | h
      · exact Or.inl (List.dropLast_subset _ h)
      · rw [List.mem_singleton.1 h]; right
        rw [Bool.and_eq_true] at hc
        exact beq_iff_eq.1 hc.1
    · rcases List.mem_append.1 h with h | h
      · exact Or.inl h
      · rw [List.mem_singleton.1 h]; exact Or.inr rfl
  · rcases List.mem_append.1 h with h | h
    · exact Or.inl h
    · rw [List.mem_singleton.1 h]; exact Or.inr rfl

private theorem mem_afterBraces {l : KeySequence} {x : KeyEvent} (h : x ∈ afterBraces l) : ∃ y ∈ l, y.key = x.key := by
  unfold afterBraces at h
  simp only [] at h
  split at h
  · split at h
    · rcases List.mem_append.1 h with h | h
      · exact ⟨x, h, rfl⟩
      · obtain ⟨y, hy, rfl⟩ := List.mem_map.1 h
        rw [List.mem_reverse] at hy
        exact ⟨y, List.mem_reverse.1 ((List.takeWhile_sublist _).subset hy), rfl⟩
    · exact ⟨x, h, rfl⟩
  · exact ⟨x, h, rfl⟩

private theorem mem_modifiers {f : (Mods → Bool) × Key → KeySequence} (hf : ∀ m, ∀ x ∈ f m, x.key = m.2) {x : KeyEvent}
    (h : x ∈ modifierKeys.flatMap f) : x.key ≠ Key.ContextActive := by
  obtain ⟨m, hm, hx⟩ := List.mem_flatMap.1 h
  rw [hf m x hx]
  have : ∀ m ∈ modifierKeys, m.2 ≠ Key.ContextActive := by
    intro m hm
    unfold modifierKeys at hm
    simp only [List.mem_cons, List.not_mem_nil, or_false] at hm
    rcases hm with rfl | rfl | rfl | rfl <;> (simp only []; decide)
  exact this m hm

private theorem mem_typed (g : Bool) (keys : List TypedKey) (hk : ∀ t ∈ keys, Outputable t.key) : ∀ (first : Bool) (old : Mods),
    ∀ x ∈ expectTyped g first old keys, x.key ≠ Key.ContextActive := by
  induction keys with
  | nil =>
    intro first old x hx
    rw [expectTyped] at hx
    refine mem_modifiers ?_ hx
    intro m x hx
    split at hx
    · rw [List.mem_singleton.1 hx]
    · cases hx
  | cons t ts ih =>
    intro first old x hx
    rw [expectTyped] at hx
    rcases List.mem_append.1 hx with hx | hx
    · rcases List.mem_append.1 hx with hx | hx
      · split at hx
        · cases hx
        · unfold expectModifiers at hx
          refine mem_modifiers ?_ hx
          intro m x hx
          split at hx
          · rcases List.mem_append.1 hx with hx | hx
            · split at hx
              · rw [List.mem_singleton.1 hx]
              · cases hx
            · simp only [List.mem_cons, List.not_mem_nil, or_false] at hx
              rcases hx with rfl | rfl <;> rfl
          · rcases List.mem_append.1 hx with hx | hx
            · split at hx
              · rw [List.mem_singleton.1 hx]
              · cases hx
            · split at hx
              · rw [List.mem_singleton.1 hx]
              · cases hx
      · simp only [List.mem_cons, List.not_mem_nil, or_false] at hx
        rcases hx with rfl | rfl
        · exact (hk t (by simp)).2
        · exact (hk t (by simp)).2
    · exact ih (fun t ht => hk t (by simp [ht])) _ _ x hx

private theorem mem_keys {c : List Key} (h : ∀ k ∈ c, Outputable k) (tg : Bool) {x : KeyEvent} (hx : x ∈ expectPresses tg c) :
    x.key ≠ Key.ContextActive := by
  unfold expectPresses at hx
  rcases List.mem_append.1 hx with hx | hx
  · split at hx
    · obtain ⟨k, hk, rfl⟩ := List.mem_map.1 hx
      exact (h k hk).2
    · cases hx
  · obtain ⟨k, hk, rfl⟩ := List.mem_map.1 hx
    exact (h k hk).2

private theorem mem_releases {c : List Key} (h : ∀ k ∈ c, Outputable k) {x : KeyEvent} (hx : x ∈ expectReleases c) :
    x.key ≠ Key.ContextActive := by
  obtain ⟨k, hk, rfl⟩ := List.mem_map.1 hx
  exact (h k hk).2

private theorem inEvents_keys (typer : Typer) (flag : Bool) (e : InExpr) : ∀ (g st : Bool) (before : List Key) (l : KeySequence),
    e.Valid typer flag g st before → (∀ x ∈ l, x.key ≠ Key.ContextActive) → ∀ x ∈ e.events typer g l, x.key ≠ Key.ContextActive := by
  induction e with
  | nil => intro g st before l _ hl; exact hl
  | keys tg c rest ih =>
    intro g st before l hv hl
    rw [InExpr.events]
    refine ih g true c _ hv.2 ?_
    intro x hx
    rcases List.mem_append.1 hx with hx | hx
    · rcases List.mem_append.1 hx with hx | hx
      · exact hl x hx
      · exact mem_keys hv.1.2 tg hx
    · exact mem_releases hv.1.2 hx
  | hold tg c body rest ihb ihr =>
    intro g st before l hv hl
    rw [InExpr.events]
    refine ihr g true [] _ hv.2.2 ?_
    intro x hx
    obtain ⟨y, hy, he⟩ := mem_afterBraces hx
    rw [← he]
    rcases List.mem_append.1 hy with hy | hy
    · refine ihb true true [] _ hv.2.1 ?_ y hy
      intro x hx
      rcases List.mem_append.1 hx with hx | hx
      · exact hl x hx
      · exact mem_keys hv.1.2 tg hx
    · exact mem_releases (fun k hk => hv.1.2 k (by simpa using hk)) hy
  | not k rest ih =>
    intro g st before l hv hl
    rw [InExpr.events]
    refine ih g st [] _ hv.2.2 ?_
    intro x hx
    rcases mem_released hx with hx | hx
    · exact hl x hx
    · rw [hx]; exact hv.1.2
  | timeout n ms rest ih =>
    intro g st before l hv hl
    rw [InExpr.events]
    refine ih g st [] _ hv.2.2 ?_
    intro x hx
    rcases mem_timeout hx with hx | hx
    · exact hl x hx
    · rw [hx]; decide
  | type s rest ih =>
    intro g st before l hv hl
    obtain ⟨keys, h1, h2, h3⟩ := hv
    rw [InExpr.events, h1]
    refine ih g _ [] _ h3 ?_
    intro x hx
    rcases List.mem_append.1 hx with hx | hx
    · exact hl x hx
    · exact mem_typed g keys h2 _ _ x hx

private theorem hasKeyDown_removeAll (l : KeySequence) : hasKeyDown (removeAllFromEnd l .UpAsync) = hasKeyDown l := by
  have h : ∀ l : KeySequence, hasKeyDown (l.dropWhile (fun e => e.state == .UpAsync)) = hasKeyDown l := by
    intro l
    induction l with
    | nil => rfl
    | cons e l ih =>
      rw [List.dropWhile_cons]
      split
      · next hu =>
        rw [ih]
        have : e.state = .UpAsync := by simpa using hu
        unfold hasKeyDown
        simp [this]
      · rfl
  have hr : ∀ l : KeySequence, hasKeyDown l.reverse = hasKeyDown l := by
    intro l; unfold hasKeyDown; rw [List.any_reverse]
  unfold removeAllFromEnd
  rw [hr, h, hr]

private theorem finish_in {env : PEnv} (hi : env.isInput = true) (flag : Bool) (e : InExpr) (p q : PState) (l : KeySequence)
    (hl : (p.flush true true).seq = l) (hlc : ∀ x ∈ l, x.key ≠ Key.ContextActive)
    (hp : p.together = false ∧ p.nmm = flag ∧ p.group = 0 ∧ p.actions = []) (hv : e.Valid env.typer flag false false [])
    (hk : e.hasKeys env.typer = true)
    (hm : e.meaning env.typer flag =
      if flag then ((e.events env.typer false l).reverse.dropWhile (fun e => e.state == .UpAsync)).reverse else e.events env.typer false l)
    (hvk : flag = true → ∀ x ∈ e.meaning env.typer flag, isVirtualKey x.key = false)
    (h : AfterIn env.typer e false p q) :
    (match parseLoop env q [] with
      | none => none
      | some p => parseFinish env p) = some (e.meaning env.typer flag, []) := by
  have hdone : parseLoop env q [] = some (q.flush true true) := by
    rw [parseLoop]
    have : parseStep env q (skipSpace []) = .done (q.flush true true) := by
      rw [skipSpace]
      unfold parseStep parseTimeoutOrKey parseKey
      simp [tryReadTimeout, tryReadNumber, hi]
    rw [this]
  obtain ⟨hp1, hp2, hp3, hp4⟩ := hp
  have hseq : (q.flush true true).seq = e.events env.typer false l := by
    rw [h.seq, hp3, hl]; rfl
  have hst := h.started
  rw [hk, hseq] at hst
  have hkeys := inEvents_keys env.typer flag e false false [] l hv hlc
  have hctx : ∀ l' : KeySequence, (∀ x ∈ l', x ∈ e.events env.typer false l) → checkContextActive true l' = some l' := by
    intro l' hl'
    rw [checkContextActive, if_neg]
    rw [List.any_eq_true]
    rintro ⟨x, hx, hk⟩
    exact hkeys x (hl' x hx) (beq_iff_eq.1 hk)
  rw [hdone]
  simp only []
  rw [parseFinish]
  rw [if_neg (by rw [flush_together, h.together, hp1]; decide), if_neg (by rw [flush_group, h.group, hp3]; decide)]
  simp only [hi, if_true, flush_nmm, h.nmm, hp2]
  cases flag with
  | false =>
    simp only [Bool.false_eq_true, if_false, hseq, hst, flush_nmm, h.nmm, hp2, flush_actions, h.actions, hp4]
    rw [hctx _ (fun x hx => hx), hm]
    simp
  | true =>
    have hrm : removeAllFromEnd (e.events env.typer false l) .UpAsync = e.meaning env.typer true := by rw [hm]; rfl
    have hst' : hasKeyDown (e.meaning env.typer true) = true := by rw [← hrm, hasKeyDown_removeAll, hst]; rfl
    have hvk' : (e.meaning env.typer true).any (fun e => isVirtualKey e.key) = false := by
      rw [List.any_eq_false]
      intro x hx
      rw [hvk rfl x hx]; decide
    simp only [if_true, hseq, hrm, hst', hvk', flush_actions, h.actions, hp4, Bool.and_false, Bool.not_true,
      Bool.false_eq_true, if_false]
    rw [hctx]
    · rfl
    · intro x hx
      rw [hm] at hx
      simp only [if_true, List.mem_reverse] at hx
      exact List.mem_reverse.1 ((List.dropWhile_sublist _).subset hx)

/-- **C72** The text of an input expression is parsed to what the expression means, whatever spaces are used. -/
theorem C72_input (env : PEnv) (hi : env.isInput = true) (flag : Bool) (e : InExpr) (t : Str)
    (ht : InTextFlag env.getKey flag e t) (hv : e.Valid env.typer flag false false []) (hf : e.Fresh []) (hk : e.hasKeys env.typer = true)
    (hvk : flag = true → ∀ x ∈ e.meaning env.typer flag, isVirtualKey x.key = false) :
    parseSequence env t = some (e.meaning env.typer flag, []) := by
  rw [parseSequence]
  cases ht with
  | plain h =>
    obtain ⟨q, hq, ha⟩ := parseLoop_inText hi h {} [] false rfl hv hf rfl Ends.nil
    rw [List.append_nil] at hq
    rw [hq]
    exact finish_in hi false e {} q [] rfl (by intro x hx; cases hx) ⟨rfl, rfl, rfl, rfl⟩ hv hk rfl hvk ha
  | @flag sp e t hs h =>
    have h1 : parseLoop env {} (sp ++ '?' :: t) = parseLoop env { seq := [⟨Key.none, .NoMightMatch, 0⟩], nmm := true } t := by
      apply parseLoop_next
      rw [skipSpace_spaces hs, skipSpace_cons (by decide) (by decide), parseStep]
      simp [hi, PState.add]
    obtain ⟨q, hq, ha⟩ := parseLoop_inText hi h { seq := [⟨Key.none, .NoMightMatch, 0⟩], nmm := true } [] false rfl hv hf rfl Ends.nil
    rw [List.append_nil] at hq
    rw [h1, hq]
    refine finish_in hi true e _ q [⟨Key.none, .NoMightMatch, 0⟩] rfl ?_ ⟨rfl, rfl, rfl, rfl⟩ hv hk rfl hvk ha
    intro x hx
    rw [List.mem_singleton.1 hx]
    show Key.none ≠ Key.ContextActive
    decide

/-! ### an expression -/

/-- the names in the example -/
private def exNames (n : Str) : Key :=
  match n with
  | ['A'] => Key.KeyA
  | ['B'] => Key.KeyB
  | ['C'] => Key.KeyC
  | ['D'] => Key.KeyD
  | _ => Key.none
private def exEnv : PEnv := { isInput := true, getKey := exNames, typer := genericTyper }

private theorem exName (c : Char) (k : Key) (h : exNames [c] = k ∧ k ≠ Key.none ∧ isIdentChar c = true ∧ beginsWithDelay [c] = false) :
    Names exNames [c] k :=
  ⟨by simp, by intro d hd; rw [List.mem_singleton.1 hd]; exact h.2.2.1, h.1, h.2.1, h.2.2.2⟩

private theorem sp0 : Spaces [] := by intro c h; cases h
private theorem sp1 : Spaces [' '] := by intro c h; rw [List.mem_singleton.1 h]; decide

/-- `(A B) !B !A C{ D !100ms } "xY"` -/
private def exExpr : InExpr :=
  .keys true [Key.KeyA, Key.KeyB] (.not Key.KeyB (.not Key.KeyA
    (.hold false [Key.KeyC] (.keys false [Key.KeyD] (.timeout true 100 .nil)) (.type ['x', 'Y'] .nil))))

private theorem exText : InText exNames exExpr "(A B) !B !A C{ D !100ms } \"xY\"".toList := by
  have hl : NameList exNames [Key.KeyA, Key.KeyB] ['A', ' ', 'B'] :=
    .cons (sp := []) (t := [' ', 'B']) sp0 (exName 'A' _ (by decide))
      (.cons (sp := [' ']) (t := []) sp1 (exName 'B' _ (by decide)) (.nil [] sp0) (by intro c d _ h; cases h))
      (by intro c d _ h; injection h with h; rw [← h]; right; decide)
  have hb : InText exNames (.keys false [Key.KeyD] (.timeout true 100 .nil)) " D !100ms ".toList :=
    .keys (sp := [' ']) (t := ['D']) (r := " !100ms ".toList) sp1 (.one (exName 'D' _ (by decide)))
      (.notTimeout (sp := [' ']) (ds := "100".toList) (r := [' ']) sp1 (by simp) (by decide) (by decide) (.nil sp1))
      (by intro c d _ h; injection h with h; rw [← h]; right; decide)
  have hh : InText exNames (.hold false [Key.KeyC] (.keys false [Key.KeyD] (.timeout true 100 .nil)) (.type ['x', 'Y'] .nil))
      " C{ D !100ms } \"xY\"".toList :=
    .hold (sp := [' ']) (t := ['C']) (sp' := []) (b := " D !100ms ".toList) (r := " \"xY\"".toList) sp1
      (.one (exName 'C' _ (by decide))) sp0 hb
      (.type (sp := [' ']) (r := []) sp1 (Or.inl rfl) (by decide) (.nil sp0))
  exact .keys (sp := []) (t := "(A B)".toList) (r := " !B !A C{ D !100ms } \"xY\"".toList) sp0 (.together hl)
    (.not (sp := [' ']) (name := ['B']) (r := " !A C{ D !100ms } \"xY\"".toList) sp1 (exName 'B' _ (by decide))
      (.not (sp := [' ']) (name := ['A']) (r := " C{ D !100ms } \"xY\"".toList) sp1 (exName 'A' _ (by decide)) hh
        (by intro c d _ h; injection h with h; rw [← h]; right; decide))
      (by intro c d _ h; injection h with h; rw [← h]; right; decide))
    (by intro c d h _; left; injection h with h; rw [← h]; decide)

private theorem exValid (flag : Bool) : exExpr.Valid genericTyper flag false false [] := by
  have ho : ∀ k ∈ [Key.KeyA, Key.KeyB, Key.KeyC, Key.KeyD], Outputable k := by
    intro k hk
    simp only [List.mem_cons, List.not_mem_nil, or_false] at hk
    rcases hk with rfl | rfl | rfl | rfl <;> exact ⟨by decide, by decide⟩
  refine ⟨⟨by simp, fun k hk => ho k ?_⟩, ho _ (by simp), by simp, ho _ (by simp), by simp, ⟨by simp, fun k hk => ho k ?_⟩,
    ⟨⟨by simp, fun k hk => ho k ?_⟩, rfl, fun _ => rfl, trivial⟩, ?_⟩
  · simp only [List.mem_cons, List.not_mem_nil, or_false] at hk ⊢; rcases hk with h | h <;> simp [h]
  · simp only [List.mem_cons, List.not_mem_nil, or_false] at hk ⊢; simp [hk]
  · simp only [List.mem_cons, List.not_mem_nil, or_false] at hk ⊢; simp [hk]
  · refine ⟨(genericTyper ['x', 'Y']).getD [], by decide +kernel, ?_, trivial⟩
    have : ∀ t ∈ (genericTyper ['x', 'Y']).getD [], t.key ≠ Key.timeout ∧ t.key ≠ Key.ContextActive := by decide +kernel
    exact this

/-- an expression with all kinds of terms: the hypotheses are fulfilled, and the events which are expected -/
example : parseSequence exEnv "(A B) !B !A C{ D !100ms } \"xY\"".toList = some (exExpr.meaning genericTyper false, []) :=
  C72_input exEnv rfl false exExpr _ (.plain exText) (exValid false) (by unfold exExpr InExpr.Fresh; simp [InExpr.Fresh]) rfl
    (by intro h; cases h)

example : exExpr.meaning genericTyper false =
    [⟨Key.KeyA, .DownAsync, 0⟩, ⟨Key.KeyB, .DownAsync, 0⟩, ⟨Key.KeyA, .Down, 0⟩, ⟨Key.KeyB, .Down, 0⟩, ⟨Key.KeyA, .UpAsync, 0⟩,
     ⟨Key.KeyB, .Up, 0⟩, ⟨Key.KeyA, .Up, 0⟩, ⟨Key.KeyC, .Down, 0⟩, ⟨Key.KeyD, .Down, 0⟩, ⟨Key.KeyD, .UpAsync, 0⟩,
     ⟨Key.timeout, .NotTimeout_cancel_on_up_down, 100⟩, ⟨Key.KeyC, .UpAsync, 0⟩, ⟨Key.KeyC, .Up, 0⟩] ++
    expectTyped false true {} [⟨Key.KeyX, {}, 0⟩, ⟨Key.KeyY, { shift := true }, 0⟩] := by
  decide +kernel

/-- the same with `?` -/
example : parseSequence exEnv "?(A B) !B !A C{ D !100ms } \"xY\"".toList = some (exExpr.meaning genericTyper true, []) :=
  C72_input exEnv rfl true exExpr _ (.flag (sp := []) sp0 exText) (exValid true) (by unfold exExpr InExpr.Fresh; simp [InExpr.Fresh]) rfl
    (by intro _; decide +kernel)

end KM
