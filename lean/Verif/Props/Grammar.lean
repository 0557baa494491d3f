import Verif.Lemmas.GrammarEvents
import Verif.Model.KeyName
/-!
# C71: output expressions mean what the grammar says
-/
namespace KM

private theorem after_hasMod (env : PEnv) (e : OutExpr) : ∀ p : PState,
    (p.after env e).hasMod = (p.hasMod || e.usesModifiers env.typer) := by
  induction e with
  | nil => intro p; simp [PState.after, OutExpr.usesModifiers]
  | hold c body rest ihb ihr =>
    intro p
    rw [PState.after, ihr]
    have : (PState.after env { p.flush false true with buffer := c }.openBraces body).closeBraces.hasMod = true := by
      unfold PState.closeBraces PState.release
      simp only [flush_hasMod, ihb]
      unfold PState.openBraces
      simp
    rw [this]; simp [OutExpr.usesModifiers]
  | keys c rest ih => intro p; rw [PState.after, ih]; simp only [flush_hasMod, OutExpr.usesModifiers]
  | not k rest ih => intro p; rw [PState.after, ih]; simp only [PState.add, PState.removePressed, flush_hasMod, OutExpr.usesModifiers]
  | delay ms rest ih => intro p; rw [PState.after, ih]; simp only [flush_hasMod, OutExpr.usesModifiers]
  | type s rest ih => intro p; rw [PState.after]; simp only [ih, OutExpr.usesModifiers, Bool.or_assoc]
  | run c rest ih => intro p; rw [PState.after, ih]; simp only [PState.add, flush_hasMod, OutExpr.usesModifiers]
  | onRelease rest ih => intro p; rw [PState.after, ih]; simp only [PState.add, flush_hasMod, OutExpr.usesModifiers]

private theorem after_actions (env : PEnv) (e : OutExpr) : e.Valid env.typer → ∀ p : PState,
    (p.after env e).actions = p.actions ++ e.commands := by
  induction e with
  | nil => intro _ p; simp [PState.after, OutExpr.commands]
  | hold c body rest ihb ihr =>
    intro hv p
    obtain ⟨-, -, h3, h4⟩ := hv
    rw [PState.after, ihr h4, (PState.closeBraces_eq _).2.2.2.2.2, (after_noCommands env body h3 _).1, (PState.openBraces_eq _).2.2.2.2.2]
    simp only [flush_actions, OutExpr.commands]
  | keys c rest ih => intro hv p; rw [PState.after, ih hv.2]; simp only [flush_actions, OutExpr.commands]
  | not k rest ih => intro hv p; rw [PState.after, ih hv.2]; simp only [PState.add, PState.removePressed, flush_actions, OutExpr.commands]
  | delay ms rest ih => intro hv p; rw [PState.after, ih hv]; simp only [flush_actions, OutExpr.commands]
  | type s rest ih => intro hv p; rw [PState.after]; simp only [ih hv.2, flush_actions, OutExpr.commands]
  | run c rest ih => intro hv p; rw [PState.after, ih hv]; simp [OutExpr.commands]
  | onRelease rest ih => intro hv p; rw [PState.after, ih hv]; simp only [PState.add, flush_actions, OutExpr.commands]

private theorem dropWhile_isEmpty (p : KeyEvent → Bool) (l : KeySequence) : (l.dropWhile p).isEmpty = l.all p := by
  induction l with
  | nil => rfl
  | cons e l ih =>
    rw [List.dropWhile_cons, List.all_cons]
    cases h : p e with
    | true => simpa using ih
    | false => simp

private theorem pressedAtOnce_eq (l : KeySequence) : allPressedAtOnce l = pressedAtOnce l := by
  induction l with
  | nil => rfl
  | cons e l ih =>
    unfold allPressedAtOnce at ih ⊢
    rw [pressedAtOnce]
    by_cases h : e.state = .Up
    · rw [if_pos (by simpa using h), List.dropWhile_cons_of_neg (by simp [h]), List.dropWhile_cons_of_pos (by simp [h])]
      exact dropWhile_isEmpty _ l
    · rw [if_neg (by simpa using h), List.dropWhile_cons_of_pos (by simpa using h)]
      exact ih

private theorem events_keys (typer : Typer) (e : OutExpr) : e.Valid typer → ∀ g n, ∀ x ∈ e.events typer g n, x.key ≠ Key.ContextActive := by
  have hpress : ∀ c : List Key, (∀ k ∈ c, Outputable k) → ∀ x ∈ pressKeys c, x.key ≠ Key.ContextActive := by
    intro c h x hx
    obtain ⟨k, hk, rfl⟩ := List.mem_map.1 hx
    exact (h k hk).2
  have hrel : ∀ c : List Key, (∀ k ∈ c, Outputable k) → ∀ x ∈ releaseKeys c, x.key ≠ Key.ContextActive := by
    intro c h x hx
    obtain ⟨k, hk, rfl⟩ := List.mem_map.1 hx
    exact (h k hk).2
  have hrev : ∀ c : List Key, (∀ k ∈ c, Outputable k) → ∀ x ∈ releaseKeys c.reverse, x.key ≠ Key.ContextActive :=
    fun c h => hrel c.reverse (fun k hk => h k (by simpa using hk))
  induction e with
  | nil => intro _ g n x hx; cases hx
  | keys c rest ih =>
    intro hv g n x hx
    rw [OutExpr.events] at hx
    split at hx
    · rcases List.mem_append.1 hx with hx | hx
      · rcases List.mem_append.1 hx with hx | hx
        · exact hpress c hv.1.2 x hx
        · exact ih hv.2 g n x hx
      · exact hrev c hv.1.2 x hx
    · rcases List.mem_append.1 hx with hx | hx
      · rcases List.mem_append.1 hx with hx | hx
        · exact hpress c hv.1.2 x hx
        · exact hrel c hv.1.2 x hx
      · exact ih hv.2 g n x hx
  | hold c body rest ihb ihr =>
    intro hv g n x hx
    obtain ⟨h1, h2, -, h4⟩ := hv
    rw [OutExpr.events] at hx
    rcases List.mem_append.1 hx with hx | hx
    · rcases List.mem_append.1 hx with hx | hx
      · rcases List.mem_append.1 hx with hx | hx
        · exact hpress c h1.2 x hx
        · exact ihb h2 _ n x hx
      · exact hrev c h1.2 x hx
    · exact ihr h4 g n x hx
  | not k rest ih =>
    intro hv g n x hx
    rw [OutExpr.events] at hx
    rcases List.mem_cons.1 hx with rfl | hx
    · exact hv.1.2
    · exact ih hv.2 g n x hx
  | delay ms rest ih =>
    intro hv g n x hx
    rw [OutExpr.events] at hx
    rcases List.mem_cons.1 hx with rfl | hx
    · show Key.timeout ≠ Key.ContextActive
      decide
    · exact ih hv g n x hx
  | type s rest ih =>
    intro hv g n x hx
    obtain ⟨⟨keys, hk1, hk2⟩, hv⟩ := hv
    rw [OutExpr.events, hk1] at hx
    rcases List.mem_append.1 hx with hx | hx
    · rcases List.mem_append.1 hx with hx | hx
      · split at hx
        · cases hx
        · rw [List.mem_singleton.1 hx]; exact fun h => absurd h (by decide)
      · exact (typeKeys_keys keys hk2 {} x hx).2
    · exact ih hv g n x hx
  | run c rest ih =>
    intro hv g n x hx
    rw [OutExpr.events] at hx
    rcases List.mem_cons.1 hx with rfl | hx
    · show (61952 + n : Nat) ≠ 61442
      omega
    · exact ih hv g (n + 1) x hx
  | onRelease rest ih =>
    intro hv g n x hx
    rw [OutExpr.events] at hx
    rcases List.mem_cons.1 hx with rfl | hx
    · simp
    · exact ih hv g n x hx

private theorem appendAll_keys (m : KeySequence) : ∀ l, (∀ x ∈ l, x.key ≠ Key.ContextActive) → (∀ x ∈ m, x.key ≠ Key.ContextActive) →
    ∀ x ∈ appendAll l m, x.key ≠ Key.ContextActive := by
  induction m with
  | nil => intro l h _; exact h
  | cons e m ih =>
    intro l hl hm
    refine ih (appendEvent l e) ?_ (fun x hx => hm x (by simp [hx]))
    intro x hx
    have h1 : ∀ x ∈ l ++ [e], x.key ≠ Key.ContextActive := by
      intro x hx
      rcases List.mem_append.1 hx with hx | hx
      · exact hl x hx
      · rw [List.mem_singleton.1 hx]; exact hm e (by simp)
    unfold appendEvent at hx
    split at hx
    · next d hd =>
      split at hx
      · rcases List.mem_append.1 hx with hx | hx
        · exact hl x (List.dropLast_subset _ hx)
        · rw [List.mem_singleton.1 hx]
          exact hl d (List.mem_of_getLast? hd)
      · exact h1 x hx
    · exact h1 x hx

/-- **C71** The text of an output expression is parsed to what the expression means, whatever spaces are used. -/
theorem C71_output (env : PEnv) (hi : env.isInput = false) (hc : env.addCommands = true) (e : OutExpr) (t : Str)
    (ht : OutText env.getKey e t) (hv : e.Valid env.typer) (hr : e.releases ≤ 1) (hf : e.Fresh []) :
    parseSequence env t = some (e.meaning env.typer env.actionBase, e.commands) := by
  have h1 := parseLoop_text hi hc ht {} [] rfl rfl hv (by intro h; exact absurd rfl h) (by simpa using hr) Ends.nil
  rw [List.append_nil] at h1
  obtain ⟨a1, a2, a3, a4⟩ := after_same env e {}
  obtain ⟨extra, e1, e2⟩ := after_events env e {} hv (by intro k hk; cases hk) (by intro h; exact absurd rfl h)
    (fresh_keys_nil _ _ hf)
  have hm := after_hasMod env e {}
  have hact := after_actions env e hv {}
  generalize ({} : PState).after env e = q at *
  have hdone : parseLoop env q [] = some (q.flush false true) := by
    rw [parseLoop]
    have : parseStep env q (skipSpace []) = .done (q.flush false true) := by
      rw [skipSpace]
      unfold parseStep parseTimeoutOrKey parseKey
      simp [tryReadTimeout, tryReadNumber, hi]
    rw [this]
  have hev : (OutExpr.keys ([] : List Key) e).events env.typer false (env.actionBase + 0) = e.events env.typer false env.actionBase := by
    rw [events_keys_nil, Nat.add_zero]
  have e2' : joinDelays (e.events env.typer false env.actionBase) = (q.flush false true).seq ++ releaseKeys extra.reverse := by
    rw [← e2]
    show appendAll [] _ = _
    rw [← hev]; rfl
  have hrelease : (q.flush false true).release false 0 = { q.flush false true with
      seq := joinDelays (e.events env.typer false env.actionBase), pressed := [] } := by
    rw [e2', PState.release]
    simp only [List.drop_zero, List.take_zero, Bool.false_eq_true, if_false]
    rw [e1]
    rfl
  have hctx : ∀ l : KeySequence, (∀ x ∈ l, x ∈ joinDelays (e.events env.typer false env.actionBase)) →
      checkContextActive false l = some l := by
    intro l hl
    rw [checkContextActive, if_neg]
    rw [List.any_eq_true]
    rintro ⟨x, hx, hk⟩
    exact appendAll_keys _ [] (by intro x hx; cases hx) (events_keys env.typer e hv false env.actionBase) x (hl x hx) (beq_iff_eq.1 hk)
  rw [parseSequence, h1, hdone]
  simp only []
  rw [parseFinish]
  simp only [flush_together, a1, flush_group, a3, bne_self_eq_false, Bool.false_eq_true, if_false, hi, hrelease, flush_hasMod, hm,
    Bool.false_or, Bool.false_and]
  rw [pressedAtOnce_eq, OutExpr.meaning]
  split
  · simp only [flush_nmm, a2, Bool.false_and, Bool.false_eq_true, if_false, flush_actions, hact, List.nil_append]
    have : removeAllFromEnd (joinDelays (e.events env.typer false env.actionBase)) .Up =
        withoutLastReleases (joinDelays (e.events env.typer false env.actionBase)) := rfl
    rw [this, hctx]
    · rfl
    · intro x hx
      unfold withoutLastReleases at hx
      rw [List.mem_reverse] at hx
      exact List.mem_reverse.1 ((List.dropWhile_sublist _).subset hx)
  · simp only [flush_nmm, a2, Bool.false_and, Bool.false_eq_true, if_false, flush_actions, hact, List.nil_append]
    rw [hctx _ (fun x hx => hx)]
    rfl

/-- outputs do not contain `ContextActive` -/
theorem meaning_noContextActive {typer : Typer} {o : OutExpr} (hv : o.Valid typer) (n : Nat) :
    (o.meaning typer n).any (fun e => e.key == Key.ContextActive) = false := by
  rw [Bool.eq_false_iff]
  intro h
  rw [List.any_eq_true] at h
  obtain ⟨x, hx, hk⟩ := h
  refine appendAll_keys _ [] (by intro x hx; cases hx) (events_keys typer o hv false n) x ?_ (beq_iff_eq.1 hk)
  rw [OutExpr.meaning] at hx
  split at hx
  · unfold withoutLastReleases at hx
    rw [List.mem_reverse] at hx
    exact List.mem_reverse.1 ((List.dropWhile_sublist _).subset hx)
  · exact hx

/-! ### an expression -/

/-- the names in the examples -/
private def exNames (n : Str) : Key :=
  match n with
  | ['A'] => Key.KeyA
  | ['B'] => Key.KeyB
  | ['C'] => Key.KeyC
  | ['D'] => Key.KeyD
  | _ => Key.none
private def exEnv : PEnv := ⟨false, exNames, genericTyper, true, 0⟩

private theorem exName (c : Char) (k : Key) (h : exNames [c] = k ∧ k ≠ Key.none ∧ isIdentChar c = true ∧ beginsWithDelay [c] = false) :
    Names exNames [c] k :=
  ⟨by simp, by intro d hd; rw [List.mem_singleton.1 hd]; exact h.2.2.1, h.1, h.2.1, h.2.2.2⟩

/-- `A{ (B C) 10ms "xY" } 5ms5ms $(run (this)) ^ D !A C` -/
private def exExpr : OutExpr :=
  .hold [Key.KeyA] (.keys [Key.KeyB, Key.KeyC] (.delay 10 (.type ['x', 'Y'] .nil)))
    (.delay 5 (.delay 5 (.run "run (this)".toList (.onRelease (.keys [Key.KeyD] (.not Key.KeyA (.keys [Key.KeyC] .nil)))))))

private theorem sp0 : Spaces [] := by intro c h; cases h
private theorem sp1 : Spaces [' '] := by intro c h; rw [List.mem_singleton.1 h]; decide

private theorem exText : OutText exNames exExpr "A{ (B C) 10ms \"xY\" }5ms5ms $(run (this)) ^ D !A C".toList := by
  have hl : NameList exNames [Key.KeyB, Key.KeyC] ['B', ' ', 'C'] :=
    .cons (sp := []) (t := [' ', 'C']) sp0 (exName 'B' _ (by decide))
      (.cons (sp := [' ']) (t := []) sp1 (exName 'C' _ (by decide)) (.nil [] sp0) (by intro c d _ h; cases h))
      (by intro c d _ h; injection h with h; rw [← h]; right; decide)
  have hb : OutText exNames (.keys [Key.KeyB, Key.KeyC] (.delay 10 (.type ['x', 'Y'] .nil))) " (B C) 10ms \"xY\" ".toList :=
    .keys (sp := [' ']) (t := "(B C)".toList) sp1 (.together hl)
      (.delay (sp := [' ']) (ds := ['1', '0']) sp1 (by simp) (by decide) (by decide)
        (.type (sp := [' ']) (r := [' ']) sp1 (Or.inl rfl) (by decide) (.nil sp1)))
      (by intro c d h _; left; injection h with h; rw [← h]; decide)
  have hr : OutText exNames (.delay 5 (.delay 5 (.run "run (this)".toList (.onRelease (.keys [Key.KeyD] (.not Key.KeyA (.keys [Key.KeyC] .nil)))))))
      "5ms5ms $(run (this)) ^ D !A C".toList :=
    .delay (sp := []) (ds := ['5']) sp0 (by simp) (by decide) (by decide)
      (.delay (sp := []) (ds := ['5']) sp0 (by simp) (by decide) (by decide)
        (.run (sp := [' ']) (command := "run (this)".toList) sp1 (by decide)
          (.onRelease (sp := [' ']) sp1
            (.keys (sp := [' ']) sp1 (.one (exName 'D' _ (by decide)))
              (.not (sp := [' ']) sp1 (exName 'A' _ (by decide))
                (.keys (sp := [' ']) sp1 (.one (exName 'C' _ (by decide))) (.nil sp0) (by intro c d _ h; cases h))
                (by intro c d _ h; injection h with h; rw [← h]; right; decide))
              (by intro c d _ h; injection h with h; rw [← h]; right; decide)))))
  exact .hold (sp := []) (sp' := []) (t := ['A']) sp0 (.one (exName 'A' _ (by decide))) sp0 hb hr

-- the parser and the meaning agree, and the meaning is the expected one
example : parseSequence exEnv "A{ (B C) 10ms \"xY\" }5ms5ms $(run (this)) ^ D !A C".toList = some (
    [⟨Key.KeyA, .Down, 0⟩, ⟨Key.KeyB, .Down, 0⟩, ⟨Key.KeyC, .Down, 0⟩, ⟨Key.KeyB, .Up, 0⟩, ⟨Key.KeyC, .Up, 0⟩,
     ⟨Key.timeout, .Down, 10⟩, ⟨Key.KeyX, .Down, 0⟩, ⟨Key.KeyX, .Up, 0⟩, ⟨Key.Shift, .Down, 0⟩, ⟨Key.KeyY, .Down, 0⟩, ⟨Key.KeyY, .Up, 0⟩,
     ⟨Key.Shift, .Up, 0⟩, ⟨Key.KeyA, .Up, 0⟩, ⟨Key.timeout, .Down, 10⟩, ⟨Key.first_action, .Down, 0⟩, ⟨Key.none, .OutputOnRelease, 0⟩,
     ⟨Key.KeyD, .Down, 0⟩, ⟨Key.KeyA, .Not, 0⟩, ⟨Key.KeyC, .Down, 0⟩, ⟨Key.KeyC, .Up, 0⟩, ⟨Key.KeyD, .Up, 0⟩], ["run (this)".toList]) := by
  have hg : genericTyper ['x', 'Y'] = some [⟨Key.KeyX, {}, 0⟩, ⟨Key.KeyY, { shift := true }, 0⟩] := by decide +kernel
  rw [C71_output exEnv rfl rfl exExpr _ exText]
  · decide +kernel
  · have hk : ∀ k ∈ [Key.KeyA, Key.KeyB, Key.KeyC, Key.KeyD, Key.KeyX, Key.KeyY], Outputable k := by unfold Outputable; decide
    refine ⟨⟨by simp, fun k hk' => hk k (by simp_all)⟩, ⟨⟨by simp, fun k hk' => hk k ?_⟩, ⟨_, hg, ?_⟩, trivial⟩, trivial,
      ⟨by simp, fun k hk' => hk k ?_⟩, hk _ (by simp), ⟨by simp, fun k hk' => hk k ?_⟩, trivial⟩
    · revert k; decide
    · intro t ht
      exact hk _ (by revert t; decide)
    · revert k; decide
    · revert k; decide
  · decide
  · simp [exExpr, OutExpr.Fresh, OutExpr.beginsWithNot]
    decide

/-- **C71** The condition that a held key is not pressed again is needed: in `A{B{A} C}` the key `B` is held longer than its
braces, so that `C` is pressed with `B` held. -/
theorem C71_held_counterexample : (parseSequence exEnv "A{B{A} C}".toList).map (·.1) = some
    [⟨Key.KeyA, .Down, 0⟩, ⟨Key.KeyB, .Down, 0⟩, ⟨Key.KeyA, .Down, 0⟩, ⟨Key.KeyA, .Up, 0⟩, ⟨Key.KeyC, .Down, 0⟩, ⟨Key.KeyC, .Up, 0⟩,
     ⟨Key.KeyB, .Up, 0⟩] := by decide +kernel

end KM
