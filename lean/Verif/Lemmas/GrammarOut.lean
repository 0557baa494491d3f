import Verif.Lemmas.GrammarText
/-!
# Parsing the texts of output expressions
-/
namespace KM

/-! ### the effects of the terms on the parser -/

/-- `{` -/
def PState.openBraces (p : PState) : PState :=
  { { p with before := p.pressed.length :: p.before }.flush false false with group := p.group + 1, hasMod := true }

/-- `}` -/
def PState.closeBraces (p : PState) : PState :=
  { (p.flush false true).release false (p.before.headD 0) with before := p.before.tail, group := p.group - 1 }

/-- the parser after an expression -/
def PState.after (env : PEnv) : PState → OutExpr → PState
  | p, .nil => p
  | p, .keys c rest => PState.after env { p.flush false true with buffer := c } rest
  | p, .hold c body rest =>
    PState.after env (PState.after env { p.flush false true with buffer := c }.openBraces body).closeBraces rest
  | p, .not k rest => PState.after env (((p.flush false false).removePressed k).add k .Not) rest
  | p, .delay ms rest =>
    PState.after env { p.flush false true with seq := appendEvent (p.flush false true).seq ⟨Key.timeout, .Down, ms⟩ } rest
  | p, .type s rest =>
    let keys := (env.typer s).getD []
    PState.after env { p.flush false true with
      seq := (p.flush false true).seq ++ ((if p.group = 0 then [⟨Key.any, .Not, 0⟩] else []) ++ typeKeys {} keys)
      hasMod := p.hasMod || keys.any (fun t => t.mods != {}) } rest
  | p, .run c rest =>
    PState.after env { (p.flush false true).add (Key.first_action + env.actionBase + p.actions.length) .Down with
      actions := p.actions ++ [c] } rest
  | p, .onRelease rest =>
    PState.after env { (p.flush false true).add Key.none .OutputOnRelease with onRelease := true } rest

theorem flush_together (p : PState) (a b : Bool) : (p.flush a b).together = p.together := by
  unfold PState.flush; split <;> (try split) <;> rfl

theorem PState.openBraces_eq (p : PState) : p.openBraces.together = p.together ∧ p.openBraces.nmm = p.nmm ∧
    p.openBraces.onRelease = p.onRelease ∧ p.openBraces.group = p.group + 1 ∧ p.openBraces.before = p.pressed.length :: p.before ∧
    p.openBraces.actions = p.actions := by
  unfold PState.openBraces PState.flush
  simp

theorem PState.closeBraces_eq (p : PState) : p.closeBraces.together = p.together ∧ p.closeBraces.nmm = p.nmm ∧
    p.closeBraces.onRelease = p.onRelease ∧ p.closeBraces.group = p.group - 1 ∧ p.closeBraces.before = p.before.tail ∧
    p.closeBraces.actions = p.actions := by
  unfold PState.closeBraces PState.flush PState.release
  simp

/-- what an expression does not change -/
theorem after_same (env : PEnv) (e : OutExpr) : ∀ p : PState, (p.after env e).together = p.together ∧ (p.after env e).nmm = p.nmm ∧
    (p.after env e).group = p.group ∧ (p.after env e).before = p.before := by
  induction e with
  | nil => intro p; exact ⟨rfl, rfl, rfl, rfl⟩
  | hold c body rest ihb ihr =>
    intro p
    rw [PState.after]
    obtain ⟨h1, h2, h3, h4⟩ := ihr (PState.after env { p.flush false true with buffer := c }.openBraces body).closeBraces
    obtain ⟨g1, g2, g3, g4⟩ := ihb { p.flush false true with buffer := c }.openBraces
    obtain ⟨c1, c2, -, c4, c5, -⟩ := PState.closeBraces_eq (PState.after env { p.flush false true with buffer := c }.openBraces body)
    obtain ⟨o1, o2, -, o4, o5, -⟩ := PState.openBraces_eq { p.flush false true with buffer := c }
    rw [h1, h2, h3, h4, c1, c2, c4, c5, g1, g2, g3, g4, o1, o2, o4, o5]
    simp only [flush_together, flush_nmm, flush_group, flush_before, List.tail_cons, Nat.add_sub_cancel, and_self]
  | keys c rest ih =>
    intro p; rw [PState.after]
    obtain ⟨h1, h2, h3, h4⟩ := ih { p.flush false true with buffer := c }
    rw [h1, h2, h3, h4]
    simp only [flush_together, flush_nmm, flush_group, flush_before, and_self]
  | not k rest ih =>
    intro p; rw [PState.after]
    obtain ⟨h1, h2, h3, h4⟩ := ih (((p.flush false false).removePressed k).add k .Not)
    rw [h1, h2, h3, h4]
    simp only [PState.add, PState.removePressed, flush_together, flush_nmm, flush_group, flush_before, and_self]
  | delay ms rest ih =>
    intro p; rw [PState.after]
    obtain ⟨h1, h2, h3, h4⟩ := ih { p.flush false true with seq := appendEvent (p.flush false true).seq ⟨Key.timeout, .Down, ms⟩ }
    rw [h1, h2, h3, h4]
    simp only [flush_together, flush_nmm, flush_group, flush_before, and_self]
  | type s rest ih =>
    intro p; rw [PState.after]
    simp only []
    have := ih { p.flush false true with
      seq := (p.flush false true).seq ++ ((if p.group = 0 then [⟨Key.any, .Not, 0⟩] else []) ++ typeKeys {} ((env.typer s).getD []))
      hasMod := p.hasMod || ((env.typer s).getD []).any (fun t => t.mods != {}) }
    obtain ⟨h1, h2, h3, h4⟩ := this
    rw [h1, h2, h3, h4]
    simp only [flush_together, flush_nmm, flush_group, flush_before, and_self]
  | run c rest ih =>
    intro p; rw [PState.after]
    obtain ⟨h1, h2, h3, h4⟩ := ih { (p.flush false true).add (Key.first_action + env.actionBase + p.actions.length) .Down with
      actions := p.actions ++ [c] }
    rw [h1, h2, h3, h4]
    simp only [PState.add, flush_together, flush_nmm, flush_group, flush_before, and_self]
  | onRelease rest ih =>
    intro p; rw [PState.after]
    obtain ⟨h1, h2, h3, h4⟩ := ih { (p.flush false true).add Key.none .OutputOnRelease with onRelease := true }
    rw [h1, h2, h3, h4]
    simp only [PState.add, flush_together, flush_nmm, flush_group, flush_before, and_self]

/-- within braces there are no terminal commands -/
theorem after_noCommands (env : PEnv) (e : OutExpr) : e.noCommands → ∀ p : PState, (p.after env e).actions = p.actions ∧
    (p.after env e).onRelease = p.onRelease := by
  induction e with
  | nil => intro _ p; exact ⟨rfl, rfl⟩
  | hold c body rest ihb ihr =>
    intro hv p
    rw [PState.after]
    obtain ⟨h1, h2⟩ := ihr hv.2 (PState.after env { p.flush false true with buffer := c }.openBraces body).closeBraces
    obtain ⟨g1, g2⟩ := ihb hv.1 { p.flush false true with buffer := c }.openBraces
    obtain ⟨-, -, c3, -, -, c6⟩ := PState.closeBraces_eq (PState.after env { p.flush false true with buffer := c }.openBraces body)
    obtain ⟨-, -, o3, -, -, o6⟩ := PState.openBraces_eq { p.flush false true with buffer := c }
    rw [h1, h2, c3, c6, g1, g2, o3, o6]
    simp only [flush_actions, flush_onRelease, and_self]
  | keys c rest ih =>
    intro hv p; rw [PState.after]
    obtain ⟨h1, h2⟩ := ih hv { p.flush false true with buffer := c }
    rw [h1, h2]
    simp only [flush_actions, flush_onRelease, and_self]
  | not k rest ih =>
    intro hv p; rw [PState.after]
    obtain ⟨h1, h2⟩ := ih hv (((p.flush false false).removePressed k).add k .Not)
    rw [h1, h2]
    simp only [PState.add, PState.removePressed, flush_actions, flush_onRelease, and_self]
  | delay ms rest ih =>
    intro hv p; rw [PState.after]
    obtain ⟨h1, h2⟩ := ih hv { p.flush false true with seq := appendEvent (p.flush false true).seq ⟨Key.timeout, .Down, ms⟩ }
    rw [h1, h2]
    simp only [flush_actions, flush_onRelease, and_self]
  | type s rest ih =>
    intro hv p; rw [PState.after]
    simp only []
    have := ih hv { p.flush false true with
      seq := (p.flush false true).seq ++ ((if p.group = 0 then [⟨Key.any, .Not, 0⟩] else []) ++ typeKeys {} ((env.typer s).getD []))
      hasMod := p.hasMod || ((env.typer s).getD []).any (fun t => t.mods != {}) }
    obtain ⟨h1, h2⟩ := this
    rw [h1, h2]
    simp only [flush_actions, flush_onRelease, and_self]
  | run c rest ih => intro hv; exact hv.elim
  | onRelease rest ih => intro hv; exact hv.elim

/-! ### typing -/

theorem changeModifiers_eq (a b : Mods) :
    (List.zip a.list b.list).flatMap (fun (p, n) => pressOutput p.1 n.1 p.2) = changeModifiers a b := by
  obtain ⟨a1, a2, a3, a4⟩ := a
  obtain ⟨b1, b2, b3, b4⟩ := b
  revert a1 a2 a3 a4 b1 b2 b3 b4
  decide +kernel

theorem releaseModifiers_eq (a : Mods) :
    (a.list.filter (·.1)).map (fun m => (⟨m.2, .Up, 0⟩ : KeyEvent)) = changeModifiers a {} := by
  obtain ⟨a1, a2, a3, a4⟩ := a
  revert a1 a2 a3 a4
  decide +kernel

theorem nonZero_eq (m : Mods) : m.nonZero = (m != {}) := by
  obtain ⟨a1, a2, a3, a4⟩ := m
  revert a1 a2 a3 a4
  decide +kernel

theorem typeOutputGo_eq (keys : List TypedKey) : ∀ old : Mods,
    (typeOutputGo old keys).1 ++ ((typeOutputGo old keys).2.1.list.filter (·.1)).map (fun m => (⟨m.2, .Up, 0⟩ : KeyEvent)) = typeKeys old keys ∧
    (typeOutputGo old keys).2.2 = keys.any (fun t => t.mods != {}) := by
  induction keys with
  | nil =>
    intro old
    refine ⟨?_, rfl⟩
    simp only [typeOutputGo, List.nil_append, typeKeys]
    exact releaseModifiers_eq old
  | cons t ts ih =>
    intro old
    obtain ⟨h1, h2⟩ := ih t.mods
    rw [typeOutputGo]
    simp only []
    refine ⟨?_, ?_⟩
    · rw [typeKeys, ← h1, changeModifiers_eq]
      simp only [List.append_assoc]
    · rw [h2, List.any_cons, nonZero_eq]

theorem typeOutput_eq (typer : Typer) (s : Str) (g : Bool) (keys : List TypedKey) (h : typer s = some keys) :
    typeOutput typer s g = some ((if g then [] else [⟨Key.any, .Not, 0⟩]) ++ typeKeys {} keys, keys.any (fun t => t.mods != {})) := by
  obtain ⟨h1, h2⟩ := typeOutputGo_eq keys {}
  rw [typeOutput, h]
  simp only []
  rw [← h1, ← h2]
  simp only [List.append_assoc]

/-! ### terminal commands -/

theorem readCommand_text (cmd : Str) : ∀ (n : Nat) (acc r : Str), parensMatch n cmd = true →
    readCommand (n + 1) acc (cmd ++ ')' :: r) = some (acc.reverse ++ cmd, r) := by
  induction cmd with
  | nil =>
    intro n acc r h
    cases n with
    | zero =>
      rw [List.nil_append, readCommand]
      simp [readCommand]
    | succ n => simp [parensMatch] at h
  | cons c cmd ih =>
    intro n acc r h
    rw [List.cons_append, readCommand]
    rw [parensMatch] at h
    split at h
    · next hc =>
      rw [if_pos hc, ih (n + 1) (c :: acc) r h]
      simp
    · next hc =>
      rw [if_neg hc]
      split at h
      · next hc' =>
        rw [if_pos hc']
        cases n with
        | zero => simp at h
        | succ n =>
          simp only [Nat.add_sub_cancel, Bool.and_eq_true] at h
          rw [ih n (c :: acc) r h.2]
          simp
      · next hc' =>
        rw [if_neg hc', ih n (c :: acc) r h]
        simp

theorem skipUntil_quoted (q : Char) (s r : Str) (h : q ∉ s) : skipUntil [q] (s ++ q :: r) = some r := by
  induction s with
  | nil => simp [skipUntil, skipStr]
  | cons c s ih =>
    rw [List.cons_append, skipUntil]
    have hc : (q == c) = false := by
      rw [beq_eq_false_iff_ne]; intro e; exact h (by simp [e])
    simp only [skipStr, hc, Bool.false_eq_true, if_false]
    exact ih (fun hm => h (by simp [hm]))

theorem KeysText.ne_nil {getKey : Str → Key} {c : List Key} {t : Str} (h : KeysText getKey c t) : t ≠ [] := by
  cases h with
  | one hn => exact hn.nonempty
  | together h => simp

theorem withKeys_out (p : PState) (t : Str) (c : List Key) : p.withKeys false t c = { p.flush false true with buffer := c } := by
  unfold PState.withKeys
  simp

/-- Reading the text of an expression -/
theorem parseLoop_text {env : PEnv} (hi : env.isInput = false) (hc : env.addCommands = true) {e : OutExpr} {t : Str}
    (h : OutText env.getKey e t) : ∀ (p : PState) (k : Str), p.together = false → p.nmm = false → e.Valid env.typer →
    (p.group ≠ 0 → e.noCommands) → e.releases + (if p.onRelease then 1 else 0) ≤ 1 → Ends k →
    parseLoop env p (t ++ k) = parseLoop env (p.after env e) k := by
  induction h with
  | nil hs =>
    intro p k _ _ _ _ _ _
    exact parseLoop_skipSpace (skipSpace_spaces hs k)
  | @keys sp c t rest r hs hct hr ha ih =>
    intro p k hp hn hv hg hrel hk
    have hlast : (∀ d, t.getLast? = some d → isIdentChar d = true) → Ends (r ++ k) := fun h => ha.ends h hct.ne_nil hk
    rw [List.append_assoc, parseLoop_keys hct p sp (r ++ k) hs hp hlast, hi, withKeys_out, PState.after]
    exact ih _ k (by simpa [flush_together] using hp) (by simpa [flush_nmm] using hn) hv.2 (by simpa [flush_group, OutExpr.noCommands] using hg)
      (by simpa [flush_onRelease, OutExpr.releases] using hrel) hk
  | @hold sp c t sp' body b rest r hs hct hs' hb hr ihb ihr =>
    intro p k hp hn hv hg hrel hk
    obtain ⟨hv1, hv2, hv3, hv4⟩ := hv
    have hlast : (∀ d, t.getLast? = some d → isIdentChar d = true) → Ends (sp' ++ '{' :: b ++ '}' :: r ++ k) := by
      intro _
      cases sp' with
      | nil => exact Ends.cons (by decide)
      | cons d sp' =>
        intro x hx
        simp only [List.cons_append, List.head?_cons, Option.some.injEq] at hx
        cases hxi : isIdentChar x with
        | false => rfl
        | true =>
          have h1 := (isIdentChar_cases hxi).1
          rw [← hx, hs' d (by simp)] at h1
          cases h1
    have e1 : sp ++ t ++ sp' ++ '{' :: b ++ '}' :: r ++ k = sp ++ t ++ (sp' ++ '{' :: b ++ '}' :: r ++ k) := by simp
    rw [e1, parseLoop_keys hct p sp _ hs hp hlast, hi, withKeys_out, PState.after]
    have hgp : ({ p.flush false true with buffer := c } : PState).group = p.group := flush_group p _ _
    have htg : ({ p.flush false true with buffer := c } : PState).together = false := by rw [← hp]; exact flush_together p _ _
    have hnm : ({ p.flush false true with buffer := c } : PState).nmm = false := by rw [← hn]; exact flush_nmm p _ _
    have hor : ({ p.flush false true with buffer := c } : PState).onRelease = p.onRelease := flush_onRelease p _ _
    have hbuf : ({ p.flush false true with buffer := c } : PState).buffer = c := rfl
    generalize ({ p.flush false true with buffer := c } : PState) = p1 at *
    obtain ⟨o1, o2, o3, o4, o5, o6⟩ := PState.openBraces_eq p1
    have hopen : parseLoop env p1 (sp' ++ '{' :: b ++ '}' :: r ++ k) = parseLoop env p1.openBraces (b ++ ('}' :: r ++ k)) := by
      apply parseLoop_next
      have e2 : sp' ++ '{' :: b ++ '}' :: r ++ k = sp' ++ '{' :: (b ++ ('}' :: r ++ k)) := by simp
      rw [e2, skipSpace_spaces hs', skipSpace_cons (by decide) (by decide), parseStep,
        parseGroupBegin]
      have hpr : (({ p1 with before := p1.pressed.length :: p1.before } : PState).flush false false).pressed.isEmpty = false := by
        unfold PState.flush
        simp only [Bool.false_eq_true, if_false, hbuf]
        cases c with
        | nil => exact absurd rfl hv1.1
        | cons x xs => simp
      rw [if_neg (by rw [htg]; decide), hi]
      simp only [hpr, Bool.false_eq_true, if_false]
      rw [PState.openBraces]
      simp only [flush_group]
    rw [hopen]
    have hrel1 : body.releases = 0 := by
      clear ihb ihr hrel
      have : ∀ e : OutExpr, e.noCommands → e.releases = 0 := by
        intro e
        induction e with
        | nil => intro _; rfl
        | keys c rest ih => exact ih
        | hold c body rest ih1 ih2 => intro h; show _ + _ = 0; rw [ih1 h.1, ih2 h.2]
        | not k rest ih => exact ih
        | delay m rest ih => exact ih
        | type s rest ih => exact ih
        | run c rest ih => intro h; exact h.elim
        | onRelease rest ih => intro h; exact h.elim
      exact this body hv3
    rw [OutExpr.releases, hrel1, Nat.zero_add] at hrel
    rw [ihb p1.openBraces ('}' :: r ++ k) (by rw [o1]; exact htg) (by rw [o2]; exact hnm) hv2 (fun _ => hv3)
      (by rw [hrel1]; split <;> omega) (Ends.cons (by decide))]
    obtain ⟨a1, a2, a3, a4⟩ := after_same env body p1.openBraces
    obtain ⟨b1, b2⟩ := after_noCommands env body hv3 p1.openBraces
    generalize p1.openBraces.after env body = p2 at *
    obtain ⟨c1, c2, c3, c4, c5, c6⟩ := PState.closeBraces_eq p2
    have hclose : parseLoop env p2 ('}' :: r ++ k) = parseLoop env p2.closeBraces (r ++ k) := by
      apply parseLoop_next
      rw [List.cons_append, skipSpace_cons (by decide) (by decide), parseStep, parseGroupEnd]
      have hgr : (p2.group == 0) = false := by rw [a3, o4]; simp
      simp only [hgr, Bool.false_eq_true, if_false, hi]
      rw [PState.closeBraces]
      simp only [flush_before, flush_group, PState.release]
    rw [hclose]
    exact ihr p2.closeBraces k (by rw [c1, a1, o1]; exact htg) (by rw [c2, a2, o2]; exact hnm) hv4
      (by rw [c4, a3, o4, hgp]; simpa using fun h => (hg h).2) (by rw [c3, b2, o3, hor]; exact hrel) hk
  | @not sp name key rest r hs hname hr ha ih =>
    intro p k hp hn hv hg hrel hk
    have he : Ends (r ++ k) := ha.ends (fun c hc => hname.chars c (List.mem_of_getLast? hc)) hname.nonempty hk
    have e1 : sp ++ '!' :: name ++ r ++ k = sp ++ '!' :: (name ++ (r ++ k)) := by simp
    have h1 : parseLoop env p (sp ++ '!' :: name ++ r ++ k) =
        parseLoop env (((p.flush false false).removePressed key).add key .Not) (r ++ k) := by
      rw [e1]
      apply parseLoop_next
      rw [skipSpace_spaces hs, skipSpace_cons (by decide) (by decide), parseStep, parseBang,
        tryReadTimeout_name hname.chars hname.noDelay he]
      simp only [hp, Bool.false_eq_true, if_false]
      rw [parseNot, readKey_text hname he]
      simp only [hi, Bool.false_and, Bool.false_eq_true, if_false, Bool.and_false]
    rw [h1, PState.after]
    exact ih _ k (by simpa [PState.add, PState.removePressed, flush_together] using hp)
      (by simpa [PState.add, PState.removePressed, flush_nmm] using hn) hv.2 (by simpa [PState.add, PState.removePressed, flush_group, OutExpr.noCommands] using hg)
      (by simpa [PState.add, PState.removePressed, flush_onRelease, OutExpr.releases] using hrel) hk
  | @delay sp ds rest r hs hne hd hv' hr ih =>
    intro p k hp hn hv hg hrel hk
    have e1 : sp ++ ds ++ 'm' :: 's' :: r ++ k = sp ++ (ds ++ 'm' :: 's' :: (r ++ k)) := by simp
    have h1 : parseLoop env p (sp ++ ds ++ 'm' :: 's' :: r ++ k) =
        parseLoop env { p.flush false true with seq := appendEvent (p.flush false true).seq ⟨Key.timeout, .Down, min 4095 (digitsVal ds)⟩ } (r ++ k) := by
      rw [e1]
      apply parseLoop_next
      rw [skipSpace_spaces hs, skipSpace_name hne (fun c hc => isDigitC_ident (hd c hc))]
      have ht := tryReadTimeout_delay hne hd hv' (r ++ k)
      cases hds : ds with
      | nil => exact absurd hds hne
      | cons c cs =>
        rw [hds] at ht
        rw [List.cons_append] at ht ⊢
        rw [parseStep_ident (isDigitC_ident (hd c (by simp [hds]))), parseTimeoutOrKey, ht]
        simp only [hp, hn, Bool.false_eq_true, if_false]
        rw [hi, PState.addTimeout]
        simp only [Bool.false_and, Bool.false_eq_true, if_false, Bool.not_false, Bool.true_and]
        have hst : timeoutState false false (p.group != 0) = .Down := rfl
        rw [hst]
        unfold appendEvent
        cases hl : (p.flush false true).seq.getLast? with
        | none => simp only [PStep.ofOption, PState.add]
        | some d =>
          have hiso : isDelayEvent ⟨Key.timeout, .Down, min 4095 (digitsVal (c :: cs))⟩ = true := rfl
          simp only [hiso, Bool.and_true]
          by_cases hdd : isDelayEvent d = true
          · have hdd' := hdd
            unfold isDelayEvent at hdd'
            simp only [hdd', if_true, PStep.ofOption, hdd, sumTimeouts, Nat.min_comm]
          · have hdd' := hdd
            unfold isDelayEvent at hdd'
            simp only [hdd', Bool.false_eq_true, if_false, PStep.ofOption, hdd, PState.add]
    rw [h1, PState.after]
    exact ih _ k (by simpa [flush_together] using hp) (by simpa [flush_nmm] using hn) hv (by simpa [flush_group, OutExpr.noCommands] using hg)
      (by simpa [flush_onRelease, OutExpr.releases] using hrel) hk
  | @type sp quote s rest r hs hq hns hr ih =>
    intro p k hp hn hv hg hrel hk
    obtain ⟨keys, hkeys, -⟩ := hv.1
    have e1 : sp ++ quote :: s ++ quote :: r ++ k = sp ++ (quote :: (s ++ quote :: (r ++ k))) := by simp
    have h1 : parseLoop env p (sp ++ quote :: s ++ quote :: r ++ k) = parseLoop env { p.flush false true with
        seq := (p.flush false true).seq ++ ((if p.group = 0 then [⟨Key.any, .Not, 0⟩] else []) ++ typeKeys {} keys)
        hasMod := p.hasMod || keys.any (fun t => t.mods != {}) } (r ++ k) := by
      rw [e1]
      apply parseLoop_next
      have hstep : parseStep env p (quote :: (s ++ quote :: (r ++ k))) = parseString env p quote (s ++ quote :: (r ++ k)) := by
        rcases hq with rfl | rfl <;> rfl
      have hsk : skipSpace (quote :: (s ++ quote :: (r ++ k))) = quote :: (s ++ quote :: (r ++ k)) := by
        rcases hq with rfl | rfl <;> exact skipSpace_cons (by decide) (by decide)
      rw [skipSpace_spaces hs, hsk, hstep, parseString]
      simp only [hp, Bool.false_eq_true, if_false]
      rw [skipUntil_quoted quote s _ hns]
      simp only [hi, Bool.false_eq_true, if_false, flush_group]
      have hlen : (s ++ quote :: (r ++ k)).take ((s ++ quote :: (r ++ k)).length - (r ++ k).length - 1) = s := by
        have : (s ++ quote :: (r ++ k)).length - (r ++ k).length - 1 = s.length := by simp; omega
        rw [this, List.take_left]
      rw [hlen, typeOutput_eq env.typer s _ keys hkeys]
      simp only [flush_hasMod]
      by_cases hg0 : p.group = 0
      · simp [hg0]
      · simp [hg0]
    rw [h1, PState.after]
    simp only [hkeys, Option.getD_some]
    exact ih _ k (by simpa [flush_together] using hp) (by simpa [flush_nmm] using hn) hv.2 (by simpa [flush_group, OutExpr.noCommands] using hg)
      (by simpa [flush_onRelease, OutExpr.releases] using hrel) hk
  | @run sp command rest r hs hpar hr ih =>
    intro p k hp hn hv hg hrel hk
    have hg0 : p.group = 0 := by
      by_cases h : p.group = 0
      · exact h
      · exact (hg h).elim
    have e1 : sp ++ '$' :: '(' :: command ++ ')' :: r ++ k = sp ++ ('$' :: '(' :: (command ++ ')' :: (r ++ k))) := by simp
    have h1 : parseLoop env p (sp ++ '$' :: '(' :: command ++ ')' :: r ++ k) = parseLoop env
        { (p.flush false true).add (Key.first_action + env.actionBase + p.actions.length) .Down with
          actions := p.actions ++ [command] } (r ++ k) := by
      rw [e1]
      apply parseLoop_next
      rw [skipSpace_spaces hs, skipSpace_cons (by decide) (by decide), parseStep, parseCommand]
      simp only [hi, hp, hg0, Bool.or_false, bne_self_eq_false, Bool.false_eq_true, if_false]
      rw [readCommand_text command 0 [] (r ++ k) hpar]
      simp only [hc, if_true, flush_actions, PState.add, List.reverse_nil, List.nil_append]
    rw [h1, PState.after]
    exact ih _ k (by simpa [PState.add, flush_together] using hp) (by simpa [PState.add, flush_nmm] using hn) hv
      (by intro h; exact absurd hg0 (by simpa [PState.add, flush_group] using h)) (by simpa [PState.add, flush_onRelease, OutExpr.releases] using hrel) hk
  | @onRelease sp rest r hs hr ih =>
    intro p k hp hn hv hg hrel hk
    have hg0 : p.group = 0 := by
      by_cases h : p.group = 0
      · exact h
      · exact (hg h).elim
    rw [OutExpr.releases] at hrel
    have hor : p.onRelease = false := by
      cases h : p.onRelease with
      | false => rfl
      | true => rw [h] at hrel; simp at hrel
    have e1 : sp ++ '^' :: r ++ k = sp ++ '^' :: (r ++ k) := by simp
    have h1 : parseLoop env p (sp ++ '^' :: r ++ k) =
        parseLoop env { (p.flush false true).add Key.none .OutputOnRelease with onRelease := true } (r ++ k) := by
      rw [e1]
      apply parseLoop_next
      rw [skipSpace_spaces hs, skipSpace_cons (by decide) (by decide), parseStep]
      simp only [hi, hp, hg0, hor, Bool.or_false, bne_self_eq_false, Bool.false_eq_true, if_false]
    rw [h1, PState.after]
    exact ih _ k (by simpa [PState.add, flush_together] using hp) (by simpa [PState.add, flush_nmm] using hn) hv
      (by intro h; exact absurd hg0 (by simpa [PState.add, flush_group] using h)) (by simp [hor] at hrel ⊢; omega) hk

end KM
