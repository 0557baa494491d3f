import Verif.Lemmas.GrammarOut
import Verif.Spec.GrammarInput
/-!
# Parsing the texts of input expressions
-/
namespace KM

/-! ### the events of the terms -/

theorem flush_in_seq (p : PState) : (p.flush true true).seq =
    p.seq ++ p.buffer.map (fun k => ⟨k, .Down, 0⟩) ++ expectReleases p.buffer := by
  unfold PState.flush expectReleases; simp

theorem flush_in_pressed (p : PState) : (p.flush true true).pressed = p.pressed := by
  unfold PState.flush; simp

theorem flush_in_empty {p : PState} (h : p.buffer = []) : (p.flush true true).seq = p.seq := by
  rw [flush_in_seq, h]; simp [expectReleases]

theorem hasKeyDown_append (a b : KeySequence) : hasKeyDown (a ++ b) = (hasKeyDown a || hasKeyDown b) := by
  unfold hasKeyDown; rw [List.any_append]

theorem hasKeyDown_none {l : KeySequence} (h : ∀ e ∈ l, e.state ≠ .Down) : hasKeyDown l = false := by
  unfold hasKeyDown
  rw [List.any_eq_false]
  intro e he
  simp [h e he]

theorem hasKeyDown_releases (c : List Key) : hasKeyDown (expectReleases c) = false := by
  apply hasKeyDown_none
  intro e he
  unfold expectReleases at he
  rw [List.mem_map] at he
  obtain ⟨k, -, rfl⟩ := he
  simp

theorem hasKeyDown_presses (tg : Bool) {c : List Key} (h : c ≠ [] ∧ ∀ k ∈ c, Outputable k) : hasKeyDown (expectPresses tg c) = true := by
  unfold expectPresses
  rw [hasKeyDown_append, Bool.or_eq_true]
  right
  cases c with
  | nil => exact absurd rfl h.1
  | cons k ks =>
    have := (h.2 k (by simp)).1
    unfold hasKeyDown
    simp [this]

theorem dropLast_snoc {l : KeySequence} {e : KeyEvent} (h : l.getLast? = some e) : l = l.dropLast ++ [e] := by
  obtain ⟨ys, rfl⟩ := List.getLast?_eq_some_iff.1 h
  simp

theorem hasKeyDown_released (l : KeySequence) (k : Key) : hasKeyDown (expectReleased l k) = hasKeyDown l := by
  have h1 : hasKeyDown [⟨k, .Up, 0⟩] = false := hasKeyDown_none (by simp)
  have h2 : hasKeyDown [⟨k, .Not, 0⟩] = false := hasKeyDown_none (by simp)
  have h3 : hasKeyDown [⟨k, .UpAsync, 0⟩] = false := hasKeyDown_none (by simp)
  unfold expectReleased
  split
  · next h =>
    rw [hasKeyDown_append, h1]
    conv => rhs; rw [dropLast_snoc h, hasKeyDown_append, h3]
  · split
    · split <;> rw [hasKeyDown_append] <;> simp [h1, h2]
    · rw [hasKeyDown_append]; simp [h2]

theorem hasKeyDown_timeout (l : KeySequence) (negated g : Bool) (ms : Nat) :
    hasKeyDown (expectTimeout l (timeoutKind negated g) ms) = hasKeyDown l := by
  have h1 : ∀ ms, hasKeyDown [⟨Key.timeout, timeoutKind negated g, ms⟩] = false := by
    intro ms; unfold hasKeyDown; simp
  unfold expectTimeout
  split
  · next d h =>
    split
    · next hd =>
      rw [Bool.and_eq_true] at hd
      have hk : d.key = Key.timeout := by simpa using hd.1
      rw [hasKeyDown_append]
      conv => rhs; rw [dropLast_snoc h, hasKeyDown_append]
      unfold hasKeyDown
      simp [hk]
    · rw [hasKeyDown_append, h1]; simp
  · rw [hasKeyDown_append, h1]; simp

theorem hasKeyDown_afterBraces (l : KeySequence) : hasKeyDown (afterBraces l) = hasKeyDown l := by
  unfold afterBraces
  simp only []
  split
  · split
    · rw [hasKeyDown_append, hasKeyDown_none (l := List.map _ _), Bool.or_false]
      intro e he
      rw [List.mem_map] at he
      obtain ⟨x, -, rfl⟩ := he
      simp
    · rfl
  · rfl

theorem syncGo_eq (rev : KeySequence) : ∀ acc : KeySequence, syncGo rev acc =
    match (rev.dropWhile (fun e => e.state == .UpAsync)).head? with
    | some e => if isNegatedTimeout e then (((rev.takeWhile (fun e => e.state == .UpAsync)).reverse ++ acc).map (fun e => ⟨e.key, .Up, 0⟩)) else []
    | none => [] := by
  induction rev with
  | nil => intro acc; rfl
  | cons e rev ih =>
    intro acc
    rw [syncGo, List.dropWhile_cons, List.takeWhile_cons]
    by_cases hu : e.state = .UpAsync
    · have hn : e.isNotTimeout = false := by
        unfold KeyEvent.isNotTimeout KeyState.isNotTimeout; rw [hu]; simp
      rw [if_neg (by rw [hn]; decide), if_neg (by simp [hu]), ih]
      simp only [hu, beq_self_eq_true, if_true, List.reverse_cons, List.append_assoc, List.cons_append, List.nil_append]
    · have hb : (e.state == KeyState.UpAsync) = false := by simpa using hu
      have hi : e.isNotTimeout = isNegatedTimeout e := rfl
      simp only [hb, Bool.false_eq_true, if_false, List.head?_cons, List.reverse_nil, List.nil_append, hi]
      split
      · rfl
      · rw [if_pos (by simp [hu])]

theorem sync_eq (l : KeySequence) : l ++ syncGo l.reverse [] = afterBraces l := by
  rw [syncGo_eq]
  unfold afterBraces
  simp only [List.append_nil]
  cases (l.reverse.dropWhile (fun e => e.state == KeyState.UpAsync)).head? with
  | none => simp
  | some e =>
    simp only []
    split <;> simp

theorem expectModifiers_eq (first : Bool) (a b : Mods) :
    (List.zip a.list b.list).flatMap (fun (p, n) => pressInput first p.1 n.1 p.2) = expectModifiers first a b := by
  obtain ⟨a1, a2, a3, a4⟩ := a
  obtain ⟨b1, b2, b3, b4⟩ := b
  revert first a1 a2 a3 a4 b1 b2 b3 b4
  decide +kernel

theorem lastModifiers_eq (a : Mods) :
    (a.list.filter (·.1)).map (fun m => (⟨m.2, .UpAsync, 0⟩ : KeyEvent)) =
      modifierKeys.flatMap (fun m => if m.1 a then [⟨m.2, .UpAsync, 0⟩] else []) := by
  obtain ⟨a1, a2, a3, a4⟩ := a
  revert a1 a2 a3 a4
  decide +kernel

theorem typeInputGo_eq (g : Bool) (keys : List TypedKey) : ∀ (first : Bool) (old : Mods),
    (typeInputGo g first old keys).1 ++ ((typeInputGo g first old keys).2.1.list.filter (·.1)).map (fun m => (⟨m.2, .UpAsync, 0⟩ : KeyEvent)) =
      expectTyped g first old keys := by
  induction keys with
  | nil =>
    intro first old
    simp only [typeInputGo, List.nil_append, expectTyped]
    exact lastModifiers_eq old
  | cons t ts ih =>
    intro first old
    rw [typeInputGo]
    simp only []
    rw [expectTyped, ← ih, expectModifiers_eq]
    simp only [List.append_assoc]

theorem typeInput_eq (typer : Typer) (s : Str) (g : Bool) (keys : List TypedKey) (h : typer s = some keys) :
    ∃ has, typeInput typer s g = some (expectTyped g true {} keys, has) := by
  refine ⟨(typeInputGo g true {} keys).2.2, ?_⟩
  rw [typeInput, h]
  simp only []
  rw [← typeInputGo_eq]

theorem hasKeyDown_typed (g : Bool) (keys : List TypedKey) (hk : ∀ t ∈ keys, Outputable t.key) :
    hasKeyDown (expectTyped g true {} keys) = !keys.isEmpty := by
  cases keys with
  | nil => rfl
  | cons t ts =>
    have := (hk t (by simp)).1
    rw [expectTyped, hasKeyDown_append, hasKeyDown_append]
    have h1 : hasKeyDown [⟨t.key, .Down, 0⟩, ⟨t.key, .UpAsync, 0⟩] = true := by unfold hasKeyDown; simp [this]
    rw [h1]
    simp

/-! ### the terms -/

/-- how the parser goes on after an expression -/
structure AfterIn (typer : Typer) (e : InExpr) (started : Bool) (p q : PState) : Prop where
  seq : (q.flush true true).seq = e.events typer (p.group != 0) (p.flush true true).seq
  started : hasKeyDown (q.flush true true).seq = (started || e.hasKeys typer)
  together : q.together = p.together
  nmm : q.nmm = p.nmm
  group : q.group = p.group
  before : q.before = p.before
  pressed : q.pressed = p.pressed
  actions : q.actions = p.actions

theorem parseNot_in {env : PEnv} (hi : env.isInput = true) {p : PState} {it r : Str} {key : Key} (hr : readKey env it = some (key, r))
    (hg : p.group ≠ 0 → key ∈ p.buffer) (hf : key ∉ p.pressed) :
    parseNot env p it = .next { p.flush true true with seq := expectReleased (p.flush true true).seq key } r := by
  have hc : (env.isInput && p.group != 0 && !p.buffer.contains key) = false := by
    by_cases h : p.group = 0
    · simp [h]
    · simp [hg h]
  have hpr : (p.flush true true).pressed.contains key = false := by
    rw [flush_in_pressed]; simpa using hf
  have hrm : (p.flush true true).removePressed key = p.flush true true := by
    unfold PState.removePressed
    have : (p.flush true true).pressed.filter (fun x => !(x == key)) = (p.flush true true).pressed := by
      rw [List.filter_eq_self]
      intro a ha
      rw [flush_in_pressed] at ha
      simp only [Bool.not_eq_true', beq_eq_false_iff_ne]
      intro e; exact hf (e ▸ ha)
    rw [this]
  rw [parseNot, hr]
  simp only [hc, Bool.false_eq_true, if_false]
  rw [hi, hpr, hrm]
  simp only [Bool.false_and, Bool.false_eq_true, if_false, Bool.true_and]
  generalize p.flush true true = q
  unfold endsWithAsyncUp isPressedIn expectReleased lastEventOf
  by_cases h1 : q.seq.getLast? = some ⟨key, .UpAsync, 0⟩
  · simp [h1]
  · have h1' : (q.seq.getLast? == some ⟨key, .UpAsync, 0⟩) = false := by simpa using h1
    rw [if_neg (by rw [h1']; decide), if_neg h1]
    cases hl : (q.seq.reverse.find? (fun e => e.key == key)) with
    | none => simp [PState.add]
    | some e =>
      simp only [PState.add]
      by_cases hu : e.state = .Up
      · simp [hu]
      · simp [hu]

theorem addTimeout_expect (p : PState) (negated : Bool) (ms : Nat) (h : hasKeyDown (p.flush true true).seq = true) :
    p.addTimeout true ms negated (p.group != 0) =
      some { p.flush true true with seq := expectTimeout (p.flush true true).seq (timeoutKind negated (p.group != 0)) ms } := by
  have hk : timeoutState true negated (p.group != 0) = timeoutKind negated (p.group != 0) := by
    cases negated <;> cases (p.group != 0) <;> rfl
  rw [PState.addTimeout]
  simp only [h, Bool.not_true, Bool.and_false, Bool.false_eq_true, if_false, Bool.false_and, hk]
  unfold expectTimeout
  cases hl : (p.flush true true).seq.getLast? with
  | none => simp only [PState.add]
  | some d =>
    simp only []
    by_cases hd : (d.key == Key.timeout && d.state == timeoutKind negated (p.group != 0)) = true
    · simp only [hd, if_true, sumTimeouts, Nat.min_comm]
    · simp only [hd, Bool.false_eq_true, if_false, PState.add]

theorem timeout_step {env : PEnv} {p : PState} {ds : Str} (hi : env.isInput = true) (hne : ds ≠ [])
    (hd : ∀ c ∈ ds, isDigitC c = true) (hv : digitsVal ds < 2147483648) (r : Str) (hp : p.together = false) (negated : Bool)
    (hn : p.nmm = true → negated = true) (h : hasKeyDown (p.flush true true).seq = true) :
    parseStep env p (skipSpace ((if negated then ['!'] else []) ++ ds ++ 'm' :: 's' :: r)) =
      .next { p.flush true true with
        seq := expectTimeout (p.flush true true).seq (timeoutKind negated (p.group != 0)) (min 4095 (digitsVal ds)) } r := by
  have ht := tryReadTimeout_delay hne hd hv r
  cases negated with
  | true =>
    simp only [if_true, List.cons_append, List.nil_append]
    rw [skipSpace_cons (by decide) (by decide), parseStep, parseBang, ht]
    simp only [hp, Bool.false_eq_true, if_false]
    rw [hi, addTimeout_expect p true _ h]
    rfl
  | false =>
    have hnf : p.nmm = false := by
      cases hx : p.nmm with
      | false => rfl
      | true => exact absurd (hn hx) (by decide)
    simp only [Bool.false_eq_true, if_false, List.nil_append]
    rw [skipSpace_name hne (fun c hc => isDigitC_ident (hd c hc))]
    cases hds : ds with
    | nil => exact absurd hds hne
    | cons c cs =>
      rw [hds] at ht
      rw [List.cons_append] at ht ⊢
      rw [parseStep_ident (isDigitC_ident (hd c (by simp [hds]))), parseTimeoutOrKey, ht]
      simp only [hp, hnf, Bool.false_eq_true, if_false]
      rw [hi, addTimeout_expect p false _ h]
      rfl

/-- Reading the text of an input expression -/
theorem parseLoop_inText {env : PEnv} (hi : env.isInput = true) {e : InExpr} {t : Str}
    (h : InText env.getKey e t) : ∀ (p : PState) (k : Str) (started : Bool), p.together = false →
    e.Valid env.typer p.nmm (p.group != 0) started p.buffer → e.Fresh p.pressed →
    hasKeyDown (p.flush true true).seq = started → Ends k →
    ∃ q, parseLoop env p (t ++ k) = parseLoop env q k ∧ AfterIn env.typer e started p q := by
  induction h with
  | nil hs =>
    intro p k st hp hv hf hst hk
    exact ⟨p, parseLoop_skipSpace (skipSpace_spaces hs k), ⟨rfl, by rw [hst]; simp [InExpr.hasKeys], rfl, rfl, rfl, rfl, rfl, rfl⟩⟩
  | @keys sp c t rest r hs hct hr ha ih =>
    intro p k st hp hv hf hst hk
    have hlast : (∀ d, t.getLast? = some d → isIdentChar d = true) → Ends (r ++ k) := fun h => ha.ends h hct.ne_nil hk
    rw [List.append_assoc, parseLoop_keys hct p sp (r ++ k) hs hp hlast, hi]
    have hg : (p.withKeys true t c).group = p.group := flush_group p _ _
    have htg : (p.withKeys true t c).together = false := by rw [← hp]; exact flush_together p _ _
    have hnm : (p.withKeys true t c).nmm = p.nmm := flush_nmm p _ _
    have hpr : (p.withKeys true t c).pressed = p.pressed := flush_in_pressed p
    have hbf : (p.withKeys true t c).buffer = c := rfl
    have hbe : (p.withKeys true t c).before = p.before := flush_before p _ _
    have hac : (p.withKeys true t c).actions = p.actions := flush_actions p _ _
    have hsq : ((p.withKeys true t c).flush true true).seq =
        (p.flush true true).seq ++ expectPresses (t.head? == some '(') c ++ expectReleases c := by
      rw [flush_in_seq]
      unfold PState.withKeys expectPresses
      simp only [Bool.true_and, List.append_assoc]
    generalize p.withKeys true t c = p1 at *
    obtain ⟨q, hq, ha⟩ := ih p1 k true htg (by rw [hnm, hg, hbf]; exact hv.2) (by rw [hpr]; exact hf)
      (by rw [hsq, hasKeyDown_append, hasKeyDown_append, hasKeyDown_presses _ hv.1]; simp) hk
    refine ⟨q, hq, ?_, ?_, by rw [ha.together, htg, hp], by rw [ha.nmm, hnm], by rw [ha.group, hg], by rw [ha.before, hbe],
      by rw [ha.pressed, hpr], by rw [ha.actions, hac]⟩
    · rw [ha.seq, hg, hsq, InExpr.events]
    · rw [ha.started]; simp [InExpr.hasKeys]
  | @hold sp c t sp' body b rest r hs hct hs' hb hr ihb ihr =>
    intro p k st hp hv hf hst hk
    obtain ⟨hv1, hv2, hv3⟩ := hv
    have hlast : (∀ d, t.getLast? = some d → isIdentChar d = true) → Ends (sp' ++ '{' :: b ++ '}' :: r ++ k) := by
      intro _
      cases sp' with
      | nil => exact Ends.cons (by decide)
      | cons d sp' =>
        intro x hx
        simp only [List.cons_append, List.head?_cons, Option.some.injEq] at hx
        cases hxi : isIdentChar x with
        | false => rfl
        | true =>
          have h1 := (isIdentChar_cases hxi).1
          rw [← hx, hs' d (by simp)] at h1
          cases h1
    have e1 : sp ++ t ++ sp' ++ '{' :: b ++ '}' :: r ++ k = sp ++ t ++ (sp' ++ '{' :: b ++ '}' :: r ++ k) := by simp
    rw [e1, parseLoop_keys hct p sp _ hs hp hlast, hi]
    have hg : (p.withKeys true t c).group = p.group := flush_group p _ _
    have htg : (p.withKeys true t c).together = false := by rw [← hp]; exact flush_together p _ _
    have hnm : (p.withKeys true t c).nmm = p.nmm := flush_nmm p _ _
    have hpr : (p.withKeys true t c).pressed = p.pressed := flush_in_pressed p
    have hbf : (p.withKeys true t c).buffer = c := rfl
    have hbe : (p.withKeys true t c).before = p.before := flush_before p _ _
    have hac : (p.withKeys true t c).actions = p.actions := flush_actions p _ _
    have hsq : (p.withKeys true t c).seq ++ c.map (fun k => ⟨k, .Down, 0⟩) =
        (p.flush true true).seq ++ expectPresses (t.head? == some '(') c := by
      unfold PState.withKeys expectPresses
      simp only [Bool.true_and, List.append_assoc]
    generalize p.withKeys true t c = p1 at *
    -- the opening brace
    obtain ⟨p2, hp2⟩ : ∃ p2 : PState, p2 =
      { ({ p1 with before := p1.pressed.length :: p1.before } : PState).flush true false with group := p1.group + 1, hasMod := true } := ⟨_, rfl⟩
    have hopen : parseLoop env p1 (sp' ++ '{' :: b ++ '}' :: r ++ k) = parseLoop env p2 (b ++ ('}' :: r ++ k)) := by
      apply parseLoop_next
      have e2 : sp' ++ '{' :: b ++ '}' :: r ++ k = sp' ++ '{' :: (b ++ ('}' :: r ++ k)) := by simp
      rw [e2, skipSpace_spaces hs', skipSpace_cons (by decide) (by decide), parseStep, parseGroupBegin]
      have hpr : (({ p1 with before := p1.pressed.length :: p1.before } : PState).flush true false).pressed.isEmpty = false := by
        unfold PState.flush
        simp only [Bool.false_eq_true, if_false, hbf]
        cases c with
        | nil => exact absurd rfl hv1.1
        | cons x xs => simp
      rw [if_neg (by rw [htg]; decide), hi]
      simp only [hpr, Bool.false_eq_true, if_false]
      rw [hp2]
      simp only [flush_group]
    have o1 : p2.together = false := by rw [hp2, ← htg]; exact flush_together _ _ _
    have o2 : p2.nmm = p.nmm := by rw [hp2, ← hnm]; exact flush_nmm _ _ _
    have o3 : p2.group = p.group + 1 := by rw [hp2]; show p1.group + 1 = _; rw [hg]
    have o4 : p2.before = p1.pressed.length :: p1.before := by rw [hp2]; exact flush_before _ _ _
    have o5 : p2.pressed = p.pressed ++ c := by
      rw [hp2]; unfold PState.flush; simp only [Bool.false_eq_true, if_false, hbf, hpr]
    have o6 : p2.buffer = [] := by rw [hp2]; exact flush_buffer _ _ _
    have o7 : p2.seq = (p.flush true true).seq ++ expectPresses (t.head? == some '(') c := by
      rw [hp2, ← hsq]; unfold PState.flush; simp only [Bool.false_eq_true, if_false, hbf]
    have o8 : p2.actions = p.actions := by rw [hp2, ← hac]; exact flush_actions _ _ _
    have ogr : (p2.group != 0) = true := by rw [o3]; simp
    obtain ⟨q, hq, ha⟩ := ihb p2 ('}' :: r ++ k) true o1 (by rw [o2, ogr, o6]; exact hv2) (by rw [o5]; exact hf.1)
      (by rw [flush_in_empty o6, o7, hasKeyDown_append, hasKeyDown_presses _ hv1]; simp) (Ends.cons (by decide))
    rw [hopen, hq]
    have ha1 := ha.seq
    have ha2 := ha.started
    rw [ogr, flush_in_empty o6, o7] at ha1
    -- the closing brace
    obtain ⟨p3, hp3⟩ : ∃ p3 : PState, p3 = ({ (q.flush true true).release true (q.before.headD 0) with
      before := q.before.tail, group := q.group - 1 } : PState).sync := ⟨_, rfl⟩
    have hclose : parseLoop env q ('}' :: r ++ k) = parseLoop env p3 (r ++ k) := by
      apply parseLoop_next
      rw [List.cons_append, skipSpace_cons (by decide) (by decide), parseStep, parseGroupEnd]
      have hgr : (q.group == 0) = false := by rw [ha.group, o3]; simp
      simp only [hgr, Bool.false_eq_true, if_false, hi, if_true]
      rw [hp3]
      simp only [flush_before, flush_group, PState.release]
    have hkeep : q.before.headD 0 = p.pressed.length := by rw [ha.before, o4, hpr]; rfl
    have c1 : p3.together = false := by rw [hp3]; show (q.flush true true).together = _; rw [flush_together, ha.together, o1]
    have c2 : p3.nmm = p.nmm := by rw [hp3]; show (q.flush true true).nmm = _; rw [flush_nmm, ha.nmm, o2]
    have c3 : p3.group = p.group := by rw [hp3]; show q.group - 1 = _; rw [ha.group, o3]; rfl
    have c4 : p3.before = p.before := by rw [hp3]; show q.before.tail = _; rw [ha.before, o4, ← hbe]; rfl
    have c5 : p3.pressed = p.pressed := by
      rw [hp3]; show (q.flush true true).pressed.take (q.before.headD 0) = _
      rw [flush_in_pressed, ha.pressed, o5, hkeep, List.take_left]
    have c6 : p3.buffer = [] := by rw [hp3]; exact flush_buffer _ _ _
    have c8 : p3.actions = p.actions := by rw [hp3]; show (q.flush true true).actions = _; rw [flush_actions, ha.actions, o8]
    have c7 : p3.seq = afterBraces (body.events env.typer true ((p.flush true true).seq ++ expectPresses (t.head? == some '(') c) ++
        expectReleases c.reverse) := by
      rw [hp3, ← ha1, ← sync_eq]
      have hrel : ((q.flush true true).release true (q.before.headD 0)).seq = (q.flush true true).seq ++ expectReleases c.reverse := by
        unfold PState.release
        rw [flush_in_pressed, ha.pressed, o5, hkeep]
        simp [expectReleases]
      unfold PState.sync
      simp only [hrel]
    rw [hclose]
    obtain ⟨q', hq', ha'⟩ := ihr p3 k true c1 (by rw [c2, c3, c6]; exact hv3) (by rw [c5]; exact hf.2)
      (by rw [flush_in_empty c6, c7, hasKeyDown_afterBraces, hasKeyDown_append, ← ha1, ha2]; simp) hk
    refine ⟨q', hq', ?_, ?_, by rw [ha'.together, c1, hp], by rw [ha'.nmm, c2], by rw [ha'.group, c3], by rw [ha'.before, c4],
      by rw [ha'.pressed, c5], by rw [ha'.actions, c8]⟩
    · rw [ha'.seq, c3, flush_in_empty c6, c7, InExpr.events]
    · rw [ha'.started]; simp [InExpr.hasKeys]
  | @not sp name key rest r hs hname hr ha ih =>
    intro p k st hp hv hf hst hk
    have he : Ends (r ++ k) := ha.ends (fun c hc => hname.chars c (List.mem_of_getLast? hc)) hname.nonempty hk
    have e1 : sp ++ '!' :: name ++ r ++ k = sp ++ '!' :: (name ++ (r ++ k)) := by simp
    obtain ⟨p1, hp1⟩ : ∃ p1 : PState, p1 = { p.flush true true with seq := expectReleased (p.flush true true).seq key } := ⟨_, rfl⟩
    have h1 : parseLoop env p (sp ++ '!' :: name ++ r ++ k) = parseLoop env p1 (r ++ k) := by
      rw [e1]
      apply parseLoop_next
      rw [skipSpace_spaces hs, skipSpace_cons (by decide) (by decide), parseStep, parseBang,
        tryReadTimeout_name hname.chars hname.noDelay he]
      simp only [hp, Bool.false_eq_true, if_false]
      rw [parseNot_in hi (readKey_text hname he) (fun hg => hv.2.1 (by simpa using hg)) hf.1, hp1]
    have o1 : p1.together = false := by rw [hp1, ← hp]; exact flush_together _ _ _
    have o2 : p1.nmm = p.nmm := by rw [hp1]; exact flush_nmm _ _ _
    have o3 : p1.group = p.group := by rw [hp1]; exact flush_group _ _ _
    have o4 : p1.before = p.before := by rw [hp1]; exact flush_before _ _ _
    have o5 : p1.pressed = p.pressed := by rw [hp1]; exact flush_in_pressed _
    have o6 : p1.buffer = [] := by rw [hp1]; exact flush_buffer _ _ _
    have o7 : p1.seq = expectReleased (p.flush true true).seq key := by rw [hp1]
    have o8 : p1.actions = p.actions := by rw [hp1]; exact flush_actions _ _ _
    obtain ⟨q, hq, ha⟩ := ih p1 k st o1 (by rw [o2, o3, o6]; exact hv.2.2) (by rw [o5]; exact hf.2)
      (by rw [flush_in_empty o6, o7, hasKeyDown_released]; exact hst) hk
    refine ⟨q, by rw [h1, hq], ?_, ?_, by rw [ha.together, o1, hp], by rw [ha.nmm, o2], by rw [ha.group, o3], by rw [ha.before, o4],
      by rw [ha.pressed, o5], by rw [ha.actions, o8]⟩
    · rw [ha.seq, o3, flush_in_empty o6, o7, InExpr.events]
    · rw [ha.started, InExpr.hasKeys]
  | @timeout sp ds rest r hs hne hd hv' hr ih =>
    intro p k st hp hv hf hst hk
    obtain ⟨p1, hp1⟩ : ∃ p1 : PState, p1 = { p.flush true true with
      seq := expectTimeout (p.flush true true).seq (timeoutKind false (p.group != 0)) (min 4095 (digitsVal ds)) } := ⟨_, rfl⟩
    have h1 : parseLoop env p (sp ++ ds ++ 'm' :: 's' :: r ++ k) = parseLoop env p1 (r ++ k) := by
      apply parseLoop_next
      have := timeout_step hi hne hd hv' (r ++ k) hp false (fun h => absurd (hv.2.1 h) (by decide)) (by rw [hst]; exact hv.1)
      have e1 : sp ++ ds ++ 'm' :: 's' :: r ++ k = sp ++ ((if false then ['!'] else []) ++ ds ++ 'm' :: 's' :: (r ++ k)) := by simp
      rw [e1, skipSpace_spaces hs, this, hp1]
    have o1 : p1.together = false := by rw [hp1, ← hp]; exact flush_together _ _ _
    have o2 : p1.nmm = p.nmm := by rw [hp1]; exact flush_nmm _ _ _
    have o3 : p1.group = p.group := by rw [hp1]; exact flush_group _ _ _
    have o4 : p1.before = p.before := by rw [hp1]; exact flush_before _ _ _
    have o5 : p1.pressed = p.pressed := by rw [hp1]; exact flush_in_pressed _
    have o6 : p1.buffer = [] := by rw [hp1]; exact flush_buffer _ _ _
    have o7 : p1.seq = expectTimeout (p.flush true true).seq (timeoutKind false (p.group != 0)) (min 4095 (digitsVal ds)) := by rw [hp1]
    have o8 : p1.actions = p.actions := by rw [hp1]; exact flush_actions _ _ _
    obtain ⟨q, hq, ha⟩ := ih p1 k st o1 (by rw [o2, o3, o6]; exact hv.2.2) (by rw [o5]; exact hf)
      (by rw [flush_in_empty o6, o7, hasKeyDown_timeout]; exact hst) hk
    refine ⟨q, by rw [h1, hq], ?_, ?_, by rw [ha.together, o1, hp], by rw [ha.nmm, o2], by rw [ha.group, o3], by rw [ha.before, o4],
      by rw [ha.pressed, o5], by rw [ha.actions, o8]⟩
    · rw [ha.seq, o3, flush_in_empty o6, o7, InExpr.events]
    · rw [ha.started, InExpr.hasKeys]
  | @notTimeout sp ds rest r hs hne hd hv' hr ih =>
    intro p k st hp hv hf hst hk
    obtain ⟨p1, hp1⟩ : ∃ p1 : PState, p1 = { p.flush true true with
      seq := expectTimeout (p.flush true true).seq (timeoutKind true (p.group != 0)) (min 4095 (digitsVal ds)) } := ⟨_, rfl⟩
    have h1 : parseLoop env p (sp ++ '!' :: ds ++ 'm' :: 's' :: r ++ k) = parseLoop env p1 (r ++ k) := by
      apply parseLoop_next
      have := timeout_step hi hne hd hv' (r ++ k) hp true (fun _ => rfl) (by rw [hst]; exact hv.1)
      have e1 : sp ++ '!' :: ds ++ 'm' :: 's' :: r ++ k = sp ++ ((if true then ['!'] else []) ++ ds ++ 'm' :: 's' :: (r ++ k)) := by simp
      rw [e1, skipSpace_spaces hs, this, hp1]
    have o1 : p1.together = false := by rw [hp1, ← hp]; exact flush_together _ _ _
    have o2 : p1.nmm = p.nmm := by rw [hp1]; exact flush_nmm _ _ _
    have o3 : p1.group = p.group := by rw [hp1]; exact flush_group _ _ _
    have o4 : p1.before = p.before := by rw [hp1]; exact flush_before _ _ _
    have o5 : p1.pressed = p.pressed := by rw [hp1]; exact flush_in_pressed _
    have o6 : p1.buffer = [] := by rw [hp1]; exact flush_buffer _ _ _
    have o7 : p1.seq = expectTimeout (p.flush true true).seq (timeoutKind true (p.group != 0)) (min 4095 (digitsVal ds)) := by rw [hp1]
    have o8 : p1.actions = p.actions := by rw [hp1]; exact flush_actions _ _ _
    obtain ⟨q, hq, ha⟩ := ih p1 k st o1 (by rw [o2, o3, o6]; exact hv.2.2) (by rw [o5]; exact hf)
      (by rw [flush_in_empty o6, o7, hasKeyDown_timeout]; exact hst) hk
    refine ⟨q, by rw [h1, hq], ?_, ?_, by rw [ha.together, o1, hp], by rw [ha.nmm, o2], by rw [ha.group, o3], by rw [ha.before, o4],
      by rw [ha.pressed, o5], by rw [ha.actions, o8]⟩
    · rw [ha.seq, o3, flush_in_empty o6, o7, InExpr.events]
    · rw [ha.started, InExpr.hasKeys]
  | @type sp quote s rest r hs hq hns hr ih =>
    intro p k st hp hv hf hst hk
    obtain ⟨keys, hkeys, hout, hv'⟩ := hv
    obtain ⟨has, htype⟩ := typeInput_eq env.typer s (p.group != 0) keys hkeys
    have e1 : sp ++ quote :: s ++ quote :: r ++ k = sp ++ (quote :: (s ++ quote :: (r ++ k))) := by simp
    obtain ⟨p1, hp1⟩ : ∃ p1 : PState, p1 = { p.flush true true with
        seq := (p.flush true true).seq ++ expectTyped (p.group != 0) true {} keys
        hasMod := p.hasMod || has } := ⟨_, rfl⟩
    have h1 : parseLoop env p (sp ++ quote :: s ++ quote :: r ++ k) = parseLoop env p1 (r ++ k) := by
      rw [e1]
      apply parseLoop_next
      have hstep : parseStep env p (quote :: (s ++ quote :: (r ++ k))) = parseString env p quote (s ++ quote :: (r ++ k)) := by
        rcases hq with rfl | rfl <;> rfl
      have hsk : skipSpace (quote :: (s ++ quote :: (r ++ k))) = quote :: (s ++ quote :: (r ++ k)) := by
        rcases hq with rfl | rfl <;> exact skipSpace_cons (by decide) (by decide)
      rw [skipSpace_spaces hs, hsk, hstep, parseString]
      simp only [hp, Bool.false_eq_true, if_false]
      rw [skipUntil_quoted quote s _ hns]
      simp only [hi, if_true, flush_group]
      have hlen : (s ++ quote :: (r ++ k)).take ((s ++ quote :: (r ++ k)).length - (r ++ k).length - 1) = s := by
        have : (s ++ quote :: (r ++ k)).length - (r ++ k).length - 1 = s.length := by simp; omega
        rw [this, List.take_left]
      rw [hlen, htype, hp1]
      simp only [flush_hasMod, flush_group]
    have o1 : p1.together = false := by rw [hp1, ← hp]; exact flush_together _ _ _
    have o2 : p1.nmm = p.nmm := by rw [hp1]; exact flush_nmm _ _ _
    have o3 : p1.group = p.group := by rw [hp1]; exact flush_group _ _ _
    have o4 : p1.before = p.before := by rw [hp1]; exact flush_before _ _ _
    have o5 : p1.pressed = p.pressed := by rw [hp1]; exact flush_in_pressed _
    have o6 : p1.buffer = [] := by rw [hp1]; exact flush_buffer _ _ _
    have o7 : p1.seq = (p.flush true true).seq ++ expectTyped (p.group != 0) true {} keys := by rw [hp1]
    have o8 : p1.actions = p.actions := by rw [hp1]; exact flush_actions _ _ _
    obtain ⟨q, hq, ha⟩ := ih p1 k (st || !keys.isEmpty) o1 (by rw [o2, o3, o6]; exact hv') (by rw [o5]; exact hf)
      (by rw [flush_in_empty o6, o7, hasKeyDown_append, hasKeyDown_typed _ _ hout, hst]) hk
    refine ⟨q, by rw [h1, hq], ?_, ?_, by rw [ha.together, o1, hp], by rw [ha.nmm, o2], by rw [ha.group, o3], by rw [ha.before, o4],
      by rw [ha.pressed, o5], by rw [ha.actions, o8]⟩
    · rw [ha.seq, o3, flush_in_empty o6, o7, InExpr.events, hkeys, Option.getD_some]
    · rw [ha.started, InExpr.hasKeys, hkeys, Option.getD_some, Bool.or_assoc]

end KM
