import Verif.Lemmas.DocState
/-!
# Reading a mapping
-/
namespace KM

theorem spaces_of_drop {x : Str} (h : x.dropWhile isSpaceC = []) : Spaces x := by
  intro c hc
  have := List.takeWhile_append_dropWhile (p := isSpaceC) (l := x)
  rw [h, List.append_nil] at this
  rw [← this] at hc
  exact mem_takeWhile_of hc

theorem InputText.trim {typer : Typer} {getKey : Str → Key} {commands : List Str} {flag : Bool} {e : InExpr} {t : Str}
    (h : InputText typer getKey commands flag e t) : InputText typer getKey commands flag e (t.dropWhile isSpaceC) ∧ Firm (t.dropWhile isSpaceC) := by
  obtain ⟨h1, h2⟩ := h.text.trim (InExpr.ne_nil h.keys)
  refine ⟨⟨h1, h.valid, h.fresh, h.keys, h.real, fun hm => h.noArrow ((List.dropWhile_sublist _).subset hm), ?_⟩, h2⟩
  intro w hw
  obtain ⟨sp, sp', a, b, c, e⟩ := hw
  refine h.noCommand w ⟨t.takeWhile isSpaceC ++ sp, sp', ?_, b, c, ?_⟩
  · intro d hd
    rcases List.mem_append.1 hd with hd | hd
    · exact mem_takeWhile_of hd
    · exact a d hd
  · rw [List.append_assoc, List.append_assoc, ← List.append_assoc sp, ← e, List.takeWhile_append_dropWhile]

theorem notBefore_arrow {x : Str} (h : '>' ∉ x) (u : Str) (hne : x ≠ []) : skipStr ['>', '>'] (x ++ u) = none := by
  obtain ⟨c, x, rfl⟩ := List.exists_cons_of_ne_nil hne
  rw [List.cons_append, skipStr, if_neg]
  intro e
  rw [beq_iff_eq] at e
  exact h (List.mem_cons.2 (Or.inl e))

theorem skipUntil_arrow {x : Str} (h : '>' ∉ x) (u : Str) : skipUntil ['>', '>'] (x ++ '>' :: '>' :: u) = some u := by
  induction x with
  | nil => rfl
  | cons c x ih =>
    rw [List.cons_append, skipUntil, ← List.cons_append, notBefore_arrow h _ (by simp)]
    simp only []
    exact ih (fun hm => h (by simp [hm]))

/-- **A mapping is split at the arrow.** -/
theorem parseMapping_input {env : CEnv} {s : CState} {d : Doc} (hs : DocRel s d) {flag : Bool} {e : InExpr} {t : Str}
    (hi : InputText env.typer (namesWith d.logical) d.commands flag e t) (hf : Firm t) (u : Str) :
    ∃ t', s.parseMapping env (t ++ '>' :: '>' :: u) = s.parseCommandAndMapping env t' u ∧ s.parseInput env t' = some (e.meaning env.typer flag) := by
  obtain ⟨w, hw⟩ : ∃ w, w = t.takeWhile isIdentChar := ⟨_, rfl⟩
  obtain ⟨x, hx⟩ : ∃ x, x = t.dropWhile isIdentChar := ⟨_, rfl⟩
  have htw : t = w ++ x := by rw [hw, hx, List.takeWhile_append_dropWhile]
  have hwi : ∀ c ∈ w, isIdentChar c = true := by rw [hw]; exact fun c => mem_takeWhile_ident t
  have hxn : NotBefore isIdentChar x := by rw [hx]; exact notBefore_dropWhile _
  have hxa : '>' ∉ x := fun hm => hi.noArrow (by rw [htw]; simp [hm])
  have hxn' : NotBefore isIdentChar (x ++ '>' :: '>' :: u) := hxn.append (.cons (by decide))
  have hread : readIdent (t ++ '>' :: '>' :: u) = (w, x ++ '>' :: '>' :: u) := by
    have := takeWhile_ends hwi hxn'
    rw [← List.append_assoc, ← htw] at this
    rw [readIdent, this.1, this.2]
  have hin := parseInput_text (env := env) (s := s) hs.logical hi.text hi.valid hi.fresh hi.keys hi.real
  have hseq : ∀ y, y ≠ [] → '>' ∉ y → s.parseMappingSequence env (t ++ '>' :: '>' :: u) (y ++ '>' :: '>' :: u) =
      s.parseCommandAndMapping env t u := by
    intro y _ hy
    rw [CState.parseMappingSequence, skipUntil_arrow hy]
    simp only []
    congr 1
    rw [show (t ++ '>' :: '>' :: u).length - u.length - 2 = t.length by simp; omega, List.take_left]
  rw [CState.parseMapping, hread]
  simp only []
  by_cases hwe : w = []
  · -- no name
    have hxt : x = t := by rw [htw, hwe]; rfl
    rw [hwe, hxt]
    obtain ⟨c, y, rfl, h1, h2⟩ := hf
    have hsk : skipSpace (c :: y ++ '>' :: '>' :: u) = c :: y ++ '>' :: '>' :: u := by
      rw [skipSpace_eq]
      · rw [List.cons_append, List.dropWhile_cons_of_neg (by simp [h1])]
      · rw [List.cons_append, List.dropWhile_cons_of_neg (by simp [h1])]
        exact .cons h2
    rw [hsk]
    simp only [List.isEmpty_nil, if_true]
    refine ⟨_, hseq _ (by simp) (by rw [← hxt]; exact hxa), hin⟩
  · have hie : w.isEmpty = false := by cases w with | nil => exact absurd rfl hwe | cons => rfl
    have hflag : flag = false := by
      have := hi.text
      cases this with
      | plain => rfl
      | @flag sp _ r hsp h =>
        exfalso
        cases w with
        | nil => exact hwe rfl
        | cons c w =>
          have hc := hwi c (by simp)
          cases sp with
          | nil =>
            have : c = '?' := by have := congrArg List.head? htw; simpa using this.symm
            rw [this] at hc; revert hc; decide
          | cons b sp =>
            have : c = b := by have := congrArg List.head? htw; simpa using this.symm
            rw [this] at hc
            rw [isSpaceC_noIdent (hsp b (by simp))] at hc; cases hc
    subst hflag
    have htext : InText (namesWith d.logical) e t := by
      have := hi.text
      cases this with
      | plain h => exact h
    obtain ⟨h1, h2⟩ := htext.firstWord hi.valid htw hwe hwi hxn
    by_cases hsx : Spaces x
    · obtain ⟨k, hk, rfl⟩ := h2 hsx
      have hsk : skipSpace (x ++ '>' :: '>' :: u) = '>' :: '>' :: u := by
        rw [skipSpace_spaces hsx, skipSpace]
        simp [isSpaceC]
      rw [hsk, hie]
      simp only [Bool.false_eq_true, if_false]
      have hsw : SingleWord t w := ⟨[], x, (by intro c hc; cases hc), ⟨hwe, hwi⟩, hsx, by simpa using htw⟩
      obtain ⟨c1, c2⟩ := hi.noCommand w hsw
      rw [show skipStr ['>', '>'] ('>' :: '>' :: u) = some u from rfl]
      simp only []
      rw [hs.commands, d.find_command, if_neg c1, c2]
      refine ⟨w, by simp, ?_⟩
      have : InTextFlag (namesWith d.logical) false (.keys false [k] .nil) w := by
        refine .plain ?_
        have h0 : Spaces ([] : Str) := by intro c hc; cases hc
        have h := InText.keys (getKey := namesWith d.logical) (sp := []) h0 (.one hk) (.nil h0) (by intro c d _ hd; cases hd)
        have hh : (w.head? == some '(') = false := by
          cases w with
          | nil => rfl
          | cons c w =>
            rw [List.head?_cons, beq_eq_false_iff_ne]
            intro e
            have hc := hwi c (by simp)
            rw [Option.some.inj e] at hc
            revert hc; decide
        rw [hh] at h
        simpa using h
      exact parseInput_text hs.logical this hi.valid hi.fresh hi.keys hi.real
    · have hxd : x.dropWhile isSpaceC ≠ [] := fun h => hsx (spaces_of_drop h)
      have hsk : skipSpace (x ++ '>' :: '>' :: u) = x.dropWhile isSpaceC ++ '>' :: '>' :: u := by
        have hd : (x ++ '>' :: '>' :: u).dropWhile isSpaceC = x.dropWhile isSpaceC ++ '>' :: '>' :: u := by
          obtain ⟨c, y, hc⟩ := List.exists_cons_of_ne_nil hxd
          have hb : NotBefore isSpaceC (x.dropWhile isSpaceC) := notBefore_dropWhile _
          have := dropWhile_spaces (sp := x.takeWhile isSpaceC) (x := x.dropWhile isSpaceC ++ '>' :: '>' :: u)
            (fun c hc => mem_takeWhile_of hc) (hb.append (.cons (by decide)))
          rwa [← List.append_assoc, List.takeWhile_append_dropWhile] at this
        rw [skipSpace_eq, hd]
        rw [hd]
        exact h1.append (.cons (by decide))
      have hya : '>' ∉ x.dropWhile isSpaceC := fun hm => hxa ((List.dropWhile_sublist _).subset hm)
      rw [hsk, hie]
      simp only [Bool.false_eq_true, if_false]
      rw [notBefore_arrow hya _ hxd]
      exact ⟨_, hseq _ hxd hya, hin⟩

/-- the command of a mapping -/
theorem parseMapping_command {env : CEnv} {s : CState} {d : Doc} (hs : DocRel s d) {t name u : Str} (ht : SingleWord t name)
    (hm : name ∈ d.commands) : s.parseMapping env (t.dropWhile isSpaceC ++ '>' :: '>' :: u) =
      (match s.parseOutput env u with
      | none => none
      | some (s, output) => s.addCommandMapping name output) := by
  obtain ⟨sp, sp', h1, h2, h3, rfl⟩ := ht
  have hf : Firm (name ++ sp') := Firm.name h2.1 h2.2
  rw [List.append_assoc, hf.drop h1]
  have hb : NotBefore isIdentChar (sp' ++ '>' :: '>' :: u) := by
    cases sp' with
    | nil => exact .cons (by decide)
    | cons c sp' => exact .cons (isSpaceC_noIdent (h3 c (by simp)))
  rw [CState.parseMapping, List.append_assoc, readIdent_word h2 hb]
  simp only []
  have hsk : skipSpace (sp' ++ '>' :: '>' :: u) = '>' :: '>' :: u := by
    rw [skipSpace_spaces h3, skipSpace]
    simp [isSpaceC]
  have hie : name.isEmpty = false := by
    have := h2.isEmpty
    simpa using this
  rw [hsk, hie]
  simp only [Bool.false_eq_true, if_false]
  rw [show skipStr ['>', '>'] ('>' :: '>' :: u) = some u from rfl]
  simp only []
  rw [hs.commands, d.find_command, if_pos hm]
  rfl

/-- a command which is not used -/
theorem parseMapping_unused {env : CEnv} {s : CState} {d : Doc} (hs : DocRel s d) {t name u : Str} (ht : SingleWord t name)
    (hm : name ∉ d.commands) (hl : startsWithLowerCase name = true) (ha : d.allowUnmapped = true) :
    s.parseMapping env (t.dropWhile isSpaceC ++ '>' :: '>' :: u) = (s.parseOutput env u).map (·.1) := by
  obtain ⟨sp, sp', h1, h2, h3, rfl⟩ := ht
  have hf : Firm (name ++ sp') := Firm.name h2.1 h2.2
  rw [List.append_assoc, hf.drop h1]
  have hb : NotBefore isIdentChar (sp' ++ '>' :: '>' :: u) := by
    cases sp' with
    | nil => exact .cons (by decide)
    | cons c sp' => exact .cons (isSpaceC_noIdent (h3 c (by simp)))
  rw [CState.parseMapping, List.append_assoc, readIdent_word h2 hb]
  simp only []
  have hsk : skipSpace (sp' ++ '>' :: '>' :: u) = '>' :: '>' :: u := by
    rw [skipSpace_spaces h3, skipSpace]
    simp [isSpaceC]
  have hie : name.isEmpty = false := by
    have := h2.isEmpty
    simpa using this
  rw [hsk, hie]
  simp only [Bool.false_eq_true, if_false]
  rw [show skipStr ['>', '>'] ('>' :: '>' :: u) = some u from rfl]
  simp only []
  rw [hs.commands, d.find_command, if_neg hm, hl, hs.unmapped, ha]
  rfl

end KM
