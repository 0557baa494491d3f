import Verif.Spec.MultiStage
import Verif.Lemmas.Active
/-!
# C20, C21: stages in sequence
-/
namespace KM

theorem isServerEvent_iff (e : KeyEvent) : isServerEvent e = true ↔ ForServer e := by
  unfold isServerEvent ForServer isVirtualKey isActionKey
  simp [or_assoc]

private theorem allStages_iff (e : KeyEvent) : (e.key == Key.timeout || isVirtualKey e.key) = true ↔ ForAllStages e := by
  unfold ForAllStages isVirtualKey
  simp

/-- **C20**: a configuration with a single stage behaves like that stage. -/
theorem C20_single_stage (c : Cfg) (s : S) (clients : List Int) (ev : KeyEvent) (dev : Int) :
    ({ stages := [(c, s)], activeClient := clients } : MS).update ev dev =
      ({ stages := [(c, (update c s ev dev).1)], activeClient := clients }, (update c s ev dev).2) := by
  simp [MS.update, updateGo, stageEvent, stageInput]

/-- **C20**: a configuration without stages forwards events unchanged. -/
theorem C20_no_stage (clients : List Int) (ev : KeyEvent) (dev : Int) :
    ({ activeClient := clients } : MS).update ev dev = ({ activeClient := clients }, [ev]) := by
  simp [MS.update, updateGo]

/-! ### composition -/

/-- the loop over stages which are not the first ones, for events of previous stages only -/
private def pipe (dev : Int) : List (Cfg × S) → KeySequence → List (Cfg × S) × KeySequence
  | [], buf => ([], buf)
  | (c, s) :: rest, buf =>
    let (s, out) := stageInput c dev false s buf
    let (rest, buf) := pipe dev rest out
    ((c, s) :: rest, buf)

private theorem stageInput_append (c : Cfg) (dev : Int) (s : S) (a b : KeySequence) :
    stageInput c dev false s (a ++ b) =
      ((stageInput c dev false (stageInput c dev false s a).1 b).1,
        (stageInput c dev false s a).2 ++ (stageInput c dev false (stageInput c dev false s a).1 b).2) := by
  induction a generalizing s with
  | nil => rfl
  | cons e a ih =>
    have hc : ∀ l, stageInput c dev false s (e :: l) =
        if isServerEvent e then ((stageInput c dev false s l).1, e :: (stageInput c dev false s l).2)
        else ((stageInput c dev false (update c s e dev).1 l).1,
          (update c s e dev).2 ++ (stageInput c dev false (update c s e dev).1 l).2) := by
      intro l; rw [stageInput]; simp only [Bool.not_false, Bool.true_and]
    rw [List.cons_append, hc, hc]
    split
    · simp only [ih, List.cons_append]
    · simp only [ih, List.append_assoc]

private theorem pipe_append (dev : Int) (l : List (Cfg × S)) (a b : KeySequence) :
    pipe dev l (a ++ b) = ((pipe dev (pipe dev l a).1 b).1, (pipe dev l a).2 ++ (pipe dev (pipe dev l a).1 b).2) := by
  induction l generalizing a b with
  | nil => rfl
  | cons p l ih =>
    obtain ⟨c, s⟩ := p
    simp only [pipe, stageInput_append, ih]

private theorem pipe_nil (dev : Int) (l : List (Cfg × S)) : pipe dev l [] = (l, []) := by
  induction l with
  | nil => rfl
  | cons p l ih => obtain ⟨c, s⟩ := p; simp only [pipe, stageInput, ih]

private theorem pipe_server (dev : Int) (l : List (Cfg × S)) (e : KeyEvent) (h : isServerEvent e = true) :
    pipe dev l [e] = (l, [e]) := by
  induction l with
  | nil => rfl
  | cons p l ih => obtain ⟨c, s⟩ := p; simp [pipe, stageInput, h, ih]

/-- the loop over the following stages is the event of all stages, followed by the other events -/
private theorem updateGo_false_append (ev : KeyEvent) (dev : Int) (l : List (Cfg × S)) (a b : KeySequence) :
    updateGo ev dev false l (a ++ b) =
      ((pipe dev (updateGo ev dev false l a).1 b).1,
        (updateGo ev dev false l a).2 ++ (pipe dev (updateGo ev dev false l a).1 b).2) := by
  induction l generalizing a b with
  | nil => rfl
  | cons p l ih =>
    obtain ⟨c, s⟩ := p
    simp only [updateGo, pipe, stageInput_append, ← List.append_assoc, ih]

private theorem updateGo_false_other (ev : KeyEvent) (dev : Int) (l : List (Cfg × S)) (buf : KeySequence)
    (h : (ev.key == Key.timeout || isVirtualKey ev.key) = false) : updateGo ev dev false l buf = pipe dev l buf := by
  induction l generalizing buf with
  | nil => rfl
  | cons p l ih => obtain ⟨c, s⟩ := p; simp [updateGo, pipe, stageEvent, h, ih]

private theorem pipe_event (dev : Int) (l : List (Cfg × S)) (e : KeyEvent) (h : isServerEvent e = false)
    (hne : l ≠ []) : pipe dev l [e] = updateGo e dev true l [e] := by
  cases l with
  | nil => exact absurd rfl hne
  | cons p l =>
    obtain ⟨c, s⟩ := p
    have hk : (e.key == Key.timeout || isVirtualKey e.key) = false := by
      unfold isServerEvent at h
      simp only [Bool.or_eq_false_iff] at h ⊢
      exact h.1
    simp [pipe, updateGo, stageInput, stageEvent, h, updateGo_false_other _ _ _ _ hk]

private theorem updateGo_length (ev : KeyEvent) (dev : Int) (b : Bool) (l : List (Cfg × S)) (buf : KeySequence) :
    (updateGo ev dev b l buf).1.length = l.length := by
  induction l generalizing b buf with
  | nil => rfl
  | cons p l ih => obtain ⟨c, s⟩ := p; simp [updateGo, ih]

private theorem feed_eq_pipe (dev : Int) (m : MS) (hb : m.buf = []) (hne : m.stages ≠ []) (l : KeySequence) :
    feed dev m l = ({ m with stages := (pipe dev m.stages l).1 }, (pipe dev m.stages l).2) := by
  induction l generalizing m with
  | nil => rw [pipe_nil]; rfl
  | cons e l ih =>
    have hap : e :: l = [e] ++ l := rfl
    unfold feed
    split
    · next h =>
      have h := (isServerEvent_iff e).2 h
      rw [ih m hb hne, hap, pipe_append, pipe_server dev m.stages e h]
      rfl
    · next h =>
      have h : isServerEvent e = false := by
        cases hq : isServerEvent e with
        | true => exact absurd ((isServerEvent_iff e).1 hq) h
        | false => rfl
      have hu : m.update e dev = ({ m with stages := (pipe dev m.stages [e]).1, buf := [] }, (pipe dev m.stages [e]).2) := by
        unfold MS.update
        rw [hb, List.nil_append, pipe_event dev m.stages e h hne]
      have hne' : (m.update e dev).1.stages ≠ [] := by
        unfold MS.update
        intro hq
        simp only [] at hq
        have := congrArg List.length hq
        rw [updateGo_length] at this
        exact hne (List.length_eq_zero_iff.1 this)
      rw [ih (m.update e dev).1 rfl hne', hap, pipe_append, hu]
      simp [hb]

private theorem updateGo_append (ev : KeyEvent) (dev : Int) (b : Bool) (l r : List (Cfg × S)) (hne : l ≠ []) (buf : KeySequence) :
    updateGo ev dev b (l ++ r) buf =
      ((updateGo ev dev b l buf).1 ++ (updateGo ev dev false r (updateGo ev dev b l buf).2).1,
        (updateGo ev dev false r (updateGo ev dev b l buf).2).2) := by
  induction l generalizing b buf with
  | nil => exact absurd rfl hne
  | cons p l ih =>
    obtain ⟨c, s⟩ := p
    cases l with
    | nil => simp [updateGo]
    | cons q l =>
      have h := ih false (by simp) ((stageEvent c dev b s ev).2 ++ (stageInput c dev b (stageEvent c dev b s ev).1 buf).2)
      have hc : ∀ l, updateGo ev dev b ((c, s) :: l) buf =
          ((c, (stageInput c dev b (stageEvent c dev b s ev).1 buf).1) ::
            (updateGo ev dev false l ((stageEvent c dev b s ev).2 ++ (stageInput c dev b (stageEvent c dev b s ev).1 buf).2)).1,
            (updateGo ev dev false l ((stageEvent c dev b s ev).2 ++ (stageInput c dev b (stageEvent c dev b s ev).1 buf).2)).2) := by
        intro l; rfl
      rw [List.cons_append, hc, hc, h]
      rfl

private theorem updateGo_false_all (ev : KeyEvent) (dev : Int) (l : List (Cfg × S)) (hne : l ≠ [])
    (h : (ev.key == Key.timeout || isVirtualKey ev.key) = true) :
    updateGo ev dev true l [ev] = updateGo ev dev false l [] := by
  cases l with
  | nil => exact absurd rfl hne
  | cons p l => obtain ⟨c, s⟩ := p; simp [updateGo, stageEvent, stageInput, h]

/-- **C20**: configurations one after the other: the output of the second one applied to the output of
the first one, except for events for the server, which pass by unchanged and in order. Timeouts and
virtual keys are input into both, first of all. -/
theorem C20_stages_compose (a b : MS) (ha : a.stages ≠ []) (hb : b.stages ≠ []) (hbb : b.buf = []) (hab : a.buf = [])
    (ev : KeyEvent) (dev : Int) :
    let first := a.update ev dev
    let start := if ForAllStages ev then b.update ev dev else (b, [])
    let second := feed dev start.1 first.2
    ((a.andThen b).update ev dev).1.stages = first.1.stages ++ second.1.stages ∧
      ((a.andThen b).update ev dev).2 = start.2 ++ second.2 := by
  intro first start second
  have h1 : ((a.andThen b).update ev dev).1.stages = first.1.stages ++ (updateGo ev dev false b.stages first.2).1 ∧
      ((a.andThen b).update ev dev).2 = (updateGo ev dev false b.stages first.2).2 := by
    show (updateGo ev dev true (a.stages ++ b.stages) ([] ++ [ev])).1 = _ ∧ (updateGo ev dev true (a.stages ++ b.stages) ([] ++ [ev])).2 = _
    rw [List.nil_append, updateGo_append _ _ _ _ _ ha]
    have hf : first.1.stages = (updateGo ev dev true a.stages [ev]).1 ∧ first.2 = (updateGo ev dev true a.stages [ev]).2 := by
      show (a.update ev dev).1.stages = _ ∧ (a.update ev dev).2 = _
      unfold MS.update
      rw [hab]; exact ⟨rfl, rfl⟩
    rw [hf.1, hf.2]
    exact ⟨rfl, rfl⟩
  rw [h1.1, h1.2]
  by_cases h : ForAllStages ev
  · have hk := (allStages_iff ev).2 h
    have hst : start = b.update ev dev := if_pos h
    have hu : b.update ev dev = ({ b with stages := (updateGo ev dev false b.stages []).1, buf := [] }, (updateGo ev dev false b.stages []).2) := by
      unfold MS.update
      rw [hbb, List.nil_append, updateGo_false_all ev dev b.stages hb hk]
    have hlen : (updateGo ev dev false b.stages []).1 ≠ [] := by
      intro hq
      have := congrArg List.length hq
      rw [updateGo_length] at this
      exact hb (List.length_eq_zero_iff.1 this)
    have hsec : second = feed dev { b with stages := (updateGo ev dev false b.stages []).1, buf := [] } first.2 := by
      show feed dev start.1 first.2 = _
      rw [hst, hu]
    rw [hsec, feed_eq_pipe _ _ rfl hlen, hst, hu]
    have := updateGo_false_append ev dev b.stages [] first.2
    rw [List.nil_append] at this
    rw [this]
    exact ⟨rfl, rfl⟩
  · have hk : (ev.key == Key.timeout || isVirtualKey ev.key) = false := by
      cases hq : (ev.key == Key.timeout || isVirtualKey ev.key) with
      | true => exact absurd ((allStages_iff ev).1 hq) h
      | false => rfl
    have hst : start = (b, []) := if_neg h
    have hsec : second = feed dev b first.2 := by
      show feed dev start.1 first.2 = _
      rw [hst]
    rw [hsec, feed_eq_pipe _ _ hbb hb, hst, updateGo_false_other ev dev b.stages _ hk]
    exact ⟨rfl, rfl⟩


/-! ### change of contexts -/

private theorem contextInput_eq (c : Cfg) (s : S) (l : KeySequence) : contextInput c s l = stageInput c noDeviceIndex false s l := by
  induction l generalizing s with
  | nil => rfl
  | cons e l ih =>
    rw [contextInput, stageInput]
    simp only [Bool.not_false, Bool.true_and, ih]

private theorem setActiveGo_cons (indices : List Int) (c : Cfg) (s : S) (l : List (Cfg × S)) (off : Nat) (buf : KeySequence) :
    setActiveGo indices ((c, s) :: l) off buf =
      ((c, (setActiveClientContexts c (contextInput c s buf).1 (stageIndices indices off c.contexts.length)).1) ::
          (setActiveGo indices l (off + c.contexts.length)
            ((contextInput c s buf).2 ++ (setActiveClientContexts c (contextInput c s buf).1 (stageIndices indices off c.contexts.length)).2)).1,
        (setActiveGo indices l (off + c.contexts.length)
            ((contextInput c s buf).2 ++ (setActiveClientContexts c (contextInput c s buf).1 (stageIndices indices off c.contexts.length)).2)).2) := rfl

private theorem setActiveGo_buf (indices : List Int) (l : List (Cfg × S)) (off : Nat) (a b : KeySequence) :
    setActiveGo indices l off (a ++ b) =
      ((setActiveGo indices (pipe noDeviceIndex l a).1 off b).1,
        (pipe noDeviceIndex l a).2 ++ (setActiveGo indices (pipe noDeviceIndex l a).1 off b).2) := by
  induction l generalizing off a b with
  | nil => rfl
  | cons p l ih =>
    obtain ⟨c, s⟩ := p
    have hp : pipe noDeviceIndex ((c, s) :: l) a =
      ((c, (stageInput c noDeviceIndex false s a).1) :: (pipe noDeviceIndex l (stageInput c noDeviceIndex false s a).2).1,
        (pipe noDeviceIndex l (stageInput c noDeviceIndex false s a).2).2) := rfl
    rw [setActiveGo_cons, hp]
    simp only [setActiveGo_cons, contextInput_eq, stageInput_append]
    rw [List.append_assoc, ih]

private theorem stageIndices_shift (indices : List Int) (off k size : Nat) :
    stageIndices indices (k + off) size = stageIndices (indices.map (· - (k : Int))) off size := by
  unfold stageIndices
  induction indices with
  | nil => rfl
  | cons i l ih =>
    have hd : (decide (((k + off : Nat) : Int) ≤ i) && decide (i < ((k + off : Nat) : Int) + size)) =
        (decide ((off : Int) ≤ i - k) && decide (i - k < off + size)) := by
      rw [Bool.eq_iff_iff]
      simp only [Bool.and_eq_true, decide_eq_true_eq]
      omega
    simp only [List.map_cons, List.filter_cons, hd]
    split
    · simp only [List.map_cons, ih]
      congr 2
      omega
    · exact ih

private theorem setActiveGo_shift (indices : List Int) (l : List (Cfg × S)) (off k : Nat) (buf : KeySequence) :
    setActiveGo indices l (k + off) buf = setActiveGo (indices.map (· - (k : Int))) l off buf := by
  induction l generalizing off buf with
  | nil => rfl
  | cons p l ih =>
    obtain ⟨c, s⟩ := p
    rw [setActiveGo_cons, setActiveGo_cons, stageIndices_shift, Nat.add_assoc, ih]

private def sizes (l : List (Cfg × S)) : Nat := (l.map (fun p => p.1.contexts.length)).sum

private theorem setActiveGo_append (indices : List Int) (l r : List (Cfg × S)) (off : Nat) (buf : KeySequence) :
    setActiveGo indices (l ++ r) off buf =
      ((setActiveGo indices l off buf).1 ++ (setActiveGo indices r (off + sizes l) (setActiveGo indices l off buf).2).1,
        (setActiveGo indices r (off + sizes l) (setActiveGo indices l off buf).2).2) := by
  induction l generalizing off buf with
  | nil => simp [setActiveGo, sizes]
  | cons p l ih =>
    obtain ⟨c, s⟩ := p
    have hs : sizes ((c, s) :: l) = c.contexts.length + sizes l := by simp [sizes]
    rw [List.cons_append, setActiveGo_cons, setActiveGo_cons, ih, hs, Nat.add_assoc]
    rfl

/-- **C20**: also what the first stages output when the client reports other contexts is input into
the following ones, before their own contexts change. -/
theorem C20_context_change_composes (a b : MS) (hb : b.stages ≠ []) (hbb : b.buf = []) (hab : a.buf = []) (indices : List Int) :
    let first := a.setActiveClientContexts indices
    let mid := feed noDeviceIndex b first.2
    let second := mid.1.setActiveClientContexts
      (indices.map (· - (((a.stages.map (fun p => p.1.contexts.length)).sum : Nat) : Int)))
    ((a.andThen b).setActiveClientContexts indices).1.stages = first.1.stages ++ second.1.stages ∧
      ((a.andThen b).setActiveClientContexts indices).2 = mid.2 ++ second.2 := by
  intro first mid second
  have hf : first.1.stages = (setActiveGo indices a.stages 0 []).1 ∧ first.2 = (setActiveGo indices a.stages 0 []).2 := by
    show (a.setActiveClientContexts indices).1.stages = _ ∧ (a.setActiveClientContexts indices).2 = _
    unfold MS.setActiveClientContexts
    rw [hab]; exact ⟨rfl, rfl⟩
  have hm : mid = ({ b with stages := (pipe noDeviceIndex b.stages first.2).1 }, (pipe noDeviceIndex b.stages first.2).2) :=
    feed_eq_pipe _ _ hbb hb _
  have h2 : second.1.stages = (setActiveGo (indices.map (· - ((sizes a.stages : Nat) : Int))) (pipe noDeviceIndex b.stages first.2).1 0 []).1 ∧
      second.2 = (setActiveGo (indices.map (· - ((sizes a.stages : Nat) : Int))) (pipe noDeviceIndex b.stages first.2).1 0 []).2 := by
    show (mid.1.setActiveClientContexts _).1.stages = _ ∧ (mid.1.setActiveClientContexts _).2 = _
    rw [hm]
    unfold MS.setActiveClientContexts
    simp only [hbb]
    exact ⟨rfl, rfl⟩
  rw [h2.1, h2.2, hf.1, hm]
  show (setActiveGo indices (a.stages ++ b.stages) 0 []).1 = _ ∧ (setActiveGo indices (a.stages ++ b.stages) 0 []).2 = _
  have hq := setActiveGo_buf (indices.map (· - ((sizes a.stages : Nat) : Int))) b.stages 0 first.2 []
  rw [List.append_nil] at hq
  rw [setActiveGo_append, ← hf.2, Nat.zero_add, ← Nat.add_zero (sizes a.stages), setActiveGo_shift, Nat.add_zero, hq]
  exact ⟨rfl, rfl⟩

/-! ### C21 -/

private theorem setActiveClientContexts_client (c : Cfg) (s : S) (l : List Nat) :
    (setActiveClientContexts c s l).1.activeClient = l := by
  unfold setActiveClientContexts
  simp only []
  exact kept_client (updateActiveContexts_kept c _) |>.trans (by rfl)

private theorem map_add_stageIndices (indices : List Int) (off size : Nat) :
    (stageIndices indices off size).map (fun i => ((off + i : Nat) : Int)) =
      indices.filter (fun i => decide ((off : Int) ≤ i ∧ i < ((off + size : Nat) : Int))) := by
  unfold stageIndices
  induction indices with
  | nil => rfl
  | cons i l ih =>
    have hd : (decide ((off : Int) ≤ i) && decide (i < (off : Int) + size)) = decide ((off : Int) ≤ i ∧ i < ((off + size : Nat) : Int)) := by
      rw [Bool.eq_iff_iff]
      simp only [Bool.and_eq_true, decide_eq_true_eq]
      omega
    simp only [List.filter_cons, hd]
    by_cases h : (off : Int) ≤ i ∧ i < ((off + size : Nat) : Int)
    · rw [if_pos (decide_eq_true h), if_pos (decide_eq_true h), List.map_cons, List.map_cons, ih]
      congr 1
      omega
    · rw [if_neg (by simpa using h), if_neg (by simpa using h)]
      exact ih

private theorem setActiveGo_get (indices : List Int) (l : List (Cfg × S)) (off : Nat) (buf : KeySequence) (n : Nat) (c : Cfg) (s : S)
    (h : l[n]? = some (c, s)) :
    ∃ s', (setActiveGo indices l off buf).1[n]? = some (c, s') ∧
      s'.activeClient = stageIndices indices (off + sizes (l.take n)) c.contexts.length := by
  induction l generalizing off buf n with
  | nil => cases h
  | cons p l ih =>
    obtain ⟨c', s'⟩ := p
    rw [setActiveGo_cons]
    cases n with
    | zero =>
      rw [List.getElem?_cons_zero] at h ⊢
      injection h with h
      injection h with h1 h2
      subst h1; subst h2
      exact ⟨_, rfl, setActiveClientContexts_client _ _ _⟩
    | succ n =>
      rw [List.getElem?_cons_succ] at h ⊢
      obtain ⟨s2, h1, h2⟩ := ih (off + c'.contexts.length) ((contextInput c' s' buf).2 ++
        (setActiveClientContexts c' (contextInput c' s' buf).1 (stageIndices indices off c'.contexts.length)).2) n h
      refine ⟨s2, h1, ?_⟩
      rw [h2]
      simp [sizes, Nat.add_assoc]

/-- **C21**: after the client reported contexts, each stage's reported contexts are exactly the ones
which lie within the stage, in the order reported, numbered from the first context of the stage.
(The contexts of a stage follow the ones of the stages in front of it.) -/
theorem C21_context_distribution (m : MS) (indices : List Int) (n : Nat) (c : Cfg) (s : S) (h : m.stages[n]? = some (c, s)) :
    ∃ s', (m.setActiveClientContexts indices).1.stages[n]? = some (c, s') ∧
      s'.activeClient.map (fun i => ((stageOffset m n + i : Nat) : Int)) =
        indices.filter (fun i => decide ((stageOffset m n : Int) ≤ i ∧ i < ((stageOffset m n + c.contexts.length : Nat) : Int))) := by
  obtain ⟨s', h1, h2⟩ := setActiveGo_get indices m.stages 0 m.buf n c s h
  refine ⟨s', h1, ?_⟩
  rw [h2, Nat.zero_add]
  exact map_add_stageIndices _ _ _

private theorem sizes_take_succ (l : List (Cfg × S)) (n : Nat) (c : Cfg) (s : S) (h : l[n]? = some (c, s)) :
    sizes (l.take (n + 1)) = sizes (l.take n) + c.contexts.length := by
  unfold sizes
  rw [List.take_add_one, h]
  simp

private theorem sizes_mono (l : List (Cfg × S)) {n k : Nat} (h : n ≤ k) : sizes (l.take n) ≤ sizes (l.take k) := by
  induction k with
  | zero => cases Nat.le_zero.1 h; exact Nat.le_refl _
  | succ k ih =>
    rcases Nat.lt_or_ge k n with hk | hk
    · have : n = k + 1 := Nat.le_antisymm h hk
      rw [this]
      exact Nat.le_refl _
    · refine Nat.le_trans (ih hk) ?_
      cases hq : l[k]? with
      | none => unfold sizes; rw [List.take_add_one, hq]; simp
      | some p => rw [sizes_take_succ l k p.1 p.2 hq]; exact Nat.le_add_right _ _

private theorem locate (l : List (Cfg × S)) (x : Nat) (h : x < sizes l) :
    ∃ n c s, l[n]? = some (c, s) ∧ sizes (l.take n) ≤ x ∧ x < sizes (l.take n) + c.contexts.length := by
  induction l generalizing x with
  | nil => cases h
  | cons p l ih =>
    obtain ⟨c, s⟩ := p
    rcases Nat.lt_or_ge x c.contexts.length with hx | hx
    · exact ⟨0, c, s, rfl, Nat.zero_le _, by simpa [sizes] using hx⟩
    · have hs : sizes ((c, s) :: l) = c.contexts.length + sizes l := by simp [sizes]
      obtain ⟨n, c', s', h1, h2, h3⟩ := ih (x - c.contexts.length) (by omega)
      refine ⟨n + 1, c', s', h1, ?_, ?_⟩
      · have : sizes (((c, s) :: l).take (n + 1)) = c.contexts.length + sizes (l.take n) := by simp [sizes]
        omega
      · have : sizes (((c, s) :: l).take (n + 1)) = c.contexts.length + sizes (l.take n) := by simp [sizes]
        omega

/-- **C21**: each context of the configuration belongs to exactly one stage, and is active in the
client there, under its number within the stage, exactly as often as it was reported. -/
theorem C21_each_context_once (m : MS) (indices : List Int) (x : Nat) (hx : x < m.contextCount) :
    ∃ n i, (∃ c s, (m.setActiveClientContexts indices).1.stages[n]? = some (c, s) ∧ i < c.contexts.length ∧
        s.activeClient.count i = indices.count (x : Int)) ∧ stageOffset m n + i = x ∧
      ∀ n' c' s', m.stages[n']? = some (c', s') → stageOffset m n' ≤ x → x < stageOffset m n' + c'.contexts.length → n' = n := by
  obtain ⟨n, c, s, h1, h2, h3⟩ := locate m.stages x (by simpa [MS.contextCount, sizes] using hx)
  obtain ⟨s', h4, h5⟩ := C21_context_distribution m indices n c s h1
  have ho : ∀ k, sizes (m.stages.take k) = stageOffset m k := fun _ => rfl
  rw [ho] at h2 h3
  refine ⟨n, x - stageOffset m n, ⟨c, s', h4, by omega, ?_⟩, by omega, ?_⟩
  · have hc : (s'.activeClient.map (fun i => ((stageOffset m n + i : Nat) : Int))).count (x : Int) = s'.activeClient.count (x - stageOffset m n) := by
      have hinj : ∀ l : List Nat, (l.map (fun i => ((stageOffset m n + i : Nat) : Int))).count (x : Int) = l.count (x - stageOffset m n) := by
        intro l
        induction l with
        | nil => rfl
        | cons i l ih =>
          rw [List.map_cons, List.count_cons, List.count_cons, ih]
          congr 1
          have : (((stageOffset m n + i : Nat) : Int) == (x : Int)) = (i == x - stageOffset m n) := by
            rw [Bool.eq_iff_iff]
            simp only [beq_iff_eq]
            omega
          rw [this]
      exact hinj _
    rw [← hc, h5, List.count_filter]
    simp only [decide_eq_true_eq]
    omega
  · intro n' c' s'' h6 h7 h8
    rcases Nat.lt_trichotomy n' n with h | h | h
    · have := sizes_mono m.stages h
      rw [sizes_take_succ _ _ _ _ h6, ho, ho] at this
      omega
    · exact h
    · have := sizes_mono m.stages h
      rw [sizes_take_succ _ _ _ _ h1, ho, ho] at this
      omega

/-- **C21**: contexts reported in ascending order are given to each stage in ascending order, and
are contexts of the stage. -/
theorem C21_valid (m : MS) (indices : List Int) (hs : indices.Pairwise (· ≤ ·)) (n : Nat) (c : Cfg) (s : S)
    (h : (m.setActiveClientContexts indices).1.stages[n]? = some (c, s)) :
    s.activeClient.Pairwise (· ≤ ·) ∧ ∀ i ∈ s.activeClient, i < c.contexts.length ∧ ((stageOffset m n + i : Nat) : Int) ∈ indices := by
  have hlen : ∀ l off buf, (setActiveGo indices l off buf).1.length = l.length := by
    intro l
    induction l with
    | nil => intros; rfl
    | cons p l ih => intro off buf; obtain ⟨c, s⟩ := p; rw [setActiveGo_cons]; simp [ih]
  have hn : n < m.stages.length := by
    have := (List.getElem?_eq_some_iff.1 h).1
    rw [← hlen m.stages 0 m.buf]
    exact this
  obtain ⟨⟨c0, s0⟩, hq⟩ : ∃ p, m.stages[n] = p := ⟨_, rfl⟩
  have h0 : m.stages[n]? = some (c0, s0) := by rw [List.getElem?_eq_getElem hn, hq]
  obtain ⟨s', h1, h2⟩ := C21_context_distribution m indices n c0 s0 h0
  rw [h1] at h
  injection h with h
  injection h with hc hs'
  subst hc; subst hs'
  have hf : (s'.activeClient.map (fun i => ((stageOffset m n + i : Nat) : Int))).Pairwise (· ≤ ·) := by
    rw [h2]
    exact hs.filter _
  constructor
  · rw [List.pairwise_map] at hf
    exact hf.imp (fun h => by omega)
  · intro i hi
    have hm : ((stageOffset m n + i : Nat) : Int) ∈ s'.activeClient.map (fun i => ((stageOffset m n + i : Nat) : Int)) :=
      List.mem_map.2 ⟨i, hi, rfl⟩
    rw [h2, List.mem_filter] at hm
    have := of_decide_eq_true hm.2
    exact ⟨by omega, hm.1⟩

/-- Two stages: `A >> B` followed by `B >> Virtual1 C`, and a third with two contexts -/
private def exMs : MS :=
  MS.make <| List.map Cfg.make [[{ inputs := [⟨[⟨30, .Down, 0⟩], 0⟩], outputs := [[⟨48, .Down, 0⟩]] }],
    [{ inputs := [⟨[⟨48, .Down, 0⟩], 0⟩], outputs := [[⟨0xF101, .Down, 0⟩, ⟨46, .Down, 0⟩]] }, {}], [{}, {}]]

example : ((exMs.setActiveClientContexts [0, 1, 2, 3, 4]).1.reuseBuffer.update ⟨30, .Down, 0⟩ 0).2 = [⟨0xF101, .Down, 0⟩, ⟨46, .Down, 0⟩] := by decide +kernel

example : ((exMs.setActiveClientContexts [0, 2, 3, 7]).1.stages.map (fun p => p.2.activeClient)) = [[0], [1], [0]] := by
  decide +kernel

end KM
