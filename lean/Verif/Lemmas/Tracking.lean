import Verif.Lemmas.Output
import Verif.Lemmas.StageRun
/-!
# Invariants about the tracked output keys and everything emitted
-/
namespace KM

/-- number of presses of a key -/
def countDown (tr : KeySequence) (k : Key) : Nat := tr.countP (fun e => e.key == k && e.state == .Down)

/-- each release is preceded by a press -/
def PressedBefore (tr : KeySequence) : Prop :=
  ∀ pre e post, tr = pre ++ e :: post → e.key ≠ Key.timeout → e.state = .Up →
    ∃ d ∈ pre, d.key = e.key ∧ d.state = .Down

theorem countDown_append (a b : KeySequence) (k) : countDown (a ++ b) k = countDown a k + countDown b k := by
  simp [countDown]

theorem countDown_pos {tr : KeySequence} {k} (h : 0 < countDown tr k) :
    ∃ d ∈ tr, d.key = k ∧ d.state = .Down := by
  unfold countDown at h
  rw [List.countP_pos_iff] at h
  obtain ⟨d, h1, h2⟩ := h
  exact ⟨d, h1, by simpa using h2⟩

theorem pressedBefore_nil : PressedBefore [] := by
  intro pre e post h; simp at h

theorem pressedBefore_append {tr : KeySequence} {e : KeyEvent} (h : PressedBefore tr)
    (he : e.key ≠ Key.timeout → e.state = .Up → ∃ d ∈ tr, d.key = e.key ∧ d.state = .Down) :
    PressedBefore (tr ++ [e]) := by
  intro pre x post hx h1 h2
  rcases List.eq_nil_or_concat post with hp | ⟨post', y, hp⟩
  · subst hp
    have : tr = pre ∧ e = x := by
      have := List.append_inj' hx rfl
      simpa using this
    obtain ⟨rfl, rfl⟩ := this
    exact he h1 h2
  · subst hp
    have : tr = pre ++ x :: post' := by
      have hx' : tr ++ [e] = (pre ++ x :: post') ++ [y] := by simpa using hx
      exact (List.append_inj' hx' rfl).1
    exact h pre x post' this h1 h2

theorem pressedBefore_of_append {tr l : KeySequence} (h : PressedBefore (tr ++ l)) : PressedBefore tr := by
  intro pre x post hx h1 h2
  exact h pre x (post ++ l) (by simp [hx]) h1 h2

theorem reverse_ind {P : List α → Prop} (l : List α) (nil : P []) (concat : ∀ l a, P l → P (l ++ [a])) : P l := by
  have : ∀ l : List α, P l.reverse := by
    intro l
    induction l with
    | nil => exact nil
    | cons a l ih => rw [List.reverse_cons]; exact concat _ _ ih
  simpa using this l.reverse

theorem pressedBefore_remove {a b : KeySequence} {x : KeyEvent} (h : PressedBefore (a ++ x :: b))
    (hb : ∀ e ∈ b, e.key ≠ x.key) : PressedBefore (a ++ b) := by
  induction b using reverse_ind with
  | nil => simpa using pressedBefore_of_append h
  | concat b y ih =>
    have h' : PressedBefore ((a ++ x :: b) ++ [y]) := by simpa using h
    rw [← List.append_assoc]
    apply pressedBefore_append
    · exact ih (pressedBefore_of_append h') (fun e he => hb e (by simp [he]))
    · intro h1 h2
      obtain ⟨d, hd, h3, h4⟩ := h' (a ++ x :: b) y [] (by simp) h1 h2
      refine ⟨d, ?_, h3, h4⟩
      have hxy := hb y (by simp)
      simp only [List.mem_append, List.mem_cons] at hd ⊢
      rcases hd with hd | hd | hd
      · exact Or.inl hd
      · subst hd; exact absurd h3.symm hxy
      · exact Or.inr hd

/-- the counting invariant -/
structure Tracked (tr : KeySequence) (down : List OutputDown) : Prop where
  nodup : (down.map (·.key)).Nodup
  before : PressedBefore tr
  count : ∀ o ∈ down, 1 + (if o.pressedTwice then 1 else 0) ≤ countDown tr o.key

theorem Tracked.exists {tr down} (h : Tracked tr down) {o : OutputDown} (ho : o ∈ down) :
    ∃ d ∈ tr, d.key = o.key ∧ d.state = .Down := by
  apply countDown_pos
  have := h.count o ho
  omega

theorem Tracked.append {tr down} (h : Tracked tr down) {e : KeyEvent}
    (he : e.key ≠ Key.timeout → e.state = .Up → ∃ o ∈ down, o.key = e.key) : Tracked (tr ++ [e]) down := by
  refine ⟨h.nodup, pressedBefore_append h.before ?_, ?_⟩
  · intro h1 h2
    obtain ⟨o, ho, hk⟩ := he h1 h2
    rw [← hk]
    exact h.exists ho
  · intro o ho
    have := h.count o ho
    rw [countDown_append]
    omega

theorem Tracked.modify {tr pre post} {o o' : OutputDown} (h : Tracked tr (pre ++ o :: post))
    (hk : o'.key = o.key) (hp : o'.pressedTwice = o.pressedTwice ∨ o'.pressedTwice = false) :
    Tracked tr (pre ++ o' :: post) := by
  refine ⟨?_, h.before, ?_⟩
  · have := h.nodup
    simpa [hk] using this
  · intro x hx
    simp only [List.mem_append, List.mem_cons] at hx
    rcases hx with hx | hx | hx
    · exact h.count x (by simp [hx])
    · subst hx
      have := h.count o (by simp)
      rw [hk]
      rcases hp with hp | hp
      · rw [hp]; exact this
      · rw [hp]; simp; split at this <;> omega
    · exact h.count x (by simp [hx])

theorem Tracked.erase {tr pre post} {o : OutputDown} (h : Tracked tr (pre ++ o :: post)) :
    Tracked tr (pre ++ post) := by
  refine ⟨?_, h.before, ?_⟩
  · have := h.nodup
    refine List.Nodup.sublist ?_ this
    simp
  · intro x hx
    simp only [List.mem_append] at hx
    exact h.count x (by rcases hx with hx | hx <;> simp [hx])

theorem Tracked.removeLastUp {tr down} {k : Key} (h : Tracked (tr ++ [⟨k, .Up, 0⟩]) down) : Tracked tr down := by
  refine ⟨h.nodup, pressedBefore_of_append h.before, ?_⟩
  intro o ho
  have := h.count o ho
  rw [countDown_append] at this
  simpa [countDown] using this

theorem Tracked.reapplyLoop {T : KeySequence} {s : S} {k : Key} (h : Tracked (T ++ s.buf) s.down) :
    Tracked (T ++ (reapplyLoop k s.down s.buf s.reapplied).2.1) (reapplyLoop k s.down s.buf s.reapplied).1 := by
  have := reapplyLoop_ind (P := fun b d => Tracked (T ++ b) d) (k := k) (pre := []) (r := s.reapplied)
    (l := s.down) (b := s.buf) ?_ ?_ h
  · simpa using this
  · intro b pre o post h _ _
    rw [← List.append_assoc]
    have h' : Tracked (T ++ b ++ [⟨o.key, .Down, 0⟩]) (pre ++ o :: post) := h.append (by simp)
    exact h'.modify rfl (Or.inl rfl)
  · intro b pre o post h _ _ _
    rw [← List.append_assoc] at h
    exact h.removeLastUp.modify rfl (Or.inl rfl)

theorem Tracked.updateOutput {T : KeySequence} {s : S} (ev trig ctx) (h : Tracked (T ++ s.buf) s.down) :
    Tracked (T ++ (updateOutput s ev trig ctx).buf) (updateOutput s ev trig ctx).down := by
  unfold KM.updateOutput
  split
  · -- Up
    next hst =>
    unfold updateOutputUp
    split
    · exact h
    · next o ho =>
      obtain ⟨pre, post, h1, h2, h3, h4, h5⟩ := find_split ho
      have hk : o.key = ev.key := by simpa using h2
      have happ : Tracked (T ++ s.buf ++ [ev]) s.down :=
        h.append (fun _ _ => ⟨o, by simp [h1], hk⟩)
      split
      · simp only [h4]
        rw [← List.append_assoc]
        rw [h1] at happ
        exact happ.modify rfl (Or.inr rfl)
      · split
        · next hp =>
          simp only [Bool.and_eq_true, Bool.not_eq_true'] at hp
          simp only [h4]
          have hm := h1 ▸ h
          rcases rEraseKey_split s.buf ev.key with ⟨_, hr⟩ | ⟨a, x, b, hb, hx, hbx, hr⟩
          · rw [hr]
            exact Tracked.modify hm rfl (Or.inr rfl)
          · rw [hr]
            rw [hb] at hm
            have hT : T ++ (a ++ x :: b) = (T ++ a) ++ x :: b := by simp
            rw [hT] at hm
            refine ⟨?_, ?_, ?_⟩
            · have := hm.nodup
              simpa using this
            · rw [← List.append_assoc]
              exact pressedBefore_remove hm.before (by rw [hx]; exact hbx)
            · intro y hy
              have hcnt : ∀ y : Key, countDown ((T ++ a) ++ x :: b) y ≤
                  countDown (T ++ (a ++ b)) y + (if y = ev.key then 1 else 0) := by
                intro y
                simp only [countDown, List.countP_append, List.countP_cons]
                by_cases hy : y = ev.key
                · simp [hy]; split <;> omega
                · have : (x.key == y) = false := by rw [hx]; simp; exact fun h => hy h.symm
                  simp [hy, this]; omega
              have hnd : ((pre ++ o :: post).map (·.key)).Nodup := hm.nodup
              have hne : ∀ y, y ∈ pre ∨ y ∈ post → y.key ≠ ev.key := by
                intro y hy heq
                rw [← hk] at heq
                simp only [List.map_append, List.map_cons, List.nodup_append, List.nodup_cons,
                  List.mem_map, List.mem_cons] at hnd
                rcases hy with hy | hy
                · exact hnd.2.2 y.key ⟨y, hy, rfl⟩ o.key (Or.inl rfl) heq
                · exact hnd.2.1.1 ⟨y, hy, heq⟩
              simp only [List.mem_append, List.mem_cons] at hy
              have key : ∀ y, y ∈ pre ∨ y ∈ post →
                  1 + (if y.pressedTwice = true then 1 else 0) ≤ countDown (T ++ (a ++ b)) y.key := by
                intro y hy
                have h6 := hm.count y (by rcases hy with hy | hy <;> simp [hy])
                have h7 := hcnt y.key
                rw [if_neg (hne y hy)] at h7
                omega
              rcases hy with hy | hy | hy
              · exact key y (Or.inl hy)
              · subst hy
                have h6 := hm.count o (by simp)
                have h7 := hcnt o.key
                rw [if_pos hk] at h7
                simp only [hp.1, if_true] at h6
                simp only [Bool.false_eq_true, if_false]
                omega
              · exact key y (Or.inr hy)
        · rw [← List.append_assoc]
          split
          · simp only [h5]
            rw [h1] at happ
            exact happ.erase
          · simp only [h4]
            rw [h1] at happ
            exact happ.modify rfl (Or.inl rfl)
  · -- Not
    unfold updateOutputNot
    split
    · exact h
    · next o ho =>
      obtain ⟨pre, post, h1, h2, h3, h4, h5⟩ := find_split ho
      have hk : o.key = ev.key := by simpa using h2
      split
      · exact h
      · simp only [h4]
        split
        · rw [h1] at h
          exact h.modify rfl (Or.inl rfl)
        · rw [← List.append_assoc]
          have happ : Tracked (T ++ s.buf ++ [⟨ev.key, .Up, 0⟩]) s.down :=
            h.append (fun _ _ => ⟨o, by simp [h1], hk⟩)
          rw [h1] at happ
          exact happ.modify rfl (Or.inl rfl)
  · -- Down
    next hst =>
    unfold updateOutputDown
    have hr := h.reapplyLoop (k := ev.key)
    generalize KM.reapplyLoop ev.key s.down s.buf s.reapplied = r at *
    obtain ⟨down, buf, reapplied, returned⟩ := r
    simp only [] at *
    split
    · exact hr
    · split
      · next hn =>
        rw [← List.append_assoc]
        have happ : Tracked (T ++ buf ++ [ev]) down := hr.append (by simp [hst])
        split
        · refine ⟨?_, happ.before, ?_⟩
          · rw [List.map_append, List.nodup_append]
            refine ⟨hr.nodup, by simp, ?_⟩
            intro a ha b hb
            simp only [List.mem_map] at ha
            obtain ⟨o, ho, rfl⟩ := ha
            simp only [List.map_cons, List.map_nil, List.mem_singleton] at hb
            subst hb
            simp only [Option.isNone_iff_eq_none, List.find?_eq_none, beq_iff_eq] at hn
            exact hn o ho
          · intro o ho
            simp only [List.mem_append, List.mem_singleton] at ho
            rcases ho with ho | ho
            · exact happ.count o ho
            · subst ho
              simp [countDown, hst]
              omega
        · exact happ
      · next hn =>
        cases ho : down.find? (·.key == ev.key) with
        | none => simp [ho] at hn
        | some o =>
          obtain ⟨pre, post, h1, h2, h3, h4, h5⟩ := find_split ho
          have hk : o.key = ev.key := by simpa using h2
          simp only [h4]
          subst h1
          split
          · next hrep =>
            have happ : Tracked (T ++ buf ++ [⟨ev.key, .Up, 0⟩]) (pre ++ o :: post) :=
              hr.append (fun _ _ => ⟨o, by simp, hk⟩)
            have happ2 : Tracked (T ++ buf ++ [⟨ev.key, .Up, 0⟩] ++ [ev]) (pre ++ o :: post) :=
              happ.append (by simp [hst])
            have hT : T ++ (buf ++ [⟨ev.key, .Up, 0⟩, ev]) = T ++ buf ++ [⟨ev.key, .Up, 0⟩] ++ [ev] := by simp
            rw [hT]
            exact happ2.modify rfl (Or.inr (by simp [hrep]))
          · next hrep =>
            rw [← List.append_assoc]
            have happ : Tracked (T ++ buf ++ [ev]) (pre ++ o :: post) := hr.append (by simp [hst])
            refine ⟨by simpa using hr.nodup, happ.before, ?_⟩
            intro y hy
            simp only [List.mem_append, List.mem_cons] at hy
            rcases hy with hy | hy | hy
            · exact happ.count y (by simp [hy])
            · subst hy
              have h6 := hr.count o (by simp)
              have h7 : countDown [ev] o.key = 1 := by simp [countDown, hst, hk]
              simp only [countDown_append, h7] at *
              split at h6 <;> split <;> omega
            · exact happ.count y (by simp [hy])
  all_goals exact h

theorem Tracked.releaseTriggered {T : KeySequence} {s : S} (k ctx) (h : Tracked (T ++ s.buf) s.down) :
    Tracked (T ++ (releaseTriggered s k ctx).buf) (releaseTriggered s k ctx).down := by
  unfold KM.releaseTriggered
  simp only []
  rw [← List.append_assoc]
  have h1 : ∀ l : List OutputDown, (∀ o ∈ l, o ∈ s.down) →
      Tracked (T ++ s.buf ++ l.map (fun o => ⟨o.key, .Up, 0⟩)) s.down := by
    intro l
    induction l using reverse_ind with
    | nil => intro _; simpa using h
    | concat l o ih =>
      intro hl
      rw [List.map_append, ← List.append_assoc]
      exact (ih (fun o ho => hl o (by simp [ho]))).append (fun _ _ => ⟨o, hl o (by simp), rfl⟩)
  have h2 := h1 ((s.down.filter (fun o => !staysDown k ctx o)).reverse.filter (fun o => !o.temporarilyReleased))
    (by intro o ho; simp only [List.mem_filter, List.mem_reverse] at ho; exact ho.1.1)
  refine ⟨?_, h2.before, ?_⟩
  · exact List.Nodup.sublist (List.filter_sublist.map _) h2.nodup
  · intro o ho
    exact h2.count o (List.mem_filter.1 ho).1

theorem tracked_histInv : HistInv (fun _ => True) (fun T s => Tracked (T ++ s.buf) s.down) where
  stage c T hG :=
    { outputs := fun _ _ => trivial
      frame := by
        intro s s' h1 h2 _ h
        rw [h1, h2]; exact h
      pending := fun _ _ _ _ => trivial
      apply := by
        intro s out trig ctx _ h
        exact applyOutput_of_update (Q := fun s => Tracked (T ++ s.buf) s.down)
          (fun s ev trig ctx h => h.updateOutput ev trig ctx) (fun s l h => h) s out trig ctx h
      forward := fun s e _ h => h.updateOutput _ _ _
      release := fun s k ctx h => h.releaseTriggered k ctx
      timeout := by
        intro s t ht h
        simp only []
        rw [← List.append_assoc]
        exact h.append (fun h' => absurd ht h')
      reset := by
        intro s h
        refine ⟨?_, h.before, ?_⟩
        · have := h.nodup
          simp only [List.map_map]
          exact this
        · intro o ho
          simp only [List.mem_map] at ho
          obtain ⟨o', ho', rfl⟩ := ho
          exact h.count o' ho' }
  emit T s h := by simpa using h

theorem Tracked.validateState {T} {s : S} (f) (h : Tracked (T ++ s.buf) s.down) :
    Tracked (T ++ (validateState s f).buf) (validateState s f).down := by
  refine ⟨List.Nodup.sublist (List.filter_sublist.map _) h.nodup, h.before, ?_⟩
  intro o ho
  exact h.count o (List.mem_filter.1 ho).1

theorem tracked_run (contexts : List Context) (ops : List StageOp) :
    Tracked (stageRun (stageInit contexts) ops).2 (stageRun (stageInit contexts) ops).1.2.down := by
  have h := tracked_histInv.run (ops := ops) (fun f _ T s h => h.validateState f)
    (st := stageInit contexts) (T := []) (fun _ _ => trivial)
    ⟨by simp [stageInit], pressedBefore_nil, by simp [stageInit]⟩ rfl
  have h2 := h.2
  have h1 := h.1
  simp only [h2] at h1
  simpa using h1

end KM
