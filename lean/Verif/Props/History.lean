import Verif.Lemmas.HistoryRun
import Verif.Lemmas.Held
/-!
# C13: what mappings with `?` are compared with

A mapping whose input begins with `?` is compared with a history of the input, which is not consumed
by other mappings. The history consists of events which were input, in order; each key is pressed
first and then alternately released and pressed; a key which is held is never forgotten; and the
history is only as long as a mapping might still match it.
-/
namespace KM

theorem endsPressed_held {T H : KeySequence} {k : Key} (h : KeyHist (ofKey k T) (ofKey k H)) (hp : endsPressed H k) :
    heldAfter T k = true := by
  obtain ⟨e, he, hd⟩ := hp
  obtain ⟨f, hf, hfd, _⟩ := h.last e he hd
  clear h he hd
  rename_i hx
  clear hx
  revert hf
  induction T using list_snoc_induction' with
  | h0 => intro hf; simp [ofKey] at hf
  | h1 T x ih =>
    intro hf
    rw [ofKey_append] at hf
    by_cases hx : x.key = k
    · subst hx
      rw [ofKey_cons_self, show ofKey x.key [] = [] from rfl, List.getLast?_concat, Option.some_inj] at hf
      subst hf
      rw [heldAfter, List.foldl_append, List.foldl_cons, List.foldl_nil, heldStep, if_pos rfl, if_pos hfd]
    · rw [ofKey_cons_ne hx, show ofKey k [] = [] from rfl, List.append_nil] at hf
      rw [heldAfter_other T [x] k (by intro e he; rw [List.mem_singleton] at he; rw [he]; exact hx)]
      exact ih hf
where
  list_snoc_induction' {α : Type} {P : List α → Prop} (h0 : P []) (h1 : ∀ l x, P l → P (l ++ [x])) (l : List α) : P l := by
    rw [← List.reverse_reverse l]
    induction l.reverse with
    | nil => exact h0
    | cons x l ih => rw [List.reverse_cons]; exact h1 _ _ ih

/-- **C13** The history consists of input events in order, each key is pressed first and then
alternately released and pressed, and what is pressed at its end is held. -/
theorem C13_history_well_formed (contexts : List Context) (hc : ContextsSafe contexts) (ops : List StageOp)
    (ho : ∀ op ∈ ops, op.isSafe contexts.length) (hv : InputsFit (inputEvents ops)) :
    (stageRun (stageInit contexts) ops).1.2.history.Sublist (inputEvents ops) ∧
    (∀ k, alternates (ofKey k (stageRun (stageInit contexts) ops).1.2.history) = true) ∧
    ∀ k, endsPressed (stageRun (stageInit contexts) ops).1.2.history k → heldAfter (inputEvents ops) k = true := by
  have h := (StageOk.runInit hc ho hv).2.2.1.hist
  exact ⟨h.sub, fun k => (h.keys k).alt, fun k hp => endsPressed_held (h.keys k) hp⟩

private theorem inputEvents_append' (a b : List StageOp) : inputEvents (a ++ b) = inputEvents a ++ inputEvents b := by
  induction a with
  | nil => rfl
  | cons x a ih => rw [List.cons_append, inputEvents_cons_eq, inputEvents_cons_eq x a, ih, List.append_assoc]

private theorem stageRun_append' (st : Cfg × S) (a b : List StageOp) :
    (stageRun st (a ++ b)).1 = (stageRun (stageRun st a).1 b).1 := by
  induction a generalizing st with
  | nil => rfl
  | cons x a ih => exact ih _

private theorem endsPressed_run {k : Key} (more : List StageOp) : ∀ (st : Cfg × S) (T : KeySequence), st.1.Safe → StageOk st.1 T st.2 →
    (∀ op ∈ more, op.isSafe st.1.contexts.length) → InputsFit (T ++ inputEvents more) →
    (∀ e ∈ inputEvents more, e.key = k → e.state ≠ .Up) → endsPressed st.2.history k →
    endsPressed (stageRun st more).1.2.history k := by
  induction more with
  | nil => intro st T _ _ _ _ _ hp; exact hp
  | cons op more ih =>
    intro st T hs h ho hv hk hp
    rw [inputEvents_cons_eq, ← List.append_assoc] at hv
    rw [inputEvents_cons_eq] at hk
    have hv1 : InputsFit (T ++ inputEvents [op]) := hv.prefix
    obtain ⟨g1, g2, _⟩ := h.step hs (ho op (by simp)) hv1
    have hlen := stageStep_length st op
    refine ih (stageStep st op).1 _ g1 g2
      (fun op' hop => by rw [hlen]; exact ho op' (List.mem_cons_of_mem _ hop)) hv
      (fun e he => hk e (List.mem_append_right _ he)) ?_
    cases op with
    | input ev dev =>
      have h0 : StageOk st.1 T { st.2 with exitPos := advanceExit st.2.exitPos ev } :=
        ⟨⟨h.ok.ub, h.ok.onRelease, h.ok.seq, h.ok.history, h.ok.active, h.ok.client, h.ok.down, h.ok.buf,
          h.ok.anyM⟩, h.hist⟩
      have hi : InputSafe ev dev := ho (.input ev dev) (by simp)
      refine (h0.applyInput hs hi hv1).2.2 k ?_ hp
      by_cases hek : ev.key = k
      · exact Or.inr (hi.state.resolve_right (hk ev (by simp [inputEvents]) hek))
      · exact Or.inl hek
    | contexts l =>
      show endsPressed (setActiveClientContexts st.1 st.2 l).1.history k
      rw [(h.ok.setActiveClientContexts hs (ho (.contexts l) (by simp))).2.1]
      exact hp
    | devices rx ds => exact hp
    | validate f => exact hp

/-- **C13** A key which is held stays in the history as long as it is not released, whatever else
happens. -/
theorem C13_held_keys_are_kept (contexts : List Context) (hc : ContextsSafe contexts) (ops more : List StageOp)
    (ho : ∀ op ∈ ops ++ more, op.isSafe contexts.length) (hv : InputsFit (inputEvents (ops ++ more)))
    (k : Key) (hk : ∀ e ∈ inputEvents more, e.key = k → e.state ≠ .Up)
    (hp : endsPressed (stageRun (stageInit contexts) ops).1.2.history k) :
    endsPressed (stageRun (stageInit contexts) (ops ++ more)).1.2.history k := by
  rw [inputEvents_append'] at hv
  have h := StageOk.runInit hc (fun op hop => ho op (List.mem_append_left _ hop)) hv.prefix
  rw [stageRun_append']
  have ho' : ∀ op ∈ more, op.isSafe (stageRun (stageInit contexts) ops).1.1.contexts.length := by
    intro op hop
    rw [h.2.1]
    exact ho op (List.mem_append_right _ hop)
  generalize (stageRun (stageInit contexts) ops).1 = st at *
  exact endsPressed_run more st _ h.1 h.2.2.1 ho' hv hk hp

/-- **C13** After each event, either the event was ignored and nothing changed, or the history is
empty, begins with a key which is held, or a mapping with `?` might still match it. -/
theorem C13_cleaned_up (contexts : List Context) (hc : ContextsSafe contexts) (ops : List StageOp) (ev : KeyEvent)
    (dev : Int) (ho : ∀ op ∈ ops ++ [.input ev dev], op.isSafe contexts.length)
    (hv : InputsFit (inputEvents (ops ++ [.input ev dev]))) :
    ((stageRun (stageInit contexts) (ops ++ [.input ev dev])).1.2.history =
        (stageRun (stageInit contexts) ops).1.2.history ∧
      (stageRun (stageInit contexts) (ops ++ [.input ev dev])).1.2.active =
        (stageRun (stageInit contexts) ops).1.2.active ∧ (ev.state = .Down ∨ ev.key = Key.timeout)) ∨
    CleanedUp (stageRun (stageInit contexts) (ops ++ [.input ev dev])).1.1
      (stageRun (stageInit contexts) (ops ++ [.input ev dev])).1.2.active
      (stageRun (stageInit contexts) (ops ++ [.input ev dev])).1.2.history := by
  rw [inputEvents_append'] at hv
  have h := StageOk.runInit hc (fun op hop => ho op (List.mem_append_left _ hop)) hv.prefix
  rw [stageRun_append']
  generalize (stageRun (stageInit contexts) ops).1 = st at *
  have h' := h.2.2.1
  have h0 : StageOk st.1 (inputEvents ops) { st.2 with exitPos := advanceExit st.2.exitPos ev } :=
    ⟨⟨h'.ok.ub, h'.ok.onRelease, h'.ok.seq, h'.ok.history, h'.ok.active, h'.ok.client, h'.ok.down, h'.ok.buf,
      h'.ok.anyM⟩, h'.hist⟩
  exact (h0.applyInput h.1 (ho (.input ev dev) (by simp)) hv).2.1

end KM
