import Verif.Lemmas.Attribution
import Verif.Props.Pressed
import Verif.Props.StageOutput
import Verif.Props.Contexts
/-!
# What holds an output key down (C50, C51)
-/
namespace KM

/-- The operation inputs an event as the devices, the virtual keys and the timeouts create them:
presses and releases without a value, timeouts are releases; no wildcard, no context activation. -/
def StageOp.isKeyInput : StageOp → Prop
  | .input ev _ => (ev.state = .Down ∨ (ev.state = .Up ∧ ev.value = 0)) ∧ ev.key ≠ Key.timeout ∧
      ev.key ≠ Key.any ∧ ev.key ≠ Key.ContextActive ∨ (ev.key = Key.timeout ∧ ev.state = .Up)
  | _ => True

private structure AttrInv (st : Cfg × S) (T : KeySequence) : Prop where
  seq : ∀ e ∈ st.2.seq, SeqEvent e
  keys : ∀ e ∈ st.2.seq, InputKey e
  held : ∀ k, k ≠ Key.timeout → pressedIn st.2.seq k = true → heldAfter T k = true
  down : Attrib (fun k t _ => t.keyOf = k ∨ t.keyOf = Key.ContextActive ∨ t.keyOf = Key.timeout ∨
    heldAfter T t.keyOf = true) st.2.down

private theorem AttrInv.input {st : Cfg × S} {T} (h : AttrInv st T) {ev : KeyEvent} {dev}
    (hop : (StageOp.input ev dev).isKeyInput) : AttrInv (stageStep st (.input ev dev)).1 (T ++ [ev]) := by
  have hst : ev.state = .Down ∨ ev.state = .Up := by
    rcases hop with ⟨h | h, _⟩ | h
    · exact Or.inl h
    · exact Or.inr h.1
    · exact Or.inr h.2
  have hsev : SeqEvent ev := by
    intro ht
    rcases hop with ⟨h | h, _⟩ | h
    · exact Or.inl h
    · exact Or.inr (Or.inr h)
    · exact absurd h.1 ht
  have hkey : InputKey ev := by
    rcases hop with ⟨_, _, h⟩ | h
    · exact h
    · exact ⟨by rw [h.1]; decide, by rw [h.1]; decide⟩
  have hheld : ∀ k, k ≠ Key.timeout → pressedIn (st.2.seq ++ [ev]) k = true → heldAfter (T ++ [ev]) k = true := by
    intro k hk hp
    rw [heldAfter_event _ _ hst]
    rw [pressedIn_concat] at hp
    split
    · next hek => rw [if_pos hek] at hp; exact hp
    · next hek => rw [if_neg hek] at hp; exact h.held k hk hp
  refine ⟨seqEvent_inv.update h.seq hsev, inputKey_inv.update h.keys hkey, ?_, ?_⟩
  · intro k hk hp
    have hp : pressedIn (update st.1 st.2 ev dev).1.seq k = true := hp
    rcases pressedIn_update (c := st.1) (dev := dev) h.seq hsev hk with hu | ⟨hseq, hd, _⟩
    · rw [hu] at hp; exact hheld k hk hp
    · rw [hseq] at hp
      rw [heldAfter_event _ _ hst]
      split
      · rw [hd]; rfl
      · exact h.held k hk hp
  · let R : Key → Trigger → Int → Prop := fun k t _ =>
      t.keyOf = k ∨ t.keyOf = Key.ContextActive ∨ t.keyOf = Key.timeout ∨
        heldAfter (T ++ [ev]) t.keyOf = true ∨ t.keyOf = ev.key
    have hu : Attrib R (update st.1 st.2 ev dev).1.down := by
      refine Attrib.update (P := pressedIn (st.2.seq ++ [ev])) ⟨?_, ?_⟩ ?_ ?_ h.keys hkey h.seq hsev (fun _ _ => rfl)
      · intro k t c _ ht
        by_cases h0 : t.keyOf = Key.timeout
        · exact Or.inr (Or.inr (Or.inl h0))
        · rcases ht with ht | ht | ht
          · exact absurd ht h0
          · exact Or.inr (Or.inr (Or.inr (Or.inl (hheld _ h0 ht))))
          · exact Or.inr (Or.inr (Or.inr (Or.inr ht)))
      · intro k t c _ ht; exact Or.inl ht
      · intro k t c ht; exact Or.inr (Or.inl ht)
      · intro o ho
        rcases h.down o ho with h1 | h1 | h1 | h1
        · exact Or.inl h1
        · exact Or.inr (Or.inl h1)
        · exact Or.inr (Or.inr (Or.inl h1))
        · by_cases hek : o.trigger.keyOf = ev.key
          · exact Or.inr (Or.inr (Or.inr (Or.inr hek)))
          · refine Or.inr (Or.inr (Or.inr (Or.inl ?_)))
            rw [heldAfter_event _ _ hst, if_neg (Ne.symm hek)]; exact h1
    intro o ho
    rcases hu o ho with h1 | h1 | h1 | h1 | h1
    · exact Or.inl h1
    · exact Or.inr (Or.inl h1)
    · exact Or.inr (Or.inr (Or.inl h1))
    · exact Or.inr (Or.inr (Or.inr h1))
    · rcases hst with hd | hup
      · refine Or.inr (Or.inr (Or.inr ?_))
        show heldAfter (T ++ [ev]) o.trigger.keyOf = true
        rw [heldAfter_event _ _ (Or.inl hd), if_pos h1.symm, hd]; rfl
      · by_cases ht : ev.key = Key.timeout
        · exact Or.inr (Or.inr (Or.inl (h1.trans ht)))
        · exact absurd h1 (update_release st.1 st.2 ev dev hup hkey.2 ht o ho)

private theorem AttrInv.step {st : Cfg × S} {T} (h : AttrInv st T) {op : StageOp} (hop : op.isKeyInput) :
    AttrInv (stageStep st op).1 (T ++ inputEvents [op]) := by
  cases op with
  | input ev dev => exact h.input hop
  | contexts l =>
    rw [show T ++ inputEvents [StageOp.contexts l] = T by simp [inputEvents]]
    refine ⟨?_, ?_, ?_, ?_⟩
    · show ∀ e ∈ (setActiveClientContexts st.1 st.2 l).1.seq, _
      rw [setActiveClientContexts_seq]; exact h.seq
    · show ∀ e ∈ (setActiveClientContexts st.1 st.2 l).1.seq, _
      rw [setActiveClientContexts_seq]; exact h.keys
    · show ∀ k, _ → pressedIn (setActiveClientContexts st.1 st.2 l).1.seq k = true → _
      rw [setActiveClientContexts_seq]; exact h.held
    · show Attrib _ (setActiveClientContexts st.1 st.2 l).1.down
      unfold setActiveClientContexts
      simp only []
      show Attrib _ (updateActiveContexts _ _).down
      refine Attrib.updateActiveContexts ?_ (fun k t c ht => Or.inr (Or.inl ht))
      show Attrib _ (if _ then _ else _ : S).down
      split <;> exact h.down
  | devices rx ds =>
    rw [show T ++ inputEvents [StageOp.devices rx ds] = T by simp [inputEvents]]
    exact ⟨h.seq, h.keys, h.held, h.down⟩
  | validate f =>
    rw [show T ++ inputEvents [StageOp.validate f] = T by simp [inputEvents]]
    refine ⟨fun e he => h.seq e (List.mem_filter.1 he).1, fun e he => h.keys e (List.mem_filter.1 he).1,
      fun k hk hp => ?_, h.down.subset (fun o ho => (List.mem_filter.1 ho).1)⟩
    have := mem_filter_pressedIn (k := k) (l := st.2.seq)
      (p := fun e => !(isDeviceKey e.key && !f e.key)) (by intro a _ b _ ha hb; rw [ha, hb]) hp
    exact h.held k hk this

private theorem AttrInv.run {st : Cfg × S} {T} (h : AttrInv st T) {ops : List StageOp}
    (hops : ∀ op ∈ ops, op.isKeyInput) : AttrInv (stageRun st ops).1 (T ++ inputEvents ops) := by
  induction ops generalizing st T with
  | nil => simpa [stageRun, inputEvents] using h
  | cons op ops ih =>
    have h1 := ih (h.step (hops op (by simp))) (fun o ho => hops o (by simp [ho]))
    rw [inputEvents_cons, ← List.append_assoc]; exact h1

/-- **C51** In all histories each output key which is down is attributed to an input key which is
physically held, to a context activation, to a timeout, or is the forwarded input key itself. In
particular no output is attributed to another key which was already released. -/
theorem C51_attributed_to_held_key (contexts : List Context) (ops : List StageOp)
    (hops : ∀ op ∈ ops, op.isKeyInput) (o : OutputDown)
    (ho : o ∈ (stageRun (stageInit contexts) ops).1.2.down) :
    o.trigger.keyOf = o.key ∨ o.trigger.keyOf = Key.ContextActive ∨ o.trigger.keyOf = Key.timeout ∨
      heldAfter (inputEvents ops) o.trigger.keyOf = true := by
  have hi : AttrInv (stageInit contexts) [] :=
    ⟨by simp [stageInit], by simp [stageInit], by simp [stageInit, pressedIn, rfindKey],
      by simp [stageInit, Attrib]⟩
  have := (hi.run hops).down o ho
  simpa using this

/-- **C51** On the keyboard on which everything emitted is replayed: a key which is still down,
although all input keys are released, is one which the stage tracks as forwarded itself or as
caused by a context activation or a timeout. -/
theorem C51_all_released (contexts : List Context) (ops : List StageOp)
    (hops : ∀ op ∈ ops, op.isKeyInput) (hreg : ∀ op ∈ ops, op.isRegular = true)
    (hrel : ∀ k, heldAfter (inputEvents ops) k = false)
    (k : Key) (hk : k ≠ Key.timeout) (hout : OutputsReleaseOwn contexts k)
    (h : heldAfter (stageRun (stageInit contexts) ops).2 k = true) :
    ∃ o ∈ (stageRun (stageInit contexts) ops).1.2.down, o.key = k ∧
      (o.trigger.keyOf = k ∨ o.trigger.keyOf = Key.ContextActive ∨ o.trigger.keyOf = Key.timeout) := by
  obtain ⟨o, ho, h1, _⟩ := C03_no_stuck_key contexts ops hreg k hk hout h
  refine ⟨o, ho, h1, ?_⟩
  rcases C51_attributed_to_held_key contexts ops hops o ho with h2 | h2 | h2 | h2
  · exact Or.inl (h2.trans h1)
  · exact Or.inr (Or.inl h2)
  · exact Or.inr (Or.inr h2)
  · rw [hrel] at h2; simp at h2

/-! ### C50 -/

/-- the context has a mapping of its activation -/
def MapsActivation (c : Cfg) (i : Nat) : Prop :=
  ∃ ctx, c.contexts[i]? = some ctx ∧ ∃ inp ∈ ctx.inputs, inp.input.head?.map (·.key) = some Key.ContextActive

/-- outputs caused by an activation belong to a context with this property -/
private def OfContext (c : Cfg) (M : Nat → Prop) : Key → Trigger → Int → Prop := fun _ t ctx =>
  t.keyOf = Key.ContextActive → ∃ i : Nat, M i ∧ ctx = i ∧ MapsActivation c i

private theorem ofContext_deactivate {c : Cfg} {M : Nat → Prop} {s : S} (h : Attrib (OfContext c M) s.down) (i : Nat) :
    Attrib (OfContext c (fun j => M j ∧ j ≠ i)) (onContextActiveEvent c s ⟨Key.ContextActive, .Up, 0⟩ i).down := by
  have hno : ¬ MapsActivation c i → Attrib (OfContext c (fun j => M j ∧ j ≠ i)) s.down := by
    intro hm o ho ht
    obtain ⟨j, h1, h2, h3⟩ := h o ho ht
    exact ⟨j, ⟨h1, fun hj => hm (hj ▸ h3)⟩, h2, h3⟩
  unfold onContextActiveEvent
  split
  · next hctx =>
    apply hno
    rintro ⟨ctx, h1, _⟩
    rw [hctx] at h1; simp at h1
  · next ctx hctx =>
    simp only []
    generalize hs1 : (if ((ctx.inputs.takeWhile (fun i => i.input.head?.map (·.key) != some Key.ContextActive)).any
      (·.input.isEmpty)) = true then { s with ub := true } else s) = s1
    have hd : s1.down = s.down := by subst hs1; split <;> rfl
    split
    · next hf =>
      rw [hd]
      apply hno
      rintro ⟨ctx', h1, inp, h2, h3⟩
      rw [hctx] at h1
      simp only [Option.some.injEq] at h1
      subst h1
      have := List.find?_eq_none.1 hf inp h2
      simp [h3] at this
    · next inp hf =>
      have hmap : MapsActivation c i :=
        ⟨ctx, hctx, inp, List.mem_of_find?_eq_some hf, by simpa using List.find?_some hf⟩
      rw [if_neg (by simp)]
      rw [← hd] at h
      have h1 : Attrib (OfContext c (fun j => M j ∨ j = i)) (continueOnRelease s1 ⟨Key.ContextActive, .Up, 0⟩ i).1.down := by
        refine Attrib.continueOnRelease ?_ ?_
        · intro o ho ht
          obtain ⟨j, h1, h2, h3⟩ := h o ho ht
          exact ⟨j, Or.inl h1, h2, h3⟩
        · intro o ho hc k _
          have : o.ctx = i := by
            simp only [isContinuedBy, Bool.and_eq_true, beq_iff_eq, Bool.or_eq_true, bne_iff_ne, ne_eq] at hc
            rcases hc with ⟨h1, h2 | h2⟩
            · exact absurd h1 h2
            · exact h2
          exact ⟨i, Or.inr rfl, this, hmap⟩
      show Attrib _ (releaseTriggered (continueOnRelease s1 ⟨Key.ContextActive, .Up, 0⟩ i).1 Key.ContextActive i).down
      intro o ho ht
      have ho' := List.mem_filter.1 ho
      obtain ⟨j, h2, h3, h4⟩ := h1 o ho'.1 ht
      have hne : j ≠ i := by
        rintro rfl
        have := ho'.2
        simp [staysDown, ht, h3] at this
      rcases h2 with h2 | h2
      · exact ⟨j, ⟨h2, hne⟩, h3, h4⟩
      · exact absurd h2 hne

private theorem ofContext_activate {c : Cfg} {M : Nat → Prop} {s : S} (h : Attrib (OfContext c M) s.down) {i : Nat}
    (hi : M i) :
    Attrib (OfContext c M) (onContextActiveEvent c s ⟨Key.ContextActive, .Down, 0⟩ i).down := by
  unfold onContextActiveEvent
  split
  · exact h
  · next ctx hctx =>
    simp only []
    generalize hs1 : (if ((ctx.inputs.takeWhile (fun i => i.input.head?.map (·.key) != some Key.ContextActive)).any
      (·.input.isEmpty)) = true then { s with ub := true } else s) = s1
    have hd : s1.down = s.down := by subst hs1; split <;> rfl
    rw [← hd] at h
    split
    · exact h
    · next inp hf =>
      have hmap : MapsActivation c i :=
        ⟨ctx, hctx, inp, List.mem_of_find?_eq_some hf, by simpa using List.find?_some hf⟩
      rw [if_pos (by simp)]
      split
      · exact h
      · exact h
      · exact h.applyOutput (fun k _ _ => ⟨i, hi, rfl, hmap⟩)

private theorem ofContext_updateActive {c : Cfg} {s : S} (h : Attrib (OfContext c (· ∈ s.active)) s.down)
    (hs : s.active.Pairwise (· < ·))
    {r} (hr : computeActive c.contexts s.seq s.activeClient [] = some r) (hrs : r.Pairwise (· < ·)) :
    Attrib (OfContext c (· ∈ r)) (updateActiveContexts c s).down := by
  unfold updateActiveContexts
  simp only [hr]
  rw [mergeContexts_spec _ _ hs hrs]
  simp only []
  have hD : ∀ (D : List Nat) (M : Nat → Prop) (s : S), Attrib (OfContext c M) s.down →
      Attrib (OfContext c (fun j => M j ∧ j ∉ D))
        (D.foldl (fun s i => onContextActiveEvent c s ⟨Key.ContextActive, .Up, 0⟩ i) s).down := by
    intro D
    induction D with
    | nil => intro M s h; simpa using h
    | cons a D ih =>
      intro M s h
      have := ih _ _ (ofContext_deactivate h a)
      rw [List.foldl_cons]
      intro o ho ht
      obtain ⟨j, ⟨⟨h1, h2⟩, h3⟩, h4⟩ := this o ho ht
      exact ⟨j, ⟨h1, by simp [h2, h3]⟩, h4⟩
  have hA : ∀ (A : List Nat) (M : Nat → Prop) (s : S), (∀ i ∈ A, M i) → Attrib (OfContext c M) s.down →
      Attrib (OfContext c M)
        (A.foldl (fun s i => onContextActiveEvent c s ⟨Key.ContextActive, .Down, 0⟩ i) s).down := by
    intro A
    induction A with
    | nil => intro M s _ h; exact h
    | cons a A ih =>
      intro M s hM h
      exact ih M _ (fun i hi => hM i (by simp [hi])) (ofContext_activate h (hM a (by simp)))
  apply hA
  · intro i hi; exact (List.mem_filter.1 hi).1
  · have := hD (s.active.filter (fun i => !r.contains i)) _ { s with active := r } h
    intro o ho ht
    obtain ⟨j, ⟨h1, h2⟩, h3⟩ := this o ho ht
    refine ⟨j, ?_, h3⟩
    have h2 : j ∈ s.active → j ∈ r := by simpa using h2
    exact h2 h1

private theorem ofContext_loopRel (c : Cfg) (M : Nat → Prop) (ev : KeyEvent) (P : Key → Bool) :
    LoopRel ev P (OfContext c M) :=
  ⟨fun _ _ _ h _ h' => absurd h' h, fun _ _ _ h _ h' => absurd h' h⟩

private theorem ofContext_update {c : Cfg} {s : S} {ev : KeyEvent} {dev} (h : Attrib (OfContext c (· ∈ s.active)) s.down)
    (hs : s.active.Pairwise (· < ·))
    (hr : ∀ seq, ∃ r, computeActive c.contexts seq s.activeClient [] = some r ∧ r.Pairwise (· < ·))
    (hl : ∀ e ∈ s.seq, InputKey e) (hev : InputKey ev)
    (hse : ∀ e ∈ s.seq, SeqEvent e) (hsev : SeqEvent ev) :
    Attrib (OfContext c (· ∈ (update c s ev dev).1.active)) (update c s ev dev).1.down := by
  show Attrib (OfContext c (· ∈ (applyInput c { s with exitPos := advanceExit s.exitPos ev } ev dev).active))
    (applyInput c { s with exitPos := advanceExit s.exitPos ev } ev dev).down
  have hss : s.seq = ({ s with exitPos := advanceExit s.exitPos ev } : S).seq := rfl
  have hsd : s.down = ({ s with exitPos := advanceExit s.exitPos ev } : S).down := rfl
  have hsa : s.active = ({ s with exitPos := advanceExit s.exitPos ev } : S).active := rfl
  have hsc : s.activeClient = ({ s with exitPos := advanceExit s.exitPos ev } : S).activeClient := rfl
  rw [hss] at hl hse
  rw [hsd, hsa] at h
  rw [hsa] at hs
  rw [hsc] at hr
  generalize { s with exitPos := advanceExit s.exitPos ev } = s at *
  clear hss hsd hsa hsc
  unfold KM.applyInput
  simp only []
  generalize hs0 : (if validInput ev = true then s else { s with ub := true }) = s0
  have h0 : s0.seq = s.seq := by subst hs0; split <;> rfl
  have h0' : s0.down = s.down := by subst hs0; split <;> rfl
  have h0a : s0.active = s.active := by subst hs0; split <;> rfl
  have h0c : s0.activeClient = s.activeClient := by subst hs0; split <;> rfl
  rw [← h0] at hl hse
  rw [← h0', ← h0a] at h
  rw [← h0a] at hs
  rw [← h0c] at hr
  have h1 := continueOnRelease_seq s0 ev (-1)
  have h1k := continueOnRelease_kept s0 ev (-1)
  have h1' : Attrib (OfContext c (· ∈ s0.active)) (KM.continueOnRelease s0 ev (-1)).1.down :=
    h.continueOnRelease (fun o _ _ k h' => absurd h' hev.2)
  rw [← kept_active h1k] at hs h1'
  rw [← kept_client h1k] at hr
  generalize KM.continueOnRelease s0 ev (-1) = r1 at *
  rw [← h1] at hl hse
  split
  · exact h1'
  · next s1 =>
    simp only [] at h1' hl hs hr hse
    have h2 := suppressTimeout_seq s1 ev
    have h2' := suppressTimeout_down s1 ev
    have h2a := suppressTimeout_active s1 ev
    have h2c : (suppressTimeout s1 ev).1.activeClient = s1.activeClient := by
      unfold suppressTimeout
      repeat' split
      all_goals rfl
    rw [← h2] at hl hse
    rw [← h2', ← h2a] at h1'
    rw [← h2a] at hs
    rw [← h2c] at hr
    generalize suppressTimeout s1 ev = r2 at *
    split
    · exact h1'
    · next s2 =>
      simp only [] at h1' hl hs hr hse
      have h3 := mergeRepeat_seq s2 ev dev
      have h3' := mergeRepeat_down s2 ev dev
      have h3a : (mergeRepeat s2 ev dev).1.active = s2.active := by
        unfold mergeRepeat
        simp only []
        repeat' split
        all_goals rfl
      have h3c := mergeRepeat_client s2 ev dev
      rw [← h3', ← h3a] at h1'
      rw [← h3a] at hs
      rw [← h3c] at hr
      generalize hr3 : mergeRepeat s2 ev dev = r3 at *
      split
      · exact h1'
      · next s3 =>
        simp only [] at h1' h3 hs hr
        have hl3 : ∀ e ∈ s3.seq ++ [ev], SeqEvent e := by
          intro x hx
          simp only [List.mem_append, List.mem_cons, List.not_mem_nil, or_false] at hx
          rcases hx with hx | rfl
          · exact hse x (h3 x hx)
          · exact hsev
        have hi3 : ∀ e ∈ s3.seq ++ [ev], InputKey e := by
          intro x hx
          simp only [List.mem_append, List.mem_cons, List.not_mem_nil, or_false] at hx
          rcases hx with hx | rfl
          · exact hl x (h3 x hx)
          · exact hev
        -- first change of the active contexts
        have hah : ∀ t : S, (addToHistory c t ev).active = t.active ∧ (addToHistory c t ev).activeClient = t.activeClient := by
          intro t
          unfold addToHistory
          simp only []
          repeat' split
          all_goals exact ⟨rfl, rfl⟩
        generalize hs4 : addToHistory c { s3 with seq := s3.seq ++ [ev] } ev = s4
        have h4a : s4.active = s3.active := by rw [← hs4]; exact (hah _).1
        have h4c : s4.activeClient = s3.activeClient := by rw [← hs4]; exact (hah _).2
        have h4d : s4.down = s3.down := by rw [← hs4, addToHistory_down]
        have h4s : s4.seq = s3.seq ++ [ev] := by rw [← hs4, addToHistory_seq]
        obtain ⟨r5, hr5, hs5⟩ := hr s4.seq
        rw [← h4c] at hr5
        have h5 := ofContext_updateActive (s := s4) (by rw [h4a, h4d]; exact h1') (by rw [h4a]; exact hs) hr5 hs5
        have h5a : (updateActiveContexts c s4).active = r5 ∧ (updateActiveContexts c s4).activeClient = s4.activeClient := by
          have := updateActiveContexts_kept c s4
          rw [hr5] at this
          exact ⟨congrArg (fun x => x.2.2.1) this, congrArg (fun x => x.2.1) this⟩
        have h5s := updateActiveContexts_seq c s4
        rw [h4s] at h5s
        generalize updateActiveContexts c s4 = s5 at *
        -- before the main loop
        have hB1 := seqEvent_inv.beforeMatchUp (ev := ev) (s := s5) (by rw [h5s]; exact hl3)
        have hB2 := inputKey_inv.beforeMatchUp (ev := ev) (s := s5) (by rw [h5s]; exact hi3)
        have hBd := beforeMatchUp_down s5 ev
        have hBk : (beforeMatchUp s5 ev).kept = s5.kept := by
          unfold beforeMatchUp
          simp only []
          repeat' split
          all_goals rfl
        rw [← hBd] at h5
        generalize beforeMatchUp s5 ev = s6 at *
        have h7 : Attrib (OfContext c (· ∈ r5))
            (mainLoop c ev dev (ev.state == KeyState.Up && ev.key != Key.timeout)
              { s6 with down := s6.down.map (fun o => { o with suppressed := false }) }).down := by
          refine Attrib.mainLoop (ofContext_loopRel c _ ev (pressedIn s6.seq)) hev ?_ hB2 hB1 (fun _ _ => rfl)
          intro o ho
          simp only [List.mem_map] at ho
          obtain ⟨o', ho', rfl⟩ := ho
          exact h5 o' ho'
        have h7k := mainLoop_kept c ev dev (ev.state == KeyState.Up && ev.key != Key.timeout)
              { s6 with down := s6.down.map (fun o => { o with suppressed := false }) }
        generalize mainLoop c ev dev (ev.state == KeyState.Up && ev.key != Key.timeout)
              { s6 with down := s6.down.map (fun o => { o with suppressed := false }) } = s7 at *
        have h7a : s7.active = r5 := (kept_active h7k).trans ((kept_active hBk).trans h5a.1)
        have h7c : s7.activeClient = s3.activeClient :=
          (kept_client h7k).trans ((kept_client hBk).trans (h5a.2.trans h4c))
        -- after the main loop
        unfold KM.finishInput
        simp only []
        generalize hs8 : (if (ev.state == KeyState.Up) = true then KM.releaseTriggered s7 ev.key (-1) else s7) = s8
        have h8 : Attrib (OfContext c (· ∈ r5)) s8.down := by
          subst hs8
          split
          · exact h7.releaseTriggered _ _
          · exact h7
        have h8a : s8.active = r5 := by subst hs8; split <;> exact h7a
        have h8c : s8.activeClient = s3.activeClient := by subst hs8; split <;> exact h7c
        obtain ⟨r9, hr9, hs9⟩ := hr s8.seq
        rw [← h8c] at hr9
        have h9 := ofContext_updateActive (s := s8) (by rw [h8a]; exact h8) (by rw [h8a]; exact hs5) hr9 hs9
        have h9a : (updateActiveContexts c s8).active = r9 := by
          have := updateActiveContexts_kept c s8
          rw [hr9] at this
          exact congrArg (fun x => x.2.2.1) this
        rw [← h9a] at h9
        split <;> exact h9

private structure CtxInv (contexts : List Context) (st : Cfg × S) : Prop where
  active : ActiveInv contexts st
  seq : ∀ e ∈ st.2.seq, SeqEvent e
  keys : ∀ e ∈ st.2.seq, InputKey e
  down : Attrib (OfContext st.1 (· ∈ st.2.active)) st.2.down

private theorem CtxInv.step {contexts} (hl : LastStops contexts) {st : Cfg × S}
    (h : CtxInv contexts st) {op} (hop : op.isValid contexts.length) (hkey : op.isKeyInput) :
    CtxInv contexts (stageStep st op).1 := by
  have hls := h.active.cfg.lastStops hl
  have hlen := h.active.cfg.length
  cases op with
  | input ev dev =>
    have hsev : SeqEvent ev := by
      intro ht
      rcases hkey with ⟨h | h, _⟩ | h
      · exact Or.inl h
      · exact Or.inr (Or.inr h)
      · exact absurd h.1 ht
    have hik : InputKey ev := by
      rcases hkey with ⟨_, _, h⟩ | h
      · exact h
      · exact ⟨by rw [h.1]; decide, by rw [h.1]; decide⟩
    refine ⟨h.active.step hl hop, seqEvent_inv.update h.seq hsev, inputKey_inv.update h.keys hik, ?_⟩
    refine ofContext_update h.down h.active.sorted ?_ h.keys hik h.seq hsev
    intro seq
    obtain ⟨r, hr, hfor⟩ := computeActive_activeFor (seq := seq) hls h.active.client.1
      (by rw [hlen]; exact h.active.client.2)
    exact ⟨r, hr, hfor.1⟩
  | contexts l =>
    refine ⟨h.active.step hl hop, ?_, ?_, ?_⟩
    · show ∀ e ∈ (setActiveClientContexts st.1 st.2 l).1.seq, _
      rw [setActiveClientContexts_seq]; exact h.seq
    · show ∀ e ∈ (setActiveClientContexts st.1 st.2 l).1.seq, _
      rw [setActiveClientContexts_seq]; exact h.keys
    · obtain ⟨r, hr, hfor⟩ := computeActive_activeFor (seq := st.2.seq) hls hop.1 (by rw [hlen]; exact hop.2)
      have ha := setActiveClientContexts_active st.1 st.2 l hr
      show Attrib (OfContext st.1 (· ∈ (setActiveClientContexts st.1 st.2 l).1.active))
        (setActiveClientContexts st.1 st.2 l).1.down
      rw [ha]
      unfold setActiveClientContexts
      simp only []
      show Attrib _ (updateActiveContexts _ _).down
      generalize hs1 : (if (decide (l.Pairwise (· ≤ ·)) && l.all (fun i => decide (i < st.1.contexts.length))) = true
        then st.2 else { st.2 with ub := true }) = s1
      have h1 : s1.active = st.2.active ∧ s1.down = st.2.down ∧ s1.seq = st.2.seq := by
        subst hs1; split <;> exact ⟨rfl, rfl, rfl⟩
      refine ofContext_updateActive ?_ ?_ ?_ hfor.1
      · show Attrib (OfContext st.1 (· ∈ s1.active)) s1.down
        rw [h1.1, h1.2.1]; exact h.down
      · show s1.active.Pairwise _
        rw [h1.1]; exact h.active.sorted
      · show computeActive _ s1.seq l [] = some r
        rw [h1.2.2]; exact hr
  | devices rx ds =>
    refine ⟨h.active.step hl hop, h.seq, h.keys, ?_⟩
    intro o ho ht
    obtain ⟨i, h1, h2, ctx, h3, h4⟩ := h.down o ho ht
    refine ⟨i, h1, h2, ?_⟩
    refine ⟨{ ctx with matchingDeviceBits :=
          if ctx.hasDeviceFilter then deviceBits rx ctx ds 0 1 else allDeviceBits }, ?_, h4⟩
    show (st.1.contexts.map _)[i]? = _
    rw [List.getElem?_map, h3]; rfl
  | validate f =>
    refine ⟨h.active.step hl hop, fun e he => h.seq e (List.mem_filter.1 he).1,
      fun e he => h.keys e (List.mem_filter.1 he).1, ?_⟩
    exact h.down.subset (fun o ho => (List.mem_filter.1 ho).1)

private theorem CtxInv.run {contexts} (hl : LastStops contexts) {st : Cfg × S}
    (h : CtxInv contexts st) {ops : List StageOp} (hops : ∀ op ∈ ops, op.isValid contexts.length)
    (hkey : ∀ op ∈ ops, op.isKeyInput) : CtxInv contexts (stageRun st ops).1 := by
  induction ops generalizing st with
  | nil => exact h
  | cons op ops ih =>
    exact ih (h.step hl (hops op (by simp)) (hkey op (by simp))) (fun o ho => hops o (by simp [ho]))
      (fun o ho => hkey o (by simp [ho]))

/-- **C50** In all histories each output key which was pressed by the activation of a context belongs
to a context which is still active: leaving the context (by changing the client's contexts, or by
releasing a key of its modifier filter) released it. -/
theorem C50_activation_output_of_active_context (contexts : List Context) (hl : LastStops contexts)
    (ops : List StageOp) (hops : ∀ op ∈ ops, op.isValid contexts.length) (hkey : ∀ op ∈ ops, op.isKeyInput)
    (o : OutputDown) (ho : o ∈ (stageRun (stageInit contexts) ops).1.2.down)
    (ht : o.trigger.keyOf = Key.ContextActive) :
    ∃ i ∈ (stageRun (stageInit contexts) ops).1.2.active, o.ctx = (i : Int) := by
  have hi : CtxInv contexts (stageInit contexts) :=
    ⟨activeInv_init contexts, by simp [stageInit], by simp [stageInit], by simp [stageInit, Attrib]⟩
  obtain ⟨i, h1, h2, _⟩ := (hi.run hl hops hkey).down o ho ht
  exact ⟨i, h1, h2⟩

/-! ### Concrete cases -/

private def dn (k : Key) : StageOp := .input ⟨k, .Down, 0⟩ 0
private def up (k : Key) : StageOp := .input ⟨k, .Up, 0⟩ 0
private def d (k : Key) : KeyEvent := ⟨k, .Down, 0⟩
private def u (k : Key) : KeyEvent := ⟨k, .Up, 0⟩
private def tilde (k : Key) : KeyEvent := ⟨k, .UpAsync, 0⟩

/-- `(A B) >> X`, and in the context with the modifier `Z`: `ContextActive >> Y` -/
private def sample : List Context :=
  [{ inputs := [⟨[d Key.KeyA, tilde Key.KeyA, d Key.KeyB], 0⟩], outputs := [[d Key.KeyX]] },
   { inputs := [⟨[d Key.ContextActive], 0⟩], modifierFilter := [d Key.KeyZ], outputs := [[d Key.KeyY]] }]

private def sampleOps : List StageOp :=
  [.contexts [0, 1], dn Key.KeyA, dn Key.KeyB, dn Key.KeyZ]

-- `X` is attributed to `B`, `Z` to itself, `Y` to the activation of context 1
example : (stageRun (stageInit sample) sampleOps).1.2.down.map (fun o => (o.key, o.trigger.keyOf, o.ctx)) =
    [(Key.KeyX, Key.KeyB, 0), (Key.KeyY, Key.ContextActive, 1), (Key.KeyZ, Key.KeyZ, -1)] := by
  decide +kernel

-- `Y` is released with the context
example : (stageRun (stageInit sample) (sampleOps ++ [up Key.KeyZ])).2 =
    [d Key.KeyX, d Key.KeyY, d Key.KeyZ, u Key.KeyZ, u Key.KeyY] := by
  decide +kernel

-- the hypotheses hold
example : LastStops sample ∧ (∀ op ∈ sampleOps, op.isValid sample.length) ∧ (∀ op ∈ sampleOps, op.isKeyInput) := by
  refine ⟨⟨_, rfl, rfl⟩, ?_, ?_⟩
  · intro op hop
    simp only [sampleOps, dn, List.mem_cons, List.not_mem_nil, or_false] at hop
    rcases hop with h | h | h | h <;> subst h <;> simp [StageOp.isValid, sample]
  · intro op hop
    simp only [sampleOps, dn, List.mem_cons, List.not_mem_nil, or_false] at hop
    rcases hop with h | h | h | h <;> subst h
    · trivial
    all_goals exact Or.inl ⟨Or.inl rfl, by decide⟩

end KM
