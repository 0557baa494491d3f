import Verif.Lemmas.Transparent
import Verif.Lemmas.Context
import Verif.Lemmas.Held
import Verif.Props.StageOutput
/-!
# C05, C48: keys which are not mapped pass through unchanged
-/
namespace KM

theorem inputEvents_append (a b : List StageOp) : inputEvents (a ++ b) = inputEvents a ++ inputEvents b := by
  induction a with
  | nil => rfl
  | cons op a ih => cases op <;> simp [inputEvents, ih]

private theorem pressFold_fst (ops : List StageOp) (a : KeySequence × Int) :
    (ops.foldl pressStep a).1 = a.1 ++ inputEvents ops := by
  induction ops generalizing a with
  | nil => simp [inputEvents]
  | cons op ops ih => rw [List.foldl_cons, ih]; cases op <;> simp [pressStep, inputEvents]

/-- the invariant, after the operations `past` -/
private structure Pass (K : Key → Prop) (contexts : List Context) (past : List StageOp) (st : Cfg × S) : Prop where
  cfg : CfgOf contexts st.1
  inv : TInv K (fun j => ∀ ctx, contexts[j]? = some ctx → ctx.Leaves K) st.1 st.2
  held : ∀ k, k ∈ st.2.seq.map (·.key) ↔ heldAfter (inputEvents past) k = true
  dev : st.2.lastPressed = pressDevice past

private theorem harmless {K contexts c} (h : CfgOf contexts c) :
    Harmless K (fun j => ∀ ctx, contexts[j]? = some ctx → ctx.Leaves K) c := by
  intro j ctx' hj hc inp hinp
  have hlt : j < contexts.length := by
    rw [← h.length]; exact (List.getElem?_eq_some_iff.1 hc).1
  obtain ⟨ctx'', h1, _, h2, _⟩ := h.get j contexts[j] (List.getElem?_eq_getElem hlt)
  rw [hc] at h1; simp only [Option.some.injEq] at h1; subst h1
  exact hj _ (List.getElem?_eq_getElem hlt) inp (h2 ▸ hinp)

private theorem heldAfter_concat (a : KeySequence) (e : KeyEvent) (k : Key) :
    heldAfter (a ++ [e]) k = heldStep k (heldAfter a k) e := by
  rw [heldAfter_append]; rfl

private theorem pressDevice_concat (past : List StageOp) (op : StageOp) :
    pressDevice (past ++ [op]) = (pressStep (inputEvents past, pressDevice past) op).2 := by
  unfold pressDevice
  rw [List.foldl_append]
  have h := pressFold_fst past ([], noDeviceIndex)
  simp only [List.nil_append] at h
  rw [← h]; rfl

private theorem Pass.step {K contexts past st} (hK : RealKeys K) (h : Pass K contexts past st) {op : StageOp}
    (hop : op.Leaves K contexts) : Pass K contexts (past ++ [op]) (stageStep st op).1 := by
  have hc := harmless (K := K) h.cfg
  cases op with
  | input ev dev =>
    obtain ⟨hk, hst⟩ := hop
    rcases hst with hd | hd
    · obtain ⟨h1, h2, _, h4⟩ := update_press hK hc h.inv dev hd hk
      refine ⟨h.cfg, h1, ?_, ?_⟩
      · intro k
        rw [inputEvents_append]
        refine (h2 k).trans ?_
        rw [h.held]
        show _ ↔ heldAfter (inputEvents past ++ [ev]) k = true
        rw [heldAfter_concat]
        unfold heldStep
        by_cases hke : ev.key = k
        · simp [hke, hd]
        · have : ¬ k = ev.key := fun h => hke h.symm
          simp [hke, this]
      · rw [pressDevice_concat]
        refine h4.trans ?_
        unfold pressStep
        simp only [hd, true_and, h.held, h.dev, Bool.not_eq_true]
    · obtain ⟨h1, h2, _, h4⟩ := update_release' hK hc h.inv dev hd hk
      refine ⟨h.cfg, h1, ?_, ?_⟩
      · intro k
        rw [inputEvents_append]
        refine (h2 k).trans ?_
        rw [h.held]
        show _ ↔ heldAfter (inputEvents past ++ [ev]) k = true
        rw [heldAfter_concat]
        unfold heldStep
        by_cases hke : ev.key = k
        · simp [hke, hd]
        · have : ¬ k = ev.key := fun h => hke h.symm
          simp [hke, this]
      · rw [pressDevice_concat]
        refine h4.trans ?_
        unfold pressStep
        simp [hd, h.dev]
  | contexts l =>
    have hcl : ∀ i ∈ l, ∀ j, fallthroughContext st.1.contexts i = some j →
        ∀ ctx, contexts[j]? = some ctx → ctx.Leaves K :=
      fun i hi j hj => hop i hi j ((h.cfg.fallsTo i j).1 ((fallthroughContext_iff _ _ _).1 hj))
    have hs : ∃ r b, (∀ i ∈ r, ∀ ctx, contexts[i]? = some ctx → ctx.Leaves K) ∧
        setActiveClientContexts st.1 st.2 l = ({ st.2 with activeClient := l, active := r, ub := b }, []) := by
      unfold setActiveClientContexts
      simp only []
      generalize hq : (if (decide (l.Pairwise (· ≤ ·)) && l.all (fun i => decide (i < st.1.contexts.length))) = true
        then st.2 else { st.2 with ub := true }) = s1
      have hs1 : ∃ b, s1 = { st.2 with ub := b } := by
        rw [← hq]; split
        · exact ⟨st.2.ub, rfl⟩
        · exact ⟨true, rfl⟩
      obtain ⟨b, hs1⟩ := hs1
      subst hs1
      obtain ⟨r, b', hr, he⟩ := updateActiveContexts_harmless hc { st.2 with ub := b, activeClient := l } h.inv.act hcl
      rw [he]
      refine ⟨r, b', hr, ?_⟩
      unfold cancelInactiveOnRelease
      simp only [h.inv.onRel, h.inv.buf, List.filter_nil]
    obtain ⟨r, b, hr, hs⟩ := hs
    have hst : (stageStep st (.contexts l)).1 = (st.1, { st.2 with activeClient := l, active := r, ub := b }) := by
      show (st.1, (setActiveClientContexts st.1 st.2 l).1) = _
      rw [hs]
    rw [hst]
    refine ⟨h.cfg, ?_, ?_, ?_⟩
    · have hi := h.inv
      exact ⟨hr, hcl, hi.might, hi.timeout, hi.onRel, hi.buf, hi.reapplied, hi.seq, hi.nodup, hi.hist, hi.down, hi.keys⟩
    · rw [inputEvents_append]; simpa [inputEvents] using h.held
    · rw [pressDevice_concat]; exact h.dev
  | devices rx ds =>
    refine ⟨h.cfg.evaluate rx ds, ?_, ?_, ?_⟩
    · have hi := h.inv
      refine ⟨hi.act, ?_, hi.might, hi.timeout, hi.onRel, hi.buf, hi.reapplied, hi.seq, hi.nodup, hi.hist, hi.down, hi.keys⟩
      intro i hi' j hj
      refine hi.client i hi' j ?_
      rw [fallthroughContext_iff] at hj ⊢
      rw [h.cfg.fallsTo]
      exact ((h.cfg.evaluate rx ds).fallsTo i j).1 hj
    · rw [inputEvents_append]
      intro k
      refine (h.held k).trans ?_
      simp [inputEvents]
    · rw [pressDevice_concat]; exact h.dev
  | validate f => exact hop.elim

private theorem Pass.run {K contexts past st} (hK : RealKeys K) (h : Pass K contexts past st) (ops : List StageOp)
    (hops : ∀ op ∈ ops, op.Leaves K contexts) : Pass K contexts (past ++ ops) (stageRun st ops).1 := by
  induction ops generalizing past st with
  | nil => rw [List.append_nil]; exact h
  | cons op ops ih =>
    have := ih (h.step hK (hops op (by simp))) (fun o ho => hops o (by simp [ho]))
    simpa [stageRun] using this

private theorem Pass.init (K contexts) : Pass K contexts [] (stageInit contexts) where
  cfg := cfgOf_make contexts
  inv := ⟨fun _ h => (by cases h), fun _ h => (by cases h), rfl, rfl, rfl, rfl, rfl, fun _ h => (by cases h), List.nodup_nil,
    fun _ h => (by cases h), ⟨fun _ h => (by cases h), List.nodup_nil⟩, fun k => by simp [stageInit]⟩
  held := by intro k; simp [stageInit, inputEvents, heldAfter]
  dev := rfl

/-- **C05**: a key which no active context mentions passes through a stage unchanged, after any
history of such inputs: a press is output as that press, a release of a held key as its release, a
release of a key which is not held outputs nothing. The repetition of a press is output as that
press, unless another device than the last one used repeats it (then it may be ignored). Virtual keys
are not output. -/
theorem C05_unmapped_key_passes (contexts : List Context) (K : Key → Prop) (hK : RealKeys K) (ops : List StageOp)
    (hops : ∀ op ∈ ops, op.Leaves K contexts) (ev : KeyEvent) (dev : Int) (hk : K ev.key) :
    let out := (stageStep (stageRun (stageInit contexts) ops).1 (.input ev dev)).2
    let held := heldAfter (inputEvents ops) ev.key
    (isVirtualKey ev.key = true → (ev.state = .Down ∨ ev.state = .Up) → out = []) ∧
    (isVirtualKey ev.key = false →
      (ev.state = .Down → held = false → out = [ev]) ∧
      (ev.state = .Down → held = true → out = [ev] ∨ out = []) ∧
      (ev.state = .Down → held = true → dev = noDeviceIndex ∨ dev = pressDevice ops → out = [ev]) ∧
      (ev.state = .Up → held = true → out = [⟨ev.key, .Up, 0⟩]) ∧
      (ev.state = .Up → held = false → out = [])) := by
  intro out held
  have h : Pass K contexts ops (stageRun (stageInit contexts) ops).1 := by
    simpa using (Pass.init K contexts).run hK ops hops
  have hc := harmless (K := K) h.cfg
  have hheld : ev.key ∈ (stageRun (stageInit contexts) ops).1.2.seq.map (·.key) ↔ held = true := h.held ev.key
  have hdn : ev.state = .Down → out = if isVirtualKey ev.key = true ∨ (ev.key ∈ (stageRun (stageInit contexts) ops).1.2.seq.map (·.key) ∧
      swallowed (stageRun (stageInit contexts) ops).1.2 dev) then [] else [ev] :=
    fun hd => (update_press hK hc h.inv dev hd hk).2.2.1
  have hup : ev.state = .Up → out = if isVirtualKey ev.key = false ∧ ev.key ∈ (stageRun (stageInit contexts) ops).1.2.seq.map (·.key)
      then [⟨ev.key, .Up, 0⟩] else [] :=
    fun hd => (update_release' hK hc h.inv dev hd hk).2.2.1
  simp only [hheld] at hdn hup
  refine ⟨?_, ?_⟩
  · rintro hv (hd | hd)
    · rw [hdn hd]; simp [hv]
    · rw [hup hd]; simp [hv]
  · intro hv
    refine ⟨?_, ?_, ?_, ?_, ?_⟩
    · intro hd hh; rw [hdn hd]; simp [hv, hh]
    · intro hd hh; rw [hdn hd]
      split
      · exact Or.inr rfl
      · exact Or.inl rfl
    · intro hd hh hdev
      rw [hdn hd, if_neg]
      rintro (h1 | ⟨_, h1, h2, _⟩)
      · rw [hv] at h1; simp at h1
      · rw [h.dev] at h2
        rcases hdev with h3 | h3
        · exact h1 h3
        · exact h2 h3
    · intro hd hh; rw [hup hd]; simp [hv, hh]
    · intro hd hh; rw [hup hd]; simp [hh]

/-- **C05**: activating contexts which do not mention the keys input so far, and connecting
devices, does not output anything. -/
theorem C05_switching_is_silent (contexts : List Context) (K : Key → Prop) (hK : RealKeys K) (ops : List StageOp)
    (hops : ∀ op ∈ ops, op.Leaves K contexts) (op : StageOp) (hop : op.Leaves K contexts)
    (hni : ∀ ev dev, op ≠ .input ev dev) : (stageStep (stageRun (stageInit contexts) ops).1 op).2 = [] := by
  have h : Pass K contexts ops (stageRun (stageInit contexts) ops).1 := by
    simpa using (Pass.init K contexts).run hK ops hops
  have hc := harmless (K := K) h.cfg
  generalize (stageRun (stageInit contexts) ops).1 = st at *
  cases op with
  | input ev dev => exact absurd rfl (hni ev dev)
  | devices rx ds => rfl
  | validate f => rfl
  | contexts l =>
    have hcl : ∀ i ∈ l, ∀ j, fallthroughContext st.1.contexts i = some j →
        ∀ ctx, contexts[j]? = some ctx → ctx.Leaves K :=
      fun i hi j hj => hop i hi j ((h.cfg.fallsTo i j).1 ((fallthroughContext_iff _ _ _).1 hj))
    show (setActiveClientContexts st.1 st.2 l).2 = []
    unfold setActiveClientContexts
    simp only []
    generalize hq : (if (decide (l.Pairwise (· ≤ ·)) && l.all (fun i => decide (i < st.1.contexts.length))) = true
      then st.2 else { st.2 with ub := true }) = s1
    have hs1 : ∃ b, s1 = { st.2 with ub := b } := by
      rw [← hq]; split
      · exact ⟨st.2.ub, rfl⟩
      · exact ⟨true, rfl⟩
    obtain ⟨b, hs1⟩ := hs1
    subst hs1
    obtain ⟨r, b', hr, he⟩ := updateActiveContexts_harmless hc { st.2 with ub := b, activeClient := l } h.inv.act hcl
    rw [he]
    exact h.inv.buf

/-- **C05**: the keyboard on which the output is replayed holds exactly the keys held on the
keyboards the input comes from. -/
theorem C05_keyboard_mirrored (contexts : List Context) (K : Key → Prop) (hK : RealKeys K) (ops : List StageOp)
    (hops : ∀ op ∈ ops, op.Leaves K contexts) (k : Key) (hv : isVirtualKey k = false) :
    heldAfter (stageRun (stageInit contexts) ops).2 k = heldAfter (inputEvents ops) k := by
  have hgen : ∀ (ops past : List StageOp), (∀ op ∈ past ++ ops, op.Leaves K contexts) →
      heldAfter (stageRun (stageInit contexts) past).2 k = heldAfter (inputEvents past) k →
      heldAfter (stageRun (stageInit contexts) (past ++ ops)).2 k = heldAfter (inputEvents (past ++ ops)) k := by
    intro ops
    induction ops with
    | nil => intro past _ h; simpa using h
    | cons op ops ih =>
      intro past hall h
      have := ih (past ++ [op]) (by simpa using hall) ?_
      · simpa using this
      · have hpast : ∀ o ∈ past, o.Leaves K contexts := fun o ho => hall o (by simp [ho])
        have hop : op.Leaves K contexts := hall op (by simp)
        rw [stageRun_append, inputEvents_append]
        simp only [stageRun, List.append_nil]
        by_cases hi : ∃ ev dev, op = .input ev dev
        · obtain ⟨ev, dev, rfl⟩ := hi
          have hT := C05_unmapped_key_passes contexts K hK past hpast ev dev hop.1
          generalize (stageStep (stageRun (stageInit contexts) past).1 (StageOp.input ev dev)).2 = out at *
          simp only [] at hT
          show heldAfter (_ ++ out) k = heldAfter (inputEvents past ++ [ev]) k
          rw [heldAfter_concat, heldAfter_append, h]
          by_cases hke : ev.key = k
          · subst hke
            obtain ⟨h1, h2, _, h4, h5⟩ := hT.2 hv
            cases hh : heldAfter (inputEvents past) ev.key with
            | true =>
              rcases hop.2 with hd | hd
              · rcases h2 hd hh with ho | ho <;> rw [ho] <;> simp [heldStep, hd]
              · rw [h4 hd hh]; simp [heldStep, hd]
            | false =>
              rcases hop.2 with hd | hd
              · rw [h1 hd hh]; simp
              · rw [h5 hd hh]; simp [heldStep, hd]
          · have hs : heldStep k (heldAfter (inputEvents past) k) ev = heldAfter (inputEvents past) k := by
              simp [heldStep, hke]
            rw [hs]
            have hev : ∀ e ∈ out, e.key = ev.key := by
              intro e he
              cases hvv : isVirtualKey ev.key with
              | true => rw [hT.1 hvv hop.2] at he; simp at he
              | false =>
                obtain ⟨h1, h2, _, h4, h5⟩ := hT.2 hvv
                cases hh : heldAfter (inputEvents past) ev.key with
                | true =>
                  rcases hop.2 with hd | hd
                  · rcases h2 hd hh with ho | ho <;> rw [ho] at he <;> simp at he; rw [he]
                  · rw [h4 hd hh] at he; simp at he; rw [he]
                | false =>
                  rcases hop.2 with hd | hd
                  · rw [h1 hd hh] at he; simp at he; rw [he]
                  · rw [h5 hd hh] at he; simp at he
            have hfold : ∀ (out : KeySequence) b, (∀ e ∈ out, e.key = ev.key) → out.foldl (heldStep k) b = b := by
              intro out
              induction out with
              | nil => intros; rfl
              | cons e out ih =>
                intro b he
                rw [List.foldl_cons]
                have : heldStep k b e = b := by simp [heldStep, he e (by simp), hke]
                rw [this]; exact ih b (fun x hx => he x (by simp [hx]))
            exact hfold out _ hev
        · have hni : ∀ ev dev, op ≠ .input ev dev := fun ev dev h => hi ⟨ev, dev, h⟩
          rw [C05_switching_is_silent contexts K hK past hpast op hop hni]
          have : inputEvents [op] = [] := by
            cases op with
            | input ev dev => exact absurd rfl (hni ev dev)
            | _ => rfl
          rw [this]
          simpa using h
  simpa using hgen ops [] (by simpa using hops) rfl

/-- the keys which are tracked as held down on the output are the ones which are held -/
theorem unmapped_down (contexts : List Context) (K : Key → Prop) (hK : RealKeys K) (ops : List StageOp)
    (hops : ∀ op ∈ ops, op.Leaves K contexts) (k : Key) :
    (k ∈ (stageRun (stageInit contexts) ops).1.2.down.map (·.key) ↔ heldAfter (inputEvents ops) k = true ∧ isVirtualKey k = false) ∧
    (heldAfter (inputEvents ops) k = true → K k) := by
  have h : Pass K contexts ops (stageRun (stageInit contexts) ops).1 := by
    simpa using (Pass.init K contexts).run hK ops hops
  refine ⟨?_, ?_⟩
  · rw [h.inv.keys, h.held]
  · intro hh
    obtain ⟨e, he, rfl⟩ := List.mem_map.1 ((h.held k).2 hh)
    exact (h.inv.seq e he).2

/-- **C05** in its plain form: before the client reported any active context (and after it reported
that there is none), all keys pass through. -/
theorem C05_no_context_transparent (contexts : List Context) (ops : List StageOp)
    (hops : ∀ op ∈ ops, match op with
      | .input ev _ => isDeviceKey ev.key = true ∧ (ev.state = .Down ∨ ev.state = .Up)
      | .contexts l => l = []
      | .devices _ _ => True
      | .validate _ => False)
    (ev : KeyEvent) (hk : isDeviceKey ev.key = true) (dev : Int) :
    let out := (stageStep (stageRun (stageInit contexts) ops).1 (.input ev dev)).2
    let held := heldAfter (inputEvents ops) ev.key
    (ev.state = .Down → held = false → out = [ev]) ∧
    (ev.state = .Down → held = true → dev = noDeviceIndex ∨ dev = pressDevice ops → out = [ev]) ∧
    (ev.state = .Up → held = true → out = [⟨ev.key, .Up, 0⟩]) ∧
    (ev.state = .Up → held = false → out = []) := by
  have hd : ∀ k : Nat, isDeviceKey k = true → (k ≠ Key.none ∧ k ≠ Key.any ∧ k ≠ Key.timeout) ∧ isVirtualKey k = false := by
    intro k h
    refine ⟨⟨?_, ?_, ?_⟩, ?_⟩
    · rintro rfl; exact absurd h (by decide)
    · rintro rfl; exact absurd h (by decide)
    · rintro rfl; exact absurd h (by decide)
    · simp only [isDeviceKey, isKeyboardKey, isMouseButton, isMouseWheel, isVirtualKey, Bool.or_eq_true, Bool.and_eq_true,
        decide_eq_true_eq, Bool.and_eq_false_iff, decide_eq_false_iff_not] at h ⊢
      have h' : k ≤ (61439 : Nat) := by
        rcases h with ((⟨⟨⟨_, h⟩, _⟩, _⟩ | ⟨_, h⟩) | ⟨_, h⟩)
        · exact h
        · exact Nat.le_trans h (by decide)
        · exact Nat.le_trans h (by decide)
      exact Or.inl (Nat.not_le.2 (Nat.lt_of_le_of_lt h' (by decide)))
  have := C05_unmapped_key_passes contexts (fun k => isDeviceKey k = true) (fun k h => (hd k h).1) ops (by
    intro op ho
    have := hops op ho
    cases op with
    | input ev d => exact this
    | contexts l => simp only [] at this; subst this; intro i hi; cases hi
    | devices _ _ => trivial
    | validate _ => exact this) ev dev hk
  obtain ⟨h1, _, h3, h4, h5⟩ := this.2 (hd _ hk).2
  exact ⟨h1, h3, h4, h5⟩

/-- **C48**: repeating the press of a held key any number of times repeats its press in the output
that many times, and does not change which keys are held on the output keyboard. -/
theorem C48_repeats (contexts : List Context) (K : Key → Prop) (hK : RealKeys K) (ops : List StageOp)
    (hops : ∀ op ∈ ops, op.Leaves K contexts) (ev : KeyEvent) (dev : Int) (hk : K ev.key) (hv : isVirtualKey ev.key = false)
    (hd : ev.state = .Down) (hheld : heldAfter (inputEvents ops) ev.key = true)
    (hdev : dev = noDeviceIndex ∨ dev = pressDevice ops) (n : Nat) :
    (stageRun (stageInit contexts) (ops ++ List.replicate n (.input ev dev))).2 =
        (stageRun (stageInit contexts) ops).2 ++ List.replicate n ev ∧
      ∀ k, isVirtualKey k = false →
        heldAfter (stageRun (stageInit contexts) (ops ++ List.replicate n (.input ev dev))).2 k =
          heldAfter (stageRun (stageInit contexts) ops).2 k := by
  have hstep : ∀ k, heldAfter (inputEvents (ops ++ [.input ev dev])) k = heldAfter (inputEvents ops) k := by
    intro k
    rw [inputEvents_append]
    show heldAfter (inputEvents ops ++ [ev]) k = _
    rw [heldAfter_concat]
    unfold heldStep
    by_cases hke : ev.key = k
    · subst hke; simp [hd, hheld]
    · simp [hke]
  have hpd : pressDevice (ops ++ [.input ev dev]) = pressDevice ops := by
    rw [pressDevice_concat]
    simp [pressStep, hheld]
  induction n generalizing ops with
  | zero => simp
  | succ n ih =>
    have hops' : ∀ op ∈ ops ++ [.input ev dev], op.Leaves K contexts := by
      intro op ho
      simp only [List.mem_append, List.mem_singleton] at ho
      rcases ho with ho | ho
      · exact hops op ho
      · subst ho; exact ⟨hk, Or.inl hd⟩
    have ih := ih (ops ++ [.input ev dev]) hops' (by rw [hstep]; exact hheld) (by rw [hpd]; exact hdev)
      (by
        intro k
        rw [inputEvents_append]
        show heldAfter (inputEvents (ops ++ [.input ev dev]) ++ [ev]) k = _
        rw [heldAfter_concat, hstep]
        unfold heldStep
        by_cases hke : ev.key = k
        · subst hke; simp [hd, hheld]
        · simp [hke])
      (by
        rw [pressDevice_concat]
        simp only [pressStep]
        rw [hstep, hheld]; simp)
    have hout : (stageRun (stageInit contexts) (ops ++ [.input ev dev])).2 = (stageRun (stageInit contexts) ops).2 ++ [ev] := by
      rw [stageRun_append]
      simp only [stageRun, List.append_nil]
      rw [((C05_unmapped_key_passes contexts K hK ops hops ev dev hk).2 hv).2.2.1 hd hheld hdev]
    rw [List.append_assoc, List.singleton_append, ← List.replicate_succ] at ih
    refine ⟨?_, ?_⟩
    · rw [ih.1, hout, List.append_assoc, List.singleton_append, ← List.replicate_succ]
    · intro k hvk
      rw [ih.2 k hvk, C05_keyboard_mirrored contexts K hK _ hops' k hvk, hstep,
        C05_keyboard_mirrored contexts K hK _ hops k hvk]

/-! ### the hypotheses are met -/

namespace TransparentExample

/-- `A >> B`, in a context filtered by the modifier `Shift`, and `C >> D` -/
private def sample : List Context :=
  [{ inputs := [⟨[⟨Key.KeyA, .Down, 0⟩, ⟨Key.KeyA, .UpAsync, 0⟩], 0⟩], outputs := [[⟨Key.KeyB, .Down, 0⟩]], fallthrough := true },
   { inputs := [⟨[⟨Key.KeyC, .Down, 0⟩, ⟨Key.KeyC, .UpAsync, 0⟩], 0⟩], outputs := [[⟨Key.KeyD, .Down, 0⟩]] }]

private def K (k : Key) : Prop := k = Key.KeyX ∨ k = Key.KeyY

private def hist : List StageOp :=
  [.input ⟨Key.KeyX, .Down, 0⟩ 0, .contexts [0], .input ⟨Key.KeyY, .Down, 0⟩ 0, .input ⟨Key.KeyX, .Up, 0⟩ 0,
   .contexts [], .input ⟨Key.KeyY, .Down, 0⟩ 0]

example : RealKeys K := by
  rintro k (rfl | rfl) <;> decide

example : ∀ op ∈ hist, op.Leaves K sample := by
  have hin : ∀ i ∈ [0], ∀ j, FallsTo sample i j → ∀ ctx, sample[j]? = some ctx → ctx.Leaves K := by
    intro i hi j hj ctx hc
    simp only [List.mem_singleton] at hi
    subst hi
    have := (fallthroughContext_iff _ _ _).2 hj
    have h1 : fallthroughContext sample 0 = some 1 := by decide
    rw [h1] at this
    simp only [Option.some.injEq] at this
    subst this
    have h2 : sample[1]? = some { inputs := [⟨[⟨Key.KeyC, .Down, 0⟩, ⟨Key.KeyC, .UpAsync, 0⟩], 0⟩], outputs := [[⟨Key.KeyD, .Down, 0⟩]] } := rfl
    rw [h2] at hc
    simp only [Option.some.injEq] at hc
    subst hc
    intro inp hinp
    simp only [List.mem_singleton] at hinp
    subst hinp
    refine ⟨?_, by decide⟩
    intro x hx
    simp only [List.mem_cons, List.not_mem_nil, or_false] at hx
    unfold K
    rcases hx with rfl | rfl <;> decide
  intro op ho
  simp only [hist, List.mem_cons, List.not_mem_nil, or_false] at ho
  rcases ho with rfl | rfl | rfl | rfl | rfl | rfl
  · exact ⟨Or.inl rfl, Or.inl rfl⟩
  · exact hin
  · exact ⟨Or.inr rfl, Or.inl rfl⟩
  · exact ⟨Or.inl rfl, Or.inr rfl⟩
  · intro i hi; cases hi
  · exact ⟨Or.inr rfl, Or.inl rfl⟩

-- what it outputs: the repetition of Y too
example : (stageRun (stageInit sample) hist).2 =
    [⟨Key.KeyX, .Down, 0⟩, ⟨Key.KeyY, .Down, 0⟩, ⟨Key.KeyX, .Up, 0⟩, ⟨Key.KeyY, .Down, 0⟩] := by decide +kernel

-- a repetition by another device is ignored
example : pressDevice hist = 0 ∧ (stageStep (stageRun (stageInit sample) hist).1 (.input ⟨Key.KeyY, .Down, 0⟩ 1)).2 = [] := by
  decide +kernel

end TransparentExample

end KM
