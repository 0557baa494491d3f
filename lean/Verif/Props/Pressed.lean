import Verif.Lemmas.Pressed
import Verif.Lemmas.Held
/-!
# The keys a stage considers pressed (C49)
-/
namespace KM

private structure PressInv (st : Cfg × S) (T : KeySequence) : Prop where
  seq : ∀ e ∈ st.2.seq, SeqEvent e
  held : ∀ k, k ≠ Key.timeout → pressedIn st.2.seq k = true → heldAfter T k = true

theorem heldAfter_event (T : KeySequence) (ev : KeyEvent) (h : ev.state = .Down ∨ ev.state = .Up) (k : Key) :
    heldAfter (T ++ [ev]) k = if ev.key = k then ev.state != .Up else heldAfter T k := by
  rcases h with h | h
  · rw [heldAfter_down _ _ h, h]; by_cases hk : ev.key = k <;> simp [hk]
  · rw [heldAfter_up _ _ h, h]; by_cases hk : ev.key = k <;> simp [hk]

theorem mem_filter_pressedIn {l : KeySequence} {p : KeyEvent → Bool} {k : Key}
    (hp : ∀ a ∈ l, ∀ b ∈ l, a.key = k → b.key = k → p a = p b) (h : pressedIn (l.filter p) k = true) :
    pressedIn l k = true := by
  induction l with
  | nil => exact h
  | cons e l ih =>
    have hp' : ∀ a ∈ l, ∀ b ∈ l, a.key = k → b.key = k → p a = p b :=
      fun a ha b hb => hp a (by simp [ha]) b (by simp [hb])
    rw [List.filter_cons] at h
    by_cases hek : e.key = k
    · split at h
      · next hpe =>
        rw [pressedIn_cons] at h ⊢
        by_cases hh : hasKey l k = true
        · obtain ⟨x, hx, hxk⟩ := hasKey_iff.1 hh
          have : hasKey (l.filter p) k = true := by
            refine hasKey_iff.2 ⟨x, List.mem_filter.2 ⟨hx, ?_⟩, hxk⟩
            rw [hp x (by simp [hx]) e (by simp) hxk hek]; exact hpe
          rw [if_pos this] at h
          rw [if_pos hh]
          exact ih hp' h
        · have : hasKey (l.filter p) k = false := by
            rw [Bool.eq_false_iff]; intro h'
            obtain ⟨x, hx, hxk⟩ := hasKey_iff.1 h'
            exact hh (hasKey_iff.2 ⟨x, (List.mem_filter.1 hx).1, hxk⟩)
          rw [this] at h
          rw [if_neg hh]; simpa using h
      · next hpe =>
        have : hasKey (l.filter p) k = false := by
          rw [Bool.eq_false_iff]; intro h'
          obtain ⟨x, hx, hxk⟩ := hasKey_iff.1 h'
          have h2 := List.mem_filter.1 hx
          rw [hp x (by simp [h2.1]) e (by simp) hxk hek] at h2
          exact hpe h2.2
        rw [pressedIn_false_of_not_hasKey this] at h
        simp at h
    · rw [pressedIn_cons_ne hek]
      split at h
      · rw [pressedIn_cons_ne hek] at h; exact ih hp' h
      · exact ih hp' h

private theorem PressInv.step {st : Cfg × S} {T} (h : PressInv st T) {op : StageOp} (hop : op.isSimple) :
    PressInv (stageStep st op).1 (T ++ inputEvents [op]) := by
  cases op with
  | input ev dev =>
    have hev : SeqEvent ev := fun _ => by
      rcases hop with h | h
      · exact Or.inl h
      · exact Or.inr (Or.inr h)
    have hst : ev.state = .Down ∨ ev.state = .Up := by
      rcases hop with h | h
      · exact Or.inl h
      · exact Or.inr h.1
    refine ⟨seqEvent_inv.update h.seq hev, fun k hk hp => ?_⟩
    show heldAfter (T ++ [ev]) k = true
    rw [heldAfter_event _ _ hst]
    rcases pressedIn_update (c := st.1) (dev := dev) h.seq hev hk with hu | ⟨hseq, hd, _⟩
    · have hp : pressedIn (update st.1 st.2 ev dev).1.seq k = true := hp
      rw [hu, pressedIn_concat] at hp
      split
      · next hek => rw [if_pos hek] at hp; exact hp
      · next hek => rw [if_neg hek] at hp; exact h.held k hk hp
    · have hp : pressedIn (update st.1 st.2 ev dev).1.seq k = true := hp
      rw [hseq] at hp
      split
      · rw [hd]; rfl
      · exact h.held k hk hp
  | contexts l =>
    refine ⟨?_, ?_⟩
    · show ∀ e ∈ (setActiveClientContexts st.1 st.2 l).1.seq, _
      rw [setActiveClientContexts_seq]; exact h.seq
    · show ∀ k, _ → pressedIn (setActiveClientContexts st.1 st.2 l).1.seq k = true → _
      rw [setActiveClientContexts_seq]; simpa [inputEvents] using h.held
  | devices rx ds => exact ⟨h.seq, by simpa [inputEvents, stageStep] using h.held⟩
  | validate f =>
    refine ⟨fun e he => h.seq e (List.mem_filter.1 he).1, fun k hk hp => ?_⟩
    have := mem_filter_pressedIn (k := k) (l := st.2.seq)
      (p := fun e => !(isDeviceKey e.key && !f e.key)) (by intro a _ b _ ha hb; rw [ha, hb]) hp
    simpa [inputEvents] using h.held k hk this

theorem inputEvents_cons (op : StageOp) (ops) : inputEvents (op :: ops) = inputEvents [op] ++ inputEvents ops := by
  cases op <;> rfl

private theorem PressInv.run {st : Cfg × S} {T} (h : PressInv st T) {ops : List StageOp}
    (hops : ∀ op ∈ ops, op.isSimple) : PressInv (stageRun st ops).1 (T ++ inputEvents ops) := by
  induction ops generalizing st T with
  | nil => simpa [stageRun, inputEvents] using h
  | cons op ops ih =>
    have h1 := ih (h.step (hops op (by simp))) (fun o ho => hops o (by simp [ho]))
    rw [inputEvents_cons, ← List.append_assoc]; exact h1

/-- **C49** In all histories, a key which the stage considers pressed is physically held: a released
key is not considered pressed any more. Only releases which carry a value are excluded (mouse wheels):
for these it is false, see `C49_wheel_counterexample`. -/
theorem C49_pressed_is_held (contexts : List Context) (ops : List StageOp)
    (hops : ∀ op ∈ ops, op.isSimple) (k : Key) (hk : k ≠ Key.timeout)
    (h : isPhysicallyPressed (stageRun (stageInit contexts) ops).1.2 k = true) :
    heldAfter (inputEvents ops) k = true := by
  have hi : PressInv (stageInit contexts) [] :=
    ⟨by simp [stageInit], by simp [stageInit, pressedIn, rfindKey]⟩
  have := (hi.run hops).held k hk h
  simpa using this

/-! ### The other direction -/

/-- The output has no part after the on-release marker `^` -/
def NoOnRelease (out : KeySequence) : Prop := ∀ e ∈ out, e.state ≠ .OutputOnRelease

theorem foldl_updateOutput_onRelease (l : List α) (f : α → KeyEvent) (s : S) (trig ctx) :
    (l.foldl (fun s k => updateOutput s (f k) trig ctx) s).onRelease = s.onRelease := by
  induction l generalizing s with
  | nil => rfl
  | cons a l ih => rw [List.foldl_cons, ih, updateOutput_onRelease]

theorem applyOutput_onRelease {out : KeySequence} (h : NoOnRelease out) (s : S) (trig ctx) :
    (applyOutput s out trig ctx).onRelease = s.onRelease := by
  induction out generalizing s with
  | nil => rfl
  | cons ev rest ih =>
    have ih := ih (fun e he => h e (by simp [he]))
    unfold applyOutput
    split
    · simp only []
      rw [ih]
      split
      · exact foldl_updateOutput_onRelease _ (fun (o : OutputDown) => ⟨o.key, .Not, 0⟩) s trig ctx
      · exact foldl_updateOutput_onRelease _ (fun (k : Key) => ⟨k, ev.state, 0⟩) s trig ctx
    · split
      · next hh => exact absurd (by simpa using hh) (h ev (by simp))
      · split
        · simp only []
          rw [ih]
          split
          · rw [updateOutput_onRelease]
          · rfl
        · rw [ih, updateOutput_onRelease]

private theorem noPending_histInv : HistInv NoOnRelease (fun _ s => s.onRelease = []) where
  stage c T hG :=
    { outputs := hG
      frame := by
        intro s s' _ _ h3 h
        rw [List.eq_nil_iff_forall_not_mem]
        intro o ho
        have := h3 o ho
        rw [h] at this
        simp at this
      pending := by intro s h o ho; rw [h] at ho; simp at ho
      apply := fun s out trig ctx ho h => by rw [applyOutput_onRelease ho]; exact h
      forward := fun s e he h => by rw [updateOutput_onRelease]; exact h
      release := fun s k ctx h => h
      timeout := fun s t ht h => h
      reset := fun s h => h }
  emit T s h := h

/-- No mapping outputs anything on release -/
def NoOnReleaseOutputs (contexts : List Context) : Prop :=
  ∀ ctx ∈ contexts, (∀ out ∈ ctx.outputs, NoOnRelease out) ∧ ∀ o ∈ ctx.commandOutputs, NoOnRelease o.output

private structure SyncInv (st : Cfg × S) (T : KeySequence) : Prop where
  seq : ∀ e ∈ st.2.seq, SeqEvent e
  held : ∀ k, k ≠ Key.timeout → pressedIn st.2.seq k = heldAfter T k
  buf : st.2.buf = []
  pending : st.2.onRelease = []
  outputs : ∀ out, st.1.HasOutput out → NoOnRelease out

private theorem SyncInv.step {st : Cfg × S} {T} (h : SyncInv st T) {op : StageOp} (hop : op.isSimple)
    (hreg : op.isRegular = true) : SyncInv (stageStep st op).1 (T ++ inputEvents [op]) := by
  have hp := noPending_histInv.step (T := []) (op := op) h.outputs
    (fun f hf => by simp [hf, StageOp.isRegular] at hreg) h.pending h.buf
  have ho : ∀ out, (stageStep st op).1.1.HasOutput out → NoOnRelease out :=
    fun out ho => h.outputs out (stageStep_hasOutput ho)
  cases op with
  | input ev dev =>
    have hev : SeqEvent ev := fun _ => by
      rcases hop with h | h
      · exact Or.inl h
      · exact Or.inr (Or.inr h)
    have hst : ev.state = .Down ∨ ev.state = .Up := by
      rcases hop with h | h
      · exact Or.inl h
      · exact Or.inr h.1
    refine ⟨seqEvent_inv.update h.seq hev, fun k hk => ?_, hp.2, hp.1, ho⟩
    show pressedIn (update st.1 st.2 ev dev).1.seq k = heldAfter (T ++ [ev]) k
    rw [heldAfter_event _ _ hst]
    rcases pressedIn_update (c := st.1) (dev := dev) h.seq hev hk with hu | ⟨_, _, o, ho, _⟩
    · rw [hu, pressedIn_concat]
      split
      · rfl
      · exact h.held k hk
    · rw [h.pending] at ho; simp at ho
  | contexts l =>
    refine ⟨?_, ?_, hp.2, hp.1, ho⟩
    · show ∀ e ∈ (setActiveClientContexts st.1 st.2 l).1.seq, _
      rw [setActiveClientContexts_seq]; exact h.seq
    · show ∀ k, _ → pressedIn (setActiveClientContexts st.1 st.2 l).1.seq k = _
      rw [setActiveClientContexts_seq]; simpa [inputEvents] using h.held
  | devices rx ds => exact ⟨h.seq, by simpa [inputEvents, stageStep] using h.held, hp.2, hp.1, ho⟩
  | validate f => simp [StageOp.isRegular] at hreg

private theorem SyncInv.run {st : Cfg × S} {T} (h : SyncInv st T) {ops : List StageOp}
    (hops : ∀ op ∈ ops, op.isSimple) (hreg : ∀ op ∈ ops, op.isRegular = true) :
    SyncInv (stageRun st ops).1 (T ++ inputEvents ops) := by
  induction ops generalizing st T with
  | nil => simpa [stageRun, inputEvents] using h
  | cons op ops ih =>
    have h1 := ih (h.step (hops op (by simp)) (hreg op (by simp))) (fun o ho => hops o (by simp [ho]))
      (fun o ho => hreg o (by simp [ho]))
    rw [inputEvents_cons, ← List.append_assoc]; exact h1

/-- **C49** When no mapping outputs something on release, the keys the stage considers pressed are
exactly the ones which are physically held. (With outputs on release a press can be lost, see
`C49_lost_press_counterexample`. The validation of the state on purpose forgets keys.) -/
theorem C49_pressed_iff_held (contexts : List Context) (hout : NoOnReleaseOutputs contexts)
    (ops : List StageOp) (hops : ∀ op ∈ ops, op.isSimple) (hreg : ∀ op ∈ ops, op.isRegular = true)
    (k : Key) (hk : k ≠ Key.timeout) :
    isPhysicallyPressed (stageRun (stageInit contexts) ops).1.2 k = heldAfter (inputEvents ops) k := by
  have hi : SyncInv (stageInit contexts) [] := by
    refine ⟨by simp [stageInit], ?_, rfl, rfl, ?_⟩
    · intro k _; rfl
    · intro out ho
      obtain ⟨ctx, hctx, h⟩ := hasOutput_make ho
      rcases h with h | ⟨o, h1, rfl⟩
      · exact (hout ctx hctx).1 out h
      · exact (hout ctx hctx).2 o h1
  have := (hi.run hops hreg).held k hk
  simpa [isPhysicallyPressed_eq] using this

/-! ### Concrete cases -/

private def dn (k : Key) : StageOp := .input ⟨k, .Down, 0⟩ 0
private def up (k : Key) : StageOp := .input ⟨k, .Up, 0⟩ 0
private def d (k : Key) : KeyEvent := ⟨k, .Down, 0⟩
private def u (k : Key) : KeyEvent := ⟨k, .Up, 0⟩
private def tilde (k : Key) : KeyEvent := ⟨k, .UpAsync, 0⟩
private def star (k : Key) : KeyEvent := ⟨k, .DownAsync, 0⟩
private def onRelease : KeyEvent := ⟨Key.none, .OutputOnRelease, 0⟩

/-- `A B C >> X` -/
private def sample : List Context :=
  [{ inputs := [⟨[d Key.KeyA, tilde Key.KeyA, d Key.KeyB, tilde Key.KeyB, d Key.KeyC], 0⟩]
     outputs := [[d Key.KeyX]] }]

private def sampleOps : List StageOp :=
  [.contexts [0], dn Key.KeyA, dn Key.KeyB, up Key.KeyA, dn Key.KeyY, up Key.KeyB, dn Key.KeyA]

-- the pending keys are forwarded, some are pressed, one of them again
example : (stageRun (stageInit sample) sampleOps).2 =
    [d Key.KeyA, d Key.KeyB, u Key.KeyA, d Key.KeyY, u Key.KeyB] ∧
    isPhysicallyPressed (stageRun (stageInit sample) sampleOps).1.2 Key.KeyA = true ∧
    isPhysicallyPressed (stageRun (stageInit sample) sampleOps).1.2 Key.KeyB = false ∧
    isPhysicallyPressed (stageRun (stageInit sample) sampleOps).1.2 Key.KeyY = true := by
  decide +kernel

-- the hypotheses of both theorems hold for it
example : NoOnReleaseOutputs sample ∧ (∀ op ∈ sampleOps, op.isSimple) ∧
    (∀ op ∈ sampleOps, op.isRegular = true) := by
  refine ⟨?_, ?_, ?_⟩
  · unfold NoOnReleaseOutputs NoOnRelease; decide +kernel
  · intro op hop
    simp [sampleOps, dn, up] at hop
    rcases hop with h | h | h | h | h | h | h <;> subst h <;> simp [StageOp.isSimple]
  · intro op hop
    simp [sampleOps, dn, up] at hop
    rcases hop with h | h | h | h | h | h | h <;> subst h <;> rfl

/-- `A >> X ^ Y` and `(B A) >> Z ^ W` -/
private def lostContexts : List Context :=
  [{ inputs := [⟨[d Key.KeyA, tilde Key.KeyA], 0⟩,
       ⟨[star Key.KeyB, star Key.KeyA, d Key.KeyB, d Key.KeyA, tilde Key.KeyB, tilde Key.KeyA], 1⟩]
     outputs := [[d Key.KeyX, u Key.KeyX, onRelease, d Key.KeyY, u Key.KeyY],
       [d Key.KeyZ, u Key.KeyZ, onRelease, d Key.KeyW, u Key.KeyW]] }]

private def lostOps : List StageOp := [.contexts [0], dn Key.KeyA, dn Key.KeyB, up Key.KeyA, up Key.KeyB]

/-- **C49** is false with two outputs on release for the same key: when all keys were released,
the next press of `A` does not output anything and the key is not considered pressed (its release
then outputs the part after `^` which was due before). The first press of `A` did output `X`. -/
theorem C49_lost_press_counterexample :
    ∃ contexts ops, (∀ op ∈ ops, op.isSimple) ∧ (∀ op ∈ ops, op.isRegular = true) ∧
      (∀ k ∈ [Key.KeyA, Key.KeyB], heldAfter (inputEvents ops) k = false) ∧
      (stageStep (stageRun (stageInit contexts) ops).1 (dn Key.KeyA)).2 = [] ∧
      isPhysicallyPressed (stageStep (stageRun (stageInit contexts) ops).1 (dn Key.KeyA)).1.2 Key.KeyA = false ∧
      (stageStep (stageStep (stageInit contexts) (.contexts [0])).1 (dn Key.KeyA)).2 = [d Key.KeyX, u Key.KeyX] := by
  refine ⟨lostContexts, lostOps, ?_, ?_, ?_, ?_, ?_, ?_⟩
  · intro op hop
    simp [lostOps, dn, up] at hop
    rcases hop with h | h | h | h | h <;> subst h <;> simp [StageOp.isSimple]
  · intro op hop
    simp [lostOps, dn, up] at hop
    rcases hop with h | h | h | h | h <;> subst h <;> rfl
  all_goals decide +kernel

/-- `WheelUp A >> X` -/
private def wheelContexts : List Context :=
  [{ inputs := [⟨[d Key.WheelUp, tilde Key.WheelUp, d Key.KeyA], 0⟩], outputs := [[d Key.KeyX]] }]

private def wheelOps : List StageOp :=
  [.contexts [0], .input ⟨Key.WheelUp, .Down, 120⟩ 1, .input ⟨Key.WheelUp, .Up, 120⟩ 1, dn Key.KeyB, up Key.KeyB]

/-- **C49** is false for mouse wheels, whose releases carry the amount: the wheel was turned while it
could have been the start of a mapping, and is considered pressed for ever. The next turn of the
wheel (of device 1, after a key of device 0 was pressed) then does not output anything. -/
theorem C49_wheel_counterexample :
    ∃ contexts ops, heldAfter (inputEvents ops) Key.WheelUp = false ∧
      isPhysicallyPressed (stageRun (stageInit contexts) ops).1.2 Key.WheelUp = true ∧
      (stageRun (stageRun (stageInit contexts) ops).1
        [.input ⟨Key.WheelUp, .Down, 120⟩ 1, .input ⟨Key.WheelUp, .Up, 120⟩ 1, dn Key.KeyC]).2 = [d Key.KeyC] := by
  refine ⟨wheelContexts, wheelOps, ?_, ?_, ?_⟩ <;> decide +kernel

end KM
