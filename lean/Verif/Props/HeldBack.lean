import Verif.Lemmas.HeldBack
import Verif.Lemmas.VirtualDeviceKeys
import Verif.Props.Transparent
import Verif.Model.ParseConfig
/-!
# C78: what is held back because a mapping might match is not lost
-/
namespace KM

/-! ### what is typed -/

private theorem heldAfter_last (l : KeySequence) (h : ∀ e ∈ l, e.state = .Down ∨ e.state = .Up) (k : Key) :
    heldAfter l k = true ↔ lastKeyState (eventsOf k l) = some .Down := by
  induction l using list_snoc_induction with
  | h0 => simp [heldAfter, lastKeyState, eventsOf]
  | h1 l e ih =>
    have ih := ih (fun x hx => h x (by simp [hx]))
    rw [heldAfter_append, eventsOf_append]
    show heldStep k (heldAfter l k) e = true ↔ _
    unfold heldStep
    by_cases hk : e.key = k
    · rw [if_pos hk, eventsOf_cons_eq hk, eventsOf_nil, lastState_concat]
      rcases h e (by simp) with hs | hs
      · rw [hs]; simp
      · rw [hs]; simp
    · rw [if_neg hk, eventsOf_cons_ne hk, eventsOf_nil, List.append_nil]
      exact ih

private theorem TypedOn.states {events : KeySequence} (h : TypedOn events) : ∀ e ∈ events, e.state = .Down ∨ e.state = .Up := by
  intro e he
  obtain ⟨pre, post, hp⟩ := List.append_of_mem he
  rcases h pre e post hp with h' | h'
  · exact Or.inl h'.1
  · right; rw [h'.1]

private theorem TypedOn.follows {pre post : KeySequence} {ev : KeyEvent} (h : TypedOn (pre ++ ev :: post)) : Follows pre ev := by
  have hl := heldAfter_last pre (fun e he => h.states e (by simp [he])) ev.key
  rcases h pre ev post rfl with h' | h'
  · left
    refine ⟨h'.1, ?_⟩
    rw [ne_eq, ← hl, h'.2]; simp
  · exact Or.inr ⟨h'.1, hl.1 h'.2⟩

/-! ### operations -/

/-- the invariant, after these inputs and outputs -/
private structure Kept (K : Key → Prop) (P : Context → Prop) (contexts : List Context) (inp out : KeySequence) (st : Cfg × S) : Prop where
  cfg : CfgOf contexts st.1
  core : Core K (fun j => ∀ ctx, contexts[j]? = some ctx → P ctx) st.1 inp out st.2
  buf : st.2.buf = []

private theorem CfgOf.lift {contexts c} (h : CfgOf contexts c) {P : Context → Prop} {Q : List Input → Prop} (hP : ∀ ctx, P ctx → Q ctx.inputs) {j : Nat} {ctx : Context}
    (hj : ∀ ctx, contexts[j]? = some ctx → P ctx) (hc : c.contexts[j]? = some ctx) : Q ctx.inputs := by
  have hlt : j < contexts.length := by
    rw [← h.length]; exact (List.getElem?_eq_some_iff.1 hc).1
  obtain ⟨ctx'', h1, _, h2, _⟩ := h.get j contexts[j] (List.getElem?_eq_getElem hlt)
  rw [hc] at h1; simp only [Option.some.injEq] at h1; subst h1
  rw [h2]
  exact hP _ (hj _ (List.getElem?_eq_getElem hlt))

private theorem stuck {K contexts c} {P : Context → Prop} (hP : ∀ ctx, P ctx → ctx.Incomplete K) (h : CfgOf contexts c) :
    Stuck K (fun j => ∀ ctx, contexts[j]? = some ctx → P ctx) c := by
  intro j ctx hj hc
  exact h.lift (Q := fun inputs => ∀ inp ∈ inputs, (∃ k, ¬ K k ∧ (isDeviceKey k = true ∨ isVirtualKey k = true) ∧ Requires inp.input k) ∧
    (∀ e ∈ inp.input, e.key ≠ Key.timeout) ∧ inp.input.head?.map (·.key) ≠ some Key.ContextActive) hP hj hc

private theorem device_real {K : Key → Prop} (hK : ∀ k, K k → isDeviceKey k = true) : RealKeys K :=
  fun k h => real_of_range (Or.inl (hK k h))

private theorem device_notVirtual {k : Nat} (h : isDeviceKey k = true) : isVirtualKey k = false := by
  simp only [isDeviceKey, isKeyboardKey, isMouseButton, isMouseWheel, isVirtualKey, Bool.or_eq_true, Bool.and_eq_true,
    decide_eq_true_eq, Bool.and_eq_false_iff, decide_eq_false_iff_not] at h ⊢
  have h' : k ≤ (61439 : Nat) := by
    rcases h with ((⟨⟨⟨_, h⟩, _⟩, _⟩ | ⟨_, h⟩) | ⟨_, h⟩)
    · exact h
    · exact Nat.le_trans h (by decide)
    · exact Nat.le_trans h (by decide)
  exact Or.inl (Nat.not_le.2 (Nat.lt_of_le_of_lt h' (by decide)))

/-- which contexts can become active -/
private def Allows (K : Key → Prop) (P : Context → Prop) (contexts : List Context) : StageOp → Prop
  | .input ev _ => K ev.key
  | .contexts l => ∀ i ∈ l, ∀ j, FallsTo contexts i j → ∀ ctx, contexts[j]? = some ctx → P ctx
  | .devices _ _ => True
  | .validate _ => False

private theorem Kept.step {K P contexts inp out st} (hK : ∀ k, K k → isDeviceKey k = true) (hP : ∀ ctx, P ctx → ctx.Incomplete K)
    (h : Kept K P contexts inp out st) {op : StageOp} (hop : Allows K P contexts op) (hf : ∀ ev ∈ inputEvents [op], Follows inp ev) :
    Kept K P contexts (inp ++ inputEvents [op]) (out ++ (stageStep st op).2) (stageStep st op).1 := by
  have hc := stuck hP h.cfg
  have hi := h.core
  cases op with
  | input ev dev =>
    obtain ⟨h1, h2, _⟩ := hi.update (device_real hK) hc (show K ev.key from hop) (device_notVirtual (hK _ hop)) (hf ev (by simp [inputEvents])) dev
    exact ⟨h.cfg, h1, h2⟩
  | contexts l =>
    have hcl : ∀ i ∈ l, ∀ j, fallthroughContext st.1.contexts i = some j →
        ∀ ctx, contexts[j]? = some ctx → P ctx :=
      fun i hi j hj => hop i hi j ((h.cfg.fallsTo i j).1 ((fallthroughContext_iff _ _ _).1 hj))
    have hs : ∃ r b, (∀ i ∈ r, ∀ ctx, contexts[i]? = some ctx → P ctx) ∧
        setActiveClientContexts st.1 st.2 l = ({ st.2 with activeClient := l, active := r, ub := b }, []) := by
      unfold setActiveClientContexts
      simp only []
      generalize hq : (if (decide (l.Pairwise (· ≤ ·)) && l.all (fun i => decide (i < st.1.contexts.length))) = true
        then st.2 else { st.2 with ub := true }) = s1
      have hs1 : ∃ b, s1 = { st.2 with ub := b } := by
        rw [← hq]; split
        · exact ⟨st.2.ub, rfl⟩
        · exact ⟨true, rfl⟩
      obtain ⟨b, hs1⟩ := hs1
      subst hs1
      obtain ⟨r, b', hr, he⟩ := updateActiveContexts_stuck hc { st.2 with ub := b, activeClient := l } hi.act hcl
      rw [he]
      refine ⟨r, b', hr, ?_⟩
      unfold cancelInactiveOnRelease
      simp only [hi.onRel, h.buf, List.filter_nil]
    obtain ⟨r, b, hr, hs⟩ := hs
    have hst : stageStep st (.contexts l) = ((st.1, { st.2 with activeClient := l, active := r, ub := b }), []) := by
      show ((st.1, (setActiveClientContexts st.1 st.2 l).1), (setActiveClientContexts st.1 st.2 l).2) = _
      rw [hs]
    rw [hst]
    simp only [inputEvents, List.append_nil]
    exact ⟨h.cfg, ⟨hr, hcl, hi.timeout, hi.onRel, hi.reapplied, hi.seq, hi.hist, hi.down, hi.order, hi.keys⟩, h.buf⟩
  | devices rx ds =>
    show Kept K P contexts (inp ++ []) (out ++ []) _
    rw [List.append_nil, List.append_nil]
    refine ⟨h.cfg.evaluate rx ds, ⟨hi.act, ?_, hi.timeout, hi.onRel, hi.reapplied, hi.seq, hi.hist, hi.down, hi.order, hi.keys⟩, h.buf⟩
    intro i hi' j hj
    refine hi.client i hi' j ?_
    rw [fallthroughContext_iff] at hj ⊢
    rw [h.cfg.fallsTo]
    exact ((h.cfg.evaluate rx ds).fallsTo i j).1 hj
  | validate f => exact hop.elim

private theorem Kept.run {K P contexts inp out st} (hK : ∀ k, K k → isDeviceKey k = true) (hP : ∀ ctx, P ctx → ctx.Incomplete K)
    (h : Kept K P contexts inp out st) (ops : List StageOp) (hops : ∀ op ∈ ops, Allows K P contexts op) (ht : TypedOn (inp ++ inputEvents ops)) :
    Kept K P contexts (inp ++ inputEvents ops) (out ++ (stageRun st ops).2) (stageRun st ops).1 := by
  induction ops generalizing inp out st with
  | nil => simpa [inputEvents, stageRun] using h
  | cons op ops ih =>
    have hsplit : inputEvents (op :: ops) = inputEvents [op] ++ inputEvents ops := inputEvents_append [op] ops
    rw [hsplit] at ht ⊢
    have hstep := h.step hK hP (hops op (by simp)) (by
      intro ev hev
      cases op with
      | input e d =>
        simp only [inputEvents, List.mem_singleton] at hev
        subst hev
        exact ht.follows
      | _ => cases hev)
    have := ih hstep (fun o ho => hops o (by simp [ho])) (by rw [List.append_assoc]; exact ht)
    simpa [stageRun] using this

private theorem Kept.init (K P contexts) : Kept K P contexts [] [] (stageInit contexts) where
  cfg := cfgOf_make contexts
  core := ⟨fun _ h => (by cases h), fun _ h => (by cases h), rfl, rfl, rfl, fun _ h => (by cases h), fun _ h => (by cases h),
    ⟨fun _ h => (by cases h), List.nodup_nil⟩, rfl, fun k => KInv.init k⟩
  buf := rfl

private theorem kept_of {contexts : List Context} {K : Key → Prop} {P : Context → Prop} (hK : ∀ k, K k → isDeviceKey k = true)
    (hP : ∀ ctx, P ctx → ctx.Incomplete K) {ops : List StageOp} (hops : ∀ op ∈ ops, Allows K P contexts op) (ht : TypedOn (inputEvents ops)) :
    Kept K P contexts (inputEvents ops) (stageRun (stageInit contexts) ops).2 (stageRun (stageInit contexts) ops).1 := by
  have := (Kept.init K P contexts).run hK hP ops hops (by simpa using ht)
  simpa using this

/-- **C78**: as long as no mapping is completed - because all of them need a key which is not pressed - the presses which are output are the first
ones of those which were typed, in the same order and with nothing added, although some may be held back. And for each key also its releases are
output in turn with its presses. -/
theorem C78_nothing_lost (contexts : List Context) (K : Key → Prop) (hK : ∀ k, K k → isDeviceKey k = true) (ops : List StageOp)
    (hops : ∀ op ∈ ops, op.Incomplete K contexts) (ht : TypedOn (inputEvents ops)) :
    let out := (stageRun (stageInit contexts) ops).2
    pressesOf out <+: pressesOf (inputEvents ops) ∧ ∀ k, eventsOf k out <+: eventsOf k (inputEvents ops) := by
  intro out
  have h : Kept K (Context.Incomplete K) contexts (inputEvents ops) out (stageRun (stageInit contexts) ops).1 :=
    kept_of hK (fun _ h => h) (fun op ho => by
      have := hops op ho
      cases op <;> exact this) ht
  have ho := h.core.order
  have hk := h.core.keys
  rw [h.buf, List.append_nil] at ho hk
  exact ⟨by rw [ho]; exact List.prefix_append _ _, fun k => (hk k).prefix⟩

/-- **C78**: as soon as a key is pressed or released which no mapping mentions, everything which was held back has been output: all presses in the
order in which they were typed, and for each key all its presses and releases. -/
theorem C78_flushed (contexts : List Context) (K : Key → Prop) (hK : ∀ k, K k → isDeviceKey k = true) (ops : List StageOp) (ev : KeyEvent) (dev : Int)
    (hops : ∀ op ∈ ops ++ [.input ev dev], op.Incomplete K contexts) (hu : ∀ op ∈ ops, op.Unrelated ev.key contexts)
    (ht : TypedOn (inputEvents (ops ++ [.input ev dev]))) :
    let out := (stageRun (stageInit contexts) (ops ++ [.input ev dev])).2
    let inp := inputEvents (ops ++ [.input ev dev])
    pressesOf out = pressesOf inp ∧ (∀ k, eventsOf k out = eventsOf k inp) ∧ ∀ k, heldAfter out k = heldAfter inp k := by
  intro out inp
  let P : Context → Prop := fun ctx => ctx.Incomplete K ∧ ∀ i ∈ ctx.inputs, Foreign (· = ev.key) i.input
  have hP : ∀ ctx, P ctx → ctx.Incomplete K := fun _ h => h.1
  have hall : ∀ op ∈ ops, Allows K P contexts op := by
    intro op ho
    have h1 := hops op (by simp [ho])
    have h2 := hu op ho
    cases op with
    | contexts l => exact fun i hi j hj ctx hc => ⟨h1 i hi j hj ctx hc, h2 i hi j hj ctx hc⟩
    | _ => exact h1
  have hev : K ev.key := hops (.input ev dev) (by simp)
  have hsplit : inp = inputEvents ops ++ [ev] := inputEvents_append ops _
  have ht' : TypedOn (inputEvents ops ++ [ev]) := by rw [← hsplit]; exact ht
  have hty : TypedOn (inputEvents ops) := by
    intro pre e post hp
    exact ht' pre e (post ++ [ev]) (by rw [hp]; simp)
  have h := kept_of hK hP hall hty
  have hap : ApartFrom ev.key (fun j => ∀ ctx, contexts[j]? = some ctx → P ctx) (stageRun (stageInit contexts) ops).1.1 := by
    intro j ctx hj hc
    exact h.cfg.lift (P := P) (Q := fun inputs => ∀ i ∈ inputs, Foreign (· = ev.key) i.input) (fun _ h => h.2) hj hc
  obtain ⟨g1, g2, g3⟩ := h.core.update (device_real hK) (stuck hP h.cfg) hev (device_notVirtual (hK _ hev)) ht'.follows dev
  have hout : out = (stageRun (stageInit contexts) ops).2 ++
      (update (stageRun (stageInit contexts) ops).1.1 (stageRun (stageInit contexts) ops).1.2 ev dev).2 := by
    show (stageRun (stageInit contexts) (ops ++ [.input ev dev])).2 = _
    rw [stageRun_append]
    simp only [stageRun, List.append_nil]
    rfl
  have g3 := g3 hap
  have go := g1.order
  have gk := g1.keys
  rw [g2, List.append_nil, ← hout, ← hsplit] at go gk
  rw [pressesOf_matched g3, List.append_nil] at go
  have hev : ∀ k, eventsOf k out = eventsOf k inp := fun k => ((gk k).done (fun e he => g3 e (mem_eventsOf.1 he).1)).symm
  refine ⟨go.symm, hev, ?_⟩
  intro k
  have hf : ∀ (l : KeySequence) b, l.foldl (heldStep k) b = (eventsOf k l).foldl (heldStep k) b := by
    intro l
    induction l with
    | nil => intro b; rfl
    | cons e l ih =>
      intro b
      by_cases hk : e.key = k
      · rw [eventsOf_cons_eq hk, List.foldl_cons, List.foldl_cons, ih]
      · rw [eventsOf_cons_ne hk, List.foldl_cons, ih]
        have : heldStep k b e = b := by simp [heldStep, hk]
        rw [this]
  show out.foldl (heldStep k) false = inp.foldl (heldStep k) false
  rw [hf out, hf inp, hev k]

/-! ### the hypotheses are met -/

namespace HeldBackExample

/-- `A B >> X` and `A C >> Y` -/
private def sample : List Context :=
  [{ inputs := [⟨[⟨Key.KeyA, .Down, 0⟩, ⟨Key.KeyA, .UpAsync, 0⟩, ⟨Key.KeyB, .Down, 0⟩, ⟨Key.KeyB, .UpAsync, 0⟩], 0⟩,
      ⟨[⟨Key.KeyA, .Down, 0⟩, ⟨Key.KeyA, .UpAsync, 0⟩, ⟨Key.KeyC, .Down, 0⟩, ⟨Key.KeyC, .UpAsync, 0⟩], 1⟩],
     outputs := [[⟨Key.KeyX, .Down, 0⟩], [⟨Key.KeyY, .Down, 0⟩]] }]

private def K (k : Key) : Prop := k = Key.KeyA ∨ k = Key.KeyD

private def hist : List StageOp :=
  [.contexts [0], .input ⟨Key.KeyA, .Down, 0⟩ 0, .input ⟨Key.KeyA, .Up, 0⟩ 0, .input ⟨Key.KeyA, .Down, 0⟩ 0]

private def last : StageOp := .input ⟨Key.KeyD, .Down, 0⟩ 0

example : ∀ k, K k → isDeviceKey k = true := by rintro k (rfl | rfl) <;> decide

private theorem get0 {j : Nat} (hj : FallsTo sample 0 j) {ctx : Context} (hc : sample[j]? = some ctx) : ctx = sample.head (by decide) := by
  have := (fallthroughContext_iff _ _ _).2 hj
  have h1 : fallthroughContext sample 0 = some 0 := by decide
  rw [h1] at this
  simp only [Option.some.injEq] at this
  subst this
  exact (Option.some.inj hc).symm

example : ∀ op ∈ hist ++ [last], op.Incomplete K sample := by
  intro op ho
  simp only [hist, last, List.cons_append, List.nil_append, List.mem_cons, List.not_mem_nil, or_false] at ho
  rcases ho with rfl | rfl | rfl | rfl | rfl
  · intro i hi j hj ctx hc
    rw [List.mem_singleton] at hi; subst hi
    rw [get0 hj hc]
    intro inp hinp
    simp only [sample, List.head_cons, List.mem_cons, List.not_mem_nil, or_false] at hinp
    rcases hinp with rfl | rfl
    · refine ⟨⟨Key.KeyB, by unfold K; decide, by decide, [⟨Key.KeyA, .Down, 0⟩, ⟨Key.KeyA, .UpAsync, 0⟩], 0, _, rfl, ?_⟩, by decide, by decide⟩
      intro a ha
      simp only [List.mem_cons, List.not_mem_nil, or_false] at ha
      rcases ha with rfl | rfl <;> decide
    · refine ⟨⟨Key.KeyC, by unfold K; decide, by decide, [⟨Key.KeyA, .Down, 0⟩, ⟨Key.KeyA, .UpAsync, 0⟩], 0, _, rfl, ?_⟩, by decide, by decide⟩
      intro a ha
      simp only [List.mem_cons, List.not_mem_nil, or_false] at ha
      rcases ha with rfl | rfl <;> decide
  · exact Or.inl rfl
  · exact Or.inl rfl
  · exact Or.inl rfl
  · exact Or.inr rfl

example : ∀ op ∈ hist, op.Unrelated Key.KeyD sample := by
  intro op ho
  simp only [hist, List.mem_cons, List.not_mem_nil, or_false] at ho
  rcases ho with rfl | rfl | rfl | rfl
  · intro i hi j hj ctx hc
    rw [List.mem_singleton] at hi; subst hi
    rw [get0 hj hc]
    intro inp hinp
    simp only [sample, List.head_cons, List.mem_cons, List.not_mem_nil, or_false] at hinp
    rcases hinp with rfl | rfl
    · intro x hx
      simp only [List.mem_cons, List.not_mem_nil, or_false] at hx
      rcases hx with rfl | rfl | rfl | rfl <;> decide
    · intro x hx
      simp only [List.mem_cons, List.not_mem_nil, or_false] at hx
      rcases hx with rfl | rfl | rfl | rfl <;> decide
  all_goals trivial

private def inputs : KeySequence := inputEvents (hist ++ [last])

private theorem inputs_eq : inputs = [⟨Key.KeyA, .Down, 0⟩, ⟨Key.KeyA, .Up, 0⟩, ⟨Key.KeyA, .Down, 0⟩, ⟨Key.KeyD, .Down, 0⟩] := rfl

example : TypedOn (inputEvents (hist ++ [last])) := by
  show TypedOn inputs
  rw [inputs_eq]
  intro pre ev post h
  rcases pre with _ | ⟨p1, _ | ⟨p2, _ | ⟨p3, _ | ⟨p4, pre⟩⟩⟩⟩ <;>
    simp only [List.nil_append, List.cons_append, List.cons.injEq, reduceCtorEq, and_false, List.nil_eq, List.append_eq_nil_iff] at h
  · obtain ⟨rfl, _⟩ := h; exact Or.inl (by decide)
  · obtain ⟨rfl, rfl, _⟩ := h; exact Or.inr (by decide)
  · obtain ⟨rfl, rfl, rfl, _⟩ := h; exact Or.inl (by decide)
  · obtain ⟨rfl, rfl, rfl, rfl, _⟩ := h; exact Or.inl (by decide)

-- the second press of A is held back, until D is pressed
example : (stageRun (stageInit sample) hist).2 = [⟨Key.KeyA, .Down, 0⟩, ⟨Key.KeyA, .Up, 0⟩] ∧
    (stageRun (stageInit sample) (hist ++ [last])).2 =
      [⟨Key.KeyA, .Down, 0⟩, ⟨Key.KeyA, .Up, 0⟩, ⟨Key.KeyA, .Down, 0⟩, ⟨Key.KeyD, .Down, 0⟩] := by decide +kernel

end HeldBackExample

/-- the context of `A B >> X` -/
private def lossy : List Context :=
  [{ inputs := [⟨[⟨Key.KeyA, .Down, 0⟩, ⟨Key.KeyA, .UpAsync, 0⟩, ⟨Key.KeyB, .Down, 0⟩, ⟨Key.KeyB, .UpAsync, 0⟩], 0⟩],
     outputs := [[⟨Key.KeyX, .Down, 0⟩]] }]

/-- The claim does not hold for virtual keys: when one is toggled (by `keymapperctl`) while a press is held back, then the press is lost. Here A is
held back because of the mapping `A B >> X`, and is not output although `A` is released and `D` is pressed afterwards. -/
theorem C78_virtual_key_counterexample :
    (stageRun (stageInit lossy) [.contexts [0], .input ⟨Key.KeyA, .Down, 0⟩ 0, .input ⟨Key.first_virtual, .Down, 0⟩ anyDeviceIndex,
      .input ⟨Key.KeyA, .Up, 0⟩ 0, .input ⟨Key.KeyD, .Down, 0⟩ 0]).2 = [⟨Key.KeyD, .Down, 0⟩] := by decide +kernel

end KM
