import Verif.Lemmas.CombinationStep
import Verif.Lemmas.CombinationHolds
import Verif.Spec.Abbreviations
import Verif.Model.ParseConfig
/-!
# C83: combinations of keys
-/
namespace KM

theorem CombInv.step {c s r} (h : CombInv c s r) {op : StageOp} (hop : r.accepts op) :
    CombInv (stageStep (c, s) op).1.1 (stageStep (c, s) op).1.2 (r.step op).1 ∧ (stageStep (c, s) op).2 = (r.step op).2 := by
  cases op with
  | input ev dev =>
    obtain ⟨⟨hd | hd, hx, _⟩, hval, hw⟩ := hop
    · exact h.press dev hd hval hx (hw hd)
    · exact h.release dev hd hx
  | contexts l =>
    obtain ⟨⟨h1, h2⟩, _⟩ := hop
    exact h.contexts h1 h2
  | devices rx ds =>
    refine ⟨?_, rfl⟩
    show CombInv (c.evaluateDeviceFilters rx ds) s { r with contexts := (Cfg.evaluateDeviceFilters rx { contexts := r.contexts } ds).contexts }
    have hlen : (Cfg.evaluateDeviceFilters rx { contexts := r.contexts } ds).contexts.length = r.contexts.length := by
      simp [Cfg.evaluateDeviceFilters]
    have hmem : ∀ ctx ∈ (Cfg.evaluateDeviceFilters rx { contexts := r.contexts } ds).contexts, ∃ ctx0 ∈ r.contexts,
        ctx.inputs = ctx0.inputs ∧ ctx.outputs = ctx0.outputs ∧ ctx.commandOutputs = ctx0.commandOutputs := by
      intro ctx hc
      obtain ⟨c0, h1, h2⟩ := List.mem_map.1 hc
      exact ⟨c0, h1, by rw [← h2], by rw [← h2], by rw [← h2]⟩
    exact { h with
      ctxs := evaluate_sorted rx c r.contexts h.ctxs ds
      comb := by
        intro ctx hc
        obtain ⟨c0, h1, h2, h3, h4⟩ := hmem ctx hc
        have := h.comb c0 h1
        exact ⟨by rw [h2]; exact this.inputs, by rw [h3]; exact this.outputs, by rw [h4]; exact this.commands⟩
      uniq := by
        intro ctx hc
        obtain ⟨c0, h1, _, _, h4⟩ := hmem ctx hc
        rw [h4]; exact h.uniq c0 h1
      stops := by
        intro i hi
        simp only [hlen] at hi
        obtain ⟨j, hj⟩ := h.stops i hi
        refine ⟨j, hj.1, ?_, ?_⟩
        · intro m h1 h2
          obtain ⟨c0, h3, h4⟩ := hj.2.1 m h1 h2
          exact ⟨{ c0 with matchingDeviceBits := if c0.hasDeviceFilter then deviceBits rx c0 ds 0 1 else allDeviceBits },
            by simp [Cfg.evaluateDeviceFilters, h3], h4⟩
        · obtain ⟨c0, h3, h4⟩ := hj.2.2
          exact ⟨{ c0 with matchingDeviceBits := if c0.hasDeviceFilter then deviceBits rx c0 ds 0 1 else allDeviceBits },
            by simp [Cfg.evaluateDeviceFilters, h3], h4⟩
      clientLt := by
        intro i hi
        simp only [hlen]
        exact h.clientLt i hi }
  | validate f => exact hop.1.elim

theorem Combiner.step_length (r : Combiner) (op : StageOp) : (r.step op).1.contexts.length = r.contexts.length := by
  cases op with
  | input ev dev =>
    have hd : (r.device ev dev).contexts = r.contexts := by
      unfold Combiner.device
      repeat' split
      all_goals rfl
    unfold Combiner.step
    simp only []
    repeat' split
    all_goals first
      | rfl
      | (simp only [Combiner.press, Combiner.release, hd])
  | devices rx ds => simp [Combiner.step, Cfg.evaluateDeviceFilters]
  | _ => rfl

private theorem CombInv.run {c s r} (h : CombInv c s r) (ops : List StageOp) (hops : r.acceptsAll ops) :
    stageOutputs (c, s) ops = r.outputs ops := by
  induction ops generalizing c s r with
  | nil => rfl
  | cons op ops ih =>
    obtain ⟨h1, h2⟩ := h.step hops.1
    show (stageStep (c, s) op).2 :: stageOutputs (stageStep (c, s) op).1 ops = (r.step op).2 :: ((r.step op).1.outputs ops)
    rw [h2]
    congr 1
    exact ih h1 hops.2

/-- at the beginning -/
theorem combInv_init (contexts : List Context) (hr : ∀ ctx ∈ contexts, ctx.OnlyCombines) (hu : CommandsUnique contexts)
    (hs : contexts = [] ∨ LastStops contexts) : CombInv (stageInit contexts).1 (stageInit contexts).2 { contexts := contexts } := by
  exact {
    ctxs := rfl
    nmm := by
      show ctxsHaveNoMightMatch (contexts.map _) = false
      unfold ctxsHaveNoMightMatch
      rw [List.any_eq_false]
      intro ctx hc
      obtain ⟨c0, h1, h2⟩ := List.mem_map.1 hc
      subst h2
      rw [Bool.not_eq_true, List.any_eq_false]
      intro m hm
      rw [isNoMightMatch_combination ((hr c0 h1).inputs m hm)]; simp
    comb := hr
    uniq := hu
    stops := by
      intro i hi
      rcases hs with hs | hs
      · simp only [hs, List.length_nil] at hi; omega
      · exact fallsTo_exists hs hi
    client := rfl
    clientSorted := List.Pairwise.nil
    clientLt := by intro i hi; cases hi
    might := rfl
    timeout := rfl
    onRel := rfl
    pendingNodup := List.nodup_nil
    pendingOut := by intro p hp; cases hp
    pendingHeld := by intro p hp; cases hp
    buf := rfl
    reapplied := rfl
    hist := rfl
    seq := by intro e he; cases he
    held := rfl
    nodup := List.nodup_nil
    down := rfl
    nodupHolds := List.nodup_nil
    sup := by intro o ho; cases ho
    bannedHeld := by intro b hb; cases hb
    lp := rfl
    lr := rfl }

/-- **C83 (refinement)** When all mappings are for combinations of keys, the output of a stage for each of the operations is the one the
specification says: a key is replaced when it is pressed while the other keys of the combination are held and the excluded ones are not, the
first mapping in the contexts in use decides; keys which an output lifts are released, and pressed again before another key is pressed; what a
key pressed is released with it. For all histories in which no key has to wait for another one. -/
theorem C83_refines (contexts : List Context) (hr : ∀ ctx ∈ contexts, ctx.OnlyCombines) (hu : CommandsUnique contexts)
    (hs : contexts = [] ∨ LastStops contexts) (ops : List StageOp) (hops : Combiner.acceptsAll { contexts := contexts } ops) :
    stageOutputs (stageInit contexts) ops = Combiner.outputs { contexts := contexts } ops := by
  exact CombInv.run (r := { contexts := contexts }) (combInv_init contexts hr hu hs) ops hops

/-! ### keys which are forwarded do not have to wait -/

private theorem keysToPress_single (k : Key) : keysToPress (singleKey k) = [k] := rfl

private theorem acceptsAny {ctx : Context} (h : ctx.matchingDeviceBits = BitVec.allOnes 64) {dev : Int} (h1 : -2 ≤ dev) (h2 : dev < 64) :
    acceptsDevice ctx dev = true := by
  unfold acceptsDevice
  split
  · rfl
  · next h3 =>
    split
    · rw [h]; rfl
    · next h4 =>
      rw [h, BitVec.getLsbD_allOnes]
      simp only [anyDeviceIndex, noDeviceIndex] at h3 h4
      simp only [decide_eq_true_eq]
      omega

private theorem inUse_first {ctx : Context} {rest : List Context} (h1 : ctx.fallthrough = false) (h2 : ctx.modifierFilter = [])
    (h3 : ctx.invertModifierFilter = false) (h4 : ctx.hasDeviceFilter = false) {client : List Nat} (h0 : 0 ∈ client) (held : List Key) :
    ∃ l, contextsInUse (ctx :: rest) client held = 0 :: l := by
  unfold contextsInUse
  rw [List.length_cons, List.range_succ_eq_map, List.filter_cons, if_pos]
  · exact ⟨_, rfl⟩
  · rw [List.any_eq_true]
    refine ⟨0, h0, ?_⟩
    have ht : targetOf (ctx :: rest) 0 = some 0 := by
      unfold targetOf
      rw [List.length_cons, List.range_succ_eq_map, List.find?_cons_of_pos]
      simp [h1]
    rw [ht]
    simp [modifiersMatch, someDevice, h2, h3, h4]

/-- a key never has to wait -/
theorem forwards_meaning {cs : List Context} (hf : ForwardsFirst cs) {client : List Nat} (hc : client = [] ∨ 0 ∈ client) {dev : Int}
    (h1 : -2 ≤ dev) (h2 : dev < 64) (held held' : List Key) {k : Key} (hv : isVirtualKey k = false) :
    meaning cs (contextsInUse cs client held') dev held k ≠ some .waits := by
  rcases hc with rfl | h0
  · have : contextsInUse cs [] held' = [] := by
      unfold contextsInUse
      rw [List.filter_eq_nil_iff]
      intro a _
      simp
    rw [this]
    simp [meaning, mappingsFor]
  obtain ⟨ctx, rest, forwards, others, rfl, f1, f2, f3, f4, f5, f6, f7, f8⟩ := hf
  obtain ⟨l, hl⟩ := inUse_first (rest := rest) f1 f2 f3 f4 h0 held'
  rw [hl]
  generalize hg : ctx :: rest = cs at *
  have hc0 : cs[0]? = some ctx := by rw [← hg]; rfl
  -- what a mapping means, when the key is not to be held for it
  have hout : ∀ p : Context × Input, k ∉ (keysToPress p.2.input).dropLast → meaningOf cs (0 :: l) held k p ≠ some .waits := by
    intro p hp h
    unfold meaningOf at h
    split at h
    · obtain ⟨o, _, h4⟩ := Option.map_eq_some_iff.1 h
      simp at h4
    · split at h
      · next h5 =>
        unfold continues at h5
        simp only [Bool.and_eq_true, List.contains_iff_mem] at h5
        exact hp h5.1.1
      · simp at h
  by_cases hk : ∃ f ∈ forwards, f.input = singleKey k
  · obtain ⟨f, hf1, hf2⟩ := hk
    unfold meaning mappingsFor
    rw [List.flatMap_cons, hc0]
    simp only []
    rw [if_pos (acceptsAny f5 h1 h2), f6, List.map_append, List.append_assoc, List.findSome?_append]
    have hsome : ((forwards.map (fun m => (ctx, m))).findSome? (meaningOf cs (0 :: l) held k)).isSome = true := by
      rw [List.findSome?_isSome_iff]
      refine ⟨(ctx, f), List.mem_map.2 ⟨f, hf1, rfl⟩, ?_⟩
      unfold meaningOf
      have ht : triggers f.input held k = true := by
        rw [hf2]
        unfold triggers
        rw [keysToPress_single]
        simp [keysExcluded, singleKey]
      obtain ⟨_, g1, g2⟩ := f7 f hf1
      simp only [ht, if_true, mappingOutput, g1]
      rw [List.getElem?_eq_getElem g2]
      rfl
    intro h
    rw [Option.or_of_isSome hsome] at h
    obtain ⟨p, hp1, hp2⟩ := List.exists_of_findSome?_eq_some h
    obtain ⟨m, hm1, rfl⟩ := List.mem_map.1 hp1
    refine hout (ctx, m) ?_ hp2
    obtain ⟨⟨q, hq⟩, _⟩ := f7 m hm1
    show k ∉ (keysToPress m.input).dropLast
    rw [hq, keysToPress_single]
    simp
  · intro h
    unfold meaning at h
    obtain ⟨p, hp1, hp2⟩ := List.exists_of_findSome?_eq_some h
    have hmem : ∃ c ∈ cs, p.2 ∈ c.inputs := by
      unfold mappingsFor at hp1
      obtain ⟨j, _, hj⟩ := List.mem_flatMap.1 hp1
      split at hj
      · next c' hc' =>
        split at hj
        · obtain ⟨m', h3, h4⟩ := List.mem_map.1 hj
          rw [← h4]
          exact ⟨c', List.mem_of_getElem? hc', h3⟩
        · simp at hj
      · simp at hj
    obtain ⟨c', h3, h4⟩ := hmem
    exact hout p (fun h5 => hk (f8 c' h3 p.2 h4 k h5 hv)) hp2

theorem Combiner.device_contexts (r : Combiner) (ev : KeyEvent) (dev : Int) :
    (r.device ev dev).contexts = r.contexts ∧ (r.device ev dev).client = r.client := by
  unfold Combiner.device
  repeat' split
  all_goals exact ⟨rfl, rfl⟩

private theorem forwards_evaluate {cs : List Context} (hf : ForwardsFirst cs) (rx : Regex) (ds : List DeviceDesc) :
    ForwardsFirst (Cfg.evaluateDeviceFilters rx { contexts := cs } ds).contexts := by
  obtain ⟨ctx, rest, forwards, others, rfl, f1, f2, f3, f4, f5, f6, f7, f8⟩ := hf
  refine ⟨{ ctx with matchingDeviceBits := allDeviceBits },
    (Cfg.evaluateDeviceFilters rx { contexts := rest } ds).contexts, forwards, others, ?_, f1, f2, f3, f4, rfl, f6, f7, ?_⟩
  · unfold Cfg.evaluateDeviceFilters
    simp only [List.map_cons, f4]
    rfl
  · intro c hc m hm
    obtain ⟨c0, h1, h2⟩ := List.mem_map.1 hc
    subst h2
    exact f8 c0 h1 m hm

private theorem forwards_accepts {r : Combiner} (hf : ForwardsFirst r.contexts) (hc : r.client = [] ∨ 0 ∈ r.client) (ops : List StageOp)
    (hops : ∀ op ∈ ops, op.isCombining r.contexts.length) : r.acceptsAll ops := by
  induction ops generalizing r with
  | nil => trivial
  | cons op ops ih =>
    have hop := hops op (by simp)
    have hrest := fun o ho => hops o (List.mem_cons_of_mem _ ho)
    refine ⟨⟨hop.1, ?_⟩, ?_⟩
    · cases op with
      | input ev dev =>
        refine ⟨hop.2, fun _ hv _ => ?_⟩
        exact forwards_meaning hf hc hop.1.2.2.1 hop.1.2.2.2 _ _ hv
      | _ => trivial
    · apply ih
      · cases op with
        | input ev dev =>
          have : ((r.step (.input ev dev)).1).contexts = r.contexts := by
            unfold Combiner.step
            simp only []
            repeat' split
            all_goals first
              | rfl
              | exact (Combiner.device_contexts r ev dev).1
          rw [this]; exact hf
        | contexts l => exact hf
        | devices rx ds => exact forwards_evaluate hf rx ds
        | validate f => exact hf
      · cases op with
        | input ev dev =>
          have : ((r.step (.input ev dev)).1).client = r.client := by
            unfold Combiner.step
            simp only []
            repeat' split
            all_goals first
              | rfl
              | exact (Combiner.device_contexts r ev dev).2
          rw [this]; exact hc
        | contexts l => exact Or.inr hop.2
        | devices rx ds => exact hc
        | validate f => exact hc
      · intro o ho
        rw [Combiner.step_length]
        exact hrest o ho

/-- **C83 (forwarded keys)** When the first context has no filters and begins with mappings for the keys which have to be held (as
`@forward-modifiers` adds them), then no key ever has to wait, and the output for each of the operations is the one the specification says; for
all histories of presses, repeats and releases on any devices, changes of the devices and of the other active contexts. -/
theorem C83_forwarded_keys (contexts : List Context) (hr : ∀ ctx ∈ contexts, ctx.OnlyCombines) (hu : CommandsUnique contexts)
    (hs : LastStops contexts) (hf : ForwardsFirst contexts) (ops : List StageOp) (hops : ∀ op ∈ ops, op.isCombining contexts.length) :
    stageOutputs (stageInit contexts) ops = Combiner.outputs { contexts := contexts } ops :=
  C83_refines contexts hr hu (Or.inr hs) ops (forwards_accepts hf (Or.inl rfl) ops hops)

/-! ### a shortcut which lifts its modifiers -/

theorem Combiner.outputs_append (r : Combiner) (a b : List StageOp) : r.outputs (a ++ b) = r.outputs a ++ (r.after a).outputs b := by
  induction a generalizing r with
  | nil => rfl
  | cons op a ih =>
    show (r.step op).2 :: (r.step op).1.outputs (a ++ b) = _
    rw [ih]; rfl

theorem Combiner.acceptsAll_append (r : Combiner) (a b : List StageOp) (ha : r.acceptsAll a) (hb : (r.after a).acceptsAll b) :
    r.acceptsAll (a ++ b) := by
  induction a generalizing r with
  | nil => exact hb
  | cons op a ih => exact ⟨ha.1, ih _ ha.2 hb⟩

private theorem device_rest (r : Combiner) (ev : KeyEvent) (dev : Int) :
    ∃ a b, r.device ev dev = { r with lastPressed := a, lastRepeat := b } := by
  unfold Combiner.device
  repeat' split
  all_goals exact ⟨_, _, rfl⟩

/-- lift some keys -/
private def liftAll (mods : List Key) (hs : List Hold) : List Hold := hs.map (fun h => if h.key ∈ mods then { h with lifted := true } else h)

private theorem fold_lift (cause : Key) (mods : List Key) (hn : mods.Nodup)
    (hk : ∀ m ∈ mods, m ≠ Key.any ∧ isVirtualKey m = false ∧ isActionKey m = false) (hs : List Hold) (b : List Key) (t : Bool) (o : KeySequence) :
    (mods.map (fun m => (⟨m, .Not, 0⟩ : KeyEvent))).foldl (Sink.put cause) ⟨hs, b, t, o⟩ =
      ⟨liftAll mods hs, b ++ mods.filter (fun m => hs.any (fun h => h.key == m)), t,
        o ++ (mods.filter (fun m => hs.any (fun h => h.key == m && !h.lifted))).map (fun m => ⟨m, .Up, 0⟩)⟩ := by
  induction mods generalizing hs b o with
  | nil =>
    have : liftAll [] hs = hs := by unfold liftAll; simp
    simp [this]
  | cons m mods ih =>
    obtain ⟨h1, h2⟩ := List.nodup_cons.1 hn
    obtain ⟨k1, k2, k3⟩ := hk m (by simp)
    have hk' := fun m hm => hk m (List.mem_cons_of_mem _ hm)
    rw [List.map_cons, List.foldl_cons]
    show List.foldl _ (if m = Key.any then _ else Sink.lift ⟨hs, b, t, o⟩ m) _ = _
    rw [if_neg k1]
    unfold Sink.lift
    simp only [k2, k3, Bool.not_false, Bool.and_true]
    cases hheld : hs.any (fun h => h.key == m) with
    | false =>
      rw [List.any_eq_false] at hheld
      simp only [Bool.false_eq_true, if_false]
      rw [ih h2 hk']
      have e1 : liftAll mods hs = liftAll (m :: mods) hs := by
        unfold liftAll
        apply List.map_congr_left
        intro h hh
        have : h.key ≠ m := by simpa using hheld h hh
        simp [this]
      have e2 : hs.any (fun h => h.key == m && !h.lifted) = false := by
        rw [List.any_eq_false]
        intro h hh
        have : (h.key == m) = false := by simpa using hheld h hh
        simp [this]
      have e3 : hs.any (fun h => h.key == m) = false := by rw [List.any_eq_false]; exact hheld
      rw [e1, List.filter_cons, List.filter_cons, e2, e3]
      rfl
    | true =>
      simp only [if_true]
      rw [ih h2 hk']
      have e1 : liftAll mods (changeHold m (fun h => { h with lifted := true }) hs) = liftAll (m :: mods) hs := by
        unfold liftAll changeHold
        rw [List.map_map]
        apply List.map_congr_left
        intro h _
        by_cases hk : h.key = m
        · have : h.key ∉ mods := by rw [hk]; exact h1
          simp [hk, h1]
        · simp [hk]
      have e2 : mods.filter (fun m' => (changeHold m (fun h => { h with lifted := true }) hs).any (fun h => h.key == m' && !h.lifted)) =
          mods.filter (fun m' => hs.any (fun h => h.key == m' && !h.lifted)) := by
        apply List.filter_congr
        intro m' hm'
        have hne : m' ≠ m := by intro h; rw [h] at hm'; exact h1 hm'
        unfold changeHold
        rw [List.any_map]
        congr 1
        funext h
        simp only [Function.comp]
        by_cases hk : h.key = m
        · have : (m == m') = false := beq_eq_false_iff_ne.2 (fun h => hne h.symm)
          simp [hk, this]
        · simp [hk]
      have e3 : mods.filter (fun m' => (changeHold m (fun h => { h with lifted := true }) hs).any (fun h => h.key == m')) =
          mods.filter (fun m' => hs.any (fun h => h.key == m')) := by
        apply List.filter_congr
        intro m' _
        unfold changeHold
        rw [List.any_map]
        congr 1
        funext h
        simp only [Function.comp]
        split <;> rfl
      rw [e1, e2, e3, List.filter_cons, List.filter_cons, hheld]
      congr 1
      · simp
      · split <;> simp

theorem undoes_none {s : Sink} {k : Key} (h : ∀ x ∈ s.holds, x.key ≠ k) : s.undoes k = false := by
  unfold Sink.undoes
  have : (s.holds.find? (fun h => h.key == k || (h.lifted && !s.banned.contains h.key))).any (fun h => h.key == k && h.lifted) = false := by
    rw [Option.any_eq_false]
    intro x hx
    have := h x (List.mem_of_find?_eq_some hx)
    simp [this]
  rw [this, Bool.and_false]

theorem settled_keys {held : List Key} {out : KeySequence} (h : ∀ e ∈ out, e.state = .Not → isVirtualKey e.key = false) : settled held out = out := by
  induction out with
  | nil => rfl
  | cons e out ih =>
    have ih := ih (fun x hx => h x (List.mem_cons_of_mem _ hx))
    unfold settled at ih ⊢
    rw [List.flatMap_cons, ih, if_neg]
    · rfl
    · intro hv
      rw [h e (by simp) hv.1] at hv
      exact absurd hv.2 (by decide)

private theorem restore_banned (banned : List Key) (k : Key) (hs : List Hold) (h : ∀ x ∈ hs, x.lifted = true → x.key ∈ banned) :
    restore banned k hs = (hs, [], false) := by
  induction hs with
  | nil => rfl
  | cons x hs ih =>
    have hx : (x.lifted && !banned.contains x.key) = false := by
      cases hl : x.lifted with
      | false => rfl
      | true => simp [h x (by simp) hl]
    unfold restore
    rw [hx, ih (fun y hy => h y (by simp [hy]))]
    rfl

private theorem restore_all (k : Key) (hs : List Hold) (h : ∀ x ∈ hs, x.key ≠ k) :
    restore [] k hs = (hs.map (fun h => { h with lifted := false }), (hs.filter (·.lifted)).map (fun h => ⟨h.key, .Down, 0⟩), false) := by
  induction hs with
  | nil => rfl
  | cons x hs ih =>
    have ih := ih (fun y hy => h y (by simp [hy]))
    unfold restore
    cases hl : x.lifted with
    | false =>
      simp only [Bool.false_and, Bool.false_eq_true, if_false, ih]
      simp only [List.map_cons, List.filter_cons, hl, Bool.false_eq_true, if_false]
      congr 2
      cases x; simp only at hl; subst hl; rfl
    | true =>
      simp [ih, hl, h x (by simp)]

theorem Combiner.after_inv (ops : List StageOp) : ∀ {c : Cfg} {s : S} {r : Combiner}, CombInv c s r → r.acceptsAll ops →
    ∃ c' s', CombInv c' s' (r.after ops) := by
  induction ops with
  | nil => intro c s r h _; exact ⟨c, s, h⟩
  | cons op ops ih => intro c s r h ha; exact ih (h.step ha.1).1 ha.2

private theorem onPress_all {out : KeySequence} (h : ∀ e ∈ out, e.state ≠ .OutputOnRelease) : onPress out = out ∧ onReleasePart out = none := by
  rcases onPress_split out with ⟨h1, h2⟩ | ⟨x, rest, h1, h2, _⟩
  · exact ⟨h1.symm, h2⟩
  · exact absurd h2 (h x (by rw [h1]; simp))

/-- an output which does the same as one that lifts the keys `mods` and presses `x` -/
private theorem shortcut_run (contexts : List Context) (hr : ∀ ctx ∈ contexts, ctx.OnlyCombines) (hu : CommandsUnique contexts)
    (hs : contexts = [] ∨ LastStops contexts) (ops : List StageOp) (hops : Combiner.acceptsAll { contexts := contexts } ops)
    {k x y : Key} {dev : Int} {mods : List Key} (hd : ValidDevice dev) (hk : Replaceable k) (hy : Replaceable y)
    (hyv : isVirtualKey y = false) (hm : mods.Nodup) (hmods : ∀ m ∈ mods, m ≠ Key.any ∧ isVirtualKey m = false ∧ isActionKey m = false) (out : KeySequence)
    (hnr : ∀ e ∈ out, e.state ≠ .OutputOnRelease) :
    let r := Combiner.after { contexts := contexts } ops
    (∀ held, (settled held out).foldl (Sink.put k) { holds := r.holds } =
      (mods.map (fun m => (⟨m, .Not, 0⟩ : KeyEvent)) ++ [(⟨x, .Down, 0⟩ : KeyEvent)]).foldl (Sink.put k) { holds := r.holds }) →
    k ∉ r.held → y ∉ r.held →
    r.meaning dev k = some (.output out) → r.meaning dev y = none →
    (∀ h ∈ r.holds, h.lifted = false ∧ h.cause ≠ k ∧ h.key ≠ x ∧ h.key ≠ y) →
    stageOutputs (stageInit contexts) (ops ++ [.input ⟨k, .Down, 0⟩ dev, .input ⟨k, .Up, 0⟩ dev, .input ⟨y, .Down, 0⟩ dev]) =
      stageOutputs (stageInit contexts) ops ++
        [(mods.filter (fun m => r.holds.any (fun h => h.key == m))).map (fun m => ⟨m, .Up, 0⟩) ++ [⟨x, .Down, 0⟩],
          [⟨x, .Up, 0⟩],
          (r.holds.filter (fun h => decide (h.key ∈ mods))).map (fun h => ⟨h.key, .Down, 0⟩) ++ [⟨y, .Down, 0⟩]] := by
  intro r hset hkh hyh hmean hmy hh
  obtain ⟨_, _, hri⟩ := Combiner.after_inv ops (combInv_init contexts hr hu hs) hops
  have hpk : ∀ p ∈ r.pending, p.key ≠ k := hri.noPending hkh
  have hpy : ∀ p ∈ r.pending, p.key ≠ y := hri.noPending hyh
  have hany : ∀ z, (∀ p ∈ r.pending, p.key ≠ z) → r.pending.any (fun p => p.key == z) = false := by
    intro z hz
    rw [List.any_eq_false]
    intro p hp
    simpa using hz p hp
  obtain ⟨hop, hor⟩ := onPress_all hnr
  obtain ⟨a1, b1, hd1⟩ := device_rest r ⟨k, .Down, 0⟩ dev
  have hheld : r.held.erase k = r.held := List.erase_of_not_mem hkh
  have hig : r.ignores ⟨k, .Down, 0⟩ dev = false := by
    unfold Combiner.ignores
    rw [hany k hpk]
    simp [hkh]
  have hanyx : (liftAll mods r.holds).any (fun h => h.key == x) = false := by
    rw [List.any_eq_false]
    intro h hh'
    obtain ⟨h', h1, h2⟩ := List.mem_map.1 hh'
    have := (hh h' h1).2.2.1
    rw [← h2]
    split <;> simpa using this
  have hlb : ∀ h ∈ liftAll mods r.holds, h.lifted = true → h.key ∈ mods.filter (fun m => r.holds.any (fun h => h.key == m)) := by
    intro h hh' hl
    obtain ⟨h', h1, h2⟩ := List.mem_map.1 hh'
    by_cases hm' : h'.key ∈ mods
    · rw [if_pos hm'] at h2
      rw [← h2, List.mem_filter, List.any_eq_true]
      exact ⟨hm', h', h1, beq_self_eq_true _⟩
    · rw [if_neg hm'] at h2
      rw [← h2, (hh h' h1).1] at hl
      simp at hl
  have hfilt : mods.filter (fun m => r.holds.any (fun h => h.key == m && !h.lifted)) = mods.filter (fun m => r.holds.any (fun h => h.key == m)) := by
    apply List.filter_congr
    intro m _
    rw [Bool.eq_iff_iff, List.any_eq_true, List.any_eq_true]
    constructor
    · rintro ⟨h, h1, h2⟩
      simp only [Bool.and_eq_true] at h2
      exact ⟨h, h1, h2.1⟩
    · rintro ⟨h, h1, h2⟩
      exact ⟨h, h1, by simp only [h2, (hh h h1).1]; rfl⟩
  -- pressing the key
  have s1 : r.step (.input ⟨k, .Down, 0⟩ dev) = ({ r with
        lastPressed := a1
        lastRepeat := b1
        banned := mods.filter (fun m => r.holds.any (fun h => h.key == m))
        held := r.held ++ [k]
        holds := liftAll mods r.holds ++ [{ key := x, cause := k }] },
      (mods.filter (fun m => r.holds.any (fun h => h.key == m))).map (fun m => (⟨m, .Up, 0⟩ : KeyEvent)) ++ [⟨x, .Down, 0⟩]) := by
    unfold Combiner.step
    simp only [if_true, hig, Bool.false_eq_true, if_false, hd1]
    unfold Combiner.press Combiner.outputFor Combiner.pendingFor
    have hmm : Combiner.meaning { r with lastPressed := a1, lastRepeat := b1 } dev k = r.meaning dev k := rfl
    simp only [hmm, hmean, hop, hor, hset, List.append_nil, List.foldl_append, fold_lift _ _ hm hmods, hfilt, List.nil_append, List.foldl_cons, List.foldl_nil, hheld]
    show (_, _) = _
    have hux : ∀ b t o, (⟨liftAll mods r.holds, b, t, o⟩ : Sink).undoes x = false := by
      intro b t o
      apply undoes_none
      intro h hh'
      have := List.any_eq_false.1 hanyx h hh'
      simpa using this
    simp only [Sink.put, Sink.press, hux, restore_banned _ _ _ hlb, hanyx, Bool.false_eq_true, if_false, List.append_nil]
  obtain ⟨r1, hr1⟩ : ∃ r1 : Combiner, r1 = { r with
        lastPressed := a1
        lastRepeat := b1
        banned := mods.filter (fun m => r.holds.any (fun h => h.key == m))
        held := r.held ++ [k]
        holds := liftAll mods r.holds ++ [{ key := x, cause := k }] } := ⟨_, rfl⟩
  rw [← hr1] at s1
  -- releasing it
  have hcause : ∀ h ∈ liftAll mods r.holds, h.cause ≠ k := by
    intro h hh'
    obtain ⟨h', h1, h2⟩ := List.mem_map.1 hh'
    have := (hh h' h1).2.1
    rw [← h2]
    split <;> exact this
  obtain ⟨a2, b2, hd2⟩ := device_rest r1 ⟨k, .Up, 0⟩ dev
  have s2 : r1.step (.input ⟨k, .Up, 0⟩ dev) = ({ r with
        lastPressed := a2
        lastRepeat := b2
        banned := []
        holds := liftAll mods r.holds }, [⟨x, .Up, 0⟩]) := by
    unfold Combiner.step
    simp only [reduceCtorEq, if_false, hd2]
    unfold Combiner.release
    have e1 : (liftAll mods r.holds ++ [({ key := x, cause := k } : Hold)]).filter (fun h => h.cause != k) = liftAll mods r.holds := by
      rw [List.filter_append, List.filter_eq_self.2 (fun h hh' => by simpa using hcause h hh')]
      simp
    have e2 : (liftAll mods r.holds ++ [({ key := x, cause := k } : Hold)]).filter (fun h => h.cause == k && !h.lifted) = [{ key := x, cause := k }] := by
      rw [List.filter_append, List.filter_eq_nil_iff.2]
      · simp
      · intro h hh'
        have : (h.cause == k) = false := beq_eq_false_iff_ne.2 (hcause h hh')
        simp [this]
    have e3 : (r.held ++ [k]).erase k = r.held := by
      rw [List.erase_append_right _ hkh]
      simp
    have e4 : r.pending.find? (fun p => p.key == k) = none := by
      rw [List.find?_eq_none]
      intro p hp
      simpa using hpk p hp
    have e5 : r.pending.filter (fun p => p.key != k) = r.pending := by
      rw [List.filter_eq_self]
      intro p hp
      simpa using hpk p hp
    rw [hr1]
    simp only [Combiner.releaseOutput, e4, e5, List.foldl_nil, List.nil_append, e1, e2, e3]
    rfl
  obtain ⟨r2, hr2⟩ : ∃ r2 : Combiner, r2 = { r with lastPressed := a2, lastRepeat := b2, banned := [], holds := liftAll mods r.holds } := ⟨_, rfl⟩
  rw [← hr2] at s2
  -- pressing the other one
  have hm2 : r2.meaning dev y = none := by rw [← hmy, hr2]; rfl
  obtain ⟨a3, b3, hd3⟩ := device_rest r2 ⟨y, .Down, 0⟩ dev
  have hig2 : r2.ignores ⟨y, .Down, 0⟩ dev = false := by
    rw [hr2]
    unfold Combiner.ignores
    simp only []
    rw [hany y hpy]
    simp [hyh]
  have hky : ∀ h ∈ liftAll mods r.holds, h.key ≠ y := by
    intro h hh'
    obtain ⟨h', h1, h2⟩ := List.mem_map.1 hh'
    have := (hh h' h1).2.2.2
    rw [← h2]
    split <;> exact this
  have hlf : (liftAll mods r.holds).filter (·.lifted) = liftAll mods (r.holds.filter (fun h => decide (h.key ∈ mods))) := by
    unfold liftAll
    rw [List.filter_map]
    congr 1
    apply List.filter_congr
    intro h h1
    simp only [Function.comp]
    by_cases hm' : h.key ∈ mods
    · simp [hm']
    · simp [hm', (hh h h1).1]
  have hlk : ∀ l : List Hold, (liftAll mods l).map (fun h => (⟨h.key, .Down, 0⟩ : KeyEvent)) = l.map (fun h => ⟨h.key, .Down, 0⟩) := by
    intro l
    unfold liftAll
    rw [List.map_map]
    apply List.map_congr_left
    intro h _
    simp only [Function.comp]
    split <;> rfl
  have s3 : (r2.step (.input ⟨y, .Down, 0⟩ dev)).2 =
      (r.holds.filter (fun h => decide (h.key ∈ mods))).map (fun h => (⟨h.key, .Down, 0⟩ : KeyEvent)) ++ [⟨y, .Down, 0⟩] := by
    unfold Combiner.step
    simp only [if_true, hig2, Bool.false_eq_true, if_false, hd3]
    unfold Combiner.press Combiner.outputFor Combiner.pendingFor
    have hmm : Combiner.meaning { r2 with lastPressed := a3, lastRepeat := b3 } dev y = r2.meaning dev y := rfl
    simp only [hmm, hm2, hyv, Bool.false_eq_true, if_false, List.foldl_cons, List.foldl_nil]
    have hany : ((liftAll mods r.holds).map (fun h => { h with lifted := false })).any (fun h => h.key == y) = false := by
      rw [List.any_eq_false]
      intro h hh'
      obtain ⟨h', h1, h2⟩ := List.mem_map.1 hh'
      rw [← h2]
      simpa using hky h' h1
    have huy : ∀ b t o, (⟨liftAll mods r.holds, b, t, o⟩ : Sink).undoes y = false := fun b t o => undoes_none hky
    rw [hr2]
    simp only [Sink.put, Sink.press, huy, restore_all _ _ hky, hany, Bool.false_eq_true, if_false, List.nil_append, hlf, hlk]
  have hr1m : ∀ ev : KeyEvent, ev.state = .Up → (r1.accepts (.input ev dev) ↔ Replaceable ev.key ∧ ev.value = 0) := by
    intro ev hev
    unfold Combiner.accepts StageOp.isRemap
    simp [hev, hd.1, hd.2]
  have hacc : r.acceptsAll [.input ⟨k, .Down, 0⟩ dev, .input ⟨k, .Up, 0⟩ dev, .input ⟨y, .Down, 0⟩ dev] := by
    refine ⟨⟨⟨Or.inl rfl, hk, hd.1, hd.2⟩, rfl, fun _ _ _ => ?_⟩, ?_, ?_, trivial⟩
    · show r.meaning dev k ≠ _
      rw [hmean]; simp
    · rw [s1]
      exact (hr1m _ rfl).2 ⟨hk, rfl⟩
    · rw [s1]
      simp only [s2]
      refine ⟨⟨Or.inl rfl, hy, hd.1, hd.2⟩, rfl, fun _ _ _ => ?_⟩
      show r2.meaning dev y ≠ _
      rw [hm2]; simp
  rw [C83_refines contexts hr hu hs _ (Combiner.acceptsAll_append _ _ _ hops hacc), C83_refines contexts hr hu hs _ hops, Combiner.outputs_append]
  congr 1
  show [(r.step _).2, ((r.step _).1.step _).2, (((r.step _).1.step _).1.step _).2] = _
  rw [s1]
  simp only [s2, s3]

/-- **C83 (shortcut)** After any such history, when a mapping for the key `k` outputs `x` and lifts the keys `mods`: pressing `k` releases those of
them which are held in the output and presses `x`; releasing `k` releases `x`, the lifted keys remain released; pressing an unmapped key presses
them again before it. -/
theorem C83_shortcut (contexts : List Context) (hr : ∀ ctx ∈ contexts, ctx.OnlyCombines) (hu : CommandsUnique contexts)
    (hs : contexts = [] ∨ LastStops contexts) (ops : List StageOp) (hops : Combiner.acceptsAll { contexts := contexts } ops)
    {k x y : Key} {dev : Int} {mods : List Key} (hd : ValidDevice dev) (hk : Replaceable k) (hy : Replaceable y)
    (hyv : isVirtualKey y = false) (hm : mods.Nodup) (hmods : ∀ m ∈ mods, m ≠ Key.any ∧ isVirtualKey m = false ∧ isActionKey m = false) :
    let r := Combiner.after { contexts := contexts } ops
    k ∉ r.held → y ∉ r.held →
    r.meaning dev k = some (.output (mods.map (fun m => ⟨m, .Not, 0⟩) ++ [⟨x, .Down, 0⟩])) → r.meaning dev y = none →
    (∀ h ∈ r.holds, h.lifted = false ∧ h.key ≠ x ∧ h.key ≠ y) →
    stageOutputs (stageInit contexts) (ops ++ [.input ⟨k, .Down, 0⟩ dev, .input ⟨k, .Up, 0⟩ dev, .input ⟨y, .Down, 0⟩ dev]) =
      stageOutputs (stageInit contexts) ops ++
        [(mods.filter (fun m => r.holds.any (fun h => h.key == m))).map (fun m => ⟨m, .Up, 0⟩) ++ [⟨x, .Down, 0⟩],
          [⟨x, .Up, 0⟩],
          (r.holds.filter (fun h => decide (h.key ∈ mods))).map (fun h => ⟨h.key, .Down, 0⟩) ++ [⟨y, .Down, 0⟩]] := by
  intro r hkh hyh hmean hmy hh
  refine shortcut_run contexts hr hu hs ops hops hd hk hy hyv hm hmods _ ?_ ?_ hkh hyh hmean hmy
    (fun h hm => ⟨(hh h hm).1, Combiner.not_cause contexts ops hkh h hm, (hh h hm).2⟩)
  · intro e he
    rcases List.mem_append.1 he with he | he
    · obtain ⟨m, h1, rfl⟩ := List.mem_map.1 he; simp
    · rw [List.mem_singleton] at he; subst he; simp
  intro held
  rw [settled_keys]
  intro e he hn
  rcases List.mem_append.1 he with he | he
  · obtain ⟨m, h1, rfl⟩ := List.mem_map.1 he
    exact (hmods m h1).2.1
  · rw [List.mem_singleton] at he; subst he; cases hn

private theorem fold_nots (cause : Key) (mods : List Key) (h : ∀ m ∈ mods, m ≠ Key.any) (s : Sink) :
    (mods.map (fun m => (⟨m, .Not, 0⟩ : KeyEvent))).foldl (Sink.put cause) s = mods.foldl Sink.lift s := by
  induction mods generalizing s with
  | nil => rfl
  | cons m mods ih =>
    rw [List.map_cons, List.foldl_cons, List.foldl_cons, ← ih (fun x hx => h x (List.mem_cons_of_mem _ hx))]
    congr 1
    unfold Sink.put
    simp only [if_neg (h m (by simp))]

/-- **C83 (all keys)** After any such history, when a mapping for the key `k` outputs `!Any X`: pressing `k` releases all keys which are held in the output, in the
order in which they were pressed, and presses `x`; releasing `k` releases `x`, the others remain released; pressing an unmapped key presses all of them again before it. -/
theorem C83_lift_all (contexts : List Context) (hr : ∀ ctx ∈ contexts, ctx.OnlyCombines) (hu : CommandsUnique contexts)
    (hs : contexts = [] ∨ LastStops contexts) (ops : List StageOp) (hops : Combiner.acceptsAll { contexts := contexts } ops)
    {k x y : Key} {dev : Int} (hd : ValidDevice dev) (hk : Replaceable k) (hy : Replaceable y) (hyv : isVirtualKey y = false) :
    let r := Combiner.after { contexts := contexts } ops
    k ∉ r.held → y ∉ r.held →
    r.meaning dev k = some (.output [⟨Key.any, .Not, 0⟩, ⟨x, .Down, 0⟩]) → r.meaning dev y = none →
    (∀ h ∈ r.holds, h.lifted = false ∧ h.key ≠ x ∧ h.key ≠ y) →
    (∀ h ∈ r.holds, h.key ≠ Key.any ∧ isVirtualKey h.key = false ∧ isActionKey h.key = false) →
    stageOutputs (stageInit contexts) (ops ++ [.input ⟨k, .Down, 0⟩ dev, .input ⟨k, .Up, 0⟩ dev, .input ⟨y, .Down, 0⟩ dev]) =
      stageOutputs (stageInit contexts) ops ++
        [r.holds.map (fun h => ⟨h.key, .Up, 0⟩) ++ [⟨x, .Down, 0⟩], [⟨x, .Up, 0⟩], r.holds.map (fun h => ⟨h.key, .Down, 0⟩) ++ [⟨y, .Down, 0⟩]] := by
  intro r hkh hyh hmean hmy hh hkeys
  obtain ⟨_, _, hri⟩ := Combiner.after_inv ops (combInv_init contexts hr hu hs) hops
  have hn : (r.holds.map (·.key)).Nodup := hri.nodupHolds
  have hmods : ∀ m ∈ r.holds.map (·.key), m ≠ Key.any ∧ isVirtualKey m = false ∧ isActionKey m = false := by
    intro m hm
    obtain ⟨h, h1, rfl⟩ := List.mem_map.1 hm
    exact hkeys h h1
  have hrun := shortcut_run contexts hr hu hs ops hops (x := x) hd hk hy hyv hn hmods [⟨Key.any, .Not, 0⟩, ⟨x, .Down, 0⟩] (by simp) (by
    intro held
    rw [settled_keys (by
      intro e he hs
      simp only [List.mem_cons, List.not_mem_nil, or_false] at he
      rcases he with rfl | rfl
      · rfl
      · cases hs), List.foldl_append, fold_nots k _ (fun m hm => (hmods m hm).1)]
    rfl) hkh hyh hmean hmy (fun h hm => ⟨(hh h hm).1, Combiner.not_cause contexts ops hkh h hm, (hh h hm).2⟩)
  rw [hrun]
  have e1 : (r.holds.map (·.key)).filter (fun m => r.holds.any (fun h => h.key == m)) = r.holds.map (·.key) := by
    rw [List.filter_eq_self]
    intro m hm
    obtain ⟨h, h1, rfl⟩ := List.mem_map.1 hm
    rw [List.any_eq_true]
    exact ⟨h, h1, beq_self_eq_true _⟩
  have e2 : r.holds.filter (fun h => decide (h.key ∈ r.holds.map (·.key))) = r.holds := by
    rw [List.filter_eq_self]
    intro h h1
    exact decide_eq_true (List.mem_map.2 ⟨h, h1, rfl⟩)
  show _ ++ [((r.holds.map (·.key)).filter (fun m => r.holds.any (fun h => h.key == m))).map _ ++ _, _,
    (r.holds.filter (fun h => decide (h.key ∈ r.holds.map (·.key)))).map _ ++ _] = _
  rw [e1, e2, List.map_map]
  rfl

namespace CombinationExample

/-- what the parser makes of a configuration -/
private def sampleContext : Context where
  inputs := [⟨singleKey Key.ShiftLeft, 3⟩, ⟨singleKey Key.ControlLeft, 2⟩,
    ⟨[⟨Key.ShiftLeft, .Not, 0⟩, ⟨Key.ControlLeft, .Down, 0⟩, ⟨Key.KeyA, .Down, 0⟩, ⟨Key.KeyA, .UpAsync, 0⟩, ⟨Key.ControlLeft, .UpAsync, 0⟩], 0⟩,
    ⟨[⟨Key.ControlLeft, .Down, 0⟩, ⟨Key.KeyA, .Down, 0⟩, ⟨Key.KeyA, .UpAsync, 0⟩, ⟨Key.ControlLeft, .UpAsync, 0⟩], 1⟩]
  outputs := [[⟨Key.ControlLeft, .Not, 0⟩, ⟨Key.KeyX, .Down, 0⟩],
    [⟨Key.ControlLeft, .Down, 0⟩, ⟨Key.KeyY, .Down, 0⟩, ⟨Key.KeyY, .Up, 0⟩, ⟨Key.ControlLeft, .Up, 0⟩],
    [⟨Key.ControlLeft, .Down, 0⟩], [⟨Key.ShiftLeft, .Down, 0⟩]]

example : (parseConfig { typer := genericTyper, validRegex := fun _ => true, files := fun _ => none }
      "@forward-modifiers ShiftLeft ControlLeft\n!ShiftLeft ControlLeft{A} >> X\nControlLeft{A} >> ControlLeft{Y}".toList).map
        (fun c => c.contexts.map (fun x => (x.inputs, x.outputs))) =
    some [(sampleContext.inputs, sampleContext.outputs)] := by decide +kernel

private theorem sample_combines : sampleContext.OnlyCombines := by
  have hr : Replaceable Key.ShiftLeft ∧ Replaceable Key.ControlLeft ∧ Replaceable Key.KeyA := by unfold Replaceable; decide
  refine ⟨?_, ?_, by simp [sampleContext]⟩
  · intro m hm
    simp only [sampleContext, List.mem_cons, List.not_mem_nil, or_false] at hm
    rcases hm with rfl | rfl | rfl | rfl
    · exact ⟨[], [Key.ShiftLeft], [Key.ShiftLeft], rfl, by decide, by decide, by decide,
        by simp only [List.mem_singleton, forall_eq]; exact ⟨hr.1, by simp⟩, by simp⟩
    · exact ⟨[], [Key.ControlLeft], [Key.ControlLeft], rfl, by decide, by decide, by decide,
        by simp only [List.mem_singleton, forall_eq]; exact ⟨hr.2.1, by simp⟩, by simp⟩
    · refine ⟨[Key.ShiftLeft], [Key.ControlLeft, Key.KeyA], [Key.KeyA, Key.ControlLeft], rfl, by decide, by decide, by decide, ?_, ?_⟩
      · simp only [List.mem_cons, List.not_mem_nil, or_false, forall_eq_or_imp, forall_eq]
        exact ⟨⟨hr.2.1, by decide⟩, hr.2.2, by decide⟩
      · simp only [List.mem_singleton, forall_eq]
        exact hr.1
    · refine ⟨[], [Key.ControlLeft, Key.KeyA], [Key.KeyA, Key.ControlLeft], rfl, by decide, by decide, by decide, ?_, by simp⟩
      simp only [List.mem_cons, List.not_mem_nil, or_false, forall_eq_or_imp, forall_eq]
      exact ⟨⟨hr.2.1, by simp⟩, hr.2.2, by simp⟩
  · intro o ho
    simp only [sampleContext, List.mem_cons, List.not_mem_nil, or_false] at ho
    rcases ho with rfl | rfl | rfl | rfl <;> exact ⟨by decide, by decide⟩

private theorem sample_forwards : ForwardsFirst [sampleContext] := by
  refine ⟨sampleContext, [], sampleContext.inputs.take 2, sampleContext.inputs.drop 2, rfl, rfl, rfl, rfl, rfl, rfl, rfl, ?_, ?_⟩
  · intro m hm
    simp only [sampleContext, List.take_succ_cons, List.take_zero, List.mem_cons, List.not_mem_nil, or_false] at hm
    rcases hm with rfl | rfl
    · exact ⟨⟨_, rfl⟩, by decide, by decide⟩
    · exact ⟨⟨_, rfl⟩, by decide, by decide⟩
  · decide

/-- Control is held, then B is pressed and released, then A twice, then D; then Shift is pressed as well, and A. -/
private def sampleOps : List StageOp :=
  [.contexts [0], .input ⟨Key.ControlLeft, .Down, 0⟩ 0, .input ⟨Key.KeyB, .Down, 0⟩ 0, .input ⟨Key.KeyB, .Up, 0⟩ 0,
    .input ⟨Key.KeyA, .Down, 0⟩ 0, .input ⟨Key.KeyA, .Up, 0⟩ 0, .input ⟨Key.KeyA, .Down, 0⟩ 0, .input ⟨Key.KeyA, .Up, 0⟩ 0,
    .input ⟨Key.KeyD, .Down, 0⟩ 0, .input ⟨Key.ShiftLeft, .Down, 0⟩ 0, .input ⟨Key.KeyA, .Down, 0⟩ 0, .input ⟨Key.ControlLeft, .Up, 0⟩ 0]

example : stageOutputs (stageInit [sampleContext]) sampleOps =
    [[], [⟨Key.ControlLeft, .Down, 0⟩], [⟨Key.KeyB, .Down, 0⟩], [⟨Key.KeyB, .Up, 0⟩],
      [⟨Key.ControlLeft, .Up, 0⟩, ⟨Key.KeyX, .Down, 0⟩], [⟨Key.KeyX, .Up, 0⟩], [⟨Key.KeyX, .Down, 0⟩], [⟨Key.KeyX, .Up, 0⟩],
      [⟨Key.ControlLeft, .Down, 0⟩, ⟨Key.KeyD, .Down, 0⟩], [⟨Key.ShiftLeft, .Down, 0⟩], [⟨Key.KeyY, .Down, 0⟩, ⟨Key.KeyY, .Up, 0⟩],
      [⟨Key.ControlLeft, .Up, 0⟩]] := by
  have hops : ∀ op ∈ sampleOps, op.isCombining [sampleContext].length := by
    intro op hop
    simp only [sampleOps, List.mem_cons, List.not_mem_nil, or_false] at hop
    rcases hop with rfl | rfl | rfl | rfl | rfl | rfl | rfl | rfl | rfl | rfl | rfl | rfl <;>
      unfold StageOp.isCombining StageOp.isRemap Replaceable <;> decide
  exact (C83_forwarded_keys [sampleContext] (by simpa using sample_combines) (by intro ctx hc; rw [List.mem_singleton] at hc; subst hc; decide)
    ⟨_, rfl, rfl⟩ sample_forwards sampleOps hops).trans (by decide +kernel)

/-- the hypotheses of the shortcut, while Control is held -/
example :
    let r := Combiner.after { contexts := [sampleContext] } [.contexts [0], .input ⟨Key.ControlLeft, .Down, 0⟩ 0]
    Key.KeyA ∉ r.held ∧ Key.KeyD ∉ r.held ∧
    r.meaning 0 Key.KeyA = some (.output ([Key.ControlLeft].map (fun m => ⟨m, .Not, 0⟩) ++ [⟨Key.KeyX, .Down, 0⟩])) ∧ r.meaning 0 Key.KeyD = none ∧
    (∀ h ∈ r.holds, h.lifted = false ∧ h.key ≠ Key.KeyX ∧ h.key ≠ Key.KeyD) ∧ r.holds ≠ [] := by decide +kernel

/-- `A >> !Any X` -/
private def anyContext : Context where
  inputs := [⟨singleKey Key.KeyA, 0⟩]
  outputs := [[⟨Key.any, .Not, 0⟩, ⟨Key.KeyX, .Down, 0⟩]]

example : (parseConfig { typer := genericTyper, validRegex := fun _ => true, files := fun _ => none } "A >> !Any X".toList).map
    (fun c => c.contexts.map (fun x => (x.inputs, x.outputs))) = some [(anyContext.inputs, anyContext.outputs)] := by decide +kernel

/-- Control, Shift and B are held, then A is pressed and released, then D is pressed. -/
example : stageOutputs (stageInit [anyContext]) ([.contexts [0], .input ⟨Key.ControlLeft, .Down, 0⟩ 0, .input ⟨Key.ShiftLeft, .Down, 0⟩ 0, .input ⟨Key.KeyB, .Down, 0⟩ 1] ++
      [.input ⟨Key.KeyA, .Down, 0⟩ 0, .input ⟨Key.KeyA, .Up, 0⟩ 0, .input ⟨Key.KeyD, .Down, 0⟩ 0]) =
    [[], [⟨Key.ControlLeft, .Down, 0⟩], [⟨Key.ShiftLeft, .Down, 0⟩], [⟨Key.KeyB, .Down, 0⟩],
      [⟨Key.ControlLeft, .Up, 0⟩, ⟨Key.ShiftLeft, .Up, 0⟩, ⟨Key.KeyB, .Up, 0⟩, ⟨Key.KeyX, .Down, 0⟩], [⟨Key.KeyX, .Up, 0⟩],
      [⟨Key.ControlLeft, .Down, 0⟩, ⟨Key.ShiftLeft, .Down, 0⟩, ⟨Key.KeyB, .Down, 0⟩, ⟨Key.KeyD, .Down, 0⟩]] := by
  have hc : anyContext.OnlyCombines := by
    refine ⟨?_, by intro o ho; simp only [anyContext, List.mem_singleton] at ho; subst ho; exact ⟨by decide, by decide⟩, by simp [anyContext]⟩
    intro m hm
    simp only [anyContext, List.mem_singleton] at hm
    subst hm
    exact ⟨[], [Key.KeyA], [Key.KeyA], rfl, by decide, by decide, by decide,
      by simp only [List.mem_singleton, forall_eq]; exact ⟨by unfold Replaceable; decide, by simp⟩, by simp⟩
  have hr : Replaceable Key.ControlLeft ∧ Replaceable Key.ShiftLeft ∧ Replaceable Key.KeyA ∧ Replaceable Key.KeyB ∧ Replaceable Key.KeyD := by unfold Replaceable; decide
  rw [C83_lift_all [anyContext] (by simpa using hc) (by intro ctx hc; rw [List.mem_singleton] at hc; subst hc; decide) (.inr ⟨_, rfl, rfl⟩)
    [.contexts [0], .input ⟨Key.ControlLeft, .Down, 0⟩ 0, .input ⟨Key.ShiftLeft, .Down, 0⟩ 0, .input ⟨Key.KeyB, .Down, 0⟩ 1]
    ⟨⟨⟨by simp, by simp⟩, trivial⟩, ⟨⟨.inl rfl, hr.1, by decide, by decide⟩, rfl, fun _ _ _ => by decide +kernel⟩,
      ⟨⟨.inl rfl, hr.2.1, by decide, by decide⟩, rfl, fun _ _ _ => by decide +kernel⟩,
      ⟨⟨.inl rfl, hr.2.2.2.1, by decide, by decide⟩, rfl, fun _ _ _ => by decide +kernel⟩, trivial⟩
    (k := Key.KeyA) (x := Key.KeyX) (y := Key.KeyD) (dev := 0) (by unfold ValidDevice; decide) hr.2.2.1 hr.2.2.2.2 (by decide) (by decide +kernel) (by decide +kernel) (by decide +kernel) (by decide +kernel) (by decide +kernel) (by decide +kernel)]
  decide +kernel

end CombinationExample

end KM
