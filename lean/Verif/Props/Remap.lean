import Verif.Lemmas.RemapStep
/-!
# C70: a configuration which replaces keys replaces them
-/
namespace KM

theorem RInv.step {c s r} (h : RInv c s r) {op : StageOp} (hop : op.isRemap r.contexts.length) :
    RInv (stageStep (c, s) op).1.1 (stageStep (c, s) op).1.2 (r.step op).1 ∧ (stageStep (c, s) op).2 = (r.step op).2 := by
  cases op with
  | input ev dev =>
    obtain ⟨hd | hd, hx, _⟩ := hop
    · exact h.press dev hd hx
    · exact h.release dev hd hx
  | contexts l =>
    obtain ⟨h1, h2⟩ := hop
    have hs : ∃ act b, setActiveClientContexts c s l = ({ s with activeClient := l, active := act, ub := b }, []) := by
      unfold setActiveClientContexts
      simp only []
      generalize hq : (if (decide (l.Pairwise (· ≤ ·)) && l.all (fun i => decide (i < c.contexts.length))) = true
        then s else { s with ub := true }) = s1
      have hs1 : ∃ b, s1 = { s with ub := b } := by
        rw [← hq]; split
        · exact ⟨s.ub, rfl⟩
        · exact ⟨true, rfl⟩
      obtain ⟨b, hs1⟩ := hs1
      subst hs1
      obtain ⟨act, b', _, he⟩ := updateActiveContexts_harmless h.harmless { s with ub := b, activeClient := l }
        (fun _ _ => trivial) (fun _ _ _ _ => trivial)
      rw [he]
      refine ⟨act, b', ?_⟩
      unfold cancelInactiveOnRelease
      simp only [h.onRel, h.buf, List.filter_nil]
    obtain ⟨act, b, hs⟩ := hs
    show RInv c (setActiveClientContexts c s l).1 { r with client := l } ∧ (setActiveClientContexts c s l).2 = []
    rw [hs]
    exact ⟨{ h with client := rfl, clientSorted := h1, clientLt := h2 }, rfl⟩
  | devices rx ds =>
    refine ⟨?_, rfl⟩
    show RInv (c.evaluateDeviceFilters rx ds) s { r with contexts := (Cfg.evaluateDeviceFilters rx { contexts := r.contexts } ds).contexts }
    have hlen : (Cfg.evaluateDeviceFilters rx { contexts := r.contexts } ds).contexts.length = r.contexts.length := by
      simp [Cfg.evaluateDeviceFilters]
    have hmem : ∀ ctx ∈ (Cfg.evaluateDeviceFilters rx { contexts := r.contexts } ds).contexts, ∃ ctx0 ∈ r.contexts,
        ctx.inputs = ctx0.inputs ∧ ctx.outputs = ctx0.outputs ∧ ctx.commandOutputs = ctx0.commandOutputs := by
      intro ctx hc
      obtain ⟨c0, h1, h2⟩ := List.mem_map.1 hc
      exact ⟨c0, h1, by rw [← h2], by rw [← h2], by rw [← h2]⟩
    exact { h with
      ctxs := evaluate_sorted rx c r.contexts h.ctxs ds
      repl := by
        intro ctx hc
        obtain ⟨c0, h1, h2, h3, h4⟩ := hmem ctx hc
        have := h.repl c0 h1
        exact ⟨by rw [h2]; exact this.inputs, by rw [h3]; exact this.outputs, by rw [h4]; exact this.commands⟩
      uniq := by
        intro ctx hc
        obtain ⟨c0, h1, _, _, h4⟩ := hmem ctx hc
        rw [h4]; exact h.uniq c0 h1
      stops := by
        intro i hi
        simp only [hlen] at hi
        obtain ⟨j, hj⟩ := h.stops i hi
        refine ⟨j, hj.1, ?_, ?_⟩
        · intro m h1 h2
          obtain ⟨c0, h3, h4⟩ := hj.2.1 m h1 h2
          exact ⟨{ c0 with matchingDeviceBits := if c0.hasDeviceFilter then deviceBits rx c0 ds 0 1 else allDeviceBits },
            by simp [Cfg.evaluateDeviceFilters, h3], h4⟩
        · obtain ⟨c0, h3, h4⟩ := hj.2.2
          exact ⟨{ c0 with matchingDeviceBits := if c0.hasDeviceFilter then deviceBits rx c0 ds 0 1 else allDeviceBits },
            by simp [Cfg.evaluateDeviceFilters, h3], h4⟩
      clientLt := by
        intro i hi
        simp only [hlen]
        exact h.clientLt i hi }
  | validate f => exact hop.elim

theorem Remapper.step_length (r : Remapper) (op : StageOp) : (r.step op).1.contexts.length = r.contexts.length := by
  cases op with
  | input ev dev =>
    have hd : (r.device ev dev).contexts = r.contexts := by
      unfold Remapper.device
      repeat' split
      all_goals rfl
    unfold Remapper.step
    simp only []
    repeat' split
    all_goals first
      | rfl
      | (simp only [Remapper.press, Remapper.release, hd])
  | devices rx ds => simp [Remapper.step, Cfg.evaluateDeviceFilters]
  | _ => rfl

private theorem RInv.run {c s r} (h : RInv c s r) (ops : List StageOp) (hops : ∀ op ∈ ops, op.isRemap r.contexts.length) :
    (stageRun (c, s) ops).2 = (r.run ops).2 := by
  induction ops generalizing c s r with
  | nil => rfl
  | cons op ops ih =>
    obtain ⟨h1, h2⟩ := h.step (hops op (by simp))
    have := ih h1 (by
      intro o ho
      rw [Remapper.step_length]
      exact hops o (by simp [ho]))
    show (stageStep (c, s) op).2 ++ (stageRun (stageStep (c, s) op).1 ops).2 = (r.step op).2 ++ ((r.step op).1.run ops).2
    rw [h2]
    congr 1

/-- the beginning -/
theorem rinv_init (contexts : List Context) (hr : ∀ ctx ∈ contexts, ctx.OnlyReplaces) (hu : CommandsUnique contexts)
    (hs : contexts = [] ∨ LastStops contexts) : RInv (stageInit contexts).1 (stageInit contexts).2 { contexts := contexts } :=
  { ctxs := rfl
    nmm := by
      show ctxsHaveNoMightMatch (contexts.map _) = false
      unfold ctxsHaveNoMightMatch
      rw [List.any_eq_false]
      intro ctx hc
      obtain ⟨c0, h1, h2⟩ := List.mem_map.1 hc
      subst h2
      rw [Bool.not_eq_true, List.any_eq_false]
      intro m hm
      obtain ⟨k, _, hi⟩ := (hr c0 h1).inputs m hm
      rw [hi]; simp [isNoMightMatch, singleKey]
    repl := hr
    uniq := hu
    stops := by
      intro i hi
      rcases hs with hs | hs
      · simp only [hs, List.length_nil] at hi; omega
      · exact fallsTo_exists hs hi
    client := rfl
    clientSorted := List.Pairwise.nil
    clientLt := by intro i hi; cases hi
    might := rfl
    timeout := rfl
    onRel := rfl
    buf := rfl
    reapplied := rfl
    hist := rfl
    seq := by intro e he; cases he
    held := rfl
    nodup := List.nodup_nil
    down := rfl
    tr := by intro e he; cases he
    lp := rfl
    lr := rfl }

/-- **C70 (refinement)** When all mappings replace a single key by keys, a stage outputs exactly what the specification says: a
key with a mapping in a context in use is replaced, the other keys are forwarded, and what a key pressed is released with it;
for all histories of presses, repeats and releases on any devices, changes of the active contexts and of the devices. -/
theorem C70_refines (contexts : List Context) (hr : ∀ ctx ∈ contexts, ctx.OnlyReplaces) (hu : CommandsUnique contexts)
    (hs : contexts = [] ∨ LastStops contexts) (ops : List StageOp) (hops : ∀ op ∈ ops, op.isRemap contexts.length) :
    (stageRun (stageInit contexts) ops).2 = (Remapper.run { contexts := contexts } ops).2 :=
  RInv.run (rinv_init contexts hr hu hs) ops hops

/-- A configuration with a context which falls through (with a modifier), a mapping to several keys and a command with an output in a
second context: `A >> B C`-like outputs. -/
example :
    let contexts : List Context := [
      { inputs := [⟨singleKey Key.KeyA, 0⟩, ⟨singleKey Key.KeyB, -1⟩], outputs := [[⟨Key.KeyX, .Down, 0⟩, ⟨Key.KeyY, .Down, 0⟩]],
        commandOutputs := [⟨[⟨Key.KeyK, .Down, 0⟩], -1⟩] },
      { modifierFilter := [⟨Key.ShiftLeft, .Down, 0⟩], fallthrough := true },
      { commandOutputs := [⟨[⟨Key.KeyZ, .Down, 0⟩], -1⟩], modifierFilter := [⟨Key.ControlLeft, .Down, 0⟩] }]
    (∀ ctx ∈ contexts, ctx.OnlyReplaces) ∧ CommandsUnique contexts ∧ LastStops contexts ∧
    (Remapper.run { contexts := contexts } [.contexts [0, 1, 2],
      .input ⟨Key.KeyA, .Down, 0⟩ 0, .input ⟨Key.KeyB, .Down, 0⟩ 0, .input ⟨Key.KeyA, .Up, 0⟩ 0, .input ⟨Key.KeyB, .Up, 0⟩ 0,
      .input ⟨Key.ShiftLeft, .Down, 0⟩ 0, .input ⟨Key.KeyB, .Down, 0⟩ 0, .input ⟨Key.KeyB, .Down, 0⟩ 0, .input ⟨Key.KeyB, .Up, 0⟩ 0]).2 =
      [⟨Key.KeyX, .Down, 0⟩, ⟨Key.KeyY, .Down, 0⟩, ⟨Key.KeyK, .Down, 0⟩, ⟨Key.KeyY, .Up, 0⟩, ⟨Key.KeyX, .Up, 0⟩, ⟨Key.KeyK, .Up, 0⟩,
        ⟨Key.ShiftLeft, .Down, 0⟩, ⟨Key.KeyZ, .Down, 0⟩, ⟨Key.KeyZ, .Down, 0⟩, ⟨Key.KeyZ, .Up, 0⟩] := by
  intro contexts
  refine ⟨?_, ?_, ⟨_, rfl, rfl⟩, by decide +kernel⟩
  · intro ctx hc
    simp only [contexts, List.mem_cons, List.not_mem_nil, or_false] at hc
    rcases hc with rfl | rfl | rfl
    · refine ⟨?_, by unfold OnlyPresses; decide, by unfold OnlyPresses; decide⟩
      intro m hm
      simp only [List.mem_cons, List.not_mem_nil, or_false] at hm
      rcases hm with rfl | rfl
      · exact ⟨Key.KeyA, by unfold Replaceable; decide, rfl⟩
      · exact ⟨Key.KeyB, by unfold Replaceable; decide, rfl⟩
    · exact ⟨by simp, by simp, by simp⟩
    · exact ⟨by simp, by simp, by unfold OnlyPresses; decide⟩
  · intro ctx hc
    simp only [contexts, List.mem_cons, List.not_mem_nil, or_false] at hc
    rcases hc with rfl | rfl | rfl <;> decide

/-! ### Permutations of keys -/

theorem findSome_pairs (l : List (Key × Key)) (n : Nat) (outs : List KeySequence)
    (ho : ∀ i : Nat, outs[n + i]? = (l[i]?).map (fun p => [⟨p.2, .Down, 0⟩])) (k : Key) (cs inUse ctx) (hc : ctx.outputs = outs) :
    ((l.zipIdx n).map (fun p => (⟨singleKey p.1.1, (p.2 : Int)⟩ : Input))).findSome?
      (fun m => if m.input = singleKey k then mappingOutput cs inUse ctx m else none) =
    (l.lookup k).map (fun b => [⟨b, .Down, 0⟩]) := by
  induction l generalizing n with
  | nil => rfl
  | cons p l ih =>
    rw [List.zipIdx_cons, List.map_cons, List.findSome?_cons, List.lookup_cons]
    have ih := ih (n + 1) (by
      intro i
      have := ho (i + 1)
      rw [show n + 1 + i = n + (i + 1) by omega, this]
      simp)
    by_cases hk : p.1 = k
    · have h0 := ho 0
      simp only [Nat.add_zero, List.getElem?_cons_zero, Option.map_some] at h0
      have : (k == p.1) = true := by simpa using hk.symm
      rw [this]
      simp only [hk, if_true, mappingOutput, hc]
      rw [if_pos (by simp)]
      simp [h0]
    · have h1 : (k == p.1) = false := beq_eq_false_iff_ne.2 (fun h => hk h.symm)
      have h2 : ¬ singleKey p.1 = singleKey k := by
        intro h
        unfold singleKey at h
        simp only [List.cons.injEq, KeyEvent.mk.injEq, and_true] at h
        exact hk h.1
      rw [h1]
      simp only [if_neg h2]
      exact ih

private theorem replacement_pairs (pairs : List (Key × Key)) {dev : Int} (h1 : -2 ≤ dev) (h2 : dev < 64) (k : Key) :
    replacementFor [replaceContext pairs] [0] dev k = (pairs.lookup k).map (fun b => [⟨b, .Down, 0⟩]) := by
  have hacc : acceptsDevice (replaceContext pairs) dev = true := by
    unfold acceptsDevice
    split
    · rfl
    · next h3 =>
      split
      · rfl
      · next h4 =>
        show (BitVec.allOnes 64).getLsbD dev.toNat = true
        rw [BitVec.getLsbD_allOnes]
        simp only [anyDeviceIndex, noDeviceIndex] at h3 h4
        simp only [decide_eq_true_eq]
        omega
  unfold replacementFor
  rw [List.findSome?_cons, List.findSome?_nil]
  simp only [List.getElem?_cons_zero, Option.bind_some, hacc, if_true]
  have hfs : (replaceContext pairs).inputs.findSome? (fun m =>
      if m.input = singleKey k then mappingOutput [replaceContext pairs] [0] (replaceContext pairs) m else none) = _ :=
    findSome_pairs pairs 0 (replaceContext pairs).outputs (by
      intro i
      simp [replaceContext]) k [replaceContext pairs] [0] (replaceContext pairs) rfl
  rw [hfs]
  cases pairs.lookup k <;> rfl

private structure Perm (pairs : List (Key × Key)) (held : List Key) (r : Remapper) : Prop where
  ctxs : r.contexts = [replaceContext pairs]
  client : r.client = [0]
  heldEq : r.held = held
  outs : r.outs = held.map (fun k => (replacedBy pairs k, k))
  nodup : held.Nodup

private theorem perm_run (pairs : List (Key × Key))
    (hinj : ∀ a b, Replaceable a → Replaceable b → replacedBy pairs a = replacedBy pairs b → a = b)
    (evs : List (KeyEvent × Int)) (held : List Key) (hheld : ∀ k ∈ held, Replaceable k) (r : Remapper) (h : Perm pairs held r)
    (hd : ∀ p ∈ evs, Replaceable p.1.key ∧ isVirtualKey p.1.key = false ∧ p.1.value = 0 ∧ -2 ≤ p.2 ∧ p.2 < 64)
    (hr : pressedAndReleased held (evs.map (·.1))) :
    (r.run (evs.map (fun p => .input p.1 p.2))).2 = evs.map (fun p => { p.1 with key := replacedBy pairs p.1.key }) := by
  induction evs generalizing held r with
  | nil => rfl
  | cons p evs ih =>
    obtain ⟨ev, dev⟩ := p
    obtain ⟨hx, hv, hval, hdev1, hdev2⟩ := hd (ev, dev) (by simp)
    simp only at hx hv hval hdev1 hdev2
    have hd' := fun p hp => hd p (List.mem_cons_of_mem _ hp)
    obtain ⟨hst, hrest⟩ := hr
    simp only at hst hrest
    have hdevice : ∀ lp lr, Perm pairs held { r with lastPressed := lp, lastRepeat := lr } := fun lp lr =>
      ⟨h.ctxs, h.client, h.heldEq, h.outs, h.nodup⟩
    have hpd : Perm pairs held (r.device ev dev) := by
      unfold Remapper.device
      repeat' split
      all_goals first
        | exact h
        | exact ⟨h.ctxs, h.client, h.heldEq, h.outs, h.nodup⟩
    rw [List.map_cons, List.map_cons]
    show (r.step (.input ev dev)).2 ++ ((r.step (.input ev dev)).1.run _).2 = _
    rcases hst with ⟨hdn, hnot⟩ | ⟨hup, hin⟩
    · -- press
      have hig : r.ignores ev dev = false := by
        simp only [Remapper.ignores, h.heldEq, List.contains_eq_mem, hnot, decide_false, Bool.false_and]
      have hstep : r.step (.input ev dev) = (r.device ev dev).press ev dev := by
        simp only [Remapper.step, hdn, if_true, hig, Bool.false_eq_true, if_false]
      have hout : ((r.device ev dev).press ev dev).2 = [{ ev with key := replacedBy pairs ev.key }] := by
        unfold Remapper.press
        simp only [hpd.ctxs, hpd.client]
        rw [show contextsInUse [replaceContext pairs] [0] ((r.device ev dev).held.erase ev.key ++ [ev.key]) = [0] from rfl,
          replacement_pairs pairs hdev1 hdev2]
        cases hlk : pairs.lookup ev.key with
        | none =>
          simp only [Option.map_none, hv, Bool.false_eq_true, if_false, replacedBy, hlk, Option.getD_none]
        | some b =>
          simp only [Option.map_some, replacedBy, hlk, Option.getD_some]
          cases ev; simp only at hdn hval; subst hdn hval; rfl
      have hpress : Perm pairs (held ++ [ev.key]) ((r.device ev dev).press ev dev).1 := by
        have houts : ((r.device ev dev).press ev dev).1.outs = pressAll (r.device ev dev).outs ev.key ((r.device ev dev).press ev dev).2 := rfl
        refine ⟨hpd.ctxs, hpd.client, ?_, ?_, ?_⟩
        · show (r.device ev dev).held.erase ev.key ++ [ev.key] = _
          rw [hpd.heldEq, List.erase_of_not_mem hnot]
        · rw [houts, hout, hpd.outs]
          unfold pressAll
          rw [List.foldl_cons, List.foldl_nil]
          have : (held.map (fun k => (replacedBy pairs k, k))).any (fun o => o.1 == replacedBy pairs ev.key) = false := by
            rw [List.any_eq_false]
            intro o ho
            obtain ⟨k, hk, he⟩ := List.mem_map.1 ho
            subst he
            simp only [beq_iff_eq]
            intro h'
            have := hinj k ev.key (hheld k hk) hx h'
            subst this
            exact hnot hk
          simp only [this, Bool.false_eq_true, if_false, List.map_append, List.map_cons, List.map_nil]
        · rw [List.nodup_append]
          refine ⟨h.nodup, by simp, ?_⟩
          intro a ha b hb hab
          simp only [List.mem_singleton] at hb
          subst hb; subst hab; exact hnot ha
      rw [hstep, hout]
      rw [show (heldKeys held ev) = held ++ [ev.key] by simp [heldKeys, hdn]] at hrest
      have := ih (held ++ [ev.key]) (by
        intro k hk
        simp only [List.mem_append, List.mem_singleton] at hk
        rcases hk with hk | hk
        · exact hheld k hk
        · rw [hk]; exact hx) _ hpress hd' hrest
      rw [this]; rfl
    · -- release
      have hstep : r.step (.input ev dev) = (r.device ev dev).release ev.key := by
        simp only [Remapper.step, hup, reduceCtorEq, if_false]
      have hf : (held.map (fun k => (replacedBy pairs k, k))).filter (fun o => o.2 == ev.key) = [(replacedBy pairs ev.key, ev.key)] := by
        rw [List.filter_map]
        have : held.filter ((fun o : Key × Key => o.2 == ev.key) ∘ (fun k => (replacedBy pairs k, k))) = [ev.key] := by
          show held.filter (fun k => k == ev.key) = _
          have hnd := h.nodup
          clear hrest ih hpd hdevice h hheld
          induction held with
          | nil => simp at hin
          | cons k held ihh =>
            rw [List.nodup_cons] at hnd
            rw [List.filter_cons]
            by_cases hk : k = ev.key
            · subst hk
              simp only [beq_self_eq_true, if_true]
              congr 1
              rw [List.filter_eq_nil_iff]
              intro x hx' hh
              simp only [beq_iff_eq] at hh
              subst hh; exact hnd.1 hx'
            · have hb : (k == ev.key) = false := beq_eq_false_iff_ne.2 hk
              rw [hb]
              simp only [Bool.false_eq_true, if_false]
              exact ihh (by simpa [Ne.symm hk] using hin) hnd.2
        rw [this]; rfl
      have hout : ((r.device ev dev).release ev.key).2 = [{ ev with key := replacedBy pairs ev.key }] := by
        unfold Remapper.release
        simp only [hpd.outs, hf]
        cases ev; simp only at hup hval; subst hup hval; rfl
      have hrel : Perm pairs (held.erase ev.key) ((r.device ev dev).release ev.key).1 := by
        refine ⟨hpd.ctxs, hpd.client, ?_, ?_, h.nodup.erase _⟩
        · show (r.device ev dev).held.erase ev.key = _
          rw [hpd.heldEq]
        · show (r.device ev dev).outs.filter (fun o => o.2 != ev.key) = _
          rw [hpd.outs, List.filter_map, h.nodup.erase_eq_filter]
          rfl
      rw [hstep, hout]
      rw [show (heldKeys held ev) = held.erase ev.key by simp [heldKeys, hup]] at hrest
      have := ih (held.erase ev.key) (fun k hk => hheld k (List.mem_of_mem_erase hk)) _ hrel hd' hrest
      rw [this]; rfl

/-- **C70 (permutation)** When the keys are exchanged, that is no two keys are replaced with the same one, everything which is typed
appears with the keys exchanged, event by event. -/
theorem C70_exchange (pairs : List (Key × Key)) (hp : ∀ p ∈ pairs, Replaceable p.1 ∧ p.2 ≠ Key.any ∧ p.2 ≠ Key.timeout)
    (hinj : ∀ a b, Replaceable a → Replaceable b → replacedBy pairs a = replacedBy pairs b → a = b)
    (evs : List (KeyEvent × Int))
    (hd : ∀ p ∈ evs, Replaceable p.1.key ∧ isVirtualKey p.1.key = false ∧ p.1.value = 0 ∧ -2 ≤ p.2 ∧ p.2 < 64)
    (hr : pressedAndReleased [] (evs.map (·.1))) :
    (stageRun (stageInit [replaceContext pairs]) (.contexts [0] :: evs.map (fun p => .input p.1 p.2))).2 =
      evs.map (fun p => { p.1 with key := replacedBy pairs p.1.key }) := by
  have hst : ∀ evs : List (KeyEvent × Int), ∀ held, pressedAndReleased held (evs.map (·.1)) → ∀ p ∈ evs, p.1.state = .Down ∨ p.1.state = .Up := by
    intro evs
    induction evs with
    | nil => intro _ _ p hp; simp at hp
    | cons q evs ih =>
      intro held h p hp
      obtain ⟨h1, h2⟩ := h
      simp only [List.mem_cons] at hp
      rcases hp with hp | hp
      · subst hp; exact h1.imp And.left And.left
      · exact ih _ h2 p hp
  have href := C70_refines [replaceContext pairs] (by
      intro ctx hc
      simp only [List.mem_singleton] at hc
      subst hc
      refine ⟨?_, ?_, by intro o ho; cases ho⟩
      · intro m hm
        obtain ⟨p, h1, h2⟩ := List.mem_map.1 hm
        subst h2
        obtain ⟨a, b⟩ := p
        have := List.mem_zipIdx h1
        exact ⟨a.1, (hp a (by rw [this.2.2]; exact List.getElem_mem _)).1, rfl⟩
      · intro o ho
        obtain ⟨p, h1, h2⟩ := List.mem_map.1 ho
        subst h2
        intro e he
        simp only [List.mem_singleton] at he
        subst he
        exact ⟨rfl, (hp p h1).2⟩) (by
      intro ctx hc
      simp only [List.mem_singleton] at hc
      subst hc
      intro a ha; cases ha) (Or.inr ⟨replaceContext pairs, rfl, rfl⟩) (.contexts [0] :: evs.map (fun p => .input p.1 p.2)) (by
      intro op hop
      simp only [List.mem_cons, List.mem_map] at hop
      rcases hop with hop | ⟨p, hpm, hop⟩
      · subst hop; exact ⟨by simp, by simp⟩
      · subst hop
        have h1 := hd p hpm
        exact ⟨hst evs [] hr p hpm, h1.1, h1.2.2.2.1, h1.2.2.2.2⟩)
  rw [href]
  show (([] : KeySequence) ++ (Remapper.run { contexts := [replaceContext pairs], client := [0] } (evs.map (fun p => .input p.1 p.2))).2) = _
  rw [List.nil_append]
  exact perm_run pairs hinj evs [] (by simp) _ ⟨rfl, rfl, rfl, rfl, List.nodup_nil⟩ hd hr

/-- Exchanging two keys: `A >> B` and `B >> A`, the keys overlapping. -/
example :
    let pairs := [(Key.KeyA, Key.KeyB), (Key.KeyB, Key.KeyA)]
    (stageRun (stageInit [replaceContext pairs]) [.contexts [0], .input ⟨Key.KeyA, .Down, 0⟩ 0, .input ⟨Key.KeyC, .Down, 0⟩ 0,
      .input ⟨Key.KeyB, .Down, 0⟩ 1, .input ⟨Key.KeyA, .Up, 0⟩ 0, .input ⟨Key.KeyB, .Up, 0⟩ 1, .input ⟨Key.KeyC, .Up, 0⟩ 0]).2 =
    [⟨Key.KeyB, .Down, 0⟩, ⟨Key.KeyC, .Down, 0⟩, ⟨Key.KeyA, .Down, 0⟩, ⟨Key.KeyB, .Up, 0⟩, ⟨Key.KeyA, .Up, 0⟩, ⟨Key.KeyC, .Up, 0⟩] := by
  intro pairs
  refine C70_exchange pairs (by unfold Replaceable; decide) ?_
    [(⟨Key.KeyA, .Down, 0⟩, 0), (⟨Key.KeyC, .Down, 0⟩, 0), (⟨Key.KeyB, .Down, 0⟩, 1), (⟨Key.KeyA, .Up, 0⟩, 0), (⟨Key.KeyB, .Up, 0⟩, 1),
      (⟨Key.KeyC, .Up, 0⟩, 0)] (by unfold Replaceable; decide) ?_
  · intro a b _ _
    have : ∀ k, replacedBy pairs k = if k = Key.KeyA then Key.KeyB else if k = Key.KeyB then Key.KeyA else k := by
      intro k
      simp only [pairs, replacedBy, List.lookup_cons, List.lookup_nil]
      by_cases h1 : k = Key.KeyA
      · subst h1; rfl
      · have e1 : (k == Key.KeyA) = false := beq_eq_false_iff_ne.2 h1
        by_cases h2 : k = Key.KeyB
        · subst h2; rfl
        · have e2 : (k == Key.KeyB) = false := beq_eq_false_iff_ne.2 h2
          simp [e1, e2, h1, h2]
    rw [this, this]
    intro h
    have hab : Key.KeyA ≠ Key.KeyB := by decide
    split at h <;> split at h <;> (try split at h) <;> (try split at h) <;> simp_all
  · simp [pressedAndReleased, heldKeys]
    decide

end KM
