import Verif.Props.Contexts
import Verif.Lemmas.StageInv
/-!
# Looking up a mapping (C08)
-/
namespace KM

theorem allBits (i : Nat) (hi : i < 64) : allDeviceBits.getLsbD i = true := by
  unfold allDeviceBits
  rw [BitVec.getLsbD_allOnes]; simpa using hi

theorem deviceMatchesFilter_iff (ctx : Context) (dev : Int) (h : -2 ≤ dev) :
    deviceMatchesFilter ctx dev = true ↔ AcceptsDevice ctx dev := by
  unfold deviceMatchesFilter AcceptsDevice
  by_cases h1 : dev = anyDeviceIndex
  · simp [h1]
  · by_cases h2 : dev = noDeviceIndex
    · simp only [h2, true_and]
      have e1 : ¬ (noDeviceIndex = anyDeviceIndex) := by decide
      have e2 : ¬ (0 ≤ noDeviceIndex) := by decide
      simp only [beq_iff_eq, e1, e2, if_true, if_false, false_or, false_and, or_false]
      constructor
      · intro h i hi; rw [h]; exact allBits i hi
      · intro h
        apply BitVec.eq_of_getLsbD_eq
        intro i hi
        rw [h i hi]; exact (allBits i hi).symm
    · have h3 : 0 ≤ dev := by
        unfold anyDeviceIndex at h1; unfold noDeviceIndex at h2; omega
      simp [h1, h2, h3]

private theorem candidates_split {cs : List Context} {active : List Nat} {dev : Int} {pre post}
    {x : Nat × Context × Input} (hd : -2 ≤ dev) (h : candidates cs active dev = pre ++ x :: post) :
    ∃ n j : Nat, active[n]? = some x.1 ∧ cs[x.1]? = some x.2.1 ∧ AcceptsDevice x.2.1 dev ∧
      x.2.1.inputs[j]? = some x.2.2 ∧
      ∀ (n' j' ci : Nat) ctx m, active[n']? = some ci → cs[ci]? = some ctx → AcceptsDevice ctx dev →
        ctx.inputs[j']? = some m → (n' < n ∨ (n' = n ∧ j' < j)) → (ci, ctx, m) ∈ pre := by
  induction active generalizing pre with
  | nil => simp [candidates] at h
  | cons a as ih =>
    have hc : candidates cs (a :: as) dev = (match cs[a]? with
      | none => []
      | some ctx => if deviceMatchesFilter ctx dev then ctx.inputs.map (fun inp => (a, ctx, inp)) else []) ++
        candidates cs as dev := by unfold candidates; rw [List.flatMap_cons]; rfl
    rw [hc] at h
    generalize hL : (match cs[a]? with
      | none => []
      | some ctx => if deviceMatchesFilter ctx dev then ctx.inputs.map (fun inp => (a, ctx, inp)) else []) = L at h
    have hmemL : ∀ ctx m, cs[a]? = some ctx → AcceptsDevice ctx dev → m ∈ ctx.inputs → (a, ctx, m) ∈ L := by
      intro ctx m h1 h2 h3
      subst hL
      rw [h1]
      simp only []
      rw [if_pos ((deviceMatchesFilter_iff ctx dev hd).2 h2)]
      exact List.mem_map.2 ⟨m, h3, rfl⟩
    rcases List.append_eq_append_iff.1 h with ⟨z, hz1, hz2⟩ | ⟨z, hz1, hz2⟩
    · -- the element is in the rest
      obtain ⟨n, j, h1, h2, h3, h4, h5⟩ := ih hz2
      refine ⟨n + 1, j, by simpa using h1, h2, h3, h4, ?_⟩
      intro n' j' ci ctx m g1 g2 g3 g4 g5
      rw [hz1]
      cases n' with
      | zero =>
        simp only [List.getElem?_cons_zero, Option.some.injEq] at g1
        subst g1
        exact List.mem_append_left _ (hmemL ctx m g2 g3 (List.mem_of_getElem? g4))
      | succ n' =>
        exact List.mem_append_right _ (h5 n' j' ci ctx m (by simpa using g1) g2 g3 g4 (by omega))
    · cases z with
      | nil =>
        simp only [List.append_nil, List.nil_append] at hz1 hz2
        obtain ⟨n, j, h1, h2, h3, h4, h5⟩ := ih (pre := []) (by simpa using hz2.symm)
        refine ⟨n + 1, j, by simpa using h1, h2, h3, h4, ?_⟩
        intro n' j' ci ctx m g1 g2 g3 g4 g5
        cases n' with
        | zero =>
          simp only [List.getElem?_cons_zero, Option.some.injEq] at g1
          subst g1
          rw [← hz1]
          exact hmemL ctx m g2 g3 (List.mem_of_getElem? g4)
        | succ n' =>
          have := h5 n' j' ci ctx m (by simpa using g1) g2 g3 g4 (by omega)
          simp at this
      | cons y z =>
        simp only [List.cons_append, List.cons.injEq] at hz2
        obtain ⟨rfl, hz2⟩ := hz2
        -- the element is in the mappings of the first context
        cases hca : cs[a]? with
        | none => rw [hca] at hL; simp only [] at hL; rw [← hL] at hz1; simp at hz1
        | some ctx0 =>
          rw [hca] at hL
          simp only [] at hL
          split at hL
          · next hacc =>
            have hlen : pre.length < ctx0.inputs.length := by
              have := congrArg List.length (hL.trans hz1)
              simp at this; omega
            have hx : (a, ctx0, ctx0.inputs[pre.length]) = x := by
              have h1 : L[pre.length]? = some x := by rw [hz1]; simp
              rw [← hL, List.getElem?_map, List.getElem?_eq_getElem hlen] at h1
              simpa using h1
            subst hx
            refine ⟨0, pre.length, by simp, hca, (deviceMatchesFilter_iff _ _ hd).1 hacc,
              List.getElem?_eq_getElem hlen, ?_⟩
            intro n' j' ci ctx m g1 g2 g3 g4 g5
            have hn : n' = 0 := by omega
            subst hn
            simp only [List.getElem?_cons_zero, Option.some.injEq] at g1
            subst g1
            rw [hca] at g2
            simp only [Option.some.injEq] at g2
            subst g2
            have hj : j' < pre.length := by omega
            have h1 : L[j']? = some (a, ctx0, m) := by
              rw [← hL, List.getElem?_map, g4]; rfl
            rw [hz1, List.getElem?_append_left hj] at h1
            exact List.mem_of_getElem? h1
          · rw [← hL] at hz1; simp at hz1

/-- A mapping which neither matches (with an output) nor may still match. -/
def Passed (cs : List Context) (first : Bool) (active : List Nat) (history sequence : KeySequence) (dev : Int)
    (ci : Nat) (m : Input) : Prop :=
  ¬ Waits first sequence m ∧ ∀ out, ¬ Uses cs first active history sequence dev ci m out

private theorem considered_iff (first : Bool) (history : KeySequence) (dev : Int) (input : KeySequence) :
    (isNoMightMatch input && (!first || history.isEmpty || dev == anyDeviceIndex)) = false ↔
      Considered first history dev input := by
  unfold Considered
  cases isNoMightMatch input <;> cases first <;> cases history <;> simp

private theorem findOutput_some {contexts c} (h : CfgOf contexts c) {active ci ctx idx ref out u}
    (hv : ∀ i ∈ active, ∃ j, FallsTo contexts i j) (hctx : c.contexts[ci]? = some ctx)
    (hf : findOutput c.contexts active ci ctx idx = (some (ref, out), u)) : OutputFor contexts active ci idx out := by
  unfold findOutput at hf
  split at hf
  · next hidx =>
    left
    split at hf
    · next o ho =>
      simp only [Prod.mk.injEq, Option.some.injEq] at hf
      obtain ⟨⟨_, rfl⟩, _⟩ := hf
      have hlt : ci < contexts.length := h.length ▸ (List.getElem?_eq_some_iff.1 hctx).1
      obtain ⟨ctx', h1, _, _, h2, _⟩ := h.get ci contexts[ci] (List.getElem?_eq_getElem hlt)
      rw [hctx] at h1
      simp only [Option.some.injEq] at h1
      subst h1
      exact ⟨hidx, _, List.getElem?_eq_getElem hlt, h2 ▸ ho⟩
    · simp at hf
  · next hidx =>
    right
    refine ⟨by omega, ?_⟩
    rcases findCommandOutput_spec h idx active.reverse (by simpa using hv) with ⟨ref', out', before, i, after, h1, h2, h3, h4⟩ | ⟨h1, h2⟩
    · rw [h1] at hf
      simp only [Prod.mk.injEq, Option.some.injEq] at hf
      obtain ⟨⟨_, rfl⟩, _⟩ := hf
      refine ⟨after.reverse, i, before.reverse, ?_, h3, ?_⟩
      · have := congrArg List.reverse h2
        simpa using this
      · intro j hj; exact h4 j (by simpa using hj)
    · rw [h1] at hf; simp at hf

private theorem findOutput_none {contexts c} (h : CfgOf contexts c) {active ci ctx idx u}
    (hv : ∀ i ∈ active, ∃ j, FallsTo contexts i j) (hctx : c.contexts[ci]? = some ctx)
    (hf : findOutput c.contexts active ci ctx idx = (none, u)) : ∀ out, ¬ OutputFor contexts active ci idx out := by
  intro out ho
  unfold findOutput at hf
  split at hf
  · next hidx =>
    split at hf
    · simp at hf
    · next hnone =>
      rcases ho with ⟨_, ctx', h1, h2⟩ | ⟨hneg, _⟩
      · obtain ⟨ctx'', h3, _, _, h4, _⟩ := h.get ci ctx' h1
        rw [hctx] at h3
        simp only [Option.some.injEq] at h3
        subst h3
        rw [h4, h2] at hnone
        simp at hnone
      · omega
  · next hidx =>
    rcases ho with ⟨h0, _⟩ | ⟨_, b, i, a, h1, h2, h3⟩
    · omega
    · rcases findCommandOutput_spec h idx active.reverse (by simpa using hv) with ⟨ref', out', before, i, after, h4, _⟩ | ⟨h4, h5⟩
      · rw [h4] at hf; simp at hf
      · exact h5 i (by simp [h1]) _ h2

private def GoResult (contexts : List Context) (active : List Nat) (first : Bool) (history sequence : KeySequence)
    (dev : Int) (l : List (Nat × Context × Input)) : MIR → Prop
  | .matched _ out trig ci => ∃ pre x post, l = pre ++ x :: post ∧ x.1 = ci ∧ trig = x.2.2.input ∧
      Uses contexts first active history sequence dev ci x.2.2 out ∧
      ∀ y ∈ pre, Passed contexts first active history sequence dev y.1 y.2.2
  | .might => ∃ pre x post, l = pre ++ x :: post ∧ Waits first sequence x.2.2 ∧
      ∀ y ∈ pre, Passed contexts first active history sequence dev y.1 y.2.2
  | .noMatch => ∀ y ∈ l, Passed contexts first active history sequence dev y.1 y.2.2

private theorem matchGo_spec {contexts c} (h : CfgOf contexts c) {active : List Nat}
    (hv : ∀ i ∈ active, ∃ j, FallsTo contexts i j) (first : Bool) (history sequence : KeySequence) (dev : Int) (u : Bool)
    (l : List (Nat × Context × Input)) (hl : ∀ x ∈ l, c.contexts[x.1]? = some x.2.1) (s : S)
    (hs : s.history = history) (ha : s.active = active) :
    GoResult contexts active first history sequence dev l (matchGo c first sequence dev u l s).2 := by
  induction l generalizing s with
  | nil => simp [matchGo, GoResult]
  | cons x rest ih =>
    obtain ⟨ci, ctx, inp⟩ := x
    have hctx : c.contexts[ci]? = some ctx := hl (ci, ctx, inp) (by simp)
    -- when the mapping is passed, continue with the rest
    have cont : ∀ s' : S, s'.history = history → s'.active = active →
        Passed contexts first active history sequence dev ci inp →
        GoResult contexts active first history sequence dev ((ci, ctx, inp) :: rest)
          (matchGo c first sequence dev u rest s').2 := by
      intro s' h1 h2 hp
      have := ih (fun x hx => hl x (by simp [hx])) s' h1 h2
      revert this
      generalize (matchGo c first sequence dev u rest s').2 = r
      cases r with
      | noMatch =>
        intro this y hy
        rcases List.mem_cons.1 hy with rfl | hy
        · exact hp
        · exact this y hy
      | might =>
        rintro ⟨pre, x, post, g1, g2, g3⟩
        refine ⟨(ci, ctx, inp) :: pre, x, post, by rw [g1]; rfl, g2, ?_⟩
        intro y hy
        rcases List.mem_cons.1 hy with rfl | hy
        · exact hp
        · exact g3 y hy
      | matched ref out trig ci' =>
        rintro ⟨pre, x, post, g1, g2, g3, g4, g5⟩
        refine ⟨(ci, ctx, inp) :: pre, x, post, by rw [g1]; rfl, g2, g3, g4, ?_⟩
        intro y hy
        rcases List.mem_cons.1 hy with rfl | hy
        · exact hp
        · exact g5 y hy
    unfold matchGo
    simp only [hs]
    split
    · next hskip =>
      refine cont s hs ha ⟨?_, ?_⟩
      · rintro ⟨_, hn, _⟩
        rw [hn] at hskip; simp at hskip
      · rintro out ⟨hcon, _⟩
        rw [(considered_iff _ _ _ _).2 hcon] at hskip
        simp at hskip
    · next hskip =>
      have hcon : Considered first history dev inp.input := (considered_iff _ _ _ _).1 (by simpa using hskip)
      have hlook : matchTarget inp.input history sequence = LookedUp history sequence inp.input := rfl
      generalize hr : matchSeq inp.input (matchTarget inp.input history sequence) = r
      rw [hlook] at hr
      split
      · next hm =>
        simp only [Bool.and_eq_true, Bool.not_eq_true', beq_iff_eq] at hm
        have hw : Waits first sequence inp := by
          refine ⟨hm.1.1, hm.1.2, ?_⟩
          rw [← hm.2, ← hr]; simp [LookedUp, hm.1.2]
        split
        · exact ⟨[], _, rest, rfl, hw, by simp⟩
        · exact ⟨[], _, rest, rfl, hw, by simp⟩
      · next hm =>
        have hw : ¬ Waits first sequence inp := by
          rintro ⟨w1, w2, w3⟩
          apply hm
          have : r.res = .might_match := by rw [← hr]; simpa [LookedUp, w2] using w3
          simp [w1, w2, this]
        split
        · next hmat =>
          simp only [beq_iff_eq] at hmat
          simp only [ha]
          split
          · next ref out u' hf =>
            exact ⟨[], _, rest, rfl, rfl, rfl, ⟨hcon, by rw [hr]; exact hmat, findOutput_some h hv hctx hf⟩, by simp⟩
          · next u' hf =>
            refine cont _ rfl rfl ⟨hw, ?_⟩
            rintro out ⟨_, _, ho⟩
            exact findOutput_none h hv hctx hf out ho
        · next hmat =>
          refine cont _ rfl ha ⟨hw, ?_⟩
          rintro out ⟨_, hm', _⟩
          rw [hr] at hm'
          simp [hm'] at hmat

/-- **C08** The first mapping decides. When a pending sequence of a device is looked up, in any state
reached by a valid history:
* if the result is a match, then it is the match of a mapping of an active context which accepts the
  device, its output is the one the mapping refers to, and all mappings before neither match nor may
  still match;
* if the result is that it may still match, the same holds for a mapping which may still match;
* otherwise none of the mappings of the active contexts accepting the device matches or may match. -/
theorem C08_first_mapping_decides (contexts : List Context) (hl : LastStops contexts) (ops : List StageOp)
    (hops : ∀ op ∈ ops, op.isValid contexts.length) (first : Bool) (sequence : KeySequence)
    (dev : Int) (hdev : -2 ≤ dev) (isKeyUp : Bool) :
    let st := (stageRun (stageInit contexts) ops).1
    let passed := Passed contexts first st.2.active st.2.history sequence dev
    match (matchInput st.1 st.2 first sequence dev isKeyUp).2 with
    | .matched _ out input ci => ∃ n j ctx m, st.2.active[n]? = some ci ∧ st.1.contexts[ci]? = some ctx ∧
        AcceptsDevice ctx dev ∧ ctx.inputs[j]? = some m ∧ input = m.input ∧
        Uses contexts first st.2.active st.2.history sequence dev ci m out ∧
        AllBefore st.1.contexts st.2.active dev n j passed
    | .might => ∃ n j ci ctx m, st.2.active[n]? = some ci ∧ st.1.contexts[ci]? = some ctx ∧
        AcceptsDevice ctx dev ∧ ctx.inputs[j]? = some m ∧ Waits first sequence m ∧
        AllBefore st.1.contexts st.2.active dev n j passed
    | .noMatch => ∀ n, ∀ j, AllBefore st.1.contexts st.2.active dev n j passed := by
  intro st passed
  have hc : CfgOf contexts st.1 := (cfgOf_make contexts).run ops
  have hact := C11_active_contexts_valid contexts hl ops hops
  have hv : ∀ i ∈ st.2.active, ∃ j, FallsTo contexts i j := by
    intro i hi
    obtain ⟨ctx, h1, _⟩ := hact.2 i hi
    exact fallsTo_exists hl (List.getElem?_eq_some_iff.1 h1).1
  have hgo := matchGo_spec hc hv first st.2.history sequence dev isKeyUp
    (candidates st.1.contexts st.2.active dev) (fun x hx => (candidates_mem hx).2.1)
    { st.2 with ub := st.2.ub || ((!st.2.active.isEmpty && (decide (64 ≤ dev) || decide (dev < -2))) ||
      st.2.active.any (fun i => decide (st.1.contexts.length ≤ i))) } rfl rfl
  unfold matchInput
  simp only []
  revert hgo
  generalize (matchGo st.1 first sequence dev isKeyUp (candidates st.1.contexts st.2.active dev) _).2 = r
  cases r with
  | noMatch =>
    intro hgo n j n' j' ci ctx m g1 g2 g3 g4 _
    have : (ci, ctx, m) ∈ candidates st.1.contexts st.2.active dev := by
      unfold candidates
      rw [List.mem_flatMap]
      refine ⟨ci, List.mem_of_getElem? g1, ?_⟩
      rw [g2]
      simp only []
      rw [if_pos ((deviceMatchesFilter_iff _ _ hdev).2 g3)]
      exact List.mem_map.2 ⟨m, List.mem_of_getElem? g4, rfl⟩
    exact hgo _ this
  | might =>
    rintro ⟨pre, x, post, g1, g2, g3⟩
    obtain ⟨n, j, k1, k2, k3, k4, k5⟩ := candidates_split hdev g1
    refine ⟨n, j, x.1, x.2.1, x.2.2, k1, k2, k3, k4, g2, ?_⟩
    intro n' j' ci ctx m h1 h2 h3 h4 h5
    exact g3 _ (k5 n' j' ci ctx m h1 h2 h3 h4 h5)
  | matched ref out trig ci =>
    rintro ⟨pre, x, post, g1, g2, g3, g4, g5⟩
    obtain ⟨n, j, k1, k2, k3, k4, k5⟩ := candidates_split hdev g1
    subst g2
    refine ⟨n, j, x.2.1, x.2.2, k1, k2, k3, k4, g3, g4, ?_⟩
    intro n' j' ci ctx m h1 h2 h3 h4 h5
    exact g5 _ (k5 n' j' ci ctx m h1 h2 h3 h4 h5)

/-! ### Concrete cases -/

private def d (k : Key) : KeyEvent := ⟨k, .Down, 0⟩
private def tilde (k : Key) : KeyEvent := ⟨k, .UpAsync, 0⟩

/-- three contexts which all map `A`, the first one only for device 1; the last one is not active -/
private def sample : List Context :=
  [{ inputs := [⟨[d Key.KeyA, tilde Key.KeyA], 0⟩], outputs := [[d Key.KeyX]], matchingDeviceBits := 2 },
   { inputs := [⟨[d Key.KeyB, tilde Key.KeyB], 0⟩, ⟨[d Key.KeyA, tilde Key.KeyA], 1⟩, ⟨[d Key.KeyC, d Key.KeyD, tilde Key.KeyC], 0⟩],
     outputs := [[d Key.KeyY], [d Key.KeyZ]] },
   { inputs := [⟨[d Key.KeyA, tilde Key.KeyA], 0⟩], outputs := [[d Key.KeyW]] }]

private def result (dev : Int) (seq : KeySequence) : MIR :=
  let st := (stageRun (stageInit sample) [.contexts [0, 1]]).1
  (matchInput st.1 st.2 true seq dev false).2

-- all three results occur
example : result 0 [d Key.KeyA] = .matched ⟨1, false, 1⟩ [d Key.KeyZ] [d Key.KeyA, tilde Key.KeyA] 1 := by decide +kernel
example : result 1 [d Key.KeyA] = .matched ⟨0, false, 0⟩ [d Key.KeyX] [d Key.KeyA, tilde Key.KeyA] 0 := by decide +kernel
example : result 0 [d Key.KeyC] = .might := by decide +kernel
example : result 0 [d Key.KeyW] = .noMatch := by decide +kernel
example : LastStops sample ∧ ∀ op ∈ [StageOp.contexts [0, 1]], op.isValid sample.length := by
  refine ⟨⟨_, rfl, rfl⟩, ?_⟩
  intro op hop
  simp only [List.mem_singleton] at hop
  subst hop
  simp [StageOp.isValid, sample]

end KM
