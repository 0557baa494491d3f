import Verif.Lemmas.LayerShortcuts
/-!
# C92: virtual keys as modifiers of mappings
-/
namespace KM

/-- **C92 (shortcuts).** The same for mappings which replace keys while others are held, as `Virtual1{A} >> B` and `!Virtual1 E >> F`: what the server does is what the specification of the combinations says, to which a virtual key is
a key which is held as long as it is on. -/
theorem C92_shortcuts (rx : Regex) (ctxs : List Context) {tapped : List Key} (hr : ∀ ctx ∈ ctxs, ctx.OnlyCombines) (hl : ∀ ctx ∈ ctxs, ctx.Switches tapped) (hu : CommandsUnique ctxs)
    (hs : LastStops ctxs) (hfw : ForwardsFirst ctxs) (hf : (Cfg.make ctxs).hasDeviceFilter = false) (ms : List Msg)
    (hm : ∀ m ∈ ms, (∃ l, m = .activeContexts l) ∨ ∃ v st, m = .setVirtualKeyState v st ∧ isVirtualKey v = true)
    (ds : List DeviceDesc) (its : List Iteration) (hi : ∀ it ∈ its, it.Layered true) {ops : List LayerOp}
    (hops : ops = ms.flatMap (Msg.layerOps ctxs.length) ++ its.flatMap (Iteration.layerOps ctxs.length))
    (ho : ∀ op ∈ ops, op.isShortcut ctxs.length) (hexit : NoExit (keyOps ops)) :
    (({} : Srv).connection rx (.configuration [Cfg.make ctxs] :: ms) ds its).out =
      ((⟨{ contexts := ctxs }, []⟩ : Layers Combiner).run Combiner.step ops).2 := by
  obtain ⟨h1, h2⟩ := run_same (combine_refines hr hl hfw) ops (by
    intro op hop
    cases op with
    | keys o => exact .inl (ho _ hop)
    | set v st => exact ho _ hop) (l := ⟨stageInit ctxs, []⟩) (l' := ⟨{ contexts := ctxs }, []⟩)
    ⟨⟨combInv_init ctxs hr hu (.inr hs), rfl, .inl rfl, (by intro o ho; cases ho), (by intro p hp; cases hp)⟩, rfl⟩
  rw [← h2]
  exact C92_virtual_keys rx ctxs hf ms hm ds its hi hops h1 hexit

/-! ### one virtual key -/

theorem find_on (ctx : Context) (cs : List Context) (inUse : List Nat) {v k : Key} (hkv : k ≠ v) {held : List Key} (hh : v ∈ held → [v].isSublist held = true)
    (hn : v ∉ held → [v].isSublist held = false) (l : List (Key × Key)) (n : Nat) (ho : ∀ i, i < l.length → ctx.outputs[n + i]? = (l[i]?).map (fun p => [⟨p.2, .Down, 0⟩])) :
    ((l.zipIdx n).map (fun p => (ctx, (⟨whileHeld v p.1.1, (p.2 : Int)⟩ : Input)))).findSome? (meaningOf cs inUse held k) =
      if v ∈ held then (l.lookup k).map (fun b => .output [⟨b, .Down, 0⟩]) else none := by
  induction l generalizing n with
  | nil => simp
  | cons p l ih =>
    rw [List.zipIdx_cons, List.map_cons, List.findSome?_cons, List.lookup_cons]
    have ih := ih (n + 1) (by
      intro i hi
      have := ho (i + 1) (by simpa using hi)
      rw [show n + 1 + i = n + (i + 1) by omega, this]
      simp)
    have hkp : keysToPress (whileHeld v p.1) = [v, p.1] := rfl
    have hke : keysExcluded (whileHeld v p.1) = [] := rfl
    have hcont : continues (whileHeld v p.1) held k = false := by
      unfold continues
      rw [hkp]
      simp [hkv]
    have htr : triggers (whileHeld v p.1) held k = (decide (p.1 = k) && decide (v ∈ held)) := by
      unfold triggers
      rw [hkp, hke]
      by_cases hv : v ∈ held
      · have := hh hv
        simp only [List.dropLast_cons_cons, List.dropLast_singleton, this, hv]
        by_cases hk : p.1 = k <;> simp [hk]
      · have := hn hv
        simp only [List.dropLast_cons_cons, List.dropLast_singleton, this, hv]
        simp
    unfold meaningOf
    simp only [htr, hcont, Bool.false_eq_true, if_false]
    by_cases hv : v ∈ held
    · by_cases hk : p.1 = k
      · have h0 := ho 0 (by simp)
        simp only [Nat.add_zero, List.getElem?_cons_zero, Option.map_some] at h0
        have hmo : mappingOutput cs inUse ctx ⟨whileHeld v p.1, (n : Int)⟩ = some [⟨p.2, .Down, 0⟩] := by
          unfold mappingOutput
          rw [if_pos (by simp)]
          exact h0
        simp [hk, hv] at hmo ⊢
        rw [hmo]; rfl
      · have hb : (k == p.1) = false := beq_eq_false_iff_ne.2 (fun h => hk h.symm)
        simp only [hk, hb, decide_false, Bool.false_and, Bool.false_eq_true, if_false]
        exact ih
    · simp only [hv, decide_false, Bool.and_false, Bool.false_eq_true, if_false] at ih ⊢
      exact ih

theorem find_off (ctx : Context) (cs : List Context) (inUse : List Nat) {v k : Key} {held : List Key} (l : List (Key × Key)) (n : Nat)
    (ho : ∀ i, i < l.length → ctx.outputs[n + i]? = (l[i]?).map (fun p => [⟨p.2, .Down, 0⟩])) :
    ((l.zipIdx n).map (fun p => (ctx, (⟨whileNotHeld v p.1.1, (p.2 : Int)⟩ : Input)))).findSome? (meaningOf cs inUse held k) =
      if v ∈ held then none else (l.lookup k).map (fun b => .output [⟨b, .Down, 0⟩]) := by
  induction l generalizing n with
  | nil => simp
  | cons p l ih =>
    rw [List.zipIdx_cons, List.map_cons, List.findSome?_cons, List.lookup_cons]
    have ih := ih (n + 1) (by
      intro i hi
      have := ho (i + 1) (by simpa using hi)
      rw [show n + 1 + i = n + (i + 1) by omega, this]
      simp)
    have hkp : keysToPress (whileNotHeld v p.1) = [p.1] := rfl
    have hke : keysExcluded (whileNotHeld v p.1) = [v] := rfl
    have hcont : continues (whileNotHeld v p.1) held k = false := by
      unfold continues
      rw [hkp]
      simp
    have htr : triggers (whileNotHeld v p.1) held k = (decide (p.1 = k) && !decide (v ∈ held)) := by
      unfold triggers
      rw [hkp, hke]
      by_cases hv : v ∈ held
      · simp [hv]
      · by_cases hk : p.1 = k <;> simp [hk, hv]
    unfold meaningOf
    simp only [htr, hcont, Bool.false_eq_true, if_false]
    by_cases hv : v ∈ held
    · simp only [hv, decide_true, Bool.not_true, Bool.and_false, Bool.false_eq_true, if_false, if_true] at ih ⊢
      exact ih
    · by_cases hk : p.1 = k
      · have h0 := ho 0 (by simp)
        simp only [Nat.add_zero, List.getElem?_cons_zero, Option.map_some] at h0
        have hmo : mappingOutput cs inUse ctx ⟨whileNotHeld v p.1, (n : Int)⟩ = some [⟨p.2, .Down, 0⟩] := by
          unfold mappingOutput
          rw [if_pos (by simp)]
          exact h0
        simp [hk, hv] at hmo ⊢
        rw [hmo]; rfl
      · have hb : (k == p.1) = false := beq_eq_false_iff_ne.2 (fun h => hk h.symm)
        simp only [hk, hb, decide_false, Bool.false_and, Bool.false_eq_true, if_false]
        exact ih

/-- what pressing a key means -/
theorem virtual_meaning {v t g : Key} {on off : List (Key × Key)} {dev : Int} (h1 : -2 ≤ dev) (h2 : dev < 64) (held held' : List Key) (k : Key) (hkv : k ≠ v)
    (hkt : k ≠ t) : meaning [virtualContext v t g on off] (contextsInUse [virtualContext v t g on off] [0] held') dev held k =
      ((if v ∈ held then on else off).lookup k).map (fun b => .output [⟨b, .Down, 0⟩]) := by
  have hin : contextsInUse [virtualContext v t g on off] [0] held' = [0] := rfl
  have hacc : acceptsDevice (virtualContext v t g on off) dev = true := accepts_all rfl h1 h2
  have hsub : v ∈ held → [v].isSublist held = true := by
    intro h
    rw [List.isSublist_iff_sublist]
    exact List.singleton_sublist.2 h
  have hnsub : v ∉ held → [v].isSublist held = false := by
    intro h
    cases hc : [v].isSublist held with
    | false => rfl
    | true =>
      rw [List.isSublist_iff_sublist] at hc
      exact absurd (List.singleton_sublist.1 hc) h
  rw [hin]
  unfold meaning mappingsFor
  rw [List.flatMap_cons, List.flatMap_nil, List.append_nil]
  simp only [List.getElem?_cons_zero, hacc, if_true]
  rw [show (virtualContext v t g on off).inputs = ⟨singleKey t, 0⟩ :: ⟨singleKey v, 1⟩ :: ((on.zipIdx 2).map (fun p => (⟨whileHeld v p.1.1, (p.2 : Int)⟩ : Input)) ++
    (off.zipIdx (2 + on.length)).map (fun p => (⟨whileNotHeld v p.1.1, (p.2 : Int)⟩ : Input))) from rfl]
  have hsingle : ∀ (x : Key) (i : Int), k ≠ x → meaningOf [virtualContext v t g on off] [0] held k (virtualContext v t g on off, ⟨singleKey x, i⟩) = none := by
    intro x i hx
    have hkp : keysToPress (singleKey x) = [x] := rfl
    unfold meaningOf triggers continues
    simp only [hkp]
    simp [Ne.symm hx]
  rw [List.map_cons, List.map_cons, List.findSome?_cons, hsingle t 0 hkt]
  simp only []
  rw [List.findSome?_cons, hsingle v 1 hkv]
  simp only []
  rw [List.map_append, List.findSome?_append, List.map_map, List.map_map]
  have e1 := find_on (virtualContext v t g on off) [virtualContext v t g on off] [0] hkv hsub hnsub on 2 (by
    intro i hi
    show ([⟨v, .Down, 0⟩] :: [⟨g, .Down, 0⟩] :: (on ++ off).map (fun p => ([⟨p.2, .Down, 0⟩] : KeySequence)))[2 + i]? = _
    rw [show 2 + i = i + 1 + 1 by omega, List.getElem?_cons_succ, List.getElem?_cons_succ, List.getElem?_map, List.getElem?_append_left hi])
  have e2 := find_off (virtualContext v t g on off) [virtualContext v t g on off] [0] (v := v) (k := k) (held := held) off (2 + on.length) (by
    intro i hi
    show ([⟨v, .Down, 0⟩] :: [⟨g, .Down, 0⟩] :: (on ++ off).map (fun p => ([⟨p.2, .Down, 0⟩] : KeySequence)))[2 + on.length + i]? = _
    rw [show 2 + on.length + i = (on.length + i) + 1 + 1 by omega, List.getElem?_cons_succ, List.getElem?_cons_succ, List.getElem?_map,
      List.getElem?_append_right (by omega)]
    congr 2; omega)
  have e1' : ((on.zipIdx 2).map ((fun m => (virtualContext v t g on off, m)) ∘ fun p => (⟨whileHeld v p.1.1, (p.2 : Int)⟩ : Input))).findSome?
      (meaningOf [virtualContext v t g on off] [0] held k) = _ := e1
  have e2' : ((off.zipIdx (2 + on.length)).map ((fun m => (virtualContext v t g on off, m)) ∘ fun p => (⟨whileNotHeld v p.1.1, (p.2 : Int)⟩ : Input))).findSome?
      (meaningOf [virtualContext v t g on off] [0] held k) = _ := e2
  rw [e1', e2']
  by_cases hv : v ∈ held
  · simp only [hv, if_true]
    cases on.lookup k <;> rfl
  · simp only [hv, if_false]
    cases off.lookup k <;> rfl

theorem virtual_meaning_key {v t g : Key} {on off : List (Key × Key)} (htv : t ≠ v) {dev : Int} (h1 : -2 ≤ dev) (h2 : dev < 64) (held held' : List Key) {k : Key}
    (hk : k = t ∨ k = v) : meaning [virtualContext v t g on off] (contextsInUse [virtualContext v t g on off] [0] held') dev held k =
      some (.output [⟨if k = t then v else g, .Down, 0⟩]) := by
  have hin : contextsInUse [virtualContext v t g on off] [0] held' = [0] := rfl
  have hacc : acceptsDevice (virtualContext v t g on off) dev = true := accepts_all rfl h1 h2
  rw [hin]
  unfold meaning mappingsFor
  rw [List.flatMap_cons, List.flatMap_nil, List.append_nil]
  simp only [List.getElem?_cons_zero, hacc, if_true]
  rw [show (virtualContext v t g on off).inputs = ⟨singleKey t, 0⟩ :: ⟨singleKey v, 1⟩ :: ((on.zipIdx 2).map (fun p => (⟨whileHeld v p.1.1, (p.2 : Int)⟩ : Input)) ++
    (off.zipIdx (2 + on.length)).map (fun p => (⟨whileNotHeld v p.1.1, (p.2 : Int)⟩ : Input))) from rfl]
  have hkp : ∀ x, keysToPress (singleKey x) = [x] := fun _ => rfl
  have hke : ∀ x, keysExcluded (singleKey x) = [] := fun _ => rfl
  have m0 : mappingOutput [virtualContext v t g on off] [0] (virtualContext v t g on off) ⟨singleKey t, 0⟩ = some [⟨v, .Down, 0⟩] := rfl
  have m1 : mappingOutput [virtualContext v t g on off] [0] (virtualContext v t g on off) ⟨singleKey v, 1⟩ = some [⟨g, .Down, 0⟩] := rfl
  rw [List.map_cons, List.map_cons, List.findSome?_cons]
  rcases hk with rfl | rfl
  · have : meaningOf [virtualContext v k g on off] [0] held k (virtualContext v k g on off, ⟨singleKey k, 0⟩) = some (.output [⟨v, .Down, 0⟩]) := by
      unfold meaningOf triggers
      simp only [hkp, hke, m0]
      simp
    rw [this]
    simp
  · have e0 : meaningOf [virtualContext k t g on off] [0] held k (virtualContext k t g on off, ⟨singleKey t, 0⟩) = none := by
      unfold meaningOf triggers continues
      simp only [hkp]
      simp [htv]
    have e1 : meaningOf [virtualContext k t g on off] [0] held k (virtualContext k t g on off, ⟨singleKey k, 1⟩) = some (.output [⟨g, .Down, 0⟩]) := by
      unfold meaningOf triggers
      simp only [hkp, hke, m1]
      simp
    rw [e0]
    simp only []
    rw [List.findSome?_cons, e1]
    simp [Ne.symm htv]

/-- nothing is lifted -/
theorem restore_none (banned : List Key) (k : Key) (hs : List Hold) (h : ∀ x ∈ hs, x.lifted = false) : restore banned k hs = (hs, [], false) := by
  induction hs with
  | nil => rfl
  | cons x hs ih =>
    unfold restore
    rw [h x (by simp), ih (fun y hy => h y (List.mem_cons_of_mem _ hy))]
    simp

theorem settled_down (held : List Key) (b : Key) : settled held [⟨b, .Down, 0⟩] = [⟨b, .Down, 0⟩] :=
  settled_keys (by intro e he h; rw [List.mem_singleton] at he; subst he; cases h)

theorem onPress_down (b : Key) : onPress [⟨b, .Down, 0⟩] = [⟨b, .Down, 0⟩] := rfl

/-- nothing is to be output when keys are released -/
theorem virtual_pending {v t g : Key} {on off : List (Key × Key)} {r : Combiner} (hc : r.contexts = [virtualContext v t g on off]) (ev : KeyEvent) (dev : Int) :
    r.pendingFor ev dev = [] := by
  unfold Combiner.pendingFor
  split
  · next o ho =>
    unfold Combiner.meaning at ho
    rw [hc] at ho
    obtain ⟨ctx, h1, m, h2, h3, h4⟩ := meaning_mem ho
    rw [List.mem_singleton] at h1
    subst h1
    have hout : ∃ b, o = [⟨b, .Down, 0⟩] := by
      unfold mappingOutput at h4
      split at h4
      · have := List.mem_of_getElem? h4
        simp only [virtualContext, List.mem_cons, List.mem_map] at this
        rcases this with h | h | ⟨p, _, h⟩
        · exact ⟨_, h⟩
        · exact ⟨_, h⟩
        · exact ⟨_, h.symm⟩
      · obtain ⟨c, h5, x, h6, _⟩ := commandOutput_mem h4
        rw [List.mem_singleton] at h5
        subst h5
        cases h6
    obtain ⟨b, rfl⟩ := hout
    rfl
  · rfl

/-- a key which outputs another one is pressed -/
theorem press_simple (r : Combiner) {k b : Key} {dev : Int} (hp : r.pending = []) (hpf : (r.device ⟨k, .Down, 0⟩ dev).pendingFor ⟨k, .Down, 0⟩ dev = []) (hk : k ∉ r.held) (hout : (r.device ⟨k, .Down, 0⟩ dev).outputFor ⟨k, .Down, 0⟩ dev = [⟨b, .Down, 0⟩])
    (hl : ∀ x ∈ r.holds, x.lifted = false ∧ x.key ≠ b) :
    (r.step (.input ⟨k, .Down, 0⟩ dev)).2 = [⟨b, .Down, 0⟩] ∧ (r.step (.input ⟨k, .Down, 0⟩ dev)).1.contexts = r.contexts ∧
      (r.step (.input ⟨k, .Down, 0⟩ dev)).1.client = r.client ∧ (r.step (.input ⟨k, .Down, 0⟩ dev)).1.held = r.held ++ [k] ∧
      (r.step (.input ⟨k, .Down, 0⟩ dev)).1.holds = r.holds ++ [{ key := b, cause := k }] ∧
      (r.step (.input ⟨k, .Down, 0⟩ dev)).1.pending = [] := by
  obtain ⟨d1, d2, d3, d4, d5⟩ := r.device_same ⟨k, .Down, 0⟩ dev
  have hig : r.ignores ⟨k, .Down, 0⟩ dev = false := by simp [Combiner.ignores, hk, hp]
  have hstep : r.step (.input ⟨k, .Down, 0⟩ dev) = (r.device ⟨k, .Down, 0⟩ dev).press ⟨k, .Down, 0⟩ dev := by
    simp only [Combiner.step, if_true, hig, Bool.false_eq_true, if_false]
  have hsink : ([⟨b, .Down, 0⟩] : KeySequence).foldl (Sink.put k) { holds := r.holds } =
      { holds := r.holds ++ [{ key := b, cause := k }], sent := [⟨b, .Down, 0⟩] } := by
    have hany : r.holds.any (fun h => h.key == b) = false := by
      rw [List.any_eq_false]
      intro x hx
      simpa using (hl x hx).2
    simp only [List.foldl_cons, List.foldl_nil, Sink.put, Sink.press, restore_none [] b r.holds (fun x hx => (hl x hx).1), hany, undoes_none (s := { holds := r.holds }) (fun x hx => (hl x hx).2)]
    rfl
  rw [hstep]
  unfold Combiner.press
  simp only [hout, d1, d2, d3, d4, d5, hp, hpf, hsink, List.erase_of_not_mem hk, List.append_nil, and_self]

theorem release_simple (r : Combiner) (hp : r.pending = []) (k : Key) (dev : Int) :
    (r.step (.input ⟨k, .Up, 0⟩ dev)).2 = (r.holds.filter (fun h => h.cause == k && !h.lifted)).reverse.map (fun h => ⟨h.key, .Up, 0⟩) ∧
      (r.step (.input ⟨k, .Up, 0⟩ dev)).1.contexts = r.contexts ∧ (r.step (.input ⟨k, .Up, 0⟩ dev)).1.client = r.client ∧
      (r.step (.input ⟨k, .Up, 0⟩ dev)).1.held = r.held.erase k ∧ (r.step (.input ⟨k, .Up, 0⟩ dev)).1.holds = r.holds.filter (fun h => h.cause != k) ∧
      (r.step (.input ⟨k, .Up, 0⟩ dev)).1.pending = [] := by
  obtain ⟨d1, d2, d3, d4, d5⟩ := r.device_same ⟨k, .Up, 0⟩ dev
  have hstep : r.step (.input ⟨k, .Up, 0⟩ dev) = (r.device ⟨k, .Up, 0⟩ dev).release k := by
    simp only [Combiner.step, reduceCtorEq, if_false]
  rw [hstep]
  have hout : (r.device ⟨k, .Up, 0⟩ dev).releaseOutput k = [] := by
    unfold Combiner.releaseOutput
    rw [d5, hp]; rfl
  unfold Combiner.release
  simp only [hout, d1, d2, d3, d4, d5, hp, List.foldl_nil, List.nil_append, List.filter_nil, and_self]

/-- between two taps -/
structure BetweenVirtual (v t g : Key) (on off : List (Key × Key)) (isOn : Bool) (l : Layers Combiner) : Prop where
  ctxs : l.keys.contexts = [virtualContext v t g on off]
  client : l.keys.client = [0]
  held : l.keys.held = if isOn then [v] else []
  holds : l.keys.holds = if isOn then [{ key := g, cause := v }] else []
  on : l.on = if isOn then [v] else []
  pending : l.keys.pending = []

section
variable {v t g : Key} {on off : List (Key × Key)} (hv : isVirtualKey v = true) (ht : Ordinary t) (hg : Ordinary g)
  (hon : ∀ p ∈ on, Ordinary p.1 ∧ Ordinary p.2) (hoff : ∀ p ∈ off, Ordinary p.1 ∧ Ordinary p.2)
include hv ht hg hon hoff

theorem tap_virtual {isOn : Bool} {l : Layers Combiner} (h : BetweenVirtual v t g on off isOn l) {k : Key} (hk : Ordinary k) (hkg : replacedBy on k ≠ g)
    {dev : Int} (h1 : -2 ≤ dev) (h2 : dev < 64) (ks : List Key) :
    ∃ isOn' l' eff, l.run Combiner.step [.keys (.input ⟨k, .Down, 0⟩ dev), .keys (.input ⟨k, .Up, 0⟩ dev)] = (l', eff) ∧
      BetweenVirtual v t g on off isOn' l' ∧ virtualTaps v t g on off isOn (k :: ks) = eff ++ virtualTaps v t g on off isOn' ks := by
  have hvo : ¬ Ordinary v := by
    intro h
    rw [(ordinary_sendable (e := ⟨v, .Down, 0⟩) h).2.1] at hv
    cases hv
  have hkv : k ≠ v := by rintro rfl; exact hvo hk
  have htv : t ≠ v := by rintro rfl; exact hvo ht
  have hgv : g ≠ v := by rintro rfl; exact hvo hg
  have hdel : ∀ {b : Key}, Ordinary b → ∀ st, delivered ⟨b, st, 0⟩ = [.sendKey ⟨b, st, 0⟩] := by
    intro b hb st
    unfold delivered
    rw [if_neg (by simp [(ordinary_sendable (e := ⟨b, .Down, 0⟩) hb).2.2.1])]
  have hkn : k ∉ l.keys.held := by
    rw [h.held]
    cases isOn with
    | true => simpa using hkv
    | false => simp
  have hlift : ∀ x ∈ l.keys.holds, x.lifted = false ∧ x.key = g := by
    rw [h.holds]
    cases isOn with
    | true => intro x hx; rw [if_pos rfl, List.mem_singleton] at hx; subst hx; exact ⟨rfl, rfl⟩
    | false => intro x hx; cases hx
  obtain ⟨c1, c2, c3, c4, c5⟩ := l.keys.device_same ⟨k, .Down, 0⟩ dev
  obtain ⟨r1, hr1⟩ : ∃ r1, r1 = (l.keys.step (.input ⟨k, .Down, 0⟩ dev)).1 := ⟨_, rfl⟩
  by_cases hkt : k = t
  · subst hkt
    have hout : (l.keys.device ⟨k, .Down, 0⟩ dev).outputFor ⟨k, .Down, 0⟩ dev = [⟨v, .Down, 0⟩] := by
      unfold Combiner.outputFor Combiner.meaning
      rw [c1, c4, h.ctxs, h.client, virtual_meaning_key htv h1 h2 _ _ (.inl rfl), if_pos rfl]
      exact settled_down _ _
    obtain ⟨p1, p2, p3, p4, p5, p6⟩ := press_simple l.keys h.pending (virtual_pending (c1.trans h.ctxs) _ _) hkn hout (fun x hx => ⟨(hlift x hx).1, by rw [(hlift x hx).2]; exact hgv⟩)
    rw [← hr1] at p2 p3 p4 p5 p6
    rw [h.ctxs] at p2
    rw [h.client] at p3
    rw [h.held] at p4
    rw [h.holds] at p5
    have e1 : l.step Combiner.step (.keys (.input ⟨k, .Down, 0⟩ dev)) =
        ((Layers.toggle Combiner.step ⟨r1, l.on⟩ v).1,
          .virtualKeyState v (if isOn then .Up else .Down) :: (Layers.toggle Combiner.step ⟨r1, l.on⟩ v).2.flatMap delivered) := by
      have hb : l.begin Combiner.step (.keys (.input ⟨k, .Down, 0⟩ dev)) = (⟨r1, l.on⟩, [⟨v, .Down, 0⟩], []) := by
        unfold Layers.begin
        simp only [p1, ← hr1]
      unfold Layers.step
      rw [hb]
      simp only [Layers.process]
      rw [Layers.output_toggle Combiner.step ⟨r1, l.on⟩ [] hv rfl]
      have htg : (⟨r1, l.on⟩ : Layers Combiner).toggled v = if isOn then .Up else .Down := by
        unfold Layers.toggled
        simp only [h.on]
        cases isOn <;> simp
      simp [Layers.output, htg]
    cases hisOn : isOn with
    | false =>
      subst hisOn
      have hst : (⟨r1, l.on⟩ : Layers Combiner).toggle Combiner.step v = (⟨(r1.step (.input ⟨v, .Down, 0⟩ anyDeviceIndex)).1, [v]⟩, (r1.step (.input ⟨v, .Down, 0⟩ anyDeviceIndex)).2) := by
        have hon : l.on = [] := h.on
        simp [Layers.toggle, Layers.toggled, hon]
      have hheld : r1.held = [k] := p4
      have hholds : r1.holds = [{ key := v, cause := k }] := p5
      obtain ⟨f1, f2, f3, f4, f5⟩ := r1.device_same ⟨v, .Down, 0⟩ anyDeviceIndex
      have hout2 : (r1.device ⟨v, .Down, 0⟩ anyDeviceIndex).outputFor ⟨v, .Down, 0⟩ anyDeviceIndex = [⟨g, .Down, 0⟩] := by
        unfold Combiner.outputFor Combiner.meaning
        rw [f1, f4, p2, p3, virtual_meaning_key htv (by decide) (by decide) _ _ (.inr rfl), if_neg (Ne.symm htv)]
        exact settled_down _ _
      obtain ⟨q1, q2, q3, q4, q5, q6⟩ := press_simple r1 p6 (virtual_pending (f1.trans p2) _ _) (by rw [hheld]; simpa using Ne.symm hkv) hout2 (by
        rw [hholds]
        intro x hx
        rw [List.mem_singleton] at hx
        subst hx
        exact ⟨rfl, Ne.symm hgv⟩)
      obtain ⟨r2, hr2⟩ : ∃ r2, r2 = (r1.step (.input ⟨v, .Down, 0⟩ anyDeviceIndex)).1 := ⟨_, rfl⟩
      rw [← hr2] at q2 q3 q4 q5 q6 hst
      rw [q1] at hst
      rw [hst] at e1
      rw [hholds] at q5
      rw [hheld] at q4
      obtain ⟨u1, u2, u3, u4, u5, u6⟩ := release_simple r2 q6 k dev
      rw [q5] at u1 u5
      have hvk : (v == k) = false := beq_eq_false_iff_ne.2 (Ne.symm hkv)
      have u1 : (r2.step (.input ⟨k, .Up, 0⟩ dev)).2 = [⟨v, .Up, 0⟩] := by rw [u1]; simp [hvk]
      have e2 : (⟨r2, [v]⟩ : Layers Combiner).step Combiner.step (.keys (.input ⟨k, .Up, 0⟩ dev)) = (⟨(r2.step (.input ⟨k, .Up, 0⟩ dev)).1, [v]⟩, []) := by
        unfold Layers.step Layers.begin Layers.process
        simp only [u1]
        rw [Layers.output_skip _ _ _ hv (by simp)]
        rfl
      refine ⟨true, ⟨(r2.step (.input ⟨k, .Up, 0⟩ dev)).1, [v]⟩, [.virtualKeyState v .Down, .sendKey ⟨g, .Down, 0⟩], ?_, ⟨?_, ?_, ?_, ?_, rfl, u6⟩, ?_⟩
      · simp only [Layers.run, e1, e2]
        rw [List.flatMap_cons, List.flatMap_nil, hdel hg]
        rfl
      · exact u2.trans (q2.trans p2)
      · exact u3.trans (q3.trans p3)
      · show (r2.step (.input ⟨k, .Up, 0⟩ dev)).1.held = [v]
        rw [u4, q4]; simp
      · show (r2.step (.input ⟨k, .Up, 0⟩ dev)).1.holds = [{ key := g, cause := v }]
        rw [u5]; simp [Ne.symm hkv]
      · rw [virtualTaps, if_pos rfl]; rfl
    | true =>
      subst hisOn
      have hst : (⟨r1, l.on⟩ : Layers Combiner).toggle Combiner.step v = (⟨(r1.step (.input ⟨v, .Up, 0⟩ anyDeviceIndex)).1, []⟩, (r1.step (.input ⟨v, .Up, 0⟩ anyDeviceIndex)).2) := by
        have hon : l.on = [v] := h.on
        simp [Layers.toggle, Layers.toggled, hon]
      have hheld : r1.held = [v, k] := p4
      have hholds : r1.holds = [{ key := g, cause := v }, { key := v, cause := k }] := p5
      obtain ⟨q1, q2, q3, q4, q5, q6⟩ := release_simple r1 p6 v anyDeviceIndex
      obtain ⟨r2, hr2⟩ : ∃ r2, r2 = (r1.step (.input ⟨v, .Up, 0⟩ anyDeviceIndex)).1 := ⟨_, rfl⟩
      rw [← hr2] at q2 q3 q4 q5 q6 hst
      have hkv' : (k == v) = false := beq_eq_false_iff_ne.2 hkv
      rw [hholds] at q1 q5
      have q1 : (r1.step (.input ⟨v, .Up, 0⟩ anyDeviceIndex)).2 = [⟨g, .Up, 0⟩] := by rw [q1]; simp [hkv']
      have q5 : r2.holds = [{ key := v, cause := k }] := by rw [q5]; simp [hkv]
      have q4 : r2.held = [k] := by rw [q4, hheld]; simp
      rw [q1] at hst
      rw [hst] at e1
      obtain ⟨u1, u2, u3, u4, u5, u6⟩ := release_simple r2 q6 k dev
      rw [q5] at u1 u5
      have u1 : (r2.step (.input ⟨k, .Up, 0⟩ dev)).2 = [⟨v, .Up, 0⟩] := by rw [u1]; simp
      have e2 : (⟨r2, []⟩ : Layers Combiner).step Combiner.step (.keys (.input ⟨k, .Up, 0⟩ dev)) = (⟨(r2.step (.input ⟨k, .Up, 0⟩ dev)).1, []⟩, []) := by
        unfold Layers.step Layers.begin Layers.process
        simp only [u1]
        rw [Layers.output_skip _ _ _ hv (by simp)]
        rfl
      refine ⟨false, ⟨(r2.step (.input ⟨k, .Up, 0⟩ dev)).1, []⟩, [.virtualKeyState v .Up, .sendKey ⟨g, .Up, 0⟩], ?_, ⟨?_, ?_, ?_, ?_, rfl, u6⟩, ?_⟩
      · simp only [Layers.run, e1, e2]
        rw [List.flatMap_cons, List.flatMap_nil, hdel hg]
        rfl
      · exact u2.trans (q2.trans p2)
      · exact u3.trans (q3.trans p3)
      · show (r2.step (.input ⟨k, .Up, 0⟩ dev)).1.held = []
        rw [u4, q4]; simp
      · show (r2.step (.input ⟨k, .Up, 0⟩ dev)).1.holds = []
        rw [u5]; simp
      · rw [virtualTaps, if_pos rfl]; rfl
  · obtain ⟨b, hb⟩ : ∃ b, b = replacedBy (if isOn then on else off) k := ⟨_, rfl⟩
    have hbo : Ordinary b := by
      rw [hb]
      cases isOn with
      | true => exact replacedBy_ordinary hon hk
      | false => exact replacedBy_ordinary hoff hk
    have hkvirt : isVirtualKey k = false := (ordinary_sendable (e := ⟨k, .Down, 0⟩) hk).2.1
    have hout : (l.keys.device ⟨k, .Down, 0⟩ dev).outputFor ⟨k, .Down, 0⟩ dev = [⟨b, .Down, 0⟩] := by
      unfold Combiner.outputFor Combiner.meaning
      rw [c1, c3, c4, h.ctxs, h.client, virtual_meaning h1 h2 _ _ _ hkv hkt, List.erase_of_not_mem hkn, hb, h.held]
      unfold replacedBy
      cases isOn with
      | true =>
        rw [if_pos (by simp)]
        simp only [if_true]
        cases on.lookup k <;> simp [hkvirt, settled_down, onPress_down]
      | false =>
        rw [if_neg (by simp)]
        simp only [Bool.false_eq_true, if_false]
        cases off.lookup k <;> simp [hkvirt, settled_down, onPress_down]
    have hfresh : ∀ x ∈ l.keys.holds, x.lifted = false ∧ x.key ≠ b := by
      intro x hx
      refine ⟨(hlift x hx).1, ?_⟩
      rw [(hlift x hx).2, hb]
      cases isOn with
      | true => exact Ne.symm hkg
      | false => rw [h.holds] at hx; cases hx
    obtain ⟨p1, p2, p3, p4, p5, p6⟩ := press_simple l.keys h.pending (virtual_pending (c1.trans h.ctxs) _ _) hkn hout hfresh
    rw [← hr1] at p2 p3 p4 p5 p6
    rw [h.ctxs] at p2
    rw [h.client] at p3
    rw [h.held] at p4
    rw [h.holds] at p5
    have hbv : isVirtualKey b = false := (ordinary_sendable (e := ⟨b, .Down, 0⟩) hbo).2.1
    have e1 : l.step Combiner.step (.keys (.input ⟨k, .Down, 0⟩ dev)) = (⟨r1, l.on⟩, [.sendKey ⟨b, .Down, 0⟩]) := by
      have hbg : l.begin Combiner.step (.keys (.input ⟨k, .Down, 0⟩ dev)) = (⟨r1, l.on⟩, [⟨b, .Down, 0⟩], []) := by
        unfold Layers.begin
        simp only [p1, ← hr1]
      unfold Layers.step
      rw [hbg]
      simp only [Layers.process]
      rw [Layers.output_one Combiner.step ⟨r1, l.on⟩ [] hbv]
      simp [Layers.output, hdel hbo]
    obtain ⟨u1, u2, u3, u4, u5, u6⟩ := release_simple r1 p6 k dev
    have hvk : (v == k) = false := beq_eq_false_iff_ne.2 (Ne.symm hkv)
    have u1 : (r1.step (.input ⟨k, .Up, 0⟩ dev)).2 = [⟨b, .Up, 0⟩] := by
      rw [u1, p5]
      cases isOn <;> simp [hvk]
    have e2 : (⟨r1, l.on⟩ : Layers Combiner).step Combiner.step (.keys (.input ⟨k, .Up, 0⟩ dev)) =
        (⟨(r1.step (.input ⟨k, .Up, 0⟩ dev)).1, l.on⟩, [.sendKey ⟨b, .Up, 0⟩]) := by
      unfold Layers.step Layers.begin Layers.process
      simp only [u1]
      rw [Layers.output_one _ _ _ hbv]
      simp [Layers.output, hdel hbo]
    refine ⟨isOn, ⟨(r1.step (.input ⟨k, .Up, 0⟩ dev)).1, l.on⟩, [.sendKey ⟨b, .Down, 0⟩, .sendKey ⟨b, .Up, 0⟩], ?_, ⟨?_, ?_, ?_, ?_, h.on, u6⟩, ?_⟩
    · simp only [Layers.run, e1, e2]
      rfl
    · exact u2.trans p2
    · exact u3.trans p3
    · show (r1.step (.input ⟨k, .Up, 0⟩ dev)).1.held = _
      rw [u4, p4]
      cases isOn <;> simp [hvk]
    · show (r1.step (.input ⟨k, .Up, 0⟩ dev)).1.holds = _
      rw [u5, p5]
      cases isOn <;> simp [Ne.symm hkv]
    · rw [virtualTaps, if_neg hkt, ← hb]; rfl

theorem taps_virtual (taps : List (Key × Int)) (htaps : ∀ p ∈ taps, Ordinary p.1 ∧ replacedBy on p.1 ≠ g ∧ -2 ≤ p.2 ∧ p.2 < 64) :
    ∀ {isOn : Bool} {l : Layers Combiner}, BetweenVirtual v t g on off isOn l →
    (l.run Combiner.step ((taps.flatMap tapKey).map (fun p => .keys (.input p.1 p.2)))).2 = virtualTaps v t g on off isOn (taps.map (·.1)) := by
  induction taps with
  | nil => intro isOn l _; rfl
  | cons p taps ih =>
    intro isOn l h
    obtain ⟨k, dev⟩ := p
    obtain ⟨hk, hkg, h1, h2⟩ := htaps (k, dev) (by simp)
    obtain ⟨on', l', eff, e1, e2, e3⟩ := tap_virtual hv ht hg hon hoff h hk hkg h1 h2 (taps.map (·.1))
    rw [List.flatMap_cons, List.map_append, Layers.run_append]
    show ((l.run Combiner.step [.keys (.input ⟨k, .Down, 0⟩ dev), .keys (.input ⟨k, .Up, 0⟩ dev)]).2 ++
      ((l.run Combiner.step [.keys (.input ⟨k, .Down, 0⟩ dev), .keys (.input ⟨k, .Up, 0⟩ dev)]).1.run Combiner.step _).2) = _
    rw [e1]
    simp only []
    rw [ih (fun q hq => htaps q (List.mem_cons_of_mem _ hq)) e2, List.map_cons, e3]

end

theorem virtual_combines {v t g : Key} {on off : List (Key × Key)} (hv : isVirtualKey v = true) (ht : Ordinary t) (hg : Ordinary g)
    (hon : ∀ p ∈ on, Ordinary p.1 ∧ Ordinary p.2) (hoff : ∀ p ∈ off, Ordinary p.1 ∧ Ordinary p.2) :
    (virtualContext v t g on off).OnlyCombines ∧ (virtualContext v t g on off).Layered ∧ ForwardsFirst [virtualContext v t g on off] := by
  have hvo : ∀ {k : Key}, Ordinary k → k ≠ v := by
    rintro k h rfl
    rw [(ordinary_sendable (e := ⟨k, .Down, 0⟩) h).2.1] at hv
    cases hv
  -- the inputs
  have hin : ∀ m ∈ (virtualContext v t g on off).inputs, m = ⟨singleKey t, 0⟩ ∨ m = ⟨singleKey v, 1⟩ ∨
      (∃ k, Ordinary k ∧ (m.input = whileHeld v k ∨ m.input = whileNotHeld v k)) := by
    intro m hm
    have hm : m ∈ (⟨singleKey t, 0⟩ : Input) :: ⟨singleKey v, 1⟩ :: ((on.zipIdx 2).map (fun p => (⟨whileHeld v p.1.1, (p.2 : Int)⟩ : Input)) ++
      (off.zipIdx (2 + on.length)).map (fun p => (⟨whileNotHeld v p.1.1, (p.2 : Int)⟩ : Input))) := hm
    rcases List.mem_cons.1 hm with h | hm
    · exact .inl h
    · rcases List.mem_cons.1 hm with h | hm
      · exact .inr (.inl h)
      · rcases List.mem_append.1 hm with hm | hm
        · obtain ⟨⟨p, n⟩, h1, rfl⟩ := List.mem_map.1 hm
          have hz := List.mem_zipIdx h1
          exact .inr (.inr ⟨p.1, (hon p (by rw [hz.2.2]; exact List.getElem_mem _)).1, .inl rfl⟩)
        · obtain ⟨⟨p, n⟩, h1, rfl⟩ := List.mem_map.1 hm
          have hz := List.mem_zipIdx h1
          exact .inr (.inr ⟨p.1, (hoff p (by rw [hz.2.2]; exact List.getElem_mem _)).1, .inr rfl⟩)
  -- the outputs
  have hout : ∀ o ∈ (virtualContext v t g on off).outputs, ∃ b, o = [⟨b, .Down, 0⟩] ∧ (Ordinary b ∨ b = v) := by
    intro o ho
    have ho : o ∈ [⟨v, .Down, 0⟩] :: [⟨g, .Down, 0⟩] :: (on ++ off).map (fun p => ([⟨p.2, .Down, 0⟩] : KeySequence)) := ho
    rcases List.mem_cons.1 ho with h | ho
    · exact ⟨v, h, .inr rfl⟩
    · rcases List.mem_cons.1 ho with h | ho
      · exact ⟨g, h, .inl hg⟩
      · obtain ⟨p, h1, rfl⟩ := List.mem_map.1 ho
        rcases List.mem_append.1 h1 with h1 | h1
        · exact ⟨p.2, rfl, .inl (hon p h1).2⟩
        · exact ⟨p.2, rfl, .inl (hoff p h1).2⟩
  have hrep : ∀ {b : Key}, Ordinary b ∨ b = v → b ≠ Key.any ∧ b ≠ Key.timeout ∧ isMouseWheel b = false := by
    intro b hb
    rcases hb with h | rfl
    · have := ordinary_replaceable h
      exact ⟨this.2.1, this.2.2.1, h.2⟩
    · have := virtual_replaceable hv
      exact ⟨this.2.1, this.2.2.1, (virtual_noWheel hv).1⟩
  refine ⟨⟨?_, ?_, ?_⟩, ⟨?_, ?_, ?_⟩, ?_⟩
  · intro m hm
    rcases hin m hm with rfl | rfl | ⟨k, hk, h | h⟩
    · exact ⟨[], [t], [t], rfl, by simp, by simp, by simp, by simpa using ordinary_replaceable ht, by simp⟩
    · exact ⟨[], [v], [v], rfl, by simp, by simp, by simp, by simpa using virtual_replaceable hv, by simp⟩
    · rw [h]
      exact ⟨[], [v, k], [k, v], rfl, by simp, by simpa using Ne.symm (hvo hk), by simp, by simpa using ⟨virtual_replaceable hv, ordinary_replaceable hk⟩, by simp⟩
    · rw [h]
      exact ⟨[v], [k], [k], rfl, by simp, by simp, by simp, by simpa using ⟨ordinary_replaceable hk, hvo hk⟩, by simpa using virtual_replaceable hv⟩
  · intro o ho
    obtain ⟨b, rfl, hb⟩ := hout o ho
    have := hrep hb
    refine ⟨?_, ?_⟩ <;> intro e he <;> rw [List.mem_singleton] at he <;> subst he
    · exact .inl rfl
    · exact ⟨rfl, this.2.1, fun h => absurd h this.1⟩
  · intro o ho; cases ho
  · intro o ho
    obtain ⟨b, rfl, hb⟩ := hout o ho
    refine ⟨?_, ?_⟩
    · intro e he
      rw [List.mem_singleton] at he
      subst he
      exact ⟨(hrep hb).2.2, by intro h; cases h⟩
    · rw [List.countP_cons, List.countP_nil]; split <;> omega
  · intro o ho; cases ho
  · intro m hm w hw hl
    rcases hin m hm with rfl | rfl | ⟨k, hk, h | h⟩
    · cases Option.some.inj (show some t = some w from hl)
      rw [(ordinary_sendable (e := ⟨t, .Down, 0⟩) ht).2.1] at hw
      cases hw
    · refine ⟨by simp, ?_⟩
      intro o ho e he
      have ho : some [(⟨g, .Down, 0⟩ : KeyEvent)] = some o := ho
      cases Option.some.inj ho
      rw [List.mem_singleton] at he
      subst he
      exact (ordinary_sendable (e := ⟨g, .Down, 0⟩) hg).2.1
    · rw [h] at hl
      rw [← Option.some.inj (show some k = some w from hl)] at hw
      rw [(ordinary_sendable (e := ⟨k, .Down, 0⟩) hk).2.1] at hw
      cases hw
    · rw [h] at hl
      rw [← Option.some.inj (show some k = some w from hl)] at hw
      rw [(ordinary_sendable (e := ⟨k, .Down, 0⟩) hk).2.1] at hw
      cases hw
  · refine ⟨virtualContext v t g on off, [], [], (virtualContext v t g on off).inputs, rfl, rfl, rfl, rfl, rfl, rfl, rfl, by simp, ?_⟩
    intro c hc m hm k hk hkv
    rw [List.mem_singleton] at hc
    subst hc
    rcases hin m hm with rfl | rfl | ⟨a, ha, h | h⟩
    · cases (show k ∈ ([] : List Key) from hk)
    · cases (show k ∈ ([] : List Key) from hk)
    · rw [h] at hk
      have hk : k ∈ [v] := hk
      rw [List.mem_singleton] at hk
      rw [hk, hv] at hkv
      cases hkv
    · rw [h] at hk
      cases (show k ∈ ([] : List Key) from hk)

/-- **C92 (a virtual key as modifier).** With the mappings `T >> V`, `V >> G`, `V{A} >> X ...`, `!V A >> Y ...` typing `T` switches `V` on and off; `G` is held as long as it is on; every other key is replaced by its
mapping with `V{...}` while it is on, and by its mapping with `!V` while it is off. All keys may be typed, any number of times, on any devices; `G` itself is neither typed nor output by another mapping while `V` is on. -/
theorem C92_virtual_modifier (rx : Regex) {v t g : Key} {on off : List (Key × Key)} (hv : isVirtualKey v = true) (ht : Ordinary t) (hg : Ordinary g)
    (hon : ∀ p ∈ on, Ordinary p.1 ∧ Ordinary p.2) (hoff : ∀ p ∈ off, Ordinary p.1 ∧ Ordinary p.2)
    (ds : List DeviceDesc) (its : List Iteration) (hi : ∀ it ∈ its, it.Layered true ∧ it.messages = []) (taps : List (Key × Int))
    (htaps : ∀ p ∈ taps, Ordinary p.1 ∧ replacedBy on p.1 ≠ g ∧ -2 ≤ p.2 ∧ p.2 < 64) (hread : keysRead its = taps.flatMap tapKey) :
    (({} : Srv).connection rx [.configuration [Cfg.make [virtualContext v t g on off]], .activeContexts [0]] ds its).out =
      virtualTaps v t g on off false (taps.map (·.1)) := by
  obtain ⟨c1, c2, c3⟩ := virtual_combines hv ht hg hon hoff
  have hops := layerOps_reads 1 its (fun it h => (hi it h).2) hread
  have hmsg : [Msg.activeContexts [0]].flatMap (Msg.layerOps 1) = [.keys (.contexts [0])] := rfl
  have hall : ∀ op ∈ LayerOp.keys (.contexts [0]) :: (taps.flatMap tapKey).map (fun p => LayerOp.keys (.input p.1 p.2)), op.isShortcut 1 := by
    intro op hop
    rcases List.mem_cons.1 hop with rfl | hop
    · exact ⟨⟨by simp, by simp⟩, ⟨by simp, by simp⟩, by simp⟩
    · obtain ⟨q, h1, rfl⟩ := List.mem_map.1 hop
      obtain ⟨p, h2, h3⟩ := List.mem_flatMap.1 h1
      obtain ⟨h4, _, h5, h6⟩ := htaps p h2
      simp only [tapKey, List.mem_cons, List.not_mem_nil, or_false] at h3
      rcases h3 with rfl | rfl
      · exact ⟨⟨.inl rfl, h4, h5, h6⟩, ⟨.inl rfl, ordinary_replaceable h4, h5, h6⟩, rfl⟩
      · exact ⟨⟨.inr rfl, h4, h5, h6⟩, ⟨.inr rfl, ordinary_replaceable h4, h5, h6⟩, rfl⟩
  rw [C92_shortcuts rx [virtualContext v t g on off] (tapped := []) (by simpa using c1) (by simpa using c2.switches)
    (by intro ctx h; rw [List.mem_singleton] at h; subst h; intro a ha; cases ha) ⟨_, rfl, rfl⟩ c3 rfl [.activeContexts [0]] (by simp) ds its (fun it h => (hi it h).1)
    (ops := .keys (.contexts [0]) :: (taps.flatMap tapKey).map (fun p => .keys (.input p.1 p.2))) (by
      show _ = [Msg.activeContexts [0]].flatMap (Msg.layerOps 1) ++ its.flatMap (Iteration.layerOps 1)
      rw [hmsg, hops]; rfl) hall (by
      have := noExit_taps [.contexts [0]] rfl taps
      have e := keyOps_contexts [0] (taps.flatMap tapKey)
      rw [e]; exact this)]
  show ([] ++ ((⟨{ contexts := [virtualContext v t g on off], client := [0] }, []⟩ : Layers Combiner).run Combiner.step _).2) = _
  rw [List.nil_append]
  exact taps_virtual hv ht hg hon hoff taps htaps ⟨rfl, rfl, rfl, rfl, rfl, rfl⟩

/-- the mappings of the README, with the last one first: A, E, then ScrollLock, A, E, then ScrollLock, A -/
example (rx : Regex) (ds : List DeviceDesc) :
    let taps : List (Key × Int) := [(Key.KeyA, 0), (Key.KeyE, 1), (Key.ScrollLock, 0), (Key.KeyA, 1), (Key.KeyE, 0), (Key.ScrollLock, 1), (Key.KeyA, 0)]
    (({} : Srv).connection rx [.configuration [Cfg.make [virtualContext 61697 Key.ScrollLock Key.KeyG [(Key.KeyA, Key.KeyB)] [(Key.KeyE, Key.KeyF)]]],
      .activeContexts [0]] ds ((taps.flatMap tapKey).map (fun p => { now := 0, read := .key p.1 p.2 }))).out =
    [.sendKey ⟨Key.KeyA, .Down, 0⟩, .sendKey ⟨Key.KeyA, .Up, 0⟩, .sendKey ⟨Key.KeyF, .Down, 0⟩, .sendKey ⟨Key.KeyF, .Up, 0⟩,
      .virtualKeyState 61697 .Down, .sendKey ⟨Key.KeyG, .Down, 0⟩, .sendKey ⟨Key.KeyB, .Down, 0⟩, .sendKey ⟨Key.KeyB, .Up, 0⟩,
      .sendKey ⟨Key.KeyE, .Down, 0⟩, .sendKey ⟨Key.KeyE, .Up, 0⟩,
      .virtualKeyState 61697 .Up, .sendKey ⟨Key.KeyG, .Up, 0⟩, .sendKey ⟨Key.KeyA, .Down, 0⟩, .sendKey ⟨Key.KeyA, .Up, 0⟩] := by
  intro taps
  have ho : ∀ p ∈ taps.flatMap tapKey, Ordinary p.1.key := by
    unfold Ordinary; decide +kernel
  rw [C92_virtual_modifier rx (v := 61697) (t := Key.ScrollLock) (g := Key.KeyG) (on := [(Key.KeyA, Key.KeyB)]) (off := [(Key.KeyE, Key.KeyF)]) (by decide)
    (by unfold Ordinary; decide) (by unfold Ordinary; decide) (by unfold Ordinary; decide) (by unfold Ordinary; decide) ds _ ?_ taps ?_ ?_]
  · decide +kernel
  · intro it hit
    obtain ⟨p, h1, rfl⟩ := List.mem_map.1 hit
    refine ⟨⟨?_, rfl, .inl rfl, ?_, rfl⟩, rfl⟩
    · intro ev dev h
      cases h
      exact ho p h1
    · intro m hm; cases hm
  · unfold Ordinary; decide +kernel
  · decide +kernel

/-- **C92 (disagreement with the README).** With the mappings of the README in the order in which they are listed there (`ScrollLock >> Virtual1`, `Virtual1{A} >> B`, `!Virtual1 E >> F`, `Virtual1 >> G`) the key G is not held
while Virtual1 is down: `Virtual1{A}` might match, and mappings of virtual keys have to match directly. -/
theorem C92_order_counterexample (rx : Regex) :
    let inputs : List Input := [⟨singleKey Key.ScrollLock, 0⟩, ⟨whileHeld 61697 Key.KeyA, 1⟩, ⟨whileNotHeld 61697 Key.KeyE, 2⟩, ⟨singleKey 61697, 3⟩]
    let ctx : Context := { inputs := inputs, outputs := [[⟨61697, .Down, 0⟩], [⟨Key.KeyB, .Down, 0⟩], [⟨Key.KeyF, .Down, 0⟩], [⟨Key.KeyG, .Down, 0⟩]] }
    (({} : Srv).connection rx [.configuration [Cfg.make [ctx]], .activeContexts [0]] [] [{ now := 0, read := .key ⟨Key.ScrollLock, .Down, 0⟩ 0 },
      { now := 0, read := .key ⟨Key.ScrollLock, .Up, 0⟩ 0 }]).out = [.virtualKeyState 61697 .Down] := by
  intro inputs ctx
  rw [C92_virtual_keys rx [ctx] (by decide +kernel) [.activeContexts [0]] (by simp) [] _ ?_ rfl (by decide +kernel) ?_]
  · decide +kernel
  · intro it h
    simp only [List.mem_cons, List.not_mem_nil, or_false] at h
    rcases h with rfl | rfl
    all_goals refine ⟨?_, rfl, .inl rfl, ?_, rfl⟩
    all_goals first
      | (intro m hm; cases hm; done)
      | (intro ev dev h; cases h; unfold KM.Ordinary; decide)
  · exact noExit_two (a := Key.ScrollLock) (b := Key.ScrollLock) (by decide +kernel)

end KM
