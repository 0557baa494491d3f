import Verif.Props.LayerShortcuts
/-!
# C83: output on release
-/
namespace KM

theorem onPress_typing (as bs : List Key) {mark : KeyEvent} (hm : mark.state = .OutputOnRelease) :
    onPress (typing as ++ mark :: typing bs) = typing as ∧ onReleasePart (typing as ++ mark :: typing bs) = some (typing bs) := by
  induction as with
  | nil => simp [typing, onPress, onReleasePart, hm]
  | cons a as ih =>
    have hc : typing (a :: as) = ⟨a, .Down, 0⟩ :: ⟨a, .Up, 0⟩ :: typing as := rfl
    rw [hc]
    unfold onPress at ih ⊢
    simp only [List.cons_append]
    rw [onReleasePart, if_neg (by simp), onReleasePart, if_neg (by simp), ih.2, List.takeWhile_cons_of_pos (by rfl), List.takeWhile_cons_of_pos (by rfl), ih.1]
    exact ⟨rfl, rfl⟩

theorem typing_states {ks : List Key} : ∀ e ∈ typing ks, e.state = .Down ∨ e.state = .Up := by
  intro e he
  obtain ⟨k, _, h⟩ := List.mem_flatMap.1 he
  simp only [List.mem_cons, List.not_mem_nil, or_false] at h
  rcases h with rfl | rfl
  · exact .inl rfl
  · exact .inr rfl

theorem settled_typing (held : List Key) (ks : List Key) : settled held (typing ks) = typing ks :=
  settled_keys (by intro e he h; rcases typing_states e he with h' | h' <;> rw [h'] at h <;> cases h)

/-- keys which are not held are typed -/
theorem typing_sink (cause : Key) (ks : List Key) : ∀ {s : Sink}, (∀ h ∈ s.holds, h.lifted = false ∧ h.key ∉ ks) → s.banned = [] →
    (typing ks).foldl (Sink.put cause) s = { s with sent := s.sent ++ typing ks } := by
  induction ks with
  | nil => intro s _ _; simp [typing]
  | cons k ks ih =>
    intro s h hb
    have hne : ∀ x ∈ s.holds, x.key ≠ k := fun x hx h' => (h x hx).2 (by rw [h']; simp)
    have hany : s.holds.any (fun h => h.key == k) = false := by
      rw [List.any_eq_false]
      intro x hx
      simpa using hne x hx
    have h1 : s.put cause ⟨k, .Down, 0⟩ = { s with holds := s.holds ++ [{ key := k, cause := cause }], sent := s.sent ++ [⟨k, .Down, 0⟩] } := by
      show s.press cause k = _
      unfold Sink.press
      simp only [undoes_none hne, restore_none s.banned k s.holds (fun x hx => (h x hx).1), hany]
      simp
    have h2 : Sink.put cause { s with holds := s.holds ++ [{ key := k, cause := cause }], sent := s.sent ++ [⟨k, .Down, 0⟩] } ⟨k, .Up, 0⟩ =
        { s with sent := s.sent ++ [⟨k, .Down, 0⟩, ⟨k, .Up, 0⟩] } := by
      show Sink.release cause { s with holds := s.holds ++ [{ key := k, cause := cause }], sent := s.sent ++ [⟨k, .Down, 0⟩] } k = _
      unfold Sink.release
      have hf : (s.holds ++ [({ key := k, cause := cause } : Hold)]).find? (fun h => h.key == k) = some { key := k, cause := cause } := by
        rw [List.find?_append, List.find?_eq_none.2 (fun x hx => by simpa using hne x hx)]
        simp
      have hfl : (s.holds ++ [({ key := k, cause := cause } : Hold)]).filter (fun h => h.key != k) = s.holds := by
        rw [List.filter_append, List.filter_eq_self.2 (fun x hx => by simpa using hne x hx)]
        simp
      simp only [hf, hfl, hb]
      simp
    have hc : typing (k :: ks) = ⟨k, .Down, 0⟩ :: ⟨k, .Up, 0⟩ :: typing ks := rfl
    rw [hc, List.foldl_cons, List.foldl_cons, h1, h2, ih (s := { s with sent := s.sent ++ [⟨k, .Down, 0⟩, ⟨k, .Up, 0⟩] }) (fun x hx => ⟨(h x hx).1, fun h' => (h x hx).2 (List.mem_cons_of_mem _ h')⟩) hb]
    simp

/-- a mapping which was found is in one of the contexts -/
theorem decidedIn_some {cs : List Context} {inUse : List Nat} {dev : Int} {held : List Key} {k : Key} {m : Meaning}
    (h : meaning cs inUse dev held k = some m) : ∃ j, decidedIn cs inUse dev held k = some j := by
  rw [← Option.isSome_iff_exists]
  unfold decidedIn
  rw [List.find?_isSome]
  unfold meaning at h
  obtain ⟨⟨ctx, i⟩, hm, h1⟩ := List.exists_of_findSome?_eq_some h
  unfold mappingsFor at hm
  obtain ⟨j, hj, hmj⟩ := List.mem_flatMap.1 hm
  refine ⟨j, hj, ?_⟩
  rw [List.findSome?_isSome_iff]
  refine ⟨(ctx, i), ?_, by rw [h1]; rfl⟩
  unfold mappingsFor
  exact List.mem_flatMap.2 ⟨j, by simp, hmj⟩

section
variable {r : Combiner} {k : Key} {dev : Int} {as bs : List Key} {mark : KeyEvent} (hmark : mark.state = .OutputOnRelease)
  (hp : ∀ p ∈ r.pending, p.key ≠ k) (hk : k ∉ r.held) (hmean : r.meaning dev k = some (.output (typing as ++ mark :: typing bs)))
  (hh : ∀ h ∈ r.holds, h.lifted = false ∧ h.cause ≠ k ∧ h.key ∉ as ∧ h.key ∉ bs)
include hmark hp hk hmean hh

/-- the key is pressed -/
theorem press_typing : ∃ a b j, decidedIn r.contexts (contextsInUse r.contexts r.client (r.held ++ [k])) dev r.held k = some j ∧
    r.step (.input ⟨k, .Down, 0⟩ dev) =
      ({ r with lastPressed := a, lastRepeat := b, held := r.held ++ [k], banned := [], pending := r.pending ++ [⟨k, typing bs, j⟩] }, typing as) := by
  obtain ⟨d1, d2, d3, d4, d5⟩ := r.device_same ⟨k, .Down, 0⟩ dev
  have hany : r.pending.any (fun p => p.key == k) = false := by
    rw [List.any_eq_false]
    intro p hpm
    simpa using hp p hpm
  have hig : r.ignores ⟨k, .Down, 0⟩ dev = false := by
    unfold Combiner.ignores
    rw [hany]
    simp [hk]
  obtain ⟨a, b, hd⟩ : ∃ a b, r.device ⟨k, .Down, 0⟩ dev = { r with lastPressed := a, lastRepeat := b } := by
    unfold Combiner.device
    repeat' split
    all_goals exact ⟨_, _, rfl⟩
  have hm := hmean
  unfold Combiner.meaning at hm
  rw [List.erase_of_not_mem hk] at hm
  obtain ⟨j, hj⟩ := decidedIn_some hm
  refine ⟨a, b, j, hj, ?_⟩
  have hstep : r.step (.input ⟨k, .Down, 0⟩ dev) = (r.device ⟨k, .Down, 0⟩ dev).press ⟨k, .Down, 0⟩ dev := by
    simp only [Combiner.step, if_true, hig, Bool.false_eq_true, if_false]
  rw [hstep, hd]
  unfold Combiner.press Combiner.outputFor Combiner.pendingFor
  have hmm : Combiner.meaning { r with lastPressed := a, lastRepeat := b } dev k = r.meaning dev k := rfl
  simp only [hmm, hmean, onPress_typing as bs hmark, settled_typing, List.erase_of_not_mem hk, hj]
  rw [typing_sink k as (s := { holds := r.holds }) (fun x hx => ⟨(hh x hx).1, (hh x hx).2.2.1⟩) rfl]
  simp

end

/-- the key is repeated -/
theorem repeat_typing {r : Combiner} {k : Key} {dev : Int} {p : Pending} (hp : p ∈ r.pending) (hk : p.key = k) :
    r.step (.input ⟨k, .Down, 0⟩ dev) = (r, []) := by
  have hig : r.ignores ⟨k, .Down, 0⟩ dev = true := by
    unfold Combiner.ignores
    rw [Bool.or_eq_true]
    left
    rw [List.any_eq_true]
    exact ⟨p, hp, by simpa using hk⟩
  simp only [Combiner.step, if_true, hig]

/-- the key is released, `rest` was kept for it, or nothing -/
theorem release_typing {r : Combiner} {k : Key} {bs : List Key} {j : Nat} {dev : Int}
    (hh : ∀ h ∈ r.holds, h.lifted = false ∧ h.cause ≠ k ∧ h.key ∉ bs) (hb : r.banned = []) :
    (r.pending.find? (fun p => p.key == k) = some ⟨k, typing bs, j⟩ → (r.step (.input ⟨k, .Up, 0⟩ dev)).2 = typing bs) ∧
    (r.pending.find? (fun p => p.key == k) = none → (r.step (.input ⟨k, .Up, 0⟩ dev)).2 = []) := by
  obtain ⟨a, b, hd⟩ : ∃ a b, r.device ⟨k, .Up, 0⟩ dev = { r with lastPressed := a, lastRepeat := b } := by
    unfold Combiner.device
    repeat' split
    all_goals exact ⟨_, _, rfl⟩
  have hstep : r.step (.input ⟨k, .Up, 0⟩ dev) = (r.device ⟨k, .Up, 0⟩ dev).release k := by
    simp only [Combiner.step, reduceCtorEq, if_false]
  have hfil : r.holds.filter (fun h => h.cause == k && !h.lifted) = [] := by
    rw [List.filter_eq_nil_iff]
    intro h hm
    have : (h.cause == k) = false := beq_eq_false_iff_ne.2 (hh h hm).2.1
    simp [this]
  rw [hstep, hd]
  unfold Combiner.release Combiner.releaseOutput
  constructor
  · intro h
    have hf : (typing bs).filter (fun e => e.state != .OutputOnRelease) = typing bs := by
      rw [List.filter_eq_self]
      intro e he
      rcases typing_states e he with h' | h' <;> rw [h'] <;> decide
    simp only [h, hf, settled_typing]
    rw [typing_sink k bs (s := { holds := r.holds, banned := r.banned }) (fun x hx => ⟨(hh x hx).1, (hh x hx).2.2⟩) hb]
    simp [hfil]
  · intro h
    simp [h, hfil]

theorem find_pending {l : List Pending} {k : Key} (hp : ∀ p ∈ l, p.key ≠ k) (p : Pending) (hk : p.key = k) : (l ++ [p]).find? (fun p => p.key == k) = some p := by
  rw [List.find?_append, List.find?_eq_none.2 (fun x hx => by simpa using hp x hx)]
  simp [hk]

/-- **C83 (output on release).** After any such history: pressing a key whose mapping is to type `as ^ bs` types `as`; however often the key is repeated, nothing is output; when it is released, `bs` are typed. (Provided that no key is held in the output
which the mapping types, or is lifted.) -/
theorem C83_on_release (contexts : List Context) (hr : ∀ ctx ∈ contexts, ctx.OnlyCombines) (hu : CommandsUnique contexts)
    (hs : contexts = [] ∨ LastStops contexts) (ops : List StageOp) (hops : Combiner.acceptsAll { contexts := contexts } ops)
    {k : Key} {dev : Int} (hd : ValidDevice dev) (hk : Replaceable k) {as bs : List Key} {mark : KeyEvent} (hmark : mark.state = .OutputOnRelease) (n : Nat) :
    let r := Combiner.after { contexts := contexts } ops
    k ∉ r.held → r.meaning dev k = some (.output (typing as ++ mark :: typing bs)) →
    (∀ h ∈ r.holds, h.lifted = false ∧ h.key ∉ as ∧ h.key ∉ bs) →
    stageOutputs (stageInit contexts) (ops ++ (.input ⟨k, .Down, 0⟩ dev :: (List.replicate n (.input ⟨k, .Down, 0⟩ dev) ++ [.input ⟨k, .Up, 0⟩ dev]))) =
      stageOutputs (stageInit contexts) ops ++ (typing as :: (List.replicate n [] ++ [typing bs])) := by
  intro r hkh hmean hh
  have hh : ∀ h ∈ r.holds, h.lifted = false ∧ h.cause ≠ k ∧ h.key ∉ as ∧ h.key ∉ bs :=
    fun h hm => ⟨(hh h hm).1, Combiner.not_cause contexts ops hkh h hm, (hh h hm).2⟩
  obtain ⟨_, _, hri⟩ := Combiner.after_inv ops (combInv_init contexts hr hu hs) hops
  have hpk : ∀ p ∈ r.pending, p.key ≠ k := hri.noPending hkh
  obtain ⟨a, b, j, _, s1⟩ := press_typing hmark hpk hkh hmean hh
  obtain ⟨r1, hr1⟩ : ∃ r1 : Combiner, r1 = { r with lastPressed := a, lastRepeat := b, held := r.held ++ [k], banned := [], pending := r.pending ++ [⟨k, typing bs, j⟩] } := ⟨_, rfl⟩
  rw [← hr1] at s1
  have hf : r1.pending.find? (fun p => p.key == k) = some ⟨k, typing bs, j⟩ := by rw [hr1]; exact find_pending hpk _ rfl
  have s2 : r1.step (.input ⟨k, .Down, 0⟩ dev) = (r1, []) := repeat_typing (List.mem_of_find?_eq_some hf) rfl
  have s3 : (r1.step (.input ⟨k, .Up, 0⟩ dev)).2 = typing bs :=
    (release_typing (by rw [hr1]; exact fun x hx => ⟨(hh x hx).1, (hh x hx).2.1, (hh x hx).2.2.2⟩) (by rw [hr1])).1 hf
  have hout : ∀ n, r1.outputs (List.replicate n (.input ⟨k, .Down, 0⟩ dev) ++ [.input ⟨k, .Up, 0⟩ dev]) = List.replicate n [] ++ [typing bs] := by
    intro n
    induction n with
    | zero => simp only [List.replicate_zero, List.nil_append, Combiner.outputs, s3]
    | succ n ih => simp only [List.replicate_succ, List.cons_append, Combiner.outputs, s2, ih]
  have hacc1 : r1.acceptsAll (List.replicate n (.input ⟨k, .Down, 0⟩ dev) ++ [.input ⟨k, .Up, 0⟩ dev]) := by
    induction n with
    | zero => exact ⟨⟨⟨.inr rfl, hk, hd.1, hd.2⟩, rfl, fun h => by cases h⟩, trivial⟩
    | succ n ih =>
      refine ⟨⟨⟨.inl rfl, hk, hd.1, hd.2⟩, rfl, fun _ _ hig => ?_⟩, ?_⟩
      · have : r1.ignores ⟨k, .Down, 0⟩ dev = true := by
          unfold Combiner.ignores
          rw [Bool.or_eq_true]
          left
          rw [List.any_eq_true]
          exact ⟨_, List.mem_of_find?_eq_some hf, by simp⟩
        rw [this] at hig
        cases hig
      · rw [s2]; exact ih
  have hacc : r.acceptsAll (.input ⟨k, .Down, 0⟩ dev :: (List.replicate n (.input ⟨k, .Down, 0⟩ dev) ++ [.input ⟨k, .Up, 0⟩ dev])) := by
    refine ⟨⟨⟨.inl rfl, hk, hd.1, hd.2⟩, rfl, fun _ _ _ => ?_⟩, by rw [s1]; exact hacc1⟩
    show r.meaning dev k ≠ _
    rw [hmean]; simp
  rw [C83_refines contexts hr hu hs _ (Combiner.acceptsAll_append _ _ _ hops hacc), C83_refines contexts hr hu hs _ hops, Combiner.outputs_append]
  congr 1
  show r.outputs _ = _
  rw [Combiner.outputs, s1]
  simp only [hout]

/-- **C83 (output on release, when contexts change).** When meanwhile other contexts become active: `bs` are still typed when the context of the mapping remains active, otherwise nothing is output. -/
theorem C83_on_release_contexts (contexts : List Context) (hr : ∀ ctx ∈ contexts, ctx.OnlyCombines) (hu : CommandsUnique contexts)
    (hs : contexts = [] ∨ LastStops contexts) (ops : List StageOp) (hops : Combiner.acceptsAll { contexts := contexts } ops)
    {k : Key} {dev : Int} (hd : ValidDevice dev) (hk : Replaceable k) {as bs : List Key} {mark : KeyEvent} (hmark : mark.state = .OutputOnRelease)
    {l : List Nat} (h1 : l.Pairwise (· ≤ ·)) (h2 : ∀ i ∈ l, i < contexts.length) {j : Nat} :
    let r := Combiner.after { contexts := contexts } ops
    k ∉ r.held → r.meaning dev k = some (.output (typing as ++ mark :: typing bs)) →
    decidedIn r.contexts (contextsInUse r.contexts r.client (r.held ++ [k])) dev r.held k = some j →
    (∀ h ∈ r.holds, h.lifted = false ∧ h.key ∉ as ∧ h.key ∉ bs) →
    stageOutputs (stageInit contexts) (ops ++ [.input ⟨k, .Down, 0⟩ dev, .contexts l, .input ⟨k, .Up, 0⟩ dev]) =
      stageOutputs (stageInit contexts) ops ++ [typing as, [], if j ∈ contextsInUse r.contexts l (r.held ++ [k]) then typing bs else []] := by
  intro r hkh hmean hj hh
  have hh : ∀ h ∈ r.holds, h.lifted = false ∧ h.cause ≠ k ∧ h.key ∉ as ∧ h.key ∉ bs :=
    fun h hm => ⟨(hh h hm).1, Combiner.not_cause contexts ops hkh h hm, (hh h hm).2⟩
  obtain ⟨_, _, hri⟩ := Combiner.after_inv ops (combInv_init contexts hr hu hs) hops
  have hlen : r.contexts.length = contexts.length := by
    have : ∀ (ops : List StageOp) (r : Combiner), (r.after ops).contexts.length = r.contexts.length := by
      intro ops
      induction ops with
      | nil => intro r; rfl
      | cons op ops ih => intro r; exact (ih _).trans (Combiner.step_length r op)
    exact this ops _
  have hpk : ∀ p ∈ r.pending, p.key ≠ k := hri.noPending hkh
  obtain ⟨a, b, j', hj', s1⟩ := press_typing hmark hpk hkh hmean hh
  rw [hj] at hj'
  cases hj'
  obtain ⟨r1, hr1⟩ : ∃ r1 : Combiner, r1 = { r with lastPressed := a, lastRepeat := b, held := r.held ++ [k], banned := [], pending := r.pending ++ [⟨k, typing bs, j⟩] } := ⟨_, rfl⟩
  rw [← hr1] at s1
  obtain ⟨r2, hr2⟩ : ∃ r2 : Combiner, r2 = (r1.step (.contexts l)).1 := ⟨_, rfl⟩
  have s2 : r1.step (.contexts l) = (r2, []) := by rw [hr2]; rfl
  have hfil : r2.pending = r1.pending.filter (fun p => (contextsInUse r.contexts l (r.held ++ [k])).contains p.ctx) := by rw [hr2, hr1]; rfl
  have s3 : (r2.step (.input ⟨k, .Up, 0⟩ dev)).2 = if j ∈ contextsInUse r.contexts l (r.held ++ [k]) then typing bs else [] := by
    have hrel := release_typing (r := r2) (k := k) (bs := bs) (j := j) (dev := dev) (by rw [hr2, hr1]; exact fun x hx => ⟨(hh x hx).1, (hh x hx).2.1, (hh x hx).2.2.2⟩) (by rw [hr2, hr1]; rfl)
    have hsplit : r2.pending = r.pending.filter (fun p => (contextsInUse r.contexts l (r.held ++ [k])).contains p.ctx) ++
        [(⟨k, typing bs, j⟩ : Pending)].filter (fun p => (contextsInUse r.contexts l (r.held ++ [k])).contains p.ctx) := by
      rw [hfil, hr1, List.filter_append]
    have hpk2 : ∀ p ∈ r.pending.filter (fun p => (contextsInUse r.contexts l (r.held ++ [k])).contains p.ctx), p.key ≠ k := fun p hp => hpk p (List.mem_filter.1 hp).1
    by_cases hjm : j ∈ contextsInUse r.contexts l (r.held ++ [k])
    · rw [if_pos hjm]
      apply hrel.1
      rw [hsplit, List.filter_cons_of_pos (by simpa using hjm), List.filter_nil]
      exact find_pending hpk2 _ rfl
    · rw [if_neg hjm]
      apply hrel.2
      rw [hsplit, List.filter_cons_of_neg (by simpa using hjm), List.filter_nil, List.append_nil, List.find?_eq_none]
      intro p hp
      simpa using hpk2 p hp
  have hacc : r.acceptsAll [.input ⟨k, .Down, 0⟩ dev, .contexts l, .input ⟨k, .Up, 0⟩ dev] := by
    refine ⟨⟨⟨.inl rfl, hk, hd.1, hd.2⟩, rfl, fun _ _ _ => ?_⟩, ?_, ?_, trivial⟩
    · show r.meaning dev k ≠ _
      rw [hmean]; simp
    · rw [s1]
      refine ⟨⟨h1, ?_⟩, trivial⟩
      rw [hr1]
      show ∀ i ∈ l, i < r.contexts.length
      rw [hlen]; exact h2
    · exact ⟨⟨.inr rfl, hk, hd.1, hd.2⟩, rfl, fun h => by cases h⟩
  rw [C83_refines contexts hr hu hs _ (Combiner.acceptsAll_append _ _ _ hops hacc), C83_refines contexts hr hu hs _ hops, Combiner.outputs_append]
  congr 1
  show r.outputs _ = _
  simp only [Combiner.outputs, s1, s2, s3]

/-! ### an example -/

namespace ReleaseOutputExample

/-- `A >> X Y ^ Z` -/
private def sampleContext : Context where
  inputs := [⟨singleKey Key.KeyA, 0⟩]
  outputs := [typing [Key.KeyX, Key.KeyY] ++ ⟨0, .OutputOnRelease, 0⟩ :: typing [Key.KeyZ]]

example : (parseConfig { typer := genericTyper, validRegex := fun _ => true, files := fun _ => none } "A >> X Y ^ Z".toList).map
    (fun c => c.contexts.map (fun x => (x.inputs, x.outputs))) = some [(sampleContext.inputs, sampleContext.outputs)] := by decide +kernel

private theorem sample_combines : ∀ ctx ∈ [sampleContext, ({} : Context)], ctx.OnlyCombines := by
  have ha : Replaceable Key.KeyA := by unfold Replaceable; decide
  intro ctx hc
  simp only [List.mem_cons, List.not_mem_nil, or_false] at hc
  rcases hc with rfl | rfl
  · refine ⟨?_, ?_, by simp [sampleContext]⟩
    · intro m hm
      simp only [sampleContext, List.mem_singleton] at hm
      subst hm
      exact ⟨[], [Key.KeyA], [Key.KeyA], rfl, by simp, by simp, by simp, by simp only [List.mem_singleton, forall_eq]; exact ⟨ha, by simp⟩, by simp⟩
    · intro o ho
      simp only [sampleContext, List.mem_singleton] at ho
      subst ho
      exact ⟨by decide, by decide⟩
  · exact ⟨by simp, by simp, by simp⟩

private theorem sample_unique : CommandsUnique [sampleContext, ({} : Context)] := by
  intro ctx h
  simp only [List.mem_cons, List.not_mem_nil, or_false] at h
  rcases h with rfl | rfl <;> (intro a ha; cases ha)

/-- the key is repeated three times, while B is held -/
example : stageOutputs (stageInit [sampleContext, {}]) ([.contexts [0, 1], .input ⟨Key.KeyB, .Down, 0⟩ 0] ++ (.input ⟨Key.KeyA, .Down, 0⟩ 0 ::
      (List.replicate 3 (.input ⟨Key.KeyA, .Down, 0⟩ 0) ++ [.input ⟨Key.KeyA, .Up, 0⟩ 0]))) =
    [[], [⟨Key.KeyB, .Down, 0⟩], [⟨Key.KeyX, .Down, 0⟩, ⟨Key.KeyX, .Up, 0⟩, ⟨Key.KeyY, .Down, 0⟩, ⟨Key.KeyY, .Up, 0⟩], [], [], [],
      [⟨Key.KeyZ, .Down, 0⟩, ⟨Key.KeyZ, .Up, 0⟩]] := by
  have hab : Replaceable Key.KeyA ∧ Replaceable Key.KeyB := by unfold Replaceable; decide
  rw [C83_on_release [sampleContext, {}] sample_combines sample_unique (.inr ⟨_, rfl, rfl⟩) [.contexts [0, 1], .input ⟨Key.KeyB, .Down, 0⟩ 0]
    ⟨⟨⟨by decide, by decide⟩, trivial⟩, ⟨⟨.inl rfl, hab.2, by decide, by decide⟩, rfl, fun _ _ _ => by decide +kernel⟩, trivial⟩ (by unfold ValidDevice; decide) hab.1
    (as := [Key.KeyX, Key.KeyY]) (bs := [Key.KeyZ]) (mark := ⟨0, .OutputOnRelease, 0⟩) rfl 3 (by decide +kernel) (by decide +kernel) (by decide +kernel)]
  decide +kernel

/-- the context becomes inactive before the key is released -/
example : stageOutputs (stageInit [sampleContext, {}]) ([.contexts [0, 1]] ++ [.input ⟨Key.KeyA, .Down, 0⟩ 0, .contexts [1], .input ⟨Key.KeyA, .Up, 0⟩ 0]) =
    [[], [⟨Key.KeyX, .Down, 0⟩, ⟨Key.KeyX, .Up, 0⟩, ⟨Key.KeyY, .Down, 0⟩, ⟨Key.KeyY, .Up, 0⟩], [], []] := by
  have hab : Replaceable Key.KeyA := by unfold Replaceable; decide
  rw [C83_on_release_contexts [sampleContext, {}] sample_combines sample_unique (.inr ⟨_, rfl, rfl⟩) [.contexts [0, 1]]
    ⟨⟨⟨by decide, by decide⟩, trivial⟩, trivial⟩ (by unfold ValidDevice; decide) hab
    (as := [Key.KeyX, Key.KeyY]) (bs := [Key.KeyZ]) (mark := ⟨0, .OutputOnRelease, 0⟩) rfl (l := [1]) (by decide) (by decide) (j := 0) (by decide +kernel) (by decide +kernel)
    (by decide +kernel) (by decide +kernel)]
  decide +kernel

end ReleaseOutputExample

end KM
