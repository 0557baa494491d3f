import Verif.Lemmas.DocForward
/-!
# Forwarded modifiers are released by the outputs
-/
namespace KM

theorem Releases.refl (ks : List Key) (o : KeySequence) : Releases ks o o := ⟨[], by simp, rfl⟩

theorem Releases.trans {ks : List Key} {a b c : KeySequence} (h : Releases ks a b) (h' : Releases ks b c) : Releases ks a c := by
  obtain ⟨ns, h1, rfl⟩ := h
  obtain ⟨ns', h2, rfl⟩ := h'
  refine ⟨ns' ++ ns, ?_, by simp⟩
  intro k hk
  rcases List.mem_append.1 hk with hk | hk
  · exact h2 k hk
  · exact h1 k hk

theorem Handled.mono {ks : List Key} {k : Key} {a b : KeySequence} (h : Handled k a) (h' : Releases ks a b) : Handled k b := by
  obtain ⟨ns, _, rfl⟩ := h'
  rcases h with h | h
  · exact .inl (by simp [h])
  · exact .inr (by simp [h])

theorem prependNot_releases {ks : List Key} {k : Key} (hk : k ∈ ks) (o : KeySequence) : Releases ks o (prependNot k o) := by
  unfold prependNot
  split
  · exact ⟨[k], by simpa using hk, rfl⟩
  · exact Releases.refl _ _

theorem prependNot_handled (k : Key) (o : KeySequence) : Handled k (prependNot k o) := by
  unfold prependNot Handled
  split
  · exact .inr (by simp)
  · next h =>
    by_cases h1 : (⟨k, .Down, 0⟩ : KeyEvent) ∈ o
    · exact .inl h1
    · refine .inr ?_
      simpa [h1] using h

/-- the contexts differ in releases -/
structure CtxReleases (ks : List Key) (c c' : CContext) : Prop where
  header : { c' with outputs := [], commandOutputs := [] } = { c with outputs := [], commandOutputs := [] }
  outputs : List.Forall₂ (Releases ks) c.outputs c'.outputs
  commands : List.Forall₂ (fun (a b : CommandOutput) => b.index = a.index ∧ Releases ks a.output b.output) c.commandOutputs c'.commandOutputs

theorem forall₂_refl' {α} {R : α → α → Prop} (h : ∀ a, R a a) (l : List α) : List.Forall₂ R l l := by
  induction l with
  | nil => exact .nil
  | cons a l ih => exact .cons (h a) ih

theorem forall₂_trans' {α} {R : α → α → Prop} (h : ∀ a b c, R a b → R b c → R a c) {l1 l2 l3 : List α}
    (h1 : List.Forall₂ R l1 l2) (h2 : List.Forall₂ R l2 l3) : List.Forall₂ R l1 l3 := by
  induction h1 generalizing l3 with
  | nil => cases h2; exact .nil
  | cons a _ ih =>
    cases h2 with
    | cons b r => exact .cons (h _ _ _ a b) (ih r)

theorem CtxReleases.refl (ks : List Key) (c : CContext) : CtxReleases ks c c :=
  ⟨rfl, forall₂_refl' (Releases.refl ks) _, forall₂_refl' (fun a => ⟨rfl, Releases.refl ks _⟩) _⟩

theorem CtxReleases.trans {ks : List Key} {a b c : CContext} (h : CtxReleases ks a b) (h' : CtxReleases ks b c) : CtxReleases ks a c :=
  ⟨h'.header.trans h.header, forall₂_trans' (R := Releases ks) (fun _ _ _ x y => Releases.trans x y) h.outputs h'.outputs,
    forall₂_trans' (fun _ _ _ x y => ⟨y.1.trans x.1, x.2.trans y.2⟩) h.commands h'.commands⟩

theorem CtxReleases.inputs {ks : List Key} {a b : CContext} (h : CtxReleases ks a b) : b.inputs = a.inputs := by
  have := h.header
  injection this

/-- all contexts differ in releases -/
abbrev AllReleases (ks : List Key) (cs cs' : List CContext) : Prop := List.Forall₂ (CtxReleases ks) cs cs'

theorem AllReleases.refl (ks : List Key) (cs : List CContext) : AllReleases ks cs cs := forall₂_refl' (CtxReleases.refl ks) cs

theorem AllReleases.trans {ks : List Key} {a b c : List CContext} (h : AllReleases ks a b) (h' : AllReleases ks b c) : AllReleases ks a c :=
  forall₂_trans' (R := CtxReleases ks) (fun _ _ _ x y => CtxReleases.trans x y) h h'

theorem forall₂_modify {α} {R : α → α → Prop} (h : ∀ a, R a a) (f : α → α) (hf : ∀ a, R a (f a)) (l : List α) : ∀ n, List.Forall₂ R l (l.modify n f) := by
  induction l with
  | nil => intro n; simp [List.modify_nil]
  | cons a l ih =>
    intro n
    cases n with
    | zero => rw [List.modify_zero_cons]; exact .cons (hf a) (forall₂_refl' h l)
    | succ n => rw [List.modify_succ_cons]; exact .cons (h a) (ih n)

theorem forall₂_map' {α} {R : α → α → Prop} (f : α → α) (hf : ∀ a, R a (f a)) (l : List α) : List.Forall₂ R l (l.map f) := by
  induction l with
  | nil => exact .nil
  | cons a l ih => exact .cons (hf a) ih

theorem suppressInput_releases {ks : List Key} {k : Key} (hk : k ∈ ks) (ci : Nat) (cs : List CContext) (i : Input) :
    AllReleases ks cs (suppressInput ci k cs i) := by
  unfold suppressInput
  split
  · split
    · refine forall₂_modify (CtxReleases.refl ks) _ ?_ cs ci
      intro c
      exact ⟨rfl, forall₂_modify (Releases.refl ks) _ (prependNot_releases hk) _ _, forall₂_refl' (fun a => ⟨rfl, Releases.refl ks _⟩) _⟩
    · refine forall₂_map' _ ?_ cs
      intro c
      refine ⟨rfl, forall₂_refl' (Releases.refl ks) _, forall₂_map' _ ?_ _⟩
      intro o
      split
      · exact ⟨rfl, prependNot_releases hk _⟩
      · exact ⟨rfl, Releases.refl ks _⟩
  · exact AllReleases.refl ks cs

/-- what is to be reached for an input of a context -/
def InputHandled (ci : Nat) (k : Key) (i : Input) (cs : List CContext) : Prop := ⟨k, .Down, 0⟩ ∈ i.input →
  (0 ≤ i.outputIndex → ∀ c, cs[ci]? = some c → ∀ o, c.outputs[i.outputIndex.toNat]? = some o → Handled k o) ∧
  (¬ 0 ≤ i.outputIndex → ∀ c ∈ cs, ∀ o ∈ c.commandOutputs, o.index = i.outputIndex → Handled k o.output)

theorem forall₂_getElem? {α β} {R : α → β → Prop} {l : List α} {l' : List β} (h : List.Forall₂ R l l') : ∀ {n : Nat} {b : β}, l'[n]? = some b →
    ∃ a, l[n]? = some a ∧ R a b := by
  induction h with
  | nil => intro n b hb; simp at hb
  | cons hab _ ih =>
    intro n b hb
    cases n with
    | zero => simp at hb; subst hb; exact ⟨_, rfl, hab⟩
    | succ n => simp at hb; obtain ⟨a, ha, hr⟩ := ih hb; exact ⟨a, by simpa using ha, hr⟩

theorem forall₂_mem {α β} {R : α → β → Prop} {l : List α} {l' : List β} (h : List.Forall₂ R l l') {b : β} (hb : b ∈ l') :
    ∃ a ∈ l, R a b := by
  obtain ⟨n, hn⟩ := List.getElem?_of_mem hb
  obtain ⟨a, ha, hr⟩ := forall₂_getElem? h hn
  exact ⟨a, List.mem_of_getElem? ha, hr⟩

theorem InputHandled.mono {ks : List Key} {ci : Nat} {k : Key} {i : Input} {cs cs' : List CContext} (h : InputHandled ci k i cs)
    (hr : AllReleases ks cs cs') : InputHandled ci k i cs' := by
  intro hd
  obtain ⟨h1, h2⟩ := h hd
  constructor
  · intro h0 c hc o ho
    obtain ⟨c0, hc0, r⟩ := forall₂_getElem? hr hc
    obtain ⟨o0, ho0, r'⟩ := forall₂_getElem? r.outputs ho
    exact (h1 h0 c0 hc0 o0 ho0).mono r'
  · intro h0 c hc o ho e
    obtain ⟨c0, hc0, r⟩ := forall₂_mem hr hc
    obtain ⟨o0, ho0, r'⟩ := forall₂_mem r.commands ho
    exact (h2 h0 c0 hc0 o0 ho0 (r'.1 ▸ e)).mono r'.2

theorem suppressInput_handled (ci : Nat) (k : Key) (cs : List CContext) (i : Input) : InputHandled ci k i (suppressInput ci k cs i) := by
  intro hd
  unfold suppressInput
  rw [if_pos (by simpa using hd)]
  constructor
  · intro h0 c hc o ho
    rw [if_pos h0] at hc
    rw [List.getElem?_modify_eq, Option.map_eq_map, Option.map_eq_some_iff] at hc
    obtain ⟨c0, _, rfl⟩ := hc
    rw [List.getElem?_modify_eq, Option.map_eq_map, Option.map_eq_some_iff] at ho
    obtain ⟨o0, _, rfl⟩ := ho
    exact prependNot_handled k o0
  · intro h0 c hc o ho e
    rw [if_neg h0] at hc
    obtain ⟨c0, _, rfl⟩ := List.mem_map.1 hc
    obtain ⟨o0, _, rfl⟩ := List.mem_map.1 ho
    by_cases hi : o0.index == i.outputIndex
    · simp only [hi, if_true]
      exact prependNot_handled k _
    · rw [if_neg hi] at e
      exact absurd (beq_iff_eq.2 e) hi

/-- folding keeps a relation -/
theorem foldl_rel {α β} {R : β → β → Prop} (hr : ∀ b, R b b) (ht : ∀ a b c, R a b → R b c → R a c) {f : β → α → β} {l : List α}
    (hf : ∀ b, ∀ x ∈ l, R b (f b x)) : ∀ b, R b (l.foldl f b) := by
  induction l with
  | nil => intro b; exact hr b
  | cons x l ih =>
    intro b
    exact ht _ _ _ (hf b x (by simp)) (ih (fun b y hy => hf b y (by simp [hy])) _)

/-- folding reaches what each step reaches -/
theorem foldl_reach {α β} {R : β → β → Prop} (hr : ∀ b, R b b) (ht : ∀ a b c, R a b → R b c → R a c) {P : α → β → Prop}
    (hm : ∀ x a b, P x a → R a b → P x b) {f : β → α → β} {l : List α}
    (hf : ∀ b, ∀ x ∈ l, R b (f b x)) : ∀ b, (∀ b', ∀ x ∈ l, R b b' → P x (f b' x)) → ∀ x ∈ l, P x (l.foldl f b) := by
  induction l with
  | nil => intro b _ x hx; cases hx
  | cons y l ih =>
    intro b hp x hx
    have hf' : ∀ b, ∀ x ∈ l, R b (f b x) := fun b y hy => hf b y (by simp [hy])
    rw [List.foldl_cons]
    rcases List.mem_cons.1 hx with rfl | hx
    · exact hm _ _ _ (hp b x (by simp) (hr b)) (foldl_rel hr ht hf' _)
    · exact ih hf' (f b y) (fun b' z hz hr' => hp b' z (by simp [hz]) (ht _ _ _ (hf b y (by simp)) hr')) x hx

/-- all inputs of a context, for one modifier -/
def suppressKey (ci : Nat) (cs : List CContext) (k : Key) : List CContext :=
  match cs[ci]? with
  | some c => c.inputs.foldl (suppressInput ci k) cs
  | none => cs

theorem suppressForwarded_eq (ks : List Key) (cs : List CContext) :
    suppressForwarded ks cs = (List.range cs.length).foldl (fun cs ci => ks.foldl (suppressKey ci) cs) cs := rfl

theorem suppressKey_releases {ks : List Key} {k : Key} (hk : k ∈ ks) (ci : Nat) (cs : List CContext) : AllReleases ks cs (suppressKey ci cs k) := by
  unfold suppressKey
  split
  · exact foldl_rel (AllReleases.refl ks) (fun _ _ _ x y => AllReleases.trans x y) (fun b x _ => suppressInput_releases hk ci b x) _
  · exact AllReleases.refl ks cs

theorem suppressKey_handled {ks : List Key} {k : Key} (hk : k ∈ ks) (ci : Nat) (cs : List CContext) :
    ∀ c, cs[ci]? = some c → ∀ i ∈ c.inputs, InputHandled ci k i (suppressKey ci cs k) := by
  intro c hc
  unfold suppressKey
  rw [hc]
  exact foldl_reach (P := fun i cs => InputHandled ci k i cs) (AllReleases.refl ks) (fun _ _ _ x y => AllReleases.trans x y)
    (fun _ _ _ h hr => h.mono hr) (fun b x _ => suppressInput_releases hk ci b x) cs (fun b' x _ _ => suppressInput_handled ci k b' x)

theorem suppressForwarded_releases (ks : List Key) (cs : List CContext) : AllReleases ks cs (suppressForwarded ks cs) := by
  rw [suppressForwarded_eq]
  exact foldl_rel (AllReleases.refl ks) (fun _ _ _ x y => AllReleases.trans x y) (fun b ci _ =>
    foldl_rel (AllReleases.refl ks) (fun _ _ _ x y => AllReleases.trans x y) (fun b' k hk => suppressKey_releases hk ci b') b) cs

theorem suppressForwarded_handled (ks : List Key) (cs : List CContext) : ∀ ci c, cs[ci]? = some c → ∀ k ∈ ks, ∀ i ∈ c.inputs,
    InputHandled ci k i (suppressForwarded ks cs) := by
  intro ci c hc k hk i hi
  rw [suppressForwarded_eq]
  have step : ∀ (b : List CContext) (ci : Nat), AllReleases ks b (ks.foldl (suppressKey ci) b) := fun b ci =>
    foldl_rel (AllReleases.refl ks) (fun _ _ _ x y => AllReleases.trans x y) (fun b' k hk => suppressKey_releases hk ci b') b
  refine foldl_reach (P := fun ci cs' => ∀ c, cs[ci]? = some c → ∀ k ∈ ks, ∀ i ∈ c.inputs, InputHandled ci k i cs')
    (AllReleases.refl ks) (fun _ _ _ x y => AllReleases.trans x y)
    (fun _ _ _ h hr c hc k hk i hi => (h c hc k hk i hi).mono hr) (fun b ci _ => step b ci) cs ?_ ci ?_ c hc k hk i hi
  · intro b' ci' _ hr c' hc' k' hk' i' hi'
    refine foldl_reach (P := fun k cs' => InputHandled ci' k i' cs') (AllReleases.refl ks) (fun _ _ _ x y => AllReleases.trans x y)
      (fun _ _ _ h hr => h.mono hr) (fun b k hk => suppressKey_releases hk ci' b) b' ?_ k' hk'
    intro b'' k'' hk'' hr''
    have hall := hr.trans hr''
    have hlt : ci' < b''.length := by
      rw [← hall.length_eq]
      exact (List.getElem?_eq_some_iff.1 hc').1
    obtain ⟨c0, hc0, r⟩ := forall₂_getElem? hall (List.getElem?_eq_getElem hlt)
    rw [hc'] at hc0
    injection hc0 with hc0
    subst hc0
    exact suppressKey_handled hk'' ci' b'' _ (List.getElem?_eq_getElem hlt) i' (by rw [r.inputs]; exact hi')
  · exact List.mem_range.2 (List.getElem?_eq_some_iff.1 hc).1

/-! ### what remains of the meaning -/

theorem resolved_releases {ks : List Key} {commands : List Str} {outs outs' : List KeySequence} (hr : List.Forall₂ (Releases ks) outs outs') (is : List Input) :
    ∀ (ms : List (KeySequence × Aim)), resolved commands outs is = ms.map (fun m => (m.1, some m.2)) →
      (∀ i ∈ is, ∀ k ∈ ks, ⟨k, .Down, 0⟩ ∈ i.input → 0 ≤ i.outputIndex → ∀ o, outs'[i.outputIndex.toNat]? = some o → Handled k o) →
      ∃ ms' : List (KeySequence × Aim), resolved commands outs' is = ms'.map (fun m => (m.1, some m.2)) ∧
        List.Forall₂ (fun m m' => m'.1 = m.1 ∧ AimReleases ks m.1 m.2 m'.2) ms ms' := by
  induction is with
  | nil =>
    intro ms h _
    cases ms with
    | nil => exact ⟨[], rfl, .nil⟩
    | cons m ms => cases h
  | cons i is ih =>
    intro ms h hh
    cases ms with
    | nil => cases h
    | cons m ms =>
    obtain ⟨mi, ma⟩ := m
    injection h with h1 h2
    injection h1 with h3 h4
    simp only at h3 h4
    obtain ⟨ms', e, r⟩ := ih ms h2 (fun j hj => hh j (by simp [hj]))
    by_cases h0 : 0 ≤ i.outputIndex
    · rw [aimOf, if_pos h0, Option.map_eq_some_iff] at h4
      obtain ⟨o, ho, rfl⟩ := h4
      have hlt : i.outputIndex.toNat < outs'.length := by
        rw [← hr.length_eq]
        exact (List.getElem?_eq_some_iff.1 ho).1
      have ho' := List.getElem?_eq_getElem hlt
      obtain ⟨o0, ho0, r0⟩ := forall₂_getElem? hr ho'
      rw [ho] at ho0
      injection ho0 with ho0
      subst ho0
      refine ⟨(mi, .keys outs'[i.outputIndex.toNat]) :: ms', ?_, .cons ⟨rfl, .keys r0 ?_⟩ r⟩
      · rw [resolved, List.map_cons, List.map_cons, aimOf, if_pos h0, ho', h3]
        exact congrArg _ e
      · intro k hk hd
        rw [← h3] at hd
        exact hh i (by simp) k hk hd h0 _ ho'
    · rw [aimOf, if_neg h0, Option.map_eq_some_iff] at h4
      obtain ⟨n, hn, rfl⟩ := h4
      refine ⟨(mi, .command n) :: ms', ?_, .cons ⟨rfl, .command⟩ r⟩
      rw [resolved, List.map_cons, List.map_cons, aimOf, if_neg h0, hn, h3]
      exact congrArg _ e

/-- a context after modifiers are suppressed -/
theorem CtxReleases.means {ks : List Key} {commands : List Str} {c c' : CContext} {g : Group} (hr : CtxReleases ks c c') (hm : Means commands c g)
    (hh : ∀ i ∈ c.inputs, ∀ k ∈ ks, ⟨k, .Down, 0⟩ ∈ i.input → 0 ≤ i.outputIndex → ∀ o, c'.outputs[i.outputIndex.toNat]? = some o → Handled k o) :
    ∃ g', Means commands c' g' ∧ GroupReleases ks g g' := by
  obtain ⟨ms', e, r⟩ := resolved_releases hr.outputs c.inputs g.mappings hm.mappings hh
  have hco : ∃ cos', c'.commandOutputs = cos'.map (fun (o : Str × KeySequence) => (⟨o.2, commandNumber commands o.1⟩ : CommandOutput)) ∧
      List.Forall₂ (fun c c' => c'.1 = c.1 ∧ Releases ks c.2 c'.2) g.commandOutputs cos' := by
    have h1 := hr.commands
    rw [hm.commandOutputs] at h1
    revert h1
    generalize c'.commandOutputs = l'
    generalize g.commandOutputs = l
    intro h1
    clear e r hm hh hr
    induction l generalizing l' with
    | nil => cases h1; exact ⟨[], rfl, .nil⟩
    | cons a l ih =>
      rw [List.map_cons] at h1
      cases h1 with
      | @cons _ b _ _ hab hrest =>
        obtain ⟨cos', e, r⟩ := ih _ hrest
        refine ⟨(a.1, b.output) :: cos', ?_, .cons ⟨rfl, hab.2⟩ r⟩
        rw [List.map_cons, ← e]
        obtain ⟨bo, bi⟩ := b
        simp only at hab
        rw [hab.1]
  obtain ⟨cos', e', r'⟩ := hco
  refine ⟨⟨g.header, ms', cos'⟩, ⟨?_, ?_, e'⟩, ⟨rfl, r, r'⟩⟩
  · have := hr.header
    injection this with a1 a2 a3 a4 a5 a6 a7 _ _ a8 a9 a10 a11
    rw [← hm.header]
    simp only [a1, a2, a3, a4, a5, a6, a8, a9, a10, a11]
  · rw [hr.inputs]; exact e

/-- **forwarded modifiers are suppressed in all contexts** -/
theorem means_suppress {commands : List Str} (hn : commands.Nodup) (ks : List Key) {cs : List CContext} {gs : List Group}
    (h : List.Forall₂ (Means commands) cs gs) : ∃ gs', List.Forall₂ (Means commands) (suppressForwarded ks cs) gs' ∧ Suppressed ks gs gs' := by
  have hr := suppressForwarded_releases ks cs
  have hh := suppressForwarded_handled ks cs
  obtain ⟨cs', hcs'⟩ : ∃ cs', cs' = suppressForwarded ks cs := ⟨_, rfl⟩
  rw [← hcs'] at hr hh ⊢
  have hout : ∀ (ci : Nat) (c c' : CContext), cs[ci]? = some c → cs'[ci]? = some c' → ∀ i ∈ c.inputs, ∀ k ∈ ks, ⟨k, .Down, 0⟩ ∈ i.input → 0 ≤ i.outputIndex →
      ∀ o, c'.outputs[i.outputIndex.toNat]? = some o → Handled k o :=
    fun ci c c' hc hc' i hi k hk hd h0 o ho => ((hh ci c hc k hk i hi) hd).1 h0 c' hc' o ho
  have hcmd : ∀ c ∈ cs, ∀ k ∈ ks, ∀ i ∈ c.inputs, ⟨k, .Down, 0⟩ ∈ i.input → ¬ 0 ≤ i.outputIndex → ∀ c' ∈ cs', ∀ o ∈ c'.commandOutputs,
      o.index = i.outputIndex → Handled k o.output := by
    intro c hc k hk i hi hd h0
    obtain ⟨ci, hci⟩ := List.getElem?_of_mem hc
    exact ((hh ci c hci k hk i hi) hd).2 h0
  clear hcs' hh
  have hgs : ∃ gs', List.Forall₂ (Means commands) cs' gs' ∧ List.Forall₂ (GroupReleases ks) gs gs' := by
    clear hcmd
    induction hr generalizing gs with
    | nil => cases h; exact ⟨[], .nil, .nil⟩
    | @cons c c' cs cs' hc _ ih =>
      cases h with
      | @cons _ g _ gs hm hms =>
        obtain ⟨gs', h1, h2⟩ := ih hms (fun ci a b ha hb => hout (ci + 1) a b (by simpa using ha) (by simpa using hb))
        obtain ⟨g', h3, h4⟩ := hc.means hm (hout 0 c c' rfl rfl)
        exact ⟨g' :: gs', .cons h3 h1, .cons h4 h2⟩
  obtain ⟨gs', h1, h2⟩ := hgs
  refine ⟨gs', h1, h2, ?_⟩
  intro k hk g hg m hm name he hd g2 hg2 co hco hname
  obtain ⟨c', hc', hmean⟩ := forall₂_mem h1 hg
  obtain ⟨c, hc, hrel⟩ := forall₂_mem hr hc'
  obtain ⟨c2, hc2, hmean2⟩ := forall₂_mem h1 hg2
  have hmem : (m.1, some m.2) ∈ c'.inputs.map (fun i => (i.input, aimOf commands c'.outputs i.outputIndex)) := by
    rw [hmean.mappings]
    exact List.mem_map_of_mem (f := fun (m : KeySequence × Aim) => (m.1, some m.2)) hm
  obtain ⟨i, hi, hie⟩ := List.mem_map.1 hmem
  injection hie with hi1 hi2
  have h0 : ¬ 0 ≤ i.outputIndex := by
    intro h0
    rw [aimOf, if_pos h0, he, Option.map_eq_some_iff] at hi2
    obtain ⟨_, _, h⟩ := hi2
    cases h
  rw [aimOf, if_neg h0, he, Option.map_eq_some_iff] at hi2
  obtain ⟨n, hn', hne⟩ := hi2
  injection hne with hne
  subst hne
  have hidx : i.outputIndex = commandNumber commands n := by
    obtain ⟨hlt, hget⟩ := List.getElem?_eq_some_iff.1 hn'
    have : commands.idxOf n = (-i.outputIndex - 1).toNat := by
      rw [← hget]
      exact hn.idxOf_getElem _ hlt
    unfold commandNumber
    rw [this]
    omega
  have hcomem : (⟨co.2, commandNumber commands co.1⟩ : CommandOutput) ∈ c2.commandOutputs := by
    rw [hmean2.commandOutputs]
    exact List.mem_map_of_mem (f := fun (o : Str × KeySequence) => (⟨o.2, commandNumber commands o.1⟩ : CommandOutput)) hco
  rw [hrel.inputs] at hi
  exact hcmd c hc k hk i hi (by rw [hi1]; exact hd) h0 c2 hc2 _ hcomem (by rw [hname, hidx])

theorem Suppressed.none (gs : List Group) : Suppressed [] gs gs := by
  refine ⟨?_, by intro k hk; cases hk⟩
  refine forall₂_refl' ?_ gs
  intro g
  refine ⟨rfl, forall₂_refl' ?_ _, forall₂_refl' ?_ _⟩
  · intro m
    refine ⟨rfl, ?_⟩
    obtain ⟨i, a⟩ := m
    cases a with
    | keys o => exact .keys (Releases.refl _ _) (by intro k hk; cases hk)
    | command n => exact .command
  · intro c
    exact ⟨rfl, Releases.refl _ _⟩

/-- **the contexts of the configuration** -/
theorem finish_groups {s : CState} {d : Doc} (hs : DocRel s d) (hok : d.Ok) (hd : d.Shape) :
    ∃ gs, List.Forall₂ (Means d.commands) s.finishContexts gs ∧ Suppressed d.forward d.groups gs := by
  have h := finish_means hok hd
  unfold CState.finishContexts
  rw [hs.forward, hs.contexts, hs.logical]
  simp only []
  by_cases hf : d.forward = []
  · rw [hf]
    rw [hf] at h
    exact ⟨_, h, Suppressed.none _⟩
  · rw [if_neg (by simpa using hf)]
    exact means_suppress hok.nodup d.forward h

end KM
