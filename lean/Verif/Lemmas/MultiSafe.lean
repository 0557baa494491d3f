import Verif.Lemmas.HistoryRun
/-!
# No assertion fails in stages in sequence

The first stage gets what is input. The other ones get what the stages in front of them output, and
additionally timeouts and virtual keys.
-/
namespace KM

/-- no release of a key which is recorded has a value -/
def NoValues (T : KeySequence) : Prop :=
  ∀ e ∈ T, e.state = .Up → isVirtualKey e.key = false → e.key ≠ Key.timeout → e.value = 0

theorem NoValues.fit {T : KeySequence} (h : NoValues T) : InputsFit T := by
  intro k hk1 hk2
  refine Or.inl ?_
  intro e he hu
  have hk := ofKey_key he
  exact h e (List.mem_filter.mp he).1 hu (by rw [hk]; exact hk1) (by rw [hk]; exact hk2)

theorem NoValues.snoc {T : KeySequence} (h : NoValues T) {e : KeyEvent}
    (he : e.state = .Up → isVirtualKey e.key = false → e.key ≠ Key.timeout → e.value = 0) : NoValues (T ++ [e]) := by
  intro x hx
  rcases List.mem_append.mp hx with hx | hx
  · exact h x hx
  · rw [List.mem_singleton] at hx; rw [hx]; exact he

theorem StageOk.update {c : Cfg} (hc : c.Safe) {T : KeySequence} {s : S} (h : StageOk c T s) {ev : KeyEvent} {dev : Int}
    (hi : InputSafe ev dev) (hv : InputsFit (T ++ [ev])) :
    StageOk c (T ++ [ev]) (update c s ev dev).1 ∧ ∀ e ∈ (update c s ev dev).2, CanEmit e :=
  (StageOk.step (st := (c, s)) hc h (op := .input ev dev) hi hv).2

/-- the state of a stage which is not the first -/
structure LaterOk (c : Cfg) (s : S) : Prop where
  safe : c.Safe
  stage : ∃ T, StageOk c T s ∧ NoValues T

theorem LaterOk.update {c : Cfg} {s : S} (h : LaterOk c s) {ev : KeyEvent} {dev : Int} (hi : InputSafe ev dev)
    (he : ev.state = .Up → isVirtualKey ev.key = false → ev.key ≠ Key.timeout → ev.value = 0) :
    LaterOk c (update c s ev dev).1 ∧ ∀ e ∈ (update c s ev dev).2, CanEmit e := by
  obtain ⟨T, h1, h2⟩ := h.stage
  have h3 := h2.snoc he
  obtain ⟨g1, g2⟩ := h1.update h.safe hi h3.fit
  exact ⟨⟨h.safe, _, g1, h3⟩, g2⟩

/-- what a stage emits, and is not for the server, can be input in the next one -/
theorem CanEmit.input {e : KeyEvent} (h : CanEmit e) (hs : isServerEvent e = false) {dev : Int} (hd : -2 ≤ dev ∧ dev < 64) :
    InputSafe e dev ∧ (e.state = .Up → e.value = 0) := by
  unfold isServerEvent at hs
  simp only [Bool.or_eq_false_iff, beq_eq_false_iff_ne, ne_eq] at hs
  obtain ⟨h1, h2⟩ := h.resolve_left hs.1.1
  refine ⟨⟨?_, ?_, hd⟩, ?_⟩
  · rcases h1 with h1 | h1
    · exact Or.inl h1
    · exact Or.inr h1.1
  · rcases h2 with h2 | h2
    · exact h2
    · rw [hs.2] at h2; exact absurd h2 (by simp)
  · intro hu
    rcases h1 with h1 | h1
    · rw [h1] at hu; exact absurd hu (by simp)
    · exact h1.2

theorem append_all {P : α → Prop} {a b : List α} (ha : ∀ e ∈ a, P e) (hb : ∀ e ∈ b, P e) : ∀ e ∈ a ++ b, P e :=
  fun e he => (List.mem_append.mp he).elim (ha e) (hb e)

theorem LaterOk.stageInput {c : Cfg} {dev : Int} (hd : -2 ≤ dev ∧ dev < 64) {l : KeySequence} (hl : ∀ e ∈ l, CanEmit e) :
    ∀ {s : S}, LaterOk c s → LaterOk c (stageInput c dev false s l).1 ∧ ∀ e ∈ (stageInput c dev false s l).2, CanEmit e := by
  induction l with
  | nil => exact fun h => ⟨h, by simp [KM.stageInput]⟩
  | cons e es ih =>
    intro s h
    have hes : ∀ e ∈ es, CanEmit e := fun e he => hl e (List.mem_cons_of_mem _ he)
    unfold KM.stageInput
    split
    · have := ih hes h
      exact ⟨this.1, append_all (a := [e]) (by simpa using hl e (by simp)) this.2⟩
    · next hs =>
      simp only [Bool.not_false, Bool.true_and, Bool.not_eq_true] at hs
      have hi := (hl e (by simp)).input hs hd
      have h1 := h.update hi.1 (fun hu _ _ => hi.2 hu)
      have h2 := ih hes h1.1
      exact ⟨h2.1, append_all h1.2 h2.2⟩

theorem contextInput_stageInput (c : Cfg) (s : S) (l : KeySequence) :
    contextInput c s l = KM.stageInput c noDeviceIndex false s l := by
  induction l generalizing s with
  | nil => rfl
  | cons e es ih => simp only [contextInput, KM.stageInput, Bool.not_false, Bool.true_and, ih]

theorem LaterOk.stageEvent {c : Cfg} {dev : Int} {ev : KeyEvent} (hi : InputSafe ev dev) {s : S} (h : LaterOk c s) :
    LaterOk c (stageEvent c dev false s ev).1 ∧ ∀ e ∈ (stageEvent c dev false s ev).2, CanEmit e := by
  unfold KM.stageEvent
  split
  · next hs =>
    simp only [Bool.not_false, Bool.true_and, Bool.or_eq_true, beq_iff_eq] at hs
    refine h.update hi ?_
    intro _ h1 h2
    rcases hs with hs | hs
    · exact absurd hs h2
    · rw [h1] at hs; exact absurd hs (by simp)
  · exact ⟨h, by simp⟩

theorem LaterOk.updateGo {ev : KeyEvent} {dev : Int} (hi : InputSafe ev dev) (l : List (Cfg × S)) :
    ∀ (buf : KeySequence), (∀ e ∈ buf, CanEmit e) → (∀ p ∈ l, LaterOk p.1 p.2) →
      (∀ p ∈ (updateGo ev dev false l buf).1, LaterOk p.1 p.2) ∧ ∀ e ∈ (updateGo ev dev false l buf).2, CanEmit e := by
  induction l with
  | nil => intro buf hb h; exact ⟨h, hb⟩
  | cons p l ih =>
    intro buf hb h
    have h1 := (h p (by simp)).stageEvent hi
    have h2 := h1.1.stageInput hi.device hb
    have h3 := ih _ (append_all h1.2 h2.2) (fun p hp => h p (List.mem_cons_of_mem _ hp))
    unfold KM.updateGo
    refine ⟨?_, h3.2⟩
    intro q hq
    rcases List.mem_cons.mp hq with rfl | hq
    · exact h2.1
    · exact h3.1 q hq

/-- the state of stages in sequence to which `T` was input -/
structure MSOk (T : KeySequence) (m : MS) : Prop where
  buf : m.buf = []
  first : ∀ p, m.stages.head? = some p → p.1.Safe ∧ StageOk p.1 T p.2
  later : ∀ p ∈ m.stages.tail, LaterOk p.1 p.2

theorem MSOk.update {T : KeySequence} {m : MS} (h : MSOk T m) {ev : KeyEvent} {dev : Int} (hi : InputSafe ev dev)
    (hv : InputsFit (T ++ [ev])) (hne : m.stages ≠ []) :
    MSOk (T ++ [ev]) (m.update ev dev).1 ∧ ∀ e ∈ (m.update ev dev).2, CanEmit e := by
  obtain ⟨stages, ac, buf⟩ := m
  obtain ⟨hb, hf, hl⟩ := h
  simp only [] at hb hf hl hne
  subst hb
  cases stages with
  | nil => exact absurd rfl hne
  | cons p l =>
    obtain ⟨c, s⟩ := p
    have h1 := hf (c, s) rfl
    have h2 := h1.2.update h1.1 hi hv
    have e1 : KM.stageEvent c dev true s ev = (s, []) := by simp [KM.stageEvent]
    have e2 : KM.stageInput c dev true s [ev] = KM.update c s ev dev := by
      simp only [KM.stageInput, Bool.not_true, Bool.false_and, Bool.false_eq_true, if_false, List.append_nil]
    have h3 := LaterOk.updateGo hi l (KM.update c s ev dev).2 h2.2 hl
    unfold MS.update
    simp only [List.nil_append]
    unfold KM.updateGo
    rw [e1]
    simp only [List.nil_append]
    rw [e2]
    refine ⟨⟨rfl, ?_, ?_⟩, h3.2⟩
    · intro p hp
      simp only [List.head?_cons, Option.some_inj] at hp
      subst hp
      exact ⟨h1.1, h2.1⟩
    · exact h3.1

theorem stageIndices_safe {indices : List Int} (hs : indices.Pairwise (· ≤ ·)) (offset size : Nat) :
    (stageIndices indices offset size).Pairwise (· ≤ ·) ∧ ∀ i ∈ stageIndices indices offset size, i < size := by
  unfold stageIndices
  constructor
  · rw [List.pairwise_map]
    refine List.Pairwise.imp_of_mem ?_ (hs.filter _)
    intro a b ha hb hab
    omega
  · intro i hi
    simp only [List.mem_map, List.mem_filter, Bool.and_eq_true, decide_eq_true_eq] at hi
    obtain ⟨x, ⟨_, h1, h2⟩, rfl⟩ := hi
    omega

theorem LaterOk.contexts {c : Cfg} {s : S} (h : LaterOk c s) {l : List Nat}
    (hl : l.Pairwise (· ≤ ·) ∧ ∀ i ∈ l, i < c.contexts.length) :
    LaterOk c (setActiveClientContexts c s l).1 ∧ ∀ e ∈ (setActiveClientContexts c s l).2, CanEmit e := by
  obtain ⟨T, h1, h2⟩ := h.stage
  have := (StageOk.step (st := (c, s)) h.safe h1 (op := .contexts l) hl
    (by rw [show inputEvents [StageOp.contexts l] = [] from rfl, List.append_nil]; exact h2.fit)).2
  rw [show inputEvents [StageOp.contexts l] = [] from rfl, List.append_nil] at this
  exact ⟨⟨h.safe, T, this.1, h2⟩, this.2⟩

theorem LaterOk.setActiveGo {indices : List Int} (hs : indices.Pairwise (· ≤ ·)) (l : List (Cfg × S)) :
    ∀ (offset : Nat) (buf : KeySequence), (∀ e ∈ buf, CanEmit e) → (∀ p ∈ l, LaterOk p.1 p.2) →
      (∀ p ∈ (setActiveGo indices l offset buf).1, LaterOk p.1 p.2) ∧
      ∀ e ∈ (setActiveGo indices l offset buf).2, CanEmit e := by
  induction l with
  | nil => intro _ buf hb h; exact ⟨h, hb⟩
  | cons p l ih =>
    intro offset buf hb h
    have h1 := (h p (by simp)).stageInput (dev := noDeviceIndex) (by decide) hb
    rw [← contextInput_stageInput] at h1
    have h2 := h1.1.contexts (stageIndices_safe hs offset p.1.contexts.length)
    have h3 := ih (offset + p.1.contexts.length) _ (append_all h1.2 h2.2) (fun p hp => h p (List.mem_cons_of_mem _ hp))
    unfold KM.setActiveGo
    refine ⟨?_, h3.2⟩
    intro q hq
    rcases List.mem_cons.mp hq with rfl | hq
    · exact h2.1
    · exact h3.1 q hq

theorem MSOk.contexts {T : KeySequence} {m : MS} (h : MSOk T m) (hv : InputsFit T) {indices : List Int}
    (hs : indices.Pairwise (· ≤ ·)) :
    MSOk T (m.setActiveClientContexts indices).1.reuseBuffer ∧ ∀ e ∈ (m.setActiveClientContexts indices).2, CanEmit e := by
  obtain ⟨stages, ac, buf⟩ := m
  obtain ⟨hb, hf, hl⟩ := h
  simp only [] at hb hf hl
  subst hb
  cases stages with
  | nil => exact ⟨⟨rfl, by intro p hp; simp [MS.setActiveClientContexts, KM.setActiveGo, MS.reuseBuffer] at hp,
      by simp [MS.setActiveClientContexts, KM.setActiveGo, MS.reuseBuffer]⟩,
      by simp [MS.setActiveClientContexts, KM.setActiveGo]⟩
  | cons p l =>
    obtain ⟨c, s⟩ := p
    have h1 := hf (c, s) rfl
    have h2 := StageOk.step (st := (c, s)) h1.1 h1.2 (op := .contexts (stageIndices indices 0 c.contexts.length))
      (stageIndices_safe hs 0 c.contexts.length)
      (by rw [show inputEvents [StageOp.contexts _] = [] from rfl, List.append_nil]; exact hv)
    rw [show inputEvents [StageOp.contexts _] = [] from rfl, List.append_nil] at h2
    have h3 := LaterOk.setActiveGo hs l (0 + c.contexts.length) _ h2.2.2 hl
    unfold MS.setActiveClientContexts
    simp only []
    unfold KM.setActiveGo
    refine ⟨⟨rfl, ?_, ?_⟩, h3.2⟩
    · intro p hp
      simp only [MS.reuseBuffer, List.head?_cons, Option.some_inj] at hp
      subst hp
      exact ⟨h1.1, h2.2.1⟩
    · exact h3.1

theorem LaterOk.evaluate {c : Cfg} {s : S} (h : LaterOk c s) (rx ds) : LaterOk (c.evaluateDeviceFilters rx ds) s := by
  obtain ⟨T, h1, h2⟩ := h.stage
  have := (StageOk.step (st := (c, s)) h.safe h1 (op := .devices rx ds) trivial
    (by rw [show inputEvents [StageOp.devices rx ds] = [] from rfl, List.append_nil]; exact h2.fit))
  rw [show inputEvents [StageOp.devices rx ds] = [] from rfl, List.append_nil] at this
  exact ⟨this.1, T, this.2.1, h2⟩

theorem MSOk.devices {T : KeySequence} {m : MS} (h : MSOk T m) (hv : InputsFit T) (rx ds) :
    MSOk T (m.evaluateDeviceFilters rx ds) := by
  refine ⟨h.buf, ?_, ?_⟩
  · intro p hp
    simp only [MS.evaluateDeviceFilters, List.head?_map, Option.map_eq_some_iff] at hp
    obtain ⟨q, hq, rfl⟩ := hp
    have h1 := h.first q hq
    have := StageOk.step (st := q) h1.1 h1.2 (op := .devices rx ds) trivial
      (by rw [show inputEvents [StageOp.devices rx ds] = [] from rfl, List.append_nil]; exact hv)
    rw [show inputEvents [StageOp.devices rx ds] = [] from rfl, List.append_nil] at this
    exact ⟨this.1, this.2.1⟩
  · intro p hp
    simp only [MS.evaluateDeviceFilters, ← List.map_tail, List.mem_map] at hp
    obtain ⟨q, hq, rfl⟩ := hp
    exact (h.later q hq).evaluate rx ds

theorem MSOk.validate {T : KeySequence} {m : MS} (h : MSOk T m) (f) : MSOk T (m.validateState f) := by
  obtain ⟨stages, ac, buf⟩ := m
  obtain ⟨hb, hf, hl⟩ := h
  cases stages with
  | nil => exact ⟨hb, hf, hl⟩
  | cons p l =>
    obtain ⟨c, s⟩ := p
    have h1 := hf (c, s) rfl
    refine ⟨hb, ?_, hl⟩
    intro p hp
    simp only [MS.validateState, List.head?_cons, Option.some_inj] at hp
    subst hp
    exact ⟨h1.1, validateState_ok h1.2.ok f, h1.2.hist⟩

theorem MSOk.step {T : KeySequence} {m : MS} (h : MSOk T m) (hne : m.stages ≠ []) {op : MSOp} (ho : op.isSafe)
    (hv : InputsFit (T ++ msInputs [op])) :
    MSOk (T ++ msInputs [op]) (msStep m op).1 ∧ (msStep m op).1.stages ≠ [] ∧ ∀ e ∈ (msStep m op).2, CanEmit e := by
  cases op with
  | input ev dev =>
    have h1 := h.update ho hv hne
    refine ⟨h1.1, ?_, h1.2⟩
    cases hm : m.stages with
    | nil => exact absurd hm hne
    | cons p l => simp [msStep, MS.update, hm, KM.updateGo]
  | contexts l =>
    simp only [msInputs, List.append_nil] at hv ⊢
    have h1 := h.contexts hv ho
    refine ⟨h1.1, ?_, h1.2⟩
    cases hm : m.stages with
    | nil => exact absurd hm hne
    | cons p l => simp [msStep, MS.setActiveClientContexts, MS.reuseBuffer, hm, KM.setActiveGo]
  | devices rx ds =>
    simp only [msInputs, List.append_nil] at hv ⊢
    refine ⟨h.devices hv rx ds, ?_, by simp [msStep]⟩
    simpa [msStep, MS.evaluateDeviceFilters] using hne
  | validate f =>
    simp only [msInputs, List.append_nil] at hv ⊢
    refine ⟨h.validate f, ?_, by simp [msStep]⟩
    cases hm : m.stages with
    | nil => exact absurd hm hne
    | cons p l => simp [msStep, MS.validateState, hm]

theorem msInputs_cons (op : MSOp) (ops : List MSOp) : msInputs (op :: ops) = msInputs [op] ++ msInputs ops := by
  cases op <;> rfl

theorem MSOk.run (ops : List MSOp) : ∀ {T : KeySequence} {m : MS}, MSOk T m → m.stages ≠ [] →
    (∀ op ∈ ops, op.isSafe) → InputsFit (T ++ msInputs ops) →
    MSOk (T ++ msInputs ops) (msRun m ops).1 ∧ ∀ e ∈ (msRun m ops).2, CanEmit e := by
  induction ops with
  | nil => intro T m h _ _ _; exact ⟨by simpa [msInputs, msRun] using h, by simp [msRun]⟩
  | cons op ops ih =>
    intro T m h hne ho hv
    rw [msInputs_cons, ← List.append_assoc] at hv ⊢
    have h1 := h.step hne (ho op (by simp)) hv.prefix
    have h2 := ih h1.1 h1.2.1 (fun op hop => ho op (List.mem_cons_of_mem _ hop)) hv
    exact ⟨h2.1, append_all h1.2.2 h2.2⟩

theorem MSOk.init {configs : List (List Context)} (h : ∀ cs ∈ configs, ContextsSafe cs) :
    MSOk [] (MS.make (configs.map Cfg.make)) := by
  refine ⟨rfl, ?_, ?_⟩
  · intro p hp
    cases configs with
    | nil => simp [MS.make] at hp
    | cons cs configs =>
      simp only [MS.make, List.map_cons, List.head?_cons, Option.some_inj] at hp
      subst hp
      exact ⟨(h cs (by simp)).make, StageOk.init cs⟩
  · intro p hp
    have hp := List.mem_of_mem_tail hp
    simp only [MS.make, List.map_map, List.mem_map, Function.comp] at hp
    obtain ⟨cs, hcs, rfl⟩ := hp
    exact ⟨(h cs hcs).make, [], StageOk.init cs, by intro e he; simp at he⟩

theorem MSOk.ub {T : KeySequence} {m : MS} (h : MSOk T m) : ∀ p ∈ m.stages, p.2.ub = false := by
  intro p hp
  cases hm : m.stages with
  | nil => rw [hm] at hp; simp at hp
  | cons q l =>
    rw [hm] at hp
    rcases List.mem_cons.mp hp with rfl | hp
    · exact (h.first p (by rw [hm]; rfl)).2.ok.ub
    · obtain ⟨T, h1, _⟩ := (h.later p (by rw [hm]; exact hp)).stage
      exact h1.ok.ub

end KM
