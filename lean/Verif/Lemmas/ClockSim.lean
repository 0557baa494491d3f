import Verif.Lemmas.ServerClock
/-!
# Lemmas: the clock around something which outputs the same
-/
namespace KM

/-- the state after operations -/
def stateAfter {σ : Type} (step : σ → StageOp → σ × KeySequence) (s : σ) (ops : List StageOp) : σ := ops.foldl (fun s op => (step s op).1) s

/-- `step₁` outputs the same as `step₂`, for operations which are accepted -/
structure Simulates {σ₁ σ₂ : Type} (step₁ : σ₁ → StageOp → σ₁ × KeySequence) (step₂ : σ₂ → StageOp → σ₂ × KeySequence) (init : σ₂) (log : List StageOp)
    (R : σ₁ → σ₂ → Prop) : Prop where
  step : ∀ ops op, ops ++ [op] <+: log → ∀ s, R s (stateAfter step₂ init ops) →
    (step₁ s op).2 = (step₂ (stateAfter step₂ init ops) op).2 ∧ R (step₁ s op).1 (step₂ (stateAfter step₂ init ops) op).1

/-- with clocks -/
structure Synchron {σ₁ σ₂ : Type} (step₂ : σ₂ → StageOp → σ₂ × KeySequence) (init : σ₂) (R : σ₁ → σ₂ → Prop) (c : Clocked σ₁) (d : Clocked σ₂) : Prop where
  state : R c.state d.state
  since : c.since = d.since
  last : c.last = d.last
  log : c.log = d.log
  after : d.state = stateAfter step₂ init d.log

variable {σ₁ σ₂ : Type} {step₁ : σ₁ → StageOp → σ₁ × KeySequence} {step₂ : σ₂ → StageOp → σ₂ × KeySequence} {init : σ₂} {log : List StageOp}
  {R : σ₁ → σ₂ → Prop}

theorem stateAfter_snoc (s : σ₂) (ops : List StageOp) (op : StageOp) : stateAfter step₂ s (ops ++ [op]) = (step₂ (stateAfter step₂ s ops) op).1 := by
  simp [stateAfter]

theorem sync_input (h : Simulates step₁ step₂ init log R) {c : Clocked σ₁} {d : Clocked σ₂} (hs : Synchron step₂ init R c d) (now : Int) (ev : KeyEvent) (dev : Int)
    (hp : (d.input step₂ now ev dev).1.log <+: log) :
    Synchron step₂ init R (c.input step₁ now ev dev).1 (d.input step₂ now ev dev).1 ∧ (c.input step₁ now ev dev).2 = (d.input step₂ now ev dev).2 := by
  rw [(input_log step₂ d now ev dev).1] at hp
  have hst := h.step d.log (.input ev dev) hp c.state (by rw [← hs.after]; exact hs.state)
  rw [← hs.after] at hst
  obtain ⟨h1, h2⟩ := hst
  have hafter : (step₂ d.state (.input ev dev)).1 = stateAfter step₂ init (d.log ++ [.input ev dev]) := by
    rw [stateAfter_snoc, ← hs.after]
  unfold Clocked.input
  simp only [h1]
  cases askedTime (step₂ d.state (.input ev dev)).2 with
  | none => exact ⟨⟨h2, hs.since, hs.last, by simp only [hs.log], hafter⟩, rfl⟩
  | some q => exact ⟨⟨h2, rfl, hs.last, by simp only [hs.log], hafter⟩, rfl⟩

theorem sync_elapsed (h : Simulates step₁ step₂ init log R) {c : Clocked σ₁} {d : Clocked σ₂} (hs : Synchron step₂ init R c d) (now : Int) (ms : Int) (dev : Int)
    (hp : (d.elapsed step₂ now ms dev).1.log <+: log) :
    Synchron step₂ init R (c.elapsed step₁ now ms dev).1 (d.elapsed step₂ now ms dev).1 ∧ (c.elapsed step₁ now ms dev).2 = (d.elapsed step₂ now ms dev).2 :=
  sync_input h (c := { c with since := none }) (d := { d with since := none }) ⟨hs.state, rfl, hs.last, hs.log, hs.after⟩ now _ dev hp

theorem sync_interrupt (h : Simulates step₁ step₂ init log R) {c : Clocked σ₁} {d : Clocked σ₂} (hs : Synchron step₂ init R c d) (now : Int) (ev : KeyEvent) (dev : Int)
    (hp : (d.interrupt step₂ now ev dev).1.log <+: log) :
    Synchron step₂ init R (c.interrupt step₁ now ev dev).1 (d.interrupt step₂ now ev dev).1 ∧
      (c.interrupt step₁ now ev dev).2 = (d.interrupt step₂ now ev dev).2 := by
  unfold Clocked.interrupt at hp ⊢
  rw [hs.since]
  cases hsi : d.since with
  | none => exact ⟨hs, rfl⟩
  | some p =>
    rw [hsi] at hp
    simp only [] at hp ⊢
    split at hp
    · next hc => rw [if_pos hc, if_pos hc]; exact sync_elapsed h hs now _ dev hp
    · next hc => rw [if_neg hc, if_neg hc]; exact ⟨hs, rfl⟩

theorem sync_key (h : Simulates step₁ step₂ init log R) {c : Clocked σ₁} {d : Clocked σ₂} (hs : Synchron step₂ init R c d) (now : Int) (ev : KeyEvent) (dev : Int)
    (hp : (d.key step₂ now ev dev).1.log <+: log) :
    Synchron step₂ init R (c.key step₁ now ev dev).1 (d.key step₂ now ev dev).1 ∧ (c.key step₁ now ev dev).2 = (d.key step₂ now ev dev).2 := by
  unfold Clocked.key at hp ⊢
  rw [hs.since, hs.last]
  split at hp
  · next hc => rw [if_pos hc, if_pos hc]; exact ⟨hs, rfl⟩
  · next hc =>
    rw [if_neg hc, if_neg hc]
    simp only [] at hp ⊢
    have hp1 : (d.interrupt step₂ now ev dev).1.log <+: log := by
      rw [(input_log step₂ _ now ev dev).1] at hp
      exact (List.prefix_append _ _).trans hp
    obtain ⟨h1, h2⟩ := sync_interrupt h hs now ev dev hp1
    obtain ⟨h3, h4⟩ := sync_input h (c := { (c.interrupt step₁ now ev dev).1 with last := ev }) (d := { (d.interrupt step₂ now ev dev).1 with last := ev })
      ⟨h1.state, h1.since, rfl, h1.log, h1.after⟩ now ev dev hp
    exact ⟨h3, by rw [h2, h4]⟩

theorem sync_read (h : Simulates step₁ step₂ init log R) {c : Clocked σ₁} {d : Clocked σ₂} (hs : Synchron step₂ init R c d) (now : Int) (r : Read)
    (hp : (d.read step₂ now r).1.log <+: log) :
    Synchron step₂ init R (c.read step₁ now r).1 (d.read step₂ now r).1 ∧ (c.read step₁ now r).2 = (d.read step₂ now r).2 := by
  cases r with
  | key ev dev => exact sync_key h hs now ev dev hp
  | _ => exact ⟨hs, rfl⟩

theorem sync_expire (h : Simulates step₁ step₂ init log R) {c : Clocked σ₁} {d : Clocked σ₂} (hs : Synchron step₂ init R c d) (now : Int)
    (hp : (d.expire step₂ now).1.log <+: log) :
    Synchron step₂ init R (c.expire step₁ now).1 (d.expire step₂ now).1 ∧ (c.expire step₁ now).2 = (d.expire step₂ now).2 := by
  unfold Clocked.expire at hp ⊢
  rw [hs.since]
  cases hsi : d.since with
  | none => exact ⟨hs, rfl⟩
  | some p =>
    rw [hsi] at hp
    simp only [] at hp ⊢
    split at hp
    · next hc => rw [if_pos hc, if_pos hc]; exact sync_elapsed h hs now _ _ hp
    · next hc => rw [if_neg hc, if_neg hc]; exact ⟨hs, rfl⟩

theorem sync_apply (h : Simulates step₁ step₂ init log R) (ops : List StageOp) : ∀ {c : Clocked σ₁} {d : Clocked σ₂}, Synchron step₂ init R c d →
    (d.apply step₂ ops).1.log <+: log →
    Synchron step₂ init R (c.apply step₁ ops).1 (d.apply step₂ ops).1 ∧ (c.apply step₁ ops).2 = (d.apply step₂ ops).2 := by
  induction ops with
  | nil => intro c d hs _; exact ⟨hs, rfl⟩
  | cons op ops ih =>
    intro c d hs hp
    have hlog := (apply_log step₂ (op :: ops) d).1
    have hp1 : d.log ++ [op] <+: log := by
      rw [hlog] at hp
      exact (show d.log ++ [op] <+: d.log ++ op :: ops from ⟨ops, by simp⟩).trans hp
    have hst := h.step d.log op hp1 c.state (by rw [← hs.after]; exact hs.state)
    rw [← hs.after] at hst
    obtain ⟨h1, h2⟩ := hst
    obtain ⟨h3, h4⟩ := ih (c := { c with state := (step₁ c.state op).1, log := c.log ++ [op] }) (d := { d with state := (step₂ d.state op).1, log := d.log ++ [op] })
      ⟨h2, hs.since, hs.last, by simp only [hs.log], by simp only [stateAfter_snoc, ← hs.after]⟩ hp
    refine ⟨h3, ?_⟩
    show (step₁ c.state op).2 ++ _ = (step₂ d.state op).2 ++ _
    rw [h1, h4]

theorem sync_wake (h : Simulates step₁ step₂ init log R) (n : Nat) {c : Clocked σ₁} {d : Clocked σ₂} (hs : Synchron step₂ init R c d) (it : Iteration)
    (hp : (d.wake step₂ n it).1.log <+: log) :
    Synchron step₂ init R (c.wake step₁ n it).1 (d.wake step₂ n it).1 ∧ (c.wake step₁ n it).2 = (d.wake step₂ n it).2 ∧
      (it.read ≠ .other → (c.read step₁ it.now it.read).1.since = (d.read step₂ it.now it.read).1.since) := by
  unfold Clocked.wake at hp ⊢
  split at hp
  · next hc => rw [if_pos hc, if_pos hc]; exact ⟨hs, rfl, fun h => absurd hc h⟩
  · next hc =>
    rw [if_neg hc, if_neg hc]
    simp only [] at hp ⊢
    have hp2 : ((d.read step₂ it.now it.read).1.expire step₂ it.now).1.log <+: log := by
      rw [(apply_log step₂ _ _).1] at hp
      exact (List.prefix_append _ _).trans hp
    obtain ⟨h1, h2⟩ := sync_read h hs it.now it.read ((expire_log step₂ _ _).trans hp2)
    obtain ⟨h3, h4⟩ := sync_expire h h1 it.now hp2
    obtain ⟨h5, h6⟩ := sync_apply h (it.messages.flatMap (Msg.stageOps n)) h3 hp
    exact ⟨h5, by rw [h2, h4, h6], fun _ => h1.since⟩

theorem sync_run (h : Simulates step₁ step₂ init log R) (n : Nat) (its : List Iteration) : ∀ {c : Clocked σ₁} {d : Clocked σ₂}, Synchron step₂ init R c d →
    (d.run step₂ n its).1.log <+: log → d.Timely step₂ n its →
    Synchron step₂ init R (c.run step₁ n its).1 (d.run step₂ n its).1 ∧ (c.run step₁ n its).2 = (d.run step₂ n its).2 ∧ c.Timely step₁ n its := by
  induction its with
  | nil => intro c d hs _ _; exact ⟨hs, rfl, trivial⟩
  | cons it its ih =>
    intro c d hs hp ht
    obtain ⟨h1, h2, h3⟩ := sync_wake h n hs it ((run_log step₂ n its _).trans hp)
    obtain ⟨h4, h5, h6⟩ := ih h1 hp ht.2.2
    refine ⟨h4, ?_, ?_, ?_, h6⟩
    · show (c.wake step₁ n it).2 ++ _ = (d.wake step₂ n it).2 ++ _
      rw [h2, h5]
    · rw [hs.since]; exact ht.1
    · by_cases hr : it.read = .other
      · intro start request he
        refine ht.2.1 start request ?_
        rw [hr] at he ⊢
        show d.since = _
        rw [← hs.since]; exact he
      · rw [h3 hr]; exact ht.2.1

theorem sync_session (h : Simulates step₁ step₂ init log R) (n : Nat) (first : List StageOp) (its : List Iteration) {c : Clocked σ₁} {d : Clocked σ₂}
    (hs : Synchron step₂ init R c d) (hp : (d.session step₂ n first its).1.log <+: log) (ht : (d.apply step₂ first).1.Timely step₂ n its) :
    (c.session step₁ n first its).1.log = (d.session step₂ n first its).1.log ∧ (c.session step₁ n first its).2 = (d.session step₂ n first its).2 ∧
      (c.apply step₁ first).1.Timely step₁ n its := by
  obtain ⟨h1, h2⟩ := sync_apply h first hs ((run_log step₂ n its _).trans hp)
  obtain ⟨h3, h4, h5⟩ := sync_run h n its h1 hp ht
  exact ⟨h3.log, by show _ ++ _ = _ ++ _; rw [h2, h4], h5⟩

end KM
