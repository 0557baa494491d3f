import Verif.Lemmas.ServerProgram
/-!
# The server program does not drop a client without a reason
-/
namespace KM

/-- the client is not going to be dropped -/
def Daemon.Calm (d : Daemon) : Prop := d.Exited ∨ d.changed = false

theorem exited_message (rx : Regex) (d : Daemon) (m : DaemonMsg) (h : d.Exited) : (d.onMessage rx m).Exited := by
  cases m with
  | configuration fs cfgs => exact (resetConfiguration_steps (flush_steps rx) d.srv (MS.make cfgs)).exit_mono h
  | other m =>
    have hs := onMessage_steps rx d.srv m
    cases m <;> exact hs.exit_mono h

theorem exited_messages (rx : Regex) (l : List DaemonMsg) : ∀ (d : Daemon), d.Exited → (l.foldl (Daemon.onMessage rx) d).Exited := by
  induction l with
  | nil => intro d h; exact h
  | cons m l ih => intro d h; exact ih _ (exited_message rx d m h)

theorem batch_calm (rx : Regex) (l : List DaemonMsg) (hl : ∀ m ∈ l, m.Proper) : ∀ (d : Daemon),
    (l.filter DaemonMsg.isConfiguration).length ≤ 1 →
    (d.Exited ∨ (d.changed = false ∧ (d.srv.flags = [] ∨ l.filter DaemonMsg.isConfiguration = []))) → (l.foldl (Daemon.onMessage rx) d).Calm := by
  induction l with
  | nil =>
    intro d _ h
    rcases h with h | h
    · exact .inl h
    · exact .inr h.1
  | cons m l ih =>
    intro d hc h
    rw [List.foldl_cons]
    have hl' := fun m hm => hl m (List.mem_cons_of_mem _ hm)
    have hlen : (l.filter DaemonMsg.isConfiguration).length ≤ 1 := by
      rw [List.filter_cons] at hc
      split at hc
      · rw [List.length_cons] at hc; omega
      · exact hc
    rcases h with h | ⟨h, h'⟩
    · exact ih hl' _ hlen (.inl (exited_message rx d m h))
    · cases m with
      | other m =>
        have hf : (DaemonMsg.other m :: l).filter DaemonMsg.isConfiguration = l.filter DaemonMsg.isConfiguration := rfl
        rw [hf] at h'
        rcases (onMessage_keeps rx d.srv m (hl _ (List.mem_cons_self ..))).2 with hk | hk
        · exact ih hl' _ hlen (.inl hk)
        · refine ih hl' _ hlen (.inr ⟨h, ?_⟩)
          show (d.srv.onMessage rx m).flags = [] ∨ _
          rw [hk.1]
          exact h'
      | configuration fs cfgs =>
        have hf : (DaemonMsg.configuration fs cfgs :: l).filter DaemonMsg.isConfiguration = .configuration fs cfgs :: l.filter DaemonMsg.isConfiguration := rfl
        rw [hf] at h' hc
        have hnil : l.filter DaemonMsg.isConfiguration = [] := by
          rw [List.length_cons] at hc
          exact List.length_eq_zero_iff.1 (by omega)
        rcases h' with h' | h'
        · have hno : d.hasConfiguration = false := by rw [hasConfiguration_eq, h']; rfl
          refine ih hl' _ hlen (.inr ⟨?_, .inr hnil⟩)
          show ((d.changed || (d.hasConfiguration && _)) || (d.hasConfiguration && _)) = false
          rw [hno, h]
          rfl
        · cases h'

theorem readInitial_calm (rx : Regex) (l : List DaemonBatch) (hl : ∀ b ∈ l, (∀ m ∈ b.messages, m.Proper) ∧ (b.messages.filter DaemonMsg.isConfiguration).length ≤ 1) :
    ∀ (d : Daemon), d.Calm → (Daemon.readInitial rx l d).1.Calm := by
  induction l with
  | nil => intro d h; exact h
  | cons b l ih =>
    intro d h
    unfold Daemon.readInitial
    split
    · exact h
    · next hc =>
      have hfl : d.srv.flags = [] := by
        rw [hasConfiguration_eq] at hc
        cases hf : d.srv.flags with
        | nil => rfl
        | cons a l => rw [hf] at hc; exact absurd rfl hc
      have hb := batch_calm rx b.messages (hl b (List.mem_cons_self ..)).1 { d with srv := { d.srv with now := b.now, sendResults := b.sendResults } }
        (hl b (List.mem_cons_self ..)).2 (by
          rcases h with h | h
          · exact .inl h
          · exact .inr ⟨h, .inl hfl⟩)
      simp only []
      split
      · exact ih (fun b hb => hl b (List.mem_cons_of_mem _ hb)) _ hb
      · exact hb

theorem pass_calm (rx : Regex) (d : Daemon) (p : DaemonPass) (hp : p.alive = false → p.messages = []) (h : d.Calm) : (d.pass rx p).1.Calm := by
  unfold Daemon.pass
  simp only []
  split
  · exact h
  · split
    · exact h
    · split
      · exact h
      · have hk0 : Keeps d.srv { d.srv with now := p.now, sendResults := p.sendResults } := .internal rfl rfl
        have hk1 := hk0.trans ((processRead_keeps rx _ p.read).trans ((answerTimeout_keeps rx _).trans (flushWhenDue_keeps rx _)))
        generalize (({ d.srv with now := p.now, sendResults := p.sendResults } : Srv).processRead rx p.read |>.answerTimeout rx |>.flushWhenDue rx) = r at hk1
        obtain ⟨s, ok⟩ := r
        simp only [] at hk1 ⊢
        have hs : ∀ (s : Srv), (Eff.exitRequested ∈ d.srv.out → Eff.exitRequested ∈ s.out) → Daemon.Calm { d with srv := s, stop := d.stop || p.signal } := by
          intro s hs
          rcases h with h | h
          · exact .inl (hs h)
          · exact .inr h
        split
        · exact hs s hk1.1
        · split
          · exact hs s hk1.1
          · have hk2 := hk1.trans (updateDevices_keeps rx s p.devices)
            have h2 := hs (s.updateDevices rx p.devices) hk2.1
            unfold Daemon.endPass
            split
            · next ha =>
              rw [hp (by simpa using ha)]
              exact h2
            · split
              · exact .inr rfl
              · next hc =>
                have hcc : (p.messages.foldl (Daemon.onMessage rx) { d with srv := s.updateDevices rx p.devices, stop := d.stop || p.signal }).changed = false := by
                  simp only [Bool.or_eq_true, not_or, Bool.not_eq_true] at hc
                  exact hc.1
                split
                · exact .inr hcc
                · exact .inr hcc

theorem loop_calm (rx : Regex) (l : List DaemonPass) (hl : ∀ p ∈ l, p.alive = false → p.messages = []) : ∀ (d : Daemon), d.Calm →
    (Daemon.loop rx l d).1.Calm := by
  induction l with
  | nil => intro d h; exact h
  | cons p l ih =>
    intro d h
    have hp := pass_calm rx d p (hl p (List.mem_cons_self ..)) h
    unfold Daemon.loop
    generalize d.pass rx p = r at hp
    obtain ⟨d', o⟩ := r
    cases o with
    | none => exact ih (fun p hp => hl p (List.mem_cons_of_mem _ hp)) _ hp
    | some b => exact hp

theorem session_calm (rx : Regex) (d : Daemon) (x : DaemonSession) (hx : x.Proper) (hp : x.Plain) (h : d.Calm) : (d.session rx x).1.Calm := by
  unfold Daemon.session
  split
  · exact h
  · exact h
  · have hr := readInitial_calm rx x.batches (fun b hb => ⟨(hx.batches b hb).2, hp.batches b hb⟩) d h
    generalize Daemon.readInitial rx x.batches d = r at hr
    obtain ⟨d1, ok⟩ := r
    cases ok with
    | false => exact hr
    | true =>
      simp only [] at hr ⊢
      unfold Daemon.configured
      split
      · exact hr
      · simp only []
        split
        · exact hr
        · unfold Daemon.grabbed
          split
          · exact hr
          · have hk : Keeps d1.srv ({ d1.srv with sendResults := x.sendResults }.setDeviceDescs rx x.devices) :=
              (setDeviceDescs_keeps rx { d1.srv with sendResults := x.sendResults } x.devices).after rfl rfl
            have hl := loop_calm rx x.passes hp.passes { d1 with
                srv := { d1.srv with sendResults := x.sendResults }.setDeviceDescs rx x.devices
                log := d1.log ++ [DaemonEff.keyboard] ++ [DaemonEff.grab d1.srv.ms.hasMouseMappings d1.filters] } (by
              rcases hr with hr | hr
              · exact .inl (hk.1 hr)
              · exact .inr hr)
            simp only [] at hl ⊢
            generalize Daemon.loop rx x.passes _ = r at hl
            obtain ⟨d2, o⟩ := r
            cases o with
            | none => exact hl
            | some b =>
              rcases hl with hl | hl
              · exact .inl ((resetConfiguration_steps (rx := rx) (flush_steps rx) { d2.srv with now := x.resetNow, sendResults := x.resetResults } {}).exit_mono hl)
              · exact .inr hl

theorem run_calm (rx : Regex) (l : List DaemonSession) (hl : ∀ x ∈ l, x.Proper ∧ x.Plain) : ∀ (d : Daemon), d.Calm → (Daemon.run rx l d).1.Calm := by
  induction l with
  | nil => intro d h; exact h
  | cons x l ih =>
    intro d h
    have hs := session_calm rx d x (hl x (List.mem_cons_self ..)).1 (hl x (List.mem_cons_self ..)).2 h
    unfold Daemon.run
    generalize d.session rx x = r at hs
    obtain ⟨d', ph⟩ := r
    cases ph with
    | waiting => exact ih (fun x hx => hl x (List.mem_cons_of_mem _ hx)) _ hs
    | running => exact hs
    | ended c => exact hs

/-- Messages which demand what is grabbed do not change anything -/
theorem messages_unchanged (rx : Regex) (l : List DaemonMsg) : ∀ {d : Daemon}, d.Runs → d.changed = false → ¬ (l.foldl (Daemon.onMessage rx) d).Exited →
    (∀ m ∈ l, m.Proper ∧ ∀ fs cfgs, m = .configuration fs cfgs → GrabbedAs { observed d.log with config := some (fs, cfgs) }) →
    (l.foldl (Daemon.onMessage rx) d).changed = false := by
  induction l with
  | nil => intro d _ h _ _; exact h
  | cons m l ih =>
    intro d hr hc hx hm
    rw [List.foldl_cons] at hx ⊢
    have hm0 := hm m (List.mem_cons_self ..)
    have hr' := onMessage_runs rx hr m hm0.1
    obtain ⟨-, -, -, hk, hg, -⟩ := onMessage_serves rx hr.serves m hm0.1
    have hnx : ¬ d.Exited := fun e => hx (exited_messages rx l _ (exited_message rx d m e))
    refine ih hr' ?_ hx ?_
    · cases m with
      | other m => exact hc
      | configuration fs cfgs =>
        obtain ⟨mice, f0, gs, cf, g1, g2, g3, g4⟩ := hm0.2 fs cfgs rfl
        injection g2 with g2
        injection g2 with g2 g2'
        have g1 : (observed d.log).grab = some (mice, f0) := g1
        rcases hr.as with e | e | ⟨⟨mice', f0', gs', cf', e1, e2, e3, e4⟩, hne⟩
        · exact absurd e hnx
        · rw [hc] at e; cases e
        · rcases hr.serves.config with e | ⟨-, e | ⟨cfgs', -, e5, e6⟩⟩
          · exact absurd e hnx
          · exact absurd e.1 hne
          · rw [e5] at e2
            injection e2 with e2
            injection e2 with e2 e2'
            rw [g1] at e1
            injection e1 with e1
            injection e1 with e1 e1'
            have hfil : d.filters.map GrabDeviceFilter.compared = fs.map GrabDeviceFilter.compared := by
              have a1 : f0.map GrabDeviceFilter.compared = fs.map GrabDeviceFilter.compared := by rw [g2]; exact g4
              have a2 : f0.map GrabDeviceFilter.compared = d.filters.map GrabDeviceFilter.compared := by rw [e1', e2]; exact e4
              rw [← a2, a1]
            have hmou : d.srv.ms.hasMouseMappings = (MS.make cfgs).hasMouseMappings := by
              rw [mouse_eq, e6, List.any_map]
              unfold MS.hasMouseMappings MS.make
              rw [List.any_map]
              have a1 : cfgs'.any (fun c => c.hasMouseMappings) = cfgs.any (fun c => c.hasMouseMappings) := by
                rw [e2', ← e3, ← e1, g3, g2']
              exact a1
            show ((d.changed || (d.hasConfiguration && d.filters.map GrabDeviceFilter.compared != fs.map GrabDeviceFilter.compared)) ||
              (d.hasConfiguration && d.srv.ms.hasMouseMappings != (MS.make cfgs).hasMouseMappings)) = false
            rw [hc, hfil, hmou]
            simp
    · intro m' hm'
      refine ⟨(hm m' (List.mem_cons_of_mem _ hm')).1, ?_⟩
      intro fs cfgs e
      obtain ⟨mice, f0, gs, cf, g1, g2, g3, g4⟩ := (hm m' (List.mem_cons_of_mem _ hm')).2 fs cfgs e
      exact ⟨mice, f0, gs, cf, hg.trans g1, g2, g3, g4⟩

theorem stop_message (rx : Regex) (d : Daemon) (m : DaemonMsg) : (d.onMessage rx m).stop = d.stop := by
  cases m <;> rfl

theorem stop_messages (rx : Regex) (l : List DaemonMsg) : ∀ (d : Daemon), (l.foldl (Daemon.onMessage rx) d).stop = d.stop := by
  induction l with
  | nil => intro d; rfl
  | cons m l ih => intro d; exact (ih _).trans (stop_message rx d m)

theorem stop_readInitial (rx : Regex) (l : List DaemonBatch) : ∀ (d : Daemon), (Daemon.readInitial rx l d).1.stop = d.stop := by
  induction l with
  | nil => intro d; rfl
  | cons b l ih =>
    intro d
    unfold Daemon.readInitial
    split
    · rfl
    · simp only []
      split
      · exact (ih _).trans (stop_messages rx b.messages _)
      · exact stop_messages rx b.messages _

theorem stop_pass (rx : Regex) (d : Daemon) (p : DaemonPass) : (d.pass rx p).1.stop = (d.stop || p.signal) := by
  unfold Daemon.pass
  simp only []
  split
  · rfl
  · split
    · rfl
    · split
      · rfl
      · generalize (({ d.srv with now := p.now, sendResults := p.sendResults } : Srv).processRead rx p.read |>.answerTimeout rx |>.flushWhenDue rx) = r
        obtain ⟨s, ok⟩ := r
        simp only []
        split
        · rfl
        · split
          · rfl
          · have h := stop_messages rx p.messages { d with srv := s.updateDevices rx p.devices, stop := d.stop || p.signal }
            unfold Daemon.endPass
            split
            · exact h
            · split
              · exact h
              · split
                · exact h
                · exact h

theorem messages_config (rx : Regex) (l : List DaemonMsg) : ∀ (d : Daemon),
    ((observed d.log).config ≠ none ∨ ∃ fs cfgs, .configuration fs cfgs ∈ l) → (observed (l.foldl (Daemon.onMessage rx) d).log).config ≠ none := by
  induction l with
  | nil =>
    intro d h
    rcases h with h | ⟨fs, cfgs, h⟩
    · exact h
    · cases h
  | cons m l ih =>
    intro d h
    rw [List.foldl_cons]
    apply ih
    cases m with
    | configuration fs cfgs =>
      left
      show (observed (d.log ++ [.received fs cfgs])).config ≠ none
      rw [observed_snoc]
      exact fun e => by cases e
    | other m =>
      rcases h with h | ⟨fs, cfgs, h⟩
      · exact .inl h
      · rcases List.mem_cons.1 h with h | h
        · cases h
        · exact .inr ⟨fs, cfgs, h⟩

/-- A configuration was received, so it is used -/
theorem readInitial_config (rx : Regex) (l : List DaemonBatch)
    (hl : ∀ b ∈ l, (b.alive = false → b.messages = []) ∧ ∀ m ∈ b.messages, m.Proper) (ha : ∀ b ∈ l, b.alive = true) :
    ∀ {d : Daemon}, d.Serves → ((observed d.log).config ≠ none ∨ ∃ b ∈ l, ∃ fs cfgs, .configuration fs cfgs ∈ b.messages) →
      (Daemon.readInitial rx l d).2 = true ∨ (Daemon.readInitial rx l d).1.Exited := by
  induction l with
  | nil =>
    intro d hs h
    rcases h with h | ⟨b, h, -⟩
    · rcases hs.config with e | ⟨-, e | ⟨cfgs, e1, -, e3⟩⟩
      · exact .inr e
      · exact absurd e.2 h
      · left
        show d.hasConfiguration = true
        rw [hasConfiguration_eq, e3]
        cases cfgs with
        | nil => exact absurd rfl e1
        | cons a l => rfl
    · cases h
  | cons b l ih =>
    intro d hs h
    unfold Daemon.readInitial
    split
    · exact .inl rfl
    · simp only []
      rw [ha b (List.mem_cons_self ..)]
      simp only [if_true]
      have hk : Keeps d.srv { d.srv with now := b.now, sendResults := b.sendResults } := .internal rfl rfl
      refine ih (fun b hb => hl b (List.mem_cons_of_mem _ hb)) (fun b hb => ha b (List.mem_cons_of_mem _ hb))
        (messages_serves rx b.messages (hl b (List.mem_cons_self ..)).2 (hs.srv hk)).1 ?_
      have hmc := messages_config rx b.messages { d with srv := { d.srv with now := b.now, sendResults := b.sendResults } }
      rcases h with h | ⟨b', hb, h⟩
      · exact .inl (hmc (.inl h))
      · rcases List.mem_cons.1 hb with hb | hb
        · subst hb
          exact .inl (hmc (.inr h))
        · exact .inr ⟨b', hb, h⟩

theorem iterate_exit (rx : Regex) (s : Srv) (it : Iteration) (h : Eff.exitRequested ∈ s.out) : Eff.exitRequested ∈ (s.iterate rx it).1.out := by
  have hm : ∀ (l : List Msg) (s : Srv), Eff.exitRequested ∈ s.out → Eff.exitRequested ∈ (l.foldl (Srv.onMessage rx) s).out := by
    intro l
    induction l with
    | nil => intro s h; exact h
    | cons m l ih => intro s h; exact ih _ ((onMessage_steps rx s m).exit_mono (by cases m <;> exact h))
  unfold Srv.iterate
  simp only []
  split
  · exact h
  · have h1 : Eff.exitRequested ∈ (({ s with now := it.now, sendResults := it.sendResults } : Srv).processRead rx it.read |>.answerTimeout rx |>.flushWhenDue rx).1.out :=
      (flushWhenDue_steps rx _).exit_mono ((answerTimeout_steps rx _).exit_mono ((processRead_steps rx { s with now := it.now, sendResults := it.sendResults } it.read).exit_mono h))
    generalize (({ s with now := it.now, sendResults := it.sendResults } : Srv).processRead rx it.read |>.answerTimeout rx |>.flushWhenDue rx) = r at h1
    obtain ⟨s1, ok⟩ := r
    simp only [] at h1 ⊢
    split
    · exact h1
    · split
      · exact hm _ _ ((updateDevices_steps rx _ _).exit_mono h1)
      · exact hm _ _ ((updateDevices_steps rx _ _).exit_mono h1)

end KM
