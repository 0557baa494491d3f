import Verif.Spec.ServerProgram
import Verif.Lemmas.ServerKeeps
/-!
# The server program keeps the devices grabbed as configured
-/
namespace KM

theorem observed_snoc (log : List DaemonEff) (e : DaemonEff) : observed (log ++ [e]) = (observed log).see e := by
  unfold observed
  rw [List.foldl_append]
  rfl

/-- the exit sequence was read -/
def Daemon.Exited (d : Daemon) : Prop := Eff.exitRequested ∈ d.srv.out

theorem shutdown_iff (d : Daemon) : d.shutdown = true ↔ d.stop = true ∨ d.Exited := by
  unfold Daemon.shutdown Daemon.Exited
  rw [Bool.or_eq_true, List.contains_iff_mem]

/-- While there is a client: the configuration in use is the received one -/
structure Daemon.Serves (d : Daemon) : Prop where
  config : d.Exited ∨ (d.srv.ExitFree ∧ ((d.srv.flags = [] ∧ (observed d.log).config = none) ∨
    ∃ cfgs, cfgs ≠ [] ∧ (observed d.log).config = some (d.filters, cfgs) ∧ d.srv.flags = cfgs.map (fun c => c.hasMouseMappings)))

theorem mouse_eq (s : Srv) : s.ms.hasMouseMappings = s.flags.any id := by
  unfold MS.hasMouseMappings Srv.flags
  rw [List.any_map]
  rfl

theorem hasConfiguration_eq (d : Daemon) : d.hasConfiguration = !d.srv.flags.isEmpty := by
  unfold Daemon.hasConfiguration Srv.flags
  rw [List.isEmpty_map]

theorem make_flags (cfgs : List Cfg) : (MS.make cfgs).stages.map (fun p => p.1.hasMouseMappings) = cfgs.map (fun c => c.hasMouseMappings) := by
  unfold MS.make
  rw [List.map_map]
  rfl

theorem make_exit (cfgs : List Cfg) : (MS.make cfgs).shouldExit = false := by
  cases cfgs <;> rfl

/-- What a message does -/
theorem onMessage_serves (rx : Regex) {d : Daemon} (h : d.Serves) (m : DaemonMsg) (hm : m.Proper) :
    (d.onMessage rx m).Serves ∧ (d.Exited → (d.onMessage rx m).Exited) ∧ (d.onMessage rx m).stop = d.stop ∧
      (observed (d.onMessage rx m).log).keyboard = (observed d.log).keyboard ∧ (observed (d.onMessage rx m).log).grab = (observed d.log).grab ∧
      (d.changed = true → (d.onMessage rx m).changed = true) := by
  cases m with
  | other m =>
    have hk := onMessage_keeps rx d.srv m hm
    refine ⟨⟨?_⟩, hk.1, rfl, rfl, rfl, id⟩
    rcases hk.2 with hk | hk
    · exact .inl hk
    · rcases h.config with h | ⟨h, h'⟩
      · exact .inl ((onMessage_keeps rx d.srv m hm).1 h)
      · refine .inr ⟨hk.2 h, ?_⟩
        show ((d.srv.onMessage rx m).flags = [] ∧ _) ∨ _
        rcases h' with h' | ⟨cfgs, h1, h2, h3⟩
        · exact .inl ⟨hk.1.trans h'.1, h'.2⟩
        · exact .inr ⟨cfgs, h1, h2, hk.1.trans h3⟩
  | configuration fs cfgs =>
    have hs : observed (d.onMessage rx (.configuration fs cfgs)).log = (observed d.log).see (.received fs cfgs) := observed_snoc _ _
    refine ⟨⟨?_⟩, (resetConfiguration_steps (flush_steps rx) d.srv (MS.make cfgs)).exit_mono, rfl, by rw [hs]; rfl, by rw [hs]; rfl, ?_⟩
    · rcases resetConfiguration_keeps rx d.srv (MS.make cfgs) rfl (make_exit cfgs) with hk | hk
      · exact .inl hk
      · refine .inr ⟨hk.2, .inr ⟨cfgs, hm, by rw [hs]; rfl, hk.1.trans (make_flags cfgs)⟩⟩
    · intro hc
      show ((d.changed || _) || _) = true
      rw [hc]
      rfl

/-- In the loop: the devices are grabbed as configured, unless it is going to end -/
structure Daemon.Runs (d : Daemon) : Prop where
  serves : d.Serves
  keyboard : (observed d.log).keyboard = true
  grabbed : (observed d.log).grab.isSome = true
  as : d.Exited ∨ d.changed = true ∨ (GrabbedAs (observed d.log) ∧ d.srv.flags ≠ [])

theorem onMessage_runs (rx : Regex) {d : Daemon} (h : d.Runs) (m : DaemonMsg) (hm : m.Proper) : (d.onMessage rx m).Runs := by
  obtain ⟨h1, h2, h3, h4, h5, h6⟩ := onMessage_serves rx h.serves m hm
  refine ⟨h1, h4.trans h.keyboard, by rw [h5]; exact h.grabbed, ?_⟩
  rcases h.as with h' | h' | ⟨h', hne⟩
  · exact .inl (h2 h')
  · exact .inr (.inl (h6 h'))
  · cases m with
    | other m =>
      rcases (onMessage_keeps rx d.srv m hm).2 with hk | hk
      · exact .inl hk
      · exact .inr (.inr ⟨h', by show (d.srv.onMessage rx m).flags ≠ []; rw [hk.1]; exact hne⟩)
    | configuration fs cfgs =>
      cases hc : (d.onMessage rx (.configuration fs cfgs)).changed with
      | true => exact .inr (.inl rfl)
      | false =>
        have hc : ((d.changed || (d.hasConfiguration && d.filters.map GrabDeviceFilter.compared != fs.map GrabDeviceFilter.compared)) ||
          (d.hasConfiguration && d.srv.ms.hasMouseMappings != (MS.make cfgs).hasMouseMappings)) = false := hc
        have hcf : d.hasConfiguration = true := by
          rw [hasConfiguration_eq]
          cases hf : d.srv.flags with
          | nil => exact absurd hf hne
          | cons a l => rfl
        rw [hcf] at hc
        simp only [Bool.true_and, Bool.or_eq_false_iff, bne_eq_false_iff_eq] at hc
        obtain ⟨⟨hc1, hc2⟩, hc3⟩ := hc
        rcases h.serves.config with he | ⟨-, hs | ⟨cfgs', hne', hs1, hs2⟩⟩
        · exact .inl (h2 he)
        · exact absurd hs.1 hne
        · have hs : observed (d.onMessage rx (.configuration fs cfgs)).log = (observed d.log).see (.received fs cfgs) := observed_snoc _ _
          rcases resetConfiguration_keeps rx d.srv (MS.make cfgs) rfl (make_exit cfgs) with hk | hk
          · exact .inl hk
          · refine .inr (.inr ⟨?_, ?_⟩)
            · obtain ⟨mice, fs0, gs, cf, g1, g2, g3, g4⟩ := h'
              rw [hs1] at g2
              injection g2 with g2
              injection g2 with g2 g2'
              refine ⟨mice, fs0, fs, cfgs, by rw [hs]; exact g1, by rw [hs]; rfl, ?_, ?_⟩
              · rw [mouse_eq, hs2, List.any_map] at hc3
                rw [g3, ← g2']
                refine (show cfgs'.any (fun c => c.hasMouseMappings) = _ from hc3).trans ?_
                unfold MS.hasMouseMappings MS.make
                rw [List.any_map]
                rfl
              · rw [g4, ← g2]
                exact hc2
            · show (d.srv.resetConfiguration rx (Srv.flush rx) (MS.make cfgs)).flags ≠ []
              rw [hk.1, make_flags]
              intro hn
              exact hm (List.map_eq_nil_iff.1 hn)

theorem messages_serves (rx : Regex) (l : List DaemonMsg) (hl : ∀ m ∈ l, m.Proper) : ∀ {d : Daemon}, d.Serves →
    (l.foldl (Daemon.onMessage rx) d).Serves ∧ (d.Exited → (l.foldl (Daemon.onMessage rx) d).Exited) ∧ (l.foldl (Daemon.onMessage rx) d).stop = d.stop ∧
      (observed (l.foldl (Daemon.onMessage rx) d).log).keyboard = (observed d.log).keyboard ∧
      (observed (l.foldl (Daemon.onMessage rx) d).log).grab = (observed d.log).grab := by
  induction l with
  | nil => intro d h; exact ⟨h, id, rfl, rfl, rfl⟩
  | cons m l ih =>
    intro d h
    obtain ⟨h1, h2, h3, h4, h5, -⟩ := onMessage_serves rx h m (hl m (List.mem_cons_self ..))
    obtain ⟨i1, i2, i3, i4, i5⟩ := ih (fun m hm => hl m (List.mem_cons_of_mem _ hm)) h1
    exact ⟨i1, fun e => i2 (h2 e), i3.trans h3, i4.trans h4, i5.trans h5⟩

theorem messages_runs (rx : Regex) (l : List DaemonMsg) (hl : ∀ m ∈ l, m.Proper) : ∀ {d : Daemon}, d.Runs →
    (l.foldl (Daemon.onMessage rx) d).Runs := by
  induction l with
  | nil => intro d h; exact h
  | cons m l ih =>
    intro d h
    exact ih (fun m hm => hl m (List.mem_cons_of_mem _ hm)) (onMessage_runs rx h m (hl m (List.mem_cons_self ..)))

/-- What the server does in between keeps it -/
theorem Daemon.Serves.srv {d : Daemon} (h : d.Serves) {s : Srv} (hk : Keeps d.srv s) : Daemon.Serves { d with srv := s } := by
  refine ⟨?_⟩
  rcases hk.2 with hx | hx
  · exact .inl hx
  · rcases h.config with h | ⟨h, h'⟩
    · exact .inl (hk.1 h)
    · refine .inr ⟨hx.2 h, ?_⟩
      show (s.flags = [] ∧ _) ∨ _
      rw [hx.1]
      exact h'

theorem Daemon.Runs.srv {d : Daemon} (h : d.Runs) {s : Srv} (hk : Keeps d.srv s) : Daemon.Runs { d with srv := s } := by
  refine ⟨h.serves.srv hk, h.keyboard, h.grabbed, ?_⟩
  rcases h.as with h' | h' | h'
  · exact .inl (hk.1 h')
  · exact .inr (.inl h')
  · rcases hk.2 with hx | hx
    · exact .inl hx
    · exact .inr (.inr ⟨h'.1, by show s.flags ≠ []; rw [hx.1]; exact h'.2⟩)

/-- What is read before the devices are grabbed -/
theorem readInitial_serves (rx : Regex) (l : List DaemonBatch) (hl : ∀ b ∈ l, (b.alive = false → b.messages = []) ∧ ∀ m ∈ b.messages, m.Proper) :
    ∀ {d : Daemon}, d.Serves →
    (Daemon.readInitial rx l d).1.Serves ∧ (d.Exited → (Daemon.readInitial rx l d).1.Exited) ∧ (Daemon.readInitial rx l d).1.stop = d.stop ∧
      (observed (Daemon.readInitial rx l d).1.log).keyboard = (observed d.log).keyboard ∧
      (observed (Daemon.readInitial rx l d).1.log).grab = (observed d.log).grab ∧
      (Daemon.readInitial rx l d).1.hasConfiguration = (Daemon.readInitial rx l d).2 := by
  induction l with
  | nil => intro d h; exact ⟨h, id, rfl, rfl, rfl, rfl⟩
  | cons b l ih =>
    intro d h
    unfold Daemon.readInitial
    split
    · next hc => exact ⟨h, id, rfl, rfl, rfl, hc⟩
    · next hc =>
      have h0 : Daemon.Serves { d with srv := { d.srv with now := b.now, sendResults := b.sendResults } } := h.srv (.internal rfl rfl)
      obtain ⟨i1, i2, i3, i4, i5⟩ := messages_serves rx b.messages (hl b (List.mem_cons_self ..)).2 h0
      simp only []
      split
      · obtain ⟨j1, j2, j3, j4, j5, j6⟩ := ih (fun b hb => hl b (List.mem_cons_of_mem _ hb)) i1
        exact ⟨j1, fun e => j2 (i2 e), j3.trans i3, j4.trans i4, j5.trans i5, j6⟩
      · next ha =>
        refine ⟨i1, i2, i3, i4, i5, ?_⟩
        rw [(hl b (List.mem_cons_self ..)).1 (Bool.eq_false_iff.2 ha)]
        exact Bool.eq_false_iff.2 hc

/-- What a pass of the loop leads to: when the loop goes on then the devices are grabbed as configured; when it says that the program
ends then there was a signal, or the exit sequence was read. -/
theorem pass_runs (rx : Regex) {d : Daemon} (h : d.Runs) (p : DaemonPass) (hp : ∀ m ∈ p.messages, m.Proper) :
    ((d.pass rx p).2 = none → (d.pass rx p).1.Runs ∧ (d.pass rx p).1.changed = false ∨ p.read = .other ∧ (d.pass rx p).1.Runs) ∧
      ((d.pass rx p).1.stop = true → d.stop = true ∨ p.signal = true) ∧
      (d.Exited → (d.pass rx p).1.Exited) ∧
      ((d.pass rx p).2 = some false → d.stop = true ∨ p.signal = true ∨ (d.pass rx p).1.Exited) := by
  have hd : Daemon.Runs { d with stop := d.stop || p.signal } := ⟨⟨h.serves.config⟩, h.keyboard, h.grabbed, h.as⟩
  have hstop : (d.stop || p.signal) = true → d.stop = true ∨ p.signal = true := by rw [Bool.or_eq_true]; exact id
  unfold Daemon.pass
  simp only []
  split
  · next hs =>
    refine ⟨fun e => (by cases e), hstop, id, fun _ => ?_⟩
    rcases (shutdown_iff _).1 hs with hs | hs
    · rcases hstop hs with hs | hs
      · exact .inl hs
      · exact .inr (.inl hs)
    · exact .inr (.inr hs)
  · split
    · exact ⟨fun e => (by cases e), hstop, id, fun e => (by cases e)⟩
    · have hk0 : Keeps d.srv { d.srv with now := p.now, sendResults := p.sendResults } := .internal rfl rfl
      split
      · next ho => exact ⟨fun _ => .inr ⟨ho, hd.srv hk0⟩, hstop, hk0.1, fun e => (by cases e)⟩
      · have hk1 := hk0.trans ((processRead_keeps rx _ p.read).trans ((answerTimeout_keeps rx _).trans (flushWhenDue_keeps rx _)))
        generalize (({ d.srv with now := p.now, sendResults := p.sendResults } : Srv).processRead rx p.read |>.answerTimeout rx |>.flushWhenDue rx) = r at hk1
        obtain ⟨s, ok⟩ := r
        simp only [] at hk1 ⊢
        split
        · exact ⟨fun e => (by cases e), hstop, hk1.1, fun e => (by cases e)⟩
        · split
          · exact ⟨fun e => (by cases e), hstop, hk1.1, fun e => (by cases e)⟩
          · have hk2 := hk1.trans (updateDevices_keeps rx s p.devices)
            have hr := hd.srv hk2
            have hm := messages_runs rx p.messages hp hr
            obtain ⟨-, m2, m3, -, -⟩ := messages_serves rx p.messages hp hr.serves
            have m2 : d.Exited → _ := fun e => m2 (hk2.1 e)
            generalize p.messages.foldl (Daemon.onMessage rx) { d with srv := s.updateDevices rx p.devices, stop := d.stop || p.signal } = d' at hm m2 m3 ⊢
            have m3 : d'.stop = true → d.stop = true ∨ p.signal = true := by rw [m3]; exact hstop
            unfold Daemon.endPass
            split
            · exact ⟨fun e => (by cases e), m3, m2, fun e => (by cases e)⟩
            · split
              · exact ⟨fun e => (by cases e), m3, m2, fun e => (by cases e)⟩
              · next hc =>
                split
                · next hx =>
                  refine ⟨fun e => (by cases e), m3, m2, fun _ => ?_⟩
                  rcases hm.serves.config with he | he
                  · exact .inr (.inr he)
                  · exact absurd he.1.2 (by rw [hx]; exact Bool.noConfusion)
                · refine ⟨fun _ => .inl ⟨hm, ?_⟩, m3, m2, fun e => (by cases e)⟩
                  simp only [Bool.or_eq_true, not_or, Bool.not_eq_true] at hc
                  exact hc.1

/-- the devices are grabbed as configured, unless the program is going to end or the configuration changed before the loop -/
def Daemon.Fits (d : Daemon) : Prop := d.Exited ∨ GrabbedAs (observed d.log)

theorem fits_other (rx : Regex) {d : Daemon} (p : DaemonPass) (ho : p.read = .other) (hn : (d.pass rx p).2 = none) (h : d.Fits) : (d.pass rx p).1.Fits := by
  unfold Daemon.pass at hn ⊢
  simp only [] at hn ⊢
  split at hn
  · cases hn
  · next h1 =>
    rw [if_neg h1]
    split at hn
    · cases hn
    · next h2 =>
      rw [if_neg h2, if_pos ho]
      exact h

theorem loop_runs (rx : Regex) (l : List DaemonPass) (hl : ∀ p ∈ l, ∀ m ∈ p.messages, m.Proper) : ∀ {d : Daemon}, d.Runs → d.Fits →
    ((Daemon.loop rx l d).2 = none → (Daemon.loop rx l d).1.Runs ∧ (Daemon.loop rx l d).1.Fits) ∧
      ((Daemon.loop rx l d).1.stop = true → d.stop = true ∨ ∃ p ∈ l, p.signal = true) ∧
      (d.Exited → (Daemon.loop rx l d).1.Exited) ∧
      ((Daemon.loop rx l d).2 = some false → d.stop = true ∨ (∃ p ∈ l, p.signal = true) ∨ (Daemon.loop rx l d).1.Exited) := by
  induction l with
  | nil => intro d h hf; exact ⟨fun _ => ⟨h, hf⟩, .inl, id, fun e => (by cases e)⟩
  | cons p l ih =>
    intro d h hf
    obtain ⟨p1, p2, p3, p4⟩ := pass_runs rx h p (hl p (List.mem_cons_self ..))
    have hfo := fits_other rx (d := d) p
    unfold Daemon.loop
    generalize d.pass rx p = r at p1 p2 p3 p4 hfo
    obtain ⟨d', o⟩ := r
    have hsig : d'.stop = true → d.stop = true ∨ ∃ q ∈ p :: l, q.signal = true := by
      intro e
      rcases p2 e with e | e
      · exact .inl e
      · exact .inr ⟨p, List.mem_cons_self .., e⟩
    cases o with
    | some b =>
      refine ⟨fun e => (by cases e), hsig, p3, fun e => ?_⟩
      rcases p4 e with e | e | e
      · exact .inl e
      · exact .inr (.inl ⟨p, List.mem_cons_self .., e⟩)
      · exact .inr (.inr e)
    | none =>
      have hr : d'.Runs ∧ d'.Fits := by
        rcases p1 rfl with ⟨q1, q2⟩ | ⟨q1, q2⟩
        · refine ⟨q1, ?_⟩
          rcases q1.as with q | q | q
          · exact .inl q
          · rw [q2] at q; cases q
          · exact .inr q.1
        · exact ⟨q2, hfo q1 rfl hf⟩
      obtain ⟨i1, i2, i3, i4⟩ := ih (fun p hp => hl p (List.mem_cons_of_mem _ hp)) hr.1 hr.2
      have hmem : (∃ q ∈ l, q.signal = true) → ∃ q ∈ p :: l, q.signal = true := fun ⟨q, hq, e⟩ => ⟨q, List.mem_cons_of_mem _ hq, e⟩
      refine ⟨i1, fun e => ?_, fun e => i3 (p3 e), fun e => ?_⟩
      · rcases i2 e with e | e
        · exact hsig e
        · exact .inr (hmem e)
      · rcases i4 e with e | e | e
        · rcases hsig e with e | e
          · exact .inl e
          · exact .inr (.inl e)
        · exact .inr (.inl (hmem e))
        · exact .inr (.inr e)

/-- While waiting for a client: no device is used, and there is no configuration -/
structure Daemon.Waits (d : Daemon) : Prop where
  serves : d.Serves
  keyboard : (observed d.log).keyboard = false
  grab : (observed d.log).grab = none
  config : d.hasConfiguration = false

theorem letGo_waits {d : Daemon} (h : d.hasConfiguration = false) (hx : d.Exited ∨ d.srv.ExitFree) : d.letGo.1.Waits := by
  have ho : observed d.letGo.1.log = {} := observed_snoc _ _
  have hfl : d.srv.flags = [] := by
    rw [hasConfiguration_eq] at h
    cases hf : d.srv.flags with
    | nil => rfl
    | cons a l => rw [hf] at h; cases h
  refine ⟨⟨?_⟩, by rw [ho], by rw [ho], h⟩
  rcases hx with hx | hx
  · exact .inl hx
  · exact .inr ⟨hx, .inl ⟨hfl, by rw [ho]⟩⟩

/-- What a client leads to -/
theorem session_waits (rx : Regex) {d : Daemon} (h : d.Waits) (x : DaemonSession) (hx : x.Proper) :
    ((d.session rx x).2 = .waiting ∨ (d.session rx x).2 = .ended 0 → (d.session rx x).1.Waits) ∧
    ((d.session rx x).2 = .running → (d.session rx x).1.Runs ∧ (d.session rx x).1.Fits) ∧
    ((d.session rx x).1.stop = true → d.stop = true ∨ x.Signalled ∨ (d.session rx x).1.Exited) ∧
    ((d.session rx x).2 = .ended 0 → (d.session rx x).1.stop = true ∨ (d.session rx x).1.Exited) := by
  unfold Daemon.session
  split
  · exact ⟨fun e => (by rcases e with e | e <;> cases e), fun e => (by cases e), .inl, fun e => (by cases e)⟩
  · refine ⟨fun _ => h, ?_, .inl, ?_⟩
    · intro e
      simp only [] at e
      split at e <;> cases e
    · intro e
      simp only [] at e
      split at e
      · next hs => exact (shutdown_iff d).1 hs
      · cases e
  · obtain ⟨r1, r2, r3, r4, r5, r6⟩ := readInitial_serves rx x.batches hx.batches h.serves
    generalize Daemon.readInitial rx x.batches d = r at r1 r2 r3 r4 r5 r6
    obtain ⟨d1, ok⟩ := r
    simp only [] at r1 r2 r3 r4 r5 r6
    have hex : d1.Exited ∨ d1.srv.ExitFree := by
      rcases r1.config with e | e
      · exact .inl e
      · exact .inr e.1
    cases ok with
    | false =>
      refine ⟨fun _ => letGo_waits r6 hex, ?_, ?_, ?_⟩
      · intro e
        simp only [Daemon.letGo] at e
        split at e <;> cases e
      · intro e
        exact .inl (r3 ▸ e)
      · intro e
        simp only [Daemon.letGo] at e
        split at e
        · next hs => exact (shutdown_iff d1).1 hs
        · cases e
    | true =>
      simp only []
      have hone : ∀ (d' : Daemon), d'.stop = d1.stop →
          (((d', DaemonPhase.ended 1).2 = .waiting ∨ (d', DaemonPhase.ended 1).2 = .ended 0 → (d', DaemonPhase.ended 1).1.Waits) ∧
          ((d', DaemonPhase.ended 1).2 = .running → (d', DaemonPhase.ended 1).1.Runs ∧ (d', DaemonPhase.ended 1).1.Fits) ∧
          ((d', DaemonPhase.ended 1).1.stop = true → d.stop = true ∨ x.Signalled ∨ (d', DaemonPhase.ended 1).1.Exited) ∧
          ((d', DaemonPhase.ended 1).2 = .ended 0 → (d', DaemonPhase.ended 1).1.stop = true ∨ (d', DaemonPhase.ended 1).1.Exited)) := by
        intro d' hd'
        exact ⟨fun e => (by rcases e with e | e <;> cases e), fun e => (by cases e), fun e => .inl (by rw [← r3, ← hd']; exact e), fun e => (by cases e)⟩
      unfold Daemon.configured
      split
      · exact hone _ rfl
      · simp only []
        split
        · exact hone _ rfl
        · unfold Daemon.grabbed
          split
          · exact hone _ rfl
          · have hl2 : observed ((d1.log ++ [.keyboard]) ++ [.grab d1.srv.ms.hasMouseMappings d1.filters]) =
                ((observed d1.log).see .keyboard).see (.grab d1.srv.ms.hasMouseMappings d1.filters) := by
              rw [observed_snoc, observed_snoc]
            have hne : d1.srv.flags ≠ [] := by
              intro hn
              rw [hasConfiguration_eq, hn] at r6
              cases r6
            have hk : Keeps d1.srv ({ d1.srv with sendResults := x.sendResults }.setDeviceDescs rx x.devices) :=
              (setDeviceDescs_keeps rx { d1.srv with sendResults := x.sendResults } x.devices).after rfl rfl
            have hserve : Daemon.Serves { d1 with log := (d1.log ++ [.keyboard]) ++ [.grab d1.srv.ms.hasMouseMappings d1.filters] } := by
              refine ⟨?_⟩
              show _ ∨ (_ ∧ ((_ ∧ (observed ((d1.log ++ [.keyboard]) ++ [.grab d1.srv.ms.hasMouseMappings d1.filters])).config = none) ∨
                ∃ cfgs, cfgs ≠ [] ∧ (observed ((d1.log ++ [.keyboard]) ++ [.grab d1.srv.ms.hasMouseMappings d1.filters])).config = _ ∧ _))
              rw [hl2]
              exact r1.config
            have has : d1.Exited ∨ GrabbedAs (observed ((d1.log ++ [.keyboard]) ++ [.grab d1.srv.ms.hasMouseMappings d1.filters])) := by
              rcases r1.config with e | ⟨-, e | ⟨cfgs, e1, e2, e3⟩⟩
              · exact .inl e
              · exact absurd e.1 hne
              · refine .inr ⟨_, _, d1.filters, cfgs, by rw [hl2]; rfl, by rw [hl2]; exact e2, ?_, rfl⟩
                rw [mouse_eq, e3, List.any_map]
                rfl
            have hruns : Daemon.Runs { d1 with log := (d1.log ++ [.keyboard]) ++ [.grab d1.srv.ms.hasMouseMappings d1.filters] } := by
              refine ⟨hserve, ?_, ?_, ?_⟩
              · show (observed ((d1.log ++ [.keyboard]) ++ [.grab d1.srv.ms.hasMouseMappings d1.filters])).keyboard = true
                rw [hl2]; rfl
              · show (observed ((d1.log ++ [.keyboard]) ++ [.grab d1.srv.ms.hasMouseMappings d1.filters])).grab.isSome = true
                rw [hl2]; rfl
              · rcases has with e | e
                · exact .inl e
                · exact .inr (.inr ⟨e, hne⟩)
            have hruns := hruns.srv hk
            have hfits : Daemon.Fits { d1 with
                srv := { d1.srv with sendResults := x.sendResults }.setDeviceDescs rx x.devices
                log := (d1.log ++ [.keyboard]) ++ [.grab d1.srv.ms.hasMouseMappings d1.filters] } := by
              rcases has with e | e
              · exact .inl (hk.1 e)
              · exact .inr e
            obtain ⟨l1, l2, l3, l4⟩ := loop_runs rx x.passes hx.passes hruns hfits
            simp only [] at l1 l2 l3 l4 ⊢
            generalize Daemon.loop rx x.passes _ = r at l1 l2 l3 l4
            obtain ⟨d2, o⟩ := r
            simp only [] at l1 l2 l3 l4
            have hst : d2.stop = true → d.stop = true ∨ x.Signalled ∨ d2.Exited := by
              intro e
              rcases l2 e with e | e
              · exact .inl (by rw [← r3]; exact e)
              · exact .inr (.inl (.inr e))
            cases o with
            | none => exact ⟨fun e => (by rcases e with e | e <;> cases e), fun _ => l1 rfl, hst, fun e => (by cases e)⟩
            | some b =>
              have hmono := (resetConfiguration_steps (rx := rx) (flush_steps rx) { d2.srv with now := x.resetNow, sendResults := x.resetResults } {}).exit_mono
              refine ⟨fun _ => letGo_waits rfl (.inr ⟨rfl, rfl⟩), ?_, ?_, ?_⟩
              · intro e
                simp only [Daemon.letGo] at e
                split at e <;> cases e
              · intro e
                have e : (d2.stop || !b || x.lateSignal) = true := e
                rw [Bool.or_eq_true, Bool.or_eq_true] at e
                rcases e with (e | e) | e
                · rcases hst e with e | e | e
                  · exact .inl e
                  · exact .inr (.inl e)
                  · exact .inr (.inr (hmono e))
                · have hb : b = false := by cases b <;> simp_all
                  rcases l4 (by rw [hb]) with e | e | e
                  · exact .inl (by rw [← r3]; exact e)
                  · exact .inr (.inl (.inr e))
                  · exact .inr (.inr (hmono e))
                · exact .inr (.inl (.inl e))
              · intro e
                simp only [Daemon.letGo] at e
                split at e
                · next hs => exact (shutdown_iff _).1 hs
                · cases e

end KM
