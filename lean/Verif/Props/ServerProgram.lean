import Verif.Lemmas.ServerServes
/-!
# C94: the server program uses the devices while a client with a configuration is connected

The model is `Verif/Model/ServerProgram.lean`, what is observed of it is defined in `Verif/Spec/ServerProgram.lean`.
-/
namespace KM

private theorem session_shutdown (rx : Regex) (d : Daemon) (x : DaemonSession) (h : (d.session rx x).2 = .waiting) :
    (d.session rx x).1.shutdown = false := by
  have hl : ∀ d : Daemon, d.letGo.2 = .waiting → d.letGo.1.shutdown = false := by
    intro d e
    unfold Daemon.letGo at e ⊢
    simp only [] at e
    split at e
    · cases e
    · next hs => exact Bool.eq_false_iff.2 hs
  unfold Daemon.session at h ⊢
  split at h
  · cases h
  · next hx =>
    simp only [] at h ⊢
    split at h
    · cases h
    · next hs => exact Bool.eq_false_iff.2 hs
  · split at h
    · exact hl _ h
    · unfold Daemon.configured at h ⊢
      split at h
      · cases h
      · next h1 =>
        rw [if_neg h1]
        simp only [] at h ⊢
        split at h
        · cases h
        · next h2 =>
          rw [if_neg h2]
          unfold Daemon.grabbed at h ⊢
          split at h
          · cases h
          · next h3 =>
            rw [if_neg h3]
            split at h
            · cases h
            · exact hl _ h

private theorem run_waits (rx : Regex) (l : List DaemonSession) (hl : ∀ x ∈ l, x.Proper) : ∀ {d : Daemon}, d.Waits → d.shutdown = false →
    ((Daemon.run rx l d).2 = .waiting ∨ (Daemon.run rx l d).2 = .ended 0 → (Daemon.run rx l d).1.Waits) ∧
    ((Daemon.run rx l d).2 = .running → (Daemon.run rx l d).1.Runs ∧ (Daemon.run rx l d).1.Fits) ∧
    ((Daemon.run rx l d).2 = .ended 0 → (∃ x ∈ l, x.Signalled) ∨ (Daemon.run rx l d).1.Exited) := by
  induction l with
  | nil => intro d h _; exact ⟨fun _ => h, fun e => (by cases e), fun e => (by cases e)⟩
  | cons x l ih =>
    intro d h hs
    obtain ⟨s1, s2, s3, s4⟩ := session_waits rx h x (hl x (List.mem_cons_self ..))
    have s5 := session_shutdown rx d x
    have hst : d.stop = true → False := fun e => by
      have := (shutdown_iff d).2 (.inl e)
      rw [hs] at this
      cases this
    unfold Daemon.run
    generalize d.session rx x = r at s1 s2 s3 s4 s5
    obtain ⟨d', ph⟩ := r
    have hend : ph = .ended 0 → (∃ y ∈ x :: l, y.Signalled) ∨ d'.Exited := by
      intro e
      rcases s4 e with e | e
      · rcases s3 e with e | e | e
        · exact (hst e).elim
        · exact .inl ⟨x, List.mem_cons_self .., e⟩
        · exact .inr e
      · exact .inr e
    cases ph with
    | waiting =>
      obtain ⟨i1, i2, i3⟩ := ih (fun y hy => hl y (List.mem_cons_of_mem _ hy)) (s1 (.inl rfl)) (s5 rfl)
      refine ⟨i1, i2, fun e => ?_⟩
      rcases i3 e with ⟨y, hy, e⟩ | e
      · exact .inl ⟨y, List.mem_cons_of_mem _ hy, e⟩
      · exact .inr e
    | running => exact ⟨fun e => (by rcases e with e | e <;> cases e), s2, fun e => (by cases e)⟩
    | ended c => exact ⟨s1, s2, hend⟩

private theorem waits_init : ({} : Daemon).Waits :=
  ⟨⟨.inr ⟨⟨rfl, rfl⟩, .inl ⟨rfl, rfl⟩⟩⟩, rfl, rfl, rfl⟩

private theorem main_run {rx : Regex} {args : List Str} {listenOk : Bool} {sessions : List DaemonSession} :
    serverMain rx args listenOk sessions = Daemon.run rx sessions {} ∨ serverMain rx args listenOk sessions = ({}, .ended 1) := by
  unfold serverMain
  split
  · exact .inr rfl
  · split
    · exact .inl rfl
    · exact .inr rfl

/-- **C94** Whatever the clients, the devices, the users and the signals do: while the program waits for a client, and when it was
ended regularly, it does not use a device (so the keyboards work as without it) and has no configuration. While it serves a
client it has the virtual keyboard and the devices. -/
theorem C94_devices (rx : Regex) (args : List Str) (listenOk : Bool) (sessions : List DaemonSession) (hp : ∀ x ∈ sessions, x.Proper) :
    let r := serverMain rx args listenOk sessions
    (r.2 = .waiting ∨ r.2 = .ended 0 → (observed r.1.log).keyboard = false ∧ (observed r.1.log).grab = none ∧ r.1.srv.ms.stages = []) ∧
    (r.2 = .running → (observed r.1.log).keyboard = true ∧ (observed r.1.log).grab.isSome = true) := by
  intro r
  rcases main_run (rx := rx) (args := args) (listenOk := listenOk) (sessions := sessions) with hm | hm
  · obtain ⟨h1, h2, -⟩ := run_waits rx sessions hp waits_init rfl
    rw [← hm] at h1 h2
    refine ⟨fun e => ⟨(h1 e).keyboard, (h1 e).grab, ?_⟩, fun e => ⟨(h2 e).1.keyboard, (h2 e).1.grabbed⟩⟩
    have := (h1 e).config
    unfold Daemon.hasConfiguration at this
    exact List.isEmpty_iff.1 (by simpa using this)
  · refine ⟨fun e => ?_, fun e => ?_⟩
    · rw [show r = _ from hm] at e
      rcases e with e | e <;> cases e
    · rw [show r = _ from hm] at e
      cases e

/-- **C94** While the program serves a client the devices are grabbed as the configuration which it received last demands (with
the mice, with its filters), unless the exit sequence was just read: when another configuration demands something else, then it
lets go of the devices and of the client (which connects again). -/
theorem C94_as_configured (rx : Regex) (args : List Str) (listenOk : Bool) (sessions : List DaemonSession) (hp : ∀ x ∈ sessions, x.Proper)
    (hr : (serverMain rx args listenOk sessions).2 = .running) (hx : Eff.exitRequested ∉ (serverMain rx args listenOk sessions).1.srv.out) :
    GrabbedAs (observed (serverMain rx args listenOk sessions).1.log) := by
  rcases main_run (rx := rx) (args := args) (listenOk := listenOk) (sessions := sessions) with hm | hm
  · rw [hm] at hr hx ⊢
    rcases ((run_waits rx sessions hp waits_init rfl).2.1 hr).2 with h | h
    · exact absurd h hx
    · exact h
  · rw [hm] at hr
    cases hr

/-- **C94** The program only ends regularly when it got a signal while it served a client, or when the exit sequence was read. -/
theorem C94_ends_only_then (rx : Regex) (args : List Str) (listenOk : Bool) (sessions : List DaemonSession) (hp : ∀ x ∈ sessions, x.Proper)
    (he : (serverMain rx args listenOk sessions).2 = .ended 0) :
    (∃ x ∈ sessions, x.Signalled) ∨ Eff.exitRequested ∈ (serverMain rx args listenOk sessions).1.srv.out := by
  rcases main_run (rx := rx) (args := args) (listenOk := listenOk) (sessions := sessions) with hm | hm
  · rw [hm] at he ⊢
    exact (run_waits rx sessions hp waits_init rfl).2.2 he
  · rw [hm] at he
    cases he

private theorem loop_append (rx : Regex) (a b : List DaemonPass) : ∀ (d d' : Daemon), Daemon.loop rx a d = (d', none) →
    Daemon.loop rx (a ++ b) d = Daemon.loop rx b d' := by
  induction a with
  | nil =>
    intro d d' h
    injection h with h
    subst h
    rfl
  | cons p a ih =>
    intro d d' h
    rw [Daemon.loop] at h
    rw [List.cons_append, Daemon.loop]
    generalize d.pass rx p = r at h ⊢
    obtain ⟨d1, o⟩ := r
    cases o with
    | none => exact ih _ _ h
    | some b => cases h

private theorem run_snoc (rx : Regex) (x : DaemonSession) (l : List DaemonSession) : ∀ (d : Daemon),
    (Daemon.run rx l d).2 = .waiting → Daemon.run rx (l ++ [x]) d = ((Daemon.run rx l d).1.session rx x) := by
  induction l with
  | nil =>
    intro d _
    show Daemon.run rx [x] d = d.session rx x
    unfold Daemon.run
    generalize d.session rx x = r
    obtain ⟨d', ph⟩ := r
    cases ph <;> rfl
  | cons y l ih =>
    intro d h
    rw [List.cons_append, Daemon.run]
    rw [Daemon.run] at h ⊢
    generalize d.session rx y = r at h ⊢
    obtain ⟨d', ph⟩ := r
    cases ph with
    | waiting => exact ih _ h
    | running => cases h
    | ended c => cases h

/-- **C94** When the program gets a signal while it serves a client, or when the exit sequence was read, then it ends regularly with
the next pass of its loop. (`sessions` are the clients before, `x` is the one being served.) -/
theorem C94_ends (rx : Regex) (args : List Str) (listenOk : Bool) (sessions : List DaemonSession) (x : DaemonSession)
    (hw : (serverMain rx args listenOk sessions).2 = .waiting) (hr : (serverMain rx args listenOk (sessions ++ [x])).2 = .running)
    (p : DaemonPass) (he : p.signal = true ∨ Eff.exitRequested ∈ (serverMain rx args listenOk (sessions ++ [x])).1.srv.out) :
    (serverMain rx args listenOk (sessions ++ [{ x with passes := x.passes ++ [p] }])).2 = .ended 0 := by
  unfold serverMain at hw hr he ⊢
  split at hw
  · cases hw
  · next ha =>
    split at hw
    · next hlis =>
      rw [ha] at hr he
      simp only [hlis, if_true] at hr he ⊢
      rw [run_snoc rx _ _ _ hw] at hr he
      rw [run_snoc rx _ _ _ hw]
      generalize (Daemon.run rx sessions {}).1 = d at hr he
      unfold Daemon.session at hr he ⊢
      split at hr
      · cases hr
      · simp only [] at hr
        split at hr <;> cases hr
      · next hacc =>
        rw [hacc] at he
        simp only [] at he ⊢
        rw [hacc]
        simp only []
        generalize Daemon.readInitial rx x.batches d = r at hr he
        obtain ⟨d1, ok⟩ := r
        cases ok with
        | false =>
          simp only [Daemon.letGo] at hr
          split at hr <;> cases hr
        | true =>
          simp only [] at hr he ⊢
          unfold Daemon.configured at hr he ⊢
          split at hr
          · cases hr
          · next h1 =>
            rw [if_neg h1] at he
            rw [if_neg h1]
            simp only [] at hr he ⊢
            split at hr
            · cases hr
            · next h2 =>
              rw [if_neg h2] at he
              rw [if_neg h2]
              unfold Daemon.grabbed at hr he ⊢
              split at hr
              · cases hr
              · next h3 =>
                rw [if_neg h3] at he
                rw [if_neg h3]
                simp only [] at hr he ⊢
                generalize ({ srv := { d1.srv with sendResults := x.sendResults }.setDeviceDescs rx x.devices,
                              filters := d1.filters, changed := d1.changed, stop := d1.stop,
                              log := d1.log ++ [DaemonEff.keyboard] ++ [DaemonEff.grab d1.srv.ms.hasMouseMappings d1.filters] } : Daemon) = d2 at hr he ⊢
                have hap := loop_append rx x.passes [p] d2
                generalize Daemon.loop rx x.passes d2 = r at hr he hap
                obtain ⟨d3, o⟩ := r
                cases o with
                | some b =>
                  simp only [Daemon.letGo] at hr
                  split at hr <;> cases hr
                | none =>
                  simp only [] at he
                  rw [hap d3 rfl]
                  have hsh : Daemon.shutdown { d3 with stop := d3.stop || p.signal } = true := by
                    rw [shutdown_iff]
                    rcases he with he | he
                    · left; show (d3.stop || p.signal) = true; rw [he, Bool.or_true]
                    · exact .inr he
                  have : Daemon.loop rx [p] d3 = ({ d3 with stop := d3.stop || p.signal }, some false) := by
                    unfold Daemon.loop Daemon.pass
                    simp only []
                    rw [if_pos hsh]
                  rw [this]
                  simp only [Daemon.letGo]
                  rw [if_pos]
                  rw [shutdown_iff]
                  left
                  show ((d3.stop || p.signal) || !false || x.lateSignal) = true
                  simp
    · cases hw


private theorem args_none (l : List Str) : ∀ (v : Bool), interpretServerArgs l v = none ↔ ∃ a ∈ l, a ≠ "-v".toList ∧ a ≠ "--verbose".toList := by
  induction l with
  | nil => intro v; exact ⟨fun e => (by cases e), fun ⟨a, h, _⟩ => (by cases h)⟩
  | cons a l ih =>
    intro v
    rw [interpretServerArgs]
    split
    · next h =>
      rw [ih]
      rw [Bool.or_eq_true, decide_eq_true_eq, decide_eq_true_eq] at h
      constructor
      · rintro ⟨b, hb, e⟩
        exact ⟨b, List.mem_cons_of_mem _ hb, e⟩
      · rintro ⟨b, hb, e⟩
        rcases List.mem_cons.1 hb with hb | hb
        · subst hb
          rcases h with h | h
          · exact absurd h e.1
          · exact absurd h e.2
        · exact ⟨b, hb, e⟩
    · next h =>
      rw [Bool.or_eq_true, decide_eq_true_eq, decide_eq_true_eq, not_or] at h
      exact ⟨fun _ => ⟨a, List.mem_cons_self .., h⟩, fun _ => rfl⟩

private theorem letGo_phase (d : Daemon) : d.letGo.2 = .waiting ∨ d.letGo.2 = .ended 0 := by
  unfold Daemon.letGo
  simp only []
  split
  · exact .inr rfl
  · exact .inl rfl

private theorem session_code (rx : Regex) (d : Daemon) (x : DaemonSession) {c : Nat} (h : (d.session rx x).2 = .ended c) :
    c = 0 ∨ c = 1 ∧ (x.accept = .mismatch ∨ x.accept = .accepted ∧ (x.createOk = false ∨ x.grabOk = false ∨ x.forwardOk = false)) := by
  have hl : ∀ d : Daemon, d.letGo.2 = .ended c → c = 0 := by
    intro d e
    rcases letGo_phase d with h | h
    · rw [h] at e; cases e
    · rw [h] at e; injection e with e; exact e.symm
  unfold Daemon.session at h
  split at h
  · next hx => injection h with h; exact .inr ⟨h.symm, .inl hx⟩
  · simp only [] at h
    split at h
    · injection h with h; exact .inl h.symm
    · cases h
  · next hx =>
    split at h
    · exact .inl (hl _ h)
    · unfold Daemon.configured at h
      split at h
      · next h1 => injection h with h; exact .inr ⟨h.symm, .inr ⟨hx, .inl (by simpa using h1)⟩⟩
      · simp only [] at h
        split at h
        · next h1 => injection h with h; exact .inr ⟨h.symm, .inr ⟨hx, .inr (.inl (by simpa using h1))⟩⟩
        · unfold Daemon.grabbed at h
          split at h
          · next h1 => injection h with h; exact .inr ⟨h.symm, .inr ⟨hx, .inr (.inr (by simpa using h1))⟩⟩
          · split at h
            · cases h
            · exact .inl (hl _ h)

private theorem run_code (rx : Regex) (l : List DaemonSession) : ∀ (d : Daemon) {c : Nat}, (Daemon.run rx l d).2 = .ended c →
    c = 0 ∨ c = 1 ∧ ∃ x ∈ l, x.accept = .mismatch ∨ x.accept = .accepted ∧ (x.createOk = false ∨ x.grabOk = false ∨ x.forwardOk = false) := by
  induction l with
  | nil => intro d c h; cases h
  | cons x l ih =>
    intro d c h
    have hs := fun c => session_code rx d x (c := c)
    rw [Daemon.run] at h
    generalize d.session rx x = r at h hs
    obtain ⟨d', ph⟩ := r
    cases ph with
    | waiting =>
      rcases ih d' h with h | ⟨h, y, hy, e⟩
      · exact .inl h
      · exact .inr ⟨h, y, List.mem_cons_of_mem _ hy, e⟩
    | running => cases h
    | ended c' =>
      rcases hs c h with h | ⟨h, e⟩
      · exact .inl h
      · exact .inr ⟨h, x, List.mem_cons_self .., e⟩

/-- **C94** The exit code is 0 or 1. It is 1 only when an argument is not known, when the socket cannot be opened, when a client of
another version connected or when the devices of a client could not be created or grabbed. -/
theorem C94_exit_code (rx : Regex) (args : List Str) (listenOk : Bool) (sessions : List DaemonSession) (code : Nat)
    (h : (serverMain rx args listenOk sessions).2 = .ended code) :
    code = 0 ∨ code = 1 ∧ ((∃ a ∈ args, a ≠ "-v".toList ∧ a ≠ "--verbose".toList) ∨ listenOk = false ∨
      ∃ x ∈ sessions, x.accept = .mismatch ∨ x.accept = .accepted ∧ (x.createOk = false ∨ x.grabOk = false ∨ x.forwardOk = false)) := by
  unfold serverMain at h
  split at h
  · next ha =>
    injection h with h
    exact .inr ⟨h.symm, .inl ((args_none args false).1 ha)⟩
  · split at h
    · rcases run_code rx sessions {} h with h | ⟨h, e⟩
      · exact .inl h
      · exact .inr ⟨h, .inr (.inr e)⟩
    · next hl =>
      injection h with h
      exact .inr ⟨h.symm, .inr (.inl (Bool.eq_false_iff.2 hl))⟩

/-- **C94** The program fails in each of these cases: when it would serve the client, but its devices cannot be created or grabbed;
when the client has another version. -/
theorem C94_fails (rx : Regex) (args : List Str) (listenOk : Bool) :
    ((∃ a ∈ args, a ≠ "-v".toList ∧ a ≠ "--verbose".toList) → ∀ sessions, (serverMain rx args listenOk sessions).2 = .ended 1) ∧
    (listenOk = false → ∀ sessions, (serverMain rx args listenOk sessions).2 = .ended 1) ∧
    ∀ sessions, (serverMain rx args listenOk sessions).2 = .waiting → ∀ x : DaemonSession,
      (x.accept = .mismatch → (serverMain rx args listenOk (sessions ++ [x])).2 = .ended 1) ∧
      ((serverMain rx args listenOk (sessions ++ [x])).2 = .running → ∀ create grab forward, (create && grab && forward) = false →
        (serverMain rx args listenOk (sessions ++ [{ x with createOk := create, grabOk := grab, forwardOk := forward }])).2 = .ended 1) := by
  refine ⟨?_, ?_, ?_⟩
  · intro ha sessions
    unfold serverMain
    rw [(args_none args false).2 ha]
  · intro hl sessions
    unfold serverMain
    rw [hl]
    split
    · rfl
    · rfl
  · intro sessions hw x
    unfold serverMain at hw ⊢
    split at hw
    · cases hw
    · next ha =>
      split at hw
      · next hlis =>
        simp only [hlis, if_true]
        rw [run_snoc rx _ _ _ hw]
        generalize hd : (Daemon.run rx sessions {}).1 = d
        refine ⟨?_, ?_⟩
        · intro hm
          unfold Daemon.session
          rw [hm]
        · intro hr create grab forward hf
          rw [run_snoc rx _ _ _ hw, hd]
          unfold Daemon.session at hr ⊢
          split at hr
          · cases hr
          · simp only [] at hr
            split at hr <;> cases hr
          · next hacc =>
            simp only []
            rw [hacc]
            simp only []
            generalize Daemon.readInitial rx x.batches d = r at hr
            obtain ⟨d1, ok⟩ := r
            cases ok with
            | false =>
              simp only [] at hr
              rcases letGo_phase d1 with h | h <;> (rw [h] at hr; cases hr)
            | true =>
              simp only []
              unfold Daemon.configured Daemon.grabbed
              cases create
              · rfl
              · cases grab
                · rfl
                · cases forward
                  · rfl
                  · cases hf
      · cases hw

private theorem messages_srv (rx : Regex) (l : List DaemonMsg) : ∀ (d : Daemon),
    (l.foldl (Daemon.onMessage rx) d).srv = (l.map DaemonMsg.msg).foldl (Srv.onMessage rx) d.srv := by
  induction l with
  | nil => intro d; rfl
  | cons m l ih =>
    intro d
    rw [List.foldl_cons, ih, List.map_cons, List.foldl_cons]
    cases m <;> rfl

private theorem pass_iterate (rx : Regex) {d : Daemon} {p : DaemonPass} (h : (d.pass rx p).2 = none) :
    ((d.pass rx p).1.srv, true) = d.srv.iterate rx p.iteration := by
  unfold Daemon.pass at h ⊢
  unfold Srv.iterate DaemonPass.iteration
  simp only [] at h ⊢
  split at h
  · cases h
  · next h1 =>
    rw [if_neg h1]
    split at h
    · cases h
    · next h2 =>
      rw [if_neg h2]
      split at h
      · next h3 => rw [if_pos h3, if_pos h3]
      · next h3 =>
        rw [if_neg h3, if_neg h3]
        generalize ((({ d.srv with now := p.now, sendResults := p.sendResults } : Srv).processRead rx p.read).answerTimeout rx).flushWhenDue rx = r at h ⊢
        obtain ⟨s, ok⟩ := r
        simp only [] at h ⊢
        split at h
        · cases h
        · next h4 =>
          rw [if_neg h4, if_neg h4]
          split at h
          · cases h
          · next h5 =>
            rw [if_neg h5]
            have hms := messages_srv rx p.messages { d with srv := s.updateDevices rx p.devices, stop := d.stop || p.signal }
            generalize p.messages.foldl (Daemon.onMessage rx) { d with srv := s.updateDevices rx p.devices, stop := d.stop || p.signal } = d' at h hms ⊢
            have hms : d'.srv = (p.messages.map DaemonMsg.msg).foldl (Srv.onMessage rx) (s.updateDevices rx p.devices) := hms
            rw [← hms]
            unfold Daemon.endPass at h ⊢
            split at h
            · cases h
            · next h6 =>
              rw [if_neg h6]
              split at h
              · cases h
              · next h7 =>
                rw [if_neg h7]
                split at h
                · cases h
                · next h8 =>
                  rw [if_neg h8]
                  have h9 : d'.srv.ms.stages.isEmpty = false := by
                    simp only [Bool.or_eq_true, not_or, Bool.not_eq_true, Daemon.hasConfiguration] at h7
                    simpa using h7.2
                  rw [h9, Bool.eq_false_iff.2 h8]
                  rfl

private theorem loop_mainLoop (rx : Regex) (l : List DaemonPass) : ∀ {d : Daemon}, (Daemon.loop rx l d).2 = none →
    (Daemon.loop rx l d).1.srv = d.srv.mainLoop rx (l.map DaemonPass.iteration) := by
  induction l with
  | nil => intro d _; rfl
  | cons p l ih =>
    intro d h
    rw [Daemon.loop] at h ⊢
    rw [List.map_cons, Srv.mainLoop]
    have hp := pass_iterate rx (d := d) (p := p)
    generalize d.pass rx p = r at h hp ⊢
    obtain ⟨d', o⟩ := r
    cases o with
    | some b => cases h
    | none =>
      rw [← hp rfl]
      exact ih h

/-- **C94** What the server does while it serves a client is what the theorems about the loop of the server say (C19, C24, C26, C62,
C75, ...): the messages up to the configuration are processed, the devices are set, then the passes of the loop follow each other;
nothing of the program itself is in between. -/
theorem C94_history (rx : Regex) (d : Daemon) (x : DaemonSession) (h : (d.session rx x).2 = .running) :
    ∃ d₁, Daemon.readInitial rx x.batches d = (d₁, true) ∧
      (d.session rx x).1.srv = ({ d₁.srv with sendResults := x.sendResults }.setDeviceDescs rx x.devices).mainLoop rx (x.passes.map DaemonPass.iteration) := by
  unfold Daemon.session at h ⊢
  split at h
  · cases h
  · simp only [] at h
    split at h <;> cases h
  · next hacc =>
    generalize Daemon.readInitial rx x.batches d = r at h
    obtain ⟨d1, ok⟩ := r
    cases ok with
    | false =>
      simp only [] at h
      rcases letGo_phase d1 with e | e <;> (rw [e] at h; cases h)
    | true =>
      refine ⟨d1, rfl, ?_⟩
      simp only [] at h ⊢
      unfold Daemon.configured at h ⊢
      split at h
      · cases h
      · next h1 =>
        rw [if_neg h1]
        simp only [] at h ⊢
        split at h
        · cases h
        · next h2 =>
          rw [if_neg h2]
          unfold Daemon.grabbed at h ⊢
          split at h
          · cases h
          · next h3 =>
            rw [if_neg h3]
            simp only [] at h ⊢
            have hl := loop_mainLoop rx x.passes (d := { d1 with
              srv := { d1.srv with sendResults := x.sendResults }.setDeviceDescs rx x.devices
              log := d1.log ++ [DaemonEff.keyboard] ++ [DaemonEff.grab d1.srv.ms.hasMouseMappings d1.filters] })
            simp only [] at hl
            generalize Daemon.loop rx x.passes _ = r at h hl ⊢
            obtain ⟨d2, o⟩ := r
            cases o with
            | none => exact hl rfl
            | some b =>
              simp only [] at h
              rcases letGo_phase (d2.afterLoop rx x b) with e | e <;> (rw [e] at h; cases h)

private theorem run_stop (rx : Regex) (l : List DaemonSession) : ∀ (d : Daemon), d.shutdown = false → (Daemon.run rx l d).2 = .waiting →
    (Daemon.run rx l d).1.stop = false := by
  induction l with
  | nil =>
    intro d h _
    cases hs : d.stop with
    | false => exact hs
    | true =>
      rw [(shutdown_iff d).2 (.inl hs)] at h
      cases h
  | cons x l ih =>
    intro d h hw
    have hx := session_shutdown rx d x
    rw [Daemon.run] at hw ⊢
    generalize d.session rx x = r at hw hx ⊢
    obtain ⟨d', ph⟩ := r
    cases ph with
    | waiting => exact ih _ (hx rfl) hw
    | running => cases hw
    | ended c => cases hw

/-- What a further pass does for a client which is served -/
private theorem session_snoc (rx : Regex) {d : Daemon} {x : DaemonSession} (hr : (d.session rx x).2 = .running) (hst : d.stop = false) :
    (d.session rx x).1.stop = false ∧ ∀ p, ((d.session rx x).1.pass rx p).2 = none →
      (d.session rx { x with passes := x.passes ++ [p] }).2 = .running := by
  have hls : ∀ (l : List DaemonPass) (d : Daemon), (Daemon.loop rx l d).2 = none → d.stop = false → (Daemon.loop rx l d).1.stop = false := by
    intro l
    induction l with
    | nil => intro d _ h; exact h
    | cons p l ih =>
      intro d hn h
      rw [Daemon.loop] at hn ⊢
      have hps : (d.pass rx p).2 = none → (d.pass rx p).1.stop = false := by
        intro e
        have hsh : (d.stop || p.signal) = false := by
          cases hs : (d.stop || p.signal) with
          | false => rfl
          | true =>
            have : Daemon.shutdown { d with stop := d.stop || p.signal } = true := (shutdown_iff _).2 (.inl hs)
            unfold Daemon.pass at e
            simp only [] at e
            rw [if_pos this] at e
            cases e
        cases hb : (d.pass rx p).1.stop with
        | false => rfl
        | true =>
          have := (stop_pass rx d p).symm.trans hb
          rw [hsh] at this
          cases this
      generalize d.pass rx p = r at hn hps ⊢
      obtain ⟨d', o⟩ := r
      cases o with
      | none => exact ih _ hn (hps rfl)
      | some b => cases hn
  unfold Daemon.session at hr ⊢
  split at hr
  · cases hr
  · simp only [] at hr
    split at hr <;> cases hr
  · next hacc =>
    simp only [hacc]
    have hri : (Daemon.readInitial rx x.batches d).1.stop = false := (stop_readInitial rx x.batches d).trans hst
    generalize Daemon.readInitial rx x.batches d = r at hr hri ⊢
    obtain ⟨d1, ok⟩ := r
    cases ok with
    | false =>
      simp only [] at hr
      rcases letGo_phase d1 with e | e <;> (rw [e] at hr; cases hr)
    | true =>
      simp only [] at hr hri ⊢
      unfold Daemon.configured at hr ⊢
      split at hr
      · cases hr
      · next h1 =>
        simp only [if_neg h1] at hr ⊢
        split at hr
        · cases hr
        · next h2 =>
          simp only [if_neg h2]
          unfold Daemon.grabbed at hr ⊢
          split at hr
          · cases hr
          · next h3 =>
            simp only [if_neg h3] at hr ⊢
            generalize hd2 : (⟨Srv.setDeviceDescs rx { d1.srv with sendResults := x.sendResults } x.devices, d1.filters, d1.changed, d1.stop, d1.log ++ [DaemonEff.keyboard] ++ [DaemonEff.grab d1.srv.ms.hasMouseMappings d1.filters]⟩ : Daemon) = d2 at hr ⊢
            have hs2 : d2.stop = false := by rw [← hd2]; exact hri
            have hap := fun p => loop_append rx x.passes [p] d2
            have hl2 := hls x.passes d2
            generalize Daemon.loop rx x.passes d2 = r at hr hap hl2 ⊢
            obtain ⟨d3, o⟩ := r
            cases o with
            | some b =>
              simp only [] at hr
              rcases letGo_phase (d3.afterLoop rx x b) with e | e <;> (rw [e] at hr; cases hr)
            | none =>
              refine ⟨hl2 rfl hs2, ?_⟩
              intro p hp
              rw [hap p d3 rfl, Daemon.loop]
              simp only [] at hp
              generalize d3.pass rx p = r at hp
              obtain ⟨d4, o⟩ := r
              simp only [] at hp
              subst hp
              rfl

/-- **C94** A client is not dropped without a reason: while it is served and there is no signal, the exit sequence is not read, the
event can be read, the output can be written, the devices can be set up, and the client is connected and sends no configuration which
demands that other devices are grabbed, then it is still served after the pass. (`sessions` are the clients before, `x` is the
one being served.) -/
theorem C94_keeps_serving (rx : Regex) (args : List Str) (listenOk : Bool) (sessions : List DaemonSession) (x : DaemonSession)
    (hp : ∀ y ∈ sessions ++ [x], y.Proper ∧ y.Plain)
    (hw : (serverMain rx args listenOk sessions).2 = .waiting) (hr : (serverMain rx args listenOk (sessions ++ [x])).2 = .running)
    (p : DaemonPass) (hsig : p.signal = false) (hread : p.readOk = true) (hfor : p.forwardOk = true) (hal : p.alive = true)
    (hit : ((serverMain rx args listenOk (sessions ++ [x])).1.srv.iterate rx p.iteration).2 = true)
    (hex : Eff.exitRequested ∉ ((serverMain rx args listenOk (sessions ++ [x])).1.srv.iterate rx p.iteration).1.out)
    (hm : ∀ m ∈ p.messages, m.Proper ∧ ∀ filters cfgs, m = .configuration filters cfgs →
      GrabbedAs { observed (serverMain rx args listenOk (sessions ++ [x])).1.log with config := some (filters, cfgs) }) :
    (serverMain rx args listenOk (sessions ++ [{ x with passes := x.passes ++ [p] }])).2 = .running := by
  unfold serverMain at hw hr hit hex hm ⊢
  split at hw
  · cases hw
  · next ha =>
    split at hw
    · next hlis =>
      simp only [ha] at hr hit hex hm
      simp only [hlis, if_true] at hr hit hex hm ⊢
      have hcalm := run_calm rx (sessions ++ [x]) hp {} (.inr rfl)
      obtain ⟨-, hruns, -⟩ := run_waits rx (sessions ++ [x]) (fun y hy => (hp y hy).1) waits_init rfl
      obtain ⟨hrun, hfit⟩ := hruns hr
      have hstop : (Daemon.run rx sessions {}).1.stop = false := run_stop rx sessions {} rfl hw
      rw [run_snoc rx _ _ _ hw] at hr hit hex hm hcalm hrun hfit
      rw [run_snoc rx _ _ _ hw]
      generalize (Daemon.run rx sessions {}).1 = d at hr hit hex hm hcalm hrun hfit hstop ⊢
      obtain ⟨hs, hpass⟩ := session_snoc rx hr hstop
      refine hpass p ?_
      generalize (d.session rx x).1 = e at hit hex hm hcalm hrun hs
      unfold Srv.iterate DaemonPass.iteration at hit hex
      unfold Daemon.pass
      simp only [] at hit hex ⊢
      have hne : ¬ e.Exited := by
        intro hx
        have := iterate_exit rx e.srv p.iteration hx
        unfold Srv.iterate DaemonPass.iteration at this
        exact hex this
      have hch : e.changed = false := by
        rcases hcalm with h | h
        · exact absurd h hne
        · exact h
      have hsh : ¬ Daemon.shutdown { e with stop := e.stop || p.signal } = true := by
        rw [shutdown_iff, hsig, hs]
        rintro (h | h)
        · cases h
        · exact hne h
      rw [if_neg hsh, hread]
      simp only [Bool.not_true, Bool.false_eq_true, if_false]
      split
      · rfl
      · next h3 =>
        rw [if_neg h3] at hit hex
        have hk0 : Keeps e.srv { e.srv with now := p.now, sendResults := p.sendResults } := .internal rfl rfl
        have hk1 := hk0.trans ((processRead_keeps rx _ p.read).trans ((answerTimeout_keeps rx _).trans (flushWhenDue_keeps rx _)))
        generalize ((({ e.srv with now := p.now, sendResults := p.sendResults } : Srv).processRead rx p.read).answerTimeout rx).flushWhenDue rx = r at hit hex hk1 ⊢
        obtain ⟨s, ok⟩ := r
        simp only [] at hit hex hk1 ⊢
        cases ok with
        | false => cases hit
        | true =>
          simp only [Bool.not_true, Bool.false_eq_true, if_false] at hit hex ⊢
          rw [hfor, hal]
          simp only [Bool.not_true, Bool.and_false, Bool.false_eq_true, if_false]
          have hk2 := hk1.trans (updateDevices_keeps rx s p.devices)
          have hrun2 : Daemon.Runs { e with srv := s.updateDevices rx p.devices, stop := e.stop || p.signal } := by
            have := hrun.srv hk2
            exact ⟨⟨this.serves.config⟩, this.keyboard, this.grabbed, this.as⟩
          have hms := messages_srv rx p.messages { e with srv := s.updateDevices rx p.devices, stop := e.stop || p.signal }
          have hmu := messages_unchanged rx p.messages hrun2 hch
          generalize p.messages.foldl (Daemon.onMessage rx) { e with srv := s.updateDevices rx p.devices, stop := e.stop || p.signal } = d' at hms hmu ⊢
          have hms : d'.srv = (p.messages.map DaemonMsg.msg).foldl (Srv.onMessage rx) (s.updateDevices rx p.devices) := hms
          rw [← hms] at hit hex
          split at hit
          · cases hit
          · next h5 =>
            rw [if_neg h5] at hex
            have hmu := hmu hex hm
            rw [Bool.false_or, Bool.not_eq_true] at h5
            have hit : d'.srv.ms.shouldExit = false := by simpa using hit
            unfold Daemon.endPass Daemon.hasConfiguration
            rw [hmu, h5, hit]
            rfl
    · cases hw

/-- **C94** A client which sends a configuration is served when its devices can be created and grabbed (unless the exit sequence was
read). -/
theorem C94_serves (rx : Regex) (args : List Str) (listenOk : Bool) (sessions : List DaemonSession) (hp : ∀ y ∈ sessions, y.Proper)
    (hw : (serverMain rx args listenOk sessions).2 = .waiting) (x : DaemonSession) (hx : x.Proper) (hacc : x.accept = .accepted)
    (hc : x.createOk = true) (hg : x.grabOk = true) (hf : x.forwardOk = true) (hpa : x.passes = []) (hal : ∀ b ∈ x.batches, b.alive = true)
    (hcf : ∃ b ∈ x.batches, ∃ filters cfgs, .configuration filters cfgs ∈ b.messages) :
    (serverMain rx args listenOk (sessions ++ [x])).2 = .running ∨ Eff.exitRequested ∈ (serverMain rx args listenOk (sessions ++ [x])).1.srv.out := by
  unfold serverMain at hw ⊢
  split at hw
  · cases hw
  · split at hw
    · next hlis =>
      simp only [hlis, if_true]
      have hwa := (run_waits rx sessions hp waits_init rfl).1 (.inl hw)
      rw [run_snoc rx _ _ _ hw]
      generalize (Daemon.run rx sessions {}).1 = d at hwa
      unfold Daemon.session
      rw [hacc]
      simp only []
      have hri := readInitial_config rx x.batches hx.batches hal hwa.serves (.inr hcf)
      generalize Daemon.readInitial rx x.batches d = r at hri ⊢
      obtain ⟨d1, ok⟩ := r
      rcases hri with h | h
      · simp only [] at h
        subst h
        left
        simp only [Daemon.configured, Daemon.grabbed, hc, hg, hf, hpa, Daemon.loop, Bool.not_true, Bool.false_eq_true, if_false]
      · cases ok with
        | true =>
          left
          simp only [Daemon.configured, Daemon.grabbed, hc, hg, hf, hpa, Daemon.loop, Bool.not_true, Bool.false_eq_true, if_false]
        | false => exact .inr h
    · cases hw


/-! ## Examples -/

/-- `A >> B` -/
private def exReplace : List Cfg := [Cfg.make [{ inputs := [⟨[⟨30, .Down, 0⟩], 0⟩], outputs := [[⟨48, .Down, 0⟩]] }]]
/-- `ButtonRight >> B` -/
private def exButton : List Cfg := [Cfg.make [{ inputs := [⟨[⟨Key.ButtonRight, .Down, 0⟩], 0⟩], outputs := [[⟨48, .Down, 0⟩]] }]]
private def exFilter (s : String) : GrabDeviceFilter := { string := s.toList, isRegex := false, invert := false, byId := false }
/-- a client sends `A >> B`, and `A` is pressed -/
private def exServe : DaemonSession :=
  { batches := [{ messages := [.configuration [exFilter "Foo"] exReplace, .other (.activeContexts [0])] }],
    passes := [{ now := 10, read := .key ⟨30, .Down, 0⟩ 0 }, { now := 20, messages := [.configuration [exFilter "Foo"] exReplace] }] }
/-- then it sends a configuration with which a mouse has to be grabbed -/
private def exChange : DaemonSession := { exServe with passes := exServe.passes ++ [{ now := 30, messages := [.configuration [exFilter "Foo"] exButton] }] }
private def exNone : Regex := fun _ _ => false

private theorem exServe_proper : exServe.Proper := by
  refine ⟨?_, ?_⟩
  · intro b hb
    cases List.mem_singleton.1 hb
    refine ⟨fun e => (by cases e), ?_⟩
    intro m hm
    rcases List.mem_cons.1 hm with rfl | hm
    · exact List.cons_ne_nil _ _
    · cases List.mem_singleton.1 hm
      intro cfgs e
      cases e
  · intro p hp m hm
    rcases List.mem_cons.1 hp with rfl | hp
    · cases hm
    · cases List.mem_singleton.1 hp
      cases List.mem_singleton.1 hm
      exact List.cons_ne_nil _ _

/-- The client is served, with the devices grabbed as it demanded. -/
example : (serverMain exNone ["-v".toList] true [exServe]).2 = .running ∧
    (observed (serverMain exNone ["-v".toList] true [exServe]).1.log).grab = some (false, [exFilter "Foo"]) ∧
    (serverMain exNone ["-v".toList] true [exServe]).1.srv.out = [.sendKey ⟨48, .Down, 0⟩, .sendKey ⟨48, .Up, 0⟩] ∧
    (∀ x ∈ [exServe], x.Proper) := by
  refine ⟨by decide +kernel, by decide +kernel, by decide +kernel, ?_⟩
  intro x hx
  cases List.mem_singleton.1 hx
  exact exServe_proper

/-- It is no longer served when its configuration demands something else; when it connected again, the mice are grabbed too. -/
example : (serverMain exNone [] true [exChange]).2 = .waiting ∧
    (serverMain exNone [] true [exChange, { batches := [{ messages := [.configuration [exFilter "Foo"] exButton] }] }]).2 = .running ∧
    (observed (serverMain exNone [] true [exChange, { batches := [{ messages := [.configuration [exFilter "Foo"] exButton] }] }]).1.log).grab =
      some (true, [exFilter "Foo"]) := by decide +kernel

/-- the client which connected again; then a key is pressed, and the same configuration is sent once more -/
private def exAgain : DaemonSession := { batches := [{ messages := [.configuration [exFilter "Foo"] exButton] }] }
private def exFurther : DaemonPass := { now := 40, read := .key ⟨30, .Down, 0⟩ 0, messages := [.configuration [exFilter "Foo"] exButton] }

/-- It goes on to be served, as `C94_keeps_serving` says. -/
example : (serverMain exNone [] true [exChange]).2 = .waiting ∧ (serverMain exNone [] true ([exChange] ++ [exAgain])).2 = .running ∧
    ((serverMain exNone [] true ([exChange] ++ [exAgain])).1.srv.iterate exNone exFurther.iteration).2 = true ∧
    Eff.exitRequested ∉ ((serverMain exNone [] true ([exChange] ++ [exAgain])).1.srv.iterate exNone exFurther.iteration).1.out ∧
    (serverMain exNone [] true ([exChange] ++ [{ exAgain with passes := exAgain.passes ++ [exFurther] }])).2 = .running := by decide +kernel

example : ∀ y ∈ [exChange] ++ [exAgain], y.Plain := by
  intro y hy
  rcases List.mem_cons.1 hy with rfl | hy
  · refine ⟨by decide +kernel, ?_⟩
    intro p hp e
    rcases List.mem_cons.1 hp with rfl | hp
    · cases e
    · rcases List.mem_cons.1 hp with rfl | hp
      · cases e
      · cases List.mem_singleton.1 hp
        cases e
  · cases List.mem_singleton.1 hy
    exact ⟨by decide +kernel, fun p hp => (by cases hp)⟩

/-- The program ends with a signal, and when the keys of the exit sequence were pressed. -/
example : (serverMain exNone [] true [{ exServe with passes := exServe.passes ++ [{ now := 30, signal := true }] }]).2 = .ended 0 ∧
    (serverMain exNone [] true [{ exServe with passes := [{ now := 30, read := .key ⟨Key.ShiftLeft, .Down, 0⟩ 0 },
      { now := 31, read := .key ⟨Key.Escape, .Down, 0⟩ 0 }, { now := 32, read := .key ⟨Key.KeyK, .Down, 0⟩ 0 }] }]).2 = .ended 0 ∧
    (serverMain exNone [] true [{ exServe with grabOk := false }]).2 = .ended 1 ∧
    (serverMain exNone ["-x".toList] true [exServe]).2 = .ended 1 := by decide +kernel

/-- a client lets `X`, a delay, `Y`, a delay and `Z` be output, and disconnects during the first delay -/
private def exTyping : DaemonSession :=
  { batches := [{ messages := [.configuration [] exReplace] }],
    passes := [{ now := 0, messages := [.other (.injectOutput [⟨45, .Down, 0⟩, ⟨45, .Up, 0⟩, ⟨Key.timeout, .Down, 100⟩,
        ⟨21, .Down, 0⟩, ⟨21, .Up, 0⟩, ⟨Key.timeout, .Down, 100⟩, ⟨44, .Down, 0⟩, ⟨44, .Up, 0⟩])] },
      { now := 10 }, { now := 20, alive := false }] }

/-- **C94** What was still to be output when a client disconnects is partly output at once (the first delay is cut short), the rest is
output when the next client connects: after `Y` at the end of the first connection, `Z` is typed in the second one, in which nothing
was pressed.(The first `Z` listed is the attempt before there is a keyboard, which fails.) -/
theorem C94_leftover_counterexample :
    (serverMain exNone [] true [exTyping]).2 = .waiting ∧
    (serverMain exNone [] true [exTyping]).1.srv.out = [.sendKey ⟨45, .Down, 0⟩, .sendKey ⟨45, .Up, 0⟩, .sendKey ⟨21, .Down, 0⟩, .sendKey ⟨21, .Up, 0⟩] ∧
    (serverMain exNone [] true [exTyping,
        { batches := [{ messages := [.configuration [] exReplace], sendResults := [false, false, false] }], passes := [{ now := 100000 }] }]).1.srv.out.drop 4 =
      [.sendKey ⟨44, .Down, 0⟩, .sendKey ⟨44, .Down, 0⟩, .sendKey ⟨44, .Up, 0⟩] := by decide +kernel

/-- **C94** A request for the next key is not forgotten when the client which made it disconnects: the first key pressed when the next
client is served is reported to that client (which did not ask), and it is not replaced (`A >> B` outputs nothing). -/
theorem C94_request_counterexample :
    (serverMain exNone [] true [{ exServe with passes := [{ now := 0, messages := [.other .requestNextKeyInfo] }, { now := 1, alive := false }] }, exServe]).2 = .running ∧
    (serverMain exNone [] true [{ exServe with passes := [{ now := 0, messages := [.other .requestNextKeyInfo] }, { now := 1, alive := false }] }, exServe]).1.srv.out =
      [.nextKeyInfo 30 none] := by decide +kernel

end KM
