import Verif.Spec.Layers
import Verif.Lemmas.EndToEnd
/-!
# Lemmas: virtual keys
-/
namespace KM

/-- the server around a stage, possibly while it is sending -/
structure Runs (srv : Srv) (l : Layers (Cfg × S)) : Prop where
  flushAt : srv.flushAt = none
  timeout : srv.timeoutStart = none
  info : srv.nextKeyInfo = false
  stageBuf : srv.ms.buf = []
  stages : srv.ms.stages = [l.keys]
  results : srv.sendResults = []
  virtualDown : srv.virtualDown = l.on

theorem Runs.ms_eq {srv : Srv} {c : Cfg} {s : S} {on : List Key} (h : Runs srv ⟨(c, s), on⟩) :
    srv.ms = { stages := [(c, s)], activeClient := srv.ms.activeClient, buf := [] } := by
  have h1 := h.stages
  have h2 := h.stageBuf
  cases hm : srv.ms
  rw [hm] at h1 h2
  simp only at h1 h2
  subst h1 h2
  rfl

theorem immediate_noTimeout {out : KeySequence} (h : ∀ e ∈ out, Immediate e) : timeoutRequest out = none := by
  unfold timeoutRequest
  cases hl : out.getLast? with
  | none => rfl
  | some e =>
    have := (h e (List.mem_of_mem_getLast? hl)).1
    simp [this]

/-- a key is read, or a virtual key changes -/
theorem translate_runs (rx : Regex) (flush : Srv → Srv) {srv : Srv} {c : Cfg} {s : S} {on : List Key} (h : Runs srv ⟨(c, s), on⟩) {ev : KeyEvent} {dev : Int}
    (hw : isMouseWheel ev.key = false) (hout : ∀ e ∈ (update c s ev dev).2, Immediate e)
    (hx : (update c s ev dev).1.shouldExit = false) :
    Runs (srv.translateWith rx flush ev dev) ⟨(c, (update c s ev dev).1), on⟩ ∧
      (srv.translateWith rx flush ev dev).sendBuf = srv.sendBuf ++ (update c s ev dev).2 ∧
      (srv.translateWith rx flush ev dev).out = srv.out ∧ (srv.translateWith rx flush ev dev).sending = srv.sending := by
  have hms := h.ms_eq
  obtain ⟨srv1, hsrv1⟩ : ∃ srv1, srv1 = srv.noteEvent ev := ⟨_, rfl⟩
  have h1 : Runs srv1 ⟨(c, s), on⟩ ∧ srv1.sendBuf = srv.sendBuf ∧ srv1.out = srv.out ∧ srv1.sending = srv.sending ∧ srv1.ms = srv.ms := by
    rw [hsrv1]
    unfold Srv.noteEvent
    split
    · exact ⟨⟨h.flushAt, h.timeout, h.info, h.stageBuf, h.stages, h.results, h.virtualDown⟩, rfl, rfl, rfl, rfl⟩
    · exact ⟨h, rfl, rfl, rfl, rfl⟩
  obtain ⟨r1, r2, r3, r4, r5⟩ := h1
  have hupd : srv1.ms.update ev dev = ({ stages := [(c, (update c s ev dev).1)], activeClient := srv.ms.activeClient, buf := [] }, (update c s ev dev).2) := by
    rw [r5, hms, update_single]
  have hcore : srv.translateCore rx flush ev dev = { srv1 with
      ms := { stages := [(c, (update c s ev dev).1)], activeClient := srv.ms.activeClient, buf := [] }
      sendBuf := srv1.sendBuf ++ (update c s ev dev).2 } := by
    unfold Srv.translateCore
    rw [← hsrv1]
    simp only [hupd]
    rw [if_neg (by simp [MS.shouldExit, hx])]
    simp [Srv.sendOutput, immediate_noTimeout hout, Srv.sendKeySequence, copyWheelDelta, hw, MS.reuseBuffer]
  have hinj : srv.injectElapsed rx flush ev dev = srv := by
    unfold Srv.injectElapsed; rw [h.timeout]
  have htr : srv.translateWith rx flush ev dev = srv.translateCore rx flush ev dev := by
    unfold Srv.translateWith
    rw [if_neg (by simp [Srv.ignoresRepeat, h.flushAt, h.timeout]), if_neg (by simp [Srv.repliesKeyInfo, h.info])]
    simp only [hinj]
    rw [if_neg (by simp [hw])]
  rw [htr, hcore]
  exact ⟨⟨r1.flushAt, r1.timeout, r1.info, rfl, rfl, r1.results, r1.virtualDown⟩, by rw [← r2], r3, r4⟩

theorem virtual_noWheel {v : Key} (h : isVirtualKey v = true) :
    isMouseWheel v = false ∧ isActionKey v = false ∧ isKeyboardKey v = false := by
  have h : 61696 ≤ v ∧ v ≤ 61951 := by
    simpa only [isVirtualKey, Bool.and_eq_true, decide_eq_true_eq] using h
  obtain ⟨h1, h2⟩ := h
  have h3 : ¬ v ≤ 339 := fun h => absurd (Nat.le_trans h1 h) (by decide)
  have h4 : ¬ 61952 ≤ v := fun h => absurd (Nat.le_trans h h2) (by decide)
  have h5 : ¬ v ≤ 61439 := fun h => absurd (Nat.le_trans h1 h) (by decide)
  refine ⟨?_, ?_, ?_⟩
  · simp [isMouseWheel, h3]
  · simp [isActionKey, h4]
  · simp [isKeyboardKey]
    intro _ h
    exact absurd h h5

theorem toggle_exitPos (l : Layers (Cfg × S)) {v : Key} (hv : isVirtualKey v = true) :
    (l.toggle stageStep v).1.keys.2.exitPos = l.keys.2.exitPos := by
  obtain ⟨⟨c, s⟩, on⟩ := l
  show (update c s _ _).1.exitPos = s.exitPos
  rw [update_exitPos]
  simp [advanceExit, (virtual_noWheel hv).2.2]

theorem toggle_exit (l : Layers (Cfg × S)) {v : Key} (hv : isVirtualKey v = true) (hx : l.keys.2.shouldExit = false) :
    (l.toggle stageStep v).1.keys.2.shouldExit = false := by
  have := toggle_exitPos l hv
  unfold S.shouldExit at hx ⊢
  rw [this]; exact hx

/-- a virtual key is set, when this changes it -/
theorem set_runs (rx : Regex) (flush : Srv → Srv) {srv : Srv} {l : Layers (Cfg × S)} (h : Runs srv l) {v : Key} {st : KeyState} (hv : isVirtualKey v = true)
    (hc : l.changes v st) (hout : ∀ e ∈ (l.toggle stageStep v).2, Immediate e) (hx : l.keys.2.shouldExit = false) :
    Runs (srv.setVirtualKeyState (fun s ev dev => s.translateWith rx flush ev dev) v st) (l.toggle stageStep v).1 ∧
      (srv.setVirtualKeyState (fun s ev dev => s.translateWith rx flush ev dev) v st).sendBuf = srv.sendBuf ++ (l.toggle stageStep v).2 ∧
      (srv.setVirtualKeyState (fun s ev dev => s.translateWith rx flush ev dev) v st).out = srv.out ++ [.virtualKeyState v (l.toggled v)] ∧
      (srv.setVirtualKeyState (fun s ev dev => s.translateWith rx flush ev dev) v st).sending = srv.sending := by
  have hexit := toggle_exit l hv hx
  obtain ⟨⟨c, s⟩, on⟩ := l
  have hvd : srv.virtualDown = on := h.virtualDown
  by_cases hon : v ∈ on
  · have e1 : (⟨(c, s), on⟩ : Layers (Cfg × S)).toggled v = .Up := if_pos hon
    have e2 : (⟨(c, s), on⟩ : Layers (Cfg × S)).toggle stageStep v =
        (⟨(c, (update c s ⟨v, .Up, 0⟩ anyDeviceIndex).1), on.erase v⟩, (update c s ⟨v, .Up, 0⟩ anyDeviceIndex).2) := by
      unfold Layers.toggle
      rw [e1]
      simp only [if_pos hon]
      rfl
    rw [e2] at hout hexit ⊢
    rw [e1]
    have hst : st ≠ .Down := by
      have : st ≠ (if v ∈ on then .Down else .Up) := hc
      rwa [if_pos hon] at this
    obtain ⟨srv1, hsrv1⟩ : ∃ srv1 : Srv, srv1 = { srv with virtualDown := srv.virtualDown.erase v } := ⟨_, rfl⟩
    have h1 : Runs srv1 ⟨(c, s), on.erase v⟩ := by
      rw [hsrv1]
      exact ⟨h.flushAt, h.timeout, h.info, h.stageBuf, h.stages, h.results, by rw [← hvd]⟩
    have hd : srv.setVirtualKeyState (fun s ev dev => s.translateWith rx flush ev dev) v st =
        { srv1.translateWith rx flush ⟨v, .Up, 0⟩ anyDeviceIndex with
          out := (srv1.translateWith rx flush ⟨v, .Up, 0⟩ anyDeviceIndex).out ++ [.virtualKeyState v .Up] } := by
      unfold Srv.setVirtualKeyState
      simp only [hvd, List.contains_eq_mem, hon, decide_true, Bool.not_true, Bool.false_and, Bool.false_eq_true, if_false, Bool.true_and]
      rw [if_pos (by simpa using hst), if_pos hv, hsrv1, hvd]
    obtain ⟨h2, h3, h4, h5⟩ := translate_runs rx flush h1 (ev := ⟨v, .Up, 0⟩) (dev := anyDeviceIndex) (virtual_noWheel hv).1 hout hexit
    rw [hd]
    exact ⟨⟨h2.flushAt, h2.timeout, h2.info, h2.stageBuf, h2.stages, h2.results, h2.virtualDown⟩, by rw [h3, hsrv1], by rw [h4, hsrv1], by rw [h5, hsrv1]⟩
  · have e1 : (⟨(c, s), on⟩ : Layers (Cfg × S)).toggled v = .Down := if_neg hon
    have e2 : (⟨(c, s), on⟩ : Layers (Cfg × S)).toggle stageStep v =
        (⟨(c, (update c s ⟨v, .Down, 0⟩ anyDeviceIndex).1), on ++ [v]⟩, (update c s ⟨v, .Down, 0⟩ anyDeviceIndex).2) := by
      unfold Layers.toggle
      rw [e1]
      simp only [if_neg hon]
      rfl
    rw [e2] at hout hexit ⊢
    rw [e1]
    have hst : st ≠ .Up := by
      have : st ≠ (if v ∈ on then .Down else .Up) := hc
      rwa [if_neg hon] at this
    obtain ⟨srv1, hsrv1⟩ : ∃ srv1 : Srv, srv1 = { srv with virtualDown := srv.virtualDown ++ [v] } := ⟨_, rfl⟩
    have h1 : Runs srv1 ⟨(c, s), on ++ [v]⟩ := by
      rw [hsrv1]
      exact ⟨h.flushAt, h.timeout, h.info, h.stageBuf, h.stages, h.results, by rw [← hvd]⟩
    have hd : srv.setVirtualKeyState (fun s ev dev => s.translateWith rx flush ev dev) v st =
        { srv1.translateWith rx flush ⟨v, .Down, 0⟩ anyDeviceIndex with
          out := (srv1.translateWith rx flush ⟨v, .Down, 0⟩ anyDeviceIndex).out ++ [.virtualKeyState v .Down] } := by
      unfold Srv.setVirtualKeyState
      simp only [hvd, List.contains_eq_mem, hon, decide_false, Bool.not_false, Bool.true_and]
      rw [if_pos (by simpa using hst), if_pos hv, hsrv1, hvd]
    obtain ⟨h2, h3, h4, h5⟩ := translate_runs rx flush h1 (ev := ⟨v, .Down, 0⟩) (dev := anyDeviceIndex) (virtual_noWheel hv).1 hout hexit
    rw [hd]
    exact ⟨⟨h2.flushAt, h2.timeout, h2.info, h2.stageBuf, h2.stages, h2.results, h2.virtualDown⟩, by rw [h3, hsrv1], by rw [h4, hsrv1], by rw [h5, hsrv1]⟩

theorem set_unchanged {srv : Srv} {l : Layers (Cfg × S)} (h : Runs srv l) (tr : Srv → KeyEvent → Int → Srv) {v : Key} {st : KeyState}
    (hc : ¬ l.changes v st) : srv.setVirtualKeyState tr v st = srv := by
  have hvd : srv.virtualDown = l.on := h.virtualDown
  have hst : st = (if v ∈ l.on then .Down else .Up) := by
    unfold Layers.changes at hc
    exact Classical.not_not.1 hc
  unfold Srv.setVirtualKeyState
  by_cases hon : v ∈ l.on
  · rw [if_pos hon] at hst
    simp [hvd, hon, hst]
  · rw [if_neg hon] at hst
    simp [hvd, hon, hst]

theorem flushItems_one (rx : Regex) (next : Option (Srv → Srv × Bool)) {e : KeyEvent} (q : KeySequence) (srv : Srv)
    (hi : Immediate e) (hv : isVirtualKey e.key = false) (hr : srv.sendResults = []) :
    Srv.flushItems rx next (e :: q) srv = Srv.flushItems rx next q { srv with sendBuf := q, out := srv.out ++ delivered e } := by
  obtain ⟨h1, h2⟩ := hi
  have hw : (isMouseWheel e.key && e.state == .Down) = false := by
    cases hm : isMouseWheel e.key with
    | false => rfl
    | true => simpa using h2 hm
  rw [Srv.flushItems.eq_def]
  simp only []
  rw [if_neg (by rw [hw]; decide)]
  by_cases ha : isActionKey e.key = true
  · rw [if_pos ha]
    by_cases hd : e.state = .Down
    · have : delivered e = [.action (e.key - Key.first_action)] := by unfold delivered; rw [if_pos ha, if_pos hd]
      rw [if_pos (by simpa using hd), this]
    · have : delivered e = [] := by unfold delivered; rw [if_pos ha, if_neg hd]
      rw [if_neg (by simpa using hd), this, List.append_nil]
  · have : delivered e = [.sendKey e] := by unfold delivered; rw [if_neg ha]
    rw [if_neg ha, if_neg (by rw [hv]; decide), if_neg (by simpa using h1), if_pos (by simp [Srv.sendSucceeds, hr]), this]
    congr 1
    simp [Srv.send, hr]

theorem flushItems_skip (rx : Regex) (next : Option (Srv → Srv × Bool)) {e : KeyEvent} (q : KeySequence) (srv : Srv)
    (hv : isVirtualKey e.key = true) (hd : e.state ≠ .Down) :
    Srv.flushItems rx next (e :: q) srv = Srv.flushItems rx next q { srv with sendBuf := q } := by
  obtain ⟨h1, h2, _⟩ := virtual_noWheel hv
  rw [Srv.flushItems.eq_def]
  simp only []
  rw [if_neg (by rw [h1]; simp), if_neg (by rw [h2]; decide), if_pos hv, if_neg (by simpa using hd)]

theorem flushItems_toggle (rx : Regex) (next : Srv → Srv × Bool) {e : KeyEvent} (q : KeySequence) (srv : Srv)
    (hv : isVirtualKey e.key = true) (hd : e.state = .Down) :
    Srv.flushItems rx (some next) (e :: q) srv =
      next (Srv.setVirtualKeyState (fun s ev dev => s.translateWith rx id ev dev) { srv with sendBuf := q } e.key .Not) := by
  obtain ⟨h1, h2, _⟩ := virtual_noWheel hv
  rw [Srv.flushItems.eq_def]
  simp only []
  rw [if_neg (by rw [h1]; simp), if_neg (by rw [h2]; decide), if_pos hv, if_pos (by simpa using hd)]
  rfl

/-- outputs which are no virtual keys are delivered -/
theorem flushItems_delivered (rx : Regex) (next : Option (Srv → Srv × Bool)) (q : KeySequence) : ∀ (srv : Srv),
    (∀ e ∈ q, Immediate e ∧ isVirtualKey e.key = false) → srv.sendResults = [] →
    Srv.flushItems rx next q srv = ({ srv with sendBuf := [], out := srv.out ++ q.flatMap delivered }, true) := by
  induction q with
  | nil => intro s _ _; simp [Srv.flushItems]
  | cons e q ih =>
    intro s hl hr
    obtain ⟨h1, h2⟩ := hl e (by simp)
    rw [flushItems_one rx next q s h1 h2 hr, ih { s with sendBuf := q, out := s.out ++ delivered e } (fun d hd => hl d (List.mem_cons_of_mem _ hd)) hr]
    simp

section
variable {σ : Type} (step : σ → StageOp → σ × KeySequence) (l : Layers σ) {e : KeyEvent} (es : KeySequence)

theorem Layers.output_toggle (hv : isVirtualKey e.key = true) (hd : e.state = .Down) :
    l.output step (e :: es) = (((l.toggle step e.key).1.output step es).1,
      .virtualKeyState e.key (l.toggled e.key) :: ((l.toggle step e.key).1.output step es).2.1,
      (l.toggle step e.key).2 ++ ((l.toggle step e.key).1.output step es).2.2) := by
  rw [Layers.output, if_pos hv, if_pos hd]

theorem Layers.output_skip (hv : isVirtualKey e.key = true) (hd : e.state ≠ .Down) : l.output step (e :: es) = l.output step es := by
  rw [Layers.output, if_pos hv, if_neg hd]

theorem Layers.output_one (hv : isVirtualKey e.key = false) :
    l.output step (e :: es) = ((l.output step es).1, delivered e ++ (l.output step es).2.1, (l.output step es).2.2) := by
  rw [Layers.output, if_neg (by rw [hv]; decide)]

end

/-- what goes on after toggling a virtual key -/
def nextFlush (rx : Regex) : Nat → Option (Srv → Srv × Bool)
  | 0 => none
  | n + 1 => some (Srv.flushLoop rx n)

theorem flushLoop_next (rx : Regex) (n : Nat) (srv : Srv) : Srv.flushLoop rx n srv = Srv.flushItems rx (nextFlush rx n) srv.sendBuf srv := by
  cases n <;> rfl

/-- the buffer is sent as specified -/
theorem flushItems_layers (rx : Regex) (q : KeySequence) : ∀ (n : Nat) (later : KeySequence) (srv : Srv) (l : Layers (Cfg × S)),
    Runs srv l → l.keys.2.shouldExit = false → (∀ e ∈ q, Immediate e) → (∀ e ∈ later, Immediate e ∧ isVirtualKey e.key = false) →
    q.countP toggles ≤ n → (∀ e ∈ (l.output stageStep q).2.2, Immediate e ∧ isVirtualKey e.key = false) →
    ∃ srv', Srv.flushItems rx (nextFlush rx n) (q ++ later) srv = (srv', true) ∧ Runs srv' (l.output stageStep q).1 ∧ srv'.sendBuf = [] ∧
      srv'.sending = srv.sending ∧ (l.output stageStep q).1.keys.2.shouldExit = false ∧
      srv'.out = srv.out ++ (l.output stageStep q).2.1 ++ later.flatMap delivered ++ (l.output stageStep q).2.2.flatMap delivered := by
  induction q with
  | nil =>
    intro n later srv l h hx _ hl _ _
    rw [List.nil_append, flushItems_delivered rx _ later srv hl h.results]
    exact ⟨_, rfl, ⟨h.flushAt, h.timeout, h.info, h.stageBuf, h.stages, h.results, h.virtualDown⟩, rfl, rfl, hx, by simp [Layers.output]⟩
  | cons e q ih =>
    intro n later srv l h hx hq hl hn ho
    have hq' := fun d hd => hq d (List.mem_cons_of_mem _ hd)
    have hi := hq e (by simp)
    rw [List.countP_cons] at hn
    rw [List.cons_append]
    by_cases hv : isVirtualKey e.key = true
    · by_cases hd : e.state = .Down
      · rw [Layers.output_toggle stageStep l q hv hd] at ho ⊢
        simp only [] at ho ⊢
        rw [if_pos (by simp [toggles, hv, hd])] at hn
        obtain ⟨m, rfl⟩ : ∃ m, n = m + 1 := ⟨n - 1, by omega⟩
        rw [nextFlush, flushItems_toggle rx _ _ _ hv hd, flushLoop_next]
        have ht2 : ∀ d ∈ (l.toggle stageStep e.key).2, Immediate d ∧ isVirtualKey d.key = false :=
          fun d hd => ho d (List.mem_append_left _ hd)
        have hr0 : Runs { srv with sendBuf := q ++ later } l :=
          ⟨h.flushAt, h.timeout, h.info, h.stageBuf, h.stages, h.results, h.virtualDown⟩
        have hch : l.changes e.key .Not := by
          unfold Layers.changes
          split <;> decide
        obtain ⟨g1, g2, g3, g4⟩ := set_runs rx id hr0 hv hch (fun d hd => (ht2 d hd).1) hx
        obtain ⟨srv', h3, h4, h5, h6, h7, h8⟩ := ih m (later ++ (l.toggle stageStep e.key).2) _ _ g1 (toggle_exit l hv hx) hq' (by
          intro d hd
          rcases List.mem_append.1 hd with hd | hd
          · exact hl d hd
          · exact ht2 d hd) (by omega) (fun d hd => ho d (List.mem_append_right _ hd))
        refine ⟨srv', ?_, h4, h5, by rw [h6, g4], h7, ?_⟩
        · rw [g2, ← h3, ← List.append_assoc]
        · rw [h8, g3]
          simp
      · rw [Layers.output_skip stageStep l q hv hd] at ho ⊢
        rw [flushItems_skip rx _ _ _ hv hd]
        rw [if_neg (by simp [toggles, hd])] at hn
        exact ih n later _ l ⟨h.flushAt, h.timeout, h.info, h.stageBuf, h.stages, h.results, h.virtualDown⟩ hx hq' hl (by omega) ho
    · have hv : isVirtualKey e.key = false := by simpa using hv
      rw [Layers.output_one stageStep l q hv] at ho ⊢
      rw [flushItems_one rx _ _ _ hi hv h.results]
      rw [if_neg (by simp [toggles, hv])] at hn
      obtain ⟨srv', h3, h4, h5, h6, h7, h8⟩ := ih n later { srv with sendBuf := q ++ later, out := srv.out ++ delivered e } l
        ⟨h.flushAt, h.timeout, h.info, h.stageBuf, h.stages, h.results, h.virtualDown⟩ hx hq' hl (by omega) ho
      refine ⟨srv', h3, h4, h5, h6, h7, ?_⟩
      rw [h8]
      simp

/-- everything is sent -/
theorem flush_layers (rx : Regex) {srv : Srv} {l : Layers (Cfg × S)} (h : Runs srv l) (hx : l.keys.2.shouldExit = false) (hs : srv.sending = false)
    (hd : l.Describes stageStep srv.sendBuf) :
    ∃ srv', srv.flushSendBuffer rx = (srv', true) ∧ Runs srv' (l.process stageStep srv.sendBuf).1 ∧ srv'.sendBuf = [] ∧ srv'.sending = false ∧
      (l.process stageStep srv.sendBuf).1.keys.2.shouldExit = false ∧ srv'.out = srv.out ++ (l.process stageStep srv.sendBuf).2 := by
  obtain ⟨h1, h2, h3⟩ := hd
  obtain ⟨srv', g1, g2, g3, g4, g5, g6⟩ := flushItems_layers rx srv.sendBuf 9 [] { srv with sending := true, flushAt := none } l
    ⟨rfl, h.timeout, h.info, h.stageBuf, h.stages, h.results, h.virtualDown⟩ hx h1 (by intro e he; cases he) h2 h3
  refine ⟨{ srv' with sending := false }, ?_, ⟨g2.flushAt, g2.timeout, g2.info, g2.stageBuf, g2.stages, g2.results, g2.virtualDown⟩, g3, rfl, g5, ?_⟩
  · rw [Srv.flushSendBuffer, if_neg (by rw [hs]; decide)]
    rw [List.append_nil] at g1
    have : Srv.flushLoop rx 9 { srv with sending := true, flushAt := none } = (srv', true) := by
      rw [flushLoop_next]; exact g1
    simp only [this]
  · show srv'.out = _
    rw [g6]
    simp [Layers.process]

/-- nothing is left to be sent -/
structure Rests (srv : Srv) (l : Layers (Cfg × S)) : Prop extends Runs srv l where
  buf : srv.sendBuf = []
  sending : srv.sending = false
  exit : l.keys.2.shouldExit = false

/-- a change of the active contexts -/
theorem active_layers (rx : Regex) {srv : Srv} {l : Layers (Cfg × S)} (h : Rests srv l) (idx : List Int) {op : LayerOp}
    (hop : Msg.layerOps l.keys.1.contexts.length (.activeContexts idx) = [op])
    (hd : (l.begin stageStep op).1.Describes stageStep (l.begin stageStep op).2.1) :
    Rests (srv.onMessage rx (.activeContexts idx)) (l.step stageStep op).1 ∧
      (srv.onMessage rx (.activeContexts idx)).out = srv.out ++ (l.step stageStep op).2 := by
  obtain ⟨⟨c, s⟩, on⟩ := l
  have hop' : op = .keys (.contexts (stageIndices idx 0 c.contexts.length)) := by
    rw [stageIndices_zero]
    simp only [Msg.layerOps, Msg.stageOps, List.map_cons, List.map_nil, List.cons.injEq, and_true] at hop
    exact hop.symm
  subst hop'
  have hms := h.toRuns.ms_eq
  obtain ⟨s1, hs1⟩ : ∃ s1, s1 = (setActiveClientContexts c s (stageIndices idx 0 c.contexts.length)).1 := ⟨_, rfl⟩
  obtain ⟨o, ho⟩ : ∃ o, o = (setActiveClientContexts c s (stageIndices idx 0 c.contexts.length)).2 := ⟨_, rfl⟩
  have hbegin : (⟨(c, s), on⟩ : Layers (Cfg × S)).begin stageStep (.keys (.contexts (stageIndices idx 0 c.contexts.length))) = (⟨(c, s1), on⟩, o, []) := by
    rw [hs1, ho]; rfl
  rw [hbegin] at hd
  unfold Layers.step
  rw [hbegin]
  simp only [List.nil_append]
  have hset : srv.ms.setActiveClientContexts idx =
      ({ stages := [(c, s1)], activeClient := idx, buf := o }, o) := by
    rw [hms, hs1, ho]; exact setActive_single c s srv.ms.activeClient idx
  obtain ⟨srv1, hsrv1⟩ : ∃ srv1 : Srv, srv1 = { srv with ms := { stages := [(c, s1)], activeClient := idx, buf := [] }, sendBuf := o } := ⟨_, rfl⟩
  have hdef : srv.onMessage rx (.activeContexts idx) = srv1.flush rx := by
    rw [Srv.onMessage, Srv.onActiveContexts, Srv.setActiveContexts]
    simp only [hset, Srv.sendKeySequence, MS.reuseBuffer, h.buf, List.nil_append, h.flushAt, Option.isNone_none, if_true]
    rw [hsrv1, h.flushAt]
  have hr1 : Runs srv1 ⟨(c, s1), on⟩ := by
    rw [hsrv1]
    exact ⟨h.flushAt, h.timeout, h.info, rfl, rfl, h.results, h.virtualDown⟩
  have hx1 : s1.shouldExit = false := by
    have : (setActiveClientContexts c s (stageIndices idx 0 c.contexts.length)).1.exitPos = s.exitPos :=
      congrArg Prod.fst (setActiveClientContexts_frozen c s (stageIndices idx 0 c.contexts.length))
    have hx : s.shouldExit = false := h.exit
    unfold S.shouldExit at hx ⊢
    rw [hs1, this]; exact hx
  have hbuf : srv1.sendBuf = o := by rw [hsrv1]
  obtain ⟨srv', h1, h2, h3, h4, h5, h6⟩ := flush_layers rx hr1 hx1 (by rw [hsrv1]; exact h.sending) (by rw [hbuf]; exact hd)
  rw [hbuf] at h2 h5 h6
  have hfl : srv1.flush rx = srv' := by unfold Srv.flush; rw [h1]
  rw [hdef, hfl]
  exact ⟨⟨h2, h3, h4, h5⟩, by rw [h6, hsrv1]⟩

/-- a client sets a virtual key -/
theorem set_layers (rx : Regex) {srv : Srv} {l : Layers (Cfg × S)} (h : Rests srv l) {v : Key} {st : KeyState} (hv : isVirtualKey v = true)
    (hd : (l.begin stageStep (.set v st)).1.Describes stageStep (l.begin stageStep (.set v st)).2.1) :
    Rests (srv.onMessage rx (.setVirtualKeyState v st)) (l.step stageStep (.set v st)).1 ∧
      (srv.onMessage rx (.setVirtualKeyState v st)).out = srv.out ++ (l.step stageStep (.set v st)).2 := by
  have hdef : srv.onMessage rx (.setVirtualKeyState v st) =
      (if (Srv.setVirtualKeyState (fun s ev dev => s.translateWith rx (Srv.flush rx) ev dev) srv v st).flushAt.isNone then
        (Srv.setVirtualKeyState (fun s ev dev => s.translateWith rx (Srv.flush rx) ev dev) srv v st).flush rx
      else Srv.setVirtualKeyState (fun s ev dev => s.translateWith rx (Srv.flush rx) ev dev) srv v st) := rfl
  unfold Layers.step
  by_cases hc : l.changes v st
  · have hbegin : l.begin stageStep (.set v st) = ((l.toggle stageStep v).1, (l.toggle stageStep v).2, [.virtualKeyState v (l.toggled v)]) := by
      unfold Layers.begin
      simp only []
      rw [if_pos hc]
    rw [hbegin] at hd ⊢
    simp only [] at hd ⊢
    obtain ⟨g1, g2, g3, g4⟩ := set_runs rx (Srv.flush rx) h.toRuns hv hc hd.1 h.exit
    rw [hdef, if_pos (by rw [g1.flushAt]; rfl)]
    generalize Srv.setVirtualKeyState (fun s ev dev => s.translateWith rx (Srv.flush rx) ev dev) srv v st = srv1 at g1 g2 g3 g4 ⊢
    rw [h.buf, List.nil_append] at g2
    obtain ⟨srv', h1, h2, h3, h4, h5, h6⟩ := flush_layers rx g1 (toggle_exit l hv h.exit) (by rw [g4, h.sending]) (by rw [g2]; exact hd)
    rw [g2] at h2 h5 h6
    have hfl : srv1.flush rx = srv' := by unfold Srv.flush; rw [h1]
    rw [hfl]
    exact ⟨⟨h2, h3, h4, h5⟩, by rw [h6, g3, List.append_assoc]⟩
  · have hbegin : l.begin stageStep (.set v st) = (l, [], []) := by
      unfold Layers.begin
      simp only []
      rw [if_neg hc]
    rw [hbegin] at hd ⊢
    rw [hdef, set_unchanged h.toRuns _ hc, if_pos (by rw [h.flushAt]; rfl)]
    simp only [] at hd ⊢
    obtain ⟨srv', h1, h2, h3, h4, h5, h6⟩ := flush_layers rx h.toRuns h.exit h.sending (by rw [h.buf]; exact hd)
    rw [h.buf] at h2 h5 h6
    have hfl : srv.flush rx = srv' := by unfold Srv.flush; rw [h1]
    rw [hfl]
    exact ⟨⟨h2, h3, h4, h5⟩, by rw [h6]; simp⟩

theorem Layers.run_append (step : σ → StageOp → σ × KeySequence) (l : Layers σ) (a b : List LayerOp) :
    l.run step (a ++ b) = (((l.run step a).1.run step b).1, (l.run step a).2 ++ ((l.run step a).1.run step b).2) := by
  induction a generalizing l with
  | nil => simp [Layers.run]
  | cons op a ih =>
    simp only [List.cons_append, Layers.run, ih, List.append_assoc]

theorem Layers.describesAll_append (step : σ → StageOp → σ × KeySequence) (l : Layers σ) (a b : List LayerOp) :
    l.DescribesAll step (a ++ b) ↔ l.DescribesAll step a ∧ (l.run step a).1.DescribesAll step b := by
  induction a generalizing l with
  | nil => simp [Layers.DescribesAll, Layers.run]
  | cons op a ih =>
    simp only [List.cons_append, Layers.DescribesAll, Layers.run, ih, and_assoc]

theorem output_cfg (l : Layers (Cfg × S)) (q : KeySequence) : (l.output stageStep q).1.keys.1 = l.keys.1 := by
  induction q generalizing l with
  | nil => rfl
  | cons e q ih =>
    by_cases hv : isVirtualKey e.key = true
    · by_cases hd : e.state = .Down
      · rw [Layers.output_toggle stageStep l q hv hd]
        show ((l.toggle stageStep e.key).1.output stageStep q).1.keys.1 = _
        rw [ih]; rfl
      · rw [Layers.output_skip stageStep l q hv hd, ih]
    · have hv : isVirtualKey e.key = false := by simpa using hv
      rw [Layers.output_one stageStep l q hv]
      exact ih l

/-- operations which do not concern devices -/
def LayerOp.noDevices : LayerOp → Prop
  | .keys (.devices _ _) => False
  | _ => True

theorem step_cfg (l : Layers (Cfg × S)) {op : LayerOp} (h : op.noDevices) : (l.step stageStep op).1.keys.1 = l.keys.1 := by
  show ((l.begin stageStep op).1.output stageStep (l.begin stageStep op).2.1).1.keys.1 = _
  rw [output_cfg]
  cases op with
  | keys op =>
    cases op with
    | devices rx ds => exact h.elim
    | _ => rfl
  | set v st =>
    unfold Layers.begin
    simp only []
    split <;> rfl

theorem run_cfg (l : Layers (Cfg × S)) (ops : List LayerOp) (h : ∀ op ∈ ops, op.noDevices) : (l.run stageStep ops).1.keys.1 = l.keys.1 := by
  induction ops generalizing l with
  | nil => rfl
  | cons op ops ih =>
    show ((l.step stageStep op).1.run stageStep ops).1.keys.1 = _
    rw [ih _ (fun o ho => h o (List.mem_cons_of_mem _ ho)), step_cfg l (h op (by simp))]

theorem layerOps_noDevices (n : Nat) (m : Msg) : ∀ op ∈ m.layerOps n, op.noDevices := by
  intro op hop
  cases m with
  | activeContexts l =>
    simp only [Msg.layerOps, Msg.stageOps, List.map_cons, List.map_nil, List.mem_singleton] at hop
    subst hop; trivial
  | setVirtualKeyState v st =>
    simp only [Msg.layerOps, List.mem_singleton] at hop
    subst hop; trivial
  | _ => cases hop

/-- messages -/
theorem messages_layers (rx : Regex) (n : Nat) (ms : List Msg)
    (hm : ∀ m ∈ ms, (∃ l, m = .activeContexts l) ∨ ∃ v st, m = .setVirtualKeyState v st ∧ isVirtualKey v = true) : ∀ (srv : Srv) (l : Layers (Cfg × S)),
    l.keys.1.contexts.length = n → Rests srv l → l.DescribesAll stageStep (ms.flatMap (Msg.layerOps n)) →
    Rests (ms.foldl (Srv.onMessage rx) srv) (l.run stageStep (ms.flatMap (Msg.layerOps n))).1 ∧
      (ms.foldl (Srv.onMessage rx) srv).out = srv.out ++ (l.run stageStep (ms.flatMap (Msg.layerOps n))).2 := by
  induction ms with
  | nil => intro srv l _ h _; exact ⟨h, by simp [Layers.run]⟩
  | cons m ms ih =>
    intro srv l hn h hd
    have hone : ∃ op, m.layerOps n = [op] ∧ op.noDevices ∧ ((l.begin stageStep op).1.Describes stageStep (l.begin stageStep op).2.1 →
        Rests (srv.onMessage rx m) (l.step stageStep op).1 ∧ (srv.onMessage rx m).out = srv.out ++ (l.step stageStep op).2) := by
      rcases hm m (by simp) with ⟨idx, rfl⟩ | ⟨v, st, rfl, hv⟩
      · exact ⟨_, rfl, trivial, fun hd => active_layers rx h idx (by rw [hn]; rfl) hd⟩
      · exact ⟨_, rfl, trivial, fun hd => set_layers rx h hv hd⟩
    obtain ⟨op, h1, h2, h3⟩ := hone
    rw [List.flatMap_cons, h1] at hd ⊢
    obtain ⟨h4, h5⟩ := hd
    obtain ⟨h6, h7⟩ := h3 h4
    obtain ⟨h8, h9⟩ := ih (fun x hx => hm x (List.mem_cons_of_mem _ hx)) _ _ (by rw [step_cfg l h2]; exact hn) h6 h5
    refine ⟨h8, ?_⟩
    rw [List.foldl_cons, h9, h7, List.append_assoc]
    rfl

/-- an iteration -/
theorem iterate_layers (rx : Regex) (n : Nat) {srv : Srv} {l : Layers (Cfg × S)} (h : Rests srv l) (hn : l.keys.1.contexts.length = n) {it : Iteration}
    (hi : it.Layered (!l.keys.1.hasDeviceFilter)) (hd : l.DescribesAll stageStep (it.layerOps n))
    (hx : ∀ ops', ops' <+: it.layerOps n → (l.run stageStep ops').1.keys.2.shouldExit = false) :
    (srv.iterate rx it).2 = true ∧ Rests (srv.iterate rx it).1 (l.run stageStep (it.layerOps n)).1 ∧
      (srv.iterate rx it).1.out = srv.out ++ (l.run stageStep (it.layerOps n)).2 := by
  obtain ⟨srv0, hsrv0⟩ : ∃ srv0 : Srv, srv0 = { srv with now := it.now, sendResults := it.sendResults } := ⟨_, rfl⟩
  have h0 : Rests srv0 l := by
    rw [hsrv0]
    exact ⟨⟨h.flushAt, h.timeout, h.info, h.stageBuf, h.stages, hi.sent, h.virtualDown⟩, h.buf, h.sending, h.exit⟩
  have ho0 : srv0.out = srv.out := by rw [hsrv0]
  unfold Iteration.layerOps at hd hx ⊢
  rw [Srv.iterate, ← hsrv0]
  simp only []
  by_cases hother : it.read = .other
  · rw [if_pos hother, if_pos hother]
    exact ⟨rfl, h0, by rw [ho0]; simp [Layers.run]⟩
  · rw [if_neg hother] at hd hx ⊢
    rw [if_neg hother]
    rw [Layers.describesAll_append] at hd
    obtain ⟨hd1, hd2⟩ := hd
    have hnd : ∀ op ∈ it.read.stageOps.map LayerOp.keys, op.noDevices := by
      intro op hop
      cases hr : it.read with
      | key ev dev =>
        rw [hr] at hop
        simp only [Read.stageOps, List.map_cons, List.map_nil, List.mem_singleton] at hop
        subst hop; trivial
      | _ => rw [hr] at hop; cases hop
    -- the event which is read, until it is sent
    have hread : ∃ srv2, ((srv0.processRead rx it.read).answerTimeout rx).flushWhenDue rx = (srv2, true) ∧
        Rests srv2 (l.run stageStep (it.read.stageOps.map .keys)).1 ∧ srv2.out = srv.out ++ (l.run stageStep (it.read.stageOps.map .keys)).2 := by
      cases hr : it.read with
      | other => exact absurd hr hother
      | nothing =>
        have e1 : (srv0.processRead rx .nothing).answerTimeout rx = srv0 := by
          simp [Srv.processRead, Srv.answerTimeout, Srv.timeoutElapsed, h0.timeout]
        obtain ⟨srv', g1, g2, g3, g4, g5, g6⟩ := flush_layers rx h0.toRuns h0.exit h0.sending (by
          rw [h0.buf]; exact ⟨(by intro e he; cases he), Nat.zero_le _, (by intro e he; cases he)⟩)
        rw [h0.buf] at g2 g5 g6
        refine ⟨srv', ?_, ⟨g2, g3, g4, g5⟩, by rw [g6, ho0]; simp [Layers.process, Layers.output, Read.stageOps, Layers.run]⟩
        rw [e1, Srv.flushWhenDue, if_pos (by simp [Srv.flushDue, h0.flushAt]), g1]
      | key ev dev =>
        have hk := hi.read ev dev hr
        rw [hr] at hd1
        have hx1 := hx [.keys (.input ev dev)] (by rw [hr]; exact List.prefix_append _ _)
        obtain ⟨hd1, -⟩ := hd1
        obtain ⟨⟨c, s⟩, on⟩ := l
        have hbegin : (⟨(c, s), on⟩ : Layers (Cfg × S)).begin stageStep (.keys (.input ev dev)) = (⟨(c, (update c s ev dev).1), on⟩, (update c s ev dev).2, []) := rfl
        have hrun : (⟨(c, s), on⟩ : Layers (Cfg × S)).run stageStep ((Read.key ev dev).stageOps.map LayerOp.keys) =
            (⟨(c, (update c s ev dev).1), on⟩ : Layers (Cfg × S)).process stageStep (update c s ev dev).2 := by
          simp [Read.stageOps, Layers.run, Layers.step, hbegin]
        have hrun' : (⟨(c, s), on⟩ : Layers (Cfg × S)).run stageStep [.keys (.input ev dev)] =
            (⟨(c, (update c s ev dev).1), on⟩ : Layers (Cfg × S)).process stageStep (update c s ev dev).2 := hrun
        rw [hbegin] at hd1
        rw [hrun'] at hx1
        have hxs : (update c s ev dev).1.shouldExit = false := by
          have : ∀ (l : Layers (Cfg × S)) (q : KeySequence), (l.output stageStep q).1.keys.2.exitPos = l.keys.2.exitPos := by
            intro l q
            induction q generalizing l with
            | nil => rfl
            | cons e q ih =>
              by_cases hv : isVirtualKey e.key = true
              · by_cases hd : e.state = .Down
                · rw [Layers.output_toggle stageStep l q hv hd]
                  show ((l.toggle stageStep e.key).1.output stageStep q).1.keys.2.exitPos = _
                  rw [ih, toggle_exitPos l hv]
                · rw [Layers.output_skip stageStep l q hv hd, ih]
              · have hv : isVirtualKey e.key = false := by simpa using hv
                rw [Layers.output_one stageStep l q hv]
                exact ih l
          have := this ⟨(c, (update c s ev dev).1), on⟩ (update c s ev dev).2
          unfold S.shouldExit at hx1 ⊢
          rw [← show _ = (update c s ev dev).1.exitPos from this]
          exact hx1
        rw [hrun]
        obtain ⟨g1, g2, g3, g4⟩ := translate_runs rx (Srv.flush rx) h0.toRuns (ev := ev) (dev := dev) hk.2 hd1.1 hxs
        rw [h0.buf, List.nil_append] at g2
        have e1 : (srv0.processRead rx (.key ev dev)).answerTimeout rx = srv0.translateWith rx (Srv.flush rx) ev dev := by
          rw [Srv.processRead, if_pos (by simpa using (ordinary_noWheel hk).2.2)]
          show Srv.answerTimeout rx (srv0.translateWith rx (Srv.flush rx) ev dev) = _
          rw [Srv.answerTimeout, if_neg (by simp [Srv.timeoutElapsed, g1.timeout])]
        rw [e1]
        generalize srv0.translateWith rx (Srv.flush rx) ev dev = srv1 at g1 g2 g3 g4 ⊢
        obtain ⟨srv', f1, f2, f3, f4, f5, f6⟩ := flush_layers rx g1 hxs (by rw [g4, h0.sending]) (by rw [g2]; exact hd1)
        rw [g2] at f2 f5 f6
        refine ⟨srv', ?_, ⟨f2, f3, f4, f5⟩, by rw [f6, g3, ho0]⟩
        rw [Srv.flushWhenDue, if_pos (by simp [Srv.flushDue, g1.flushAt]), f1]
    obtain ⟨srv2, hfl, h2, ho2⟩ := hread
    simp only [hfl, Bool.not_true, Bool.false_eq_true, if_false]
    have hrunCfg := run_cfg l _ hnd
    obtain ⟨l1, hl1⟩ : ∃ l1, l1 = (l.run stageStep (it.read.stageOps.map LayerOp.keys)).1 := ⟨_, rfl⟩
    rw [← hl1] at h2 hd2 hrunCfg
    -- new devices
    have hdev : ∃ srv3, srv2.updateDevices rx it.devices = srv3 ∧ Rests srv3 l1 ∧ srv3.out = srv2.out := by
      cases hdv : it.devices with
      | none => exact ⟨srv2, rfl, h2, rfl⟩
      | some ds =>
        have hf : l1.keys.1.hasDeviceFilter = false := by
          rw [hrunCfg]
          rcases hi.devices with h | h
          · rw [hdv] at h; cases h
          · simpa using h
        refine ⟨{ srv2 with devices := ds }, ?_, ⟨⟨h2.flushAt, h2.timeout, h2.info, h2.stageBuf, h2.stages, h2.results, h2.virtualDown⟩, h2.buf, h2.sending, h2.exit⟩, rfl⟩
        rw [Srv.updateDevices, Srv.setDeviceDescs, Srv.evaluateDeviceFilters, if_pos (by simp [MS.hasDeviceFilters, h2.stages, hf])]
    obtain ⟨srv3, hsrv3, h3, ho3⟩ := hdev
    rw [hsrv3]
    obtain ⟨h5, h6⟩ := messages_layers rx n it.messages hi.messages srv3 l1 (by rw [hrunCfg]; exact hn) h3 hd2
    rw [Layers.run_append, ← hl1]
    rw [if_neg (by simp [hi.regrab, h5.stages])]
    refine ⟨by simp [MS.shouldExit, h5.stages, h5.exit], h5, ?_⟩
    rw [h6, ho3, ho2, List.append_assoc]

/-- the loop -/
theorem mainLoop_layers (rx : Regex) (n : Nat) (its : List Iteration) : ∀ (srv : Srv) (l : Layers (Cfg × S)), l.keys.1.contexts.length = n →
    (∀ it ∈ its, it.Layered (!l.keys.1.hasDeviceFilter)) → Rests srv l → l.DescribesAll stageStep (its.flatMap (Iteration.layerOps n)) →
    (∀ ops', ops' <+: its.flatMap (Iteration.layerOps n) → (l.run stageStep ops').1.keys.2.shouldExit = false) →
    (srv.mainLoop rx its).out = srv.out ++ (l.run stageStep (its.flatMap (Iteration.layerOps n))).2 := by
  induction its with
  | nil => intro srv l _ _ _ _ _; simp [Srv.mainLoop, Layers.run]
  | cons it its ih =>
    intro srv l hn hi h hd hx
    rw [List.flatMap_cons] at hd hx ⊢
    rw [Layers.describesAll_append] at hd
    obtain ⟨h1, h2, h3⟩ := iterate_layers rx n h hn (hi it (by simp)) hd.1 (fun ops' hp => hx ops' (hp.trans (List.prefix_append _ _)))
    have hnd : ∀ op ∈ it.layerOps n, op.noDevices := by
      intro op hop
      unfold Iteration.layerOps at hop
      split at hop
      · cases hop
      · rcases List.mem_append.1 hop with hop | hop
        · cases hr : it.read with
          | key ev dev =>
            rw [hr] at hop
            simp only [Read.stageOps, List.map_cons, List.map_nil, List.mem_singleton] at hop
            subst hop; trivial
          | _ => rw [hr] at hop; cases hop
        · obtain ⟨m, _, hm⟩ := List.mem_flatMap.1 hop
          exact layerOps_noDevices n m op hm
    have hcfg := run_cfg l _ hnd
    have := ih _ _ (by rw [hcfg]; exact hn) (by rw [hcfg]; exact fun x hx => hi x (List.mem_cons_of_mem _ hx)) h2 hd.2 (by
      rintro ops' ⟨t, ht⟩
      have := hx (it.layerOps n ++ ops') ⟨t, by rw [← ht, List.append_assoc]⟩
      rw [Layers.run_append] at this
      exact this)
    rw [Srv.mainLoop, if_pos h1, this, h3, Layers.run_append, List.append_assoc]

end KM
