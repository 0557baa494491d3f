import Verif.Spec.Reload
import Verif.Props.Stages
import Verif.Props.StageOutput
/-!
# Lemmas: the server around stages which are replaced
-/
namespace KM

theorem reloadRun_append (a b : List ReloadOp) : ∀ stages : List (Cfg × S), reloadRun stages (a ++ b) =
    ((reloadRun (reloadRun stages a).1 b).1, (reloadRun stages a).2 ++ (reloadRun (reloadRun stages a).1 b).2) := by
  induction a with
  | nil => intro stages; rfl
  | cons op a ih => intro stages; rw [List.cons_append, reloadRun, ih]; rfl

theorem reloadRun_stages (ops : List StagesOp) : ∀ stages : List (Cfg × S), reloadRun stages (ops.map .stages) = stagesRun stages ops := by
  induction ops with
  | nil => intro stages; rfl
  | cons op ops ih => intro stages; rw [List.map_cons, reloadRun, stagesRun, ← ih]; rfl

/-- no stage depends on devices -/
def NoDeviceFilters (stages : List (Cfg × S)) : Prop := ∀ st ∈ stages, st.1.hasDeviceFilter = false

theorem NoDeviceFilters.step {stages : List (Cfg × S)} (h : NoDeviceFilters stages) (op : StagesOp) : NoDeviceFilters (stagesStep stages op).1 := by
  intro st hst
  have : st.1 ∈ stages.map (·.1) := by rw [← stagesStep_cfgs stages op]; exact List.mem_map.2 ⟨st, hst, rfl⟩
  obtain ⟨st', hst', e⟩ := List.mem_map.1 this
  rw [← e]; exact h st' hst'

theorem noDeviceFilters_make {stages : List (List Context)} (hf : ∀ st ∈ stages, ∀ ctx ∈ st, ctx.hasDeviceFilter = false) :
    NoDeviceFilters ((stages.map Cfg.make).map (fun c => (c, ({} : S)))) := by
  intro st hst
  obtain ⟨c, hc, rfl⟩ := List.mem_map.1 hst
  obtain ⟨ctxs, hx, rfl⟩ := List.mem_map.1 hc
  exact noFilter_stage (hf ctxs hx)

theorem heldOutput_sendable (stages : List (Cfg × S)) : ∀ e ∈ (heldOutput stages).map (fun k => (⟨k, .Up, 0⟩ : KeyEvent)), Sendable e := by
  intro e he
  obtain ⟨k, hk, rfl⟩ := List.mem_map.1 he
  have hd : isDeviceKey k = true := by
    unfold heldOutput at hk
    split at hk
    · exact (List.mem_filter.1 hk).2
    · cases hk
  have hle : k ≤ 61439 := by
    unfold isDeviceKey isKeyboardKey isMouseButton isMouseWheel at hd
    simp only [Bool.or_eq_true, Bool.and_eq_true, decide_eq_true_eq] at hd
    rcases hd with (hk | hk) | hk
    · exact hk.1.1.2
    · exact Nat.le_trans hk.2 (by decide)
    · exact Nat.le_trans hk.2 (by decide)
  refine ⟨?_, ?_, ?_, fun _ => by simp⟩
  · intro e
    simp only at e
    rw [e] at hle; exact absurd hle (by decide)
  · rw [← Bool.not_eq_true]
    intro hv
    simp only [isVirtualKey, Bool.and_eq_true, decide_eq_true_eq] at hv
    exact absurd (Nat.le_trans hv.1 hle) (by decide)
  · rw [← Bool.not_eq_true]
    intro hv
    simp only [isActionKey, Bool.and_eq_true, decide_eq_true_eq] at hv
    exact absurd (Nat.le_trans hv.1 hle) (by decide)

/-- a new configuration -/
theorem configure_stages (rx : Regex) {srv : Srv} {stages : List (Cfg × S)} (h : AroundAll srv stages) {cfgs : List Cfg} (hne : cfgs ≠ [])
    (hf : NoDeviceFilters (cfgs.map (fun c => (c, {})))) :
    AroundAll (srv.onMessage rx (.configuration cfgs)) (reloadStep stages (.configure cfgs)).1 ∧
      (srv.onMessage rx (.configuration cfgs)).out = srv.out ++ ((reloadStep stages (.configure cfgs)).2.getLastD []).map Eff.sendKey := by
  have hkeys : srv.ms.outputKeysDown = heldOutput stages := by
    unfold MS.outputKeysDown heldOutput
    rw [h.stages]
    cases stages.getLast? with
    | none => rfl
    | some p => simp only [S.outputKeysDown, List.filter_map]; rfl
  have hdef : srv.onMessage rx (.configuration cfgs) = { srv with
      ms := MS.make cfgs
      virtualDown := []
      timeoutStart := none
      sendBuf := []
      flushAt := none
      out := srv.out ++ ((heldOutput stages).map (fun k => (⟨k, .Up, 0⟩ : KeyEvent))).map Eff.sendKey } := by
    have hflush := flush_sendable rx srv.releaseAllKeys (by
      intro e he
      have he : e ∈ srv.sendBuf ++ srv.ms.outputKeysDown.map (fun k => (⟨k, .Up, 0⟩ : KeyEvent)) := he
      rw [h.buf, List.nil_append, hkeys] at he
      exact heldOutput_sendable stages e he) h.results h.sending
    unfold Srv.onMessage Srv.onConfiguration Srv.resetConfiguration
    rw [show Srv.flush rx srv.releaseAllKeys = (srv.releaseAllKeys.flushSendBuffer rx).1 from rfl, hflush]
    simp only [Srv.releaseAllKeys, h.buf, List.nil_append, hkeys]
    unfold Srv.evaluateDeviceFilters
    rw [if_pos]
    rw [Bool.or_eq_true]
    left
    rw [Bool.not_eq_true', MS.hasDeviceFilters, List.any_eq_false]
    intro st hst
    rw [hf st hst]; exact Bool.false_ne_true
  rw [hdef]
  refine ⟨⟨⟨rfl, rfl, rfl, h.sending, h.info, rfl⟩, ?_, rfl, h.results⟩, rfl⟩
  intro e
  exact hne (List.map_eq_nil_iff.1 e)

/-- messages -/
theorem messages_reload (rx : Regex) (ms : List Msg) (hm : ∀ m ∈ ms, m.Reloads) : ∀ (srv : Srv) (stages : List (Cfg × S)),
    AroundAll srv stages → NoDeviceFilters stages → OnlyKeys (reloadRun stages (ms.flatMap Msg.reloadOps)).2 →
    AroundAll (ms.foldl (Srv.onMessage rx) srv) (reloadRun stages (ms.flatMap Msg.reloadOps)).1 ∧
    NoDeviceFilters (reloadRun stages (ms.flatMap Msg.reloadOps)).1 ∧
      (ms.foldl (Srv.onMessage rx) srv).out = srv.out ++ (lastOutputs (reloadRun stages (ms.flatMap Msg.reloadOps)).2).map Eff.sendKey := by
  induction ms with
  | nil => intro srv stages h hf _; exact ⟨h, hf, (List.append_nil _).symm⟩
  | cons m ms ih =>
    intro srv stages h hf hout
    have key : ∃ op, Msg.reloadOps m = [op] ∧ AroundAll (srv.onMessage rx m) (reloadStep stages op).1 ∧ NoDeviceFilters (reloadStep stages op).1 ∧
        (srv.onMessage rx m).out = srv.out ++ ((reloadStep stages op).2.getLastD []).map Eff.sendKey := by
      rcases hm m (List.mem_cons_self ..) with ⟨l, rfl⟩ | ⟨ss, h1, h2, rfl⟩
      · have hf' : (Msg.activeContexts l :: ms).flatMap Msg.reloadOps = .stages (.contexts l) :: ms.flatMap Msg.reloadOps := rfl
        rw [hf', reloadRun] at hout
        obtain ⟨a, b⟩ := active_stages rx h (l := l) (fun o ho => hout _ (List.mem_cons_self ..) o ho)
        exact ⟨_, rfl, a, hf.step _, b⟩
      · have hne : ss.map Cfg.make ≠ [] := fun e => h1 (List.map_eq_nil_iff.1 e)
        obtain ⟨a, b⟩ := configure_stages rx h hne (noDeviceFilters_make h2)
        exact ⟨_, rfl, a, noDeviceFilters_make h2, b⟩
    obtain ⟨op, hop, h1, h2, h3⟩ := key
    rw [List.flatMap_cons, hop, List.singleton_append, reloadRun] at hout ⊢
    simp only [] at hout ⊢
    obtain ⟨h4, h5, h6⟩ := ih (fun x hx => hm x (List.mem_cons_of_mem _ hx)) _ _ h1 h2 (fun o ho => hout o (List.mem_cons_of_mem _ ho))
    refine ⟨h4, h5, ?_⟩
    rw [List.foldl_cons, h6, h3]
    simp only [lastOutputs, List.flatMap_cons, List.map_append, List.append_assoc]

/-- the first stage does not ask to exit -/
def ReloadStays (stages : List (Cfg × S)) (ops : List ReloadOp) : Prop :=
  ∀ ops', ops' <+: ops → ((reloadRun stages ops').1.head?.map (fun p => p.2.shouldExit)).getD false = false

theorem ReloadStays.left {stages : List (Cfg × S)} {a b : List ReloadOp} (h : ReloadStays stages (a ++ b)) : ReloadStays stages a :=
  fun ops' hp => h ops' (hp.trans (List.prefix_append _ _))

theorem ReloadStays.right {stages : List (Cfg × S)} {a b : List ReloadOp} (h : ReloadStays stages (a ++ b)) : ReloadStays (reloadRun stages a).1 b := by
  rintro ops' ⟨t, ht⟩
  have := h (a ++ ops') ⟨t, by rw [← ht, List.append_assoc]⟩
  rw [reloadRun_append] at this
  exact this

/-- an iteration without its messages -/
theorem iterate_split (rx : Regex) (srv : Srv) (it : Iteration) (hr : it.read ≠ .other) :
    srv.iterate rx it =
      (let s := (({ srv with now := it.now, sendResults := it.sendResults }).processRead rx it.read).answerTimeout rx
       let p := s.flushWhenDue rx
       if !p.2 then (p.1, false)
       else
        let s := it.messages.foldl (Srv.onMessage rx) (p.1.updateDevices rx it.devices)
        if it.regrab || s.ms.stages.isEmpty then (s, false) else (s, !s.ms.shouldExit)) := by
  unfold Srv.iterate
  simp only [if_neg hr]

theorem ite_pair_fst (c : Prop) [Decidable c] (a : Srv) (x y : Bool) : (if c then (a, x) else (a, y)).1 = a := by
  split <;> rfl

/-- an iteration: what is output is sent -/
theorem iterate_reload (rx : Regex) {srv : Srv} {stages : List (Cfg × S)} (h : AroundAll srv stages) (hf : NoDeviceFilters stages)
    {it : Iteration} (hi : it.Reloads) (hout : OnlyKeys (reloadRun stages it.reloadOps).2) (hx : ReloadStays stages it.reloadOps) :
    (srv.iterate rx it).2 = true ∧ AroundAll (srv.iterate rx it).1 (reloadRun stages it.reloadOps).1 ∧
      NoDeviceFilters (reloadRun stages it.reloadOps).1 ∧
      (srv.iterate rx it).1.out = srv.out ++ (lastOutputs (reloadRun stages it.reloadOps).2).map Eff.sendKey := by
  by_cases hother : it.read = .other
  · have hops : it.reloadOps = [] := by unfold Iteration.reloadOps; rw [if_pos hother]
    rw [hops]
    have hit : srv.iterate rx it = ({ srv with now := it.now, sendResults := it.sendResults }, true) := by
      unfold Srv.iterate; simp only [if_pos hother]
    rw [hit]
    exact ⟨rfl, ⟨⟨h.buf, h.flushAt, h.timeout, h.sending, h.info, h.stageBuf⟩, h.nonempty, h.stages, hi.sent⟩, hf, (List.append_nil _).symm⟩
  · have hops : it.reloadOps = it.read.stagesOps.map .stages ++ it.messages.flatMap Msg.reloadOps := by
      unfold Iteration.reloadOps; rw [if_neg hother]
    have hx2 := hx _ (List.prefix_refl _)
    rw [hops] at hout hx hx2 ⊢
    rw [reloadRun_append, reloadRun_stages] at hout hx2 ⊢
    -- the iteration without messages
    obtain ⟨it0, hit0⟩ : ∃ it0 : Iteration, it0 = { it with messages := [] } := ⟨_, rfl⟩
    have hi0 : it0.Ordinary true := by
      rw [hit0]; exact ⟨hi.read, hi.sent, .inr rfl, (by intro m hm; cases hm), hi.regrab⟩
    have hops0 : it0.stagesOps = it.read.stagesOps := by
      rw [hit0]; unfold Iteration.stagesOps; simp only [if_neg hother]; exact List.append_nil _
    have hs0 : StaysIn stages it.read.stagesOps := by
      rintro ops' ⟨t, ht⟩
      have := hx (ops'.map .stages) ⟨t.map .stages ++ it.messages.flatMap Msg.reloadOps, by rw [← ht, List.map_append, List.append_assoc]⟩
      rw [reloadRun_stages] at this
      exact this
    obtain ⟨g1, g2, g3⟩ := iterate_stages rx h hf hi0 (by rw [hops0]; exact hout.left) (by rw [hops0]; exact hs0)
    rw [hops0] at g2 g3
    have hsplit0 := iterate_split rx srv it0 (by rw [hit0]; exact hother)
    have hsplit := iterate_split rx srv it hother
    rw [hit0] at hsplit0 g1 g2 g3
    simp only [List.foldl_nil] at hsplit hsplit0
    generalize ((({ srv with now := it.now, sendResults := it.sendResults } : Srv).processRead rx it.read).answerTimeout rx).flushWhenDue rx = p at hsplit hsplit0
    obtain ⟨p1, p2⟩ := p
    cases p2 with
    | false =>
      simp only [Bool.not_false, if_true] at hsplit0
      rw [hsplit0] at g1; cases g1
    | true =>
      simp only [Bool.not_true, Bool.false_eq_true, if_false] at hsplit hsplit0
      have hfst : (srv.iterate rx { it with messages := [] }).1 = p1.updateDevices rx it.devices := by
        rw [hsplit0]
        exact ite_pair_fst _ _ _ _
      rw [hfst] at g2 g3
      have hnf : NoDeviceFilters (stagesRun stages it.read.stagesOps).1 := by
        cases hr : it.read with
        | key ev dev => exact hf.step _
        | nothing => exact hf
        | other => exact absurd hr hother
      obtain ⟨m1, m2, m3⟩ := messages_reload rx it.messages hi.messages _ _ g2 hnf hout.right
      have hexit : (it.messages.foldl (Srv.onMessage rx) (p1.updateDevices rx it.devices)).ms.shouldExit = false := by
        rw [shouldExit_first, m1.stages]
        exact hx2
      have hempty : (it.messages.foldl (Srv.onMessage rx) (p1.updateDevices rx it.devices)).ms.stages.isEmpty = false := by
        rw [m1.stages, ← Bool.not_eq_true]
        intro e
        exact m1.nonempty (List.isEmpty_iff.1 e)
      rw [hi.regrab, hempty, hexit] at hsplit
      simp only [Bool.or_false, Bool.false_eq_true, if_false, Bool.not_false] at hsplit
      rw [hsplit]
      refine ⟨rfl, m1, m2, ?_⟩
      rw [m3, g3, lastOutputs_append, List.map_append, List.append_assoc]

/-- the loop: what is output is sent -/
theorem mainLoop_reload (rx : Regex) (its : List Iteration) (hi : ∀ it ∈ its, it.Reloads) : ∀ (srv : Srv) (stages : List (Cfg × S)),
    AroundAll srv stages → NoDeviceFilters stages →
    OnlyKeys (reloadRun stages (its.flatMap Iteration.reloadOps)).2 → ReloadStays stages (its.flatMap Iteration.reloadOps) →
    (srv.mainLoop rx its).out = srv.out ++ (lastOutputs (reloadRun stages (its.flatMap Iteration.reloadOps)).2).map Eff.sendKey := by
  induction its with
  | nil => intro srv stages _ _ _ _; exact (List.append_nil _).symm
  | cons it its ih =>
    intro srv stages h hf hout hx
    rw [List.flatMap_cons, reloadRun_append] at hout
    rw [List.flatMap_cons] at hx ⊢
    obtain ⟨h2, h3, h4, h5⟩ := iterate_reload rx h hf (hi it (List.mem_cons_self ..)) hout.left hx.left
    rw [Srv.mainLoop, if_pos h2, ih (fun x hx => hi x (List.mem_cons_of_mem _ hx)) _ _ h3 h4 hout.right hx.right, h5, reloadRun_append, lastOutputs_append]
    simp only [List.map_append, List.append_assoc]

end KM
