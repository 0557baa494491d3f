import Verif.Props.WindowsOrder
import Verif.Props.Unmapped
/-!
# C100: keys which are not mapped, on Windows
-/
namespace KM
open Win

/-- The stages of the model, as the server on Windows calls them for the device `d` -/
def Win.updateStages (d : Int) (sts : List (Cfg × S)) (e : KeyEvent) : List (Cfg × S) × List KeyEvent :=
  ((stagesStep sts (.input e d)).1, (stagesStep sts (.input e d)).2.getLastD [])

private theorem mirror_run {K : Key → Prop} {d : Int} (hK : RealKeys K) (hv : ∀ k, K k → isVirtualKey k = false)
    {stages : List (List Context)} : ∀ (ops : List StagesOp), (∀ op ∈ ops, op.Foreign K d stages) →
    ∀ typed sts, AllMirror K d typed stages sts →
      AllMirror K d (typed ++ (ops.filterMap StagesOp.typed).map (·.1)) stages (stagesRun sts ops).1 := by
  intro ops
  induction ops with
  | nil => intro _ typed sts h; simpa [stagesRun] using h
  | cons op ops ih =>
    intro hops typed sts hm
    have hop := hops op (List.mem_cons_self ..)
    have hrest := fun o ho => hops o (List.mem_cons_of_mem _ ho)
    cases op with
    | input ev dev =>
      obtain ⟨rfl, hk, hs, h0⟩ := hop
      obtain ⟨g1, _, _⟩ := AllMirror.input hK hv hk hs h0 stages sts hm
      have := ih hrest _ _ g1
      simpa [stagesRun, stagesStep, StagesOp.typed] using this
    | contexts l =>
      obtain ⟨g1, _⟩ := AllMirror.contexts hK stages 0 sts hop hm
      exact ih hrest _ _ g1

private theorem key_step {K : Key → Prop} {d : Int} (hK : RealKeys K) (hv : ∀ k, K k → isVirtualKey k = false)
    {stages : List (List Context)} (hne : stages ≠ []) {typed : KeySequence} {s : Server (List (Cfg × S))}
    (hm : AllMirror K d typed stages s.stage) {e : KeyEvent} (hk : K e.key) (hs : e.state = .Down ∨ e.state = .Up)
    (h0 : e.state = .Up → e.value = 0) (hw : isMouseWheel e.key = false) (ha : e.key ≠ 0xE038) (hn : e.key ≠ 0xE045)
    (hb : s.sendBuf = []) (hf : s.flushScheduled = false) :
    let r := s.react (updateStages d) (.keyboard e)
    r.2.1 = (if e.state = .Up ∧ heldAfter typed e.key = false then [] else [e]) ∧
    r.1.sendBuf = [] ∧ r.1.flushScheduled = false ∧ AllMirror K d (typed ++ [e]) stages r.1.stage := by
  obtain ⟨g1, g2, g3⟩ := AllMirror.input hK hv hk hs h0 stages s.stage hm
  have hout : (updateStages d s.stage e).2 = (if e.state = .Up ∧ heldAfter typed e.key = false then [] else [e]) := by
    unfold updateStages stagesStep
    apply getLastD_all g3
    intro he
    rw [he] at g2
    cases stages with
    | nil => exact hne rfl
    | cons c rest =>
      obtain ⟨st, sts', hst, _⟩ := hm
      rw [hst] at g2
      cases g2
  have hst : (updateStages d s.stage e).1 = (stagesInput d s.stage [e]).1 := rfl
  have h2 : numLockToPause s e = (e, false) := by
    unfold numLockToPause
    have : (e.key == numLock) = false := beq_eq_false_iff_ne.2 hn
    rw [this, Bool.and_false, Bool.false_and]
    rfl
  have hne' : (e.key == 0xE038) = false := beq_eq_false_iff_ne.2 ha
  have ht : translateInput (updateStages d) s e = translateCore (updateStages d) s e false := by
    unfold translateInput
    simp only [hf, Bool.and_false, Bool.false_eq_true, if_false, h2, hw, Bool.false_and]
  unfold Server.react
  simp only
  rw [ht]
  unfold translateCore
  simp only [hw, Bool.false_eq_true, if_false, hf, hne', Bool.or_false, Bool.false_or]
  by_cases hu : e.state = .Up ∧ heldAfter typed e.key = false
  · rw [if_pos hu] at hout ⊢
    simp only [hout, hb]
    exact ⟨rfl, rfl, rfl, by rw [← hst] at g1; exact g1⟩
  · rw [if_neg hu] at hout ⊢
    have htr : translated e (updateStages d s.stage e).2 false = false := by rw [hout]; simp [translated]
    simp only [htr, Bool.false_eq_true, if_false]
    exact ⟨trivial, hb, trivial, by rw [← hst] at g1; exact g1⟩

/-- **C100**: on Windows keys which no active context mentions are passed on as they are typed, through any
number of stages, after whatever happened before. Only releases of keys which are not held are withheld.
Nothing is sent in place of a key and no timer is set. -/
theorem C100_unmapped {K : Key → Prop} {d : Int} (hK : RealKeys K) (hv : ∀ k, K k → isVirtualKey k = false)
    (hs : ∀ k, K k → isMouseWheel k = false ∧ k ≠ 0xE038 ∧ k ≠ 0xE045)
    {stages : List (List Context)} (hne : stages ≠ []) (before : List StagesOp)
    (hb : ∀ op ∈ before, op.Foreign K d stages) (evs : List KeyEvent)
    (he : ∀ e ∈ evs, K e.key ∧ (e.state = .Down ∨ e.state = .Up) ∧ (e.state = .Up → e.value = 0)) :
    let r := history (updateStages d) { stage := (stagesRun (stages.map stageInit) before).1 } (evs.map .keyboard)
    r.2.1 = asTyped ((before.filterMap StagesOp.typed).map (·.1)) evs ∧ r.1.sendBuf = [] ∧ r.1.flushScheduled = false := by
  have gen : ∀ (evs : List KeyEvent), (∀ e ∈ evs, K e.key ∧ (e.state = .Down ∨ e.state = .Up) ∧ (e.state = .Up → e.value = 0)) →
      ∀ typed (s : Server (List (Cfg × S))), AllMirror K d typed stages s.stage → s.sendBuf = [] → s.flushScheduled = false →
      (history (updateStages d) s (evs.map .keyboard)).2.1 = asTyped typed evs ∧
      (history (updateStages d) s (evs.map .keyboard)).1.sendBuf = [] ∧
      (history (updateStages d) s (evs.map .keyboard)).1.flushScheduled = false := by
    intro evs
    induction evs with
    | nil => intro _ typed s _ h1 h2; exact ⟨rfl, h1, h2⟩
    | cons e evs ih =>
      intro he typed s hm h1 h2
      obtain ⟨k1, k2, k3⟩ := he e (List.mem_cons_self ..)
      obtain ⟨w1, w2, w3⟩ := hs _ k1
      obtain ⟨a1, a2, a3, a4⟩ := key_step hK hv hne hm k1 k2 k3 w1 w2 w3 h1 h2
      obtain ⟨b1, b2, b3⟩ := ih (fun x hx => he x (List.mem_cons_of_mem _ hx)) _ _ a4 a2 a3
      refine ⟨?_, b2, b3⟩
      simp only [List.map_cons, history, asTyped]
      rw [a1, b1]
  have hm := mirror_run hK hv before hb [] _ (allMirror_init K d stages)
  rw [List.nil_append] at hm
  exact gen evs he _ { stage := _ } hm rfl rfl

/-- Two stages which map other keys; `A` is held before, its release and `B` are typed -/
example :
    let stages : List (List Context) := [[{ inputs := [⟨[⟨2, .Down, 0⟩], 0⟩], outputs := [[⟨3, .Down, 0⟩]] }],
      [{ inputs := [⟨[⟨3, .Down, 0⟩], 0⟩], outputs := [[⟨4, .Down, 0⟩]] }]]
    (history (updateStages 0)
      { stage := (stagesRun (stages.map stageInit) [.contexts [0, 1], .input ⟨30, .Down, 0⟩ 0]).1 }
      ([⟨48, .Down, 0⟩, ⟨30, .Up, 0⟩, ⟨31, .Up, 0⟩, ⟨48, .Down, 0⟩, ⟨48, .Up, 0⟩].map .keyboard)).2.1 =
    [⟨48, .Down, 0⟩, ⟨30, .Up, 0⟩, ⟨48, .Down, 0⟩, ⟨48, .Up, 0⟩] := by
  decide +kernel

end KM
