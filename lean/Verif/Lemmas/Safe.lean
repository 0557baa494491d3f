import Verif.Lemmas.MatchSafe
import Verif.Lemmas.SeqAll
import Verif.Lemmas.Kept
import Verif.Lemmas.Active
import Verif.Lemmas.StageInv
import Verif.Spec.Safe
/-!
# No assertion fails in a stage

`Ok` is kept by everything a stage does, apart from cleaning up the history, which additionally
needs that the history is well formed.
-/
namespace KM

theorem not_inputKey_none : ¬ CanInputKey Key.none := by unfold CanInputKey; decide

theorem CanInputKey.output {k : Key} (h : CanInputKey k) : OutputKey k := Or.inl h

/-- nothing went wrong, and nothing is in the state which could go wrong -/
structure Ok (c : Cfg) (s : S) : Prop where
  ub : s.ub = false
  onRelease : ∀ o ∈ s.onRelease, ∀ e ∈ o.sequence, CanOutput e
  seq : ∀ e ∈ s.seq, CanInputKey e.key
  history : ∀ e ∈ s.history, CanInputKey e.key
  active : ∀ i ∈ s.active, i < c.contexts.length
  client : ∀ i ∈ s.activeClient, i < c.contexts.length
  down : ∀ o ∈ s.down, OutputKey o.key
  buf : ∀ e ∈ s.buf, CanEmit e
  anyM : ∀ k ∈ s.anyM, CanInputKey k

theorem modFirst_key (p : OutputDown → Bool) (f : OutputDown → OutputDown) (hf : ∀ o, (f o).key = o.key)
    (l : List OutputDown) (h : ∀ o ∈ l, OutputKey o.key) : ∀ o ∈ modFirst p f l, OutputKey o.key := by
  induction l with
  | nil => exact h
  | cons a l ih =>
    unfold modFirst
    split
    · intro o ho
      rcases List.mem_cons.mp ho with rfl | ho
      · rw [hf]; exact h a (by simp)
      · exact h o (List.mem_cons_of_mem _ ho)
    · intro o ho
      rcases List.mem_cons.mp ho with rfl | ho
      · exact h o (by simp)
      · exact ih (fun o ho => h o (List.mem_cons_of_mem _ ho)) o ho

theorem snoc_all {P : α → Prop} {l : List α} {x : α} (h : ∀ e ∈ l, P e) (hx : P x) : ∀ e ∈ l ++ [x], P e := by
  intro e he
  rcases List.mem_append.mp he with he | he
  · exact h e he
  · rw [List.mem_singleton] at he; rw [he]; exact hx

theorem reapplyLoop_emits (k : Key) (l : List OutputDown) (b : KeySequence) (r : Bool)
    (h : ∀ o ∈ l, OutputKey o.key) (hb : ∀ e ∈ b, CanEmit e) :
    (∀ o ∈ (reapplyLoop k l b r).1, OutputKey o.key) ∧ ∀ e ∈ (reapplyLoop k l b r).2.1, CanEmit e := by
  induction l generalizing b r with
  | nil => exact ⟨h, hb⟩
  | cons o os ih =>
    have ho := h o (by simp)
    have hos : ∀ o ∈ os, OutputKey o.key := fun o ho => h o (List.mem_cons_of_mem _ ho)
    have hcons : ∀ (x : OutputDown) (l : List OutputDown), x.key = o.key → (∀ o ∈ l, OutputKey o.key) →
        ∀ y ∈ x :: l, OutputKey y.key := by
      intro x l hx hl y hy
      rcases List.mem_cons.mp hy with rfl | hy
      · rw [hx]; exact ho
      · exact hl y hy
    have hb' : ∀ e ∈ b ++ [⟨o.key, .Down, 0⟩], CanEmit e := snoc_all hb (Or.inr ⟨Or.inl rfl, ho⟩)
    unfold reapplyLoop
    split
    · simp only []
      split
      · exact ⟨hcons _ _ rfl hos, hb'⟩
      · exact ⟨hcons _ _ rfl (ih _ _ hos hb').1, (ih _ _ hos hb').2⟩
    · split
      · exact ⟨hcons _ _ rfl hos, fun e he => hb e (List.dropLast_subset _ he)⟩
      · exact ⟨hcons _ _ rfl (ih _ _ hos hb).1, (ih _ _ hos hb).2⟩

theorem Ok.output {c : Cfg} {s : S} (h : Ok c s) {d b} (r) (hd : ∀ o ∈ d, OutputKey o.key) (hb : ∀ e ∈ b, CanEmit e) :
    Ok c { s with down := d, buf := b, reapplied := r } :=
  ⟨h.ub, h.onRelease, h.seq, h.history, h.active, h.client, hd, hb, h.anyM⟩

theorem Ok.updateOutput {c : Cfg} {s : S} (h : Ok c s) (ev : KeyEvent) (trig ctx)
    (hs : ev.state = .Down ∨ (ev.state = .Up ∧ ev.value = 0) ∨ ev.state = .Not) (hk : OutputKey ev.key) :
    Ok c (updateOutput s ev trig ctx) := by
  unfold KM.updateOutput
  split
  · next hst =>
    have hemit : CanEmit ev := by
      rcases hs with hs | hs | hs
      · rw [hs] at hst; exact absurd hst (by simp)
      · exact Or.inr ⟨Or.inr hs, hk⟩
      · rw [hs] at hst; exact absurd hst (by simp)
    unfold updateOutputUp
    split
    · exact h
    · split
      · exact h.output _ (modFirst_key _ _ (by intro o; rfl) _ h.down) (snoc_all h.buf hemit)
      · split
        · exact h.output _ (modFirst_key _ _ (by intro o; rfl) _ h.down) (fun e he => h.buf e (mem_rEraseKey he))
        · refine h.output _ ?_ (snoc_all h.buf hemit)
          split
          · exact fun o ho => h.down o (List.mem_of_mem_eraseP ho)
          · exact modFirst_key _ _ (by intro o; rfl) _ h.down
  · unfold updateOutputNot
    split
    · exact h
    · split
      · exact h
      · refine h.output _ (modFirst_key _ _ (by intro o; rfl) _ h.down) ?_
        split
        · exact h.buf
        · exact snoc_all h.buf (Or.inr ⟨Or.inr ⟨rfl, rfl⟩, hk⟩)
  · next hst =>
    have hemit : CanEmit ev := Or.inr ⟨Or.inl hst, hk⟩
    unfold updateOutputDown
    have hr := reapplyLoop_emits ev.key s.down s.buf s.reapplied h.down h.buf
    generalize reapplyLoop ev.key s.down s.buf s.reapplied = q at *
    obtain ⟨d, b, r, ret⟩ := q
    simp only [] at hr ⊢
    split
    · exact h.output _ hr.1 hr.2
    · split
      · refine h.output _ ?_ (snoc_all hr.2 hemit)
        split
        · exact snoc_all hr.1 hk
        · exact hr.1
      · refine h.output _ (modFirst_key _ _ (by intro o; rfl) _ hr.1) ?_
        split
        · intro e he
          rcases List.mem_append.mp he with he | he
          · exact hr.2 e he
          · rcases List.mem_cons.mp he with rfl | he
            · exact Or.inr ⟨Or.inr ⟨rfl, rfl⟩, hk⟩
            · rw [List.mem_singleton] at he; rw [he]; exact hemit
        · exact snoc_all hr.2 hemit
  · exact h
  · exact h
  · rcases hs with hs | hs | hs <;> simp_all

theorem Ok.foldUpdate {c : Cfg} {α : Type} (l : List α) (f : α → KeyEvent) (trig ctx)
    (hf : ∀ a ∈ l, ((f a).state = .Down ∨ ((f a).state = .Up ∧ (f a).value = 0) ∨ (f a).state = .Not) ∧ OutputKey (f a).key) :
    ∀ {s : S}, Ok c s → Ok c (l.foldl (fun s k => KM.updateOutput s (f k) trig ctx) s) := by
  induction l with
  | nil => exact fun h => h
  | cons a l ih =>
    exact fun h => ih (fun a ha => hf a (List.mem_cons_of_mem _ ha))
      (h.updateOutput _ trig ctx (hf a (by simp)).1 (hf a (by simp)).2)

theorem Ok.applyOutput {c : Cfg} {s : S} (h : Ok c s) (out : KeySequence) (trig ctx)
    (ho : ∀ e ∈ out, CanOutput e) : Ok c (applyOutput s out trig ctx) := by
  induction out generalizing s with
  | nil => exact h
  | cons ev rest ih =>
    have hr : ∀ e ∈ rest, CanOutput e := fun e he => ho e (List.mem_cons_of_mem _ he)
    have he := ho ev (by simp)
    unfold KM.applyOutput
    split
    · next hany =>
      have hst : ev.state = .Down ∨ (ev.state = .Up ∧ ev.value = 0) ∨ ev.state = .Not := by
        rcases he with h | h
        · rw [h] at hany; exact absurd hany (by decide)
        · exact h.1
      simp only []
      refine ih ?_ hr
      split
      · exact Ok.foldUpdate _ (fun (o : OutputDown) => ⟨o.key, .Not, 0⟩) trig ctx
          (fun a ha => ⟨Or.inr (Or.inr rfl), h.down a ha⟩) h
      · refine Ok.foldUpdate _ (fun (k : Key) => ⟨k, ev.state, 0⟩) trig ctx
          (fun a ha => ⟨?_, (h.anyM a ha).output⟩) h
        rcases hst with hst | hst | hst
        · exact Or.inl hst
        · exact Or.inr (Or.inl ⟨hst.1, rfl⟩)
        · exact Or.inr (Or.inr hst)
    · next hany =>
      split
      · split
        · refine ⟨h.ub, ?_, h.seq, h.history, h.active, h.client, h.down, h.buf, h.anyM⟩
          intro o hm
          rcases List.mem_append.mp hm with hm | hm
          · exact h.onRelease o hm
          · rw [List.mem_singleton] at hm; rw [hm]; exact hr
        · exact ih h hr
      · next hnot =>
        have hev : (ev.state = .Down ∨ (ev.state = .Up ∧ ev.value = 0) ∨ ev.state = .Not) ∧ OutputKey ev.key := by
          rcases he with h | h
          · rw [h] at hnot; exact absurd rfl hnot
          · exact ⟨h.1, h.2.resolve_left (by simpa using hany)⟩
        split
        · simp only []
          refine ih ?_ hr
          split
          · exact h.updateOutput _ trig ctx (Or.inl rfl) hev.2
          · exact h
        · exact ih (h.updateOutput ev trig ctx hev.1 hev.2) hr

theorem Ok.continueOnRelease {c : Cfg} {s : S} (h : Ok c s) (ev ctx) : Ok c (continueOnRelease s ev ctx).1 := by
  unfold KM.continueOnRelease
  split
  · exact h
  · next o ho =>
    split
    · exact h
    · have h1 := h.applyOutput o.sequence (.ev ev) o.ctx (h.onRelease o (List.mem_of_find?_eq_some ho))
      exact ⟨h1.ub, fun o hm => h1.onRelease o (List.mem_of_mem_eraseP hm), h1.seq, h1.history, h1.active, h1.client, h1.down, h1.buf, h1.anyM⟩

theorem Ok.releaseTriggered {c : Cfg} {s : S} (h : Ok c s) (k ctx) : Ok c (releaseTriggered s k ctx) := by
  refine ⟨h.ub, h.onRelease, h.seq, h.history, h.active, h.client, ?_, ?_, h.anyM⟩
  · exact fun o ho => h.down o (List.mem_filter.mp ho).1
  · intro e he
    rcases List.mem_append.mp he with he | he
    · exact h.buf e he
    · simp only [List.mem_map, List.mem_filter, List.mem_reverse] at he
      obtain ⟨o, ho, rfl⟩ := he
      exact Or.inr ⟨Or.inr ⟨rfl, rfl⟩, h.down o ho.1.1⟩

/-! ### Contexts -/

/-- the mutable part of the configuration a stage runs with is the one it was constructed with -/
abbrev Cfg.Safe (c : Cfg) : Prop := ContextsSafe c.contexts

theorem fallthroughGo_spec (cs : List Context) (i : Nat) (h : ∃ ctx, cs.getLast? = some ctx ∧ ctx.fallthrough = false) :
    ∃ j, fallthroughGo cs i = some j ∧ j < i + cs.length := by
  induction cs generalizing i with
  | nil => simp at h
  | cons a cs ih =>
    unfold fallthroughGo
    split
    · next hf =>
      cases cs with
      | nil =>
        obtain ⟨ctx, h1, h2⟩ := h
        simp only [List.getLast?_singleton, Option.some.injEq] at h1
        subst h1; rw [hf] at h2; exact absurd h2 (by simp)
      | cons b cs =>
        rw [List.getLast?_cons_cons] at h
        obtain ⟨j, h1, h2⟩ := ih (i + 1) h
        exact ⟨j, h1, by simp only [List.length_cons] at h2 ⊢; omega⟩
    · exact ⟨i, rfl, by simp only [List.length_cons]; omega⟩

theorem fallthroughContext_spec {cs : List Context} (hl : LastStops cs) {i : Nat} (hi : i < cs.length) :
    ∃ j, fallthroughContext cs i = some j ∧ j < cs.length := by
  have : ∃ ctx, (cs.drop i).getLast? = some ctx ∧ ctx.fallthrough = false := by
    obtain ⟨ctx, h1, h2⟩ := hl
    refine ⟨ctx, ?_, h2⟩
    rw [List.getLast?_drop, if_neg (by omega)]; exact h1
  obtain ⟨j, h1, h2⟩ := fallthroughGo_spec (cs.drop i) i this
  exact ⟨j, h1, by rw [List.length_drop] at h2; omega⟩

theorem findCommandOutput_safe {cs : List Context} (hl : LastStops cs) (idx : Int) (l : List Nat)
    (h : ∀ i ∈ l, i < cs.length) : (findCommandOutput cs idx l).2 = false := by
  induction l with
  | nil => rfl
  | cons i is ih =>
    obtain ⟨j, h1, h2⟩ := fallthroughContext_spec hl (h i (by simp))
    unfold findCommandOutput
    rw [h1]
    simp only []
    rw [List.getElem?_eq_getElem h2]
    simp only []
    split
    · rfl
    · exact ih (fun i hi => h i (List.mem_cons_of_mem _ hi))

theorem findOutput_safe {c : Cfg} (hc : c.Safe) {active : List Nat} (ha : ∀ i ∈ active, i < c.contexts.length)
    {k : Nat} {ctx : Context} (hk : ctx ∈ c.contexts) {inp : Input} (hi : inp ∈ ctx.inputs) :
    (findOutput c.contexts active k ctx inp.outputIndex).2 = false := by
  unfold findOutput
  split
  · next h0 =>
    have h1 := (hc.contexts ctx hk).references inp hi h0
    rw [List.getElem?_eq_getElem (by omega)]
  · exact findCommandOutput_safe (hc.last (List.ne_nil_of_mem hk)) _ _
      (fun i hi => ha i (List.mem_reverse.mp hi))

theorem HasOutput.events {c : Cfg} (hc : c.Safe) {out : KeySequence} (h : c.HasOutput out) :
    ∀ e ∈ out, CanOutput e := by
  obtain ⟨ctx, hctx, h⟩ := h
  rcases h with h | ⟨o, ho, rfl⟩
  · exact (hc.contexts ctx hctx).outputs out h
  · exact (hc.contexts ctx hctx).commands o ho

theorem Ok.onContextActiveEvent {c : Cfg} (hc : c.Safe) {s : S} (h : Ok c s) (ev : KeyEvent) {i : Nat}
    (hi : i < c.contexts.length) : Ok c (onContextActiveEvent c s ev i) := by
  unfold KM.onContextActiveEvent
  rw [List.getElem?_eq_getElem hi]
  have hm : c.contexts[i] ∈ c.contexts := List.getElem_mem hi
  generalize c.contexts[i] = ctx at *
  simp only []
  have hne : (ctx.inputs.takeWhile (fun i => i.input.head?.map (·.key) != some Key.ContextActive)).any
      (·.input.isEmpty) = false := by
    rw [List.any_eq_false]
    intro x hx
    have := (hc.contexts ctx hm).inputs x ((List.takeWhile_sublist _).mem hx)
    simpa using this
  rw [hne]
  simp only [Bool.false_eq_true, if_false]
  split
  · exact h
  · next inp hinp =>
    have hmem := List.mem_of_find?_eq_some hinp
    split
    · have h1 := findOutput_safe hc h.active (k := i) hm hmem
      split
      · next heq => rw [heq] at h1; exact absurd h1 (by simp)
      · exact h
      · next ref out heq => exact h.applyOutput out _ _ (HasOutput.events hc (findOutput_hasOutput hm heq))
    · exact (h.continueOnRelease ev i).releaseTriggered _ _

theorem Ok.foldContextActive {c : Cfg} (hc : c.Safe) (ev : KeyEvent) (l : List Nat) :
    ∀ {s : S}, Ok c s → (∀ i ∈ l, i < c.contexts.length) →
      Ok c (l.foldl (fun s i => KM.onContextActiveEvent c s ev i) s) := by
  induction l with
  | nil => exact fun h _ => h
  | cons a l ih =>
    exact fun h hl => ih (h.onContextActiveEvent hc ev (hl a (by simp))) (fun i hi => hl i (List.mem_cons_of_mem _ hi))

theorem computeActive_safe {cs : List Context} (seq : KeySequence) (l acc : List Nat)
    (hl : l ≠ [] → LastStops cs) (h : ∀ i ∈ l, i < cs.length) (ha : ∀ i ∈ acc, i < cs.length) :
    ∃ r, computeActive cs seq l acc = some r ∧ ∀ i ∈ r, i < cs.length := by
  induction l generalizing acc with
  | nil => exact ⟨acc, rfl, ha⟩
  | cons i is ih =>
    have hi := h i (by simp)
    have hls := hl (by simp)
    unfold computeActive
    rw [List.getElem?_eq_getElem hi]
    simp only []
    split
    · obtain ⟨j, h1, h2⟩ := fallthroughContext_spec hls hi
      rw [h1]
      simp only []
      refine ih _ (fun _ => hls) (fun i hi => h i (List.mem_cons_of_mem _ hi)) ?_
      split
      · exact ha
      · intro x hx
        rcases List.mem_append.mp hx with hx | hx
        · exact ha x hx
        · rw [List.mem_singleton] at hx; rw [hx]; exact h2
    · exact ih _ (fun _ => hls) (fun i hi => h i (List.mem_cons_of_mem _ hi)) ha

theorem mergeContexts_mem_iff (p q : List Nat) :
    (∀ i ∈ (mergeContexts p q).1, i ∈ p) ∧ ∀ i ∈ (mergeContexts p q).2, i ∈ q := by
  fun_induction mergeContexts p q with
  | case1 curr => simp
  | case2 prev h => simp
  | case3 p ps q qs hlt d a heq ih =>
    rw [heq] at ih
    exact ⟨fun i hi => by
      rcases List.mem_cons.mp hi with rfl | hi
      · simp
      · exact List.mem_cons_of_mem _ (ih.1 i hi), ih.2⟩
  | case4 p ps q qs h1 h2 d a heq ih =>
    rw [heq] at ih
    exact ⟨ih.1, fun i hi => by
      rcases List.mem_cons.mp hi with rfl | hi
      · simp
      · exact List.mem_cons_of_mem _ (ih.2 i hi)⟩
  | case5 p ps q qs h1 h2 ih =>
    exact ⟨fun i hi => List.mem_cons_of_mem _ (ih.1 i hi), fun i hi => List.mem_cons_of_mem _ (ih.2 i hi)⟩

theorem Ok.updateActiveContexts {c : Cfg} (hc : c.Safe) {s : S} (h : Ok c s) : Ok c (updateActiveContexts c s) := by
  obtain ⟨r, h1, h2⟩ := computeActive_safe (cs := c.contexts) s.seq s.activeClient []
    (fun hne => hc.last (by
      obtain ⟨i, hi⟩ := List.exists_mem_of_ne_nil _ hne
      have := h.client i hi
      intro h0; rw [h0] at this; simp at this)) h.client (by simp)
  unfold KM.updateActiveContexts
  rw [h1]
  have hm := mergeContexts_mem_iff s.active r
  simp only []
  exact Ok.foldContextActive hc _ _ (Ok.foldContextActive hc _ _
    ⟨h.ub, h.onRelease, h.seq, h.history, h2, h.client, h.down, h.buf, h.anyM⟩
    (fun i hi => h.active i (hm.1 i hi))) (fun i hi => h2 i (hm.2 i hi))

/-! ### Matching -/

theorem Ok.trackTimeout {c : Cfg} {s : S} (h : Ok c s) {t} (l u) (ht : t.key = Key.timeout) :
    Ok c (trackTimeout s t l u) := by
  have hb : ∀ e ∈ s.buf ++ [t], CanEmit e := snoc_all h.buf (Or.inl ht)
  unfold KM.trackTimeout
  simp only []
  repeat' split
  all_goals first
    | exact ⟨h.ub, h.onRelease, h.seq, h.history, h.active, h.client, h.down, hb, h.anyM⟩
    | exact ⟨h.ub, h.onRelease, h.seq, h.history, h.active, h.client, h.down,
        fun e he => hb e (List.dropLast_subset _ he), h.anyM⟩

theorem Ok.matchGo {c : Cfg} (hc : c.Safe) {first : Bool} {sequence : KeySequence} {dev : Int} {u : Bool}
    (hne : sequence ≠ []) (hk : ∀ e ∈ sequence, CanInputKey e.key) (l : List (Nat × Context × Input))
    (hl : ∀ x ∈ l, x.2.1 ∈ c.contexts ∧ x.2.2 ∈ x.2.1.inputs) :
    ∀ {s : S}, Ok c s → Ok c (matchGo c first sequence dev u l s).1 := by
  induction l with
  | nil => exact fun h => h
  | cons x rest ih =>
    obtain ⟨ci, ctx, inp⟩ := x
    obtain ⟨hctx, hinp⟩ := hl (ci, ctx, inp) (List.mem_cons_self ..)
    have ih := fun {s : S} => ih (fun x hx => hl x (List.mem_cons_of_mem _ hx)) (s := s)
    simp only [] at hctx hinp
    intro s h
    unfold KM.matchGo
    simp only []
    split
    · exact ih h
    · next hskip =>
      have hsafe : (matchSeq inp.input (matchTarget inp.input s.history sequence)).ub = false ∧
          ∀ k ∈ (matchSeq inp.input (matchTarget inp.input s.history sequence)).any, CanInputKey k := by
        refine matchSeq_safe not_inputKey_none ((hc.contexts ctx hctx).inputs inp hinp) ?_ ?_
        · unfold matchTarget
          split
          · next hn =>
            intro h0
            rw [h0, hn] at hskip
            simp at hskip
          · exact hne
        · unfold matchTarget
          split
          · exact h.history
          · exact hk
      have htime := @matchSeq_timeout inp.input (matchTarget inp.input s.history sequence)
      generalize matchSeq inp.input (matchTarget inp.input s.history sequence) = r at *
      have h1 : Ok c { s with anyM := r.any, ub := s.ub || r.ub } :=
        ⟨by rw [hsafe.1, h.ub]; rfl, h.onRelease, h.seq, h.history, h.active, h.client, h.down, h.buf, hsafe.2⟩
      split
      · split
        · next t ht => exact h1.trackTimeout _ _ (htime ht)
        · exact h1
      · split
        · have hf := findOutput_safe hc h.active (k := ci) hctx hinp
          split
          · next heq =>
            rw [heq] at hf
            simp only [] at hf
            rw [hf]
            exact ⟨by simpa using h1.ub, h1.onRelease, h1.seq, h1.history, h1.active, h1.client, h1.down, h1.buf, h1.anyM⟩
          · next heq =>
            rw [heq] at hf
            simp only [] at hf
            rw [hf]
            exact ih ⟨by simpa using h1.ub, h1.onRelease, h1.seq, h1.history, h1.active, h1.client, h1.down, h1.buf, h1.anyM⟩
        · exact ih h1

theorem Ok.matchInput {c : Cfg} (hc : c.Safe) {s : S} (h : Ok c s) {first : Bool} {sequence : KeySequence}
    {dev : Int} {u : Bool} (hd : -2 ≤ dev ∧ dev < 64) (hne : sequence ≠ [])
    (hk : ∀ e ∈ sequence, CanInputKey e.key) : Ok c (matchInput c s first sequence dev u).1 := by
  unfold KM.matchInput
  simp only []
  refine Ok.matchGo hc hne hk _ (fun x hx => ?_) ?_
  · have := candidates_mem hx
    exact ⟨List.mem_of_getElem? this.2.1, this.2.2.2⟩
  · refine ⟨?_, h.onRelease, h.seq, h.history, h.active, h.client, h.down, h.buf, h.anyM⟩
    simp only []
    rw [h.ub, Bool.false_or, Bool.or_eq_false_iff]
    constructor
    · rw [show decide (64 ≤ dev) = false by simp; omega, show decide (dev < -2) = false by simp; omega]
      simp
    · rw [List.any_eq_false]
      intro i hi
      have := h.active i hi
      simp; omega

theorem ne_nil_of_unmatchedDown {l : KeySequence} (h : hasUnmatchedDown l = true) : l ≠ [] := by
  intro h0; subst h0; simp [hasUnmatchedDown] at h

theorem Ok.matchStart {c : Cfg} (hc : c.Safe) {dev : Int} {u : Bool} (hd : -2 ≤ dev ∧ dev < 64) (n : Nat) :
    ∀ {s : S}, Ok c s → Ok c (matchStart c dev u n s).1 := by
  induction n with
  | zero => exact fun h => h
  | succ n ih =>
    intro s h
    unfold KM.matchStart
    split
    · exact h
    · split
      · exact h
      · next hud =>
        have h1 := h.matchInput hc (first := false) (sequence := s.seq.take n) (dev := dev) (u := u) hd
          (ne_nil_of_unmatchedDown (by simpa using hud)) (fun e he => h.seq e (List.mem_of_mem_take he))
        split
        · next heq => rw [heq] at h1; exact h1
        · next heq => rw [heq] at h1; exact ih h1

theorem Ok.retryStart {c : Cfg} (hc : c.Safe) {s : S} (h : Ok c s) {r : MIR} {dev : Int} {u : Bool}
    (hd : -2 ≤ dev ∧ dev < 64) : Ok c (retryStart c s r dev u).1 := by
  unfold KM.retryStart
  split
  · split
    · have h1 := h.matchStart hc (u := u) hd s.seq.length
      split
      · next heq => rw [heq] at h1; exact h1
      · next heq => rw [heq] at h1; exact h1
    · exact h
  · exact h

theorem Ok.timeoutMatched {c : Cfg} {s : S} (h : Ok c s) {ev r b} : Ok c (timeoutMatched s ev r b).1 := by
  unfold KM.timeoutMatched
  repeat' split
  all_goals exact ⟨h.ub, h.onRelease, h.seq, h.history, h.active, h.client, h.down, h.buf, h.anyM⟩

theorem Ok.notTimeoutFailed {c : Cfg} {s : S} (h : Ok c s) {r} : Ok c (notTimeoutFailed s r) := by
  unfold KM.notTimeoutFailed
  repeat' split
  all_goals exact ⟨h.ub, h.onRelease, h.seq, h.history, h.active, h.client, h.down, h.buf, h.anyM⟩

/-- the keys of a sequence are kept when events are marked as matched -/
theorem realKey_inv : EventInv (fun e => CanInputKey e.key) where
  matched := by intro e _ h; exact h
  timeout := by intro e _ h; exact h

theorem Ok.withSeq {c : Cfg} {s : S} (h : Ok c s) {l : KeySequence} (hl : ∀ e ∈ l, CanInputKey e.key) :
    Ok c { s with seq := l } := ⟨h.ub, h.onRelease, hl, h.history, h.active, h.client, h.down, h.buf, h.anyM⟩

theorem Ok.forwardGo {c : Cfg} {s : S} (h : Ok c s) (l : KeySequence) :
    ∀ pre, (∀ e ∈ l, CanInputKey e.key) → (∀ e ∈ (KM.forwardGo s pre l).seq, CanInputKey e.key) →
      Ok c (forwardGo s pre l) := by
  induction l with
  | nil => intro pre _ _; exact h
  | cons e rest ih =>
    intro pre hl hs
    unfold KM.forwardGo at hs ⊢
    split
    · next hd =>
      have hup : Ok c (KM.updateOutput s e (.key e.key) (-1)) := by
        simp only [Bool.or_eq_true, beq_iff_eq] at hd
        rcases hd with hd | hd
        · exact h.updateOutput _ _ _ (Or.inl hd) (hl e (by simp)).output
        · rw [show KM.updateOutput s e (.key e.key) (-1) = s by unfold KM.updateOutput; rw [hd]]
          exact h
      rw [if_pos hd] at hs
      split
      · next hc' =>
        rw [if_pos hc'] at hs
        exact hup.withSeq hs
      · next hc' =>
        rw [if_neg hc'] at hs
        split
        · next hdown =>
          rw [if_pos hdown] at hs
          refine Ok.withSeq ?_ hs
          split
          · exact hup
          · exact h
        · next hdown =>
          rw [if_neg hdown] at hs
          exact ih _ (fun e he => hl e (List.mem_cons_of_mem _ he)) hs
    · next hd =>
      rw [if_neg hd] at hs
      exact (h.releaseTriggered _ _).withSeq hs

theorem Ok.applyResult {c : Cfg} (hc : c.Safe) {s : S} (h : Ok c s) {ev : KeyEvent} {r : MIR} {n : Nat} {b : Bool}
    (hr : ∀ ref out trig ctx, r = .matched ref out trig ctx → c.HasOutput out) : Ok c (applyResult s ev r n b) := by
  have hseq := realKey_inv.applyResult (s := s) (ev := ev) (r := r) (n := n) (b := b) h.seq
  unfold KM.applyResult at hseq ⊢
  split
  · next ref out input ctx =>
    have h1 := h.applyOutput out (chooseTrigger s ev out input) ctx (HasOutput.events hc (hr _ _ _ _ rfl))
    have h2 : Ok c (finishSequence (KM.applyOutput s out (chooseTrigger s ev out input) ctx) n) :=
      h1.withSeq (realKey_inv.finishGo h1.seq)
    simp only []
    split
    · exact h2
    · exact ⟨h2.ub, h2.onRelease, h2.seq, h2.history, h2.active, h2.client, h2.down, h2.buf, h2.anyM⟩
  · have h1 : Ok c (forwardFromSequence s) :=
      h.forwardGo s.seq [] h.seq (realKey_inv.forwardGo (by simp) h.seq h.seq)
    simp only []
    split
    · exact ⟨h1.ub, h1.onRelease, h1.seq, h1.history, h1.active, h1.client, h1.down, h1.buf, h1.anyM⟩
    · exact h1

theorem Ok.round {c : Cfg} (hc : c.Safe) {s : S} (h : Ok c s) {ev : KeyEvent} {dev : Int} {u : Bool}
    (hd : -2 ≤ dev ∧ dev < 64) (hn : hasNonOptional s.seq = true) : Ok c (round c ev dev u s).1 := by
  have hne : s.seq ≠ [] := by intro h0; rw [h0] at hn; simp [hasNonOptional] at hn
  unfold KM.round
  have h1 := h.matchInput hc (first := true) (u := u) hd hne h.seq
  have hm := @matchInput_hasOutput c s (KM.matchInput c s true s.seq dev u).1 true s.seq dev u
  generalize KM.matchInput c s true s.seq dev u = mi at *
  obtain ⟨s1, r⟩ := mi
  simp only [] at *
  split
  · exact h1.withSeq (realKey_inv.finishGo h1.seq)
  · split
    · exact ⟨h1.ub, h1.onRelease, h1.seq, h1.history, h1.active, h1.client, h1.down, h1.buf, h1.anyM⟩
    · have h2 := h1.retryStart hc (r := r) (u := u) hd
      have hr2 := @retryStart_hasOutput c dev u s1 (KM.retryStart c s1 r dev u).1 r
      generalize KM.retryStart c s1 r dev u = rs at *
      obtain ⟨s2, r2, n, b⟩ := rs
      simp only [] at *
      have h3 := h2.timeoutMatched (ev := ev) (r := r2) (b := b)
      have h3' := @timeoutMatched_matched s2 ev r2 b
      generalize KM.timeoutMatched s2 ev r2 b = tm at *
      obtain ⟨s3, r3⟩ := tm
      simp only [] at *
      refine h3.notTimeoutFailed.applyResult hc ?_
      intro ref out trig ctx hr
      have := h3' hr
      subst this
      exact hr2 (fun ref out trig ctx he => hm (by rw [he])) rfl

theorem Ok.mainLoop {c : Cfg} (hc : c.Safe) {s : S} (h : Ok c s) {ev : KeyEvent} {dev : Int} {u : Bool}
    (hd : -2 ≤ dev ∧ dev < 64) : Ok c (mainLoop c ev dev u s) := by
  fun_induction KM.mainLoop c ev dev u s with
  | case1 s hn hcont ih => exact ih (h.round hc hd hn)
  | case2 s hn hcont => exact h.round hc hd hn
  | case3 s hn => exact h

theorem Ok.beforeMatchUp {c : Cfg} {s : S} (h : Ok c s) {ev : KeyEvent} (hev : ∃ e ∈ s.seq, e.key = ev.key) :
    Ok c (beforeMatchUp s ev) := by
  have hseq := realKey_inv.beforeMatchUp (s := s) (ev := ev) h.seq
  unfold KM.beforeMatchUp at hseq ⊢
  split
  · next hup =>
    simp only [] at hseq ⊢
    rw [if_pos hup] at hseq
    have hpair : ∀ s1 : S, Ok c s1 → (∃ e ∈ s1.seq, e.key = ev.key) →
        Ok c (if (!s1.might) = true then match findKey s1.seq ev.key with
          | none => { s1 with ub := true }
          | some e => if (e.state == .DownMatched) = true then { s1 with seq := s1.seq.eraseP (·.key == ev.key) } else s1
          else s1) := by
      intro s1 h1 hk
      split
      · split
        · next hf =>
          obtain ⟨e, he, hk⟩ := hk
          unfold findKey at hf
          rw [List.find?_eq_none] at hf
          exact absurd (by simpa using hk) (hf e he)
        · split
          · exact h1.withSeq (fun e he => h1.seq e (List.mem_of_mem_eraseP he))
          · exact h1
      · exact h1
    split
    · refine hpair _ (h.withSeq ?_) ?_
      · intro e he
        rw [List.mem_map] at he
        obtain ⟨x, hx, rfl⟩ := he
        have := h.seq x hx
        split <;> exact this
      · obtain ⟨e, he, hk⟩ := hev
        refine ⟨_, List.mem_map_of_mem he, ?_⟩
        split <;> exact hk
    · exact hpair _ h hev
  · exact h

end KM
