import Verif.Lemmas.LayerShortcuts
/-!
# The state of virtual keys
-/
namespace KM

variable {tapped : List Key}

/-- is the key pressed -/
def isPress (v : Key) (e : KeyEvent) : Bool := e.key == v && e.state == .Down

/-- a virtual key is toggled by each press -/
def flips (v : Key) (b : Bool) (es : KeySequence) : Bool := es.foldl (fun b e => if isPress v e then !b else b) b

theorem flips_count (v : Key) (es : KeySequence) (b : Bool) : flips v b es = (b != (es.countP (isPress v) % 2 == 1)) := by
  induction es generalizing b with
  | nil => cases b <;> rfl
  | cons e es ih =>
    unfold flips at ih ⊢
    rw [List.foldl_cons, ih, List.countP_cons]
    cases isPress v e with
    | false => simp
    | true =>
      simp only [if_true]
      have : ((es.countP (isPress v) + 1) % 2 == 1) = !(es.countP (isPress v) % 2 == 1) := by
        rw [Bool.eq_iff_iff]
        simp only [beq_iff_eq, Bool.not_eq_true', beq_eq_false_iff_ne, ne_eq]
        omega
      rw [this]
      cases b <;> cases (es.countP (isPress v) % 2 == 1) <;> rfl

theorem flips_settled (v : Key) (hv : isVirtualKey v = true) (held : List Key) (on : Bool) (hon : on = true ↔ v ∈ held) (out : KeySequence) (b : Bool) :
    flips v b (settled held out) = out.foldl (fun b e => if e.key = v ∧ (e.state = .Down ∨ (e.state = .Not ∧ on = true)) then !b else b) b := by
  induction out generalizing b with
  | nil => rfl
  | cons e out ih =>
    have hs : settled held (e :: out) = (if e.state = .Not ∧ isVirtualKey e.key = true then if e.key ∈ held then [⟨e.key, .Down, 0⟩] else [] else [e]) ++ settled held out := by
      unfold settled; rw [List.flatMap_cons]
    have happ : ∀ a c : KeySequence, flips v b (a ++ c) = flips v (flips v b a) c := by
      intro a c; unfold flips; rw [List.foldl_append]
    rw [hs, happ, ih, List.foldl_cons]
    congr 1
    by_cases hk : e.key = v
    · by_cases hn : e.state = .Not
      · rw [if_pos ⟨hn, by rw [hk]; exact hv⟩]
        by_cases hh : e.key ∈ held
        · rw [if_pos hh, if_pos ⟨hk, .inr ⟨hn, hon.2 (hk ▸ hh)⟩⟩]
          simp [flips, isPress, hk]
        · rw [if_neg hh, if_neg]
          · rfl
          · rintro ⟨_, h | h⟩
            · rw [hn] at h; cases h
            · exact hh (hk ▸ hon.1 h.2)
      · rw [if_neg (fun h => hn h.1)]
        by_cases hd : e.state = .Down
        · rw [if_pos ⟨hk, .inl hd⟩]
          simp [flips, isPress, hk, hd]
        · rw [if_neg (fun h => h.2.elim hd (fun h => hn h.1))]
          simp [flips, isPress, hk, hd]
    · have hno : ¬ (e.key = v ∧ (e.state = .Down ∨ (e.state = .Not ∧ on = true))) := fun h => hk h.1
      rw [if_neg hno]
      by_cases hc : e.state = .Not ∧ isVirtualKey e.key = true
      · rw [if_pos hc]
        by_cases hh : e.key ∈ held
        · rw [if_pos hh]; simp [flips, isPress, hk]
        · rw [if_neg hh]; rfl
      · rw [if_neg hc]; simp [flips, isPress, hk]

/-! ### what is output -/

theorem isPress_key {v : Key} {e : KeyEvent} (hv : isVirtualKey v = true) (h : isVirtualKey e.key = false) : isPress v e = false := by
  unfold isPress
  have : e.key ≠ v := by intro h'; rw [h', hv] at h; cases h
  have : (e.key == v) = false := beq_eq_false_iff_ne.2 this
  rw [this]; rfl

theorem countPress_zero {v : Key} {l : KeySequence} (hv : isVirtualKey v = true) (h : ∀ e ∈ l, isVirtualKey e.key = false) : l.countP (isPress v) = 0 := by
  rw [List.countP_eq_zero]
  intro e he
  rw [isPress_key hv (h e he)]; decide

theorem eraseP_count {k v : Key} (hv : isVirtualKey v = true) (hk : isVirtualKey k = false) (l : KeySequence) :
    (l.eraseP (fun e => e.key == k)).countP (isPress v) = l.countP (isPress v) := by
  induction l with
  | nil => rfl
  | cons e l ih =>
    by_cases h : (e.key == k) = true
    · rw [List.eraseP_cons_of_pos (by simpa using h), List.countP_cons, isPress_key hv (by rw [beq_iff_eq.1 h]; exact hk)]
      simp
    · rw [List.eraseP_cons_of_neg (by simpa using h), List.countP_cons, List.countP_cons, ih]

theorem lift_count {v : Key} (s : Sink) (k : Key) : (s.lift k).sent.countP (isPress v) = s.sent.countP (isPress v) := by
  unfold Sink.lift
  split
  · simp only [List.countP_append]
    split
    · simp [isPress]
    · rfl
  · rfl

theorem lifts_count {v : Key} (l : List Key) (s : Sink) :
    (l.foldl Sink.lift s).sent.countP (isPress v) = s.sent.countP (isPress v) := by
  induction l generalizing s with
  | nil => rfl
  | cons k l ih => rw [List.foldl_cons, ih, lift_count]

theorem press_count {v : Key} (hv : isVirtualKey v = true) {s : Sink} (h : GoodSink tapped s) (cause k : Key) :
    (s.press cause k).sent.countP (isPress v) = s.sent.countP (isPress v) + if k = v then 1 else 0 := by
  obtain ⟨r1, r2⟩ := restore_good s.banned k s.holds h.holds
  have hzero := countPress_zero hv (fun e he => (r2 e he).2.2)
  have hd : ∀ st, isPress v ⟨k, st, 0⟩ = (k == v && st == .Down) := fun _ => rfl
  unfold Sink.press
  simp only []
  by_cases hu : s.undoes k = true
  · rw [if_pos hu]
    simp only []
    have hm : isVirtualKey k = false ∧ s.sent.getLast? = some ⟨k, .Up, 0⟩ := by
      unfold Sink.undoes at hu
      simp only [Bool.and_eq_true, List.contains_iff_mem, beq_iff_eq] at hu
      refine ⟨?_, hu.1.2⟩
      have hall : ∀ m ∈ usualModifiers, isVirtualKey m = false := by decide
      exact hall k hu.1.1.1
    have hne : k ≠ v := by intro h; rw [h, hv] at hm; cases hm.1
    rw [if_neg hne]
    have hsplit : s.sent = s.sent.dropLast ++ [⟨k, .Up, 0⟩] := by
      rcases List.eq_nil_or_concat s.sent with h0 | ⟨a, x, h0⟩
      · rw [h0] at hm; cases hm.2
      · rw [h0] at hm ⊢
        have := hm.2
        rw [List.concat_eq_append, List.getLast?_append] at this
        simp at this
        rw [List.concat_eq_append, List.dropLast_concat, this]
    have := congrArg (List.countP (isPress v)) hsplit
    rw [List.countP_append, List.countP_cons, List.countP_nil, hd] at this
    simp at this
    omega
  rw [if_neg hu]
  by_cases h1 : (restore s.banned k s.holds).2.2 = true
  · rw [if_pos h1]
    simp only [List.countP_append, hzero]
    have hne : k ≠ v := by
      -- a virtual key is not lifted
      intro hkv
      have : ∀ hs : List Hold, (∀ x ∈ hs, GoodHold tapped x) → (restore s.banned k hs).2.2 = false := by
        intro hs hg
        induction hs with
        | nil => rfl
        | cons x hs ih =>
          have ih := ih (fun y hy => hg y (List.mem_cons_of_mem _ hy))
          unfold restore
          by_cases hl : (x.lifted && !s.banned.contains x.key) = true
          · rw [if_pos hl]
            by_cases hk : x.key = k
            · rw [Bool.and_eq_true] at hl
              have := (hg x (by simp)).lifted (by rw [hk, hkv]; exact hv)
              rw [this] at hl
              cases hl.1
            · rw [if_neg hk]; exact ih
          · rw [if_neg hl]; exact ih
      rw [this _ h.holds] at h1
      cases h1
    rw [if_neg hne]
  · rw [if_neg h1]
    by_cases h2 : (restore s.banned k s.holds).1.any (fun h => h.key == k) = true
    · rw [if_pos h2]
      simp only [List.countP_append, hzero]
      by_cases hk : k = v
      · subst hk
        split <;> simp [isPress]
      · have : (k == v) = false := beq_eq_false_iff_ne.2 hk
        split <;> simp [isPress, this]
    · rw [if_neg h2]
      simp only [List.countP_append, hzero]
      by_cases hk : k = v
      · subst hk; simp [isPress]
      · have : (k == v) = false := beq_eq_false_iff_ne.2 hk
        simp [isPress, this, hk]

theorem put_count {v : Key} (hv : isVirtualKey v = true) {s : Sink} (h : GoodSink tapped s) {cause : Key} {e : KeyEvent} (he : GoodEvent tapped cause e) :
    (s.put cause e).sent.countP (isPress v) = s.sent.countP (isPress v) + if isPress v e then 1 else 0 := by
  rcases he.states with hd | hd | hd
  · have : s.put cause e = s.press cause e.key := by unfold Sink.put; rw [hd]
    rw [this, press_count hv h]
    unfold isPress
    rw [hd]
    simp
  · have hp : isPress v e = false := by unfold isPress; rw [hd]; simp
    have hk := he.pressed (by rw [hd]; decide)
    rw [hp]
    have : s.put cause e = s.release cause e.key := by unfold Sink.put; rw [hd]
    rw [this]
    unfold Sink.release
    cases s.holds.find? (fun h => h.key == e.key) with
    | none => rfl
    | some x =>
      simp only [hk, Bool.and_false, Bool.false_eq_true, if_false]
      have hone : isPress v ⟨e.key, .Up, 0⟩ = false := isPress_key hv hk
      split
      · simp only [withoutLast, List.countP_reverse, eraseP_count hv hk, Nat.add_zero]
      · split <;> simp [hone]
  · have hp : isPress v e = false := by unfold isPress; rw [hd]; simp
    rw [hp]
    unfold Sink.put
    rw [hd]
    simp only []
    split
    · exact lifts_count _ s
    · exact lift_count s e.key

theorem puts_count {v : Key} (hv : isVirtualKey v = true) {cause : Key} {out : KeySequence} (ho : GoodOutput tapped cause out) : ∀ {s : Sink}, GoodSink tapped s →
    (out.foldl (Sink.put cause) s).sent.countP (isPress v) = s.sent.countP (isPress v) + out.countP (isPress v) := by
  induction ho with
  | nil => intro s _; rfl
  | one he _ ih =>
    intro s h
    have h1 := put_good h he
    rw [List.foldl_cons, ih h1.good, put_count hv h he, List.countP_cons]
    omega
  | tap hw _ ih =>
    rename_i w es _
    intro s h
    rw [List.foldl_cons, List.foldl_cons, ih (tap_good h _ hw).1, tap_put h _ hw]
    obtain ⟨_, r2⟩ := restore_good s.banned w s.holds h.holds
    have hzero := countPress_zero hv (fun e he => (r2 e he).2.2)
    simp only [List.countP_append, hzero, List.countP_cons, List.countP_nil]
    omega

/-! ### the virtual keys which are on -/

section
variable {σ : Type} (step : σ → StageOp → σ × KeySequence)

/-- toggling a virtual key -/
theorem toggle_on {l : Layers σ} (hn : l.on.Nodup) (w v : Key) :
    (l.toggle step w).1.on.Nodup ∧ (v ∈ (l.toggle step w).1.on ↔ if w = v then v ∉ l.on else v ∈ l.on) := by
  unfold Layers.toggle
  simp only []
  by_cases hw : w ∈ l.on
  · rw [if_pos hw]
    refine ⟨hn.erase _, ?_⟩
    by_cases h : w = v
    · subst h; simp [hn.not_mem_erase, hw]
    · rw [if_neg h, List.mem_erase_of_ne (Ne.symm h)]
  · rw [if_neg hw]
    refine ⟨?_, ?_⟩
    · rw [List.nodup_append]
      refine ⟨hn, by simp, ?_⟩
      intro a ha b hb hab
      rw [List.mem_singleton] at hb
      subst hb; subst hab
      exact hw ha
    · by_cases h : w = v
      · subst h; simp [hw]
      · rw [if_neg h, List.mem_append, List.mem_singleton]
        exact ⟨fun h' => h'.resolve_right (Ne.symm h), .inl⟩

theorem delivered_told (v : Key) (b : Bool) (e : KeyEvent) : (delivered e).foldl (toldBy v) b = b := by
  unfold delivered
  repeat' split
  all_goals rfl

theorem delivered_told_all (v : Key) (b : Bool) (l : KeySequence) : (l.flatMap delivered).foldl (toldBy v) b = b := by
  induction l generalizing b with
  | nil => rfl
  | cons e l ih => rw [List.flatMap_cons, List.foldl_append, delivered_told, ih]

theorem toggled_told {l : Layers σ} (hn : l.on.Nodup) (w v : Key) (b : Bool) (hb : b = decide (v ∈ l.on)) :
    toldBy v b (.virtualKeyState w (l.toggled w)) = decide (v ∈ (l.toggle step w).1.on) := by
  have h2 := (toggle_on step hn w v).2
  unfold toldBy Layers.toggled
  by_cases h : w = v
  · subst h
    simp only [if_true] at h2 ⊢
    by_cases hw : w ∈ l.on
    · rw [if_pos hw]
      have : ¬ w ∈ (l.toggle step w).1.on := by rw [h2]; exact fun h => h hw
      simp [this]
    · rw [if_neg hw]
      have : w ∈ (l.toggle step w).1.on := by rw [h2]; exact hw
      simp [this]
  · rw [if_neg h] at h2
    simp only [if_neg h]
    rw [hb]
    exact decide_eq_decide.2 h2.symm

/-- an output is processed -/
theorem output_on (v : Key) (hv : isVirtualKey v = true) (es : KeySequence) : ∀ {l : Layers σ}, l.on.Nodup →
    (l.output step es).1.on.Nodup ∧ decide (v ∈ (l.output step es).1.on) = flips v (decide (v ∈ l.on)) es ∧
      (l.output step es).2.1.foldl (toldBy v) (decide (v ∈ l.on)) = decide (v ∈ (l.output step es).1.on) := by
  induction es with
  | nil => intro l hn; exact ⟨hn, rfl, rfl⟩
  | cons e es ih =>
    intro l hn
    have hf : flips v (decide (v ∈ l.on)) (e :: es) = flips v (if isPress v e then !decide (v ∈ l.on) else decide (v ∈ l.on)) es := by
      unfold flips; rw [List.foldl_cons]
    by_cases hve : isVirtualKey e.key = true
    · by_cases hd : e.state = .Down
      · rw [Layers.output_toggle step l es hve hd]
        obtain ⟨h1, h2⟩ := toggle_on step hn e.key v
        obtain ⟨h3, h4, h5⟩ := ih h1
        have hp : decide (v ∈ (l.toggle step e.key).1.on) = if isPress v e then !decide (v ∈ l.on) else decide (v ∈ l.on) := by
          unfold isPress
          rw [hd]
          by_cases h : e.key = v
          · rw [if_pos h] at h2
            rw [if_pos (by simp [h])]
            by_cases hm : v ∈ l.on
            · have : ¬ v ∈ (l.toggle step e.key).1.on := by rw [h2]; exact fun h => h hm
              simp [this, hm]
            · have : v ∈ (l.toggle step e.key).1.on := by rw [h2]; exact hm
              simp [this, hm]
          · rw [if_neg h] at h2
            rw [decide_eq_decide.2 h2, if_neg (by simp [h])]
        refine ⟨h3, ?_, ?_⟩
        · rw [hf, ← hp]; exact h4
        · simp only [List.foldl_cons]
          rw [toggled_told step hn e.key v _ rfl]
          exact h5
      · rw [Layers.output_skip step l es hve hd, hf]
        have : isPress v e = false := by unfold isPress; simp [hd]
        rw [this]
        exact ih hn
    · have hve : isVirtualKey e.key = false := by simpa using hve
      rw [Layers.output_one step l es hve, hf, isPress_key hv hve]
      obtain ⟨h3, h4, h5⟩ := ih hn
      refine ⟨h3, h4, ?_⟩
      simp only [List.foldl_append, delivered_told]
      exact h5

/-- the beginning of an operation -/
theorem begin_on (v : Key) (op : LayerOp) {l : Layers σ} (hn : l.on.Nodup) :
    (l.begin step op).1.on.Nodup ∧ (l.begin step op).2.2.foldl (toldBy v) (decide (v ∈ l.on)) = decide (v ∈ (l.begin step op).1.on) := by
  cases op with
  | keys o => exact ⟨hn, rfl⟩
  | set w st =>
    unfold Layers.begin
    simp only []
    split
    · refine ⟨(toggle_on step hn w v).1, ?_⟩
      simp only [List.foldl_cons, List.foldl_nil]
      exact toggled_told step hn w v _ rfl
    · exact ⟨hn, rfl⟩

theorem step_on (v : Key) (hv : isVirtualKey v = true) (op : LayerOp) {l : Layers σ} (hn : l.on.Nodup) :
    (l.step step op).1.on.Nodup ∧ (l.step step op).2.foldl (toldBy v) (decide (v ∈ l.on)) = decide (v ∈ (l.step step op).1.on) := by
  obtain ⟨h1, h2⟩ := begin_on step v op hn
  obtain ⟨h3, _, h5⟩ := output_on step v hv (l.begin step op).2.1 h1
  unfold Layers.step Layers.process
  simp only [List.foldl_append, delivered_told_all, h2]
  exact ⟨h3, h5⟩

/-- a client always knows which virtual keys are on -/
theorem run_on (v : Key) (hv : isVirtualKey v = true) (ops : List LayerOp) : ∀ {l : Layers σ}, l.on.Nodup →
    (l.run step ops).1.on.Nodup ∧ (l.run step ops).2.foldl (toldBy v) (decide (v ∈ l.on)) = decide (v ∈ (l.run step ops).1.on) := by
  induction ops with
  | nil => intro l hn; exact ⟨hn, rfl⟩
  | cons op ops ih =>
    intro l hn
    obtain ⟨h1, h2⟩ := step_on step v hv op hn
    obtain ⟨h3, h4⟩ := ih h1
    unfold Layers.run
    simp only [List.foldl_append, h2]
    exact ⟨h3, h4⟩

end

/-! ### the keys which are held -/

/-- what is known between the operations -/
structure OnHeld (tapped : List Key) (cs : List Context) (l : Layers Combiner) : Prop where
  layers : CombLayers tapped cs l.keys
  nodupOn : l.on.Nodup
  nodupHeld : l.keys.held.Nodup
  same : ∀ v, isVirtualKey v = true → (v ∈ l.on ↔ v ∈ l.keys.held)
  pendingHeld : ∀ p ∈ l.keys.pending, p.key ∈ l.keys.held

theorem pendingFor_key {r : Combiner} {ev : KeyEvent} {dev : Int} : ∀ p ∈ r.pendingFor ev dev, p.key = ev.key := by
  intro p hp
  unfold Combiner.pendingFor at hp
  split at hp
  · split at hp
    · rw [List.mem_singleton] at hp; rw [hp]
    · cases hp
  · cases hp

theorem pending_input (r : Combiner) (hp : ∀ p ∈ r.pending, p.key ∈ r.held) (ev : KeyEvent) (dev : Int) :
    ∀ p ∈ (r.step (.input ev dev)).1.pending, p.key ∈ (r.step (.input ev dev)).1.held := by
  obtain ⟨_, _, d3, _, d5⟩ := r.device_same ev dev
  unfold Combiner.step
  simp only []
  by_cases hd : ev.state = .Down
  · rw [if_pos hd]
    by_cases hig : r.ignores ev dev = true
    · rw [if_pos hig]; exact hp
    · rw [if_neg hig]
      intro p hpm
      have hpm : p ∈ (r.device ev dev).pending ++ (r.device ev dev).pendingFor ev dev := hpm
      show p.key ∈ (r.device ev dev).held.erase ev.key ++ [ev.key]
      rw [d3]
      rw [d5] at hpm
      rw [List.mem_append, List.mem_singleton]
      by_cases hk : p.key = ev.key
      · exact .inr hk
      · rcases List.mem_append.1 hpm with hpm | hpm
        · exact .inl ((List.mem_erase_of_ne hk).2 (hp p hpm))
        · exact absurd (pendingFor_key p hpm) hk
  · rw [if_neg hd]
    intro p hpm
    have hpm : p ∈ (r.device ev dev).pending.filter (fun p => p.key != ev.key) := hpm
    show p.key ∈ (r.device ev dev).held.erase ev.key
    rw [d3]
    rw [d5, List.mem_filter] at hpm
    exact (List.mem_erase_of_ne (by simpa using hpm.2)).2 (hp p hpm.1)

theorem held_input (r : Combiner) (hn : r.held.Nodup) (hp : ∀ p ∈ r.pending, p.key ∈ r.held) (ev : KeyEvent) (dev : Int) :
    (r.step (.input ev dev)).1.held.Nodup ∧ (∀ w, w ≠ ev.key → (w ∈ (r.step (.input ev dev)).1.held ↔ w ∈ r.held)) ∧
      (ev.key ∈ (r.step (.input ev dev)).1.held ↔ ev.state = .Down) := by
  obtain ⟨_, _, d3, _, _⟩ := r.device_same ev dev
  have herase : ∀ w, w ≠ ev.key → (w ∈ r.held.erase ev.key ↔ w ∈ r.held) := fun w hw => List.mem_erase_of_ne hw
  unfold Combiner.step
  simp only []
  by_cases hd : ev.state = .Down
  · rw [if_pos hd]
    by_cases hig : r.ignores ev dev = true
    · rw [if_pos hig]
      refine ⟨hn, fun _ _ => Iff.rfl, ?_⟩
      unfold Combiner.ignores at hig
      simp only [Bool.or_eq_true, Bool.and_eq_true, List.contains_iff_mem, List.any_eq_true, beq_iff_eq] at hig
      refine ⟨fun _ => hd, fun _ => ?_⟩
      rcases hig with ⟨p, h1, h2⟩ | hig
      · rw [← h2]; exact hp p h1
      · exact hig.1.1.1
    · rw [if_neg hig]
      show ((r.device ev dev).held.erase ev.key ++ [ev.key]).Nodup ∧ (∀ w, w ≠ ev.key → (w ∈ (r.device ev dev).held.erase ev.key ++ [ev.key] ↔ w ∈ r.held)) ∧
        (ev.key ∈ (r.device ev dev).held.erase ev.key ++ [ev.key] ↔ ev.state = .Down)
      rw [d3]
      refine ⟨?_, ?_, by simp [hd]⟩
      · rw [List.nodup_append]
        refine ⟨hn.erase _, by simp, ?_⟩
        intro a ha b hb hab
        rw [List.mem_singleton] at hb
        subst hb; subst hab
        exact hn.not_mem_erase ha
      · intro w hw
        rw [List.mem_append, List.mem_singleton, herase w hw]
        exact ⟨fun h => h.resolve_right hw, .inl⟩
  · rw [if_neg hd]
    show ((r.device ev dev).held.erase ev.key).Nodup ∧ (∀ w, w ≠ ev.key → (w ∈ (r.device ev dev).held.erase ev.key ↔ w ∈ r.held)) ∧
        (ev.key ∈ (r.device ev dev).held.erase ev.key ↔ ev.state = .Down)
    rw [d3]
    exact ⟨hn.erase _, herase, ⟨fun h => absurd h hn.not_mem_erase, fun h => absurd h hd⟩⟩

section
variable {cs : List Context} (hr : ∀ ctx ∈ cs, ctx.OnlyCombines) (hl : ∀ ctx ∈ cs, ctx.Switches tapped)
include hr hl

theorem toggle_onHeld {l : Layers Combiner} (h : OnHeld tapped cs l) {w : Key} (hw : isVirtualKey w = true) : OnHeld tapped cs (l.toggle Combiner.step w).1 := by
  obtain ⟨h1, h2, h3⟩ := held_input l.keys h.nodupHeld h.pendingHeld ⟨w, l.toggled w, 0⟩ anyDeviceIndex
  refine ⟨(combine_input hr hl h.layers _ _ (.inl hw)).1, (toggle_on Combiner.step h.nodupOn w w).1, h1, ?_, pending_input l.keys h.pendingHeld _ _⟩
  intro v hv
  rw [(toggle_on Combiner.step h.nodupOn w v).2]
  by_cases hwv : w = v
  · subst hwv
    rw [if_pos rfl]
    refine Iff.trans ?_ h3.symm
    show _ ↔ l.toggled w = .Down
    unfold Layers.toggled
    split
    · next hm => exact ⟨fun h => absurd hm h, fun h => by cases h⟩
    · next hm => exact ⟨fun _ => rfl, fun _ => hm⟩
  · rw [if_neg hwv, h.same v hv]
    exact (h2 v (Ne.symm hwv)).symm

theorem output_onHeld (es : KeySequence) : ∀ {l : Layers Combiner}, OnHeld tapped cs l → OnHeld tapped cs (l.output Combiner.step es).1 := by
  induction es with
  | nil => intro l h; exact h
  | cons e es ih =>
    intro l h
    by_cases hve : isVirtualKey e.key = true
    · by_cases hd : e.state = .Down
      · rw [Layers.output_toggle _ l es hve hd]
        exact ih (toggle_onHeld hr hl h hve)
      · rw [Layers.output_skip _ l es hve hd]; exact ih h
    · rw [Layers.output_one _ l es (by simpa using hve)]
      exact ih h

theorem begin_onHeld {l : Layers Combiner} (h : OnHeld tapped cs l) {n : Nat} {op : LayerOp} (hop : op.isShortcut n) : OnHeld tapped cs (l.begin Combiner.step op).1 := by
  cases op with
  | set v st =>
    have hv : isVirtualKey v = true := hop
    unfold Layers.begin
    simp only []
    split
    · exact toggle_onHeld hr hl h hv
    · exact h
  | keys o =>
    cases o with
    | input ev dev =>
      have hk : Ordinary ev.key := hop.1.2.1
      have hv : isVirtualKey ev.key = false := (ordinary_sendable (e := ⟨ev.key, .Down, 0⟩) hk).2.1
      obtain ⟨h1, h2, _⟩ := held_input l.keys h.nodupHeld h.pendingHeld ev dev
      refine ⟨(combine_input hr hl h.layers ev dev (.inr hk)).1, h.nodupOn, h1, ?_, pending_input l.keys h.pendingHeld _ _⟩
      intro v hvv
      have hne : v ≠ ev.key := by intro h'; rw [← h', hvv] at hv; cases hv
      exact (h.same v hvv).trans (h2 v hne).symm
    | contexts idx =>
      exact ⟨⟨h.layers.ctxs, .inr hop.2.2, h.layers.holds, fun p hp => h.layers.pending p (List.mem_filter.1 hp).1⟩, h.nodupOn, h.nodupHeld, h.same,
        fun p hp => h.pendingHeld p (List.mem_filter.1 hp).1⟩
    | devices _ _ => exact hop.1.elim
    | validate _ => exact hop.1.elim

theorem run_onHeld {n : Nat} (ops : List LayerOp) (hops : ∀ op ∈ ops, op.isShortcut n) : ∀ {l : Layers Combiner}, OnHeld tapped cs l →
    OnHeld tapped cs (l.run Combiner.step ops).1 := by
  induction ops with
  | nil => intro l h; exact h
  | cons op ops ih =>
    intro l h
    have h1 := begin_onHeld hr hl h (hops op (by simp))
    have h2 := output_onHeld hr hl (l.begin Combiner.step op).2.1 h1
    exact ih (fun o ho => hops o (List.mem_cons_of_mem _ ho)) h2

/-- a key is pressed whose mapping has an output -/
theorem press_switched {l : Layers Combiner} (h : OnHeld tapped cs l) {k : Key} (hk : Ordinary k) {dev : Int} (hkh : k ∉ l.keys.held) {out : KeySequence}
    (hm : l.keys.meaning dev k = some (.output out)) {v : Key} (hv : isVirtualKey v = true) :
    decide (v ∈ (l.step Combiner.step (.keys (.input ⟨k, .Down, 0⟩ dev))).1.on) = switchedBy v (decide (v ∈ l.on)) (onPress out) := by
  have hkv : isVirtualKey k = false := (ordinary_sendable (e := ⟨k, .Down, 0⟩) hk).2.1
  have hvk : v ≠ k := by intro h'; rw [← h', hv] at hkv; cases hkv
  obtain ⟨d1, d2, d3, d4, d5⟩ := l.keys.device_same ⟨k, .Down, 0⟩ dev
  have hig : l.keys.ignores ⟨k, .Down, 0⟩ dev = false := by
    unfold Combiner.ignores
    have : l.keys.pending.any (fun p => p.key == k) = false := by
      rw [List.any_eq_false]
      intro p hp hpk
      exact hkh (beq_iff_eq.1 hpk ▸ h.pendingHeld p hp)
    rw [this]
    simp [hkh]
  have hstep : l.keys.step (.input ⟨k, .Down, 0⟩ dev) = (l.keys.device ⟨k, .Down, 0⟩ dev).press ⟨k, .Down, 0⟩ dev := by
    simp only [Combiner.step, if_true, hig, Bool.false_eq_true, if_false]
  have hmean : (l.keys.device ⟨k, .Down, 0⟩ dev).meaning dev k = some (.output out) := by
    rw [← hm]
    unfold Combiner.meaning
    rw [d1, d3, d4]
  have hout : (l.keys.device ⟨k, .Down, 0⟩ dev).outputFor ⟨k, .Down, 0⟩ dev = settled (l.keys.held ++ [k]) (onPress out) := by
    unfold Combiner.outputFor
    rw [hmean, d3]
    simp only [List.erase_of_not_mem hkh]
  have hsent : (l.keys.step (.input ⟨k, .Down, 0⟩ dev)).2.countP (isPress v) = (settled (l.keys.held ++ [k]) (onPress out)).countP (isPress v) := by
    rw [hstep]
    unfold Combiner.press
    simp only [hout, d2]
    have hfit := meaning_fits hr hl (by unfold Combiner.meaning at hm; rw [h.layers.ctxs] at hm; exact hm) (q := onPress out) (List.takeWhile_sublist _) tapsOnly_onPress onPress_states (l.keys.held ++ [k])
    rw [puts_count hv hfit.1 ⟨h.layers.holds, by intro e he; cases he⟩]
    simp
  have hon : decide (v ∈ l.on) = true ↔ v ∈ l.keys.held ++ [k] := by
    rw [decide_eq_true_iff, h.same v hv, List.mem_append, List.mem_singleton]
    exact ⟨.inl, fun h => h.resolve_right hvk⟩
  unfold switchedBy
  rw [← flips_settled v hv (l.keys.held ++ [k]) _ hon, flips_count, ← hsent, ← flips_count]
  have h1 : (l.begin Combiner.step (.keys (.input ⟨k, .Down, 0⟩ dev))).1.on.Nodup := h.nodupOn
  exact (output_on Combiner.step v hv (l.begin Combiner.step (.keys (.input ⟨k, .Down, 0⟩ dev))).2.1 h1).2.1

omit hr hl in
/-- a key is released for which something is to be output -/
theorem release_switched {l : Layers Combiner} (h : OnHeld tapped cs l) {k : Key} {dev : Int} {p : Pending}
    (hp : l.keys.pending.find? (fun p => p.key == k) = some p) {v : Key} (hv : isVirtualKey v = true) :
    decide (v ∈ (l.step Combiner.step (.keys (.input ⟨k, .Up, 0⟩ dev))).1.on) =
      switchedBy v (decide (v ∈ l.on)) (p.out.filter (fun e => e.state != .OutputOnRelease)) := by
  obtain ⟨d1, d2, d3, d4, d5⟩ := l.keys.device_same ⟨k, .Up, 0⟩ dev
  have hstep : l.keys.step (.input ⟨k, .Up, 0⟩ dev) = (l.keys.device ⟨k, .Up, 0⟩ dev).release k := by
    unfold Combiner.step
    simp only []
    rw [if_neg (by decide)]
  have hout : (l.keys.device ⟨k, .Up, 0⟩ dev).releaseOutput k = settled l.keys.held (p.out.filter (fun e => e.state != .OutputOnRelease)) := by
    unfold Combiner.releaseOutput
    rw [d5, hp, d3]
  have hsent : (l.keys.step (.input ⟨k, .Up, 0⟩ dev)).2.countP (isPress v) =
      (settled l.keys.held (p.out.filter (fun e => e.state != .OutputOnRelease))).countP (isPress v) := by
    rw [hstep]
    unfold Combiner.release
    simp only [hout, d2]
    have hk : p.key = k := by simpa using List.find?_some hp
    have hfit := h.layers.pending p (List.mem_of_find?_eq_some hp)
    rw [hk] at hfit
    have hfit := hfit l.keys.held
    rw [List.countP_append, puts_count hv hfit.1 ⟨h.layers.holds, by intro e he; cases he⟩, List.countP_eq_zero (l := List.map _ _) |>.2]
    · simp
    · intro e he
      obtain ⟨x, _, rfl⟩ := List.mem_map.1 he
      simp [isPress]
  have hon : decide (v ∈ l.on) = true ↔ v ∈ l.keys.held := by
    rw [decide_eq_true_iff, h.same v hv]
  unfold switchedBy
  rw [← flips_settled v hv l.keys.held _ hon, flips_count, ← hsent, ← flips_count]
  have h1 : (l.begin Combiner.step (.keys (.input ⟨k, .Up, 0⟩ dev))).1.on.Nodup := h.nodupOn
  exact (output_on Combiner.step v hv (l.begin Combiner.step (.keys (.input ⟨k, .Up, 0⟩ dev))).2.1 h1).2.1

end

/-! ### a key which is held -/

/-- what is to be output at the release is kept until then -/
theorem pending_kept {r : Combiner} {k : Key} {p : Pending} (h : r.pending.find? (fun p => p.key == k) = some p) (ev : KeyEvent) (dev : Int)
    (hev : ev.key = k → ev.state = .Down) : (r.step (.input ev dev)).1.pending.find? (fun p => p.key == k) = some p := by
  obtain ⟨_, _, _, _, d5⟩ := r.device_same ev dev
  unfold Combiner.step
  simp only []
  by_cases hd : ev.state = .Down
  · rw [if_pos hd]
    by_cases hig : r.ignores ev dev = true
    · rw [if_pos hig]; exact h
    · rw [if_neg hig]
      show ((r.device ev dev).pending ++ (r.device ev dev).pendingFor ev dev).find? _ = _
      rw [d5, List.find?_append, h]
      rfl
  · rw [if_neg hd]
    show ((r.device ev dev).pending.filter (fun p => p.key != ev.key)).find? _ = _
    have hk : ev.key ≠ k := fun h' => hd (hev h')
    rw [d5, List.find?_filter, ← h]
    congr 1
    funext q
    by_cases hq : q.key = k
    · rw [hq]; simp [Ne.symm hk]
    · simp [hq]

theorem output_kept {k : Key} {p : Pending} (hk : isVirtualKey k = false) (es : KeySequence) : ∀ {l : Layers Combiner}, l.keys.pending.find? (fun p => p.key == k) = some p →
    (l.output Combiner.step es).1.keys.pending.find? (fun p => p.key == k) = some p := by
  induction es with
  | nil => intro l h; exact h
  | cons e es ih =>
    intro l h
    by_cases hve : isVirtualKey e.key = true
    · by_cases hd : e.state = .Down
      · rw [Layers.output_toggle _ l es hve hd]
        refine ih (pending_kept h _ _ ?_)
        intro h'
        have h' : e.key = k := h'
        rw [h', hk] at hve
        cases hve
      · rw [Layers.output_skip _ l es hve hd]; exact ih h
    · rw [Layers.output_one _ l es (by simpa using hve)]
      exact ih h

theorem run_kept {k : Key} {p : Pending} {n : Nat} (hk : isVirtualKey k = false) (ops : List LayerOp) (hops : ∀ op ∈ ops, op.isShortcut n ∧ op.keeps k) : ∀ {l : Layers Combiner},
    l.keys.pending.find? (fun p => p.key == k) = some p → (l.run Combiner.step ops).1.keys.pending.find? (fun p => p.key == k) = some p := by
  induction ops with
  | nil => intro l h; exact h
  | cons op ops ih =>
    intro l h
    have h1 : (l.begin Combiner.step op).1.keys.pending.find? (fun p => p.key == k) = some p := by
      obtain ⟨ho, hkeep⟩ := hops op (by simp)
      cases op with
      | set v st =>
        have hv : isVirtualKey v = true := ho
        unfold Layers.begin
        simp only []
        split
        · refine pending_kept h _ _ ?_
          intro h'
          have h' : v = k := h'
          rw [h', hk] at hv
          cases hv
        · exact h
      | keys o =>
        cases o with
        | input ev dev => exact pending_kept h ev dev hkeep
        | contexts _ => exact hkeep.elim
        | devices _ _ => exact hkeep.elim
        | validate _ => exact hkeep.elim
    exact ih (fun o ho => hops o (List.mem_cons_of_mem _ ho)) (output_kept hk (l.begin Combiner.step op).2.1 h1)

end KM
