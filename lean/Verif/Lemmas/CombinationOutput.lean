import Verif.Lemmas.CombinationMatch
import Verif.Props.OnRelease
/-!
# The outputs of combinations
-/
set_option linter.unusedSimpArgs false
namespace KM

/-- a key held in the output -/
def holdOf (o : OutputDown) : Hold := ⟨o.key, o.trigger.keyOf, o.temporarilyReleased, o.pressedTwice⟩

/-- the state of the output -/
structure SinkRel (s : S) (k : Sink) : Prop where
  down : s.down.map holdOf = k.holds
  sup : ∀ o ∈ s.down, o.suppressed = k.banned.contains o.key
  nodup : (k.holds.map (·.key)).Nodup
  held : ∀ b ∈ k.banned, b ∈ k.holds.map (·.key)
  buf : s.buf = k.sent
  reapplied : s.reapplied = k.restored

private theorem changeHold_none {k : Key} {f : Hold → Hold} {hs : List Hold} (h : k ∉ hs.map (·.key)) : changeHold k f hs = hs := by
  unfold changeHold
  conv => rhs; rw [← List.map_id hs]
  apply List.map_congr_left
  intro x hx
  rw [if_neg]
  · rfl
  · intro e; exact h (List.mem_map.2 ⟨x, hx, e⟩)

/-- what is undone, when the buffer is `b` -/
private def undoHere (banned : List Key) (k : Key) (b : KeySequence) (hs : List Hold) : Bool :=
  usualModifiers.contains k && banned.contains k && b.getLast? == some ⟨k, .Up, 0⟩ &&
    (hs.find? (fun h => h.key == k || (h.lifted && !banned.contains h.key))).any (fun h => h.key == k && h.lifted)

private theorem usual_common (k : Key) : usualModifiers.contains k = isCommonModifier k := by
  rw [Bool.eq_iff_iff]
  unfold usualModifiers isCommonModifier
  simp only [List.contains_iff_mem, List.mem_cons, List.not_mem_nil, or_false, Bool.or_eq_true, beq_iff_eq, or_assoc]

private theorem reapply_undo (banned : List Key) (k : Key) (d : List OutputDown) (b : KeySequence) (r : Bool)
    (hn : (d.map (·.key)).Nodup) (hs : ∀ o ∈ d, o.suppressed = banned.contains o.key) (hu : undoHere banned k b (d.map holdOf) = true) :
    ∃ D, reapplyLoop k d b r = (D, b.dropLast, r, true) ∧ D.map holdOf = changeHold k (fun h => { h with lifted := false }) (d.map holdOf) ∧
      (∀ o ∈ D, o.suppressed = banned.contains o.key) ∧ D.map (·.key) = d.map (·.key) := by
  induction d with
  | nil => simp [undoHere] at hu
  | cons o d ih =>
    have ho := hs o (by simp)
    have hs' : ∀ o ∈ d, o.suppressed = banned.contains o.key := fun o h => hs o (by simp [h])
    rw [List.map_cons, List.nodup_cons] at hn
    have hu0 := hu
    unfold undoHere at hu
    simp only [Bool.and_eq_true] at hu
    obtain ⟨⟨⟨h1, h2⟩, h3⟩, h4⟩ := hu
    rw [List.map_cons, List.find?_cons] at h4
    unfold reapplyLoop
    by_cases hk : o.key = k
    · have hp : ((holdOf o).key == k || ((holdOf o).lifted && !banned.contains (holdOf o).key)) = true := by
        have : ((holdOf o).key == k) = true := by simpa [holdOf] using hk
        rw [this]; rfl
      rw [hp] at h4
      have hl : o.temporarilyReleased = true := by
        simp only [Option.any_some, Bool.and_eq_true] at h4
        exact h4.2
      have hb : o.suppressed = true := by rw [ho, hk]; exact h2
      have hc : isCommonModifier k = true := by rw [← usual_common]; exact h1
      have hkk : (o.key == k) = true := by simpa using hk
      simp only [hl, hb, hkk, hc, h3, Bool.not_true, Bool.and_false, Bool.false_eq_true, if_false, Bool.and_self, if_true]
      refine ⟨_, rfl, ?_, ?_, rfl⟩
      · have hk' : k ∉ (d.map holdOf).map (·.key) := by
          rw [List.map_map]; rw [← hk]; exact hn.1
        rw [List.map_cons, List.map_cons]
        unfold changeHold
        rw [List.map_cons, if_pos (show (holdOf o).key = k from hk)]
        have := changeHold_none (f := fun h => { h with lifted := false }) hk'
        unfold changeHold at this
        rw [this]; rfl
      · intro o' h
        simp only [List.mem_cons] at h
        rcases h with h | h
        · subst h; exact hb ▸ ho
        · exact hs' o' h
    · have hkk : ((holdOf o).key == k) = false := beq_eq_false_iff_ne.2 hk
      rw [hkk, Bool.false_or] at h4
      cases hp : ((holdOf o).lifted && !banned.contains (holdOf o).key) with
      | true =>
        rw [hp] at h4
        simp only [Option.any_some, hkk, Bool.false_and, Bool.false_eq_true] at h4
      | false =>
        rw [hp] at h4
        have hu' : undoHere banned k b (d.map holdOf) = true := by
          unfold undoHere
          rw [h1, h2, h3]
          exact h4
        have hp' : (o.temporarilyReleased && !o.suppressed) = false := by rw [ho]; exact hp
        have hkk' : (o.key == k) = false := beq_eq_false_iff_ne.2 hk
        obtain ⟨D, e1, e2, e3, e4⟩ := ih hn.2 hs' hu'
        simp only [hp', hkk', Bool.and_false, Bool.false_and, Bool.false_eq_true, if_false, e1]
        refine ⟨o :: D, rfl, ?_, ?_, ?_⟩
        · rw [List.map_cons, e2]
          unfold changeHold
          rw [List.map_cons, List.map_cons, if_neg (show ¬ (holdOf o).key = k from hk)]
        · intro o' h
          simp only [List.mem_cons] at h
          rcases h with h | h
          · subst h; exact ho
          · exact e3 o' h
        · rw [List.map_cons, List.map_cons, e4]

private theorem reapply_spec (banned : List Key) (k : Key) (d : List OutputDown) (b : KeySequence) (r : Bool)
    (hn : (d.map (·.key)).Nodup) (hs : ∀ o ∈ d, o.suppressed = banned.contains o.key) (hu : undoHere banned k b (d.map holdOf) = false) :
    ∃ D, reapplyLoop k d b r = (D, b ++ (restore banned k (d.map holdOf)).2.1, r || !(restore banned k (d.map holdOf)).2.1.isEmpty,
        (restore banned k (d.map holdOf)).2.2) ∧
      D.map holdOf = (restore banned k (d.map holdOf)).1 ∧ (∀ o ∈ D, o.suppressed = banned.contains o.key) ∧
      D.map (·.key) = d.map (·.key) := by
  induction d generalizing b r with
  | nil => exact ⟨[], by simp [reapplyLoop, restore], rfl, by simp, rfl⟩
  | cons o d ih =>
    have ho := hs o (by simp)
    have hs' : ∀ o ∈ d, o.suppressed = banned.contains o.key := fun o h => hs o (by simp [h])
    rw [List.map_cons, List.nodup_cons] at hn
    rw [List.map_cons] at hu ⊢
    unfold reapplyLoop restore
    simp only [ho, show (holdOf o).lifted = o.temporarilyReleased from rfl, show (holdOf o).key = o.key from rfl]
    by_cases h1 : (o.temporarilyReleased && !banned.contains o.key) = true
    · rw [if_pos h1, if_pos h1]
      by_cases h2 : o.key = k
      · rw [if_pos (by simpa using h2), if_pos h2]
        refine ⟨{ o with temporarilyReleased := false } :: d, ?_, rfl, ?_, rfl⟩
        · simp [h2, ho]
        · intro o' h
          simp only [List.mem_cons] at h
          rcases h with h | h
          · subst h; exact ho
          · exact hs' o' h
      · rw [if_neg (by simpa using h2), if_neg h2]
        obtain ⟨D, e1, e2, e3, e4⟩ := ih (b ++ [⟨o.key, .Down, 0⟩]) true hn.2 hs' (by
          unfold undoHere
          simp)
        refine ⟨{ o with temporarilyReleased := false } :: D, ?_, ?_, ?_, ?_⟩
        · rw [e1]; simp [ho]
        · rw [List.map_cons, e2]; rfl
        · intro o' h
          simp only [List.mem_cons] at h
          rcases h with h | h
          · subst h; exact ho
          · exact e3 o' h
        · rw [List.map_cons, List.map_cons, e4]
    · rw [if_neg h1, if_neg h1]
      have h1' : (o.temporarilyReleased && !banned.contains o.key) = false := by simpa using h1
      have h2 : (o.temporarilyReleased && o.key == k && isCommonModifier k && b.getLast? == some ⟨k, .Up, 0⟩) = false ∧
          undoHere banned k b (d.map holdOf) = false := by
        unfold undoHere at hu ⊢
        rw [List.find?_cons] at hu
        rw [usual_common] at hu ⊢
        by_cases hk : o.key = k
        · have hp : ((holdOf o).key == k) = true := by simpa [holdOf] using hk
          simp only [hp, Bool.true_or, Option.any_some, Bool.true_and] at hu
          have hkk : (o.key == k) = true := by simpa using hk
          refine ⟨?_, ?_⟩
          · cases ht : o.temporarilyReleased with
            | false => simp
            | true =>
              rw [ht, hk] at h1'
              have hb : banned.contains k = true := by simpa using h1'
              have hl : (holdOf o).lifted = true := ht
              rw [hb, hl, Bool.and_true, Bool.and_true] at hu
              rw [hkk, Bool.and_self, Bool.true_and]
              exact hu
          · have : ((d.map holdOf).find? (fun h => h.key == k || (h.lifted && !banned.contains h.key))).any (fun h => h.key == k && h.lifted) = false := by
              rw [Option.any_eq_false]
              intro x hx
              obtain ⟨y, hy1, hy2⟩ := List.mem_map.1 (List.mem_of_find?_eq_some hx)
              have : x.key ≠ k := by
                intro h
                apply hn.1
                rw [hk, ← h, ← hy2]
                exact List.mem_map.2 ⟨y, hy1, rfl⟩
              simp [this]
            rw [this, Bool.and_false]
        · have hp : ((holdOf o).key == k) = false := beq_eq_false_iff_ne.2 hk
          have hp' : (o.key == k) = false := beq_eq_false_iff_ne.2 hk
          have hq : ((holdOf o).lifted && !banned.contains (holdOf o).key) = false := h1'
          rw [hp, hq] at hu
          refine ⟨by rw [hp']; simp, hu⟩
      rw [if_neg (by rw [h2.1]; simp)]
      obtain ⟨D, e1, e2, e3, e4⟩ := ih b r hn.2 hs' h2.2
      refine ⟨o :: D, ?_, ?_, ?_, ?_⟩
      · rw [e1]
      · rw [List.map_cons, e2]
      · intro o' h
        simp only [List.mem_cons] at h
        rcases h with h | h
        · subst h; exact ho
        · exact e3 o' h
      · rw [List.map_cons, List.map_cons, e4]

private theorem restore_keys (banned : List Key) (k : Key) (hs : List Hold) : (restore banned k hs).1.map (·.key) = hs.map (·.key) := by
  induction hs with
  | nil => rfl
  | cons h hs ih =>
    unfold restore
    split
    · split
      · rfl
      · simp only [List.map_cons, ih]
    · simp only [List.map_cons, ih]

private theorem changeHold_keys (k : Key) (f : Hold → Hold) (hf : ∀ h, (f h).key = h.key) (hs : List Hold) :
    (changeHold k f hs).map (·.key) = hs.map (·.key) := by
  unfold changeHold
  rw [List.map_map]
  apply List.map_congr_left
  intro h _
  simp only [Function.comp]
  split
  · exact hf h
  · rfl

private theorem modFirst_hold (k : Key) (f : OutputDown → OutputDown) (g : Hold → Hold) (hfg : ∀ o, holdOf (f o) = g (holdOf o)) (d : List OutputDown)
    (hn : (d.map (·.key)).Nodup) : (modFirst (·.key == k) f d).map holdOf = changeHold k g (d.map holdOf) := by
  induction d with
  | nil => rfl
  | cons o d ih =>
    rw [List.map_cons, List.nodup_cons] at hn
    unfold modFirst
    by_cases h : o.key = k
    · rw [if_pos (by simpa using h), List.map_cons, hfg]
      have hk : k ∉ (d.map holdOf).map (·.key) := by
        rw [List.map_map]; rw [← h]; exact hn.1
      show g (holdOf o) :: d.map holdOf = changeHold k g (holdOf o :: d.map holdOf)
      have : changeHold k g (holdOf o :: d.map holdOf) = g (holdOf o) :: changeHold k g (d.map holdOf) := by
        unfold changeHold
        rw [List.map_cons, if_pos (show (holdOf o).key = k from h)]
      rw [this, changeHold_none hk]
    · rw [if_neg (by simpa using h), List.map_cons, ih hn.2]
      show _ = changeHold k g (holdOf o :: d.map holdOf)
      unfold changeHold
      rw [List.map_cons, if_neg (show ¬ (holdOf o).key = k from h)]

private theorem modFirst_mem {p : OutputDown → Bool} {f : OutputDown → OutputDown} {d : List OutputDown} {x : OutputDown}
    (h : x ∈ modFirst p f d) : (∃ o ∈ d, p o = true ∧ x = f o) ∨ x ∈ d := by
  induction d with
  | nil => simp [modFirst] at h
  | cons o d ih =>
    unfold modFirst at h
    split at h
    · next hp =>
      simp only [List.mem_cons] at h
      rcases h with h | h
      · exact Or.inl ⟨o, by simp, hp, h⟩
      · exact Or.inr (by simp [h])
    · simp only [List.mem_cons] at h
      rcases h with h | h
      · exact Or.inr (by simp [h])
      · rcases ih h with ⟨o', h1, h2⟩ | h1
        · exact Or.inl ⟨o', by simp [h1], h2⟩
        · exact Or.inr (by simp [h1])

private theorem find_hold (k : Key) (d : List OutputDown) :
    (d.map holdOf).find? (fun h => h.key == k) = (d.find? (·.key == k)).map holdOf := by
  rw [List.find?_map]; rfl

private theorem holds_keys {s : S} {k : Sink} (h : s.down.map holdOf = k.holds) : s.down.map (·.key) = k.holds.map (·.key) := by
  rw [← h, List.map_map]; rfl

/-- an event which can be output now -/
structure Puttable (e : KeyEvent) : Prop where
  state : e.state = .Down ∨ e.state = .Up ∨ e.state = .Not
  value : e.value = 0
  any : e.key ≠ Key.any
  timeout : e.key ≠ Key.timeout

private theorem put_down {s : S} {k : Sink} (h : SinkRel s k) {e : KeyEvent} (he : Puttable e) (hd : e.state = .Down) (trig : Trigger) (ctx : Int) :
    ∃ D B R, updateOutputDown s e trig ctx = { s with down := D, buf := B, reapplied := R } ∧
      SinkRel { s with down := D, buf := B, reapplied := R } (k.press trig.keyOf e.key) := by
  have hev : e = ⟨e.key, .Down, 0⟩ := by cases e; simp only at hd; subst hd; have := he.value; simp only at this; subst this; rfl
  have hsn : (s.down.map (·.key)).Nodup := by rw [holds_keys h.down]; exact h.nodup
  have hundo : undoHere k.banned e.key s.buf (s.down.map holdOf) = k.undoes e.key := by
    rw [h.down, h.buf]; rfl
  by_cases hu : k.undoes e.key = true
  · obtain ⟨D, e1, e2, e3, e4⟩ := reapply_undo k.banned e.key s.down s.buf s.reapplied hsn h.sup (hundo.trans hu)
    unfold updateOutputDown Sink.press
    rw [e1]
    simp only [hu, if_true]
    refine ⟨_, _, _, rfl, ?_⟩
    have hkeys : (changeHold e.key (fun h => { h with lifted := false }) k.holds).map (·.key) = k.holds.map (·.key) :=
      changeHold_keys _ (fun h => { h with lifted := false }) (fun _ => rfl) _
    exact { down := by rw [e2, h.down], sup := e3, nodup := by rw [hkeys]; exact h.nodup, held := by rw [hkeys]; exact h.held
            buf := by simp only [h.buf], reapplied := h.reapplied }
  have hu : k.undoes e.key = false := by simpa using hu
  obtain ⟨D, e1, e2, e3, e4⟩ := reapply_spec k.banned e.key s.down s.buf s.reapplied hsn h.sup (hundo.trans hu)
  rw [h.down] at e1 e2
  have hnd : ((restore k.banned e.key k.holds).1.map (·.key)).Nodup := by rw [restore_keys]; exact h.nodup
  have hDn : (D.map (·.key)).Nodup := by rw [e4, holds_keys h.down]; exact h.nodup
  have hkeys : (restore k.banned e.key k.holds).1.map (·.key) = k.holds.map (·.key) := restore_keys _ _ _
  unfold updateOutputDown Sink.press
  rw [e1]
  simp only [hu, Bool.false_eq_true, if_false]
  have hre : (s.reapplied || !(restore k.banned e.key k.holds).2.1.isEmpty) = (k.restored || !(restore k.banned e.key k.holds).2.1.isEmpty) := by
    rw [h.reapplied]
  cases hret : (restore k.banned e.key k.holds).2.2 with
  | true =>
    simp only [if_true]
    refine ⟨_, _, _, rfl, ?_⟩
    exact { down := e2, sup := e3, nodup := hnd, held := by rw [hkeys]; exact h.held, buf := by simp only [h.buf], reapplied := hre }
  | false =>
    simp only [Bool.false_eq_true, if_false]
    have hany : ((restore k.banned e.key k.holds).1.any (fun h => h.key == e.key)) = !(D.find? (·.key == e.key)).isNone := by
      rw [← e2, List.any_map, Bool.eq_iff_iff]
      simp [holdOf]
    rw [hany]
    have ht' : (e.key != Key.timeout) = true := by simpa using he.timeout
    cases hf : (D.find? (·.key == e.key)).isNone with
    | true =>
      simp only [if_true, Bool.not_true, Bool.false_eq_true, if_false, ht']
      refine ⟨_, _, _, rfl, ?_⟩
      have hnot : e.key ∉ D.map (·.key) := by
        intro hm
        obtain ⟨o, h1, h2⟩ := List.mem_map.1 hm
        have hf' : D.find? (·.key == e.key) = none := by simpa using hf
        rw [List.find?_eq_none] at hf'
        exact hf' o h1 (by simpa using h2)
      exact {
        down := by simp only [List.map_append, e2]; rfl
        sup := by
          intro o ho
          simp only [List.mem_append, List.mem_singleton] at ho
          rcases ho with ho | ho
          · exact e3 o ho
          · subst ho
            have : k.banned.contains e.key = false := by
              rw [List.contains_eq_mem, decide_eq_false_iff_not]
              intro hb
              apply hnot
              rw [e4, holds_keys h.down]
              exact h.held _ hb
            simp only [this]
        nodup := by
          simp only [List.map_append, List.map_cons, List.map_nil]
          rw [List.nodup_append]
          refine ⟨hnd, by simp, ?_⟩
          intro a ha b hb hab
          simp only [List.mem_singleton] at hb
          subst hb; subst hab
          apply hnot
          rw [restore_keys] at ha
          rw [e4, holds_keys h.down]; exact ha
        held := by
          intro b hb
          simp only [List.map_append, hkeys]
          exact List.mem_append_left _ (h.held b hb)
        buf := by rw [hev]; simp only [h.buf]
        reapplied := hre }
    | false =>
      simp only [Bool.not_false, if_true, Bool.false_eq_true, if_false]
      refine ⟨_, _, _, rfl, ?_⟩
      exact {
        down := by
          simp only [hre]
          rw [modFirst_hold e.key _ (fun h => { h with lifted := false, twice := !(k.restored || !(restore k.banned e.key k.holds).2.1.isEmpty) })
            (by intro o; rfl) D hDn, e2]
        sup := by
          intro o ho
          rcases modFirst_mem ho with ⟨o', h1, h2, h3⟩ | h1
          · subst h3; exact e3 o' h1
          · exact e3 o h1
        nodup := by
          simp only []
          rw [changeHold_keys]
          · exact hnd
          · intro h; rfl
        held := by
          simp only []
          rw [changeHold_keys]
          · rw [hkeys]; exact h.held
          · intro h; rfl
        buf := by
          simp only [hre]
          rw [hev]
          split <;> simp only [h.buf, List.append_assoc]
        reapplied := hre }

private theorem eraseP_hold (k : Key) (d : List OutputDown) (hn : (d.map (·.key)).Nodup) :
    (d.eraseP (·.key == k)).map holdOf = (d.map holdOf).filter (fun h => h.key != k) := by
  induction d with
  | nil => rfl
  | cons o d ih =>
    rw [List.map_cons, List.nodup_cons] at hn
    by_cases h : o.key = k
    · rw [List.eraseP_cons_of_pos (by simpa using h), List.map_cons, List.filter_cons_of_neg (by simp [holdOf, h])]
      symm
      rw [List.filter_eq_self]
      intro x hx
      obtain ⟨o', h1, h2⟩ := List.mem_map.1 hx
      subst h2
      simp only [holdOf, bne_iff_ne, ne_eq]
      intro h'
      exact hn.1 (List.mem_map.2 ⟨o', h1, h'.trans h.symm⟩)
    · rw [List.eraseP_cons_of_neg (by simpa using h), List.map_cons, List.map_cons, List.filter_cons_of_pos (by simpa [holdOf] using h), ih hn.2]

private theorem put_up {s : S} {k : Sink} (h : SinkRel s k) {e : KeyEvent} (he : Puttable e) (hd : e.state = .Up) (trig : Trigger) :
    ∃ D B, updateOutputUp s e trig = { s with down := D, buf := B } ∧ SinkRel { s with down := D, buf := B } (k.release trig.keyOf e.key) := by
  have hev : e = ⟨e.key, .Up, 0⟩ := by cases e; simp only at hd; subst hd; have := he.value; simp only at this; subst this; rfl
  have hDn : (s.down.map (·.key)).Nodup := by rw [holds_keys h.down]; exact h.nodup
  unfold updateOutputUp Sink.release
  rw [← h.down, find_hold]
  cases hf : s.down.find? (·.key == e.key) with
  | none => exact ⟨s.down, s.buf, rfl, h⟩
  | some o =>
    have hmem := List.mem_of_find?_eq_some hf
    have hok : o.key = e.key := by have := List.find?_some hf; simpa using this
    have hsup : o.suppressed = k.banned.contains e.key := by rw [h.sup o hmem, hok]
    simp only [Option.map_some, hsup, show (holdOf o).twice = o.pressedTwice from rfl, show (holdOf o).cause = o.trigger.keyOf from rfl]
    by_cases hv : (o.pressedTwice && isVirtualKey e.key) = true
    · rw [if_pos hv, if_pos hv]
      refine ⟨_, _, rfl, ?_⟩
      exact {
        down := modFirst_hold e.key _ _ (by intro o; rfl) s.down hDn
        sup := by
          intro o ho
          rcases modFirst_mem ho with ⟨o', h1, h2, h3⟩ | h1
          · subst h3; exact h.sup o' h1
          · exact h.sup o h1
        nodup := by
          simp only []
          rw [changeHold_keys _ _ (by intro h; rfl), h.down]
          exact h.nodup
        held := by
          simp only []
          rw [changeHold_keys _ _ (by intro h; rfl), h.down]
          exact h.held
        buf := by rw [hev]; simp only [h.buf]
        reapplied := h.reapplied }
    rw [if_neg hv, if_neg hv]
    cases htw : (o.pressedTwice && !k.banned.contains e.key) with
    | true =>
      simp only [if_true]
      refine ⟨_, _, rfl, ?_⟩
      exact {
        down := modFirst_hold e.key _ _ (by intro o; rfl) s.down hDn
        sup := by
          intro o ho
          rcases modFirst_mem ho with ⟨o', h1, h2, h3⟩ | h1
          · subst h3; exact h.sup o' h1
          · exact h.sup o h1
        nodup := by
          simp only []
          rw [changeHold_keys _ _ (by intro h; rfl), h.down]
          exact h.nodup
        held := by
          simp only []
          rw [changeHold_keys _ _ (by intro h; rfl), h.down]
          exact h.held
        buf := by simp only [h.buf]; rfl
        reapplied := h.reapplied }
    | false =>
      simp only [Bool.false_eq_true, if_false]
      by_cases hc : o.trigger.keyOf = trig.keyOf
      · rw [if_pos (by simpa using hc), if_pos hc]
        refine ⟨_, _, rfl, ?_⟩
        exact {
          down := eraseP_hold e.key s.down hDn
          sup := by
            intro o ho
            have hm' : holdOf o ∈ (s.down.eraseP (·.key == e.key)).map holdOf := List.mem_map.2 ⟨o, ho, rfl⟩
            rw [eraseP_hold e.key s.down hDn, List.mem_filter] at hm'
            have hne : (o.key != e.key) = true := hm'.2
            have h2 := h.sup o (List.mem_of_mem_eraseP ho)
            rw [h2, Bool.eq_iff_iff]
            simp only [List.contains_iff_mem, List.mem_filter, hne, and_true]
          held := by
            intro b hb
            rw [List.mem_filter] at hb
            obtain ⟨x, hx1, hx2⟩ := List.mem_map.1 (h.held b hb.1)
            refine List.mem_map.2 ⟨x, ?_, hx2⟩
            simp only [h.down]
            rw [List.mem_filter]
            exact ⟨hx1, by rw [hx2]; exact hb.2⟩
          nodup := by
            simp only [h.down]
            exact (h.nodup.sublist (List.Sublist.map _ List.filter_sublist))
          buf := by rw [hev]; simp only [h.buf]
          reapplied := h.reapplied }
      · rw [if_neg (by simpa using hc), if_neg hc]
        refine ⟨_, _, rfl, ?_⟩
        exact {
          down := modFirst_hold e.key _ _ (by intro o; rfl) s.down hDn
          sup := by
            intro o ho
            rcases modFirst_mem ho with ⟨o', h1, h2, h3⟩ | h1
            · subst h3; exact h.sup o' h1
            · exact h.sup o h1
          nodup := by
            simp only []
            rw [changeHold_keys _ _ (by intro h; rfl), h.down]
            exact h.nodup
          held := by
            simp only []
            rw [changeHold_keys _ _ (by intro h; rfl), h.down]
            exact h.held
          buf := by rw [hev]; simp only [h.buf]
          reapplied := h.reapplied }

private theorem modFirst_keep {k : Key} {f : OutputDown → OutputDown} {d : List OutputDown} (hn : (d.map (·.key)).Nodup)
    {x : OutputDown} (h : x ∈ modFirst (·.key == k) f d) : (∃ o ∈ d, o.key = k ∧ x = f o) ∨ (x ∈ d ∧ x.key ≠ k) := by
  induction d with
  | nil => simp [modFirst] at h
  | cons o d ih =>
    rw [List.map_cons, List.nodup_cons] at hn
    unfold modFirst at h
    split at h
    · next hp =>
      have hp : o.key = k := by simpa using hp
      simp only [List.mem_cons] at h
      rcases h with h | h
      · exact Or.inl ⟨o, by simp, hp, h⟩
      · refine Or.inr ⟨by simp [h], ?_⟩
        intro hx
        exact hn.1 (List.mem_map.2 ⟨x, h, hx.trans hp.symm⟩)
    · next hp =>
      have hp : o.key ≠ k := by simpa using hp
      simp only [List.mem_cons] at h
      rcases h with h | h
      · subst h; exact Or.inr ⟨by simp, hp⟩
      · rcases ih hn.2 h with ⟨o', h1, h2⟩ | ⟨h1, h2⟩
        · exact Or.inl ⟨o', by simp [h1], h2⟩
        · exact Or.inr ⟨by simp [h1], h2⟩

private theorem put_not {s : S} {k : Sink} (h : SinkRel s k) {e : KeyEvent} :
    ∃ D B, updateOutputNot s e = { s with down := D, buf := B } ∧ SinkRel { s with down := D, buf := B } (k.lift e.key) := by
  have hDn : (s.down.map (·.key)).Nodup := by rw [holds_keys h.down]; exact h.nodup
  unfold updateOutputNot Sink.lift
  have hcontains : ∀ o : OutputDown, (k.banned ++ [e.key]).contains o.key = (k.banned.contains o.key || o.key == e.key) := by
    intro o; rw [Bool.eq_iff_iff]; simp
  cases hf : s.down.find? (·.key == e.key) with
  | none =>
    have : k.holds.any (fun h => h.key == e.key) = false := by
      rw [List.any_eq_false, ← h.down]
      intro x hx
      obtain ⟨o, h1, h2⟩ := List.mem_map.1 hx
      rw [List.find?_eq_none] at hf
      rw [← h2]
      exact hf o h1
    rw [this]
    exact ⟨s.down, s.buf, rfl, h⟩
  | some o =>
    have hmem := List.mem_of_find?_eq_some hf
    have hok : o.key = e.key := by have := List.find?_some hf; simpa using this
    have hheld : k.holds.any (fun h => h.key == e.key) = true := by
      rw [List.any_eq_true, ← h.down]
      exact ⟨holdOf o, List.mem_map.2 ⟨o, hmem, rfl⟩, by simpa [holdOf] using hok⟩
    rw [hheld]
    simp only []
    by_cases hva : (isVirtualKey e.key || isActionKey e.key) = true
    · have : (true && !isVirtualKey e.key && !isActionKey e.key) = false := by
        simp only [Bool.or_eq_true] at hva
        rcases hva with hva | hva <;> rw [hva] <;> simp
      rw [if_pos hva, this]
      exact ⟨s.down, s.buf, rfl, h⟩
    have : (true && !isVirtualKey e.key && !isActionKey e.key) = true := by
      simpa using hva
    rw [if_neg hva, this]
    simp only [if_true]
    refine ⟨_, _, rfl, ?_⟩
    exact {
      down := by rw [← h.down]; exact modFirst_hold e.key _ _ (by intro o; rfl) s.down hDn
      sup := by
        intro o' ho
        simp only [hcontains]
        rcases modFirst_keep hDn ho with ⟨o2, h1, h2, h3⟩ | ⟨h1, h2⟩
        · subst h3
          simp [h2]
        · have : (o'.key == e.key) = false := beq_eq_false_iff_ne.2 h2
          rw [this, Bool.or_false]
          exact h.sup o' h1
      nodup := by
        simp only []
        rw [changeHold_keys _ _ (by intro h; rfl)]
        exact h.nodup
      held := by
        simp only []
        rw [changeHold_keys _ _ (by intro h; rfl)]
        intro b hb
        simp only [List.mem_append, List.mem_singleton] at hb
        rcases hb with hb | hb
        · exact h.held b hb
        · rw [hb, ← holds_keys h.down]; exact List.mem_map.2 ⟨o, hmem, hok⟩
      buf := by
        have : k.holds.any (fun h => h.key == e.key && !h.lifted) = !o.temporarilyReleased := by
          rw [← h.down, List.any_map]
          cases ht : o.temporarilyReleased with
          | false =>
            simp only [Bool.not_false, List.any_eq_true]
            exact ⟨o, hmem, by simp [holdOf, hok, ht]⟩
          | true =>
            rw [Bool.not_true, List.any_eq_false]
            intro x hx
            simp only [Function.comp, holdOf, Bool.and_eq_true, beq_iff_eq, Bool.not_eq_true', not_and, Bool.not_eq_false]
            intro hxk
            have : x = o := by
              have hp : s.down.Pairwise (fun a b => a.key ≠ b.key) := by
                unfold List.Nodup at hDn
                rwa [List.pairwise_map] at hDn
              clear hf h
              generalize s.down = d at *
              induction d with
              | nil => simp at hx
              | cons y d ih =>
                rw [List.pairwise_cons] at hp
                rw [List.map_cons, List.nodup_cons] at hDn
                simp only [List.mem_cons] at hx hmem
                rcases hx with hx | hx <;> rcases hmem with hm | hm
                · rw [hx, hm]
                · subst hx; exact absurd (hxk.trans hok.symm) (hp.1 o hm)
                · subst hm; exact absurd (hok.trans hxk.symm) (hp.1 x hx)
                · exact ih hDn.2 hm hx hp.2
            rw [this]; exact ht
        simp only [this]
        cases o.temporarilyReleased <;> simp [h.buf]
      reapplied := h.reapplied }

/-- an event is output -/
theorem updateOutput_put {s : S} {k : Sink} (h : SinkRel s k) {e : KeyEvent} (he : Puttable e) (trig : Trigger) (ctx : Int) :
    ∃ D B R, updateOutput s e trig ctx = { s with down := D, buf := B, reapplied := R } ∧
      SinkRel { s with down := D, buf := B, reapplied := R } (k.put trig.keyOf e) := by
  unfold updateOutput Sink.put
  rcases he.state with hd | hd | hd
  · rw [hd]
    exact put_down h he hd trig ctx
  · rw [hd]
    obtain ⟨D, B, h1, h2⟩ := put_up h he hd trig
    exact ⟨D, B, s.reapplied, h1, h2⟩
  · rw [hd]
    simp only []
    rw [if_neg he.any]
    obtain ⟨D, B, h1, h2⟩ := put_not h (e := e)
    exact ⟨D, B, s.reapplied, h1, h2⟩

/-- all keys are lifted -/
private theorem liftAll_put (l : List OutputDown) (trig : Trigger) (ctx : Int) {s : S} {k : Sink} (h : SinkRel s k) :
    ∃ D B, l.foldl (fun s o => updateOutput s ⟨o.key, .Not, 0⟩ trig ctx) s = { s with down := D, buf := B } ∧
      SinkRel { s with down := D, buf := B } ((l.map (·.key)).foldl Sink.lift k) := by
  induction l generalizing s k with
  | nil => exact ⟨s.down, s.buf, rfl, h⟩
  | cons o l ih =>
    obtain ⟨D, B, h1, h2⟩ := put_not h (e := ⟨o.key, .Not, 0⟩)
    obtain ⟨D', B', h3, h4⟩ := ih h2
    refine ⟨D', B', ?_, h4⟩
    rw [List.foldl_cons]
    show List.foldl _ (updateOutputNot s ⟨o.key, .Not, 0⟩) l = _
    rw [h1, h3]

/-- an output is applied -/
theorem applyOutput_put {out : KeySequence} (ho : IsKeyOutput out) (hnr : ∀ e ∈ out, e.state ≠ .OutputOnRelease) (trig : Trigger) (ctx : Int) (s : S) (k : Sink) (h : SinkRel s k) :
    ∃ D B R, applyOutput s out trig ctx = { s with down := D, buf := B, reapplied := R } ∧
      SinkRel { s with down := D, buf := B, reapplied := R } ((settled (s.seq.map (·.key)) out).foldl (Sink.put trig.keyOf) k) := by
  induction out generalizing s k with
  | nil => exact ⟨s.down, s.buf, s.reapplied, rfl, h⟩
  | cons e out ih =>
    have hst : e.state = .Down ∨ e.state = .Up ∨ e.state = .Not := by
      rcases ho.states e (by simp) with h1 | h1 | h1 | h1
      · exact .inl h1
      · exact .inr (.inl h1)
      · exact .inr (.inr h1)
      · exact absurd h1 (hnr e (by simp))
    have hnr' : ∀ e ∈ out, e.state ≠ .OutputOnRelease := fun e he => hnr e (by simp [he])
    have hpl := ho.plain e (by simp)
    have ho' : IsKeyOutput out := ⟨fun e he => ho.states e (by simp [he]), fun e he => ho.plain e (by simp [he])⟩
    have hor : (e.state == KeyState.OutputOnRelease) = false := by rcases hst with h1 | h1 | h1 <;> rw [h1] <;> rfl
    -- the first event does something
    have hone : ∀ {s1 : S} {l : KeySequence} {k1 : Sink}, (∃ D B R, s1 = { s with down := D, buf := B, reapplied := R }) → SinkRel s1 k1 →
        applyOutput s (e :: out) trig ctx = applyOutput s1 out trig ctx → settled (s.seq.map (·.key)) [e] = l → l.foldl (Sink.put trig.keyOf) k = k1 →
        ∃ D B R, applyOutput s (e :: out) trig ctx = { s with down := D, buf := B, reapplied := R } ∧
          SinkRel { s with down := D, buf := B, reapplied := R } ((settled (s.seq.map (·.key)) (e :: out)).foldl (Sink.put trig.keyOf) k) := by
      rintro s1 l k1 ⟨D, B, R, rfl⟩ e2 e1 e3 e4
      obtain ⟨D', B', R', e5, e6⟩ := ih ho' hnr' _ _ e2
      refine ⟨D', B', R', ?_, ?_⟩
      · rw [e1, e5]
      · have : settled (s.seq.map (·.key)) (e :: out) = l ++ settled (s.seq.map (·.key)) out := by
          rw [← e3]
          unfold settled
          rw [List.flatMap_cons, List.flatMap_cons, List.flatMap_nil, List.append_nil]
        rw [this, List.foldl_append, e4]
        exact e6
    by_cases hany : e.key = Key.any
    · have hnot := hpl.2.2 hany
      obtain ⟨D, B, h1, h2⟩ := liftAll_put s.down trig ctx h
      refine hone (l := [e]) ⟨D, B, s.reapplied, rfl⟩ h2 ?_ ?_ ?_
      · rw [applyOutput, hany, hnot]
        simp only [beq_self_eq_true, if_true]
        rw [h1]
      · unfold settled
        rw [List.flatMap_cons, if_neg (by rw [hany]; exact fun h => absurd h.2 (by decide))]
        rfl
      · rw [List.foldl_cons, List.foldl_nil]
        unfold Sink.put
        rw [hnot]
        simp only [hany, if_true]
        unfold Sink.liftAll
        rw [holds_keys h.down]
    · have hk : (e.key == Key.any) = false := beq_eq_false_iff_ne.2 hany
      by_cases hv : e.state = .Not ∧ isVirtualKey e.key = true
      · have hfind : (findKey s.seq e.key).isSome = true ↔ e.key ∈ s.seq.map (·.key) := by
          unfold findKey
          rw [List.find?_isSome]
          simp only [List.mem_map, beq_iff_eq]
        by_cases hin : e.key ∈ s.seq.map (·.key)
        · obtain ⟨D, B, R, h1, h2⟩ := updateOutput_put h (e := ⟨e.key, .Down, 0⟩)
            ⟨.inl rfl, rfl, hany, hpl.2.1⟩ trig ctx
          refine hone (l := [⟨e.key, .Down, 0⟩]) ⟨D, B, R, rfl⟩ h2 ?_ ?_ rfl
          · rw [applyOutput, hk, hor, hv.1, hv.2, hfind.2 hin]
            simp only [Bool.false_eq_true, if_false, beq_self_eq_true, Bool.and_self, if_true]
            rw [h1]
          · unfold settled
            rw [List.flatMap_cons, if_pos hv, if_pos hin]
            rfl
        · refine hone (l := []) ⟨s.down, s.buf, s.reapplied, rfl⟩ h ?_ ?_ rfl
          · have : (findKey s.seq e.key).isSome = false := by
              cases hq : (findKey s.seq e.key).isSome with
              | false => rfl
              | true => exact absurd (hfind.1 hq) hin
            rw [applyOutput, hk, hor, hv.1, hv.2, this]
            simp only [Bool.false_eq_true, if_false, beq_self_eq_true, Bool.and_self, if_true]
          · unfold settled
            rw [List.flatMap_cons, if_pos hv, if_neg hin]
            rfl
      · obtain ⟨D, B, R, h1, h2⟩ := updateOutput_put h (e := e) ⟨hst, hpl.1, hany, hpl.2.1⟩ trig ctx
        refine hone (l := [e]) ⟨D, B, R, rfl⟩ h2 ?_ ?_ rfl
        · have h3 : (e.state == KeyState.Not && isVirtualKey e.key) = false := by
            rw [Bool.eq_false_iff]
            intro h
            rw [Bool.and_eq_true, beq_iff_eq] at h
            exact hv h
          rw [applyOutput, hk, hor, h3]
          simp only [Bool.false_eq_true, if_false]
          rw [h1]
        · unfold settled
          rw [List.flatMap_cons, if_neg hv]
          rfl

/-- outputs are applied one after the other -/
theorem applyOutput_append (a b : KeySequence) (ha : ∀ e ∈ a, e.state ≠ .OutputOnRelease) (trig : Trigger) (ctx : Int) (s : S) :
    applyOutput s (a ++ b) trig ctx = applyOutput (applyOutput s a trig ctx) b trig ctx := by
  induction a generalizing s with
  | nil => rfl
  | cons e a ih =>
    have ih := fun s => ih (fun x hx => ha x (by simp [hx])) s
    have he : (e.state == KeyState.OutputOnRelease) = false := beq_eq_false_iff_ne.2 (ha e (by simp))
    rw [List.cons_append, applyOutput]
    conv => rhs; arg 1; rw [applyOutput]
    simp only [he, Bool.false_eq_true, if_false]
    split
    · exact ih _
    · split
      · exact ih _
      · exact ih _

/-- an output is split at the `^` -/
theorem onPress_split (out : KeySequence) :
    (out = onPress out ∧ onReleasePart out = none) ∨ ∃ e rest, out = onPress out ++ e :: rest ∧ e.state = .OutputOnRelease ∧ onReleasePart out = some rest := by
  induction out with
  | nil => exact .inl ⟨rfl, rfl⟩
  | cons e out ih =>
    by_cases he : e.state = .OutputOnRelease
    · have h1 : onPress (e :: out) = [] := by simp [onPress, he]
      rw [h1]
      exact .inr ⟨e, out, rfl, he, by rw [onReleasePart, if_pos he]⟩
    · have h1 : onPress (e :: out) = e :: onPress out := by
        have : (e.state != KeyState.OutputOnRelease) = true := by simpa using he
        simp only [onPress, List.takeWhile_cons, this, if_true]
      have h2 : onReleasePart (e :: out) = onReleasePart out := by rw [onReleasePart, if_neg he]
      rw [h1, h2]
      rcases ih with ⟨h3, h4⟩ | ⟨x, rest, h3, h4, h5⟩
      · exact .inl ⟨by rw [← h3], h4⟩
      · exact .inr ⟨x, rest, by rw [List.cons_append, ← h3], h4, h5⟩

theorem onPress_states {out : KeySequence} : ∀ e ∈ onPress out, e.state ≠ .OutputOnRelease := by
  intro e he
  have := List.all_eq_true.1 (List.all_takeWhile (p := fun e : KeyEvent => e.state != .OutputOnRelease) (l := out)) e he
  simpa using this

theorem onPress_mem {out : KeySequence} {e : KeyEvent} (he : e ∈ onPress out) : e ∈ out := (List.takeWhile_sublist _).subset he

theorem onReleasePart_mem {out rest : KeySequence} (h : onReleasePart out = some rest) {e : KeyEvent} (he : e ∈ rest) : e ∈ out := by
  rcases onPress_split out with ⟨_, h2⟩ | ⟨x, rest', h1, _, h2⟩
  · rw [h] at h2; cases h2
  · rw [h] at h2
    cases h2
    rw [h1]; simp [he]

theorem IsKeyOutput.onPress {out : KeySequence} (h : IsKeyOutput out) : IsKeyOutput (onPress out) :=
  ⟨fun e he => h.states e (onPress_mem he), fun e he => h.plain e (onPress_mem he)⟩

/-- what is kept for the release of a key -/
def keptFor (k : Key) (ctx : Int) (out : KeySequence) : List OnRelease :=
  match onReleasePart out with
  | some rest => [⟨k, rest, ctx⟩]
  | none => []

/-- an output is applied when a key is pressed -/
theorem applyOutput_press {out : KeySequence} (ho : IsKeyOutput out) (trig : Trigger) (ht : trig.event.state = .Down) (ctx : Int) (s : S) (k : Sink)
    (h : SinkRel s k) :
    ∃ D B R, applyOutput s out trig ctx = { s with down := D, buf := B, reapplied := R, onRelease := s.onRelease ++ keptFor trig.keyOf ctx out } ∧
      SinkRel { s with down := D, buf := B, reapplied := R } ((settled (s.seq.map (·.key)) (onPress out)).foldl (Sink.put trig.keyOf) k) := by
  obtain ⟨D, B, R, h1, h2⟩ := applyOutput_put ho.onPress onPress_states trig ctx s k h
  refine ⟨D, B, R, ?_, h2⟩
  unfold keptFor
  rcases onPress_split out with ⟨h3, h4⟩ | ⟨x, rest, h3, h4, h5⟩
  · rw [h4]
    simp only [List.append_nil]
    rw [← h3] at h1
    exact h1
  · rw [h5]
    conv => lhs; rw [h3]
    rw [applyOutput_append _ _ onPress_states, h1, applyOutput]
    have hx : (x.key == Key.any) = false := by
      rw [beq_eq_false_iff_ne]
      intro hx
      have hm : x ∈ out := by rw [h3]; simp
      rw [(ho.plain x hm).2.2 hx] at h4
      cases h4
    simp only [hx, h4, ht, Bool.false_eq_true, if_false, beq_self_eq_true, if_true, Trigger.keyOf]

/-- an output is applied when a key is released -/
theorem applyOutput_release {out : KeySequence} (ho : IsKeyOutput out) (trig : Trigger) (ht : trig.event.state ≠ .Down) (ctx : Int) (s : S) (k : Sink)
    (h : SinkRel s k) :
    ∃ D B R, applyOutput s out trig ctx = { s with down := D, buf := B, reapplied := R } ∧
      SinkRel { s with down := D, buf := B, reapplied := R }
        ((settled (s.seq.map (·.key)) (out.filter (fun e => e.state != .OutputOnRelease))).foldl (Sink.put trig.keyOf) k) := by
  have hm : PlainMarker out := by
    intro e he hs hk
    rw [(ho.plain e he).2.2 hk] at hs
    cases hs
  rw [(C52_release_outputs_all s out hm trig ctx ht).1]
  exact applyOutput_put ⟨fun e he => ho.states e (List.mem_filter.1 he).1, fun e he => ho.plain e (List.mem_filter.1 he).1⟩
    (fun e he => by simpa using (List.mem_filter.1 he).2) trig ctx s k h

end KM
