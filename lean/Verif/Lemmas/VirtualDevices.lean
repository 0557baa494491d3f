import Verif.Spec.Devices
/-!
# Lemmas: the virtual devices and what the kernel sees of them
-/
namespace KM

theorem heldOn_snoc (d : VId) (k : Nat) (out : List VEff) (e : VEff) :
    heldOn d k (out ++ [e]) = heldOnStep d k (heldOn d k out) e := by
  simp [heldOn, List.foldl_append]

theorem distanceOn_snoc (d : VId) (code : Nat) (out : List VEff) (e : VEff) :
    distanceOn d code (out ++ [e]) = distanceStep d code (distanceOn d code out) e := by
  simp [distanceOn, List.foldl_append]

/-- The state of a device agrees with what was written to it. -/
structure DevOk (out : List VEff) (d : VId) (v : VDev) : Prop where
  held : ∀ k, heldOn d k out = v.down.contains k
  distH : distanceOn d 12 out = 120 * distanceOn d 6 out + v.accH
  distV : distanceOn d 11 out = 120 * distanceOn d 8 out + v.accV
  accH : -120 < v.accH ∧ v.accH < 120
  accV : -120 < v.accV ∧ v.accV < 120

/-- An effect which is no key and no wheel event of this device -/
def Neutral (d : VId) : VEff → Prop
  | .create d' => d' ≠ d
  | .destroy d' => d' ≠ d
  | .write d' ev => d' = d → ev.type ≠ 1 ∧ (ev.type = 2 → ev.code ≠ 6 ∧ ev.code ≠ 8 ∧ ev.code ≠ 11 ∧ ev.code ≠ 12)

theorem heldOnStep_neutral {d : VId} {e : VEff} (h : Neutral d e) (k : Nat) (b : Bool) : heldOnStep d k b e = b := by
  cases e with
  | create d' => exact if_neg h
  | destroy d' => exact if_neg h
  | write d' ev =>
    refine if_neg (fun hh => ?_)
    exact (h hh.1).1 hh.2.1

theorem distanceStep_neutral {d : VId} {e : VEff} (h : Neutral d e) {c : Nat} (hc : c = 6 ∨ c = 8 ∨ c = 11 ∨ c = 12) (n : Int) :
    distanceStep d c n e = n := by
  cases e with
  | create d' => exact if_neg h
  | destroy d' => exact if_neg h
  | write d' ev =>
    refine if_neg (fun hh => ?_)
    have := (h hh.1).2 hh.2.1
    have h2 := hh.2.2
    omega

theorem DevOk.snoc_neutral {out : List VEff} {d : VId} {v : VDev} (h : DevOk out d v) {e : VEff} (he : Neutral d e) :
    DevOk (out ++ [e]) d v where
  held k := by rw [heldOn_snoc, heldOnStep_neutral he]; exact h.held k
  distH := by
    rw [distanceOn_snoc, distanceOn_snoc, distanceStep_neutral he (by simp), distanceStep_neutral he (by simp)]; exact h.distH
  distV := by
    rw [distanceOn_snoc, distanceOn_snoc, distanceStep_neutral he (by simp), distanceStep_neutral he (by simp)]; exact h.distV
  accH := h.accH
  accV := h.accV

theorem neutral_other {d d' : VId} (h : d' ≠ d) (ev : RawEvent) : Neutral d (.write d' ev) := fun e => absurd e h

theorem neutral_syn (d d' : VId) : Neutral d (.write d' ⟨0, 0, 0⟩) :=
  fun _ => ⟨by decide, fun h => absurd h (by decide)⟩

theorem devOk_fresh (out : List VEff) (d : VId) (e : VEff) (he : e = .create d ∨ e = .destroy d) (m : Bool) :
    DevOk (out ++ [e]) d { mouse := m } := by
  have hh : ∀ k b, heldOnStep d k b e = false := by
    intro k b; rcases he with h | h <;> subst h <;> exact if_pos rfl
  have hd : ∀ c n, distanceStep d c n e = 0 := by
    intro k b; rcases he with h | h <;> subst h <;> exact if_pos rfl
  constructor
  · intro k; rw [heldOn_snoc, hh]; rfl
  · rw [distanceOn_snoc, distanceOn_snoc, hd, hd]; rfl
  · rw [distanceOn_snoc, distanceOn_snoc, hd, hd]; rfl
  · show (-120 : Int) < 0 ∧ (0 : Int) < 120
    decide
  · show (-120 : Int) < 0 ∧ (0 : Int) < 120
    decide

theorem WellPressed.snoc {out : List VEff} (h : WellPressed out) (e : VEff)
    (he : ∀ d k v, e = .write d ⟨1, k, v⟩ →
      v = 0 ∨ (v = 1 ∧ heldOn d k out = false) ∨ (v = 2 ∧ heldOn d k out = true)) : WellPressed (out ++ [e]) := by
  intro pre d k v post hh
  rcases List.eq_nil_or_concat post with hp | ⟨post', e', hp⟩
  · subst hp
    have := List.append_inj' hh rfl
    rw [← this.1]
    exact he d k v (by simpa using this.2)
  · rw [List.concat_eq_append] at hp
    subst hp
    have hh' : out ++ [e] = (pre ++ VEff.write d ⟨1, k, v⟩ :: post') ++ [e'] := by rw [hh]; simp
    exact h pre d k v post' (List.append_inj' hh' rfl).1

/-- The device with an id, also among the ones which may still be reused -/
def VDevs.getP (s : VDevs) (prev : List (Nat × VDev)) : VId → VDev
  | .keyboard => s.keyboard
  | .forward i => ((s.forward ++ prev).lookup i).getD {}

theorem VDevs.getP_nil (s : VDevs) (d : VId) : s.getP [] d = s.get d := by
  cases d <;> simp [VDevs.getP, VDevs.get]

/-- A device exists. -/
def VDevs.Alive (s : VDevs) : VId → Prop
  | .keyboard => True
  | .forward i => i ∈ s.forward.map (·.1)

/-- The invariant of the virtual devices -/
structure VInv (s : VDevs) (prev : List (Nat × VDev)) : Prop where
  ok : ∀ d, DevOk s.out d (s.getP prev d)
  nodup : ((s.forward ++ prev).map (·.1)).Nodup
  pressed : WellPressed s.out
  last : ∀ d, s.lastMouse = some d → s.Alive d
  devs : ∀ d ∈ s.devices, s.Alive d

theorem vinv_init : VInv {} [] where
  ok d := by
    cases d with
    | keyboard => exact devOk_fresh [] .keyboard (.create .keyboard) (Or.inl rfl) false
    | forward i =>
      show DevOk ([] ++ [VEff.create .keyboard]) (.forward i) {}
      refine DevOk.snoc_neutral ?_ (by intro h; cases h)
      exact ⟨fun k => rfl, rfl, rfl, ⟨by decide, by decide⟩, ⟨by decide, by decide⟩⟩
  nodup := List.nodup_nil
  pressed := by
    refine WellPressed.snoc (out := []) ?_ (VEff.create .keyboard) ?_
    · intro pre d k v post h; cases pre <;> cases h
    · intro d k v h; cases h
  last d h := by cases h
  devs d h := by cases h

/-! ## Writing -/

theorem lookup_map_set (l : List (Nat × VDev)) (i j : Nat) (v : VDev) :
    (l.map (fun p => if p.1 == i then (i, v) else p)).lookup j =
      if j = i then (l.lookup i).map (fun _ => v) else l.lookup j := by
  induction l with
  | nil => simp
  | cons p l ih =>
    obtain ⟨a, b⟩ := p
    by_cases ha : a = i
    · subst ha
      by_cases hj : j = a
      · subst hj; simp
      · have h1 : (j == a) = false := beq_eq_false_iff_ne.2 hj
        simp only [List.map_cons, beq_self_eq_true, if_true, List.lookup_cons, h1, ih, if_neg hj]
    · have h1 : (a == i) = false := beq_eq_false_iff_ne.2 ha
      simp only [List.map_cons, h1, Bool.false_eq_true, if_false, List.lookup_cons, ih]
      by_cases hj : j = a
      · subst hj
        simp [ha]
      · have h2 : (j == a) = false := beq_eq_false_iff_ne.2 hj
        have h3 : (i == a) = false := beq_eq_false_iff_ne.2 (Ne.symm ha)
        rw [h2, h3]

theorem map_set_keys (l : List (Nat × VDev)) (i : Nat) (v : VDev) :
    (l.map (fun p => if p.1 == i then (i, v) else p)).map (·.1) = l.map (·.1) := by
  rw [List.map_map]
  refine List.map_congr_left (fun p _ => ?_)
  show (if p.1 == i then (i, v) else p).1 = p.1
  by_cases h : p.1 = i
  · rw [if_pos (beq_iff_eq.2 h)]; exact h.symm
  · rw [if_neg (by simpa using h)]

theorem lookup_isSome_of_mem {l : List (Nat × VDev)} {i : Nat} (h : i ∈ l.map (·.1)) : ∃ v, l.lookup i = some v := by
  induction l with
  | nil => cases h
  | cons p l ih =>
    obtain ⟨a, b⟩ := p
    rw [List.lookup_cons]
    by_cases ha : i = a
    · subst ha; exact ⟨b, by simp⟩
    · have h1 : (i == a) = false := beq_eq_false_iff_ne.2 ha
      rw [h1]
      rw [List.map_cons, List.mem_cons] at h
      exact ih (h.resolve_left ha)

theorem VDevs.set_alive (s : VDevs) (d d' : VId) (v : VDev) : (s.set d v).Alive d' ↔ s.Alive d' := by
  cases d with
  | keyboard => cases d' <;> exact Iff.rfl
  | forward i =>
    cases d' with
    | keyboard => exact Iff.rfl
    | forward j =>
      show j ∈ (s.forward.map (fun p => if p.1 == i then (i, v) else p)).map (·.1) ↔ _
      rw [map_set_keys]
      exact Iff.rfl

theorem VDevs.get_set_same (s : VDevs) {d : VId} (h : s.Alive d) (v : VDev) : (s.set d v).get d = v := by
  cases d with
  | keyboard => rfl
  | forward i =>
    show ((s.forward.map (fun p => if p.1 == i then (i, v) else p)).lookup i).getD {} = v
    obtain ⟨w, hw⟩ := lookup_isSome_of_mem h
    rw [lookup_map_set, if_pos rfl, hw]
    rfl

theorem VDevs.get_set_other (s : VDevs) {d d' : VId} (h : d' ≠ d) (v : VDev) : (s.set d v).get d' = s.get d' := by
  cases d with
  | keyboard =>
    cases d' with
    | keyboard => exact absurd rfl h
    | forward j => rfl
  | forward i =>
    cases d' with
    | keyboard => rfl
    | forward j =>
      show ((s.forward.map (fun p => if p.1 == i then (i, v) else p)).lookup j).getD {} = _
      rw [lookup_map_set, if_neg (fun e => h (by rw [e]))]
      rfl

@[simp] theorem VDevs.set_out (s : VDevs) (d : VId) (v : VDev) : (s.set d v).out = s.out := by cases d <;> rfl
@[simp] theorem VDevs.set_devices (s : VDevs) (d : VId) (v : VDev) : (s.set d v).devices = s.devices := by cases d <;> rfl
@[simp] theorem VDevs.set_lastMouse (s : VDevs) (d : VId) (v : VDev) : (s.set d v).lastMouse = s.lastMouse := by cases d <;> rfl
@[simp] theorem VDevs.set_ub (s : VDevs) (d : VId) (v : VDev) : (s.set d v).ub = s.ub := by cases d <;> rfl

theorem VDevs.set_keys (s : VDevs) (d : VId) (v : VDev) : (s.set d v).forward.map (·.1) = s.forward.map (·.1) := by
  cases d with
  | keyboard => rfl
  | forward i => exact map_set_keys _ _ _

@[simp] theorem VDevs.sendEvent_get (s : VDevs) (d d' : VId) (t c : Nat) (v : Int) : (s.sendEvent d t c v).get d' = s.get d' := by
  cases d' <;> rfl

theorem VDevs.sendEvent_alive (s : VDevs) (d d' : VId) (t c : Nat) (v : Int) : (s.sendEvent d t c v).Alive d' ↔ s.Alive d' := by
  cases d' <;> exact Iff.rfl

/-- The invariant between calls -/
theorem VInv.iff (s : VDevs) : VInv s [] ↔
    (∀ d, DevOk s.out d (s.get d)) ∧ (s.forward.map (·.1)).Nodup ∧ WellPressed s.out ∧
    (∀ d, s.lastMouse = some d → s.Alive d) ∧ ∀ d ∈ s.devices, s.Alive d := by
  constructor
  · intro h
    refine ⟨fun d => ?_, by simpa using h.nodup, h.pressed, h.last, h.devs⟩
    rw [← VDevs.getP_nil]; exact h.ok d
  · rintro ⟨h1, h2, h3, h4, h5⟩
    refine ⟨fun d => ?_, by simpa using h2, h3, h4, h5⟩
    rw [VDevs.getP_nil]; exact h1 d

/-- A neutral event is written. -/
theorem VInv.sendEvent {s : VDevs} (h : VInv s []) (d : VId) (t c : Nat) (v : Int)
    (hn : t ≠ 1 ∧ (t = 2 → c ≠ 6 ∧ c ≠ 8 ∧ c ≠ 11 ∧ c ≠ 12)) : VInv (s.sendEvent d t c v) [] := by
  rw [VInv.iff] at h ⊢
  obtain ⟨h1, h2, h3, h4, h5⟩ := h
  refine ⟨fun d' => ?_, h2, ?_, fun d' hd => ?_, fun d' hd => ?_⟩
  · rw [VDevs.sendEvent_get]
    exact (h1 d').snoc_neutral (fun _ => hn)
  · refine h3.snoc _ (fun d' k v' e => ?_)
    cases e
    exact absurd rfl hn.1
  · exact (VDevs.sendEvent_alive s d d' t c v).2 (h4 d' hd)
  · exact (VDevs.sendEvent_alive s d d' t c v).2 (h5 d' hd)

/-- Effects of one device are written, and the state of this device is replaced. -/
theorem VInv.replace {s t : VDevs} (h : VInv s []) {d : VId} {v : VDev}
    (hd : s.Alive d) (hs : t = { (s.set d v) with out := t.out })
    (hout : ∀ d', d' ≠ d → DevOk t.out d' (s.get d')) (hv : DevOk t.out d v) (hp : WellPressed t.out) :
    VInv t [] := by
  rw [VInv.iff] at h ⊢
  obtain ⟨h1, h2, h3, h4, h5⟩ := h
  have hget : ∀ d', t.get d' = (s.set d v).get d' := by intro d'; rw [hs]; cases d' <;> rfl
  have halive : ∀ d', t.Alive d' ↔ s.Alive d' := by
    intro d'; rw [← VDevs.set_alive s d d' v]; rw [hs]; cases d' <;> exact Iff.rfl
  refine ⟨fun d' => ?_, ?_, hp, fun d' hd' => ?_, fun d' hd' => ?_⟩
  · rw [hget]
    by_cases e : d' = d
    · subst e; rw [VDevs.get_set_same _ hd]; exact hv
    · rw [VDevs.get_set_other _ e]; exact hout d' e
  · have : t.forward = (s.set d v).forward := by rw [hs]
    rw [this, VDevs.set_keys]; exact h2
  · have : t.lastMouse = s.lastMouse := by rw [hs]; simp
    rw [this] at hd'
    exact (halive d').2 (h4 d' hd')
  · have : t.devices = s.devices := by rw [hs]; simp
    rw [this] at hd'
    exact (halive d').2 (h5 d' hd')

theorem contains_filter_ne (l : List Key) (a k : Key) :
    (l.filter (fun x => x != a)).contains k = (decide (k ≠ a) && l.contains k) := by
  rw [Bool.eq_iff_iff]
  simp only [List.contains_iff_mem, List.mem_filter, Bool.and_eq_true, decide_eq_true_eq, bne_iff_ne]
  exact And.comm

theorem VDev.updateKeyState_up (v : VDev) {e : KeyEvent} (h : e.state = .Up) :
    v.updateKeyState e = ({ v with down := v.down.filter (fun k => k != e.key) }, 0) := by
  unfold VDev.updateKeyState
  rw [if_pos (beq_iff_eq.2 h)]

theorem VDev.updateKeyState_repeat (v : VDev) {e : KeyEvent} (h : e.state ≠ .Up) (hc : v.down.contains e.key = true) :
    v.updateKeyState e = (v, 2) := by
  unfold VDev.updateKeyState
  rw [if_neg (by simpa using h), if_pos hc]

theorem VDev.updateKeyState_press (v : VDev) {e : KeyEvent} (h : e.state ≠ .Up) (hc : ¬ v.down.contains e.key = true) :
    v.updateKeyState e = ({ v with down := v.down ++ [e.key] }, 1) := by
  unfold VDev.updateKeyState
  rw [if_neg (by simpa using h), if_neg hc]

theorem VInv.sendKey {s : VDevs} (h : VInv s []) {d : VId} (hd : s.Alive d) (e : KeyEvent) : VInv (s.sendKey d e) [] := by
  have h' := (VInv.iff s).1 h
  have hok := h'.1 d
  refine h.replace hd (v := ((s.get d).updateKeyState e).1) rfl ?_ ?_ ?_
  · intro d' hne
    show DevOk ((s.set d _).out ++ [_]) d' _
    rw [VDevs.set_out]
    exact (h'.1 d').snoc_neutral (neutral_other (Ne.symm hne) _)
  · show DevOk ((s.set d _).out ++ [VEff.write d ⟨1, e.key, ((s.get d).updateKeyState e).2⟩]) d _
    rw [VDevs.set_out]
    have hdist : ∀ c n, distanceStep d c n (VEff.write d ⟨1, e.key, ((s.get d).updateKeyState e).2⟩) = n := by
      intro c n; exact if_neg (fun hh => absurd (show (1 : Nat) = 2 from hh.2.1) (by decide))
    have hacc : ((s.get d).updateKeyState e).1.accH = (s.get d).accH ∧ ((s.get d).updateKeyState e).1.accV = (s.get d).accV := by
      unfold VDev.updateKeyState
      split
      · exact ⟨rfl, rfl⟩
      · split <;> exact ⟨rfl, rfl⟩
    constructor
    · intro k
      rw [heldOn_snoc]
      show (if d = d ∧ (1 : Nat) = 1 ∧ e.key = k then decide (((s.get d).updateKeyState e).2 ≠ 0) else heldOn d k s.out) = _
      rw [hok.held]
      by_cases hu : e.state = .Up
      · rw [VDev.updateKeyState_up _ hu]
        simp only []
        rw [contains_filter_ne]
        by_cases hk : e.key = k
        · subst hk; simp
        · rw [if_neg (fun hh => hk hh.2.2)]
          have : k ≠ e.key := Ne.symm hk
          simp [this]
      · by_cases hc : (s.get d).down.contains e.key = true
        · rw [VDev.updateKeyState_repeat _ hu hc]
          by_cases hk : e.key = k
          · subst hk; rw [hc]; simp
          · rw [if_neg (fun hh => hk hh.2.2)]
        · rw [VDev.updateKeyState_press _ hu hc]
          by_cases hk : e.key = k
          · subst hk; simp
          · rw [if_neg (fun hh => hk hh.2.2)]
            have : k ≠ e.key := Ne.symm hk
            simp [this]
    · rw [distanceOn_snoc, distanceOn_snoc, hdist, hdist, hacc.1]; exact hok.distH
    · rw [distanceOn_snoc, distanceOn_snoc, hdist, hdist, hacc.2]; exact hok.distV
    · rw [hacc.1]; exact hok.accH
    · rw [hacc.2]; exact hok.accV
  · show WellPressed ((s.set d _).out ++ [VEff.write d ⟨1, e.key, ((s.get d).updateKeyState e).2⟩])
    rw [VDevs.set_out]
    refine h'.2.2.1.snoc _ (fun d' k v hh => ?_)
    cases hh
    rw [hok.held]
    by_cases hu : e.state = .Up
    · rw [VDev.updateKeyState_up _ hu]; exact Or.inl rfl
    · by_cases hc : (s.get d).down.contains e.key = true
      · rw [VDev.updateKeyState_repeat _ hu hc]; exact Or.inr (Or.inr ⟨rfl, hc⟩)
      · rw [VDev.updateKeyState_press _ hu hc]; exact Or.inr (Or.inl ⟨rfl, by simpa using hc⟩)

/-! ## The wheel -/

theorem tdiv_rest (a : Int) : -120 < a - a.tdiv 120 * 120 ∧ a - a.tdiv 120 * 120 < 120 := by
  have h : a - a.tdiv 120 * 120 = a.tmod 120 := by
    have := Int.tmod_add_mul_tdiv a 120
    omega
  rw [h]
  constructor
  · have := Int.lt_tmod_of_pos a (b := 120) (by decide)
    omega
  · exact Int.tmod_lt_of_pos a (by decide)

/-- The low resolution event of a wheel, if there is one -/
def lowresEvents (d : VId) (code : Nat) (lowres : Int) : List VEff :=
  if lowres ≠ 0 then [.write d ⟨2, code, lowres⟩] else []

theorem lowresEvents_cases (d : VId) (code : Nat) (lowres : Int) :
    (lowresEvents d code lowres = [] ∧ lowres = 0) ∨ (lowresEvents d code lowres = [.write d ⟨2, code, lowres⟩] ∧ lowres ≠ 0) := by
  unfold lowresEvents
  by_cases h : lowres = 0
  · exact Or.inl ⟨if_neg (fun hh => hh h), h⟩
  · exact Or.inr ⟨if_pos h, h⟩

theorem heldOn_wheel (d d' : VId) (k : Nat) (out : List VEff) (hi lo : Nat) (value lowres : Int) :
    heldOn d' k (out ++ [.write d ⟨2, hi, value⟩] ++ lowresEvents d lo lowres) = heldOn d' k out := by
  have h : ∀ ev : RawEvent, ev.type = 2 → ∀ b, heldOnStep d' k b (.write d ev) = b := by
    intro ev he b
    exact if_neg (fun hh => by rw [he] at hh; exact absurd hh.2.1 (by decide))
  unfold lowresEvents
  split
  · rw [heldOn_snoc, heldOn_snoc, h _ rfl, h _ rfl]
  · rw [List.append_nil, heldOn_snoc, h _ rfl]

theorem distanceOn_wheel (d : VId) (out : List VEff) (hi lo : Nat) (value lowres : Int) (c : Nat) :
    distanceOn d c (out ++ [.write d ⟨2, hi, value⟩] ++ lowresEvents d lo lowres) =
      distanceOn d c out + (if c = hi then value else 0) + (if c = lo then lowres else 0) := by
  have h : ∀ code v n, distanceStep d c n (.write d ⟨2, code, v⟩) = n + if c = code then v else 0 := by
    intro code v n
    show (if d = d ∧ (2 : Nat) = 2 ∧ code = c then n + v else n) = _
    by_cases e : c = code
    · rw [if_pos ⟨rfl, rfl, e.symm⟩, if_pos e]
    · rw [if_neg (fun hh => e hh.2.2.symm), if_neg e, Int.add_zero]
  unfold lowresEvents
  split
  · rw [distanceOn_snoc, distanceOn_snoc, h, h]
  · next hz =>
    have hz : lowres = 0 := Classical.byContradiction hz
    rw [List.append_nil, distanceOn_snoc, h, hz]
    split <;> simp

theorem VDevs.sendWheel_eq (s : VDevs) (d : VId) (e : KeyEvent) :
    let vertical := e.key == Key.WheelUp || e.key == Key.WheelDown
    let negative := e.key == Key.WheelDown || e.key == Key.WheelLeft
    let value : Int := (if e.value != 0 then (e.value : Int) else 120) * (if negative then -1 else 1)
    let r := (s.get d).updateLowresWheel vertical value
    s.sendWheel d e = { s.set d r.1 with
      out := s.out ++ [.write d ⟨2, if vertical then 11 else 12, value⟩] ++ lowresEvents d (if vertical then 8 else 6) r.2 } := by
  intro vertical negative value r
  have h1 : s.sendWheel d e =
      if r.2 != 0 then ((s.sendEvent d 2 (if vertical then 11 else 12) value).set d r.1).sendEvent d 2 (if vertical then 8 else 6) r.2
      else (s.sendEvent d 2 (if vertical then 11 else 12) value).set d r.1 := by
    have hg : (s.sendEvent d 2 (if vertical then 11 else 12) value).get d = s.get d := VDevs.sendEvent_get ..
    unfold VDevs.sendWheel
    simp only []
    show (if ((s.sendEvent d 2 (if vertical then 11 else 12) value).get d |>.updateLowresWheel vertical value).2 != 0 then
      ((s.sendEvent d 2 (if vertical then 11 else 12) value).set d
        ((s.sendEvent d 2 (if vertical then 11 else 12) value).get d |>.updateLowresWheel vertical value).1).sendEvent d 2
          (if vertical then 8 else 6) ((s.sendEvent d 2 (if vertical then 11 else 12) value).get d |>.updateLowresWheel vertical value).2
      else _) = _
    rw [hg]
  rw [h1]
  rcases lowresEvents_cases d (if vertical then 8 else 6) r.2 with ⟨hl, hz⟩ | ⟨hl, hz⟩
  · have hb : (r.2 != 0) = false := by rw [hz]; rfl
    rw [hl, hb, List.append_nil]
    cases d <;> rfl
  · have hb : (r.2 != 0) = true := by simpa using hz
    rw [hl, hb]
    cases d <;> rfl

theorem VInv.sendWheel {s : VDevs} (h : VInv s []) {d : VId} (hd : s.Alive d) (e : KeyEvent) : VInv (s.sendWheel d e) [] := by
  have h' := (VInv.iff s).1 h
  have hok := h'.1 d
  have heq := VDevs.sendWheel_eq s d e
  simp only [] at heq
  generalize (e.key == Key.WheelUp || e.key == Key.WheelDown) = vertical at heq
  generalize (if e.value != 0 then (e.value : Int) else 120) *
    (if (e.key == Key.WheelDown || e.key == Key.WheelLeft) = true then -1 else 1) = value at heq
  refine h.replace hd (v := ((s.get d).updateLowresWheel vertical value).1) (by rw [heq]) ?_ ?_ ?_
  · intro d' hne
    rw [heq]
    simp only []
    have h1 : DevOk (s.out ++ [.write d ⟨2, if vertical then 11 else 12, value⟩]) d' (s.get d') :=
      (h'.1 d').snoc_neutral (neutral_other (Ne.symm hne) _)
    rcases lowresEvents_cases d (if vertical then 8 else 6) ((s.get d).updateLowresWheel vertical value).2 with ⟨hl, hz⟩ | ⟨hl, hz⟩
    · rw [hl, List.append_nil]; exact h1
    · rw [hl]; exact h1.snoc_neutral (neutral_other (Ne.symm hne) _)
  · rw [heq]
    simp only []
    have hH := tdiv_rest ((s.get d).accH + value)
    have hV := tdiv_rest ((s.get d).accV + value)
    have h1 := hok.distH
    have h2 := hok.distV
    cases vertical with
    | true =>
      constructor
      · intro k; rw [heldOn_wheel]; exact hok.held k
      · rw [distanceOn_wheel, distanceOn_wheel]
        simpa [VDev.updateLowresWheel] using h1
      · rw [distanceOn_wheel, distanceOn_wheel]
        simp only [VDev.updateLowresWheel]
        simp
        omega
      · exact hok.accH
      · exact hV
    | false =>
      constructor
      · intro k; rw [heldOn_wheel]; exact hok.held k
      · rw [distanceOn_wheel, distanceOn_wheel]
        simp only [VDev.updateLowresWheel]
        simp
        omega
      · rw [distanceOn_wheel, distanceOn_wheel]
        simpa [VDev.updateLowresWheel] using h2
      · exact hH
      · exact hok.accV
  · rw [heq]
    simp only []
    have h1 : WellPressed (s.out ++ [.write d ⟨2, if vertical then 11 else 12, value⟩]) :=
      h'.2.2.1.snoc _ (fun d' k v hh => by cases hh)
    rcases lowresEvents_cases d (if vertical then 8 else 6) ((s.get d).updateLowresWheel vertical value).2 with ⟨hl, hz⟩ | ⟨hl, hz⟩
    · rw [hl, List.append_nil]; exact h1
    · rw [hl]; exact h1.snoc _ (fun d' k v hh => by cases hh)

theorem VDevs.deviceFor_alive {s : VDevs} (h : VInv s []) (k : Key) : s.Alive (s.deviceFor k) := by
  unfold VDevs.deviceFor
  split
  · next d hd =>
    split
    · exact h.last d hd
    · trivial
  · trivial

theorem VInv.sendKeyEvent {s : VDevs} (h : VInv s []) (e : KeyEvent) : VInv (s.sendKeyEvent e) [] := by
  have hd := VDevs.deviceFor_alive h e.key
  unfold VDevs.sendKeyEvent
  refine VInv.sendEvent ?_ _ _ _ _ ⟨by decide, fun hh => absurd hh (by decide)⟩
  split
  · exact h.sendWheel hd e
  · exact h.sendKey hd e

/-! ## Forwarding -/

theorem toKeyEvent_none {ev : RawEvent} (h : (toKeyEvent ev).isSome = false) :
    ev.type ≠ 1 ∧ (ev.type = 2 → ev.code ≠ 6 ∧ ev.code ≠ 8 ∧ ev.code ≠ 11 ∧ ev.code ≠ 12) := by
  unfold toKeyEvent at h
  by_cases h1 : ev.type = 1
  · rw [if_pos (beq_iff_eq.2 h1)] at h; cases h
  · rw [if_neg (by simpa using h1)] at h
    refine ⟨h1, fun h2 => ?_⟩
    rw [if_pos (beq_iff_eq.2 h2)] at h
    by_cases h3 : (ev.code == REL_WHEEL || ev.code == REL_HWHEEL) = true
    · rw [if_pos h3] at h; cases h
    · rw [if_neg h3] at h
      by_cases h4 : (ev.code == REL_WHEEL_HI_RES) = true
      · rw [if_pos h4] at h; cases h
      · rw [if_neg h4] at h
        by_cases h5 : (ev.code == REL_HWHEEL_HI_RES) = true
        · rw [if_pos h5] at h; cases h
        · simp only [Bool.or_eq_true, beq_iff_eq, not_or] at h3 h4 h5
          exact ⟨h3.2, h3.1, h4, h5⟩

theorem VInv.forwardEvent {s : VDevs} (h : VInv s []) (dev : Nat) {ev : RawEvent} (hev : (toKeyEvent ev).isSome = false) :
    VInv (s.forwardEvent dev ev) [] := by
  have hn := toKeyEvent_none hev
  unfold VDevs.forwardEvent
  split
  · exact ⟨h.ok, h.nodup, h.pressed, h.last, h.devs⟩
  · next d hd =>
    have ha : s.Alive d := h.devs d (List.mem_of_getElem? hd)
    refine VInv.sendEvent ?_ d _ _ _ hn
    split
    · next hm =>
      refine ⟨fun d' => ?_, h.nodup, h.pressed, fun d' hd' => ?_, fun d' hd' => ?_⟩
      · have := h.ok d'
        cases d' <;> exact this
      · have e : d = d' := by injection hd'
        subst e
        cases d <;> exact ha
      · have := h.devs d' hd'
        cases d' <;> exact this
    · exact h

/-! ## Updating -/

theorem mem_of_lookup {l : List (Nat × VDev)} {i : Nat} {v : VDev} (h : l.lookup i = some v) : (i, v) ∈ l := by
  induction l with
  | nil => cases h
  | cons p l ih =>
    obtain ⟨a, b⟩ := p
    rw [List.lookup_cons] at h
    by_cases ha : i = a
    · subst ha
      rw [beq_self_eq_true] at h
      injection h with h
      rw [h]
      exact List.mem_cons_self
    · rw [beq_eq_false_iff_ne.2 ha] at h
      exact List.mem_cons_of_mem _ (ih h)

theorem lookup_none {l : List (Nat × VDev)} {i : Nat} (h : l.lookup i = none) : i ∉ l.map (·.1) := by
  intro hm
  obtain ⟨v, hv⟩ := lookup_isSome_of_mem hm
  rw [hv] at h; cases h

theorem lookup_of_mem {l : List (Nat × VDev)} (hn : (l.map (·.1)).Nodup) {i : Nat} {v : VDev} (h : (i, v) ∈ l) :
    l.lookup i = some v := by
  induction l with
  | nil => cases h
  | cons p l ih =>
    obtain ⟨a, b⟩ := p
    rw [List.map_cons, List.nodup_cons] at hn
    rw [List.lookup_cons]
    rcases List.mem_cons.1 h with h | h
    · injection h with h1 h2
      subst h1; subst h2
      rw [beq_self_eq_true]
    · have : i ≠ a := fun e => hn.1 (by rw [← e]; exact List.mem_map.2 ⟨(i, v), h, rfl⟩)
      rw [beq_eq_false_iff_ne.2 this]
      exact ih hn.2 h

theorem lookup_perm {l l' : List (Nat × VDev)} (hp : l.Perm l') (hn : (l.map (·.1)).Nodup) (i : Nat) : l.lookup i = l'.lookup i := by
  have hn' : (l'.map (·.1)).Nodup := (hp.map _).nodup_iff.1 hn
  cases h : l'.lookup i with
  | some v => exact lookup_of_mem hn (hp.mem_iff.2 (mem_of_lookup h))
  | none =>
    cases h2 : l.lookup i with
    | none => rfl
    | some v => rw [lookup_of_mem hn' (hp.mem_iff.1 (mem_of_lookup h2))] at h; cases h

theorem perm_filter {l : List (Nat × VDev)} (hn : (l.map (·.1)).Nodup) {i : Nat} {v : VDev} (h : (i, v) ∈ l) :
    l.Perm ((i, v) :: l.filter (fun p => p.1 != i)) := by
  induction l with
  | nil => cases h
  | cons p l ih =>
    rw [List.map_cons, List.nodup_cons] at hn
    rcases List.mem_cons.1 h with h | h
    · subst h
      have : l.filter (fun p => p.1 != i) = l := by
        rw [List.filter_eq_self]
        intro q hq
        have : q.1 ≠ i := fun e => hn.1 (List.mem_map.2 ⟨q, hq, e⟩)
        simpa using this
      rw [List.filter_cons, if_neg (by simp), this]
    · have hne : p.1 ≠ i := fun e => hn.1 (List.mem_map.2 ⟨(i, v), h, e.symm⟩)
      rw [List.filter_cons, if_pos (by simpa using hne)]
      exact ((ih hn.2 h).cons p).trans (List.Perm.swap _ _ _)

theorem getP_of_perm {s t : VDevs} {prev prev' : List (Nat × VDev)} (hk : t.keyboard = s.keyboard)
    (hp : (s.forward ++ prev).Perm (t.forward ++ prev')) (hn : ((s.forward ++ prev).map (·.1)).Nodup) (d : VId) :
    t.getP prev' d = s.getP prev d := by
  cases d with
  | keyboard => exact hk
  | forward i =>
    show ((t.forward ++ prev').lookup i).getD {} = ((s.forward ++ prev).lookup i).getD {}
    rw [lookup_perm hp hn]

theorem alive_mono {s t : VDevs} (h : ∀ p ∈ s.forward, p ∈ t.forward) {d : VId} (hd : s.Alive d) : t.Alive d := by
  cases d with
  | keyboard => trivial
  | forward i =>
    obtain ⟨p, hp, he⟩ := List.mem_map.1 (show i ∈ s.forward.map (·.1) from hd)
    exact List.mem_map.2 ⟨p, h p hp, he⟩

/-- Another device is appended to the list. -/
theorem VInv.appendDevice {s : VDevs} {prev : List (Nat × VDev)} (h : VInv s prev) {d : VId} (hd : s.Alive d) :
    VInv { s with devices := s.devices ++ [d] } prev := by
  refine ⟨fun d' => ?_, h.nodup, h.pressed, fun d' hd' => ?_, fun d' hd' => ?_⟩
  · have := h.ok d'
    cases d' <;> exact this
  · have := h.last d' hd'
    cases d' <;> exact this
  · rcases List.mem_append.1 hd' with hm | hm
    · have := h.devs d' hm
      cases d' <;> exact this
    · rw [List.mem_singleton] at hm
      subst hm
      cases d' <;> exact hd

theorem any_key_iff (l : List (Nat × VDev)) (i : Nat) : l.any (fun p => p.1 == i) = true ↔ i ∈ l.map (·.1) := by
  rw [List.any_eq_true, List.mem_map]
  constructor
  · rintro ⟨p, hp, h⟩; exact ⟨p, hp, by simpa using h⟩
  · rintro ⟨p, hp, h⟩; exact ⟨p, hp, by simpa using h⟩

theorem VInv.addDevice {s : VDevs} {prev : List (Nat × VDev)} (h : VInv s prev) (creates : EvDev → Bool) (g : GrabbedDesc) :
    VInv (s.addDevice creates prev g).1 (s.addDevice creates prev g).2.1 := by
  unfold VDevs.addDevice
  split
  · exact h.appendDevice (d := .keyboard) trivial
  · next d hd =>
    split
    · next v hv =>
      have hmem := mem_of_lookup hv
      have hn := h.nodup
      rw [List.map_append, List.nodup_append] at hn
      have hnot : d.eventId ∉ s.forward.map (·.1) := fun hm =>
        hn.2.2 _ hm _ (List.mem_map.2 ⟨_, hmem, rfl⟩) rfl
      have hany : s.forward.any (fun p => p.1 == d.eventId) = false := by
        rw [← Bool.not_eq_true, any_key_iff]; exact hnot
      simp only [hany, Bool.false_eq_true, if_false]
      have hperm : (s.forward ++ prev).Perm ((s.forward ++ [(d.eventId, v)]) ++ prev.filter (fun p => p.1 != d.eventId)) := by
        rw [List.append_assoc]
        exact (perm_filter hn.2.1 hmem).append_left _
      have h2 : VInv { s with forward := s.forward ++ [(d.eventId, v)] } (prev.filter (fun p => p.1 != d.eventId)) := by
        refine ⟨fun d' => ?_, ?_, h.pressed, fun d' hd' => ?_, fun d' hd' => ?_⟩
        · have e := getP_of_perm (s := s) (t := { s with forward := s.forward ++ [(d.eventId, v)] }) (prev := prev)
            (prev' := prev.filter (fun p => p.1 != d.eventId)) rfl hperm h.nodup d'
          rw [e]; exact h.ok d'
        · exact (hperm.map _).nodup_iff.1 h.nodup
        · exact alive_mono (fun p hp => List.mem_append_left _ hp) (h.last d' hd')
        · exact alive_mono (fun p hp => List.mem_append_left _ hp) (h.devs d' hd')
      exact h2.appendDevice (d := .forward d.eventId) (by simp [VDevs.Alive])
    · next hv =>
      split
      · split
        · next hany => exact h.appendDevice (d := .forward d.eventId) ((any_key_iff _ _).1 hany)
        · next hany =>
          have hnot : d.eventId ∉ s.forward.map (·.1) := fun hm => hany ((any_key_iff _ _).2 hm)
          have hnot2 := lookup_none hv
          have hnew : d.eventId ∉ (s.forward ++ prev).map (·.1) := by
            rw [List.map_append]
            exact fun hm => (List.mem_append.1 hm).elim hnot hnot2
          have hperm : ((d.eventId, ({ mouse := d.relX } : VDev)) :: (s.forward ++ prev)).Perm
              ((s.forward ++ [(d.eventId, { mouse := d.relX })]) ++ prev) := by
            rw [List.append_assoc]
            exact List.perm_middle.symm
          have hnod : (((d.eventId, ({ mouse := d.relX } : VDev)) :: (s.forward ++ prev)).map (·.1)).Nodup := by
            rw [List.map_cons, List.nodup_cons]
            exact ⟨hnew, h.nodup⟩
          have h2 : VInv { s with forward := s.forward ++ [(d.eventId, { mouse := d.relX })], out := s.out ++ [.create (.forward d.eventId)] } prev := by
            refine ⟨fun d' => ?_, ?_, ?_, fun d' hd' => ?_, fun d' hd' => ?_⟩
            · show DevOk (s.out ++ [.create (.forward d.eventId)]) d' _
              cases d' with
              | keyboard => exact (h.ok .keyboard).snoc_neutral (by intro e; cases e)
              | forward i =>
                show DevOk _ _ (((s.forward ++ [(d.eventId, ({ mouse := d.relX } : VDev))] ++ prev).lookup i).getD {})
                rw [← lookup_perm hperm hnod, List.lookup_cons]
                by_cases hi : i = d.eventId
                · subst hi
                  rw [beq_self_eq_true]
                  exact devOk_fresh _ _ _ (Or.inl rfl) _
                · rw [beq_eq_false_iff_ne.2 hi]
                  exact (h.ok (.forward i)).snoc_neutral (fun e => hi (by injection e with e; exact e.symm))
            · exact (hperm.map _).nodup_iff.1 hnod
            · exact h.pressed.snoc _ (fun d' k v e => by cases e)
            · exact alive_mono (fun p hp => List.mem_append_left _ hp) (h.last d' hd')
            · exact alive_mono (fun p hp => List.mem_append_left _ hp) (h.devs d' hd')
          exact h2.appendDevice (d := .forward d.eventId) (by simp [VDevs.Alive])
      · exact h.appendDevice (d := .keyboard) trivial

theorem VInv.addDevices (creates : EvDev → Bool) (l : List GrabbedDesc) {s : VDevs} {prev : List (Nat × VDev)} (h : VInv s prev) :
    VInv (VDevs.addDevices creates l s prev).1 (VDevs.addDevices creates l s prev).2.1 := by
  induction l generalizing s prev with
  | nil => exact h
  | cons g l ih =>
    have ha := h.addDevice creates g
    unfold VDevs.addDevices
    split
    · next s' prev' he => rw [he] at ha; exact ih ha
    · next s' prev' he => rw [he] at ha; exact ha

theorem VInv.destroyAll {s : VDevs} {prev : List (Nat × VDev)} (h : VInv s prev) :
    VInv { s with out := s.out ++ prev.map (fun p => .destroy (.forward p.1)) } [] := by
  induction prev generalizing s with
  | nil => simpa using h
  | cons p prev ih =>
    have hperm : (s.forward ++ p :: prev).Perm (p :: (s.forward ++ prev)) := List.perm_middle
    have hnod := (hperm.map (·.1)).nodup_iff.1 h.nodup
    have hnod' := hnod
    rw [List.map_cons, List.nodup_cons] at hnod
    have h2 : VInv { s with out := s.out ++ [.destroy (.forward p.1)] } prev := by
      refine ⟨fun d' => ?_, hnod.2, ?_, fun d' hd' => ?_, fun d' hd' => ?_⟩
      · show DevOk (s.out ++ [.destroy (.forward p.1)]) d' _
        cases d' with
        | keyboard => exact (h.ok .keyboard).snoc_neutral (by intro e; cases e)
        | forward i =>
          show DevOk _ _ (((s.forward ++ prev).lookup i).getD {})
          have hok := h.ok (.forward i)
          by_cases hi : i = p.1
          · subst hi
            have : (s.forward ++ prev).lookup p.1 = none := by
              cases hl : (s.forward ++ prev).lookup p.1 with
              | none => rfl
              | some v => exact absurd (List.mem_map.2 ⟨_, mem_of_lookup hl, rfl⟩) hnod.1
            rw [this]
            exact devOk_fresh _ _ _ (Or.inr rfl) false
          · have hl : (s.forward ++ p :: prev).lookup i = (s.forward ++ prev).lookup i := by
              rw [lookup_perm hperm h.nodup]
              obtain ⟨a, b⟩ := p
              rw [List.lookup_cons, beq_eq_false_iff_ne.2 hi]
            have hok' : DevOk s.out (.forward i) (((s.forward ++ p :: prev).lookup i).getD {}) := hok
            rw [hl] at hok'
            exact hok'.snoc_neutral (fun e => hi (by injection e with e; exact e.symm))
      · exact h.pressed.snoc _ (fun d' k v e => by cases e)
      · have := h.last d' hd'
        cases d' <;> exact this
      · have := h.devs d' hd'
        cases d' <;> exact this
    have := ih h2
    simpa [List.append_assoc] using this

theorem VInv.updateForwardDevices {s : VDevs} (h : VInv s []) (creates : EvDev → Bool) (l : List GrabbedDesc) :
    VInv (s.updateForwardDevices creates l).1 [] := by
  have h0 : VInv { s with forward := [], devices := [], lastMouse := none } s.forward := by
    have hn : (s.forward.map (·.1)).Nodup := by simpa using h.nodup
    refine ⟨fun d' => ?_, by simpa using hn, h.pressed, fun d' hd' => ?_, fun d' hd' => ?_⟩
    · have hok := h.ok d'
      rw [VDevs.getP_nil] at hok
      cases d' with
      | keyboard => exact hok
      | forward i => exact hok
    · cases hd'
    · cases hd'
  have h1 := VInv.addDevices creates l h0
  unfold VDevs.updateForwardDevices
  exact h1.destroyAll

theorem VInv.step {s : VDevs} (h : VInv s []) (op : VOp) : VInv (vStep s op) [] := by
  cases op with
  | key e => exact h.sendKeyEvent e
  | raw dev ev =>
    show VInv (if (toKeyEvent ev).isSome then s else s.forwardEvent dev ev) []
    split
    · exact h
    · next hn => exact h.forwardEvent dev (by simpa using hn)
  | update creates l => exact h.updateForwardDevices creates l

/-- The invariant holds after every history. -/
theorem vinv_run (ops : List VOp) : VInv (vRun {} ops) [] := by
  have : ∀ (ops : List VOp) (s : VDevs), VInv s [] → VInv (vRun s ops) [] := by
    intro ops
    induction ops with
    | nil => exact fun s h => h
    | cons op ops ih => exact fun s h => ih _ (h.step op)
  exact this ops {} vinv_init

end KM
