import Verif.Spec.Devices
/-!
# Lemmas: which devices are grabbed
-/
namespace KM

variable (rx : Regex) (filters : List GrabDeviceFilter) (grabMice : Bool)

/-- Is there a device with this event id which is to be grabbed -/
def stillWanted (devs : List EvDev) (id : Nat) : Bool :=
  devs.any (fun d => isWanted rx filters grabMice d && d.eventId == id)

/-- Is a device grabbed which was not before -/
def isNew (l : List Grabbed) (d : EvDev) : Bool :=
  isWanted rx filters grabMice d && d.grabs && !l.any (fun g => g.dev.eventId == d.eventId)

/-- The devices after some of the files were seen -/
def grabState (devs : List EvDev) (l : List Grabbed) : List Grabbed :=
  l.map (fun g => { g with disappeared := !stillWanted rx filters grabMice devs g.dev.eventId }) ++
  (devs.filter (isNew rx filters grabMice l)).map (fun d => { dev := d })

theorem modFirst_none {α : Type} (p : α → Bool) (f : α → α) (l : List α) (h : ∀ a ∈ l, p a = false) : modFirst p f l = l := by
  induction l with
  | nil => rfl
  | cons a l ih =>
    rw [modFirst, h a List.mem_cons_self]
    simp only [Bool.false_eq_true, if_false]
    rw [ih (fun b hb => h b (List.mem_cons_of_mem _ hb))]

theorem modFirst_append {α : Type} (p : α → Bool) (f : α → α) (a b : List α) (h : a.any p = true) :
    modFirst p f (a ++ b) = modFirst p f a ++ b := by
  induction a with
  | nil => cases h
  | cons x a ih =>
    rw [List.cons_append, modFirst, modFirst]
    cases hx : p x with
    | true => rfl
    | false =>
      simp only [Bool.false_eq_true, if_false]
      rw [List.any_cons, hx, Bool.false_or] at h
      rw [ih h]
      rfl

theorem modFirst_eq_map (id : Nat) (f : Grabbed → Grabbed) (l : List Grabbed) (hn : (l.map (fun g => g.dev.eventId)).Nodup) :
    modFirst (fun g => g.dev.eventId == id) f l = l.map (fun g => if g.dev.eventId = id then f g else g) := by
  induction l with
  | nil => rfl
  | cons x l ih =>
    rw [List.map_cons, List.nodup_cons] at hn
    rw [modFirst, List.map_cons]
    by_cases hx : x.dev.eventId = id
    · rw [if_pos (beq_iff_eq.2 hx), if_pos hx]
      congr 1
      symm
      calc l.map (fun g => if g.dev.eventId = id then f g else g) = l.map (fun g => g) := by
            refine List.map_congr_left (fun g hg => if_neg (fun e => hn.1 ?_))
            rw [hx, ← e]
            exact List.mem_map.2 ⟨g, hg, rfl⟩
        _ = l := List.map_id' l
    · rw [if_neg (by simpa using hx), if_neg hx, ih hn.2]

theorem any_id_map (l : List Grabbed) (id : Nat) (q : Nat → Bool) :
    (l.map (fun g => ({ g with disappeared := q g.dev.eventId } : Grabbed))).any (fun g => g.dev.eventId == id) =
      l.any (fun g => g.dev.eventId == id) := by
  rw [List.any_map]
  rfl

theorem grabNew_eq (l : List Grabbed) (hl : (l.map (fun g => g.dev.eventId)).Nodup) (devs : List EvDev)
    (hd : (devs.map (·.eventId)).Nodup) :
    grabNew rx filters grabMice devs (l.map (fun g => { g with disappeared := true })) = grabState rx filters grabMice devs l := by
  have key : ∀ n (devs : List EvDev), devs.length = n → (devs.map (·.eventId)).Nodup →
      grabNew rx filters grabMice devs (l.map (fun g => { g with disappeared := true })) = grabState rx filters grabMice devs l := by
    intro n
    induction n with
    | zero =>
      intro devs hlen hd
      rw [List.length_eq_zero_iff.1 hlen]
      show l.map _ = l.map _ ++ []
      rw [List.append_nil]
      rfl
    | succ n ih =>
      intro devs hlen hd
      rcases List.eq_nil_or_concat devs with e | ⟨ds, d, e⟩
      · subst e; cases hlen
      · rw [List.concat_eq_append] at e
        subst e
        rw [List.map_append, List.nodup_append] at hd
        have hnot : d.eventId ∉ ds.map (·.eventId) := fun hm => hd.2.2 _ hm d.eventId (by simp) rfl
        have ih' := ih ds (by simpa using hlen) hd.1
        have hstep : grabNew rx filters grabMice (ds ++ [d]) (l.map (fun g => { g with disappeared := true })) =
            if isWanted rx filters grabMice d then grabFound (grabState rx filters grabMice ds l) d else grabState rx filters grabMice ds l := by
          rw [← ih']
          unfold grabNew
          rw [List.foldl_append]
          rfl
        rw [hstep]
        have hsw : ∀ id, stillWanted rx filters grabMice (ds ++ [d]) id =
            (stillWanted rx filters grabMice ds id || (isWanted rx filters grabMice d && d.eventId == id)) := by
          intro id; unfold stillWanted; rw [List.any_append]; simp
        cases hw : isWanted rx filters grabMice d with
        | false =>
          rw [if_neg (by simp)]
          unfold grabState
          have hn : isNew rx filters grabMice l d = false := by unfold isNew; rw [hw]; rfl
          rw [List.filter_append, List.filter_cons, hn]
          simp only [hsw, hw, Bool.false_and, Bool.or_false, Bool.false_eq_true, if_false, List.filter_nil, List.append_nil]
        | true =>
          rw [if_pos rfl]
          have hany : (grabState rx filters grabMice ds l).any (fun g => g.dev.eventId == d.eventId) =
              l.any (fun g => g.dev.eventId == d.eventId) := by
            unfold grabState
            rw [List.any_append, any_id_map l d.eventId (fun i => !stillWanted rx filters grabMice ds i)]
            have : ((ds.filter (isNew rx filters grabMice l)).map (fun d => ({ dev := d } : Grabbed))).any (fun g => g.dev.eventId == d.eventId) = false := by
              rw [Bool.eq_false_iff]
              intro hh
              rw [List.any_eq_true] at hh
              obtain ⟨g, hg, he⟩ := hh
              obtain ⟨d', hd', rfl⟩ := List.mem_map.1 hg
              exact hnot (List.mem_map.2 ⟨d', (List.mem_filter.1 hd').1, by simpa using he⟩)
            rw [this, Bool.or_false]
          unfold grabFound
          rw [hany]
          cases hin : l.any (fun g => g.dev.eventId == d.eventId) with
          | true =>
            rw [if_pos rfl]
            have hn : isNew rx filters grabMice l d = false := by unfold isNew; rw [hin]; simp
            unfold grabState
            rw [modFirst_append _ _ _ _ (by rw [any_id_map l d.eventId (fun i => !stillWanted rx filters grabMice ds i)]; exact hin)]
            rw [List.filter_append, List.filter_cons, hn]
            simp only [Bool.false_eq_true, if_false, List.filter_nil, List.append_nil]
            congr 1
            rw [modFirst_eq_map]
            · rw [List.map_map]
              refine List.map_congr_left (fun g hg => ?_)
              show (if g.dev.eventId = d.eventId then _ else _) = _
              rw [hsw, hw]
              by_cases he : g.dev.eventId = d.eventId
              · rw [if_pos he, he]; simp
              · have he' : ¬ d.eventId = g.dev.eventId := fun h => he h.symm
                rw [if_neg he]; simp [he']
            · rw [List.map_map]; exact hl
          | false =>
            rw [if_neg (by simp)]
            have hold : l.map (fun g => ({ g with disappeared := !stillWanted rx filters grabMice (ds ++ [d]) g.dev.eventId } : Grabbed)) =
                l.map (fun g => { g with disappeared := !stillWanted rx filters grabMice ds g.dev.eventId }) := by
              refine List.map_congr_left (fun g hg => ?_)
              have : (d.eventId == g.dev.eventId) = false := by
                rw [Bool.eq_false_iff]
                intro hh
                have := List.any_eq_false.1 hin g hg
                rw [beq_iff_eq] at hh
                exact this (by rw [hh]; exact beq_self_eq_true _)
              rw [hsw, this, Bool.and_false, Bool.or_false]
            unfold grabState
            rw [List.filter_append, List.filter_cons, hold]
            cases hg : d.grabs with
            | true =>
              have hn : isNew rx filters grabMice l d = true := by unfold isNew; rw [hw, hg, hin]; rfl
              rw [if_pos rfl, hn, if_pos rfl]
              simp
            | false =>
              have hn : isNew rx filters grabMice l d = false := by unfold isNew; rw [hg]; simp
              rw [if_neg (by simp), hn]
              simp
  exact key _ devs rfl hd

/-- The grabbed devices after an update -/
theorem grabUpdate_eq (l : List Grabbed) (hl : (l.map (fun g => g.dev.eventId)).Nodup) (devs : List EvDev)
    (hd : (devs.map (·.eventId)).Nodup) :
    grabUpdate rx filters grabMice devs l =
      (l.filter (fun g => stillWanted rx filters grabMice devs g.dev.eventId)).map (fun g => { g with disappeared := false }) ++
      (devs.filter (isNew rx filters grabMice l)).map (fun d => { dev := d }) := by
  unfold grabUpdate
  rw [grabNew_eq rx filters grabMice l hl devs hd]
  unfold grabState
  rw [List.filter_append]
  congr 1
  · clear hl hd
    generalize stillWanted rx filters grabMice devs = p
    induction l with
    | nil => rfl
    | cons g l ih =>
      rw [List.map_cons, List.filter_cons, List.filter_cons, ih]
      cases hp : p g.dev.eventId with
      | true => rfl
      | false => rfl
  · rw [List.filter_eq_self]
    intro g hg
    obtain ⟨d, -, rfl⟩ := List.mem_map.1 hg
    rfl

end KM
