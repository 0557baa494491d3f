import Verif.Lemmas.Tracking
/-!
# Invariant: what is held on the output keyboard is tracked
-/
namespace KM

theorem heldAfter_append (a b : KeySequence) (k : Key) :
    heldAfter (a ++ b) k = b.foldl (heldStep k) (heldAfter a k) := by
  unfold heldAfter
  rw [List.foldl_append]

theorem heldAfter_down (a : KeySequence) {e : KeyEvent} (k : Key) (he : e.state = .Down) :
    heldAfter (a ++ [e]) k = (e.key == k || heldAfter a k) := by
  rw [heldAfter_append]
  by_cases h : e.key = k <;> simp [heldStep, he, h]

theorem heldAfter_up (a : KeySequence) {e : KeyEvent} (k : Key) (he : e.state = .Up) :
    heldAfter (a ++ [e]) k = (!(e.key == k) && heldAfter a k) := by
  rw [heldAfter_append]
  by_cases h : e.key = k <;> simp [heldStep, he, h]

theorem heldAfter_other (a b : KeySequence) (k : Key) (h : ∀ e ∈ b, e.key ≠ k) :
    heldAfter (a ++ b) k = heldAfter a k := by
  rw [heldAfter_append]
  generalize heldAfter a k = x
  induction b generalizing x with
  | nil => rfl
  | cons e b ih =>
    rw [List.foldl_cons, heldStep, if_neg (h e (by simp))]
    exact ih (fun e he => h e (by simp [he])) _

theorem heldAfter_remove (a b : KeySequence) (x : KeyEvent) (k : Key) (h : x.key ≠ k) :
    heldAfter (a ++ x :: b) k = heldAfter (a ++ b) k := by
  rw [heldAfter_append, heldAfter_append, List.foldl_cons, heldStep, if_neg h]

theorem eq_of_key {l : List OutputDown} (h : (l.map (·.key)).Nodup) {x y : OutputDown} (hx : x ∈ l)
    (hy : y ∈ l) (hxy : x.key = y.key) : x = y := by
  induction l with
  | nil => simp at hx
  | cons a l ih =>
    simp only [List.map_cons, List.nodup_cons, List.mem_map] at h
    rcases List.mem_cons.1 hx with h1 | h1 <;> rcases List.mem_cons.1 hy with h2 | h2
    · rw [h1, h2]
    · exact absurd ⟨y, h2, h1 ▸ hxy.symm⟩ h.1
    · exact absurd ⟨x, h1, h2 ▸ hxy⟩ h.1
    · exact ih h.2 h1 h2

/-- the entry is safe to be released -/
def OutputDown.Armed (o : OutputDown) : Prop :=
  o.pressedTwice = false ∨ o.suppressed = true ∨ o.temporarilyReleased = false

/-- everything but the key `k` is disregarded, and `timeout` is never tracked -/
def Disregarded (k j : Key) : Prop := j ≠ k ∨ j = Key.timeout

structure Holds (q : Key) (A : Key → Prop) (tr : KeySequence) (down : List OutputDown) : Prop where
  nodup : (down.map (·.key)).Nodup
  held : ∀ k, ¬Disregarded q k → heldAfter tr k = true → ∃ o ∈ down, o.key = k ∧ o.temporarilyReleased = false
  armed : ∀ o ∈ down, A o.key → o.Armed

theorem Holds.mono {q : Key} {A B : Key → Prop} {tr down} (h : Holds q A tr down) (hAB : ∀ k, B k → A k) : Holds q B tr down :=
  ⟨h.nodup, h.held, fun o ho hb => h.armed o ho (hAB _ hb)⟩

theorem Holds.appendUp {q : Key} {A : Key → Prop} {tr down} (h : Holds q A tr down) {e : KeyEvent} (he : e.state = .Up) :
    Holds q A (tr ++ [e]) down := by
  refine ⟨h.nodup, ?_, h.armed⟩
  intro k hk hh
  rw [heldAfter_up _ _ he] at hh
  simp at hh
  exact h.held k hk hh.2

theorem Holds.appendTimeout {q : Key} {A : Key → Prop} {tr down} (h : Holds q A tr down) {e : KeyEvent} (he : e.key = Key.timeout) :
    Holds q A (tr ++ [e]) down := by
  refine ⟨h.nodup, ?_, h.armed⟩
  intro k hk hh
  rw [heldAfter_other _ _ _ (by intro x hx h'; rw [List.mem_singleton.1 hx, he] at h'; exact hk (.inr h'.symm))] at hh
  exact h.held k hk hh

theorem Holds.dropUp {q : Key} {A : Key → Prop} {tr pre post} {o : OutputDown} {e : KeyEvent}
    (h : Holds q A (tr ++ [e]) (pre ++ o :: post)) (he : e.key = o.key) :
    Holds q A tr (pre ++ { o with temporarilyReleased := false } :: post) := by
  refine ⟨by simpa using h.nodup, ?_, ?_⟩
  · intro k hk hh
    by_cases hko : k = o.key
    · exact ⟨{ o with temporarilyReleased := false }, by simp, hko.symm, rfl⟩
    · have : heldAfter (tr ++ [e]) k = true := by
        rw [heldAfter_other]
        · exact hh
        · intro x hx; simp at hx; subst hx; rw [he]; exact Ne.symm hko
      obtain ⟨x, hx, h1, h2⟩ := h.held k hk this
      simp only [List.mem_append, List.mem_cons] at hx
      rcases hx with hx | hx | hx
      · exact ⟨x, by simp [hx], h1, h2⟩
      · subst hx; exact absurd h1.symm hko
      · exact ⟨x, by simp [hx], h1, h2⟩
  · intro x hx ha
    simp only [List.mem_append, List.mem_cons] at hx
    rcases hx with hx | hx | hx
    · exact h.armed x (by simp [hx]) ha
    · subst hx; exact Or.inr (Or.inr rfl)
    · exact h.armed x (by simp [hx]) ha

/-- the key of the modified entry is not held afterwards, or the entry is not temporarily released -/
theorem Holds.modify {q : Key} {A B : Key → Prop} {tr tr' pre post} {o o' : OutputDown} (h : Holds q A tr (pre ++ o :: post))
    (hk : o'.key = o.key)
    (hh : ∀ k, k ≠ o.key → heldAfter tr' k = heldAfter tr k)
    (ho : o'.temporarilyReleased = false ∨ heldAfter tr' o.key = false ∨ Disregarded q o.key)
    (hB : ∀ k, B k → A k ∨ k = o.key)
    (ha : B o.key → o'.Armed) :
    Holds q B tr' (pre ++ o' :: post) := by
  have hne : ∀ y, y ∈ pre ∨ y ∈ post → y.key ≠ o.key := by
    intro y hy heq
    have hnd := h.nodup
    simp only [List.map_append, List.map_cons, List.nodup_append, List.nodup_cons,
      List.mem_map, List.mem_cons] at hnd
    rcases hy with hy | hy
    · exact hnd.2.2 y.key ⟨y, hy, rfl⟩ o.key (Or.inl rfl) heq
    · exact hnd.2.1.1 ⟨y, hy, heq⟩
  refine ⟨by simpa [hk] using h.nodup, ?_, ?_⟩
  · intro k hkt hheld
    by_cases hko : k = o.key
    · subst hko
      rcases ho with ho | ho | ho
      · exact ⟨o', by simp, hk, ho⟩
      · rw [ho] at hheld; simp at hheld
      · exact absurd ho hkt
    · rw [hh k hko] at hheld
      obtain ⟨x, hx, h1, h2⟩ := h.held k hkt hheld
      simp only [List.mem_append, List.mem_cons] at hx
      rcases hx with hx | hx | hx
      · exact ⟨x, by simp [hx], h1, h2⟩
      · subst hx; exact absurd h1.symm hko
      · exact ⟨x, by simp [hx], h1, h2⟩
  · intro x hx hb
    simp only [List.mem_append, List.mem_cons] at hx
    have : ∀ x, x ∈ pre ∨ x ∈ post → B x.key → x.Armed := by
      intro x hx hb
      rcases hB _ hb with h1 | h1
      · exact h.armed x (by rcases hx with hx | hx <;> simp [hx]) h1
      · exact absurd h1 (hne x hx)
    rcases hx with hx | hx | hx
    · exact this x (Or.inl hx) hb
    · subst hx; exact ha (hk ▸ hb)
    · exact this x (Or.inr hx) hb

theorem Holds.erase {q : Key} {A : Key → Prop} {tr tr' pre post} {o : OutputDown} (h : Holds q A tr (pre ++ o :: post))
    (hh : ∀ k, k ≠ o.key → heldAfter tr' k = heldAfter tr k)
    (ho : heldAfter tr' o.key = false ∨ Disregarded q o.key) : Holds q A tr' (pre ++ post) := by
  refine ⟨?_, ?_, ?_⟩
  · refine List.Nodup.sublist ?_ h.nodup
    simp
  · intro k hkt hheld
    by_cases hko : k = o.key
    · subst hko
      rcases ho with ho | ho
      · rw [ho] at hheld; simp at hheld
      · exact absurd ho hkt
    · rw [hh k hko] at hheld
      obtain ⟨x, hx, h1, h2⟩ := h.held k hkt hheld
      simp only [List.mem_append, List.mem_cons] at hx
      rcases hx with hx | hx | hx
      · exact ⟨x, by simp [hx], h1, h2⟩
      · subst hx; exact absurd h1.symm hko
      · exact ⟨x, by simp [hx], h1, h2⟩
  · intro x hx hb
    simp only [List.mem_append] at hx
    exact h.armed x (by rcases hx with hx | hx <;> simp [hx]) hb

theorem Holds.reapplyLoop {q : Key} {A : Key → Prop} {T : KeySequence} {s : S} {k : Key} (h : Holds q A (T ++ s.buf) s.down) :
    Holds q A (T ++ (reapplyLoop k s.down s.buf s.reapplied).2.1) (reapplyLoop k s.down s.buf s.reapplied).1 := by
  have := reapplyLoop_ind (P := fun b d => Holds q A (T ++ b) d) (k := k) (pre := []) (r := s.reapplied)
    (l := s.down) (b := s.buf) ?_ ?_ h
  · simpa using this
  · intro b pre o post h _ _
    refine h.modify rfl ?_ (Or.inl rfl) (fun k hk => Or.inl hk) ?_
    · intro k hk
      rw [← List.append_assoc, heldAfter_other]
      simp [Ne.symm hk]
    · intro _; exact Or.inr (Or.inr rfl)
  · intro b pre o post h _ _ hk
    rw [← List.append_assoc] at h
    exact h.dropUp (by simp [hk])

/-- the events which may be applied when the presses `A` were applied before -/
def allowed (q : Key) (A : Key → Prop) (ev : KeyEvent) : Prop := ev.state = .Up → Disregarded q ev.key ∨ A ev.key

theorem Holds.updateOutput {q : Key} {A : Key → Prop} {T : KeySequence} {s : S} (ev trig ctx)
    (hev : allowed q A ev) (h : Holds q A (T ++ s.buf) s.down) :
    Holds q (fun k => A k ∨ (ev.state = .Down ∧ k = ev.key))
      (T ++ (updateOutput s ev trig ctx).buf) (updateOutput s ev trig ctx).down := by
  have hmono : ev.state ≠ .Down → ∀ {tr down}, Holds q A tr down →
      Holds q (fun k => A k ∨ (ev.state = .Down ∧ k = ev.key)) tr down := by
    intro hne tr down h
    exact h.mono (fun k hk => hk.elim id (fun h' => absurd h'.1 hne))
  unfold KM.updateOutput
  split
  · -- Up
    next hst =>
    have hev := hev hst
    apply hmono (by simp [hst])
    unfold updateOutputUp
    split
    · exact h
    · next o ho =>
      obtain ⟨pre, post, h1, h2, h3, h4, h5⟩ := find_split ho
      have hk : o.key = ev.key := by simpa using h2
      have happ : ∀ k, k ≠ o.key → heldAfter (T ++ (s.buf ++ [ev])) k = heldAfter (T ++ s.buf) k := by
        intro k hko
        rw [← List.append_assoc, heldAfter_other]
        simp [← hk, Ne.symm hko]
      have hup : heldAfter (T ++ (s.buf ++ [ev])) o.key = false := by
        rw [← List.append_assoc, heldAfter_up _ _ hst]
        simp [hk]
      rw [h1] at h
      split
      · simp only [h4]
        exact h.modify rfl happ (Or.inr (Or.inl hup)) (fun k hk => Or.inl hk) (fun _ => Or.inl rfl)
      · split
        · next hp =>
          simp only [Bool.and_eq_true, Bool.not_eq_true'] at hp
          simp only [h4]
          refine h.modify rfl ?_ ?_ (fun k hk => Or.inl hk) (fun _ => Or.inl rfl)
          · intro k hko
            rcases rEraseKey_split s.buf ev.key with ⟨_, hr⟩ | ⟨a, x, b, hb, hx, hbx, hr⟩
            · rw [hr]
            · rw [hr, hb, ← List.append_assoc, ← List.append_assoc]
              symm
              apply heldAfter_remove
              rw [hx, ← hk]
              exact Ne.symm hko
          · simp only []
            rcases hev with hev | hev
            · exact Or.inr (Or.inr (hk ▸ hev))
            · rcases h.armed o (by simp) (hk ▸ hev) with h6 | h6 | h6
              · simp [h6] at hp
              · simp [h6] at hp
              · exact Or.inl h6
        · next hnv hp =>
          split
          · simp only [h5]
            exact h.erase happ (Or.inl hup)
          · simp only [h4]
            refine h.modify rfl happ (Or.inr (Or.inl hup)) (fun k hk => Or.inl hk) (fun ha => ?_)
            unfold OutputDown.Armed
            simp only []
            cases hpt : o.pressedTwice with
            | false => exact Or.inl rfl
            | true =>
              cases hsu : o.suppressed with
              | false => simp [hpt, hsu] at hp
              | true => exact Or.inr (Or.inl rfl)
  · -- Not
    next hst =>
    apply hmono (by simp [hst])
    unfold updateOutputNot
    split
    · exact h
    · next o ho =>
      obtain ⟨pre, post, h1, h2, h3, h4, h5⟩ := find_split ho
      have hk : o.key = ev.key := by simpa using h2
      split
      · exact h
      · simp only [h4]
        rw [h1] at h
        split
        · next htr =>
          refine h.modify rfl (fun _ _ => rfl) ?_ (fun k hk => Or.inl hk) (fun ha => Or.inr (Or.inl rfl))
          -- a temporarily released key is not held
          by_cases hkt : Disregarded q o.key
          · exact Or.inr (Or.inr hkt)
          · cases hh : heldAfter (T ++ s.buf) o.key with
            | false => exact Or.inr (Or.inl rfl)
            | true =>
              obtain ⟨x, hx, hx1, hx2⟩ := h.held o.key hkt hh
              have hnd := h.nodup
              simp only [List.map_append, List.map_cons, List.nodup_append, List.nodup_cons,
                List.mem_map, List.mem_cons] at hnd
              simp only [List.mem_append, List.mem_cons] at hx
              rcases hx with hx | hx | hx
              · exact absurd hx1 (hnd.2.2 x.key ⟨x, hx, rfl⟩ o.key (Or.inl rfl))
              · subst hx; simp [htr] at hx2
              · exact absurd ⟨x, hx, hx1⟩ hnd.2.1.1
        · refine h.modify rfl ?_ (Or.inr (Or.inl ?_)) (fun k hk => Or.inl hk) (fun ha => Or.inr (Or.inl rfl))
          · intro k hko
            rw [← List.append_assoc, heldAfter_other]
            simp [← hk, Ne.symm hko]
          · rw [← List.append_assoc, heldAfter_up _ _ rfl]
            simp [hk]
  · -- Down
    next hst =>
    have hB : ∀ {k}, k = ev.key → A k ∨ (ev.state = .Down ∧ k = ev.key) := fun h => Or.inr ⟨hst, h⟩
    unfold updateOutputDown
    have hr := h.reapplyLoop (k := ev.key)
    have hret := reapplyLoop_returned (k := ev.key) (l := s.down) (b := s.buf) (r := s.reapplied)
    generalize KM.reapplyLoop ev.key s.down s.buf s.reapplied = r at *
    obtain ⟨down, buf, reapplied, returned⟩ := r
    simp only [] at *
    have happ : ∀ k, k ≠ ev.key → heldAfter (T ++ (buf ++ [ev])) k = heldAfter (T ++ buf) k := by
      intro k hko
      rw [← List.append_assoc, heldAfter_other]
      simp [Ne.symm hko]
    split
    · next hre =>
      obtain ⟨o, ho, hk, ht⟩ := hret hre
      refine ⟨hr.nodup, hr.held, ?_⟩
      intro x hx hxa
      rcases hxa with hxa | ⟨_, hxa⟩
      · exact hr.armed x hx hxa
      · have : x = o := by
          have hnd := hr.nodup
          exact eq_of_key hnd hx ho (hxa.trans hk.symm)
        subst this
        exact Or.inr (Or.inr ht)
    · split
      · next hn =>
        have hnone : ∀ o ∈ down, o.key ≠ ev.key := by
          simpa only [Option.isNone_iff_eq_none, List.find?_eq_none, beq_iff_eq] using hn
        split
        · next hkt =>
          refine ⟨?_, ?_, ?_⟩
          · rw [List.map_append, List.nodup_append]
            refine ⟨hr.nodup, by simp, ?_⟩
            intro a ha b hb
            simp only [List.mem_map] at ha
            obtain ⟨o, ho, rfl⟩ := ha
            simp only [List.map_cons, List.map_nil, List.mem_singleton] at hb
            subst hb
            exact hnone o ho
          · intro k hkt hh
            by_cases hko : k = ev.key
            · exact ⟨_, List.mem_append_right _ (List.mem_singleton.2 rfl), hko.symm, rfl⟩
            · rw [happ k hko] at hh
              obtain ⟨x, hx, h1⟩ := hr.held k hkt hh
              exact ⟨x, by simp [hx], h1⟩
          · intro o ho hoa
            simp only [List.mem_append, List.mem_singleton] at ho
            rcases ho with ho | ho
            · rcases hoa with hoa | ⟨_, hoa⟩
              · exact hr.armed o ho hoa
              · exact absurd hoa (hnone o ho)
            · subst ho; exact Or.inl rfl
        · next hkt =>
          have hkt : ev.key = Key.timeout := by simpa using hkt
          refine ⟨hr.nodup, ?_, ?_⟩
          · intro k hk hh
            rw [happ k (fun h' => hk (.inr (h'.trans hkt)))] at hh
            exact hr.held k hk hh
          · intro o ho hoa
            rcases hoa with hoa | ⟨_, hoa⟩
            · exact hr.armed o ho hoa
            · exact absurd hoa (hnone o ho)
      · next hn =>
        cases ho : down.find? (·.key == ev.key) with
        | none => simp [ho] at hn
        | some o =>
          obtain ⟨pre, post, h1, h2, h3, h4, h5⟩ := find_split ho
          have hk : o.key = ev.key := by simpa using h2
          simp only [h4]
          subst h1
          refine hr.modify rfl ?_ (Or.inl rfl) ?_ (fun _ => Or.inr (Or.inr rfl))
          · intro k hko
            split
            · rw [← List.append_assoc, heldAfter_other]
              simp [← hk, Ne.symm hko]
            · exact happ k (hk ▸ hko)
          · intro k hk'
            rcases hk' with h6 | h6
            · exact Or.inl h6
            · exact Or.inr (h6.2.trans hk.symm)
  all_goals exact hmono (by first | assumption | simp [*]) h

theorem updateOutput_anyM (s : S) (ev trig ctx) : (updateOutput s ev trig ctx).anyM = s.anyM := by
  unfold updateOutput
  split
  · unfold updateOutputUp; split; · rfl
    split; · rfl
    split <;> rfl
  · unfold updateOutputNot; split; · rfl
    split <;> rfl
  · unfold updateOutputDown; simp only []
    split; · rfl
    split <;> rfl
  all_goals rfl

theorem updateOutput_onRelease (s : S) (ev trig ctx) :
    (updateOutput s ev trig ctx).onRelease = s.onRelease := by
  unfold updateOutput
  split
  · unfold updateOutputUp; split; · rfl
    split; · rfl
    split <;> rfl
  · unfold updateOutputNot; split; · rfl
    split <;> rfl
  · unfold updateOutputDown; simp only []
    split; · rfl
    split <;> rfl
  all_goals rfl

theorem Holds.foldNot {α : Type} {q : Key} {A : Key → Prop} {T} {s : S} (l : List α) (f : α → KeyEvent) (trig ctx)
    (hf : ∀ a, (f a).state = .Not) (h : Holds q A (T ++ s.buf) s.down) :
    Holds q A (T ++ (l.foldl (fun s a => KM.updateOutput s (f a) trig ctx) s).buf)
      (l.foldl (fun s a => KM.updateOutput s (f a) trig ctx) s).down ∧
    (l.foldl (fun s a => KM.updateOutput s (f a) trig ctx) s).anyM = s.anyM ∧
    (l.foldl (fun s a => KM.updateOutput s (f a) trig ctx) s).onRelease = s.onRelease := by
  induction l generalizing s with
  | nil => exact ⟨h, rfl, rfl⟩
  | cons a l ih =>
    have h1 := h.updateOutput (f a) trig ctx (fun h' => by rw [hf] at h'; simp at h')
    have := ih (h1.mono (fun k hk => Or.inl hk))
    rw [updateOutput_anyM, updateOutput_onRelease] at this
    exact this

theorem Holds.foldAny {q : Key} {A : Key → Prop} {T} {s : S} (l : List Key) (st : KeyState) (trig ctx)
    (hA : st = .Up → ∀ k ∈ l, A k) (h : Holds q A (T ++ s.buf) s.down) :
    Holds q (fun k => A k ∨ (st = .Down ∧ k ∈ l))
      (T ++ (l.foldl (fun s k => KM.updateOutput s ⟨k, st, 0⟩ trig ctx) s).buf)
      (l.foldl (fun s k => KM.updateOutput s ⟨k, st, 0⟩ trig ctx) s).down ∧
    (l.foldl (fun s k => KM.updateOutput s ⟨k, st, 0⟩ trig ctx) s).anyM = s.anyM ∧
    (l.foldl (fun s k => KM.updateOutput s ⟨k, st, 0⟩ trig ctx) s).onRelease = s.onRelease := by
  induction l generalizing A s with
  | nil => exact ⟨h.mono (by simp), rfl, rfl⟩
  | cons a l ih =>
    have h1 := h.updateOutput ⟨a, st, 0⟩ trig ctx (fun h' => Or.inr (hA h' a (by simp)))
    have h2 := ih (fun hs k hk => Or.inl (hA hs k (by simp [hk]))) h1
    rw [updateOutput_anyM, updateOutput_onRelease] at h2
    refine ⟨h2.1.mono ?_, h2.2⟩
    intro k hk
    simp only [List.mem_cons] at hk
    rcases hk with hk | ⟨hs, rfl | hk⟩
    · exact Or.inl (Or.inl hk)
    · exact Or.inl (Or.inr ⟨hs, rfl⟩)
    · exact Or.inr ⟨hs, hk⟩

/-- the keys pressed by the events `seen`, with `Any` replaced -/
def pressedBy (seen : List Key) (anyM : List Key) (k : Key) : Prop :=
  (k ∈ seen ∧ k ≠ Key.any) ∨ (Key.any ∈ seen ∧ k ∈ anyM)

theorem Holds.applyOutput {q : Key} {T : KeySequence} (out : KeySequence) (seen : List Key) (s : S) (trig ctx)
    (hG : releasesOwn q seen out = true)
    (hp : ∀ o ∈ s.onRelease, releasesOwn q [] o.sequence = true)
    (h : Holds q (pressedBy seen s.anyM) (T ++ s.buf) s.down) :
    Holds q (fun _ => False) (T ++ (applyOutput s out trig ctx).buf) (applyOutput s out trig ctx).down ∧
    (∀ o ∈ (KM.applyOutput s out trig ctx).onRelease, releasesOwn q [] o.sequence = true) := by
  induction out generalizing s seen with
  | nil => exact ⟨h.mono (by simp), hp⟩
  | cons ev rest ih =>
    unfold KM.applyOutput
    -- what the specification says about the rest
    have hrest : releasesOwn q (if ev.state = .Down then ev.key :: seen else
        if ev.state = .OutputOnRelease then [] else seen) rest = true := by
      unfold releasesOwn at hG
      split at hG <;> simp_all
    have hup : ev.state = .Up → (ev.key ≠ q ∧ ev.key ≠ Key.any) ∨ ev.key ∈ seen := by
      intro hs
      unfold releasesOwn at hG
      simp only [hs, Bool.and_eq_true, Bool.or_eq_true, bne_iff_ne, List.contains_iff_mem] at hG
      exact hG.1
    split
    · next hany =>
      have hany : ev.key = Key.any := by simpa using hany
      simp only []
      split
      · next hst =>
        have hst : ev.state = .Not := by simpa using hst
        obtain ⟨h1, h2, h3⟩ := h.foldNot s.down (fun (o : OutputDown) => ⟨o.key, .Not, 0⟩) trig ctx
          (fun _ => rfl)
        simp only [hst] at hrest
        exact ih seen _ hrest (by rw [h3]; exact hp) (by rw [h2]; exact h1)
      · next hst =>
        obtain ⟨h1, h2, h3⟩ := h.foldAny s.anyM ev.state trig ctx (by
          intro hs k hk
          rcases hup hs with h4 | h4
          · exact absurd hany h4.2
          · exact Or.inr ⟨hany ▸ h4, hk⟩)
        refine ih _ _ hrest (by rw [h3]; exact hp) ?_
        rw [h2]
        refine h1.mono ?_
        intro k hk
        by_cases hd : ev.state = .Down
        · simp only [hd, if_true, pressedBy, List.mem_cons] at hk
          rcases hk with ⟨hk | hk, hk'⟩ | hk
          · exact absurd (hk.trans hany) hk'
          · exact Or.inl (Or.inl ⟨hk, hk'⟩)
          · exact Or.inr ⟨hd, hk.2⟩
        · simp only [hd, if_false] at hk
          split at hk
          · simp [pressedBy] at hk
          · exact Or.inl hk
    · next hany =>
      have hany : ev.key ≠ Key.any := by simpa using hany
      split
      · next hst =>
        have hst : ev.state = .OutputOnRelease := by simpa using hst
        simp only [hst] at hrest
        split
        · refine ⟨h.mono (by simp), ?_⟩
          intro o ho
          simp only [List.mem_append, List.mem_singleton] at ho
          rcases ho with ho | ho
          · exact hp o ho
          · subst ho; exact hrest
        · exact ih [] s hrest hp (h.mono (by simp [pressedBy]))
      · next hne =>
        have hne : ev.state ≠ .OutputOnRelease := by simpa using hne
        split
        · next hv =>
          have hst : ev.state = .Not := by
            simp only [Bool.and_eq_true, beq_iff_eq] at hv; exact hv.1
          simp only [hst] at hrest
          simp only []
          split
          · have h1 := h.updateOutput ⟨ev.key, .Down, 0⟩ trig ctx (by simp [allowed])
            exact ih seen _ hrest (by rw [updateOutput_onRelease]; exact hp)
              (by rw [updateOutput_anyM]; exact h1.mono (fun k hk => Or.inl hk))
          · exact ih seen _ hrest hp h
        · have h1 := h.updateOutput ev trig ctx (fun hs => (hup hs).imp (fun h => .inl h.1) (fun h => Or.inl ⟨h, hany⟩))
          refine ih _ _ hrest (by rw [updateOutput_onRelease]; exact hp) ?_
          rw [updateOutput_anyM]
          refine h1.mono ?_
          intro k hk
          by_cases hd : ev.state = .Down
          · simp only [hd, if_true, pressedBy, List.mem_cons] at hk
            rcases hk with ⟨hk | hk, hk'⟩ | ⟨hk, hk'⟩
            · exact Or.inr ⟨hd, hk⟩
            · exact Or.inl (Or.inl ⟨hk, hk'⟩)
            · rcases hk with hk | hk
              · exact absurd hk.symm hany
              · exact Or.inl (Or.inr ⟨hk, hk'⟩)
          · simp only [hd, if_false, hne] at hk
            exact Or.inl hk

theorem Holds.releaseTriggered {q : Key} {A : Key → Prop} {T : KeySequence} {s : S} (k ctx) (h : Holds q A (T ++ s.buf) s.down) :
    Holds q A (T ++ (releaseTriggered s k ctx).buf) (releaseTriggered s k ctx).down := by
  unfold KM.releaseTriggered
  simp only []
  rw [← List.append_assoc]
  refine ⟨List.Nodup.sublist (List.filter_sublist.map _) h.nodup, ?_, ?_⟩
  · intro j hj hh
    generalize hl : ((s.down.filter (fun o => !staysDown k ctx o)).reverse.filter
      (fun o => !o.temporarilyReleased)) = l at hh
    have hups : ∀ (l : List OutputDown), heldAfter (T ++ s.buf ++ l.map (fun o => ⟨o.key, .Up, 0⟩)) j = true →
        heldAfter (T ++ s.buf) j = true ∧ ∀ o ∈ l, o.key ≠ j := by
      intro l
      induction l using reverse_ind with
      | nil => intro h; exact ⟨by simpa using h, by simp⟩
      | concat l o ih =>
        intro h
        rw [List.map_append, ← List.append_assoc] at h
        simp only [List.map_cons, List.map_nil] at h
        rw [heldAfter_up _ _ rfl] at h
        simp only [Bool.and_eq_true, Bool.not_eq_true', beq_eq_false_iff_ne, ne_eq] at h
        refine ⟨(ih h.2).1, ?_⟩
        intro x hx
        rcases List.mem_append.1 hx with hx | hx
        · exact (ih h.2).2 x hx
        · simp at hx; subst hx; exact h.1
    obtain ⟨h1, h2⟩ := hups l hh
    obtain ⟨o, ho, ho1, ho2⟩ := h.held j hj h1
    refine ⟨o, ?_, ho1, ho2⟩
    rw [List.mem_filter]
    refine ⟨ho, ?_⟩
    cases hst : staysDown k ctx o with
    | true => rfl
    | false =>
      exfalso
      apply h2 o _ ho1
      rw [← hl]
      simp [ho, hst, ho2]
  · intro o ho ha
    exact h.armed o (List.mem_filter.1 ho).1 ha

/-- what is held is tracked, and the outputs waiting for a release only release what they pressed, as far as the key `q` is concerned -/
def HeldTracked (q : Key) (T : KeySequence) (s : S) : Prop :=
  Holds q (fun _ => False) (T ++ s.buf) s.down ∧ ∀ o ∈ s.onRelease, releasesOwn q [] o.sequence = true

theorem held_histInv (q : Key) : HistInv (fun out => releasesOwn q [] out = true) (HeldTracked q) where
  stage c T hG :=
    { outputs := hG
      frame := by
        intro s s' h1 h2 h3 h
        refine ⟨by rw [h1, h2]; exact h.1, fun o ho => h.2 o (h3 o ho)⟩
      pending := fun _ h o ho => h.2 o ho
      apply := by
        intro s out trig ctx hout h
        exact Holds.applyOutput out [] s trig ctx hout h.2 (h.1.mono (by simp [pressedBy]))
      forward := by
        intro s e he h
        refine ⟨(h.1.updateOutput e _ _ ?_).mono (by simp), by rw [updateOutput_onRelease]; exact h.2⟩
        intro hs
        rw [hs] at he
        simp at he
      release := fun s k ctx h => ⟨h.1.releaseTriggered k ctx, h.2⟩
      timeout := by
        intro s t ht h
        refine ⟨?_, h.2⟩
        simp only []
        rw [← List.append_assoc]
        exact h.1.appendTimeout ht
      reset := by
        intro s h
        refine ⟨⟨?_, ?_, ?_⟩, h.2⟩
        · have := h.1.nodup
          simp only [List.map_map]
          exact this
        · intro k hk hh
          obtain ⟨o, ho, h1⟩ := h.1.held k hk hh
          exact ⟨_, List.mem_map.2 ⟨o, ho, rfl⟩, h1⟩
        · simp }
  emit T s h := ⟨by simpa using h.1, h.2⟩

theorem held_run (q : Key) (contexts : List Context) (ops : List StageOp)
    (hops : ∀ op ∈ ops, op.isRegular = true)
    (hout : ∀ ctx ∈ contexts, (∀ out ∈ ctx.outputs, releasesOwn q [] out = true) ∧
      ∀ o ∈ ctx.commandOutputs, releasesOwn q [] o.output = true) :
    Holds q (fun _ => False) (stageRun (stageInit contexts) ops).2
      (stageRun (stageInit contexts) ops).1.2.down := by
  have h := (held_histInv q).run (ops := ops) (fun f hf => by simpa [StageOp.isRegular] using hops _ hf)
    (st := stageInit contexts) (T := []) ?_ ⟨⟨?_, ?_, ?_⟩, ?_⟩ rfl
  · have h2 := h.2
    have h1 := h.1.1
    simp only [h2] at h1
    simpa using h1
  · intro out ho
    obtain ⟨ctx, hctx, h⟩ := hasOutput_make ho
    rcases h with h | ⟨o, h1, rfl⟩
    · exact (hout ctx hctx).1 out h
    · exact (hout ctx hctx).2 o h1
  · simp [stageInit]
  · simp [stageInit, heldAfter]
  · simp
  · simp [stageInit]

end KM
