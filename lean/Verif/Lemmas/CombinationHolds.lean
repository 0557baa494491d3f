import Verif.Spec.Combinations
/-!
# Lemmas: what is held in the output is held because of keys which are held
-/
namespace KM

/-- the causes of these are causes of the others, or the given one -/
def CausedBy (cause : Key) (hs hs' : List Hold) : Prop := ∀ h ∈ hs', h.cause = cause ∨ ∃ h' ∈ hs, h'.cause = h.cause

theorem CausedBy.rfl {cause : Key} {hs : List Hold} : CausedBy cause hs hs := fun h hm => .inr ⟨h, hm, Eq.refl _⟩

theorem CausedBy.trans {cause : Key} {a b c : List Hold} (h1 : CausedBy cause a b) (h2 : CausedBy cause b c) : CausedBy cause a c := by
  intro h hm
  rcases h2 h hm with e | ⟨h', hm', e⟩
  · exact .inl e
  · rcases h1 h' hm' with e' | ⟨h'', hm'', e'⟩
    · exact .inl (e ▸ e')
    · exact .inr ⟨h'', hm'', e'.trans e⟩

theorem causedBy_change {cause k : Key} {f : Hold → Hold} (hf : ∀ h, (f h).cause = h.cause) (hs : List Hold) : CausedBy cause hs (changeHold k f hs) := by
  intro h hm
  obtain ⟨h', hm', e⟩ := List.mem_map.1 hm
  refine .inr ⟨h', hm', ?_⟩
  rw [← e]
  split
  · exact (hf h').symm
  · exact Eq.refl _

theorem causedBy_restore (cause : Key) (banned : List Key) (k : Key) (hs : List Hold) : CausedBy cause hs (restore banned k hs).1 := by
  induction hs with
  | nil => exact CausedBy.rfl
  | cons h hs ih =>
    have tail : ∀ g : Hold, g.cause = h.cause → CausedBy cause (h :: hs) (g :: (restore banned k hs).1) := by
      intro g hg x hx
      rcases List.mem_cons.1 hx with rfl | hx
      · exact .inr ⟨h, List.mem_cons_self .., hg.symm⟩
      · exact (ih x hx).imp_right (fun ⟨h', hm', e⟩ => ⟨h', List.mem_cons_of_mem _ hm', e⟩)
    rw [restore]
    split
    · split
      · intro x hx
        rcases List.mem_cons.1 hx with rfl | hx
        · exact .inr ⟨h, List.mem_cons_self .., Eq.refl _⟩
        · exact .inr ⟨x, List.mem_cons_of_mem _ hx, Eq.refl _⟩
      · exact tail _ (Eq.refl _)
    · exact tail _ (Eq.refl _)

theorem causedBy_press (cause : Key) (s : Sink) (k : Key) : CausedBy cause s.holds (s.press cause k).holds := by
  unfold Sink.press
  simp only []
  split
  · refine causedBy_change ?_ _; intro _; rfl
  · split
    · exact causedBy_restore _ _ _ _
    · split
      · exact (causedBy_restore _ _ _ _).trans (causedBy_change (by intro _; rfl) _)
      · intro h hm
        rcases List.mem_append.1 hm with hm | hm
        · exact causedBy_restore cause _ _ _ h hm
        · rw [List.mem_singleton.1 hm]; exact .inl (Eq.refl _)

theorem causedBy_release (cause : Key) (s : Sink) (k : Key) : CausedBy cause s.holds (s.release cause k).holds := by
  unfold Sink.release
  split
  · exact CausedBy.rfl
  · split
    · refine causedBy_change ?_ _; intro _; rfl
    · split
      · refine causedBy_change ?_ _; intro _; rfl
      · split
        · exact fun h hm => .inr ⟨h, (List.mem_filter.1 hm).1, Eq.refl _⟩
        · refine causedBy_change ?_ _; intro _; rfl

theorem causedBy_lift (cause : Key) (s : Sink) (k : Key) : CausedBy cause s.holds (s.lift k).holds := by
  unfold Sink.lift
  split
  · refine causedBy_change ?_ _; intro _; rfl
  · exact CausedBy.rfl

theorem causedBy_lifts (cause : Key) (ks : List Key) : ∀ s : Sink, CausedBy cause s.holds (ks.foldl Sink.lift s).holds := by
  induction ks with
  | nil => intro s; exact CausedBy.rfl
  | cons k ks ih => intro s; exact (causedBy_lift cause s k).trans (ih _)

theorem causedBy_put (cause : Key) (s : Sink) (e : KeyEvent) : CausedBy cause s.holds (s.put cause e).holds := by
  unfold Sink.put
  split
  · exact causedBy_press _ _ _
  · exact causedBy_release _ _ _
  · split
    · exact causedBy_lifts _ _ _
    · exact causedBy_lift _ _ _

theorem causedBy_puts (cause : Key) (es : KeySequence) : ∀ s : Sink, CausedBy cause s.holds (es.foldl (Sink.put cause) s).holds := by
  induction es with
  | nil => intro s; exact CausedBy.rfl
  | cons e es ih => intro s; exact (causedBy_put cause s e).trans (ih _)

/-- everything which is held in the output is held because of a key which is held -/
def Combiner.CausesHeld (r : Combiner) : Prop := ∀ h ∈ r.holds, h.cause ∈ r.held

theorem Combiner.CausesHeld.step {r : Combiner} (hr : r.CausesHeld) (op : StageOp) : (r.step op).1.CausesHeld := by
  cases op with
  | input ev dev =>
    have hd : (r.device ev dev).holds = r.holds ∧ (r.device ev dev).held = r.held := by
      unfold Combiner.device
      repeat' split
      all_goals exact ⟨rfl, rfl⟩
    have hr' : (r.device ev dev).CausesHeld := by
      intro h hm
      rw [hd.1] at hm
      rw [hd.2]; exact hr h hm
    unfold Combiner.step
    simp only []
    generalize r.device ev dev = r' at hr'
    split
    · split
      · exact hr
      · intro h hm
        have hmem : ∀ k ∈ r'.held, k ∈ r'.held.erase ev.key ++ [ev.key] := by
          intro k hk
          by_cases e : k = ev.key
          · rw [e]; exact List.mem_append_right _ (List.mem_singleton.2 rfl)
          · exact List.mem_append_left _ ((List.mem_erase_of_ne e).2 hk)
        rcases causedBy_puts ev.key (r'.outputFor ev dev) { holds := r'.holds } h hm with e | ⟨h', hm', e⟩
        · rw [e]; exact List.mem_append_right _ (List.mem_singleton.2 rfl)
        · rw [← e]; exact hmem _ (hr' h' hm')
    · intro h hm
      obtain ⟨hm, hne⟩ := List.mem_filter.1 hm
      have hne : h.cause ≠ ev.key := by simpa using hne
      rcases causedBy_puts ev.key (r'.releaseOutput ev.key) { holds := r'.holds, banned := r'.banned } h hm with e | ⟨h', hm', e⟩
      · exact absurd e hne
      · rw [← e] at hne ⊢
        exact (List.mem_erase_of_ne hne).2 (hr' h' hm')
  | contexts l => exact hr
  | devices rx ds => exact hr
  | validate f => exact hr

theorem Combiner.causesHeld_after (ops : List StageOp) : ∀ {r : Combiner}, r.CausesHeld → (r.after ops).CausesHeld := by
  induction ops with
  | nil => intro r h; exact h
  | cons op ops ih => intro r h; exact ih (h.step op)

/-- a key which is not held causes nothing -/
theorem Combiner.not_cause (contexts : List Context) (ops : List StageOp) {k : Key} (hk : k ∉ (Combiner.after { contexts := contexts } ops).held) :
    ∀ h ∈ (Combiner.after { contexts := contexts } ops).holds, h.cause ≠ k := by
  intro h hm e
  exact hk (e ▸ Combiner.causesHeld_after ops (r := { contexts := contexts }) (by intro h hm; cases hm) h hm)

end KM
