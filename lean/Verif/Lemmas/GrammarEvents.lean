import Verif.Lemmas.GrammarOut
/-!
# The events of output expressions
-/
namespace KM

/-- append events, combining delays -/
def appendAll (l m : KeySequence) : KeySequence := m.foldl appendEvent l

theorem appendAll_append (l a b : KeySequence) : appendAll l (a ++ b) = appendAll (appendAll l a) b := List.foldl_append

theorem appendEvent_other {l : KeySequence} {e : KeyEvent} (h : isDelayEvent e = false) : appendEvent l e = l ++ [e] := by
  unfold appendEvent
  split
  · rw [h, Bool.and_false]; simp
  · rfl

theorem appendAll_other {l m : KeySequence} (h : ∀ e ∈ m, isDelayEvent e = false) : appendAll l m = l ++ m := by
  induction m generalizing l with
  | nil => simp [appendAll]
  | cons e m ih =>
    show appendAll (appendEvent l e) m = _
    rw [ih (fun x hx => h x (by simp [hx])), appendEvent_other (h e (by simp))]
    simp

theorem isDelayEvent_up {e : KeyEvent} (h : e.state ≠ .Down) : isDelayEvent e = false := by
  unfold isDelayEvent
  rw [Bool.and_eq_false_iff]; right; rw [beq_eq_false_iff_ne]; exact h

theorem isDelayEvent_key {e : KeyEvent} (h : e.key ≠ Key.timeout) : isDelayEvent e = false := by
  unfold isDelayEvent
  rw [Bool.and_eq_false_iff]; left; rw [beq_eq_false_iff_ne]; exact h

theorem appendAll_release (l : KeySequence) (c : List Key) : appendAll l (releaseKeys c) = l ++ releaseKeys c := by
  apply appendAll_other
  intro e he
  obtain ⟨k, -, rfl⟩ := List.mem_map.1 he
  exact isDelayEvent_up (by simp)

theorem appendAll_press (l : KeySequence) (c : List Key) (h : ∀ k ∈ c, Outputable k) : appendAll l (pressKeys c) = l ++ pressKeys c := by
  apply appendAll_other
  intro e he
  obtain ⟨k, hk, rfl⟩ := List.mem_map.1 he
  exact isDelayEvent_key (h k hk).1

theorem changeModifiers_keys (a b : Mods) : ∀ e ∈ changeModifiers a b, Outputable e.key := by
  have : ∀ e ∈ changeModifiers a b, e.key ∈ [Key.Shift, Key.AltLeft, Key.AltRight, Key.Control] := by
    intro e he
    obtain ⟨m, hm, h⟩ := List.mem_flatMap.1 he
    have hk : e.key = m.2 := by
      split at h
      · cases h
      · split at h <;> (rw [List.mem_singleton.1 h])
    rw [hk]
    simp only [modifierKeys, List.mem_cons, List.not_mem_nil, or_false] at hm
    rcases hm with rfl | rfl | rfl | rfl <;> simp
  intro e he
  have h := this e he
  simp only [List.mem_cons, List.not_mem_nil, or_false] at h
  rcases h with h | h | h | h <;> rw [h] <;> (unfold Outputable; decide)

theorem typeKeys_keys (keys : List TypedKey) (h : ∀ t ∈ keys, Outputable t.key) : ∀ old, ∀ e ∈ typeKeys old keys, Outputable e.key := by
  induction keys with
  | nil => intro old; exact changeModifiers_keys old {}
  | cons t ts ih =>
    intro old e he
    rw [typeKeys] at he
    rcases List.mem_append.1 he with he | he
    · rcases List.mem_append.1 he with he | he
      · exact changeModifiers_keys _ _ e he
      · simp only [List.mem_cons, List.not_mem_nil, or_false] at he
        rcases he with rfl | rfl <;> exact h t (by simp)
    · exact ih (fun x hx => h x (by simp [hx])) t.mods e he

theorem events_keys_nil (typer : Typer) (g : Bool) (n : Nat) (e : OutExpr) : (OutExpr.keys [] e).events typer g n = e.events typer g n := by
  rw [OutExpr.events]
  split <;> simp [pressKeys, releaseKeys]

theorem fresh_keys_nil (held : List Key) (e : OutExpr) (h : e.Fresh held) : (OutExpr.keys [] e).Fresh held := by
  rw [OutExpr.Fresh]
  split
  · simpa using h
  · exact ⟨by simp, h⟩

private theorem filter_fresh {held b : List Key} (h : ∀ k ∈ b, k ∉ held) : held.filter (fun x => !b.contains x) = held := by
  rw [List.filter_eq_self]
  intro k hk
  rw [Bool.not_eq_true', Bool.eq_false_iff]
  intro hc
  exact h k (by simpa using hc) hk

theorem flush_up_eq {p : PState} (h : ∀ k ∈ p.buffer, k ∉ p.pressed) :
    p.flush false true = { p with seq := p.seq ++ pressKeys p.buffer ++ releaseKeys p.buffer, buffer := [] } := by
  unfold PState.flush
  simp only [if_true, Bool.false_eq_true, if_false, filter_fresh h]
  rfl

theorem flush_hold_eq (p : PState) :
    p.flush false false = { p with seq := p.seq ++ pressKeys p.buffer, pressed := p.pressed ++ p.buffer, buffer := [] } := by
  unfold PState.flush
  simp only [Bool.false_eq_true, if_false]
  rfl

/-- **The parser after an expression has the events of the expression**, except for the releases of the keys which are
still held. `p.buffer` are the keys which were read directly before. -/
theorem after_events (env : PEnv) (e : OutExpr) : ∀ p : PState, e.Valid env.typer → (∀ k ∈ p.buffer, Outputable k) →
    (p.group ≠ 0 → e.noCommands) →
    (OutExpr.keys p.buffer e).Fresh p.pressed → ∃ extra, ((p.after env e).flush false true).pressed = p.pressed ++ extra ∧
      appendAll p.seq ((OutExpr.keys p.buffer e).events env.typer (p.group != 0) (env.actionBase + p.actions.length)) =
        ((p.after env e).flush false true).seq ++ releaseKeys extra.reverse := by
  induction e with
  | nil =>
    intro p _ hb _ hf
    obtain ⟨hf, -⟩ := hf
    refine ⟨[], ?_, ?_⟩
    · rw [PState.after, flush_up_eq hf]; simp
    · rw [PState.after, flush_up_eq hf]
      simp only [OutExpr.events, OutExpr.beginsWithNot, Bool.false_eq_true, if_false, List.append_nil]
      rw [appendAll_append, appendAll_press _ _ hb, appendAll_release]
      simp [releaseKeys]
  | keys c rest ih =>
    intro p hv hb hg hf
    rw [OutExpr.Fresh] at hf
    simp only [OutExpr.beginsWithNot, Bool.false_eq_true, if_false] at hf
    obtain ⟨hf1, hf2⟩ := hf
    obtain ⟨extra, h1, h2⟩ := ih { p.flush false true with buffer := c } hv.2 hv.1.2 (by simpa [flush_group, OutExpr.noCommands] using hg)
      (by simp only [flush_up_eq hf1]; exact hf2)
    refine ⟨extra, ?_, ?_⟩
    · rw [PState.after, h1, flush_up_eq hf1]
    · rw [PState.after, ← h2, flush_up_eq hf1, OutExpr.events]
      simp only [OutExpr.beginsWithNot, Bool.false_eq_true, if_false]
      rw [appendAll_append, appendAll_append, appendAll_press _ _ hb, appendAll_release]
  | hold c body rest ihb ihr =>
    intro p hv hb hg hf
    obtain ⟨hv1, hv2, hv3, hv4⟩ := hv
    rw [OutExpr.Fresh] at hf
    simp only [OutExpr.beginsWithNot, Bool.false_eq_true, if_false] at hf
    obtain ⟨hf1, hf2, hf3⟩ := hf
    have ho : ({ p.flush false true with buffer := c } : PState).openBraces = { p with
        seq := p.seq ++ pressKeys p.buffer ++ releaseKeys p.buffer ++ pressKeys c, pressed := p.pressed ++ c, buffer := [],
        before := p.pressed.length :: p.before, group := p.group + 1, hasMod := true } := by
      rw [flush_up_eq hf1, PState.openBraces, flush_hold_eq]
    obtain ⟨extra, h1, h2⟩ := ihb ({ p.flush false true with buffer := c } : PState).openBraces hv2
      (by rw [ho]; intro k hk; cases hk) (fun _ => hv3) (by rw [ho]; exact fresh_keys_nil _ _ hf2)
    obtain ⟨a1, a2, a3, a4⟩ := after_same env body ({ p.flush false true with buffer := c } : PState).openBraces
    obtain ⟨b1, b2⟩ := after_noCommands env body hv3 ({ p.flush false true with buffer := c } : PState).openBraces
    rw [PState.after]
    generalize hp2 : ({ p.flush false true with buffer := c } : PState).openBraces.after env body = p2 at *
    rw [ho] at h1 h2 a3 a4 b1
    simp only [events_keys_nil] at h2
    have hg1 : ((p.group + 1) != 0) = true := by simp
    rw [hg1] at h2
    have hcl : p2.closeBraces.pressed = p.pressed ∧ p2.closeBraces.buffer = [] ∧ p2.closeBraces.group = p.group ∧
        p2.closeBraces.actions = p.actions ∧
        p2.closeBraces.seq = (p2.flush false true).seq ++ releaseKeys extra.reverse ++ releaseKeys c.reverse := by
      obtain ⟨c1, c2, c3, c4, c5, c6⟩ := PState.closeBraces_eq p2
      refine ⟨?_, ?_, ?_, ?_, ?_⟩
      · unfold PState.closeBraces PState.release
        simp only [h1, a4, List.headD_cons, List.append_assoc, List.take_left]
      · unfold PState.closeBraces PState.release
        simp only [flush_buffer]
      · rw [c4, a3]; rfl
      · rw [c6, b1]
      · unfold PState.closeBraces PState.release
        simp only [h1, a4, List.headD_cons, List.append_assoc, List.drop_left, Bool.false_eq_true, if_false]
        simp only [releaseKeys, List.reverse_append, List.map_append]
    obtain ⟨k1, k2, k3, k4, k5⟩ := hcl
    obtain ⟨extra', g1, g2⟩ := ihr p2.closeBraces hv4 (by rw [k2]; intro k hk; cases hk)
      (by rw [k3]; intro h; exact (hg h).2) (by rw [k1, k2]; exact fresh_keys_nil _ _ hf3)
    refine ⟨extra', by rw [g1, k1], ?_⟩
    rw [← g2, k2, events_keys_nil, k5, k3, k4, ← h2, OutExpr.events]
    simp only [OutExpr.beginsWithNot, Bool.false_eq_true, if_false]
    rw [OutExpr.events]
    simp only [appendAll_append]
    rw [appendAll_press _ _ hb, appendAll_release, appendAll_press _ _ hv1.2, appendAll_release]
  | not k rest ih =>
    intro p hv hb hg hf
    rw [OutExpr.Fresh] at hf
    simp only [OutExpr.beginsWithNot, if_true] at hf
    obtain ⟨hf1, hf2⟩ := hf
    have hn : ((p.flush false false).removePressed k).add k .Not = { p with
        seq := p.seq ++ pressKeys p.buffer ++ [⟨k, .Not, 0⟩], pressed := p.pressed ++ p.buffer, buffer := [] } := by
      rw [flush_hold_eq, PState.removePressed, PState.add]
      have : (p.pressed ++ p.buffer).filter (fun x => !(x == k)) = p.pressed ++ p.buffer := by
        rw [List.filter_eq_self]
        intro x hx
        simp only [Bool.not_eq_true', beq_eq_false_iff_ne]
        intro e; exact hf1 (e ▸ hx)
      simp only [this]
    obtain ⟨extra, h1, h2⟩ := ih (((p.flush false false).removePressed k).add k .Not) hv.2 (by rw [hn]; intro k hk; cases hk)
      (by rw [hn]; exact hg) (by rw [hn]; exact fresh_keys_nil _ _ hf2)
    rw [PState.after]
    refine ⟨p.buffer ++ extra, by rw [h1, hn]; simp, ?_⟩
    have h2' := h2
    rw [hn] at h2'
    simp only [events_keys_nil] at h2'
    rw [hn]
    rw [List.reverse_append]
    have e1 : releaseKeys (extra.reverse ++ p.buffer.reverse) = releaseKeys extra.reverse ++ releaseKeys p.buffer.reverse := by
      simp [releaseKeys]
    rw [e1, ← List.append_assoc, ← h2', OutExpr.events]
    simp only [OutExpr.beginsWithNot, if_true]
    rw [appendAll_append, appendAll_append, appendAll_press _ _ hb, appendAll_release]
    congr 1
    rw [OutExpr.events]
    show appendAll (appendEvent _ _) _ = _
    rw [appendEvent_other (isDelayEvent_up (by simp))]
  | delay ms rest ih =>
    intro p hv hb hg hf
    rw [OutExpr.Fresh] at hf
    simp only [OutExpr.beginsWithNot, Bool.false_eq_true, if_false] at hf
    obtain ⟨hf1, hf2⟩ := hf
    obtain ⟨extra, h1, h2⟩ := ih { p.flush false true with seq := appendEvent (p.flush false true).seq ⟨Key.timeout, .Down, ms⟩ } hv
      (by simp only [flush_buffer]; intro k hk; cases hk) (by simpa [flush_group, OutExpr.noCommands] using hg)
      (by simp only [flush_up_eq hf1]; exact fresh_keys_nil _ _ hf2)
    rw [PState.after]
    refine ⟨extra, by rw [h1, flush_up_eq hf1], ?_⟩
    rw [← h2, flush_up_eq hf1, OutExpr.events]
    simp only [OutExpr.beginsWithNot, Bool.false_eq_true, if_false, events_keys_nil]
    rw [appendAll_append, appendAll_append, appendAll_press _ _ hb, appendAll_release, OutExpr.events]
    rfl
  | type s rest ih =>
    intro p hv hb hg hf
    obtain ⟨⟨keys, hk1, hk2⟩, hv⟩ := hv
    rw [OutExpr.Fresh] at hf
    simp only [OutExpr.beginsWithNot, Bool.false_eq_true, if_false] at hf
    obtain ⟨hf1, hf2⟩ := hf
    rw [PState.after]
    simp only [hk1, Option.getD_some]
    obtain ⟨extra, h1, h2⟩ := ih { p.flush false true with
      seq := (p.flush false true).seq ++ ((if p.group = 0 then [⟨Key.any, .Not, 0⟩] else []) ++ typeKeys {} keys)
      hasMod := p.hasMod || keys.any (fun t => t.mods != {}) } hv
      (by simp only [flush_buffer]; intro k hk; cases hk) (by simpa [flush_group, OutExpr.noCommands] using hg)
      (by simp only [flush_up_eq hf1]; exact fresh_keys_nil _ _ hf2)
    refine ⟨extra, by rw [h1, flush_up_eq hf1], ?_⟩
    rw [← h2, flush_up_eq hf1, OutExpr.events]
    simp only [OutExpr.beginsWithNot, Bool.false_eq_true, if_false, events_keys_nil]
    rw [OutExpr.events, hk1, Option.getD_some]
    simp only [appendAll_append]
    rw [appendAll_press _ _ hb, appendAll_release]
    rw [appendAll_other (m := typeKeys {} keys) (fun e he => isDelayEvent_key (typeKeys_keys keys hk2 {} e he).1)]
    rw [appendAll_other (m := if (p.group != 0) = true then [] else [⟨Key.any, .Not, 0⟩]) (by
      intro e he
      split at he
      · cases he
      · rw [List.mem_singleton.1 he]; rfl)]
    congr 1
    by_cases h : p.group = 0 <;> simp [h]
  | run c rest ih =>
    intro p hv hb hg hf
    rw [OutExpr.Fresh] at hf
    simp only [OutExpr.beginsWithNot, Bool.false_eq_true, if_false] at hf
    obtain ⟨hf1, hf2⟩ := hf
    rw [PState.after]
    obtain ⟨extra, h1, h2⟩ := ih { (p.flush false true).add (Key.first_action + env.actionBase + p.actions.length) .Down with
      actions := p.actions ++ [c] } hv (by simp only [PState.add, flush_buffer]; intro k hk; cases hk)
      (by simp only [PState.add, flush_group]; intro h; exact (hg h).elim)
      (by simp only [PState.add, flush_up_eq hf1]; exact fresh_keys_nil _ _ hf2)
    refine ⟨extra, by rw [h1]; simp only [PState.add, flush_up_eq hf1], ?_⟩
    rw [← h2, PState.add, flush_up_eq hf1, OutExpr.events]
    simp only [OutExpr.beginsWithNot, Bool.false_eq_true, if_false, events_keys_nil]
    rw [appendAll_append, appendAll_append, appendAll_press _ _ hb, appendAll_release, OutExpr.events]
    show appendAll (appendEvent _ _) _ = _
    rw [appendEvent_other (isDelayEvent_key (by
      show (61952 + (env.actionBase + p.actions.length) : Nat) ≠ 61441
      omega))]
    simp only [List.length_append, List.length_cons, List.length_nil, Nat.zero_add, Nat.add_assoc]
  | onRelease rest ih =>
    intro p hv hb hg hf
    rw [OutExpr.Fresh] at hf
    simp only [OutExpr.beginsWithNot, Bool.false_eq_true, if_false] at hf
    obtain ⟨hf1, hf2⟩ := hf
    rw [PState.after]
    obtain ⟨extra, h1, h2⟩ := ih { (p.flush false true).add Key.none .OutputOnRelease with onRelease := true } hv
      (by simp only [PState.add, flush_buffer]; intro k hk; cases hk)
      (by simp only [PState.add, flush_group]; intro h; exact (hg h).elim)
      (by simp only [PState.add, flush_up_eq hf1]; exact fresh_keys_nil _ _ hf2)
    refine ⟨extra, by rw [h1]; simp only [PState.add, flush_up_eq hf1], ?_⟩
    rw [← h2, PState.add, flush_up_eq hf1, OutExpr.events]
    simp only [OutExpr.beginsWithNot, Bool.false_eq_true, if_false, events_keys_nil]
    rw [appendAll_append, appendAll_append, appendAll_press _ _ hb, appendAll_release, OutExpr.events]
    show appendAll (appendEvent _ _) _ = _
    rw [appendEvent_other (isDelayEvent_up (by simp))]

end KM
