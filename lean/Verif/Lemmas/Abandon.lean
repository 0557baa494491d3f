import Verif.Lemmas.WordEnd
import Verif.Lemmas.HeldBack
/-!
# What is held back is output when a word or chord is not completed
-/
namespace KM

/-- no mapping of the contexts in use matches -/
def NothingMatches (c : Cfg) (active : List Nat) (dev : Int) (l : KeySequence) : Prop :=
  ∀ y ∈ candidates c.contexts active dev, (matchSeq y.2.2.input l).res = .no_match

theorem matchInput_nothing {cs c} (h : WordCfg cs c) (s : S) {l : KeySequence} {dev : Int} (hn : NothingMatches c s.active dev l) (u : Bool) :
    ∃ a b, matchInput c s true l dev u = ({ s with anyM := a, ub := b }, .noMatch) := by
  unfold matchInput
  simp only []
  obtain ⟨a, b, hh⟩ := matchGo_noMatch (c := c) (q := l) (dev := dev) (u := u) (candidates c.contexts s.active dev)
    (fun y hy => ⟨(candidate_word h hy).1, hn y hy⟩)
    { s with ub := s.ub || ((!s.active.isEmpty && (decide (64 ≤ dev) || decide (dev < -2))) ||
        s.active.any (fun i => decide (c.contexts.length ≤ i))) }
  exact ⟨a, b, hh⟩

/-- While what was held back is output: `F` are the held keys (`base` the ones which were held before), `q` is still to be output, `H` are
the keys of it which are held so far. -/
structure Flush (c : Cfg) (dev : Int) (base H : List Key) (F q : KeySequence) (s : S) : Prop where
  seq : s.seq = F ++ q
  matched : ∀ e ∈ F, e.state = .DownMatched ∧ isDeviceKey e.key = true
  nodup : (F.map (·.key)).Nodup
  timeout : s.timeout = none
  reapplied : s.reapplied = false
  hist : s.history = []
  down : DownInv s.down
  keys : ∀ x, x ∈ s.down.map (·.key) ↔ x ∈ base ∨ x ∈ H
  held : ∀ x, x ∈ F.map (·.key) ↔ x ∈ base ∨ (x ∈ H ∧ (⟨x, .Up, 0⟩ : KeyEvent) ∉ q)
  typed : Typed H q
  zero : ∀ e ∈ q, e.state = .Up → e.value = 0
  device : ∀ e ∈ q, isDeviceKey e.key = true
  apart : ∀ k ∈ base, k ∉ H ∧ ∀ e ∈ q, e.key ≠ k
  might : q = [] → s.might = false
  nothing : ∀ F' q' : KeySequence, q' <:+ q → q' ≠ [] →
    (∀ e ∈ F', e.state = .DownMatched ∧ isDeviceKey e.key = true ∧ (e.key ∈ base ∨ e.key ∈ H ∨ e.key ∈ q.map (·.key)) ∧ (⟨e.key, .Up, 0⟩ : KeyEvent) ∉ q') →
    NothingMatches c s.active dev (F' ++ q')
  stuck : s.might = true → ∃ (K : Key → Prop) (A : Nat → Prop), RealKeys K ∧ Stuck K A c ∧ (∀ i ∈ s.active, A i) ∧
    ∀ x, (x ∈ base ∨ x ∈ H ∨ x ∈ q.map (·.key)) → K x

theorem Flush.round {cs c} (h : WordCfg cs c) {dev : Int} {base H : List Key} {F q : KeySequence} {e : KeyEvent} {s : S}
    (hf : Flush c dev base H F (e :: q) s) {ev : KeyEvent} (hv : isVirtualKey ev.key = false) (u : Bool) :
    ∃ a b F' D m, KM.round c ev dev u s = ({ s with anyM := a, ub := b, seq := F' ++ q, down := D, buf := s.buf ++ [e], might := m }, true) ∧
      Flush c dev base (if e.state = .Down then e.key :: H else H.filter (· ≠ e.key)) F' q
        { s with anyM := a, ub := b, seq := F' ++ q, down := D, buf := s.buf ++ [e], might := m } := by
  have hFnot : ∀ x ∈ F, (⟨x.key, .Up, 0⟩ : KeyEvent) ∉ e :: q := by
    intro x hx hm
    rcases (hf.held x.key).1 (List.mem_map.2 ⟨x, hx, rfl⟩) with h1 | h1
    · exact (hf.apart _ h1).2 _ hm rfl
    · exact h1.2 hm
  have hFkeys : ∀ x ∈ F, x.key ∈ base ∨ x.key ∈ H := by
    intro x hx
    rcases (hf.held x.key).1 (List.mem_map.2 ⟨x, hx, rfl⟩) with h1 | h1
    · exact Or.inl h1
    · exact Or.inr h1.1
  obtain ⟨a, b, hmi⟩ := matchInput_nothing h s (l := F ++ e :: q) (dev := dev) (hf.nothing F (e :: q) (List.suffix_refl _) (by simp) (by
    intro x hx
    refine ⟨(hf.matched x hx).1, (hf.matched x hx).2, ?_, hFnot x hx⟩
    rcases hFkeys x hx with h1 | h1
    · exact Or.inl h1
    · exact Or.inr (Or.inl h1))) u
  -- no beginning matches
  have hretry : ∃ a' b' m, retryStart c { s with anyM := a, ub := b } .noMatch dev u = ({ s with anyM := a', ub := b' }, .noMatch, m, false) := by
    by_cases hmight : s.might = true
    · obtain ⟨K, A, k1, k2, k3, k4⟩ := hf.stuck hmight
      obtain ⟨a', b', m, h4⟩ := retryStart_stuck k1 k2 dev u { s with anyM := a, ub := b } (by
        intro x hx
        have hx' : x ∈ F ++ e :: q := by rw [← hf.seq]; exact hx
        rw [List.mem_append] at hx'
        apply k4
        rcases hx' with hx' | hx'
        · rcases hFkeys x hx' with h1 | h1
          · exact Or.inl h1
          · exact Or.inr (Or.inl h1)
        · exact Or.inr (Or.inr (List.mem_map.2 ⟨x, hx', rfl⟩))) k3 (by
        intro x hx
        have hx' : x ∈ s.history := hx
        rw [hf.hist] at hx'; simp at hx')
      exact ⟨a', b', m, h4⟩
    · refine ⟨a, b, s.seq.length, ?_⟩
      unfold retryStart
      simp only []
      rw [if_neg hmight]
  obtain ⟨a', b', m, hre⟩ := hretry
  obtain ⟨s1, hs1⟩ : ∃ s1 : S, s1 = { s with anyM := a', ub := b' } := ⟨_, rfl⟩
  have h1t : s1.timeout = none := by rw [hs1]; exact hf.timeout
  have h1q : s1.seq = F ++ e :: q := by rw [hs1]; exact hf.seq
  have h1d : s1.down = s.down := by rw [hs1]
  have h1r : s1.reapplied = false := by rw [hs1]; exact hf.reapplied
  have htm : timeoutMatched s1 ev .noMatch false = (s1, .noMatch) := by unfold timeoutMatched; simp only [h1t]
  have hnt : notTimeoutFailed s1 .noMatch = s1 := by unfold notTimeoutFailed; simp only [h1t]
  have hkd : isDeviceKey e.key = true := hf.device e (by simp)
  obtain ⟨hprop, hca, hvirt⟩ := deviceKey_proper hkd
  -- what is output
  have hfw : ∃ F' D, forwardFromSequence s1 = { s1 with seq := F' ++ q, down := D, buf := s1.buf ++ [e] } ∧
      Flush c dev base (if e.state = .Down then e.key :: H else H.filter (· ≠ e.key)) F' q
        { s with anyM := a', ub := b', seq := F' ++ q, down := D, buf := s.buf ++ [e], might := if q = [] then false else s.might } := by
    have hskip : forwardFromSequence s1 = forwardGo s1 F (e :: q) := by
      unfold forwardFromSequence
      rw [h1q, forwardGo_skip _ _ _ _ (fun x hx => (hf.matched x hx).1) hFnot, List.nil_append]
    have hsuf : ∀ q' : KeySequence, q' <:+ q → q' <:+ e :: q := fun q' hq => hq.trans (List.suffix_cons _ _)
    have hmight' : ∀ b : Bool, (if q = [] then false else b) = true → b = true := by
      intro b; split <;> simp
    have htyped := hf.typed
    simp only [Typed] at htyped
    rcases htyped with ⟨t1, t2, t3, t4⟩ | ⟨t1, t2, t3⟩
    · -- a press
      have hnb : e.key ∉ base := fun hm => (hf.apart _ hm).2 e (by simp) rfl
      have hnF : e.key ∉ F.map (·.key) := fun hm => by
        rcases (hf.held _).1 hm with h1 | h1
        · exact hnb h1
        · exact t3 h1.1
      have hupq : ∀ x : Key, (⟨x, .Up, 0⟩ : KeyEvent) ∈ e :: q ↔ (⟨x, .Up, 0⟩ : KeyEvent) ∈ q := by
        intro x
        rw [List.mem_cons]
        constructor
        · rintro (h1 | h1)
          · rw [← h1] at t1; simp at t1
          · exact h1
        · exact Or.inr
      have hpress := updateOutput_press (s := s1) t1 hprop.2.2 h1r (by rw [h1d]; exact fun o ho => (hf.down.own o ho).2.1)
      obtain ⟨p1, p2⟩ := pressDown_inv hf.down e.key
      have e1 : (e.state == KeyState.Down || e.state == KeyState.DownMatched) = true := by rw [t1]; rfl
      rw [if_pos t1]
      have hkeys' : ∀ x, x ∈ (pressDown s.down e.key).map (·.key) ↔ x ∈ base ∨ x ∈ e.key :: H := by
        intro x
        rw [p2, hf.keys, List.mem_cons, or_assoc, or_comm (a := x ∈ H)]
      have hnoth : ∀ F' q' : KeySequence, q' <:+ q → q' ≠ [] →
          (∀ x ∈ F', x.state = .DownMatched ∧ isDeviceKey x.key = true ∧ (x.key ∈ base ∨ x.key ∈ e.key :: H ∨ x.key ∈ q.map (·.key)) ∧
            (⟨x.key, .Up, 0⟩ : KeyEvent) ∉ q') → NothingMatches c s.active dev (F' ++ q') := by
        intro F' q' g1 g2 g3
        refine hf.nothing F' q' (hsuf _ g1) g2 (fun x hx => ?_)
        obtain ⟨g4, g5, g6, g7⟩ := g3 x hx
        refine ⟨g4, g5, ?_, g7⟩
        rcases g6 with g6 | g6 | g6
        · exact Or.inl g6
        · rcases List.mem_cons.1 g6 with g6 | g6
          · exact Or.inr (Or.inr (by rw [g6]; simp))
          · exact Or.inr (Or.inl g6)
        · exact Or.inr (Or.inr (by rw [List.map_cons]; exact List.mem_cons_of_mem _ g6))
      have hstuck : (if q = [] then false else s.might) = true → ∃ (K : Key → Prop) (A : Nat → Prop), RealKeys K ∧ Stuck K A c ∧ (∀ i ∈ s.active, A i) ∧
          ∀ x, (x ∈ base ∨ x ∈ e.key :: H ∨ x ∈ q.map (·.key)) → K x := by
        intro hm
        obtain ⟨K, A, k1, k2, k3, k4⟩ := hf.stuck (hmight' _ hm)
        refine ⟨K, A, k1, k2, k3, ?_⟩
        intro x hx
        apply k4
        rcases hx with g6 | g6 | g6
        · exact Or.inl g6
        · rcases List.mem_cons.1 g6 with g6 | g6
          · exact Or.inr (Or.inr (by rw [g6]; simp))
          · exact Or.inr (Or.inl g6)
        · exact Or.inr (Or.inr (by rw [List.map_cons]; exact List.mem_cons_of_mem _ g6))
      have hapart : ∀ k ∈ base, k ∉ e.key :: H ∧ ∀ x ∈ q, x.key ≠ k := by
        intro k hk
        obtain ⟨g1, g2⟩ := hf.apart k hk
        refine ⟨?_, fun x hx => g2 x (by simp [hx])⟩
        intro hm
        rcases List.mem_cons.1 hm with hm | hm
        · exact g2 e (by simp) hm.symm
        · exact g1 hm
      by_cases hup : (⟨e.key, .Up, 0⟩ : KeyEvent) ∈ q
      · refine ⟨F, pressDown s.down e.key, ?_, ?_⟩
        · rw [hskip, forwardGo, if_pos e1, if_pos (by simpa using Or.inr hup), hpress, h1d]
        · exact ⟨rfl, hf.matched, hf.nodup, hf.timeout, hf.reapplied, hf.hist, p1, hkeys', (by
            intro x
            rw [hf.held, hupq, List.mem_cons]
            constructor
            · rintro (g | ⟨g1, g2⟩)
              · exact Or.inl g
              · exact Or.inr ⟨Or.inr g1, g2⟩
            · rintro (g | ⟨g1 | g1, g2⟩)
              · exact Or.inl g
              · rw [g1] at g2; exact absurd hup g2
              · exact Or.inr ⟨g1, g2⟩), t4, fun x hx => hf.zero x (by simp [hx]), fun x hx => hf.device x (by simp [hx]), hapart,
            (fun hq => if_pos hq), hnoth, hstuck⟩
      · refine ⟨F ++ [{ e with state := .DownMatched }], pressDown s.down e.key, ?_, ?_⟩
        · have hto : (s1.timeout.bind (·.matchedOutput)).isNone = true := by rw [h1t]; rfl
          have e2 : (e.state == KeyState.Down) = true := by rw [t1]; rfl
          rw [hskip, forwardGo, if_pos e1, if_neg (by
            simp only [List.contains_eq_mem, List.mem_cons, decide_eq_true_eq, not_or]
            refine ⟨?_, hup⟩
            intro hh
            rw [← hh] at t1; simp at t1), if_pos e2]
          simp only [hto, if_true, hpress, h1d, List.append_assoc, List.cons_append, List.nil_append]
        · refine ⟨rfl, ?_, ?_, hf.timeout, hf.reapplied, hf.hist, p1, hkeys', (by
            intro x
            rw [List.map_append, List.mem_append, hf.held, hupq, List.mem_cons]
            constructor
            · rintro ((g | ⟨g1, g2⟩) | g)
              · exact Or.inl g
              · exact Or.inr ⟨Or.inr g1, g2⟩
              · have g : x = e.key := by simpa using g
                subst g
                exact Or.inr ⟨Or.inl rfl, hup⟩
            · rintro (g | ⟨g1 | g1, g2⟩)
              · exact Or.inl (Or.inl g)
              · exact Or.inr (by rw [g1]; simp)
              · exact Or.inl (Or.inr ⟨g1, g2⟩)), t4, fun x hx => hf.zero x (by simp [hx]), fun x hx => hf.device x (by simp [hx]), hapart,
            (fun hq => if_pos hq), hnoth, hstuck⟩
          · intro x hx
            rcases List.mem_append.1 hx with hx | hx
            · exact hf.matched x hx
            · rw [List.mem_singleton] at hx; subst hx; exact ⟨rfl, hkd⟩
          · rw [List.map_append, List.nodup_append]
            refine ⟨hf.nodup, by simp, ?_⟩
            intro x hx y hy
            simp only [List.map_cons, List.map_nil, List.mem_singleton] at hy
            rintro rfl
            rw [hy] at hx
            exact hnF hx
    · -- a release
      have hev : e = ⟨e.key, .Up, 0⟩ := by
        have := hf.zero e (by simp) t1
        obtain ⟨k, st, v⟩ := e
        simp only at t1 this
        subst t1 this; rfl
      have hupq : ∀ x : Key, (⟨x, .Up, 0⟩ : KeyEvent) ∈ e :: q ↔ x = e.key ∨ (⟨x, .Up, 0⟩ : KeyEvent) ∈ q := by
        intro x
        rw [List.mem_cons]
        refine or_congr ?_ Iff.rfl
        constructor
        · intro hh; rw [← hh]
        · intro hh; rw [hh]; exact hev.symm
      have e1 : (e.state == KeyState.Down || e.state == KeyState.DownMatched) = false := by rw [t1]; rfl
      have hin : e.key ∈ s1.down.map (·.key) := by rw [h1d, hf.keys]; exact Or.inr t2
      have hrel : releaseTriggered s1 e.key (-1) = { s1 with down := s1.down.filter (fun o => o.key != e.key), buf := s1.buf ++ [e] } := by
        rw [releaseTriggered_eval (by rw [h1d]; exact hf.down) h1t]
        unfold releaseResult
        rw [if_pos hin, ← hev]
      obtain ⟨p1, p2⟩ := filter_inv hf.down e.key
      rw [if_neg (by rw [t1]; simp)]
      refine ⟨F, s.down.filter (fun o => o.key != e.key), ?_, ?_⟩
      · rw [hskip, forwardGo, e1, if_neg (by simp), hrel, h1d]
      · exact ⟨rfl, hf.matched, hf.nodup, hf.timeout, hf.reapplied, hf.hist, p1, (by
            intro x
            show x ∈ (s.down.filter (fun o => o.key != e.key)).map (·.key) ↔ _
            rw [p2, hf.keys, List.mem_filter]
            constructor
            · rintro ⟨g1 | g1, g2⟩
              · exact Or.inl g1
              · exact Or.inr ⟨g1, by simpa using g2⟩
            · rintro (g1 | ⟨g1, g2⟩)
              · exact ⟨Or.inl g1, fun hh => (hf.apart x g1).1 (hh ▸ t2)⟩
              · exact ⟨Or.inr g1, by simpa using g2⟩), (by
            intro x
            rw [hf.held, hupq, List.mem_filter]
            constructor
            · rintro (g1 | ⟨g1, g2⟩)
              · exact Or.inl g1
              · refine Or.inr ⟨⟨g1, ?_⟩, fun hh => g2 (Or.inr hh)⟩
                simpa using fun hh => g2 (Or.inl hh)
            · rintro (g1 | ⟨⟨g1, g2⟩, g3⟩)
              · exact Or.inl g1
              · refine Or.inr ⟨g1, ?_⟩
                rintro (hh | hh)
                · simp [hh] at g2
                · exact g3 hh), t3, fun x hx => hf.zero x (by simp [hx]), fun x hx => hf.device x (by simp [hx]), (by
            intro k hk
            obtain ⟨g1, g2⟩ := hf.apart k hk
            exact ⟨fun hm => g1 (List.mem_filter.1 hm).1, fun x hx => g2 x (by simp [hx])⟩), (fun hq => if_pos hq), (by
            intro F' q' g1 g2 g3
            refine hf.nothing F' q' (hsuf _ g1) g2 (fun x hx => ?_)
            obtain ⟨g4, g5, g6, g7⟩ := g3 x hx
            refine ⟨g4, g5, ?_, g7⟩
            rcases g6 with g6 | g6 | g6
            · exact Or.inl g6
            · exact Or.inr (Or.inl (List.mem_filter.1 g6).1)
            · exact Or.inr (Or.inr (by rw [List.map_cons]; exact List.mem_cons_of_mem _ g6))), (by
            intro hm
            obtain ⟨K, A, k1, k2, k3, k4⟩ := hf.stuck (hmight' _ hm)
            refine ⟨K, A, k1, k2, k3, ?_⟩
            intro x hx
            apply k4
            rcases hx with g6 | g6 | g6
            · exact Or.inl g6
            · exact Or.inr (Or.inl (List.mem_filter.1 g6).1)
            · exact Or.inr (Or.inr (by rw [List.map_cons]; exact List.mem_cons_of_mem _ g6)))⟩
  obtain ⟨F', D, hfw, hflush⟩ := hfw
  refine ⟨a', b', F', D, _, ?_, hflush⟩
  unfold KM.round
  rw [hf.seq, hmi, hv]
  have hne : (MIR.noMatch == MIR.might) = false := rfl
  simp only [Bool.false_and, Bool.false_eq_true, if_false, hne, hre]
  rw [← hs1, htm]
  simp only []
  rw [hnt]
  unfold applyResult
  simp only [hfw]
  rw [hs1]
  have hno : hasNonOptional (F' ++ q) = !decide (q = []) := by
    cases hq : q with
    | nil =>
      rw [List.append_nil]
      simpa using hasNonOptional_matched (fun x hx => (hflush.matched x hx).1)
    | cons x l =>
      have hx := typed_state hflush.typed x (by rw [hq]; simp)
      unfold hasNonOptional
      rw [List.any_append]
      rcases hx with hx | hx <;> simp [isNonOptional, hx]
  simp only [hno]
  by_cases hq : q = []
  · cases s.might <;> simp [hq]
  · simp [hq]

/-- everything is output in the order in which it was input -/
theorem Flush.mainLoop {cs c} (h : WordCfg cs c) {dev : Int} {base : List Key} {ev : KeyEvent} (hv : isVirtualKey ev.key = false) (u : Bool) :
    ∀ (q : KeySequence) (H : List Key) (F : KeySequence) (s : S), Flush c dev base H F q s →
      ∃ a b F' D, KM.mainLoop c ev dev u s = { s with anyM := a, ub := b, seq := F', down := D, buf := s.buf ++ q, might := false } ∧
        Flush c dev base (keysDown H q) F' [] { s with anyM := a, ub := b, seq := F', down := D, buf := s.buf ++ q, might := false } := by
  intro q
  induction q with
  | nil =>
    intro H F s hf
    have hm := hf.might rfl
    have hs : ({ s with anyM := s.anyM, ub := s.ub, seq := F, down := s.down, buf := s.buf ++ [], might := false } : S) = s := by
      have := hf.seq
      rw [List.append_nil] at this
      rw [← this, ← hm, List.append_nil]
    refine ⟨s.anyM, s.ub, F, s.down, ?_, ?_⟩
    · rw [hs, KM.mainLoop, dif_neg]
      rw [hf.seq, List.append_nil, hasNonOptional_matched (fun x hx => (hf.matched x hx).1)]
      simp
    · rw [hs]; exact hf
  | cons e q ih =>
    intro H F s hf
    obtain ⟨a, b, F', D, m, h1, h2⟩ := hf.round h hv u
    obtain ⟨a2, b2, F2, D2, h3, h4⟩ := ih _ _ _ h2
    have hn : hasNonOptional s.seq = true := by
      have hx := typed_state hf.typed e (by simp)
      rw [hf.seq]
      unfold hasNonOptional
      rw [List.any_append]
      rcases hx with hx | hx <;> simp [isNonOptional, hx]
    refine ⟨a2, b2, F2, D2, ?_, ?_⟩
    · rw [KM.mainLoop, dif_pos hn, dif_pos (by rw [h1]), h1, h3]
      simp
    · have : s.buf ++ e :: q = (s.buf ++ [e]) ++ q := by simp
      rw [this]
      exact h4

theorem TypingState.downKeys {cs base p} {s : S} (ht : TypingState cs base p s) (k : Key) :
    k ∈ s.down.map (·.key) ↔ k ∈ base.map (·.key) := by
  rw [ht.keys]
  constructor
  · exact fun h => h.1
  · intro hk
    refine ⟨hk, ?_⟩
    obtain ⟨e, h1, h2⟩ := List.mem_map.1 hk
    exact h2 ▸ deviceKey_notVirtual (ht.hbase e h1).2

/-- after everything was output -/
theorem Flush.finished {cs c} (h : WordCfg cs c) {dev : Int} {base H : List Key} {F : KeySequence} {s : S} (hf : Flush c dev base H F [] s)
    (hs : Steady cs s) (ho : s.onRelease = []) {ev : KeyEvent} (hev : ev.state = .Up → ev.key ∉ base ∧ ev.key ∉ H) :
    TypingState cs F [] { finishInput c s ev with buf := [] } ∧ (finishInput c s ev).might = false ∧ (finishInput c s ev).buf = s.buf ∧
      (finishInput c s ev).active = s.active := by
  have hseq : s.seq = F := by rw [hf.seq, List.append_nil]
  obtain ⟨hist, b, hh, hfin⟩ := finishInput_words h hs ev (by
      intro e he
      rw [hseq] at he
      rw [(hf.matched e he).1]; simp) hf.timeout (by
      intro hu
      obtain ⟨g1, g2⟩ := hev hu
      rw [releaseTriggered_eval hf.down hf.timeout, releaseResult_of_not]
      rw [hf.keys]
      rintro (g | g)
      · exact g1 g
      · exact g2 g)
  have hhist : hist = [] := by
    rw [hf.hist] at hh
    exact List.eq_nil_iff_forall_not_mem.2 (fun e he => absurd (hh e he) (by simp))
  rw [hfin]
  refine ⟨⟨⟨hs.eq, hs.sorted, hs.lt⟩, hf.timeout, ho, rfl, rfl, hhist, ?_, hf.matched, hf.nodup, hf.down, ?_, fun hh => absurd rfl hh⟩, hf.might rfl, rfl, rfl⟩
  · show s.seq = F ++ []
    rw [hseq, List.append_nil]
  · intro k
    show k ∈ s.down.map (·.key) ↔ _
    rw [hf.keys, hf.held]
    constructor
    · intro hk
      have hkF : k ∈ F.map (·.key) := by
        rw [hf.held]
        rcases hk with hk | hk
        · exact Or.inl hk
        · exact Or.inr ⟨hk, by simp⟩
      obtain ⟨e, h1, h2⟩ := List.mem_map.1 hkF
      refine ⟨(hf.held k).1 hkF, h2 ▸ deviceKey_notVirtual (hf.matched e h1).2⟩
    · rintro ⟨hk | hk, _⟩
      · exact Or.inl hk
      · exact Or.inr hk.1

/-- an event after which no mapping matches: everything which was held back is output -/
theorem abandon_step {cs c} (h : WordCfg cs c) {base p : KeySequence} {s : S} (ht : TypingState cs base p s) (hm : p = [] → s.might = false)
    {ev : KeyEvent} (hT : Typed [] (p ++ [ev])) (hz : ∀ e ∈ p ++ [ev], e.state = .Up → e.value = 0)
    (hdk : ∀ e ∈ p ++ [ev], isDeviceKey e.key = true) (hpb : ∀ e ∈ p ++ [ev], e.key ∉ base.map (·.key)) {dev : Int}
    (hnothing : ∀ F' q' : KeySequence, q' <:+ p ++ [ev] → q' ≠ [] →
      (∀ e ∈ F', e.state = .DownMatched ∧ isDeviceKey e.key = true ∧ (e.key ∈ base.map (·.key) ∨ e.key ∈ (p ++ [ev]).map (·.key)) ∧
        (⟨e.key, .Up, 0⟩ : KeyEvent) ∉ q') → NothingMatches c s.active dev (F' ++ q'))
    (hstuck : p ≠ [] → ∃ (K : Key → Prop) (A : Nat → Prop), RealKeys K ∧ Stuck K A c ∧ (∀ i ∈ s.active, A i) ∧
      ∀ x, (x ∈ base.map (·.key) ∨ x ∈ (p ++ [ev]).map (·.key)) → K x) :
    ∃ base', TypingState cs base' [] (update c s ev dev).1 ∧ (update c s ev dev).1.might = false ∧
      (∀ x, x ∈ base'.map (·.key) ↔ x ∈ base.map (·.key) ∨ x ∈ keysDown [] (p ++ [ev])) ∧
      (update c s ev dev).2 = p ++ [ev] ∧ (update c s ev dev).1.active = s.active := by
  obtain ⟨hprop, _, hvirt⟩ := deviceKey_proper (hdk ev (by simp))
  have hstate := typed_state hT ev (by simp)
  have hkb : ev.key ∉ base.map (·.key) := hpb ev (by simp)
  have hphys : ev.state = .Down → isPhysicallyPressed s ev.key = false := by
    intro hd
    have hT' := hT
    rw [typed_append] at hT'
    have hnp : ev.key ∉ keysDown [] p := by
      have := hT'.2
      simp only [Typed] at this
      rcases this with ⟨_, _, h, _⟩ | ⟨h, _⟩
      · exact h
      · rw [hd] at h; simp at h
    unfold isPhysicallyPressed
    rw [ht.seq, rfindKey_append, rfindKey_none hkb]
    rcases (rfindKey_keysDown hT'.1 ev.key).2 hnp with ⟨e, h1, h2⟩ | ⟨h1, _⟩
    · rw [h1]; simp [h2]
    · rw [h1]; simp
  obtain ⟨x, b, lp, lr, hu⟩ := update_tail c dev ht.onRel ht.timeout (ev := ev) (by
    rcases hstate with h1 | h1
    · exact Or.inr ⟨h1, hphys h1⟩
    · exact Or.inl h1)
  obtain ⟨s1, hs1⟩ : ∃ s1 : S, s1 = { s with exitPos := x, ub := b, lastPressed := lp, lastRepeat := lr } := ⟨_, rfl⟩
  rw [← hs1] at hu
  have hst1 : Steady cs s1 := by rw [hs1]; exact ⟨ht.steady.eq, ht.steady.sorted, ht.steady.lt⟩
  have hbm : beforeMatchUp { s1 with seq := s1.seq ++ [ev] } ev = { s1 with seq := s1.seq ++ [ev] } := by
    unfold beforeMatchUp
    rcases hstate with h1 | h1
    · rw [if_neg (by rw [h1]; decide)]
    · rw [if_pos (by rw [h1]; rfl)]
      have hp : p ≠ [] := by
        rintro rfl
        simp only [List.nil_append, Typed, List.not_mem_nil, h1, reduceCtorEq, false_and, and_false, or_self] at hT
      have hm : s1.might = true := by rw [hs1]; exact ht.might hp
      have htt : s1.timeout = none := by rw [hs1]; exact ht.timeout
      simp only [htt, Option.bind_none, Option.isSome_none, Bool.false_eq_true, if_false, hm, Bool.not_true]
  obtain ⟨s2, hs2⟩ : ∃ s2 : S, s2 = { s1 with seq := base ++ (p ++ [ev]), down := s1.down.map (fun o => { o with suppressed := false }) } := ⟨_, rfl⟩
  have hst2 : Steady cs s2 := by rw [hs2]; exact ⟨hst1.eq, hst1.sorted, hst1.lt⟩
  have hseq1 : s1.seq ++ [ev] = base ++ (p ++ [ev]) := by rw [hs1]; simp [ht.seq]
  have htail : pressTail c s1 ev dev = finishInput c (mainLoop c ev dev (ev.state == .Up && ev.key != Key.timeout) s2) ev := by
    rw [pressTail_words h hst1, hbm, hs2, hseq1]
  obtain ⟨hun1, hun2⟩ := unsuppress_inv ht.down
  have hflush : Flush c dev (base.map (·.key)) [] base (p ++ [ev]) s2 := by
    rw [hs2, hs1]
    refine ⟨rfl, ht.hbase, ht.nodup, ht.timeout, ht.reapplied, ht.hist, hun1, ?_, ?_, hT, hz, hdk, ?_, by simp, ?_, ?_⟩
    · intro x
      show x ∈ (s.down.map (fun o => { o with suppressed := false })).map (·.key) ↔ _
      rw [hun2, ht.downKeys]; simp
    · intro x; simp
    · exact fun k hk => ⟨by simp, fun e he hek => hpb e he (hek ▸ hk)⟩
    · intro F' q' g1 g2 g3
      refine hnothing F' q' g1 g2 (fun e he => ?_)
      obtain ⟨g4, g5, g6, g7⟩ := g3 e he
      exact ⟨g4, g5, by simpa using g6, g7⟩
    · intro hmt
      have hp : p ≠ [] := by
        rintro rfl
        have := hm rfl
        have hmt' : s.might = true := hmt
        rw [this] at hmt'; simp at hmt'
      obtain ⟨K, A, k1, k2, k3, k4⟩ := hstuck hp
      exact ⟨K, A, k1, k2, k3, fun x hx => k4 x (by simpa using hx)⟩
  obtain ⟨a, b2, F', D, hloop, hdone⟩ := hflush.mainLoop h hvirt (ev.state == .Up && ev.key != Key.timeout) _ _ _ _
  obtain ⟨s3, hs3⟩ : ∃ s3 : S, s3 = { s2 with anyM := a, ub := b2, seq := F', down := D, buf := s2.buf ++ (p ++ [ev]), might := false } := ⟨_, rfl⟩
  rw [← hs3] at hloop hdone
  obtain ⟨f1, f2, f3, f4⟩ := hdone.finished h (by rw [hs3]; exact ⟨hst2.eq, hst2.sorted, hst2.lt⟩) (by rw [hs3, hs2, hs1]; exact ht.onRel) (ev := ev) (by
    intro hup
    refine ⟨hkb, ?_⟩
    rw [keysDown_append]
    simp [keysDown, hup])
  refine ⟨F', ?_, ?_, ?_, ?_, ?_⟩
  · rw [hu, htail, hloop]; exact f1
  · rw [hu, htail, hloop]; exact f2
  · intro x; rw [hdone.held]; simp
  · rw [hu, htail, hloop]
    show (finishInput c s3 ev).buf = _
    rw [f3, hs3, hs2, hs1]
    show s.buf ++ (p ++ [ev]) = _
    rw [ht.buf, List.nil_append]
  · rw [hu, htail, hloop]
    show (finishInput c s3 ev).active = _
    rw [f4, hs3, hs2, hs1]

/-- a key which was passed through is released -/
theorem looseRelease_step {cs c} (h : WordCfg cs c) {base : KeySequence} {s : S} (ht : TypingState cs base [] s) (hm : s.might = false)
    {j : Key} (hj : j ∈ base.map (·.key)) (dev : Int) :
    ∃ base', TypingState cs base' [] (update c s ⟨j, .Up, 0⟩ dev).1 ∧ (update c s ⟨j, .Up, 0⟩ dev).1.might = false ∧
      (∀ x, x ∈ base'.map (·.key) ↔ x ∈ base.map (·.key) ∧ x ≠ j) ∧
      (update c s ⟨j, .Up, 0⟩ dev).2 = [⟨j, .Up, 0⟩] ∧ (update c s ⟨j, .Up, 0⟩ dev).1.active = s.active := by
  obtain ⟨e0, he0, hek0⟩ := List.mem_map.1 hj
  have hkd := (ht.hbase e0 he0).2
  rw [hek0] at hkd
  obtain ⟨hprop, hca, hvirt⟩ := deviceKey_proper hkd
  obtain ⟨ev, hev⟩ : ∃ ev : KeyEvent, ev = ⟨j, .Up, 0⟩ := ⟨_, rfl⟩
  rw [← hev]
  have hup : ev.state = .Up := by rw [hev]
  have hevk : ev.key = j := by rw [hev]
  obtain ⟨x, b, lp, lr, hu⟩ := update_tail c dev ht.onRel ht.timeout (ev := ev) (Or.inl hup)
  obtain ⟨s1, hs1⟩ : ∃ s1 : S, s1 = { s with exitPos := x, ub := b, lastPressed := lp, lastRepeat := lr } := ⟨_, rfl⟩
  rw [← hs1] at hu
  have hst1 : Steady cs s1 := by rw [hs1]; exact ⟨ht.steady.eq, ht.steady.sorted, ht.steady.lt⟩
  obtain ⟨B, hB⟩ : ∃ B, B = base.eraseP (·.key == j) := ⟨_, rfl⟩
  have hBmem : ∀ e ∈ B, e ∈ base := by rw [hB]; exact fun e he => List.mem_of_mem_eraseP he
  have hBk : B.map (·.key) = (base.map (·.key)).erase j := by rw [hB]; exact eraseP_key_keys ht.nodup j
  have hBx : ∀ x, x ∈ B.map (·.key) ↔ x ∈ base.map (·.key) ∧ x ≠ j := by
    intro x; rw [hBk, ht.nodup.mem_erase_iff]; exact and_comm
  have hbm : beforeMatchUp { s1 with seq := s1.seq ++ [ev] } ev = { s1 with seq := B ++ [ev] } := by
    have hq1 : s1.seq = base := by rw [hs1]; exact ht.seq.trans (List.append_nil _)
    rw [beforeMatchUp_release (l := base) hup (by rw [← hq1]) (fun e he => (ht.hbase e he).1) (by rw [hs1]; exact ht.timeout) (by rw [hs1]; exact hm),
      hevk, hB]
  obtain ⟨s2, hs2⟩ : ∃ s2 : S, s2 = { s1 with seq := B ++ [ev], down := s1.down.map (fun o => { o with suppressed := false }) } := ⟨_, rfl⟩
  have hst2 : Steady cs s2 := by rw [hs2]; exact ⟨hst1.eq, hst1.sorted, hst1.lt⟩
  have htail : pressTail c s1 ev dev = finishInput c (mainLoop c ev dev (ev.state == .Up && ev.key != Key.timeout) s2) ev := by
    rw [pressTail_words h hst1, hbm, hs2]
  obtain ⟨hun1, hun2⟩ := unsuppress_inv ht.down
  have hflush : Flush c dev (B.map (·.key)) [j] B [ev] s2 := by
    rw [hs2, hs1]
    refine ⟨rfl, fun e he => ht.hbase e (hBmem e he), ?_, ht.timeout, ht.reapplied, ht.hist, hun1, ?_, ?_, ?_, ?_, ?_, ?_, by simp, ?_, ?_⟩
    · rw [hBk]; exact ht.nodup.erase _
    · intro x
      show x ∈ (s.down.map (fun o => { o with suppressed := false })).map (·.key) ↔ _
      rw [hun2, ht.downKeys, hBx, List.mem_singleton]
      constructor
      · intro hx
        by_cases hxj : x = j
        · exact Or.inr hxj
        · exact Or.inl ⟨hx, hxj⟩
      · rintro (hx | hx)
        · exact hx.1
        · rw [hx]; exact hj
    · intro x
      constructor
      · exact Or.inl
      · rintro (hx | ⟨hx, hn⟩)
        · exact hx
        · rw [List.mem_singleton] at hx
          rw [hx, hev] at hn; simp at hn
    · rw [hev]; simp [Typed]
    · rw [hev]; simp
    · rw [hev]; simpa using hkd
    · intro k hk
      have hk := ((hBx k).1 hk).2
      refine ⟨by simpa using hk, ?_⟩
      intro e he
      rw [List.mem_singleton] at he
      rw [he, hevk]; exact fun hh => hk hh.symm
    · intro F' q' g1 g2 g3
      have hq' : q' = [ev] := by
        rcases List.suffix_cons_iff.1 g1 with g1 | g1
        · exact g1
        · exact absurd (List.suffix_nil.1 g1) g2
      subst hq'
      intro y hy
      obtain ⟨_, c0, _, _, _, _, pat, hpat, hi⟩ := candidate_word h hy
      rw [hi, hev]
      apply pattern_releaseNoMatch hpat hprop
      intro e he
      obtain ⟨g4, g5, _, g7⟩ := g3 e he
      refine ⟨g4, (deviceKey_proper g5).1, ?_⟩
      intro hh
      rw [hh, hev] at g7; simp at g7
    · intro hmt
      have hmt' : s.might = true := hmt
      rw [hm] at hmt'; simp at hmt'
  obtain ⟨a, b2, F', D, hloop, hdone⟩ := hflush.mainLoop h (by rw [hevk]; exact hvirt) (ev.state == .Up && ev.key != Key.timeout) _ _ _ _
  obtain ⟨s3, hs3⟩ : ∃ s3 : S, s3 = { s2 with anyM := a, ub := b2, seq := F', down := D, buf := s2.buf ++ [ev], might := false } := ⟨_, rfl⟩
  rw [← hs3] at hloop hdone
  have hkd0 : keysDown [j] [ev] = [] := by rw [hev]; simp [keysDown]
  rw [hkd0] at hdone
  obtain ⟨f1, f2, f3, f4⟩ := hdone.finished h (by rw [hs3]; exact ⟨hst2.eq, hst2.sorted, hst2.lt⟩) (by rw [hs3, hs2, hs1]; exact ht.onRel) (ev := ev) (by
    intro _
    refine ⟨?_, by simp⟩
    rw [hevk, hBx]
    exact fun hh => hh.2 rfl)
  refine ⟨F', ?_, ?_, ?_, ?_, ?_⟩
  · rw [hu, htail, hloop]; exact f1
  · rw [hu, htail, hloop]; exact f2
  · intro x; rw [hdone.held, hBx]; simp
  · rw [hu, htail, hloop]
    show (finishInput c s3 ev).buf = _
    rw [f3, hs3, hs2, hs1]
    show s.buf ++ [ev] = _
    rw [ht.buf, List.nil_append]
  · rw [hu, htail, hloop]
    show (finishInput c s3 ev).active = _
    rw [f4, hs3, hs2, hs1]

end KM
