import Verif.Lemmas.Match
import Verif.Model.ParseKeySequence
/-!
# Typing keys one after the other and pressing keys together (C15, C16)
-/
namespace KM

private theorem mLoop_inl {m m' : MState} (h : mStep m = .inl m') : mLoop m = mLoop m' := by
  conv => lhs; unfold mLoop
  split
  · next h2 => rw [h] at h2; simp at h2; rw [h2]
  · next h2 => rw [h] at h2; simp at h2

private theorem mLoop_inr {m : MState} {r} (h : mStep m = .inr r) : mLoop m = r := by
  conv => lhs; unfold mLoop
  split
  · next h2 => rw [h] at h2; simp at h2
  · next h2 => rw [h] at h2; simp at h2; exact h2.symm

private theorem unifiableKey_proper {a b : Key} (ha : ProperKey a) (hb : ProperKey b) :
    unifiableKey a b = (a == b) := by
  unfold unifiableKey
  simp only [ProperKey] at ha hb
  simp [ha, hb]
  rw [Bool.eq_iff_iff]; simp

private theorem unifiable_proper {a b : KeyEvent} (ha : ProperKey a.key) (hb : ProperKey b.key) :
    unifiable a b = (a.key == b.key && unifiableState a.state b.state) := by
  unfold unifiable
  rw [unifiableKey_proper ha hb]
  simp only [ProperKey] at ha hb
  simp [ha, hb]
  grind

/-- the asynchronous events: keys which were released, and keys which may be released -/
private def Async (P : List Key) (A : KeySequence) : Prop :=
  (∀ a ∈ A, ProperKey a.key ∧ (a.state = .Up ∨ a.state = .UpAsync)) ∧
  (∀ k ∈ P, ∃ a ∈ A, a.key = k ∧ a.state = .UpAsync)

private theorem async_noDownAsync {P A} (h : Async P A) (k : Key) : asyncUpDown A k = false := by
  unfold asyncUpDown
  have : A.findIdx? (fun a => a == ⟨k, .DownAsync, 0⟩) = none := by
    rw [List.findIdx?_eq_none_iff]
    intro a ha
    have := (h.1 a ha).2
    rcases this with h1 | h1 <;> (simp only [beq_eq_false_iff_ne, ne_eq]; rintro rfl; simp at h1)
  rw [this]

private theorem async_noUnifiable {P A} (h : Async P A) (k : Key) (hk : ProperKey k) :
    A.any (fun a => unifiable ⟨k, .Down, 0⟩ a) = false := by
  rw [List.any_eq_false]
  intro a ha
  rw [unifiable_proper hk (h.1 a ha).1]
  rcases (h.1 a ha).2 with h1 | h1 <;> simp [h1, unifiableState]

private theorem async_noUnifiable_zero (A : KeySequence) : A.any (fun a => unifiable KeyEvent.zero a) = false := by
  rw [List.any_eq_false]
  intro a ha
  rw [unifiable_zero_left]; simp

private theorem async_zero (A : KeySequence) : A.any (waitsFor KeyEvent.zero) = false := by
  rw [List.any_eq_false]
  intro a _
  simp [waitsFor, KeyEvent.zero, unifiableKey_none_left]

private theorem async_down {P A} (h : Async P A) {se : KeyEvent} (hs : se.state = .Down) :
    A.any (waitsFor se) = false := by
  rw [List.any_eq_false]
  intro a ha
  rcases (h.1 a ha).2 with h1 | h1 <;> simp [waitsFor, hs, h1]

theorem mem_modFirst_of_not {p : α → Bool} {f : α → α} {b : α} {A : List α} (hb : b ∈ A) (h : p b = false) :
    b ∈ modFirst p f A := by
  induction A with
  | nil => simp at hb
  | cons x xs ih =>
    unfold modFirst
    split
    · next hx =>
      rcases List.mem_cons.mp hb with rfl | hb
      · simp [h] at hx
      · simp [hb]
    · rcases List.mem_cons.mp hb with rfl | hb
      · simp
      · simp [ih hb]

private theorem async_release {P A} (h : Async P A) {se : KeyEvent} (hs : se.state = .Up) (hk : se.key ∈ P) :
    A.any (waitsFor se) = true ∧
    Async (P.filter (· ≠ se.key)) (modFirst (waitsFor se) (fun a => { a with state := se.state }) A) := by
  obtain ⟨a, ha, hak, has⟩ := h.2 _ hk
  have hp : ProperKey se.key := hak ▸ (h.1 a ha).1
  have hw : ∀ a ∈ A, waitsFor se a = true ↔ a.state = .UpAsync ∧ a.key = se.key := by
    intro a ha
    unfold waitsFor
    rw [unifiableKey_proper hp (h.1 a ha).1]
    simp only [hs, beq_self_eq_true, if_true, Bool.and_eq_true, beq_iff_eq]
    exact ⟨fun h => ⟨h.1, h.2.symm⟩, fun h => ⟨h.1, h.2.symm⟩⟩
  constructor
  · rw [List.any_eq_true]
    exact ⟨a, ha, (hw a ha).mpr ⟨has, hak⟩⟩
  · constructor
    · have : ∀ A : KeySequence, (∀ a ∈ A, ProperKey a.key ∧ (a.state = .Up ∨ a.state = .UpAsync)) →
          ∀ a ∈ modFirst (waitsFor se) (fun a => { a with state := se.state }) A, ProperKey a.key ∧ (a.state = .Up ∨ a.state = .UpAsync) := by
        intro A
        induction A with
        | nil => simp [modFirst]
        | cons x xs ih =>
          intro h a ha
          unfold modFirst at ha
          split at ha
          · rcases List.mem_cons.mp ha with rfl | ha
            · exact ⟨(h x (by simp)).1, .inl hs⟩
            · exact h a (by simp [ha])
          · rcases List.mem_cons.mp ha with rfl | ha
            · exact h _ (by simp)
            · exact ih (fun b hb => h b (by simp [hb])) a ha
      exact this A h.1
    · intro k hk'
      rw [List.mem_filter] at hk'
      obtain ⟨b, hb, hbk, hbs⟩ := h.2 k hk'.1
      refine ⟨b, ?_, hbk, hbs⟩
      have hne : b.key ≠ se.key := by simpa [hbk] using hk'.2
      refine mem_modFirst_of_not hb ?_
      rw [← Bool.not_eq_true, hw b hb]
      exact fun h => hne h.2

private theorem presses_down {e : KeyEvent} {s} (h : e.state = .Down) : presses (e :: s) = e.key :: presses s := by
  simp [presses, h]

private theorem presses_up {e : KeyEvent} {s} (h : e.state = .Up) : presses (e :: s) = presses s := by
  simp [presses, h]

/-- the result of typing an expression -/
def typingResult (ks typed : List Key) : MatchResult :=
  if typed = ks then .matched else if typed <+: ks then .might_match else .no_match

private theorem main_else {m : MState} {se ee : KeyEvent} (hn : m.nots = []) (hu : unifiable se ee = false)
    (hk : ee.key ≠ Key.any) (ht : ee.key ≠ Key.timeout) (hs : ee.state = .Down ∨ ee.state = .Up) :
    mStepMain m se ee = mStepElse m se ee := by
  unfold mStepMain
  rw [hn, hu]
  rcases hs with hs | hs <;> simp [hs, hk, ht]

/-- the remaining expression is at its end, or expects the press of a key -/
private theorem typing_ee {ks : List Key} {m : MState} (h : m.eRest = typingExpr ks) (hks : ∀ k ∈ ks, ProperKey k) :
    (m.ee = KeyEvent.zero ∧ ks = []) ∨ (∃ k ks', ks = k :: ks' ∧ m.ee = ⟨k, .Down, 0⟩ ∧ ProperKey k) := by
  cases ks with
  | nil => left; unfold MState.ee; rw [h]; exact ⟨rfl, rfl⟩
  | cons k ks => right; unfold MState.ee; rw [h]; exact ⟨k, ks, rfl, rfl, hks k (by simp)⟩

private theorem typing_loop (n : Nat) : ∀ (m : MState) (ks P : List Key), m.sRest.length = n → m.eRest = typingExpr ks →
    m.nots = [] → m.nmm = false → (∀ k ∈ ks, ProperKey k) → Typed P m.sRest → Async P m.async →
    (mLoop m).res = typingResult ks (presses m.sRest) := by
  induction n with
  | zero =>
    intro m ks P hlen he hn hm hks _ hA
    have hs : m.sRest = [] := by simpa using hlen
    rcases typing_ee he hks with ⟨hee, rfl⟩ | ⟨k, ks', rfl, hee, hk⟩
    · rw [mLoop_inr (r := ⟨.matched, m.any, none, false⟩) (by simp [mStep, he, hs, typingExpr])]
      simp [typingResult, presses, hs]
    · rw [mLoop_inr (r := ⟨.might_match, m.any, none, false⟩)]
      · simp [typingResult, presses, hs]
      · have hse : m.se = KeyEvent.zero := by unfold MState.se; rw [hs]; rfl
        have hd : m.dropNot ⟨k, .Down, 0⟩ = m := by simp [MState.dropNot, hn]; cases m; simp at hn; simp [hn]
        unfold mStep
        rw [hee, hse, hd, main_else hn (unifiable_zero_left _) hk.2.1 hk.2.2 (.inl rfl)]
        have : (m.eRest.isEmpty && m.sRest.isEmpty) = false := by simp [he, typingExpr]
        rw [this]
        unfold mStepElse
        rw [async_zero, async_noUnifiable hA k hk, async_noDownAsync hA k, hm, hs]
        simp [KeyEvent.zero, Key.timeout]
  | succ n ih =>
    intro m ks P hlen he hn hm hks hT hA
    obtain ⟨x, s, hs⟩ : ∃ x s, m.sRest = x :: s := List.exists_cons_of_length_eq_add_one hlen
    have hse : m.se = x := by unfold MState.se; rw [hs]; rfl
    have hd : ∀ ev, m.dropNot ev = m := by
      intro ev; unfold MState.dropNot; rw [hn]; split
      · cases m; simp at hn; simp [hn]
      · rfl
    have hemp : (m.eRest.isEmpty && m.sRest.isEmpty) = false := by simp [hs]
    rw [hs] at hT hlen ⊢
    have hlen' : s.length = n := by simpa using hlen
    rcases hT with ⟨hxd, hx, hP, hT⟩ | ⟨hxu, hP, hT⟩
    · rw [presses_down hxd]
      rcases typing_ee he hks with ⟨hee, rfl⟩ | ⟨k, ks', rfl, hee, hk⟩
      · -- surplus key
        rw [mLoop_inr (r := ⟨.no_match, m.any, none, false⟩)]
        · simp [typingResult]
        · unfold mStep
          rw [hemp, hee, hse, hd, main_else hn (unifiable_zero_right _) (by decide) (by decide) (.inr rfl)]
          unfold mStepElse
          rw [async_down hA hxd, async_noUnifiable_zero, hm, hs]
          simp [KeyEvent.zero, hxd, hx.2.2]
      · by_cases hkx : x.key = k
        · -- the expected key
          have h1 : mStep m = .inl { m with
              any := m.any, async := m.async.filter (fun a => !(x.key == a.key)), sRest := s, downs := m.downs + 1,
              eRest := ⟨k, .UpAsync, 0⟩ :: typingExpr ks', e := m.e + 1 } := by
            unfold mStep
            rw [hemp, hee, hse, hd]
            unfold mStepMain
            rw [hn, unifiable_proper hx hk]
            have hk1 : k ≠ Key.any := hk.2.1
            simp [hxd, hkx, unifiableState, MState.advSE, MState.advS, MState.advE, hs, he, typingExpr, hk1]
          rw [mLoop_inl h1]
          clear h1
          generalize hm1 : ({ m with
              any := m.any, async := m.async.filter (fun a => !(x.key == a.key)), sRest := s, downs := m.downs + 1,
              eRest := ⟨k, .UpAsync, 0⟩ :: typingExpr ks', e := m.e + 1 } : MState) = m1
          have h2 : mStep m1 = .inl { m1 with async := m1.async ++ [⟨k, .UpAsync, 0⟩], eRest := typingExpr ks', e := m1.e + 1 } := by
            subst hm1
            simp [mStep, mStepMain, MState.dropNot, MState.ee, MState.advE, hn]
          rw [mLoop_inl h2]
          rw [ih _ ks' (x.key :: P) (by subst hm1; exact hlen') rfl (by subst hm1; exact hn) (by subst hm1; exact hm)
            (fun a ha => hks a (by simp [ha])) (by subst hm1; exact hT)]
          · subst hm1
            simp [typingResult, hkx]
          · subst hm1
            constructor
            · intro a ha
              simp only [List.mem_append, List.mem_filter, List.mem_singleton] at ha
              rcases ha with ha | rfl
              · exact hA.1 a ha.1
              · exact ⟨hk, .inr rfl⟩
            · intro k' hk'
              simp only [List.mem_append, List.mem_filter, List.mem_singleton]
              rcases List.mem_cons.mp hk' with rfl | hk'
              · exact ⟨⟨k, .UpAsync, 0⟩, .inr rfl, hkx.symm, rfl⟩
              · obtain ⟨a, ha, hak, has⟩ := hA.2 k' hk'
                refine ⟨a, .inl ⟨ha, ?_⟩, hak, has⟩
                have : x.key ≠ a.key := by rw [hak]; rintro rfl; exact hP hk'
                simp [this]
        · -- another key
          rw [mLoop_inr (r := ⟨.no_match, m.any, none, false⟩)]
          · simp [typingResult, hkx]
          · unfold mStep
            have hu : unifiable x ⟨k, .Down, 0⟩ = false := by rw [unifiable_proper hx hk]; simp [hkx]
            rw [hemp, hee, hse, hd, main_else hn hu hk.2.1 hk.2.2 (.inl rfl)]
            unfold mStepElse
            rw [async_down hA hxd, async_noUnifiable hA k hk, async_noDownAsync hA k, hm, hs]
            simp [hxd, hx.2.2]
    · rw [presses_up hxu]
      have hrel := async_release hA hxu hP
      have hpx : ProperKey x.key := by
        obtain ⟨a, ha, hak, _⟩ := hA.2 _ hP
        exact hak ▸ (hA.1 a ha).1
      have h1 : mStep m = .inl { m with async := modFirst (waitsFor x) (fun a => { a with state := x.state }) m.async, sRest := s } := by
        unfold mStep
        rw [hemp, hse, hd]
        have : mStepMain m x m.ee = mStepElse m x m.ee := by
          rcases typing_ee he hks with ⟨hee, rfl⟩ | ⟨k, ks', rfl, hee, hk⟩
          · rw [hee]; exact main_else hn (unifiable_zero_right _) (by decide) (by decide) (.inr rfl)
          · rw [hee]
            refine main_else hn ?_ hk.2.1 hk.2.2 (.inl rfl)
            rw [unifiable_proper hpx hk]; simp [hxu, unifiableState]
        rw [this]
        unfold mStepElse
        rw [hrel.1, hm]
        simp [MState.advS, hs, hxu]
      rw [mLoop_inl h1]
      exact ih _ ks (P.filter (· ≠ x.key)) hlen' he hn hm hks hT hrel.2

/-- **C15** The expression for typing keys one after the other matches exactly when the keys were
pressed in this order, may match exactly for the proper prefixes, and does not match otherwise - in
whichever way the presses and releases of the keys overlap. -/
theorem C15_typing (ks : List Key) (s : KeySequence) (hks : ∀ k ∈ ks, ProperKey k) (hne : ks ≠ []) (hs : s ≠ [])
    (hT : Typed [] s) :
    (matchSeq (typingExpr ks) s).res =
      if presses s = ks then .matched else if presses s <+: ks then .might_match else .no_match := by
  unfold matchSeq
  have : ((typingExpr ks).isEmpty || s.isEmpty) = false := by
    obtain ⟨k, ks', rfl⟩ := List.exists_cons_of_ne_nil hne
    simp [typingExpr, hs]
  rw [this]
  exact typing_loop s.length (mInit (typingExpr ks) s) ks [] rfl rfl rfl rfl hks hT ⟨by simp [mInit], by simp⟩

-- typing `A B` with overlap: +A +B -A -B; `A` may match; `B` and `A A` do not match
example : Typed [] [⟨30, .Down, 0⟩, ⟨48, .Down, 0⟩, ⟨30, .Up, 0⟩, ⟨48, .Up, 0⟩] := by
  simp [Typed, ProperKey, Key.none, Key.any, Key.timeout]
example : (matchSeq (typingExpr [30, 48]) [⟨30, .Down, 0⟩, ⟨48, .Down, 0⟩, ⟨30, .Up, 0⟩, ⟨48, .Up, 0⟩]).res = .matched ∧
    (matchSeq (typingExpr [30, 48]) [⟨30, .Down, 0⟩]).res = .might_match ∧
    (matchSeq (typingExpr [30, 48]) [⟨48, .Down, 0⟩]).res = .no_match ∧
    (matchSeq (typingExpr [30, 48]) [⟨30, .Down, 0⟩, ⟨30, .Up, 0⟩, ⟨30, .Down, 0⟩]).res = .no_match := by decide +kernel

/-! ### C16 -/

/-- the asynchronous events of a chord of which the keys `D` were pressed -/
private def chordAsync (g D : List Key) : KeySequence :=
  g.map (fun k => ⟨k, if k ∈ D then .Down else .DownAsync, 0⟩)

private def downs (p : List Key) : KeySequence := p.map (fun k => ⟨k, .Down, 0⟩)
private def ups (p : List Key) : KeySequence := p.map (fun k => ⟨k, .Up, 0⟩)
private def upsAsync (p : List Key) : KeySequence := p.map (fun k => ⟨k, .UpAsync, 0⟩)

private theorem typed_ups (r : List Key) : ∀ P, r.Nodup → (∀ k ∈ r, k ∈ P) → Typed P (ups r) := by
  induction r with
  | nil => intros; trivial
  | cons x r ih =>
    intro P hn hP
    refine .inr ⟨rfl, hP x (by simp), ?_⟩
    refine ih _ (List.nodup_cons.mp hn).2 ?_
    intro k hk
    rw [List.mem_filter]
    refine ⟨hP k (by simp [hk]), ?_⟩
    have : k ≠ x := by rintro rfl; exact (List.nodup_cons.mp hn).1 hk
    simpa using this

private theorem presses_ups (r : List Key) : presses (ups r) = [] := by
  simp [presses, ups]

/-- after the presses: the releases -/
private theorem chord_up (us : List Key) : ∀ (g r : List Key) (m : MState), m.eRest = upsAsync us → m.sRest = ups r → m.nots = [] → m.nmm = false →
    (∀ k ∈ us, ProperKey k) → (∀ a ∈ m.async, ProperKey a.key ∧ (a.state = .Up ∨ a.state = .UpAsync)) →
    (∀ k ∈ g, k ∈ us ∨ ∃ a ∈ m.async, a.key = k ∧ a.state = .UpAsync) → r.Nodup → (∀ k ∈ r, k ∈ g) →
    (mLoop m).res = .matched := by
  induction us with
  | nil =>
    intro g r m he hs hn hm _ hA hg hr hrg
    have := typing_loop _ m [] g rfl he hn hm (by simp) (by rw [hs]; exact typed_ups r g hr hrg)
      ⟨hA, fun k hk => by simpa using hg k hk⟩
    rw [this, hs, presses_ups]
    rfl
  | cons u us ih =>
    intro g r m he hs hn hm hus hA hg hr hrg
    have h2 : mStep m = .inl { m with async := m.async ++ [⟨u, .UpAsync, 0⟩], eRest := upsAsync us, e := m.e + 1 } := by
      simp [mStep, mStepMain, MState.dropNot, MState.ee, MState.advE, hn, he, upsAsync]
    rw [mLoop_inl h2]
    refine ih g r _ rfl hs hn hm (fun k hk => hus k (by simp [hk])) ?_ ?_ hr hrg
    · intro a ha
      rcases List.mem_append.mp ha with ha | ha
      · exact hA a ha
      · simp at ha; subst ha; exact ⟨hus u (by simp), .inr rfl⟩
    · intro k hk
      rcases hg k hk with h | ⟨a, ha, h⟩
      · rcases List.mem_cons.mp h with rfl | h
        · exact .inr ⟨⟨k, .UpAsync, 0⟩, by simp, rfl, rfl⟩
        · exact .inl h
      · exact .inr ⟨a, by simp [ha], h⟩

private theorem chordAsync_noUpDown (g D : List Key) (k : Key) : asyncUpDown (chordAsync g D) k = false := by
  unfold asyncUpDown
  split
  · next i h =>
    simp only [chordAsync, List.getElem?_map]
    cases g[i]? with
    | none => rfl
    | some y => simp only [Option.map_some]; split <;> simp
  · rfl

/-- all keys which get pressed were pressed -/
private theorem chord_pressed (g' : List Key) : ∀ (g D r : List Key) (m : MState), m.eRest = downs g' ++ upsAsync g → m.sRest = ups r →
    m.nots = [] → m.nmm = false → m.async = chordAsync g' D → (∀ k ∈ g', ProperKey k) → (∀ k ∈ g, ProperKey k) → g'.Nodup →
    r.Nodup → (∀ k ∈ r, k ∈ g) →
    (mLoop m).res = if ∀ k ∈ g', k ∈ D then .matched else if r = [] then .might_match else .no_match := by
  induction g' with
  | nil =>
    intro g D r m he hs hn hm hA _ hg _ hr hrg
    simp only [List.not_mem_nil, false_implies, implies_true, if_true]
    exact chord_up g g r m he hs hn hm hg (by simp [hA, chordAsync]) (fun k hk => .inl hk) hr hrg
  | cons x g' ih =>
    intro g D r m he hs hn hm hA hg' hg hnd hr hrg
    have hx : ProperKey x := hg' x (by simp)
    have hee : m.ee = ⟨x, .Down, 0⟩ := by simp [MState.ee, he, downs]
    have hd : ∀ ev, m.dropNot ev = m := by
      intro ev; unfold MState.dropNot; rw [hn]; split
      · cases m; simp at hn; simp [hn]
      · rfl
    have hemp : (m.eRest.isEmpty && m.sRest.isEmpty) = false := by simp [he, downs]
    have hse : m.se = (ups r).headD KeyEvent.zero := by unfold MState.se; rw [hs]
    have hseU : m.se.state = .Up := by rw [hse]; cases r <;> rfl
    have hseT : r = [] ∨ ∃ y r', r = y :: r' ∧ ProperKey y ∧ m.se = ⟨y, .Up, 0⟩ := by
      cases r with
      | nil => exact .inl rfl
      | cons y r' => exact .inr ⟨y, r', rfl, hg y (hrg y (by simp)), hse⟩
    have hu : unifiable m.se ⟨x, .Down, 0⟩ = false := by
      rcases hseT with rfl | ⟨y, r', rfl, hy, h⟩
      · rw [hse]; exact unifiable_zero_left _
      · rw [h, unifiable_proper hy hx]; simp [unifiableState]
    have hw : (chordAsync (x :: g') D).any (waitsFor m.se) = false := by
      rw [List.any_eq_false]
      intro a ha
      unfold waitsFor
      rw [hseU]
      simp only [chordAsync, List.mem_map] at ha
      obtain ⟨k, _, rfl⟩ := ha
      simp only []
      split <;> simp
    have hstep : mStep m = mStepElse m m.se ⟨x, .Down, 0⟩ := by
      unfold mStep
      rw [hemp, hee, hd, main_else hn hu hx.2.1 hx.2.2 (.inl rfl)]
      rfl
    by_cases hxD : x ∈ D
    · have h1 : mStep m = .inl { m with async := chordAsync g' D, eRest := downs g' ++ upsAsync g, e := m.e + 1 } := by
        rw [hstep]
        unfold mStepElse
        have hun : unifiable ⟨x, .Down, 0⟩ ⟨x, .Down, 0⟩ = true := by rw [unifiable_proper hx hx]; simp [unifiableState]
        rw [hA, hw, hm]
        simp [chordAsync, hseU, hxD, hun, MState.advE, he, downs]
      rw [mLoop_inl h1]
      refine Eq.trans (ih g D r _ rfl hs hn hm rfl (fun k hk => hg' k (by simp [hk])) hg (List.nodup_cons.mp hnd).2 hr hrg) ?_
      simp [hxD]
    · have hno : (chordAsync (x :: g') D).any (fun a => unifiable ⟨x, .Down, 0⟩ a) = false := by
        rw [List.any_eq_false]
        intro a ha
        simp only [chordAsync, List.mem_map] at ha
        obtain ⟨k, hk, rfl⟩ := ha
        rw [unifiable_proper hx (hg' k hk)]
        by_cases hkx : x = k
        · subst hkx; simp [hxD, unifiableState]
        · simp [hkx]
      have h1 : mStep m = .inr ⟨if r = [] then .might_match else .no_match, m.any, none, false⟩ := by
        rw [hstep]
        unfold mStepElse
        rw [hA, hw, hm, hno, chordAsync_noUpDown, hs]
        have ht : m.se.key ≠ Key.timeout := by
          rcases hseT with rfl | ⟨y, r', rfl, hy, h⟩
          · rw [hse]; decide
          · rw [h]; exact hy.2.2
        simp [hseU, ht, ups]
      rw [mLoop_inr h1]
      have : ¬ ∀ k ∈ x :: g', k ∈ D := fun h => hxD (h x (by simp))
      simp only [this, if_false]

private theorem chordAsync_press {g : List Key} {D : List Key} {y : Key} (hg : ∀ k ∈ g, ProperKey k) (hy : y ∈ g) (hD : y ∉ D) (hn : g.Nodup) :
    (chordAsync g D).any (waitsFor ⟨y, .Down, 0⟩) = true ∧
    modFirst (waitsFor ⟨y, .Down, 0⟩) (fun a => { a with state := .Down }) (chordAsync g D) = chordAsync g (y :: D) := by
  have hyp := hg y hy
  induction g with
  | nil => simp at hy
  | cons x g ih =>
    have hw : waitsFor ⟨y, .Down, 0⟩ ⟨x, if x ∈ D then .Down else .DownAsync, 0⟩ = (decide (y = x)) := by
      unfold waitsFor
      rw [unifiableKey_proper hyp (hg x (by simp))]
      by_cases hxy : y = x
      · subst hxy; simp [hD]
      · simp [hxy]
    have hcons : ∀ D, chordAsync (x :: g) D = ⟨x, if x ∈ D then .Down else .DownAsync, 0⟩ :: chordAsync g D := fun _ => rfl
    by_cases hxy : y = x
    · subst hxy
      constructor
      · simp [hcons, hw]
      · rw [hcons, hcons]
        unfold modFirst
        rw [hw]
        simp only [decide_true, if_true, List.mem_cons, true_or]
        congr 1
        unfold chordAsync
        apply List.map_congr_left
        intro k hk
        have : k ≠ y := by rintro rfl; exact (List.nodup_cons.mp hn).1 hk
        simp [this]
    · have hy' : y ∈ g := by simpa [hxy] using hy
      obtain ⟨i1, i2⟩ := ih (fun k hk => hg k (by simp [hk])) hy' (List.nodup_cons.mp hn).2
      constructor
      · rw [hcons, List.any_cons, i1]; simp
      · rw [hcons, hcons]
        unfold modFirst
        rw [hw]
        have hxy' : ¬ x = y := fun h => hxy h.symm
        simp [hxy, hxy', i2]

private theorem chord_press (p : List Key) : ∀ (g' g D r : List Key) (m : MState), m.eRest = downs g' ++ upsAsync g → m.sRest = downs p ++ ups r →
    m.nots = [] → m.nmm = false → m.async = chordAsync g' D → (∀ k ∈ g, ProperKey k) → (∀ k ∈ g', k ∈ g) → g'.Nodup →
    p.Nodup → (∀ k ∈ p, k ∈ g' ∧ k ∉ D) → r.Nodup → (∀ k ∈ r, k ∈ g) →
    (mLoop m).res = if ∀ k ∈ g', k ∈ D ∨ k ∈ p then .matched else if r = [] then .might_match else .no_match := by
  induction p with
  | nil =>
    intro g' g D r m he hs hn hm hA hg hg' hnd hp hpg hr hrg
    rw [chord_pressed g' g D r m he (by simpa [downs] using hs) hn hm hA (fun k hk => hg k (hg' k hk)) hg hnd hr hrg]
    simp
  | cons y p ih =>
    intro g' g D r m he hs hn hm hA hg hg' hnd hp hpg hr hrg
    have hyg := (hpg y (by simp)).1
    have hyD := (hpg y (by simp)).2
    obtain ⟨x, g'', rfl⟩ : ∃ x g'', g' = x :: g'' := List.exists_cons_of_ne_nil (List.ne_nil_of_mem hyg)
    have hy : ProperKey y := hg y (hg' y hyg)
    have hx : ProperKey x := hg x (hg' x (by simp))
    have hee : m.ee = ⟨x, .Down, 0⟩ := by simp [MState.ee, he, downs]
    have hse : m.se = ⟨y, .Down, 0⟩ := by simp [MState.se, hs, downs]
    have hd : ∀ ev, m.dropNot ev = m := by
      intro ev; unfold MState.dropNot; rw [hn]; split
      · cases m; simp at hn; simp [hn]
      · rfl
    have hemp : (m.eRest.isEmpty && m.sRest.isEmpty) = false := by simp [he, downs]
    have hg2 : ∀ k ∈ x :: g'', ProperKey k := fun k hk => hg k (hg' k hk)
    have hpn := List.nodup_cons.mp hp
    have hxn := List.nodup_cons.mp hnd
    by_cases hyx : y = x
    · subst hyx
      have h1 : mStep m = .inl { m with async := chordAsync g'' D, eRest := downs g'' ++ upsAsync g, e := m.e + 1, sRest := downs p ++ ups r, downs := m.downs + 1 } := by
        unfold mStep
        rw [hemp, hee, hse, hd]
        unfold mStepMain
        rw [hn, unifiable_proper hx hx, hA]
        have hk1 : y ≠ Key.any := hy.2.1
        have hfil : List.filter (fun a => !(y == a.key)) (chordAsync g'' D) = chordAsync g'' D := by
          rw [List.filter_eq_self]
          intro a ha
          simp only [chordAsync, List.mem_map] at ha
          obtain ⟨k, hk, rfl⟩ := ha
          have : y ≠ k := by rintro rfl; exact hxn.1 hk
          simpa using this
        have hc : chordAsync (y :: g'') D = ⟨y, if y ∈ D then .Down else .DownAsync, 0⟩ :: chordAsync g'' D := rfl
        rw [hc, List.filter_cons]
        simp [unifiableState, MState.advSE, MState.advS, MState.advE, hs, he, downs, hk1, hfil]
      rw [mLoop_inl h1]
      refine Eq.trans (ih g'' g D r _ rfl rfl hn hm rfl hg (fun k hk => hg' k (by simp [hk])) hxn.2 hpn.2 ?_ hr hrg) ?_
      rotate_left
      · have : (∀ k ∈ g'', k ∈ D ∨ k ∈ p) ↔ (∀ k ∈ y :: g'', k ∈ D ∨ k ∈ y :: p) := by
          constructor
          · intro h k hk
            rcases List.mem_cons.mp hk with rfl | hk
            · simp
            · rcases h k hk with h | h <;> simp [h]
          · intro h k hk
            rcases h k (by simp [hk]) with h | h
            · exact .inl h
            · rcases List.mem_cons.mp h with rfl | h
              · exact absurd hk hxn.1
              · exact .inr h
        simp only [this]
      · intro k hk
        have := hpg k (by simp [hk])
        refine ⟨?_, this.2⟩
        rcases List.mem_cons.mp this.1 with rfl | h
        · exact absurd hk hpn.1
        · exact h
    · obtain ⟨p1, p2⟩ := chordAsync_press hg2 hyg hyD hnd
      have h1 : mStep m = .inl { m with async := chordAsync (x :: g'') (y :: D), sRest := downs p ++ ups r, downs := m.downs + 1 } := by
        unfold mStep
        have hu : unifiable ⟨y, .Down, 0⟩ ⟨x, .Down, 0⟩ = false := by rw [unifiable_proper hy hx]; simp [hyx]
        rw [hemp, hee, hse, hd, main_else hn hu hx.2.1 hx.2.2 (.inl rfl)]
        unfold mStepElse
        rw [hA, p1, hm]
        simp only [p2]
        simp [MState.advS, hs, downs]
      rw [mLoop_inl h1]
      refine Eq.trans (ih (x :: g'') g (y :: D) r _ he rfl hn hm rfl hg hg' hnd hpn.2 ?_ hr hrg) ?_
      rotate_left
      · have : (∀ k ∈ x :: g'', k ∈ y :: D ∨ k ∈ p) ↔ (∀ k ∈ x :: g'', k ∈ D ∨ k ∈ y :: p) := by
          have : ∀ k, (k ∈ y :: D ∨ k ∈ p) ↔ (k ∈ D ∨ k ∈ y :: p) := by
            intro k
            simp only [List.mem_cons]
            constructor
            · rintro ((h | h) | h) <;> simp [h]
            · rintro (h | (h | h)) <;> simp [h]
          simp only [this]
        simp only [this]
      · intro k hk
        have := hpg k (by simp [hk])
        refine ⟨this.1, ?_⟩
        simp only [List.mem_cons, not_or]
        exact ⟨by rintro rfl; exact hpn.1 hk, this.2⟩

private theorem chord_begin (gs : List Key) : ∀ (m : MState) (rest : KeySequence), m.eRest = gs.map (fun k => ⟨k, .DownAsync, 0⟩) ++ rest → m.nots = [] →
    mLoop m = mLoop { m with eRest := rest, async := m.async ++ chordAsync gs [], e := m.e + gs.length } := by
  induction gs with
  | nil => intro m rest he hn; simp [chordAsync] at *; cases m; simp at *; simp [he]
  | cons g gs ih =>
    intro m rest he hn
    have h1 : mStep m = .inl { m with async := m.async ++ [⟨g, .DownAsync, 0⟩], eRest := gs.map (fun k => ⟨k, .DownAsync, 0⟩) ++ rest, e := m.e + 1 } := by
      simp [mStep, mStepMain, MState.dropNot, MState.ee, MState.advE, hn, he]
    rw [mLoop_inl h1]
    refine Eq.trans (ih _ rest rfl hn) ?_
    congr 1
    simp [chordAsync]
    omega

/-- **C16** The expression for pressing a group of distinct keys together: after pressing keys `p` of
the group, in any order, and then releasing the keys `r` of them, it matches exactly if all keys of the
group were pressed; otherwise it may match, unless a key was already released. -/
theorem C16_chord (g p r : List Key) (hg : ∀ k ∈ g, ProperKey k) (hn : g.Nodup) (hp : p.Nodup) (hpg : ∀ k ∈ p, k ∈ g)
    (hne : p ≠ []) (hr : r.Nodup) (hrp : ∀ k ∈ r, k ∈ p) :
    (matchSeq (chordExpr g) (p.map (fun k => ⟨k, .Down, 0⟩) ++ r.map (fun k => ⟨k, .Up, 0⟩))).res =
      if ∀ k ∈ g, k ∈ p then .matched else if r = [] then .might_match else .no_match := by
  unfold matchSeq
  have hge : g ≠ [] := by
    obtain ⟨k, ks, rfl⟩ := List.exists_cons_of_ne_nil hne
    exact List.ne_nil_of_mem (hpg k (by simp))
  have : ((chordExpr g).isEmpty || (p.map (fun k => ⟨k, .Down, 0⟩) ++ r.map (fun k => ⟨k, .Up, 0⟩) : KeySequence).isEmpty) = false := by
    simp [chordExpr, hne, hge]
  rw [this]
  simp only [Bool.false_eq_true, if_false]
  rw [chord_begin g (mInit _ _) (downs g ++ upsAsync g) (by simp [mInit, chordExpr, downs, upsAsync]) rfl]
  rw [chord_press p g g [] r _ rfl rfl rfl rfl (by simp [mInit]) hg (fun _ h => h) hn hp (fun k hk => ⟨hpg k hk, by simp⟩) hr
    (fun k hk => hpg k (hrp k hk))]
  simp

/-- **C16** In particular pressing the keys in any order matches. -/
theorem C16_any_order (g p : List Key) (hg : ∀ k ∈ g, ProperKey k) (hn : g.Nodup) (hne : g ≠ []) (h : p.Perm g) :
    (matchSeq (chordExpr g) (p.map (fun k => ⟨k, .Down, 0⟩))).res = .matched := by
  have hp : p ≠ [] := by rintro rfl; exact hne (List.nil_perm.mp h)
  have := C16_chord g p [] hg hn (h.nodup_iff.mpr hn) (fun k hk => h.mem_iff.mp hk) hp List.nodup_nil (by simp)
  simp only [List.map_nil, List.append_nil] at this
  rw [this, if_pos (fun k hk => h.mem_iff.mpr hk)]

-- three keys in another order; two of them; one released too early
example : (matchSeq (chordExpr [30, 48, 46]) [⟨46, .Down, 0⟩, ⟨30, .Down, 0⟩, ⟨48, .Down, 0⟩]).res = .matched ∧
    (matchSeq (chordExpr [30, 48, 46]) [⟨46, .Down, 0⟩, ⟨30, .Down, 0⟩]).res = .might_match ∧
    (matchSeq (chordExpr [30, 48, 46]) [⟨46, .Down, 0⟩, ⟨30, .Down, 0⟩, ⟨46, .Up, 0⟩]).res = .no_match := by decide +kernel
example : [46, 30, 48].Perm [30, 48, 46] := by decide

/-- the input expression `(X Any)` -/
private def anyChord : KeySequence :=
  [⟨Key.KeyX, .DownAsync, 0⟩, ⟨Key.any, .DownAsync, 0⟩, ⟨Key.KeyX, .Down, 0⟩, ⟨Key.any, .Down, 0⟩, ⟨Key.KeyX, .UpAsync, 0⟩, ⟨Key.any, .UpAsync, 0⟩]

private def anyChordEnv : PEnv :=
  { isInput := true, getKey := fun s => if s = ['X'] then Key.KeyX else if s = ['A', 'n', 'y'] then Key.any else Key.none, typer := genericTyper }

/-- The claim of C16 is about keys, it does not hold for the wildcard `Any` in a group: the expression `(X Any)` is also matched by pressing A and B,
without pressing X. -/
theorem C16_any_counterexample : parseSequence anyChordEnv ['(', 'X', ' ', 'A', 'n', 'y', ')'] = some (anyChord, []) ∧
    (matchSeq anyChord [⟨Key.KeyA, .Down, 0⟩, ⟨Key.KeyB, .Down, 0⟩]).res = .matched := by decide +kernel

end KM
