import Verif.Lemmas.ParseInput
import Verif.Lemmas.ParseOutput
import Verif.Spec.Expression
/-!
# The keys which occur in parsed expressions
-/
namespace KM

/-- Everything keys are taken from: names, the typer, the modifiers for typing and timeouts -/
structure KeySource (env : PEnv) (K : Key → Prop) : Prop where
  name : ∀ n, env.getKey n ≠ Key.none → K (env.getKey n)
  typer : ∀ s l, env.typer s = some l → ∀ t ∈ l, K t.key
  modifier : ∀ k, TypingModifier k → K k
  timeout : K Key.timeout
  any : K Key.any

/-- the keys of a state of the parser; `A` are the ones of terminal commands -/
structure KeysIn (K A : Key → Prop) (m : KeyEvent) (p : PState) : Prop where
  seq : ∀ e ∈ p.seq, K e.key ∨ (A e.key ∧ e.state = .Down ∧ e.value = 0) ∨ e = m
  buffer : ∀ k ∈ p.buffer, K k
  pressed : ∀ k ∈ p.pressed, K k

theorem KeysIn.mono {K A A' : Key → Prop} {m : KeyEvent} {p : PState} (h : KeysIn K A m p)
    (hA : ∀ k, A k → A' k) : KeysIn K A' m p :=
  ⟨fun e he => (h.seq e he).imp id (Or.imp (fun x => ⟨hA _ x.1, x.2⟩) id), h.buffer, h.pressed⟩

theorem KeysIn.flush {K A : Key → Prop} {m : KeyEvent} {p : PState} (h : KeysIn K A m p) (i u : Bool) :
    KeysIn K A m (p.flush i u) := by
  have hb : ∀ (st : KeyState) e, e ∈ p.buffer.map (fun k => (⟨k, st, 0⟩ : KeyEvent)) →
      K e.key ∨ (A e.key ∧ e.state = .Down ∧ e.value = 0) ∨ e = m := by
    intro st e he
    obtain ⟨k, hk, rfl⟩ := List.mem_map.1 he
    exact .inl (h.buffer k hk)
  unfold PState.flush
  simp only
  split
  · split
    · refine ⟨?_, by simp, h.pressed⟩
      intro e he
      rcases List.mem_append.1 he with he | he
      · rcases List.mem_append.1 he with he | he
        · exact h.seq e he
        · exact hb _ e he
      · exact hb _ e he
    · refine ⟨?_, by simp, fun k hk => h.pressed k (List.mem_filter.1 hk).1⟩
      intro e he
      rcases List.mem_append.1 he with he | he
      · rcases List.mem_append.1 he with he | he
        · exact h.seq e he
        · exact hb _ e he
      · exact hb _ e he
  · refine ⟨?_, by simp, ?_⟩
    · intro e he
      rcases List.mem_append.1 he with he | he
      · exact h.seq e he
      · exact hb _ e he
    · intro k hk
      rcases List.mem_append.1 hk with hk | hk
      · exact h.pressed k hk
      · exact h.buffer k hk

theorem KeysIn.append {K A : Key → Prop} {m : KeyEvent} {p : PState} (h : KeysIn K A m p)
    {l : KeySequence} (hl : ∀ e ∈ l, K e.key ∨ (A e.key ∧ e.state = .Down ∧ e.value = 0) ∨ e = m) :
    KeysIn K A m { p with seq := p.seq ++ l } := by
  refine ⟨?_, h.buffer, h.pressed⟩
  intro e he
  rcases List.mem_append.1 he with he | he
  · exact h.seq e he
  · exact hl e he

theorem KeysIn.add {K A : Key → Prop} {m : KeyEvent} {p : PState} (h : KeysIn K A m p)
    {k : Key} {st : KeyState} {v : Nat}
    (hl : K k ∨ (A k ∧ st = .Down ∧ v = 0) ∨ (⟨k, st, v⟩ : KeyEvent) = m) : KeysIn K A m (p.add k st v) := by
  refine h.append (l := [⟨k, st, v⟩]) ?_
  intro e he
  rw [List.mem_singleton.1 he]
  exact hl

theorem KeysIn.removePressed {K A : Key → Prop} {m : KeyEvent} {p : PState} (h : KeysIn K A m p) (k : Key) :
    KeysIn K A m (p.removePressed k) :=
  ⟨h.seq, h.buffer, fun j hj => h.pressed j (List.mem_filter.1 hj).1⟩

theorem KeysIn.release {K A : Key → Prop} {m : KeyEvent} {p : PState} (h : KeysIn K A m p) (i : Bool) (n : Nat) :
    KeysIn K A m (p.release i n) := by
  refine ⟨?_, h.buffer, fun k hk => h.pressed k (List.mem_of_mem_take hk)⟩
  intro e he
  rcases List.mem_append.1 he with he | he
  · exact h.seq e he
  · obtain ⟨k, hk, rfl⟩ := List.mem_map.1 he
    exact .inl (h.pressed k (List.mem_of_mem_drop (List.mem_reverse.1 hk)))

theorem mods_key {m : Mods} {b : Bool} {k : Key} (h : (b, k) ∈ m.list) : TypingModifier k := by
  simp only [Mods.list, List.mem_cons, Prod.mk.injEq, List.not_mem_nil, or_false] at h
  rcases h with h | h | h | h
  · exact .inl h.2
  · exact .inr (.inl h.2)
  · exact .inr (.inr (.inl h.2))
  · exact .inr (.inr (.inr h.2))

theorem typeOutputGo_keys {K : Key → Prop} (hm : ∀ k, TypingModifier k → K k) (ts : List TypedKey)
    (ht : ∀ t ∈ ts, K t.key) (prev : Mods) : ∀ e ∈ (typeOutputGo prev ts).1, K e.key := by
  induction ts generalizing prev with
  | nil => intro e he; cases he
  | cons t ts ih =>
    intro e he
    simp only [typeOutputGo] at he
    rcases List.mem_append.1 he with he | he
    · rcases List.mem_append.1 he with he | he
      · obtain ⟨⟨p, n⟩, hp, he⟩ := List.mem_flatMap.1 he
        unfold pressOutput at he
        split at he
        · rw [List.mem_singleton.1 he]
          exact hm _ (mods_key (List.of_mem_zip hp).1)
        · cases he
      · simp only [List.mem_cons, List.not_mem_nil, or_false] at he
        rcases he with rfl | rfl <;> exact ht t List.mem_cons_self
    · exact ih (fun t h => ht t (List.mem_cons_of_mem _ h)) _ e he

theorem typeInputGo_keys {K : Key → Prop} (hm : ∀ k, TypingModifier k → K k) (g : Bool) (ts : List TypedKey)
    (ht : ∀ t ∈ ts, K t.key) (first : Bool) (prev : Mods) : ∀ e ∈ (typeInputGo g first prev ts).1, K e.key := by
  induction ts generalizing prev first with
  | nil => intro e he; cases he
  | cons t ts ih =>
    intro e he
    simp only [typeInputGo] at he
    rcases List.mem_append.1 he with he | he
    · rcases List.mem_append.1 he with he | he
      · split at he
        · cases he
        · obtain ⟨⟨p, n⟩, hp, he⟩ := List.mem_flatMap.1 he
          have hk : K p.2 := hm _ (mods_key (List.of_mem_zip hp).1)
          have : e.key = p.2 := by
            unfold pressInput at he
            split at he
            · split at he <;> (simp at he; rcases he with rfl | rfl | rfl <;> rfl)
            · split at he <;> split at he <;> (simp at he <;> rcases he with rfl | rfl <;> rfl)
          rw [this]; exact hk
      · simp only [List.mem_cons, List.not_mem_nil, or_false] at he
        rcases he with rfl | rfl <;> exact ht t List.mem_cons_self
    · exact ih (fun t h => ht t (List.mem_cons_of_mem _ h)) _ _ e he

theorem lastMods_keys {K : Key → Prop} (hm : ∀ k, TypingModifier k → K k) (m : Mods) (st : KeyState) :
    ∀ e ∈ (m.list.filter (·.1)).map (fun m => (⟨m.2, st, 0⟩ : KeyEvent)), K e.key := by
  intro e he
  obtain ⟨⟨b, k⟩, hk, rfl⟩ := List.mem_map.1 he
  exact hm _ (mods_key (List.mem_filter.1 hk).1)

theorem typeInput_keys {env : PEnv} {K : Key → Prop} (hs : KeySource env K) {s : Str} {g : Bool}
    {seq : KeySequence} {has : Bool} (h : typeInput env.typer s g = some (seq, has)) : ∀ e ∈ seq, K e.key := by
  unfold typeInput at h
  split at h
  · cases h
  · next keys hk =>
    simp only [Option.some.injEq, Prod.mk.injEq] at h
    rw [← h.1]
    intro e he
    rcases List.mem_append.1 he with he | he
    · exact typeInputGo_keys hs.modifier _ _ (hs.typer _ _ hk) _ _ e he
    · exact lastMods_keys hs.modifier _ _ e he

theorem typeOutput_keys {env : PEnv} {K : Key → Prop} (hs : KeySource env K) {s : Str} {g : Bool}
    {seq : KeySequence} {has : Bool} (h : typeOutput env.typer s g = some (seq, has)) : ∀ e ∈ seq, K e.key := by
  unfold typeOutput at h
  split at h
  · cases h
  · next keys hk =>
    simp only [Option.some.injEq, Prod.mk.injEq] at h
    rw [← h.1]
    intro e he
    have h1 := typeOutputGo_keys hs.modifier _ (hs.typer _ _ hk)
    rcases List.mem_append.1 he with he | he
    · rcases List.mem_append.1 he with he | he
      · split at he
        · cases he
        · rw [List.mem_singleton.1 he]; exact hs.any
      · exact h1 _ e he
    · exact lastMods_keys hs.modifier _ _ e he

theorem KeysIn.outStep {env : PEnv} {K : Key → Prop} (hs : KeySource env K) {p q : PState}
    (hst : OutStep env p q)
    (h : KeysIn K (fun k => ∃ n, n < p.actions.length ∧ k = Key.first_action + env.actionBase + n) onReleaseMarker p) :
    KeysIn K (fun k => ∃ n, n < q.actions.length ∧ k = Key.first_action + env.actionBase + n) onReleaseMarker q := by
  have ha : ∀ a b, (p.flush a b).actions = p.actions := fun a b => flush_actions p a b
  have hmono : ∀ {r : PState}, r.actions = p.actions →
      KeysIn K (fun k => ∃ n, n < p.actions.length ∧ k = Key.first_action + env.actionBase + n) onReleaseMarker r →
      KeysIn K (fun k => ∃ n, n < r.actions.length ∧ k = Key.first_action + env.actionBase + n) onReleaseMarker r := by
    intro r hr h
    rw [hr]; exact h
  cases hst with
  | flush => exact hmono (ha _ _) (h.flush _ _)
  | key n hk =>
    refine ⟨h.seq, ?_, h.pressed⟩
    intro k hk'
    rcases List.mem_append.1 hk' with hk' | hk'
    · exact h.buffer k hk'
    · rw [List.mem_singleton.1 hk']; exact hs.name n hk
  | together b => exact ⟨h.seq, h.buffer, h.pressed⟩
  | delay v => exact hmono (ha _ _) ((h.flush _ _).add (.inl hs.timeout))
  | addDelay l e v hl hk hst =>
    have hf := h.flush false true
    refine hmono (ha _ _) ⟨?_, hf.buffer, hf.pressed⟩
    intro x hx
    rcases List.mem_append.1 hx with hx | hx
    · exact hf.seq x (by rw [hl]; exact List.mem_append_left _ hx)
    · rw [List.mem_singleton.1 hx]
      exact .inl (by show K e.key; rw [hk]; exact hs.timeout)
  | not n hk => exact hmono (ha _ _) (((h.flush _ _).removePressed _).add (.inl (hs.name n hk)))
  | string s seq has ht =>
    have := (h.flush false true).append (l := seq) (fun e he => .inl (typeOutput_keys hs ht e he))
    exact hmono (ha _ _) ⟨this.seq, this.buffer, this.pressed⟩
  | command c hg hc =>
    have hf := (h.flush false true).mono (A' := fun k => ∃ n, n < (p.actions ++ [c]).length ∧
      k = Key.first_action + env.actionBase + n) (fun k ⟨n, h1, h2⟩ => ⟨n, by simp; omega, h2⟩)
    have := hf.add (k := Key.first_action + env.actionBase + p.actions.length) (st := .Down) (v := 0)
      (.inr (.inl ⟨⟨p.actions.length, by simp, rfl⟩, rfl, rfl⟩))
    exact ⟨this.seq, this.buffer, this.pressed⟩
  | marker hr hg =>
    have := (h.flush false true).add (k := Key.none) (st := .OutputOnRelease) (v := 0) (.inr (.inr rfl))
    exact hmono (ha _ _) ⟨this.seq, this.buffer, this.pressed⟩
  | groupBegin hn =>
    have h1 : KeysIn K (fun k => ∃ n, n < p.actions.length ∧ k = Key.first_action + env.actionBase + n) onReleaseMarker
        { p with before := p.pressed.length :: p.before } := ⟨h.seq, h.buffer, h.pressed⟩
    have := h1.flush false false
    exact hmono (flush_actions _ _ _) ⟨this.seq, this.buffer, this.pressed⟩
  | groupEnd hg =>
    have := (h.flush false true).release false (p.before.headD 0)
    exact hmono (ha _ _) ⟨this.seq, this.buffer, this.pressed⟩

/-- The keys of a parsed output expression -/
theorem parseOutput_keys {env : PEnv} (hi : env.isInput = false) {K : Key → Prop} (hs : KeySource env K)
    {str : Str} {l : KeySequence} {acts : List Str} (h : parseSequence env str = some (l, acts)) :
    ∀ e ∈ l, K e.key ∨ ((∃ n, n < acts.length ∧ e.key = Key.first_action + env.actionBase + n) ∧
      e.state = .Down ∧ e.value = 0) ∨ e = onReleaseMarker := by
  obtain ⟨p, hp, -, -, rfl, -, hl⟩ := parseOutput_final hi h
  have hk := hp.inv (Q := fun p => KeysIn K (fun k => ∃ n, n < p.actions.length ∧
    k = Key.first_action + env.actionBase + n) onReleaseMarker p) (fun _ _ hst h => h.outStep hs hst)
    ⟨by simp, by simp, by simp⟩
  have hk := hk.release false 0
  rcases hl with rfl | ⟨-, -, rfl⟩
  · exact hk.seq
  · intro e he
    exact hk.seq e ((allPressed_prefix _ _).subset he)

theorem KeysIn.notBase {K A : Key → Prop} {m : KeyEvent} {p : PState} (h : KeysIn K A m p) {k : Key} (hk : K k) :
    KeysIn K A m (notBase p k) := by
  unfold KM.notBase
  split
  · exact ((h.flush _ _).removePressed _).add (.inl hk)
  · exact (h.flush _ _).removePressed _

theorem syncGo_keys (l : KeySequence) : ∀ acc, ∀ e ∈ syncGo l acc, ∃ d ∈ acc ++ l, e.key = d.key ∧ d.state = .UpAsync ∨ ∃ d ∈ acc, e.key = d.key := by
  induction l with
  | nil => intro acc e he; cases he
  | cons x l ih =>
    intro acc e he
    unfold syncGo at he
    split at he
    · obtain ⟨d, hd, rfl⟩ := List.mem_map.1 he
      exact ⟨d, List.mem_append_left _ hd, .inr ⟨d, hd, rfl⟩⟩
    · split at he
      · cases he
      · next hx =>
        have hx : x.state = .UpAsync := by simpa using hx
        obtain ⟨d, hd, h⟩ := ih _ e he
        rcases h with ⟨h1, h2⟩ | ⟨d', hd', h1⟩
        · refine ⟨d, ?_, .inl ⟨h1, h2⟩⟩
          simp only [List.cons_append, List.mem_cons, List.mem_append] at hd ⊢
          rcases hd with h | h | h <;> simp [h]
        · rcases List.mem_cons.1 hd' with rfl | hd'
          · exact ⟨d', by simp, .inl ⟨h1, hx⟩⟩
          · exact ⟨d', List.mem_append_left _ hd', .inr ⟨d', hd', h1⟩⟩

theorem KeysIn.sync {K : Key → Prop} {p : PState} (h : KeysIn K (fun _ => False) noMightMatchFlag p) :
    KeysIn K (fun _ => False) noMightMatchFlag p.sync := by
  refine h.append ?_
  intro e he
  obtain ⟨d, hd, h1⟩ := syncGo_keys _ _ e he
  rcases h1 with ⟨h1, h2⟩ | ⟨d', hd', -⟩
  · have hd : d ∈ p.seq := by simpa using hd
    rcases h.seq d hd with h3 | ⟨h3, -⟩ | h3
    · exact .inl (by rw [h1]; exact h3)
    · exact h3.elim
    · rw [h3] at h2; cases h2
  · cases hd'

theorem KeysIn.inStep {env : PEnv} {K : Key → Prop} (hs : KeySource env K) {p q : PState}
    (hst : InStep env p q) (h : KeysIn K (fun _ => False) noMightMatchFlag p) :
    KeysIn K (fun _ => False) noMightMatchFlag q := by
  cases hst with
  | flush => exact h.flush _ _
  | key n hk =>
    refine ⟨h.seq, ?_, h.pressed⟩
    intro k hk'
    rcases List.mem_append.1 hk' with hk' | hk'
    · exact h.buffer k hk'
    · rw [List.mem_singleton.1 hk']; exact hs.name n hk
  | togetherBegin => exact ⟨h.seq, h.buffer, h.pressed⟩
  | togetherEnd =>
    have := h.append (l := p.buffer.map (fun k => ⟨k, .DownAsync, 0⟩)) (by
      intro e he
      obtain ⟨k, hk, rfl⟩ := List.mem_map.1 he
      exact .inl (h.buffer k hk))
    exact ⟨this.seq, this.buffer, this.pressed⟩
  | timeout st v hd hst => exact (h.flush _ _).add (.inl hs.timeout)
  | addTimeout l e v hl hk hd hst =>
    have hf := h.flush true true
    refine ⟨?_, hf.buffer, hf.pressed⟩
    intro x hx
    rcases List.mem_append.1 hx with hx | hx
    · exact hf.seq x (by rw [hl]; exact List.mem_append_left _ hx)
    · rw [List.mem_singleton.1 hx]
      exact .inl (by show K e.key; rw [hk]; exact hs.timeout)
  | notReplace n k l hn hk hl =>
    have hkk : K k := by rw [← hn]; exact hs.name n (by rw [hn]; exact hk)
    have hb := h.notBase hkk
    refine ⟨?_, hb.buffer, hb.pressed⟩
    intro x hx
    rcases List.mem_append.1 hx with hx | hx
    · exact hb.seq x (by rw [hl]; exact List.mem_append_left _ hx)
    · rw [List.mem_singleton.1 hx]; exact .inl hkk
  | notUp n k hn hk hp =>
    have hkk : K k := by rw [← hn]; exact hs.name n (by rw [hn]; exact hk)
    exact (h.notBase hkk).add (.inl hkk)
  | notKey n k hn hk =>
    have hkk : K k := by rw [← hn]; exact hs.name n (by rw [hn]; exact hk)
    exact (h.notBase hkk).add (.inl hkk)
  | string s seq has ht =>
    have := (h.flush true true).append (l := seq) (fun e he => .inl (typeInput_keys hs ht e he))
    exact ⟨this.seq, this.buffer, this.pressed⟩
  | flag hsq hb =>
    have := h.add (k := Key.none) (st := .NoMightMatch) (v := 0) (.inr (.inr rfl))
    exact ⟨this.seq, this.buffer, this.pressed⟩
  | groupBegin hn =>
    have h1 : KeysIn K (fun _ => False) noMightMatchFlag { p with before := p.pressed.length :: p.before } :=
      ⟨h.seq, h.buffer, h.pressed⟩
    have := h1.flush true false
    exact ⟨this.seq, this.buffer, this.pressed⟩
  | groupEnd hg =>
    have := (h.flush true true).release true (p.before.headD 0)
    exact KeysIn.sync ⟨this.seq, this.buffer, this.pressed⟩

/-- The keys of a parsed input expression -/
theorem parseInput_keys {env : PEnv} (hi : env.isInput = true) {K : Key → Prop} (hs : KeySource env K)
    {str : Str} {l : KeySequence} {acts : List Str} (h : parseSequence env str = some (l, acts)) :
    ∀ e ∈ l, K e.key ∨ e = noMightMatchFlag := by
  unfold parseSequence at h
  split at h
  · cases h
  · next p hp =>
    have hk := (parseLoop_in hi hp).inv (Q := fun p => KeysIn K (fun _ => False) noMightMatchFlag p)
      (fun _ _ hst h => h.inStep hs hst) ⟨by simp, by simp, by simp⟩
    have hseq : ∀ e ∈ p.seq, K e.key ∨ e = noMightMatchFlag := by
      intro e he
      rcases hk.seq e he with h | ⟨h, -⟩ | h
      · exact .inl h
      · exact h.elim
      · exact .inr h
    unfold parseFinish at h
    rw [hi] at h
    simp only [if_true, Bool.true_and] at h
    split at h
    · cases h
    · split at h
      · cases h
      · generalize hp2 : (if p.nmm = true then { p with seq := removeAllFromEnd p.seq .UpAsync } else p) = p2 at h
        have h2 : ∀ e ∈ p2.seq, K e.key ∨ e = noMightMatchFlag := by
          subst hp2
          split
          · intro e he; exact hseq e ((allPressed_prefix _ _).subset he)
          · exact hseq
        split at h
        · cases h
        · split at h
          · cases h
          · cases hc : checkContextActive true p2.seq with
            | none => rw [hc] at h; cases h
            | some l' =>
              rw [hc] at h
              simp only [Option.map_some, Option.some.injEq, Prod.mk.injEq] at h
              obtain ⟨rfl, -⟩ := h
              intro e he
              refine h2 e ?_
              unfold checkContextActive at hc
              split at hc
              · simp only [Bool.not_true, Bool.false_eq_true, if_false] at hc
                split at hc
                · cases hc
                · injection hc with hc
                  rw [← hc] at he
                  exact (List.dropLast_sublist _).subset he
              · injection hc with hc
                rw [hc]; exact he

end KM
