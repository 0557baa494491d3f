import Verif.Lemmas.ParsedActions
/-!
# No release in an output has a value
-/
namespace KM

/-- no release has a value -/
def UpPlain (l : KeySequence) : Prop := ∀ e ∈ l, e.state = .Up → e.value = 0

theorem UpPlain.append {a b : KeySequence} (ha : UpPlain a) (hb : UpPlain b) : UpPlain (a ++ b) :=
  fun e he => (List.mem_append.mp he).elim (ha e) (hb e)

theorem UpPlain.zero {l : KeySequence} (h : ∀ e ∈ l, e.value = 0) : UpPlain l := fun e he _ => h e he

theorem UpPlain.one {e : KeyEvent} (h : e.state ≠ .Up) : UpPlain [e] := by
  intro x hx hu
  rw [List.mem_singleton] at hx
  rw [hx] at hu
  exact absurd hu h

theorem UpPlain.flush {p : PState} (h : UpPlain p.seq) (b : Bool) : UpPlain (p.flush false b).seq := by
  have h1 : UpPlain (p.buffer.map (fun k => (⟨k, .Down, 0⟩ : KeyEvent))) := .zero (by simp)
  cases b
  · exact h.append h1
  · have : (p.flush false true).seq = p.seq ++ (p.buffer.map (fun k => (⟨k, .Down, 0⟩ : KeyEvent)) ++
        p.buffer.map (fun k => ⟨k, .Up, 0⟩)) := by simp [PState.flush]
    rw [this]
    exact h.append (h1.append (.zero (by simp)))

theorem UpPlain.typeGo (ts : List TypedKey) (hv : ∀ t ∈ ts, t.value = 0) (prev : Mods) : UpPlain (typeOutputGo prev ts).1 := by
  induction ts generalizing prev with
  | nil => intro e he; simp [typeOutputGo] at he
  | cons t ts ih =>
    intro e he hu
    simp only [typeOutputGo, List.mem_append, List.mem_flatMap] at he
    rcases he with (⟨x, -, hx⟩ | he) | he
    · unfold pressOutput at hx
      split at hx
      · rw [List.mem_singleton.1 hx]
      · cases hx
    · simp at he
      rcases he with rfl | rfl <;> exact hv t (by simp)
    · exact ih (fun t ht => hv t (List.mem_cons_of_mem _ ht)) _ e he hu

theorem UpPlain.typed {typer : Typer} {s : Str} {g : Bool} {seq : KeySequence} {has : Bool}
    (hv : ∀ s l, typer s = some l → ∀ t ∈ l, t.value = 0) (ht : typeOutput typer s g = some (seq, has)) :
    UpPlain seq := by
  unfold typeOutput at ht
  split at ht
  · cases ht
  · next keys hk =>
    injection ht with ht
    injection ht with ht1 ht2
    subst ht1
    refine UpPlain.append (UpPlain.append ?_ (.typeGo _ (hv _ _ hk) _)) ?_
    · cases g
      · exact .one (by simp)
      · exact .zero (by simp)
    · exact .zero (by simp)

theorem UpPlain.step {env : PEnv} {p q : PState} (hv : ∀ s l, env.typer s = some l → ∀ t ∈ l, t.value = 0)
    (hs : OutStep env p q) (h : UpPlain p.seq) : UpPlain q.seq := by
  cases hs with
  | flush => exact h.flush _
  | key k hk => exact h
  | together b => exact h
  | delay v => exact (h.flush true).append (.one (by simp))
  | addDelay l e v hl hk hs =>
    have h := h.flush true
    rw [hl] at h
    exact UpPlain.append (fun x hx => h x (List.mem_append_left _ hx)) (.one (by simp [hs]))
  | not k hk => exact (h.flush false).append (.one (by simp))
  | string s seq has ht => exact (h.flush true).append (.typed hv ht)
  | command c hg hc => exact (h.flush true).append (.one (by simp))
  | marker hr hg => exact (h.flush true).append (.one (by simp))
  | groupBegin hn =>
    exact UpPlain.flush (p := { p with before := p.pressed.length :: p.before }) h false
  | groupEnd hg =>
    have : ({ (p.flush false true).release false (p.before.headD 0) with
        before := p.before.tail, group := p.group - 1 } : PState).seq = (p.flush false true).seq ++
        ((p.flush false true).pressed.drop (p.before.headD 0)).reverse.map (fun k => ⟨k, .Up, 0⟩) := by
      simp [PState.release]
    rw [this]
    refine (h.flush true).append (.zero ?_)
    intro e he
    obtain ⟨k, -, rfl⟩ := List.mem_map.1 he
    rfl

/-- No release in a parsed output has a value. -/
theorem parseOutput_upPlain {env : PEnv} (hi : env.isInput = false)
    (hv : ∀ s l, env.typer s = some l → ∀ t ∈ l, t.value = 0) {str : Str} {l : KeySequence}
    {acts : List Str} (h : parseSequence env str = some (l, acts)) : UpPlain l := by
  obtain ⟨p, hp, -, -, -, -, h⟩ := parseOutput_final hi h
  have h1 : UpPlain p.seq := hp.inv (Q := fun p => UpPlain p.seq) (fun _ _ hs hp => UpPlain.step hv hs hp) (by intro e he; cases he)
  have h2 : UpPlain (p.release false 0).seq := by
    have : (p.release false 0).seq = p.seq ++ p.pressed.reverse.map (fun k => ⟨k, .Up, 0⟩) := by simp [PState.release]
    rw [this]
    exact h1.append (.zero (by simp))
  rcases h with rfl | ⟨-, -, rfl⟩
  · exact h2
  · exact fun e he => h2 e ((allPressed_prefix _ _).subset he)

/-- Typed keys have no value (only the typer for Windows sets one). -/
def TyperPlain (env : CEnv) : Prop := ∀ s l, env.typer s = some l → ∀ t ∈ l, t.value = 0

theorem upPlain_hyps {env : CEnv} (hv : TyperPlain env) : CtxHyps env (fun _ c => AllOutputs UpPlain c) where
  mono := fun s t c hx h => h
  init := ⟨by simp, by simp⟩
  fresh := fun s c _ hc => ⟨by simp [hc.outputs], by simp [hc.commandOutputs]⟩
  fall := fun s c h => h
  mapping := by
    intro s s1 tin tout input output c hs hx _ hin hout h
    refine ⟨?_, h.2⟩
    intro o ho
    rcases List.mem_append.1 ho with ho | ho
    · exact h.1 o ho
    · rw [List.mem_singleton.1 ho]
      obtain ⟨acts, hp, rfl, -⟩ := parseOutput_state hout
      exact parseOutput_upPlain (env := s.outputEnv env) rfl hv hp
  command := fun s tin input j c _ _ _ _ h => h
  commandOutput := by
    intro s s1 tout output j c hs hx _ hout hj hno h
    refine ⟨h.1, ?_⟩
    intro o ho
    rcases List.mem_append.1 ho with ho | ho
    · exact h.2 o ho
    · rw [List.mem_singleton.1 ho]
      obtain ⟨acts, hp, rfl, -⟩ := parseOutput_state hout
      exact parseOutput_upPlain (env := s.outputEnv env) rfl hv hp

theorem UpPlain.replaceKey {o : KeySequence} (h : UpPlain o) (b x : Key) : UpPlain (replaceKey o b x) := by
  intro e he hu
  rcases replaceKey_mem he with ⟨he, -⟩ | ⟨d, hd, -, rfl⟩
  · exact h e he hu
  · exact h d hd hu

/-- No release in the outputs of a parsed configuration has a value. -/
theorem parseConfig_upPlain {env : CEnv} (hv : TyperPlain env) {text : Str} {config : Config}
    (h : parseConfig env text = some config) : ∀ c ∈ config.contexts, AllOutputs UpPlain c := by
  obtain ⟨s, hs, hc, ha, -⟩ := parseConfig_state h
  rw [hc]
  obtain ⟨-, hall⟩ := (upPlain_hyps hv).steps hs
  refine finishContexts_outputs (P := UpPlain) ?_ ?_ ?_ ?_ ?_ hall
  · intro l _ o ho e he hu
    rcases replaceNotKey_mem he with ⟨he, -⟩ | ⟨d, hd, hs, -, rfl | rfl⟩
    · exact ho e he hu
    · rfl
    · rw [hs] at hu; cases hu
  · exact fun l _ o ho => ho.replaceKey _ _
  · exact fun l _ o ho => ho.replaceKey _ _
  · intro k _ o ho
    unfold prependNot
    split
    · exact UpPlain.append (a := [_]) (.one (by simp)) ho
    · exact ho
  · exact fun k _ => .zero (by simp)

end KM
