import Verif.Lemmas.Release
/-!
# What a stage outputs and what it tracks (C02, C03, C04, C06)

All theorems range over arbitrary contexts, not only those a configuration file can express, and
over arbitrary histories of the operations of `StageOp`.
-/
namespace KM

/-- **C06** The list of held output keys never contains a key twice. -/
theorem C06_held_once (contexts : List Context) (ops : List StageOp) :
    ((stageRun (stageInit contexts) ops).1.2.down.map (·.key)).Nodup :=
  (tracked_run contexts ops).nodup

/-- **C06** so neither do the keys reported by `get_output_keys_down` -/
theorem C06_reported_once (contexts : List Context) (ops : List StageOp) :
    (stageRun (stageInit contexts) ops).1.2.outputKeysDown.Nodup :=
  List.Nodup.sublist (List.filter_sublist.map _) (C06_held_once contexts ops)

/-- **C04** Every key release in everything which was emitted is preceded by a press of the key.
(Timeout requests are no keys; the requests cancelled on up and down use the state `Up`.) -/
theorem C04_release_after_press (contexts : List Context) (ops : List StageOp)
    (before after : KeySequence) (k : Key) (v : Nat) (hk : k ≠ Key.timeout)
    (h : (stageRun (stageInit contexts) ops).2 = before ++ ⟨k, .Up, v⟩ :: after) :
    ∃ w, ⟨k, .Down, w⟩ ∈ before := by
  obtain ⟨d, h1, h2, h3⟩ := (tracked_run contexts ops).before _ _ _ h hk rfl
  obtain ⟨dk, ds, dv⟩ := d
  simp only at h2 h3
  subst h2; subst h3
  exact ⟨dv, h1⟩

/-- **C04** Each key which is tracked was pressed. -/
theorem C04_tracked_was_pressed (contexts : List Context) (ops : List StageOp) (o : OutputDown)
    (h : o ∈ (stageRun (stageInit contexts) ops).1.2.down) :
    ∃ w, ⟨o.key, .Down, w⟩ ∈ (stageRun (stageInit contexts) ops).2 := by
  obtain ⟨d, h1, h2, h3⟩ := (tracked_run contexts ops).exists h
  obtain ⟨dk, ds, dv⟩ := d
  simp only at h2 h3
  subst h2; subst h3
  exact ⟨dv, h1⟩

/-- All output sequences of the contexts only release the key `k` when they pressed it before (in the same
piece, see `releasesOwn`). A parsed output satisfies this unless it holds the key over `^`: see
`C33_releases_own`. -/
def OutputsReleaseOwn (contexts : List Context) (k : Key) : Prop :=
  ∀ ctx ∈ contexts, (∀ out ∈ ctx.outputs, releasesOwn k [] out = true) ∧
    ∀ o ∈ ctx.commandOutputs, releasesOwn k [] o.output = true

/-- **C03** A key which is down on the keyboard, on which everything emitted is replayed, is tracked
by the stage and not temporarily released, unless an output of the configuration releases this very key without having
pressed it before in the same piece. For such a key it is false, see `C03_counterexample`. -/
theorem C03_no_stuck_key (contexts : List Context) (ops : List StageOp) (hops : ∀ op ∈ ops, op.isRegular = true)
    (k : Key) (hk : k ≠ Key.timeout) (hout : OutputsReleaseOwn contexts k) (h : heldAfter (stageRun (stageInit contexts) ops).2 k = true) :
    ∃ o ∈ (stageRun (stageInit contexts) ops).1.2.down, o.key = k ∧ o.temporarilyReleased = false :=
  (held_run k contexts ops hops hout).held k (fun h' => h'.elim (fun h' => h' rfl) hk) h

/-- **C02** After the release of a key was processed, in whatever state the stage was, none of the
tracked keys is attributed to the released key. -/
theorem C02_release_releases_triggered (c : Cfg) (s : S) (k : Key) (v : Nat) (dev : Int)
    (hk : k ≠ Key.ContextActive) (ht : k ≠ Key.timeout) :
    ∀ o ∈ (update c s ⟨k, .Up, v⟩ dev).1.down, o.trigger.keyOf ≠ k :=
  update_release c s ⟨k, .Up, v⟩ dev rfl hk ht

theorem stageRun_append (st : Cfg × S) (a b : List StageOp) :
    stageRun st (a ++ b) =
      ((stageRun (stageRun st a).1 b).1, (stageRun st a).2 ++ (stageRun (stageRun st a).1 b).2) := by
  induction a generalizing st with
  | nil => simp [stageRun]
  | cons op a ih => simp [stageRun, ih]

/-- **C02** And on the keyboard on which the output is replayed: each key which is still held after
the release of `k` is tracked as triggered by a key other than `k`. -/
theorem C02_released_on_keyboard (contexts : List Context) (ops : List StageOp)
    (hops : ∀ op ∈ ops, op.isRegular = true)
    (k : Key) (v : Nat) (dev : Int) (hk : k ≠ Key.ContextActive) (ht : k ≠ Key.timeout)
    (j : Key) (hj : j ≠ Key.timeout) (hout : OutputsReleaseOwn contexts j)
    (h : heldAfter (stageRun (stageInit contexts) (ops ++ [.input ⟨k, .Up, v⟩ dev])).2 j = true) :
    ∃ o ∈ (stageRun (stageInit contexts) (ops ++ [.input ⟨k, .Up, v⟩ dev])).1.2.down,
      o.key = j ∧ o.temporarilyReleased = false ∧ o.trigger.keyOf ≠ k := by
  have hops' : ∀ op ∈ ops ++ [.input ⟨k, .Up, v⟩ dev], op.isRegular = true := by
    intro op hop
    rcases List.mem_append.1 hop with h | h
    · exact hops op h
    · simp at h; subst h; rfl
  obtain ⟨o, ho, h1, h2⟩ := C03_no_stuck_key contexts _ hops' j hj hout h
  refine ⟨o, ho, h1, h2, ?_⟩
  rw [stageRun_append] at ho
  exact C02_release_releases_triggered _ _ k v dev hk ht o ho

/-! ### Concrete cases -/

private def dn (k : Key) : StageOp := .input ⟨k, .Down, 0⟩ 0
private def up (k : Key) : StageOp := .input ⟨k, .Up, 0⟩ 0
private def d (k : Key) : KeyEvent := ⟨k, .Down, 0⟩
private def u (k : Key) : KeyEvent := ⟨k, .Up, 0⟩
private def tilde (k : Key) : KeyEvent := ⟨k, .UpAsync, 0⟩
private def not (k : Key) : KeyEvent := ⟨k, .Not, 0⟩
private def onRelease : KeyEvent := ⟨Key.none, .OutputOnRelease, 0⟩

/-- `X >> A;  Y >> !A B ^ C` -/
private def sample : List Context :=
  [{ inputs := [⟨[d Key.KeyX, tilde Key.KeyX], 0⟩, ⟨[d Key.KeyY, tilde Key.KeyY], 1⟩]
     outputs := [[d Key.KeyA], [not Key.KeyA, d Key.KeyB, u Key.KeyB, onRelease, d Key.KeyC]] }]

private def sampleOps : List StageOp := [.contexts [0], dn Key.KeyX, dn Key.KeyY, up Key.KeyY, dn Key.KeyW]

-- what the sample outputs; `A` is tracked, temporarily released and then reapplied
example : (stageRun (stageInit sample) sampleOps).2 =
    [d Key.KeyA, u Key.KeyA, d Key.KeyB, u Key.KeyB, d Key.KeyC, u Key.KeyC, d Key.KeyA, d Key.KeyW] := by
  decide +kernel

-- the hypotheses of `C03_no_stuck_key`, `C02_released_on_keyboard` hold for it
example : OutputsReleaseOwn sample Key.KeyA ∧ (∀ op ∈ sampleOps, op.isRegular = true) ∧
    heldAfter (stageRun (stageInit sample) sampleOps).2 Key.KeyA = true := by
  refine ⟨?_, ?_, ?_⟩
  · unfold OutputsReleaseOwn; decide +kernel
  · intro op hop; simp [sampleOps, dn, up] at hop; rcases hop with h | h | h | h | h <;> subst h <;> rfl
  · decide +kernel

-- a release occurs in it (hypothesis of `C04_release_after_press`)
example : (stageRun (stageInit sample) sampleOps).2 =
    [d Key.KeyA] ++ ⟨Key.KeyA, .Up, 0⟩ :: 
      [d Key.KeyB, u Key.KeyB, d Key.KeyC, u Key.KeyC, d Key.KeyA, d Key.KeyW] := by
  decide +kernel

-- several keys are tracked (`C06_held_once` is not about empty lists)
example : (stageRun (stageInit sample) sampleOps).1.2.outputKeysDown =
    [Key.KeyA, Key.KeyW] := by
  decide +kernel

/-! ### The condition of C03 is necessary -/

/-- Contexts with the outputs `A ^ -A` (on activation of the context), `C ^ !A B` and `A`; see
`C03_parsed_counterexample` for a similar configuration which the parser accepts. -/
private def badContexts : List Context :=
  [{ inputs := [⟨[d Key.KeyX, tilde Key.KeyX], 0⟩, ⟨[d Key.KeyZ, tilde Key.KeyZ], 1⟩]
     outputs := [[d Key.KeyA], [d Key.KeyC, u Key.KeyC, onRelease, not Key.KeyA, d Key.KeyB, u Key.KeyB]] },
   { inputs := [⟨[d Key.ContextActive], 0⟩]
     modifierFilter := [d Key.KeyZ]
     outputs := [[d Key.KeyA, onRelease, u Key.KeyA]] }]

private def badOps : List StageOp :=
  [.contexts [0, 1], dn Key.KeyX, dn Key.KeyZ, up Key.KeyZ, up Key.KeyX]

/-- **C03** is false for arbitrary contexts: all input keys are released, nothing is tracked, but
`A` is still down on the output keyboard. -/
theorem C03_counterexample :
    ∃ contexts ops k, (∀ op ∈ ops, op.isRegular = true) ∧ k ≠ Key.timeout ∧
      heldAfter (stageRun (stageInit contexts) ops).2 k = true ∧
      (stageRun (stageInit contexts) ops).1.2.down = [] := by
  refine ⟨badContexts, badOps, Key.KeyA, ?_, by decide, ?_, ?_⟩
  · intro op hop; simp [badOps, dn, up] at hop; rcases hop with h | h | h | h | h <;> subst h <;> rfl
  · decide +kernel
  · decide +kernel

end KM
