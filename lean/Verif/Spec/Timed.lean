import Verif.Spec.Abbreviations
/-!
# Specification: keys which are held or tapped

What a configuration does whose mappings are for a key which is pressed (`A >> X`), held for some time
(`A{500ms} >> X`) or released within some time (`A{!500ms} >> X`).
-/
namespace KM

/-- how a key has to be pressed: just pressed, held for a number of milliseconds, released before a
number of milliseconds passed -/
inductive Timing where
  | press
  | hold (ms : Nat)
  | tap (ms : Nat)
deriving DecidableEq, Repr

/-- a mapping of a key -/
structure TimedMapping where
  key : Key
  timing : Timing
  out : KeySequence
deriving DecidableEq, Repr

/-- the inputs `A`, `A{500ms}` and `A{!500ms}` -/
def TimedMapping.input (m : TimedMapping) : KeySequence :=
  match m.timing with
  | .press => [⟨m.key, .Down, 0⟩, ⟨m.key, .UpAsync, 0⟩]
  | .hold t => [⟨m.key, .Down, 0⟩, ⟨Key.timeout, .Up, t⟩, ⟨m.key, .UpAsync, 0⟩]
  | .tap t => [⟨m.key, .Down, 0⟩, ⟨Key.timeout, .NotTimeout_cancel_on_up_down, t⟩, ⟨m.key, .UpAsync, 0⟩, ⟨m.key, .Up, 0⟩]

/-- the key is one of a device, it is replaced by keys -/
def TimedMapping.Valid (m : TimedMapping) : Prop := isDeviceKey m.key = true ∧ OnlyPresses m.out

/-- the context with these mappings -/
def timedContext (ms : List TimedMapping) : Context :=
  { inputs := ms.zipIdx.map (fun p => ⟨p.1.input, p.2⟩), outputs := ms.map (·.out) }

/-- the mappings in use, in the order of their priority -/
def mappingsInUse (tcs : List (List TimedMapping)) (current : List Nat) : List TimedMapping :=
  current.flatMap (fun i => (tcs[i]?).getD [])

/-- the time which has to be measured to decide on a mapping: whether so much time passes until the next event -/
def TimedMapping.asks (m : TimedMapping) : Option KeyEvent :=
  match m.timing with
  | .press => none
  | .hold t => some ⟨Key.timeout, .Up, t⟩
  | .tap t => some ⟨Key.timeout, .NotTimeout_cancel_on_up_down, t⟩

/-- is the mapping still possible, when so much time passed until the next event -/
def TimedMapping.fits (m : TimedMapping) (elapsed : Nat) : Bool :=
  match m.timing with
  | .press => true
  | .hold t => decide (t ≤ elapsed)
  | .tap t => decide (elapsed < t)

/-- is the mapping for a key which is released within some time -/
def TimedMapping.isTap (m : TimedMapping) : Bool :=
  match m.timing with
  | .tap _ => true
  | _ => false

/-- does a key have a mapping which depends on time -/
def isTimed (ms : List TimedMapping) (k : Key) : Bool := ms.any (fun m => m.key == k && m.asks.isSome)

/-- what is waited for: nothing, how much time passes until the next event, or (when so much time passed since
`k` was pressed) whether the next event is the release of `k` -/
inductive Waiting where
  | idle
  | answer (k : Key)
  | undecided (k : Key) (elapsed : Nat)
deriving DecidableEq, Repr

/-- What has to be remembered: the active contexts, the keys which are held, the keys held in the output together
with the key which holds them, and what is waited for. -/
structure TimedState where
  current : List Nat := []
  held : List Key := []
  outs : List (Key × Key) := []
  waiting : Waiting := .idle
deriving DecidableEq, Repr

/-- output keys because of `k` -/
def TimedState.put (st : TimedState) (k : Key) (out : KeySequence) : TimedState × KeySequence :=
  ({ st with outs := pressAll st.outs k out, waiting := .idle }, out)

/-- output the output of a mapping of `k`, or `k` itself -/
def TimedState.replace (st : TimedState) (k : Key) (m : Option TimedMapping) : TimedState × KeySequence :=
  st.put k (match m with
    | some m => m.out
    | none => [⟨k, .Down, 0⟩])

/-- a key is pressed: the first of its mappings decides whether time has to be measured -/
def TimedState.press (ms : List TimedMapping) (st : TimedState) (k : Key) : TimedState × KeySequence :=
  let st := { st with held := st.held ++ [k] }
  match (ms.find? (fun m => m.key == k)).bind (·.asks) with
  | some request => ({ st with waiting := .answer k }, [request])
  | none => st.replace k (ms.find? (fun m => m.key == k))

/-- a key is released -/
def TimedState.release (st : TimedState) (k : Key) : TimedState × KeySequence :=
  ({ st with held := st.held.erase k, outs := st.outs.filter (fun o => o.2 != k), waiting := .idle },
    (st.outs.filter (fun o => o.2 == k)).reverse.map (fun o => ⟨o.1, .Up, 0⟩))

/-- so much time passed: the first mapping which is still possible is applied, unless the key has to be released for it -/
def TimedState.elapse (ms : List TimedMapping) (st : TimedState) (k : Key) (elapsed : Nat) : TimedState × KeySequence :=
  let m := ms.find? (fun m => m.key == k && m.fits elapsed)
  if (m.map (·.isTap)).getD false then ({ st with waiting := .undecided k elapsed }, []) else st.replace k m

/-- `k` is released within the time: the mapping is applied, what it pressed is released -/
def TimedState.tapped (ms : List TimedMapping) (st : TimedState) (k : Key) (elapsed : Nat) : TimedState × KeySequence :=
  let p := st.replace k (ms.find? (fun m => m.key == k && m.fits elapsed))
  let q := p.1.release k
  (q.1, p.2 ++ q.2)

/-- another key is pressed instead: the first mapping which does not require a release is applied -/
def TimedState.interrupted (ms : List TimedMapping) (st : TimedState) (k : Key) (elapsed : Nat) (x : Key) : TimedState × KeySequence :=
  let p := st.replace k (ms.find? (fun m => m.key == k && (m.fits elapsed && !m.isTap)))
  let q := p.1.press ms x
  (q.1, p.2 ++ q.2)

/-- another key is released instead -/
def TimedState.interruptedUp (ms : List TimedMapping) (st : TimedState) (k : Key) (elapsed : Nat) (x : Key) : TimedState × KeySequence :=
  let p := st.replace k (ms.find? (fun m => m.key == k && (m.fits elapsed && !m.isTap)))
  let q := p.1.release x
  (q.1, p.2 ++ q.2)

/-- apply an operation -/
def TimedState.step (tcs : List (List TimedMapping)) (st : TimedState) : StageOp → TimedState × KeySequence
  | .input ev _ =>
    let ms := mappingsInUse tcs st.current
    match st.waiting with
    | .idle => if ev.state = .Down then st.press ms ev.key else st.release ev.key
    | .answer k => st.elapse ms k ev.value
    | .undecided k elapsed =>
      if ev.state = .Down then st.interrupted ms k elapsed ev.key
      else if ev.key = k then st.tapped ms k elapsed
      else st.interruptedUp ms k elapsed ev.key
  | .contexts l => ({ st with current := l }, [])
  | _ => (st, [])

/-- The events described: keys are pressed and released. When it is asked for the time which passes until the next event,
then that is what is input next. A key which has mappings depending on time is not pressed while another one is held. Contexts only change when nothing is waited for. -/
def TimedState.accepts (tcs : List (List TimedMapping)) (st : TimedState) : StageOp → Prop
  | .input ev dev => ValidDevice dev ∧
    let ms := mappingsInUse tcs st.current
    match st.waiting with
    | .idle =>
      (∃ k, ev = ⟨k, .Down, 0⟩ ∧ isDeviceKey k = true ∧ k ∉ st.held ∧ (isTimed ms k = true → ∀ j ∈ st.held, isTimed ms j = false)) ∨
      ∃ k ∈ st.held, ev = ⟨k, .Up, 0⟩
    | .answer _ => ∃ v, ev = ⟨Key.timeout, .Up, v⟩
    | .undecided _ _ =>
      (∃ x, ev = ⟨x, .Down, 0⟩ ∧ isDeviceKey x = true ∧ x ∉ st.held ∧ isTimed ms x = false) ∨ ∃ x ∈ st.held, ev = ⟨x, .Up, 0⟩
  | .contexts l => st.waiting = .idle ∧ l.Pairwise (· < ·) ∧ ∀ i ∈ l, i < tcs.length
  | _ => False

/-- a history of such operations -/
def TimedState.acceptsAll (tcs : List (List TimedMapping)) : TimedState → List StageOp → Prop
  | _, [] => True
  | st, op :: ops => st.accepts tcs op ∧ (st.step tcs op).1.acceptsAll tcs ops

/-- what is output for each of the operations -/
def TimedState.outputs (tcs : List (List TimedMapping)) : TimedState → List StageOp → List KeySequence
  | _, [] => []
  | st, op :: ops => (st.step tcs op).2 :: (st.step tcs op).1.outputs tcs ops

end KM
