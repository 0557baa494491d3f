import Verif.Spec.EndToEnd
/-!
# Specification: stages in sequence

Every stage is a stage of its own, it gets what the stage in front of it outputs.
-/
namespace KM

/-- what happens to all stages: an event is input, or the client activates contexts (which are numbered throughout) -/
inductive StagesOp where
  | input (ev : KeyEvent) (dev : Int)
  | contexts (l : List Int)

/-- of the contexts `l` those of a stage with `n` contexts, which has `off` contexts in front of it -/
def ownContexts (l : List Int) (off n : Nat) : List Nat :=
  (l.filter (fun i => decide ((off : Int) ≤ i) && decide (i < off + n))).map (fun i => (i - (off : Int)).toNat)

/-- events are input to the first stage, what it outputs to the second one, and so on. Returns what each stage outputs. -/
def stagesInput (dev : Int) : List (Cfg × S) → KeySequence → List (Cfg × S) × List KeySequence
  | [], _ => ([], [])
  | st :: rest, evs =>
    let r := stageRun st (evs.map (fun e => .input e dev))
    let q := stagesInput dev rest r.2
    (r.1 :: q.1, r.2 :: q.2)

/-- contexts are activated: every stage first gets what the stages in front of it output because of that -/
def stagesContexts (l : List Int) : Nat → List (Cfg × S) → KeySequence → List (Cfg × S) × List KeySequence
  | _, [], _ => ([], [])
  | off, st :: rest, evs =>
    let r := stageRun st (evs.map (fun e => .input e noDeviceIndex) ++ [.contexts (ownContexts l off st.1.contexts.length)])
    let q := stagesContexts l (off + st.1.contexts.length) rest r.2
    (r.1 :: q.1, r.2 :: q.2)

/-- a single operation, with what each stage outputs -/
def stagesStep (stages : List (Cfg × S)) : StagesOp → List (Cfg × S) × List KeySequence
  | .input ev dev => stagesInput dev stages [ev]
  | .contexts l => stagesContexts l 0 stages []

/-- a history of operations, with what each stage outputs for each of them -/
def stagesRun (stages : List (Cfg × S)) : List StagesOp → List (Cfg × S) × List (List KeySequence)
  | [] => (stages, [])
  | op :: ops =>
    let r := stagesStep stages op
    let q := stagesRun r.1 ops
    (q.1, r.2 :: q.2)

/-- what the last stage outputs -/
def lastOutputs (outs : List (List KeySequence)) : KeySequence := outs.flatMap (fun o => o.getLastD [])

/-- only keys are output, by all stages -/
def OnlyKeys (outs : List (List KeySequence)) : Prop := ∀ os ∈ outs, ∀ o ∈ os, ∀ e ∈ o, Sendable e

/-- what a message means for the stages -/
def Msg.stagesOps : Msg → List StagesOp
  | .activeContexts l => [.contexts l]
  | _ => []

/-- what is read means for the stages -/
def Read.stagesOps : Read → List StagesOp
  | .key ev dev => [.input ev dev]
  | _ => []

/-- what an iteration of the loop of the server means for the stages -/
def Iteration.stagesOps (it : Iteration) : List StagesOp :=
  if it.read = .other then [] else it.read.stagesOps ++ it.messages.flatMap Msg.stagesOps

/-- what an operation means for the first stage -/
def StagesOp.first (n : Nat) : StagesOp → StageOp
  | .input ev dev => .input ev dev
  | .contexts l => .contexts (ownContexts l 0 n)

/-- `[stage]` -/
inductive StageLine : Str → Prop
  | line {sp0 sp sp' sp1} (h0 : Spaces sp0) (hs : Spaces sp) (hs' : Spaces sp') (h1 : Spaces sp1) :
      StageLine (sp0 ++ '[' :: sp ++ "stage".toList ++ sp' ++ ']' :: sp1)

/-- The lines of a configuration which replaces keys in stages -/
inductive SectionLines : List (List (Key × Key)) → List Str → Prop
  | last {ps lines} (h : ReplaceLines ps lines) : SectionLines [ps] lines
  | cons {ps lines line pss rest} (h : ReplaceLines ps lines) (hs : StageLine line) (hn : '\n' ∉ line) (hr : SectionLines pss rest) :
      SectionLines (ps :: pss) (lines ++ line :: rest)

/-- lines `A >> B` which exchange ordinary keys -/
structure Exchanging (pairs : List (Key × Key)) : Prop where
  ordinary : ∀ p ∈ pairs, Ordinary p.1 ∧ Ordinary p.2
  different : ∀ a b, Ordinary a → Ordinary b → replacedBy pairs a = replacedBy pairs b → a = b

end KM
