import Verif.Model.MultiStage
/-!
# Specification: stages in sequence
-/
namespace KM

/-- Events which are for the server and not for the following stages: timeouts, virtual keys and
actions (`Key.h:489-515`). -/
def ForServer (e : KeyEvent) : Prop :=
  e.key = 0xF001 ∨ (0xF100 ≤ e.key ∧ e.key ≤ 0xF1FF) ∨ (0xF200 ≤ e.key ∧ e.key ≤ 0xF2FF)

instance (e : KeyEvent) : Decidable (ForServer e) := inferInstanceAs (Decidable (_ ∨ _ ∨ _))

/-- Events which reach all stages: timeouts and virtual keys. -/
def ForAllStages (e : KeyEvent) : Prop := e.key = 0xF001 ∨ (0xF100 ≤ e.key ∧ e.key ≤ 0xF1FF)

instance (e : KeyEvent) : Decidable (ForAllStages e) := inferInstanceAs (Decidable (_ ∨ _))

/-- Events applied one after the other to a configuration of its own; the ones for the server pass
by, the output is what each of the others outputs, all in order. -/
def feed (dev : Int) (m : MS) : KeySequence → MS × KeySequence
  | [] => (m, [])
  | e :: es =>
    if ForServer e then ((feed dev m es).1, e :: (feed dev m es).2)
    else ((feed dev (m.update e dev).1 es).1, (m.update e dev).2 ++ (feed dev (m.update e dev).1 es).2)

/-- Configurations one after the other -/
def MS.andThen (a b : MS) : MS := { stages := a.stages ++ b.stages }

/-- The sum of the sizes of the stages in front of a stage -/
def stageOffset (m : MS) (n : Nat) : Nat := ((m.stages.take n).map (fun p => p.1.contexts.length)).sum

end KM
