import Verif.Model.Stage
/-!
# Specification: output on release
-/
namespace KM

/-- what an output sequence outputs at the press -/
def onPress (out : KeySequence) : KeySequence := out.takeWhile (·.state != .OutputOnRelease)

/-- what is left for the release, when the sequence contains a `^` -/
def onReleasePart : KeySequence → Option KeySequence
  | [] => none
  | e :: out => if e.state = .OutputOnRelease then some out else onReleasePart out

end KM
