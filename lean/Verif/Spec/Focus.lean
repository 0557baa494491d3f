import Verif.Spec.Stages
/-!
# Specification: the active contexts follow the focused window
-/
namespace KM

/-- what happens on the side of the client, after it connected: it looks which window is focused (`none` when it is still the same one), or it
is paused or resumed, and looks then -/
inductive FocusOp where
  | look (w : Option Window)
  | pause (w : Option Window)

/-- what the client does -/
def FocusOp.toClient : FocusOp → ClientOp
  | .look w => .updateContexts w
  | .pause w => .toggleActive w

/-- the focused window the client knows of, and whether it is not paused -/
structure KnownFocus where
  window : Window
  on : Bool := true

/-- while the client is paused it does not look -/
def KnownFocus.step (f : KnownFocus) : FocusOp → KnownFocus
  | .look w => if f.on then { f with window := w.getD f.window } else f
  | .pause w => if f.on then { f with on := false } else { window := w.getD f.window, on := true }

/-- the contexts which are to be active -/
def KnownFocus.contexts (rx : Regex) (config : Config) (f : KnownFocus) : List Nat := if f.on then matchingContexts rx config f.window else []

/-- the contexts which the server is told to activate: it is told when they changed, and whenever the client is paused or resumed -/
def focusMessages (rx : Regex) (config : Config) : KnownFocus → List FocusOp → List (List Nat)
  | _, [] => []
  | f, op :: ops =>
    let f' := f.step op
    let rest := focusMessages rx config f' ops
    match op with
    | .pause _ => f'.contexts rx config :: rest
    | .look _ => if f'.contexts rx config = f.contexts rx config then rest else f'.contexts rx config :: rest

/-- the key of an operation -/
def StagesOp.typed : StagesOp → Option (KeyEvent × Int)
  | .input ev dev => some (ev, dev)
  | .contexts _ => none

/-- the contexts of an operation -/
def StagesOp.activated : StagesOp → Option (List Int)
  | .input _ _ => none
  | .contexts l => some l

end KM
