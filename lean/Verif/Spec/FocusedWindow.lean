import Verif.Model.FocusedWindow
/-!
# Specification: which window is focused

What a compositor does with windows: it opens them, changes their title, application and state at once, and closes them.
-/
namespace KM

/-- a change of the windows on the desktop -/
inductive DeskChange where
  | opened (a : Nat)
  | changed (a : Nat) (title appId : Option Str) (states : Option (List Nat))
  | closed (a : Nat)
deriving DecidableEq, Repr

/-- how the compositor tells it (protocol `wlr-foreign-toplevel-management-unstable-v1`: all changes are followed by `done`) -/
def DeskChange.events : DeskChange → List WlEvent
  | .opened a => [.toplevel a]
  | .changed a t i st =>
    t.toList.map (WlEvent.title a) ++ i.toList.map (WlEvent.appId a) ++ st.toList.map (WlEvent.state a) ++ [.done a]
  | .closed a => [.closed a]

/-- The desktop: the windows, the title and application of each, and the one which was activated last -/
structure Desk where
  live : List Nat := []
  title : Nat → Str := fun _ => []
  appId : Nat → Str := fun _ => []
  focused : Option Nat := none

/-- the value of a function is replaced -/
def setAt (f : Nat → Str) (a : Nat) (v : Str) : Nat → Str := fun b => if b = a then v else f b

/-- the desktop after a change -/
def Desk.step (d : Desk) : DeskChange → Desk
  | .opened a => { d with live := a :: d.live, title := setAt d.title a [], appId := setAt d.appId a [] }
  | .changed a t i st =>
    { d with
      title := setAt d.title a (t.getD (d.title a))
      appId := setAt d.appId a (i.getD (d.appId a))
      focused := if 2 ∈ st.getD [] then some a else d.focused }
  | .closed a => { d with live := d.live.filter (fun b => b != a) }

/-- the desktop after several changes -/
def Desk.after (d : Desk) (l : List DeskChange) : Desk := l.foldl Desk.step d

/-- What is possible: only windows which exist change; the states are the ones of version 1 of the protocol (maximized, minimized, activated). The
address of a window which is opened is not the one of a window which exists, or which was activated last. -/
def Desk.Possible (d : Desk) : DeskChange → Prop
  | .opened a => a ∉ d.live ∧ d.focused ≠ some a
  | .changed a _ _ st => a ∈ d.live ∧ ∀ v ∈ st.getD [], v < 3
  | .closed a => a ∈ d.live

/-- a series of possible changes -/
def Desk.AllPossible : Desk → List DeskChange → Prop
  | _, [] => True
  | d, c :: l => d.Possible c ∧ (d.step c).AllPossible l

/-- The window which is shown: title and application of the window which was activated last (even when it was closed); what was shown `before`, when
none was activated yet. -/
def Desk.shown (d : Desk) (before : Window) : Window :=
  match d.focused with
  | some a => { title := d.title a, cls := d.appId a, path := [] }
  | none => before

end KM
