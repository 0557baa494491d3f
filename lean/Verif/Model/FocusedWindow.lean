import Verif.Model.Client
/-!
# The focused window

Model of `src/client/unix/FocusedWindowImpl.cpp`, `FocusedWindowWlroots.cpp`, `FocusedWindowDBus.cpp` and `FocusedWindowX11.cpp`. What the Wayland
compositor, the D-Bus and the X server tell is an input. All systems write to the same `FocusedWindowData` (`Window`).
-/
namespace KM

/-! ## wlroots -/

/-- `FocusedWindowWlroots.cpp:53-57` `Toplevel` -/
structure Toplevel where
  title : Str := []
  appId : Str := []
deriving DecidableEq, Repr, Inhabited

/-- What the compositor tells about a window. A window is identified by the address of its `Toplevel` (`FocusedWindowWlroots.cpp:81-88`), which may
be reused when it was closed. `state` are the values of the enumeration `state` of the protocol (2 is activated). -/
inductive WlEvent where
  | toplevel (a : Nat)
  | title (a : Nat) (s : Str)
  | appId (a : Nat) (s : Str)
  | state (a : Nat) (l : List Nat)
  | done (a : Nat)
  | closed (a : Nat)
deriving DecidableEq, Repr

/-- `FocusedWindowWlroots.cpp:12-18`. `pending` are the events which were not dispatched yet. -/
structure WlFocus where
  toplevels : List (Nat × Toplevel) := []
  active : Option Nat := none
  updated : Bool := false
  pending : List WlEvent := []
deriving DecidableEq, Repr, Inhabited

/-- Change one of the windows -/
def modifyToplevel (f : Toplevel → Toplevel) (a : Nat) (l : List (Nat × Toplevel)) : List (Nat × Toplevel) :=
  l.map (fun p => if p.1 = a then (p.1, f p.2) else p)

/-- `ZWLR_FOREIGN_TOPLEVEL_HANDLE_V1_STATE_ACTIVATED` -/
def stateActivated : Nat := 2

/-- `FocusedWindowWlroots.cpp:81-126`: the listeners. (Events of a window which is not alive do not exist.) -/
def WlFocus.handle (s : WlFocus) (d : Window) : WlEvent → WlFocus × Window
  | .toplevel a => ({ s with toplevels := (a, {}) :: s.toplevels }, d)
  | .title a t => ({ s with toplevels := modifyToplevel (fun w => { w with title := t }) a s.toplevels }, d)
  | .appId a t => ({ s with toplevels := modifyToplevel (fun w => { w with appId := t }) a s.toplevels }, d)
  | .state a l => (if l.any (fun v => v &&& stateActivated != 0) then { s with active := some a } else s, d)
  | .done a =>
    if s.active = some a then
      match s.toplevels.lookup a with
      | some w =>
        if d.title ≠ w.title ∨ d.cls ≠ w.appId then
          ({ s with updated := true }, { title := w.title, cls := w.appId, path := [] })
        else (s, d)
      | none => (s, d)
    else (s, d)
  | .closed a => ({ s with toplevels := s.toplevels.filter (fun p => p.1 != a) }, d)

/-- The events are dispatched in order -/
def WlFocus.dispatch : WlFocus → Window → List WlEvent → WlFocus × Window
  | s, d, [] => (s, d)
  | s, d, e :: l => let r := s.handle d e; WlFocus.dispatch r.1 r.2 l

/-- `FocusedWindowWlroots.cpp:47-50` `update` -/
def WlFocus.update (s : WlFocus) (d : Window) : WlFocus × Window × Bool :=
  let r := WlFocus.dispatch { s with pending := [] } d s.pending
  ({ r.1 with updated := false }, r.2, r.1.updated)

/-! ## D-Bus -/

/-- `FocusedWindowDBus.cpp:27-32`: the messages `WindowFocus` (title and class) which were not dispatched yet -/
structure DBusFocus where
  pending : List (Str × Str) := []
deriving DecidableEq, Repr, Inhabited

/-- `FocusedWindowDBus.cpp:76-79` `update` and `97-110`. `dbus_connection_read_write_dispatch` dispatches at most one message. -/
def DBusFocus.update (s : DBusFocus) (d : Window) : DBusFocus × Window × Bool :=
  match s.pending with
  | [] => (s, d, false)
  | (t, c) :: l => ({ pending := l }, { title := t, cls := c, path := [] }, true)

/-! ## X11 -/

/-- What the X server tells: the window `_NET_ACTIVE_WINDOW` (0 for none) and the properties of the windows (empty when the request fails); for
window 0 nothing is requested (`FocusedWindowX11.cpp:86,103,121`) -/
structure XServer where
  focused : Nat := 0
  cls : Nat → Str := fun _ => []
  title : Nat → Str := fun _ => []
  path : Nat → Str := fun _ => []

/-- a property of a window -/
def xProperty (f : Nat → Str) (w : Nat) : Str := if w = 0 then [] else f w

/-- `FocusedWindowX11.cpp:19` -/
structure X11Focus where
  focused : Nat := 0
deriving DecidableEq, Repr, Inhabited

/-- `FocusedWindowX11.cpp:49-66` `update` -/
def X11Focus.update (s : X11Focus) (d : Window) (x : XServer) : X11Focus × Window × Bool :=
  let title := xProperty x.title x.focused
  if x.focused = s.focused ∧ title = d.title then (s, d, false)
  else
    let cls := xProperty x.cls x.focused
    if cls.isEmpty || title.isEmpty then (s, d, false)
    else ({ focused := x.focused }, { cls := cls, title := title, path := xProperty x.path x.focused }, true)

/-! ## All systems -/

/-- `FocusedWindowImpl.h:18-26`: the systems which are available, and the common data -/
structure Focus where
  x11 : Option X11Focus := none
  dbus : Option DBusFocus := none
  wl : Option WlFocus := none
  data : Window := {}
deriving DecidableEq, Repr, Inhabited

/-- a system which is not available -/
def updateSystem (s : Option σ) (d : Window) (f : σ → Window → σ × Window × Bool) : Option σ × Window × Bool :=
  match s with
  | none => (none, d, false)
  | some s => let r := f s d; (some r.1, r.2)

/-- `FocusedWindowImpl.cpp:43-48` `update`: the systems in order, until one of them was updated -/
def Focus.update (f : Focus) (x : XServer) : Focus × Bool :=
  let a := updateSystem f.x11 f.data (fun s d => s.update d x)
  if a.2.2 then ({ f with x11 := a.1, data := a.2.1 }, true)
  else
    let b := updateSystem f.dbus a.2.1 DBusFocus.update
    if b.2.2 then ({ f with x11 := a.1, dbus := b.1, data := b.2.1 }, true)
    else
      let c := updateSystem f.wl b.2.1 WlFocus.update
      ({ f with x11 := a.1, dbus := b.1, wl := c.1, data := c.2.1 }, c.2.2)

/-- what `update_active_contexts` (`ClientState.cpp:178-195`) learns: the window when it was updated -/
def Focus.seen (r : Focus × Bool) : Option Window := if r.2 then some r.1.data else none

end KM
