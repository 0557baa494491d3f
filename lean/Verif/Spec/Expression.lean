import Verif.Model.Key
/-!
# What expressions denote

Specification of the well-formedness of parsed input and output expressions.
-/
namespace KM

/-- number of presses of a key in a sequence -/
def pressCount (k : Key) (l : KeySequence) : Nat := l.countP (fun e => e.state == .Down && e.key == k)

/-- number of releases of a key in a sequence -/
def releaseCount (k : Key) (l : KeySequence) : Nat := l.countP (fun e => e.state == .Up && e.key == k)

/-- At no point a key was released more often than it was pressed. -/
def Balanced (l : KeySequence) : Prop := ∀ a, a <+: l → ∀ k, releaseCount k a ≤ pressCount k a

/-- The marker `^`: what follows is output when the trigger is released. -/
def onReleaseMarker : KeyEvent := ⟨Key.none, .OutputOnRelease, 0⟩

/-- What the runtime can output: presses (of keys, and delays), releases, temporary releases and
the marker -/
def OutputEvent (e : KeyEvent) : Prop :=
  e.state = .Down ∨ e.state = .Up ∨ e.state = .Not ∨ e = onReleaseMarker

/-- The key is held over the marker: it is pressed before `^` more often than it is released, and
released after it. -/
def HeldOver (k : Key) (l : KeySequence) : Prop :=
  ∃ a m b v, l = a ++ m :: b ∧ m.state = .OutputOnRelease ∧ releaseCount k a < pressCount k a ∧
    (⟨k, .Up, v⟩ : KeyEvent) ∈ b

/-- the key is released in the sequence, possibly only temporarily -/
def ReleasedIn (l : KeySequence) (k : Key) : Prop :=
  ∃ e ∈ l, e.key = k ∧ (e.state = .Up ∨ e.state = .Not)

/-- Each press of a key, other than the excepted ones and the ones of `held`, is followed by a
release of it. -/
def Released (except : Key → Prop) (held : List Key) (l : KeySequence) : Prop :=
  ∀ a e b, l = a ++ e :: b → e.state = .Down → ¬except e.key → e.key ∈ held ∨ ReleasedIn b e.key

/-- The keys which are pressed without being released: delays and terminal commands -/
def DelayOrCommand (base count : Nat) (k : Key) : Prop :=
  k = Key.timeout ∨ ∃ n, n < count ∧ k = Key.first_action + base + n

/-- no key is pressed after one was released -/
def Chord (l : KeySequence) : Prop :=
  ∀ a e b, l = a ++ e :: b → e.state = .Up → ∀ d ∈ b, d.state ≠ .Down

/-! ## Input expressions -/

/-- What occurs in input expressions: a key which is expected to be pressed, released, pressed or
released at any later time, or not to be held; a timeout; the flag `?` -/
def InputEvent (e : KeyEvent) : Prop :=
  (e.key ≠ Key.timeout ∧ e.value = 0 ∧
    e.state ∈ [KeyState.Down, .Up, .DownAsync, .UpAsync, .Not]) ∨
  (e.key = Key.timeout ∧ e.state ∈ [KeyState.Timeout_cancel_on_down, .Timeout_cancel_on_up_down,
    .NotTimeout_cancel_on_down, .NotTimeout_cancel_on_up_down]) ∨
  e = ⟨Key.none, .NoMightMatch, 0⟩

/-- The flag `?` -/
def noMightMatchFlag : KeyEvent := ⟨Key.none, .NoMightMatch, 0⟩

/-- the press of a key in an input expression -/
def IsKeyPress (e : KeyEvent) : Prop := e.state = .Down ∧ e.key ≠ Key.timeout

/-- Modifiers which are used to type characters -/
def TypingModifier (k : Key) : Prop :=
  k = Key.Shift ∨ k = Key.AltLeft ∨ k = Key.AltRight ∨ k = Key.Control

/-- an event of the key in one of these states occurs -/
def Occurs (l : KeySequence) (k : Key) (states : List KeyState) : Prop :=
  ∃ d ∈ l, d.key = k ∧ d.state ∈ states

/-- Each release of a key is preceded by its press.
Since the expressions `!A B !A` and `X{"A"} !Shift` are also accepted, a required release may also
only be preceded by the requirement that the key is not held, and nothing is said about the
modifiers which are used for typing. -/
def ReleasesPreceded (l : KeySequence) : Prop :=
  ∀ a e b, l = a ++ e :: b → e.key ≠ Key.timeout →
    (e.state = .Up → Occurs a e.key [.Down, .Not] ∨ TypingModifier e.key) ∧
    (e.state = .UpAsync → Occurs a e.key [.Down] ∨ TypingModifier e.key)

/-- When a key may be pressed from some point on, it has to be pressed later; `open_` are the keys
for which this is not yet known. -/
def AsyncPressed (open_ : List Key) (l : KeySequence) : Prop :=
  ∀ a e b, l = a ++ e :: b → e.state = .DownAsync →
    (∃ d ∈ b, d.key = e.key ∧ d.state = .Down) ∨ e.key ∈ open_

/-- Each press of a key, except for `held`, is followed by a release, possibly asynchronously. -/
def PressesReleased (held : List Key) (l : KeySequence) : Prop :=
  ∀ a e b, l = a ++ e :: b → IsKeyPress e →
    (∃ u ∈ b, u.key = e.key ∧ (u.state = .Up ∨ u.state = .UpAsync)) ∨ e.key ∈ held

/-- Each timeout is preceded by the press of a key. -/
def TimeoutsPreceded (l : KeySequence) : Prop :=
  ∀ a e b, l = a ++ e :: b → e.key = Key.timeout → ∃ d ∈ a, IsKeyPress d

end KM
