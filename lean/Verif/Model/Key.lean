/-!
# Keys, key events and timeouts

Models `src/runtime/Key.h`, `src/runtime/KeyEvent.h`, `src/runtime/Timeout.h` (Linux branch).
-/
namespace KM

/-- `Key.h:8` `enum class Key : uint16_t`. A key is its numeric code. The 16 bit width is not
part of the type; where it matters (serialisation) it is a hypothesis `< 2^16`. -/
abbrev Key := Nat

namespace Key
/-! `Key.h:9-185, 454-485`: the named constants of the Linux branch (generated by script). The
one-letter aliases `Key::A` .. `Key::Z` are the same codes as `KeyA` .. `KeyZ`. -/
abbrev none : Key := 0
abbrev Escape : Key := 1
abbrev Digit1 : Key := 2
abbrev Digit2 : Key := 3
abbrev Digit3 : Key := 4
abbrev Digit4 : Key := 5
abbrev Digit5 : Key := 6
abbrev Digit6 : Key := 7
abbrev Digit7 : Key := 8
abbrev Digit8 : Key := 9
abbrev Digit9 : Key := 10
abbrev Digit0 : Key := 11
abbrev Minus : Key := 12
abbrev Equal : Key := 13
abbrev Backspace : Key := 14
abbrev Tab : Key := 15
abbrev KeyQ : Key := 16
abbrev KeyW : Key := 17
abbrev KeyE : Key := 18
abbrev KeyR : Key := 19
abbrev KeyT : Key := 20
abbrev KeyY : Key := 21
abbrev KeyU : Key := 22
abbrev KeyI : Key := 23
abbrev KeyO : Key := 24
abbrev KeyP : Key := 25
abbrev BracketLeft : Key := 26
abbrev BracketRight : Key := 27
abbrev Enter : Key := 28
abbrev ControlLeft : Key := 29
abbrev KeyA : Key := 30
abbrev KeyS : Key := 31
abbrev KeyD : Key := 32
abbrev KeyF : Key := 33
abbrev KeyG : Key := 34
abbrev KeyH : Key := 35
abbrev KeyJ : Key := 36
abbrev KeyK : Key := 37
abbrev KeyL : Key := 38
abbrev Semicolon : Key := 39
abbrev Quote : Key := 40
abbrev Backquote : Key := 41
abbrev ShiftLeft : Key := 42
abbrev Backslash : Key := 43
abbrev KeyZ : Key := 44
abbrev KeyX : Key := 45
abbrev KeyC : Key := 46
abbrev KeyV : Key := 47
abbrev KeyB : Key := 48
abbrev KeyN : Key := 49
abbrev KeyM : Key := 50
abbrev Comma : Key := 51
abbrev Period : Key := 52
abbrev Slash : Key := 53
abbrev ShiftRight : Key := 54
abbrev NumpadMultiply : Key := 55
abbrev AltLeft : Key := 56
abbrev Space : Key := 57
abbrev CapsLock : Key := 58
abbrev F1 : Key := 59
abbrev F2 : Key := 60
abbrev F3 : Key := 61
abbrev F4 : Key := 62
abbrev F5 : Key := 63
abbrev F6 : Key := 64
abbrev F7 : Key := 65
abbrev F8 : Key := 66
abbrev F9 : Key := 67
abbrev F10 : Key := 68
abbrev ScrollLock : Key := 70
abbrev Numpad7 : Key := 71
abbrev Numpad8 : Key := 72
abbrev Numpad9 : Key := 73
abbrev NumpadSubtract : Key := 74
abbrev Numpad4 : Key := 75
abbrev Numpad5 : Key := 76
abbrev Numpad6 : Key := 77
abbrev NumpadAdd : Key := 78
abbrev Numpad1 : Key := 79
abbrev Numpad2 : Key := 80
abbrev Numpad3 : Key := 81
abbrev Numpad0 : Key := 82
abbrev NumpadDecimal : Key := 83
abbrev IntlBackslash : Key := 86
abbrev F11 : Key := 87
abbrev F12 : Key := 88
abbrev NumLock : Key := 69
abbrev IntlRo : Key := 89
abbrev Convert : Key := 92
abbrev KanaMode : Key := 93
abbrev NonConvert : Key := 94
abbrev NumpadEnter : Key := 96
abbrev ControlRight : Key := 97
abbrev NumpadDivide : Key := 98
abbrev PrintScreen : Key := 99
abbrev AltRight : Key := 100
abbrev Cancel : Key := 101
abbrev Home : Key := 102
abbrev ArrowUp : Key := 103
abbrev PageUp : Key := 104
abbrev ArrowLeft : Key := 105
abbrev ArrowRight : Key := 106
abbrev End : Key := 107
abbrev ArrowDown : Key := 108
abbrev PageDown : Key := 109
abbrev Insert : Key := 110
abbrev Delete : Key := 111
abbrev AudioVolumeMute : Key := 113
abbrev AudioVolumeDown : Key := 114
abbrev AudioVolumeUp : Key := 115
abbrev Power : Key := 116
abbrev NumpadEqual : Key := 117
abbrev Settings : Key := 118
abbrev Pause : Key := 119
abbrev NumpadComma : Key := 121
abbrev Lang1 : Key := 122
abbrev Lang2 : Key := 123
abbrev IntlYen : Key := 124
abbrev MetaLeft : Key := 125
abbrev MetaRight : Key := 126
abbrev ContextMenu : Key := 127
abbrev BrowserStop : Key := 128
abbrev Again : Key := 129
abbrev Props : Key := 130
abbrev Undo : Key := 131
abbrev Select : Key := 132
abbrev Copy : Key := 133
abbrev Open : Key := 134
abbrev Paste : Key := 135
abbrev Find : Key := 136
abbrev Cut : Key := 137
abbrev Help : Key := 138
abbrev LaunchApp2 : Key := 140
abbrev Sleep : Key := 142
abbrev WakeUp : Key := 143
abbrev LaunchApp1 : Key := 144
abbrev LaunchMail : Key := 155
abbrev BrowserFavorites : Key := 156
abbrev BrowserBack : Key := 158
abbrev BrowserForward : Key := 159
abbrev Eject : Key := 161
abbrev MediaTrackNext : Key := 163
abbrev MediaPlayPause : Key := 164
abbrev MediaTrackPrevious : Key := 165
abbrev MediaStop : Key := 166
abbrev MediaRewind : Key := 168
abbrev LaunchMediaPlayer : Key := 171
abbrev BrowserHome : Key := 172
abbrev BrowserRefresh : Key := 173
abbrev F13 : Key := 183
abbrev F14 : Key := 184
abbrev F15 : Key := 185
abbrev F16 : Key := 186
abbrev F17 : Key := 187
abbrev F18 : Key := 188
abbrev F19 : Key := 189
abbrev F20 : Key := 190
abbrev F21 : Key := 191
abbrev F22 : Key := 192
abbrev F23 : Key := 193
abbrev F24 : Key := 194
abbrev MediaPlay : Key := 200
abbrev MediaPause : Key := 201
abbrev Prog3 : Key := 202
abbrev MediaFastForward : Key := 208
abbrev BrowserSearch : Key := 217
abbrev BrightnessDown : Key := 224
abbrev BrightnessUp : Key := 225
abbrev DisplayToggleIntExt : Key := 227
abbrev WLAN : Key := 238
abbrev Fn : Key := 464
abbrev ButtonLeft : Key := 272
abbrev ButtonRight : Key := 273
abbrev ButtonMiddle : Key := 274
abbrev ButtonBack : Key := 275
abbrev ButtonForward : Key := 276
abbrev WheelUp : Key := 336
abbrev WheelDown : Key := 337
abbrev WheelLeft : Key := 338
abbrev WheelRight : Key := 339
abbrev any : Key := 61440
abbrev timeout : Key := 61441
abbrev ContextActive : Key := 61442
abbrev unicode_output : Key := 61443
abbrev last_keyboard_key : Key := 61439
abbrev first_virtual : Key := 61696
abbrev last_virtual : Key := 61951
abbrev first_action : Key := 61952
abbrev last_action : Key := 62207
abbrev first_logical : Key := 62208
abbrev last_logical : Key := 62463
abbrev first_mouse_button : Key := 272
abbrev last_mouse_button : Key := 276
abbrev Shift : Key := 62208
abbrev Control : Key := 62209
abbrev Alt : Key := 62210
abbrev Meta : Key := 62211
end Key

/-- `Key.h:489-491` -/
def isVirtualKey (k : Key) : Bool := decide (61696 ≤ k) && decide (k ≤ 61951)

/-- `Key.h:493-495` -/
def isMouseButton (k : Key) : Bool := decide (272 ≤ k) && decide (k ≤ 276)

/-- `Key.h:497-499` -/
def isMouseWheel (k : Key) : Bool := decide (336 ≤ k) && decide (k ≤ 339)

/-- `Key.h:501-505` -/
def isKeyboardKey (k : Key) : Bool :=
  decide (0 < k) && decide (k ≤ 61439) && !isMouseButton k && !isMouseWheel k

/-- `Key.h:507-511` -/
def isDeviceKey (k : Key) : Bool := isKeyboardKey k || isMouseButton k || isMouseWheel k

/-- `Key.h:513-515` -/
def isActionKey (k : Key) : Bool := decide (61952 ≤ k) && decide (k ≤ 62207)

/-- `Key.h:517-532` (ShiftLeft, ShiftRight, ControlLeft, ControlRight, AltLeft, AltRight,
MetaLeft, MetaRight) -/
def isCommonModifier (k : Key) : Bool :=
  k == 42 || k == 54 || k == 29 || k == 97 || k == 56 || k == 100 || k == 125 || k == 126

/-- `KeyEvent.h:14-30` `enum class KeyState`. The numeric values are the constructor indices.
The aliases of lines 27-29 are definitions below. -/
inductive KeyState where
  | Up | Down | Not | UpAsync | DownAsync | NoMightMatch | OutputOnRelease
  | DownMatched | UpMatched | NotTimeout_cancel_on_up_down
deriving DecidableEq, Repr, Inhabited

namespace KeyState
/-- `KeyEvent.h:27` -/
abbrev NotTimeout_cancel_on_down : KeyState := .Not
/-- `KeyEvent.h:28` -/
abbrev Timeout_cancel_on_up_down : KeyState := .Up
/-- `KeyEvent.h:29` -/
abbrev Timeout_cancel_on_down : KeyState := .Down
end KeyState

/-- `KeyEvent.h:32-55` `struct KeyEvent`. `value` is a 12 bit field in the code; the truncation
is applied where wider values are stored (see `Timeout.h`, `GrabbedDevicesLinux.cpp`). -/
structure KeyEvent where
  key : Key
  state : KeyState
  value : Nat := 0
deriving DecidableEq, Repr, Inhabited

/-- `KeyEvent.h:72` `class KeySequence : public std::vector<KeyEvent>` -/
abbrev KeySequence := List KeyEvent

/-- `KeyEvent.h:40-42` the default constructed event. Also `matches_none`
(`MatchKeySequence.cpp:63`). -/
def KeyEvent.zero : KeyEvent := ⟨0, .Up, 0⟩

/-- `KeyEvent.h:58-61` -/
def KeyState.isNotTimeout (s : KeyState) : Bool :=
  s == .NotTimeout_cancel_on_down || s == .NotTimeout_cancel_on_up_down

/-- `KeyEvent.h:63-66` -/
def KeyState.cancelTimeoutOnUp (s : KeyState) : Bool :=
  s == .NotTimeout_cancel_on_up_down || s == .Timeout_cancel_on_up_down

/-- `KeyEvent.h:68-70` -/
def KeyEvent.isNotTimeout (e : KeyEvent) : Bool := e.key == Key.timeout && e.state.isNotTimeout

/-- `Timeout.h:9-17`, after the conversion to milliseconds. `static_cast<int>` of the (64 bit)
count is modelled as wrapping to 32 bit. -/
def durationToTimeout (ms : Int) : Nat :=
  let i := ((ms + 2147483648) % 4294967296) - 2147483648
  (min (max i 0) 4095).toNat

/-- `Timeout.h:23-26` -/
def makeInputTimeoutEvent (ms : Int) : KeyEvent := ⟨Key.timeout, .Up, durationToTimeout ms⟩

/-- `Timeout.h:28-32` -/
def sumTimeouts (a b : Nat) : Nat := min (a + b) 4095

end KM
