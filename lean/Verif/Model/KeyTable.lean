import Verif.Model.Key
/-!
Generated from the Linux branch of `src/runtime/Key.h` (lines 9-485) and the `switch` of
`src/config/get_key_name.cpp` lines 25-227: for each `case Key::K: return "N";` the pair
(code of K, "N"), in the order of the switch.
-/
namespace KM

/-- `get_key_name.cpp:26-209`: all named keys with their name. -/
def keyNameTable : List (Key × String) := [
  (1, "Escape"),
  (2, "1"),
  (3, "2"),
  (4, "3"),
  (5, "4"),
  (6, "5"),
  (7, "6"),
  (8, "7"),
  (9, "8"),
  (10, "9"),
  (11, "0"),
  (12, "Minus"),
  (13, "Equal"),
  (14, "Backspace"),
  (15, "Tab"),
  (16, "Q"),
  (17, "W"),
  (18, "E"),
  (19, "R"),
  (20, "T"),
  (21, "Y"),
  (22, "U"),
  (23, "I"),
  (24, "O"),
  (25, "P"),
  (26, "BracketLeft"),
  (27, "BracketRight"),
  (28, "Enter"),
  (29, "ControlLeft"),
  (30, "A"),
  (31, "S"),
  (32, "D"),
  (33, "F"),
  (34, "G"),
  (35, "H"),
  (36, "J"),
  (37, "K"),
  (38, "L"),
  (39, "Semicolon"),
  (40, "Quote"),
  (41, "Backquote"),
  (42, "ShiftLeft"),
  (43, "Backslash"),
  (44, "Z"),
  (45, "X"),
  (46, "C"),
  (47, "V"),
  (48, "B"),
  (49, "N"),
  (50, "M"),
  (51, "Comma"),
  (52, "Period"),
  (53, "Slash"),
  (54, "ShiftRight"),
  (55, "NumpadMultiply"),
  (56, "AltLeft"),
  (57, "Space"),
  (58, "CapsLock"),
  (59, "F1"),
  (60, "F2"),
  (61, "F3"),
  (62, "F4"),
  (63, "F5"),
  (64, "F6"),
  (65, "F7"),
  (66, "F8"),
  (67, "F9"),
  (68, "F10"),
  (69, "NumLock"),
  (70, "ScrollLock"),
  (71, "Numpad7"),
  (72, "Numpad8"),
  (73, "Numpad9"),
  (74, "NumpadSubtract"),
  (75, "Numpad4"),
  (76, "Numpad5"),
  (77, "Numpad6"),
  (78, "NumpadAdd"),
  (79, "Numpad1"),
  (80, "Numpad2"),
  (81, "Numpad3"),
  (82, "Numpad0"),
  (83, "NumpadDecimal"),
  (86, "IntlBackslash"),
  (87, "F11"),
  (88, "F12"),
  (89, "IntlRo"),
  (92, "Convert"),
  (93, "KanaMode"),
  (94, "NonConvert"),
  (96, "NumpadEnter"),
  (97, "ControlRight"),
  (98, "NumpadDivide"),
  (99, "PrintScreen"),
  (100, "AltRight"),
  (102, "Home"),
  (103, "ArrowUp"),
  (104, "PageUp"),
  (105, "ArrowLeft"),
  (106, "ArrowRight"),
  (107, "End"),
  (108, "ArrowDown"),
  (109, "PageDown"),
  (110, "Insert"),
  (111, "Delete"),
  (118, "Settings"),
  (224, "BrightnessDown"),
  (225, "BrightnessUp"),
  (227, "DisplayToggleIntExt"),
  (202, "Prog3"),
  (238, "WLAN"),
  (140, "LaunchApp2"),
  (113, "AudioVolumeMute"),
  (114, "AudioVolumeDown"),
  (115, "AudioVolumeUp"),
  (116, "Power"),
  (117, "NumpadEqual"),
  (119, "Pause"),
  (101, "Cancel"),
  (121, "NumpadComma"),
  (122, "Lang1"),
  (123, "Lang2"),
  (124, "IntlYen"),
  (125, "MetaLeft"),
  (126, "MetaRight"),
  (127, "ContextMenu"),
  (128, "BrowserStop"),
  (144, "LaunchApp1"),
  (217, "BrowserSearch"),
  (156, "BrowserFavorites"),
  (158, "BrowserBack"),
  (159, "BrowserForward"),
  (163, "MediaTrackNext"),
  (164, "MediaPlayPause"),
  (165, "MediaTrackPrevious"),
  (166, "MediaStop"),
  (168, "MediaRewind"),
  (200, "MediaPlay"),
  (201, "MediaPause"),
  (208, "MediaFastForward"),
  (173, "BrowserRefresh"),
  (172, "BrowserHome"),
  (155, "LaunchMail"),
  (171, "LaunchMediaPlayer"),
  (129, "Again"),
  (130, "Props"),
  (131, "Undo"),
  (132, "Select"),
  (133, "Copy"),
  (134, "Open"),
  (135, "Paste"),
  (136, "Find"),
  (137, "Cut"),
  (138, "Help"),
  (142, "Sleep"),
  (143, "WakeUp"),
  (161, "Eject"),
  (464, "Fn"),
  (183, "F13"),
  (184, "F14"),
  (185, "F15"),
  (186, "F16"),
  (187, "F17"),
  (188, "F18"),
  (189, "F19"),
  (190, "F20"),
  (191, "F21"),
  (192, "F22"),
  (193, "F23"),
  (194, "F24"),
  (272, "ButtonLeft"),
  (273, "ButtonRight"),
  (274, "ButtonMiddle"),
  (275, "ButtonBack"),
  (276, "ButtonForward"),
  (336, "WheelUp"),
  (337, "WheelDown"),
  (338, "WheelLeft"),
  (339, "WheelRight"),
  (61440, "Any"),
  (61442, "ContextActive")]

end KM
