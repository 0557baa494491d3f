import Verif.Model.Client
import Verif.Model.KeyName
/-!
# Messages

Models how `src/client/ClientState.cpp` formats the information about a key and how `src/client/unix/main.cpp` shows a message as a notification.
-/
namespace KM

/-- `std::hex << std::uppercase` of a digit -/
def hexDigitUpper (d : Nat) : Char := if d < 10 then Char.ofNat (48 + d) else Char.ofNat (55 + d)

/-- `ClientState.cpp:228`: `std::setw(4)`, filled with `0`; a key has 16 bits -/
def hex4 (k : Nat) : Str :=
  [hexDigitUpper (k / 4096 % 16), hexDigitUpper (k / 256 % 16), hexDigitUpper (k / 16 % 16), hexDigitUpper (k % 16)]

/-- A line `name = 'value'` -/
def infoLine (name value : Str) : Str := name ++ " = '".toList ++ value ++ "'".toList

/-- A line which is only added when the value is not empty -/
def optLine (name value : Str) : List Str := if value.isEmpty then [] else [infoLine name value]

/-- `ClientState.cpp:226-227`: the name, if the key has one -/
def keyNameLine (k : Key) : List Str :=
  match getKeyName k with
  | some name => [infoLine "key_name".toList name]
  | none => []

/-- `ClientState.cpp:225-241`: the lines; the window has no path unless the system tells it -/
def keyInfoLines (i : KeyInfo) : List Str :=
  keyNameLine i.key ++ ["scan_code = 0x".toList ++ hex4 i.key, infoLine "system".toList "Linux".toList] ++
  optLine "title".toList i.window.title ++ optLine "class".toList i.window.cls ++ optLine "path".toList i.window.path ++
  optLine "device".toList i.device.name ++ optLine "device-id".toList i.device.id

/-- `ClientState.cpp:223-243`: each line is ended by a newline, the last one is removed -/
def keyInfoText (i : KeyInfo) : Str := ((keyInfoLines i).flatMap (· ++ ['\n'])).dropLast

/-- `StringTyper.h:31-37` `replace_all`, with a single character to be replaced: the search continues after the replacement -/
def replaceChar (c : Char) (to : Str) (s : Str) : Str := s.flatMap (fun x => if x = c then to else [x])

/-- `unix/main.cpp:40-42` -/
def escapeMessage (s : Str) : Str := replaceChar '"' "\\\"".toList (replaceChar '\\' "\\\\\\".toList s)

/-- `output.cpp:34-35`: the buffer for a message has 2048 bytes, including the terminator -/
def messageBuffer (s : Str) : Str := s.take 2047

/-- `unix/main.cpp:39-50` `show_notification`: the command which is passed to `std::system` -/
def notificationCommand (message : Str) : Str :=
  "notify-send -a keymapper keymapper \"".toList ++ escapeMessage message ++ "\"".toList

/-- `ClientState.cpp:245-247` `show_next_key_info`, `output.cpp:79-84,64-71`, `unix/main.cpp:235-237`: the command which shows the information about a key -/
def keyInfoCommand (i : KeyInfo) : Str := notificationCommand (messageBuffer (keyInfoText i))

end KM
