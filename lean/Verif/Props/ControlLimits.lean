import Verif.Props.Notifications
import Verif.Props.ClientLimits
/-!
# Examples and counterexamples for the requests of `keymapperctl`
-/
namespace KM

/-- A configuration with a name for a virtual key -/
def exPortFs : FileSys := listFs [("a", "Boss = Virtual3\nBoss >> B\n", 5)]

/-- The server is connected, and two connections of `keymapperctl` -/
def exPortOps : List ClientOp := [.connect none, .accept 1, .accept 2]

/-- The client of the examples -/
def exPort (ops : List ClientOp) : Client := (Client.start exEnv exPortFs "a".toList).run exEnv (exPortOps ++ ops)

/-- `C40_reply`: the name of the configuration and the one of the key denote the same key. -/
example : connectedAfter (exPortOps ++ [.server (.virtualKeyState 61699 .Down)]) = true ∧
    (exPort [.server (.virtualKeyState 61699 .Down)]).isOpen 1 = true ∧
    ((serverView (exPort [.server (.virtualKeyState 61699 .Down)]).out).config.any (fun config =>
      config.virtualKeyAliases == [("Boss".toList, 61699)])) = true ∧
    getKeyByName "Boss".toList = Key.none ∧ getKeyByName "Virtual3".toList = 61699 ∧
    toldDown 61699 (exPortOps ++ [.server (.virtualKeyState 61699 .Down)]) = true ∧
    repliesTo 1 (exPort [.server (.virtualKeyState 61699 .Down), .control exPortFs none 1 (.getState "Boss".toList),
      .control exPortFs none 1 (.getState "bogus".toList)]).out =
      [.keyState 61699 .Down, .keyState Key.none .Not] := by decide +kernel

/-- `C40_in_bounds` -/
example : ClientOp.key (exPort []) (.control exPortFs none 1 (.getState "Virtual254".toList)) = 61950 ∧
    (exPort [.control exPortFs none 1 (.getState "Virtual254".toList)]).control.ub = false := by decide +kernel

/-- **C40** does not hold for `Virtual255`: the table has one entry less than there are virtual keys; asking for
the state of the last one reads behind it, and when the server tells about it, it is written behind it. -/
theorem C40_last_key_counterexample : ∃ (env : ClientEnv) (fs : FileSys) (filename : Str) (ops : List ClientOp),
    connectedAfter ops = true ∧ getKeyByName "Virtual255".toList = Key.last_virtual ∧
    isVirtualKey Key.last_virtual = true ∧
    ((Client.start env fs filename).run env ops).control.ub = false ∧
    ((Client.start env fs filename).run env
      (ops ++ [.control fs none 1 (.getState "Virtual255".toList)])).control.ub = true ∧
    ((Client.start env fs filename).run env
      (ops ++ [.server (.virtualKeyState Key.last_virtual .Down)])).control.ub = true :=
  ⟨exEnv, exPortFs, "a".toList, exPortOps, by decide +kernel⟩

/-- `C47_replaced`: another process announces the id of the first one. -/
example : ¬ NoId "x".toList ∧ (exPort [.control exPortFs none 1 (.setInstanceId "x".toList)]).isOpen 2 = true ∧
    (exPort [.control exPortFs none 1 (.setInstanceId "x".toList)]).isOpen 1 = true ∧
    (exPort [.control exPortFs none 1 (.setInstanceId "x".toList),
      .control exPortFs none 2 (.setInstanceId "x".toList)]).isOpen 1 = false := by decide +kernel

/-- `C47_stays_open`: it announces another id. -/
example : lastId 1 (exPortOps ++ [.control exPortFs none 1 (.setInstanceId "x".toList)]) = some "x".toList ∧
    (exPort [.control exPortFs none 1 (.setInstanceId "x".toList),
      .control exPortFs none 2 (.setInstanceId "y".toList)]).isOpen 1 = true := by decide +kernel

/-- `C63_notified`, `C63_other_keys`, `C63_only_once`: another key changes, then the key twice. -/
example : repliesTo 1 (exPort [.control exPortFs none 1 (.requestToggle "Boss".toList),
      .server (.virtualKeyState 61700 .Down), .server (.virtualKeyState 61699 .Down),
      .server (.virtualKeyState 61699 .Up)]).out = [.keyState 61699 .Down] := by decide +kernel

/-- `C64_replied`, `C64_shown`: the first key is told, the second one is shown as a notification. -/
example : repliesTo 1 (exPort [.control exPortFs none 1 .nextKeyInfo, .server (.nextKeyInfo 30 default),
      .server (.nextKeyInfo 31 default)]).out = [.keyInfo ⟨30, {}, default⟩] ∧
    shown (exPort [.control exPortFs none 1 .nextKeyInfo, .server (.nextKeyInfo 30 default),
      .server (.nextKeyInfo 31 default)]).out = [⟨31, {}, default⟩] ∧
    (exPort []).isConnected = true := by decide +kernel

end KM
