import Verif.Tests.Lib
/-! Generated from `src/test/test4_Server.cpp`. -/
namespace KM.Test

-- Minimal configuration
#guard ok (runServer "\n    A >> B\n  " true [
  .apply "+X" (0) "+X",
  .apply "-X" (0) "-X",
  .apply "+A" (0) "+B",
  .apply "-A" (0) "-B"])

-- Modifier filter and no might match (infinite loop bug)
#guard ok (runServer "\n    ContextActive >> Virtual1\n\n    [modifier = Virtual1]\n    ? X >> A Virtual1\n  " true [
  .apply "+X" (0) "+A -A",
  .apply "-X" (0) "",
  .apply "+X" (0) "+X",
  .apply "-X" (0) "-X"])

-- Modifier filter toggled in ContextActive
#guard ok (runServer "\n    X >> Virtual1\n\n    [modifier = Virtual1]\n    ContextActive >> A Virtual1\n  " true [
  .apply "+X" (0) "+A -A",
  .apply "-X" (0) "",
  .apply "+X" (0) "+A -A",
  .apply "-X" (0) ""])

-- Modifier filter toggled in two ContextActive (prevent infinite loop)
#guard ok (runServer "\n    C >> Virtual1\n\n    [modifier = Virtual1]\n    ContextActive >> A Virtual1\n\n    [modifier = \"!Virtual1\"]\n    ContextActive >> B Virtual1\n  " false [
  .setActive [0, 1, 2] "+B -B +A -A +B -B +A -A +B -B +A -A +B -B +A -A +B -B +A -A",
  .apply "+A -A" (0) "+A -A",
  .apply "+B -B" (0) "+B -B",
  .apply "+C" (0) "+B -B +A -A +B -B +A -A +B -B +A -A +B -B +A -A +B -B",
  .apply "+A -A" (0) "+A -A",
  .apply "+B -B" (0) "+B -B"])

-- Trigger Not Timeout
#guard ok (runServer "\n    ShiftLeft{!200ms} >> B\n    Shift >> Shift\n    J >> N\n    K >> E\n  " true [
  .apply "+ShiftLeft" (0) "",
  .timeout false "",
  .apply "-ShiftLeft" (0) "+B -B",
  .clear,
  .apply "+ShiftLeft" (0) "",
  .timeout true "+ShiftLeft",
  .apply "-ShiftLeft" (0) "-ShiftLeft",
  .clear,
  .apply "+ShiftLeft" (0) "",
  .timeout false "",
  .apply "+J" (0) "+ShiftLeft +N",
  .apply "-J" (0) "-N",
  .apply "+K" (0) "+E",
  .apply "-K" (0) "-E",
  .apply "-ShiftLeft" (0) "-ShiftLeft",
  .clear,
  .apply "+A" (0) "+A",
  .apply "+ShiftLeft" (0) "",
  .timeout true "+ShiftLeft",
  .apply "-A" (0) "-A",
  .apply "+A" (0) "+A",
  .apply "-A" (0) "-A",
  .apply "-ShiftLeft" (0) "-ShiftLeft",
  .clear,
  .apply "+A" (0) "+A",
  .apply "+ShiftLeft" (0) "",
  .timeout false "",
  .apply "-A" (0) "+ShiftLeft -A",
  .apply "+A" (0) "+A",
  .apply "-A" (0) "-A",
  .apply "-ShiftLeft" (0) "-ShiftLeft",
  .clear])

-- ContextActive with fallthrough contexts
#guard ok (runServer "\n    [modifier = B]\n    [modifier = A]\n    ContextActive >> X ^ Y\n  " true [
  .apply "+A" (0) "+X -X +A",
  .apply "-A" (0) "-A +Y -Y",
  .apply "+B" (0) "+X -X +B",
  .apply "-B" (0) "-B +Y -Y",
  .apply "+A" (0) "+X -X +A",
  .apply "+B" (0) "+B",
  .apply "-B" (0) "-B",
  .apply "-A" (0) "-A +Y -Y",
  .apply "+A" (0) "+X -X +A",
  .apply "+B" (0) "+B",
  .apply "-A" (0) "-A",
  .apply "-B" (0) "-B +Y -Y",
  .apply "+B" (0) "+X -X +B",
  .apply "+A" (0) "+A",
  .apply "-A" (0) "-A",
  .apply "-B" (0) "-B +Y -Y",
  .apply "+B" (0) "+X -X +B",
  .apply "+A" (0) "+A",
  .apply "-B" (0) "-B",
  .apply "-A" (0) "-A +Y -Y"])

-- Not Any with action in ContextActive
#guard ok (runServer "\n    ContextActive >> $(action1) ^ $(action2)\n    A             >> S\n    B             >> !Any T\n  " true [
  .actions 1,
  .apply "+A" (0) "+S",
  .apply "-A" (0) "-S",
  .apply "+ShiftLeft" (0) "+ShiftLeft",
  .apply "+B" (0) "-ShiftLeft +T",
  .apply "-B" (0) "-T",
  .apply "-ShiftLeft" (0) "",
  .apply "+C" (0) "+C",
  .apply "-C" (0) "-C",
  .actions 0])

-- Device context filter
#guard ok (runServer "\n    [device = \"DeviceA\"]\n    A >> X\n\n    [device-id = \"device_id_b\"]\n    A >> Y\n\n    [device = /B/]\n    B >> R\n\n    [device_id = /id_a/]   # deprecated filter name\n    B >> S\n  " true [
  .devices [("DeviceA", "device_id_a"), ("DeviceB", "device_id_b")],
  .apply "+A" (0) "+X",
  .apply "-A" (0) "-X",
  .apply "+A" (1) "+Y",
  .apply "-A" (1) "-Y",
  .apply "+B" (0) "+S",
  .apply "-B" (0) "-S",
  .apply "+B" (1) "+R",
  .apply "-B" (1) "-R"])

-- Multi staging
#guard ok (runServer "\n    # colemak layout\n    S >> R\n    D >> S\n    F >> T\n\n    [stage]\n    BS = Backspace\n\n    [default]\n    ? R A T >> BS BS \"cat\"\n  " true [
  .apply "+S" (0) "+R",
  .apply "+A" (0) "+A",
  .apply "+F" (0) "+Backspace -Backspace +Backspace -Backspace -R -A +C -C +A -A +T -T",
  .apply "-F" (0) "",
  .apply "-A" (0) "",
  .apply "-S" (0) ""])

-- Multi staging - timeout
#guard ok (runServer "\n    A{500ms} >> B\n\n    [stage]\n    B{500ms} >> C\n  " true [
  .apply "+A" (0) "",
  .apply "+A" (0) "",
  .timeout false "+A",
  .apply "-A" (0) "-A",
  .apply "+A" (0) "",
  .apply "+A" (0) "",
  .timeout true "",
  .apply "-A" (0) "+B -B",
  .apply "+A" (0) "",
  .apply "+A" (0) "",
  .timeout true "",
  .timeout false "+B",
  .apply "-A" (0) "-B",
  .apply "+A" (0) "",
  .apply "+A" (0) "",
  .timeout true "",
  .timeout true "+C",
  .apply "-A" (0) "-C"])

-- Multi staging - not timeout
#guard ok (runServer "\n    A{!500ms} >> B\n\n    [stage]\n    B{!500ms} >> C\n  " true [
  .apply "+A" (0) "",
  .apply "+A" (0) "",
  .timeout true "+A",
  .apply "-A" (0) "-A",
  .apply "+A" (0) "",
  .apply "+A" (0) "",
  .timeout false "",
  .apply "-A" (0) "",
  .flush "+B -B"])

-- Multi staging - virtual key
#guard ok (runServer "\n    X >> Virtual1\n    Virtual1{A} >> R\n\n    [stage]\n    Y >> Virtual2\n    Virtual2{B} >> S\n    Virtual1{C} >> T\n  " true [
  .apply "+A" (0) "+A",
  .apply "-A" (0) "-A",
  .apply "+B" (0) "+B",
  .apply "-B" (0) "-B",
  .apply "+C" (0) "+C",
  .apply "-C" (0) "-C",
  .apply "+X" (0) "",
  .apply "-X" (0) "",
  .apply "+A" (0) "+R",
  .apply "-A" (0) "-R",
  .apply "+B" (0) "+B",
  .apply "-B" (0) "-B",
  .apply "+C" (0) "+T",
  .apply "-C" (0) "-T",
  .apply "+Y" (0) "",
  .apply "-Y" (0) "",
  .apply "+A" (0) "+R",
  .apply "-A" (0) "-R",
  .apply "+B" (0) "+S",
  .apply "-B" (0) "-S",
  .apply "+C" (0) "+T",
  .apply "-C" (0) "-T",
  .apply "+X" (0) "",
  .apply "-X" (0) "",
  .apply "+A" (0) "+A",
  .apply "-A" (0) "-A",
  .apply "+B" (0) "+S",
  .apply "-B" (0) "-S",
  .apply "+C" (0) "+C",
  .apply "-C" (0) "-C",
  .apply "+Y" (0) "",
  .apply "-Y" (0) "",
  .apply "+A" (0) "+A",
  .apply "-A" (0) "-A",
  .apply "+B" (0) "+B",
  .apply "-B" (0) "-B",
  .apply "+C" (0) "+C",
  .apply "-C" (0) "-C"])

-- Multi staging - actions
#guard ok (runServer "\n    F1 >> $(action0)\n\n    [stage]\n    F2 >> $(action1)\n  " true [
  .apply "+F1" (0) "",
  .apply "-F1" (0) "",
  .actions 1,
  .apply "+F2" (0) "",
  .apply "-F2" (0) "",
  .actions 1])

-- Multi staging - output on release
#guard ok (runServer "\n    F1 >> A ^ B\n\n    [stage]\n    F2 >> C ^ D\n  " true [
  .apply "+F1" (0) "+A -A",
  .apply "-F1" (0) "+B -B",
  .apply "+F2" (0) "+C -C",
  .apply "-F2" (0) "+D -D",
  .apply "+F1" (0) "+A -A",
  .apply "+F2" (0) "+C -C",
  .apply "-F1" (0) "+B -B",
  .apply "-F2" (0) "+D -D",
  .apply "+F1" (0) "+A -A",
  .apply "+F2" (0) "+C -C",
  .apply "-F2" (0) "+D -D",
  .apply "-F1" (0) "+B -B",
  .apply "+F2" (0) "+C -C",
  .apply "+F1" (0) "+A -A",
  .apply "-F2" (0) "+D -D",
  .apply "-F1" (0) "+B -B"])

-- Multi staging - ContextActive
#guard ok (runServer "\n    [title=\"App1\"]    # 0\n    ContextActive >> A ^ B\n\n    [stage]           # 1\n\n    [title=\"App2\"]    # 2\n    ContextActive >> C ^ D\n  " false [
  .setActive [1] "",
  .setActive [0, 1] "+A -A",
  .setActive [1] "+B -B",
  .setActive [1, 2] "+C -C",
  .setActive [0, 1] "+A -A +D -D",
  .setActive [1] "+B -B"])

-- Forwarding after timeout (#113)
#guard ok (runServer "\n    !W Q{500ms} >> C\n    (Q W) >> A\n    Q     >> B\n  " true [
  .apply "+Q" (0) "",
  .timeout true "+C",
  .apply "+Q" (0) "",
  .timeout true "+C",
  .apply "+Q" (0) "",
  .timeout false "",
  .apply "-Q" (0) "-C",
  .clear,
  .apply "+Q" (0) "",
  .timeout false "",
  .apply "-Q" (0) "+B -B",
  .clear,
  .apply "+Q" (0) "",
  .timeout false "",
  .apply "+W" (0) "+A",
  .apply "+W" (0) "+A",
  .apply "-W" (0) "-A",
  .apply "-Q" (0) "",
  .clear,
  .apply "+W" (0) "",
  .apply "+Q" (0) "+A",
  .apply "+Q" (0) "+A",
  .apply "-Q" (0) "",
  .apply "-W" (0) "-A",
  .clear])

-- Another timeout problem (#217)
#guard ok (runServer "\n    D{!1000ms S} >> Tab\n    D{K !K} >> X\n  " true [
  .apply "+D" (0) "",
  .timeout false "",
  .apply "-D" (0) "+D -D",
  .clear,
  .apply "+D" (0) "",
  .timeout false "",
  .apply "+K" (0) "",
  .apply "+K" (0) "",
  .apply "-K" (0) "+X -X",
  .apply "-D" (0) "",
  .clear,
  .apply "+D" (0) "",
  .timeout false "",
  .apply "+K" (0) "",
  .apply "+K" (0) "",
  .apply "-D" (0) "+D +K -D",
  .apply "-K" (0) "-K",
  .clear,
  .apply "+D" (0) "",
  .timeout false "",
  .apply "+S" (0) "+Tab",
  .apply "+S" (0) "+Tab",
  .apply "-S" (0) "-Tab",
  .apply "-D" (0) "",
  .clear,
  .apply "+D" (0) "",
  .timeout true "",
  .apply "+S" (0) "+D +S",
  .apply "-S" (0) "-S",
  .apply "-D" (0) "-D",
  .clear,
  .apply "+D" (0) "",
  .timeout true "",
  .apply "+K" (0) "",
  .apply "+K" (0) "",
  .apply "-K" (0) "+X -X",
  .apply "-D" (0) "",
  .clear])

-- Wrong Keyrepeat after timeout (#216)
#guard ok (runServer "\n    A{!50ms B} >> X\n  " true [
  .apply "+A" (0) "",
  .timeout true "+A",
  .apply "-A" (0) "-A",
  .clear,
  .apply "+A" (0) "",
  .timeout false "",
  .apply "-A" (0) "+A -A",
  .clear,
  .apply "+A" (0) "",
  .timeout false "",
  .apply "+C" (0) "+A +C",
  .apply "+C" (0) "+C",
  .apply "-C" (0) "-C",
  .apply "-A" (0) "-A",
  .clear,
  .apply "+A" (0) "",
  .timeout false "",
  .apply "+B" (0) "+X",
  .apply "+B" (0) "+X",
  .apply "-B" (0) "-X",
  .apply "-A" (0) "",
  .clear])

-- Suppress key repeat of all but last device
#guard ok (runServer "\n  " true [
  .apply "+A" (0) "+A",
  .apply "+A" (0) "+A",
  .apply "+B" (1) "+B",
  .apply "+A" (0) "+A",
  .apply "+B" (1) "+B",
  .apply "+A" (0) "",
  .apply "+B" (1) "+B",
  .apply "+A" (0) "",
  .apply "+B" (1) "+B",
  .apply "-B" (1) "-B",
  .apply "+A" (0) "",
  .apply "+A" (0) "",
  .apply "-A" (0) "-A",
  .clear,
  .apply "+A" (0) "+A",
  .apply "+A" (0) "+A",
  .apply "+ButtonLeft" (1) "+ButtonLeft",
  .apply "-ButtonLeft" (1) "-ButtonLeft",
  .apply "+A" (0) "+A",
  .apply "+A" (0) "+A",
  .apply "-A" (0) "-A",
  .clear])

-- Inconsistent Mouse Button Behavior In Chords (#255)
#guard ok (runServer "\n    Z{ButtonLeft} >> B\n  " true [
  .apply "+Z" (0) "",
  .apply "+Z" (0) "",
  .apply "+ButtonLeft" (1) "+B",
  .apply "+Z" (0) "",
  .apply "+Z" (0) "",
  .apply "-ButtonLeft" (1) "-B",
  .apply "+Z" (0) "",
  .apply "+Z" (0) "",
  .apply "-Z" (0) "",
  .clear,
  .apply "+X" (0) "+X",
  .apply "+X" (0) "+X",
  .apply "+Z" (0) "",
  .apply "+Z" (0) "",
  .apply "+ButtonLeft" (1) "+B",
  .apply "+Z" (0) "",
  .apply "+Z" (0) "",
  .apply "-ButtonLeft" (1) "-B",
  .apply "+Z" (0) "",
  .apply "+Z" (0) "",
  .apply "-Z" (0) "",
  .apply "-X" (0) "-X",
  .clear])

-- Releasing after forwarding (#244)
#guard ok (runServer "\n    @forward-modifiers Shift\n\n    A{S{D}} >> Space\n  " true [
  .apply "+ShiftLeft" (0) "+ShiftLeft",
  .apply "+A" (0) "",
  .apply "+A" (0) "",
  .apply "-A" (0) "+A -A",
  .apply "-ShiftLeft" (0) "-ShiftLeft",
  .clear,
  .apply "+ShiftLeft" (0) "+ShiftLeft",
  .apply "+A" (0) "",
  .apply "+A" (0) "",
  .apply "-ShiftLeft" (0) "+A -ShiftLeft",
  .apply "-A" (0) "-A",
  .clear])

end KM.Test
