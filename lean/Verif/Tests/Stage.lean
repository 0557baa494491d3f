import Verif.Tests.Lib
/-! Generated from `src/test/test3_Stage.cpp`. -/
namespace KM.Test

-- Simple
#guard ok (runStage "\n    A >> B\n  " true [
  .apply "+A -A" (0) "+B -B",
  .apply "+B -B" (0) "+B -B",
  .apply "+ShiftLeft" (0) "+ShiftLeft",
  .apply "+A" (0) "+B",
  .apply "+A" (0) "+B",
  .apply "+A" (0) "+B",
  .apply "-A" (0) "-B",
  .apply "-ShiftLeft" (0) "-ShiftLeft"])

-- Layout
#guard ok (runStage "\n    S >> R\n    D >> S\n    F >> T\n  " true [
  .apply "+A" (0) "+A",
  .apply "+S" (0) "+R",
  .apply "+D" (0) "+S",
  .apply "+F" (0) "+T",
  .apply "-A" (0) "-A",
  .apply "-S" (0) "-R",
  .apply "-D" (0) "-S",
  .apply "-F" (0) "-T"])

-- Layout / Boss Key
#guard ok (runStage "\n    Boss    = ScrollLock\n    !Boss S >> R\n    !Boss D >> S\n    !Boss F >> T\n  " true [
  .apply "+A" (0) "+A",
  .apply "+S" (0) "+R",
  .apply "+D" (0) "+S",
  .apply "+F" (0) "+T",
  .apply "-A" (0) "-A",
  .apply "-S" (0) "-R",
  .apply "-D" (0) "-S",
  .apply "-F" (0) "-T",
  .apply "+ScrollLock" (0) "+ScrollLock",
  .apply "+A" (0) "+A",
  .apply "+S" (0) "+S",
  .apply "+D" (0) "+D",
  .apply "+F" (0) "+F",
  .apply "-A" (0) "-A",
  .apply "-S" (0) "-S",
  .apply "-D" (0) "-D",
  .apply "-F" (0) "-F",
  .apply "-ScrollLock" (0) "-ScrollLock"])

-- Sequence
#guard ok (runStage "\n    M R >> A\n    M S >> B\n    R R >> C\n    R S >> D\n  " true [
  .apply "+M" (0) "",
  .seq "+M",
  .apply "-M" (0) "",
  .seq "+M -M",
  .apply "+X" (0) "+M -M +X",
  .seq "#X",
  .apply "-X" (0) "-X",
  .clear true,
  .apply "+M" (0) "",
  .apply "-M" (0) "",
  .seq "+M -M",
  .apply "+M" (0) "+M -M",
  .seq "+M",
  .apply "-M" (0) "",
  .seq "+M -M",
  .apply "+R" (0) "+A",
  .apply "-R" (0) "-A",
  .clear true,
  .apply "+M" (0) "",
  .apply "+S" (0) "+B",
  .apply "-S" (0) "-B",
  .apply "-M" (0) "",
  .clear true,
  .apply "+S" (0) "+S",
  .apply "-S" (0) "-S",
  .apply "+R" (0) "",
  .seq "+R",
  .apply "-R" (0) "",
  .seq "+R -R",
  .apply "+R" (0) "+C",
  .seq "#R",
  .apply "-R" (0) "-C",
  .clear true,
  .apply "+X" (0) "+X",
  .apply "+M" (0) "",
  .apply "-M" (0) "",
  .apply "+S" (0) "+B",
  .apply "-S" (0) "-B",
  .apply "-X" (0) "-X",
  .clear true,
  .apply "+X" (0) "+X",
  .apply "+M" (0) "",
  .apply "-X" (0) "+M -X",
  .apply "-M" (0) "-M",
  .apply "+S" (0) "+S",
  .apply "-S" (0) "-S",
  .clear true])

-- Combo
#guard ok (runStage "\n    Control >> Control\n    Control{K} X   >> 1\n    Control{K} Any >>\n  " true [
  .apply "+ControlLeft" (0) "+ControlLeft",
  .apply "+K" (0) "",
  .apply "-K" (0) "",
  .apply "-ControlLeft" (0) "-ControlLeft",
  .apply "+X" (0) "+1",
  .apply "-X" (0) "-1",
  .apply "+K" (0) "+K",
  .apply "-K" (0) "-K",
  .apply "+X" (0) "+X",
  .apply "-X" (0) "-X",
  .apply "+ControlLeft" (0) "+ControlLeft",
  .apply "+K -K" (0) "",
  .apply "-ControlLeft" (0) "-ControlLeft",
  .apply "+Y -Y" (0) ""])

-- Filter
#guard ok (runStage "\n    Shift >> Shift\n    A >> A\n    Any >>\n  " true [
  .apply "+A" (0) "+A",
  .seq "#A",
  .apply "-A" (0) "-A",
  .clear true,
  .apply "+B -B" (0) "",
  .clear true,
  .apply "+C -C" (0) "",
  .clear true,
  .apply "+ShiftLeft +D -D -ShiftLeft" (0) "+ShiftLeft -ShiftLeft",
  .clear true])

-- Top-Down Matching
#guard ok (runStage "\n    A   >> 1\n    A B >> 2\n    B   >> 3\n  " true [
  .apply "+A" (0) "+1",
  .apply "-A" (0) "-1",
  .clear true,
  .apply "+B" (0) "+3",
  .apply "-B" (0) "-3",
  .clear true,
  .apply "+A" (0) "+1",
  .apply "+B" (0) "+2",
  .apply "-B" (0) "-2",
  .apply "-A" (0) "-1"])

-- Input is completly replaced
#guard ok (runStage "\n    A    >> 1\n    B{C} >> 2\n  " true [
  .apply "+A" (0) "+1",
  .apply "-A" (0) "-1",
  .apply "+B" (0) "",
  .apply "-B" (0) "+B -B",
  .apply "+B" (0) "",
  .apply "+C" (0) "+2",
  .apply "-C" (0) "-2",
  .apply "-B" (0) ""])

-- Cursor
#guard ok (runStage "\n    Ext      = CapsLock\n    Ext      >>\n    Ext{I}   >> ArrowUp\n    Ext{K}   >> ArrowDown\n    Ext{J}   >> ArrowLeft\n    Ext{L}   >> ArrowRight\n    Ext{D}   >> Shift\n    Ext{Any} >>\n  " true [
  .apply "+I" (0) "+I",
  .seq "#I",
  .apply "-I" (0) "-I",
  .clear true,
  .apply "+CapsLock" (0) "",
  .seq "#CapsLock",
  .apply "-CapsLock" (0) "",
  .clear true,
  .apply "+CapsLock" (0) "",
  .apply "+X" (0) "",
  .apply "-X" (0) "",
  .apply "-CapsLock" (0) "",
  .clear true,
  .apply "+CapsLock" (0) "",
  .seq "#CapsLock",
  .apply "+I" (0) "+ArrowUp",
  .seq "#CapsLock #I",
  .apply "+I" (0) "+ArrowUp",
  .seq "#CapsLock #I",
  .apply "-I" (0) "-ArrowUp",
  .seq "#CapsLock",
  .apply "+D" (0) "+ShiftLeft",
  .seq "#CapsLock #D",
  .apply "+I" (0) "+ArrowUp",
  .seq "#CapsLock #D #I",
  .apply "+I" (0) "+ArrowUp",
  .seq "#CapsLock #D #I",
  .apply "-I" (0) "-ArrowUp",
  .seq "#CapsLock #D",
  .apply "-D" (0) "-ShiftLeft",
  .seq "#CapsLock",
  .apply "-CapsLock" (0) "",
  .clear true])

-- Any matches any key
#guard ok (runStage "\n    A{B} >> 1\n    Any  >>\n  " true [
  .apply "+A" (0) "",
  .apply "-A" (0) "",
  .apply "+B" (0) "",
  .apply "-B" (0) "",
  .apply "+A" (0) "",
  .apply "+B" (0) "+1",
  .apply "-B" (0) "-1",
  .apply "-A" (0) "",
  .apply "+ButtonLeft" (0) "+ButtonLeft",
  .apply "-ButtonLeft" (0) "-ButtonLeft"])

-- Not in input
#guard ok (runStage "\n    !C A >> X\n    B !B >> Y\n    D !D E >> Z\n  " true [
  .apply "+A" (0) "+X",
  .apply "+A" (0) "+X",
  .apply "-A" (0) "-X",
  .clear true,
  .apply "+C" (0) "+C",
  .apply "+A" (0) "+A",
  .apply "-A" (0) "-A",
  .apply "-C" (0) "-C",
  .clear true,
  .apply "+B" (0) "",
  .apply "+B" (0) "",
  .apply "-B" (0) "+Y -Y",
  .clear true,
  .apply "+D" (0) "",
  .apply "-D" (0) "",
  .apply "+E" (0) "+Z",
  .apply "-E" (0) "-Z",
  .clear true,
  .apply "+D" (0) "",
  .apply "+E" (0) "+D +E",
  .apply "-E" (0) "-E",
  .apply "-D" (0) "-D",
  .clear true,
  .apply "+D" (0) "",
  .apply "+B" (0) "+D",
  .apply "+B" (0) "",
  .apply "-B" (0) "+Y -Y",
  .apply "-D" (0) "-D",
  .clear true])

-- Not in input undone
#guard ok (runStage "\n    Shift >> Shift\n    !Shift A Shift{B} >> X\n  " true [
  .apply "+ShiftLeft" (0) "+ShiftLeft",
  .apply "+A" (0) "+A",
  .apply "-A" (0) "-A",
  .apply "+B" (0) "+B",
  .apply "-B" (0) "-B",
  .apply "-ShiftLeft" (0) "-ShiftLeft",
  .clear true,
  .apply "+A" (0) "",
  .apply "-A" (0) "",
  .apply "+ShiftLeft" (0) "",
  .apply "+B" (0) "+X",
  .apply "-B" (0) "-X",
  .apply "-ShiftLeft" (0) "",
  .clear true])

-- Not in input with modifier group
#guard ok (runStage "\n    A{B !B} >> X\n    C{D} !C >> Y\n  " true [
  .apply "+A" (0) "",
  .apply "+B" (0) "",
  .apply "-B" (0) "+X -X",
  .apply "-A" (0) "",
  .clear true,
  .apply "+A" (0) "",
  .apply "+B" (0) "",
  .apply "-A" (0) "+A +B -A",
  .apply "-B" (0) "-B",
  .clear true,
  .apply "+C" (0) "",
  .apply "+D" (0) "",
  .apply "-C" (0) "+Y -Y",
  .apply "-D" (0) "",
  .clear true,
  .apply "+C" (0) "",
  .apply "+D" (0) "",
  .apply "-D" (0) "",
  .apply "-C" (0) "+Y -Y",
  .clear true,
  .apply "+C" (0) "",
  .apply "+D" (0) "",
  .apply "+E" (0) "+C +D +E",
  .apply "-C" (0) "-C",
  .apply "-E" (0) "-E",
  .apply "-D" (0) "-D",
  .clear true])

-- Not in output
#guard ok (runStage "\n    Shift    >> Shift\n    Shift{X} >> !Shift 1\n  " true [
  .apply "+ShiftLeft" (0) "+ShiftLeft",
  .seq "#ShiftLeft",
  .apply "+X" (0) "-ShiftLeft +1",
  .seq "#ShiftLeft #X",
  .apply "+X" (0) "+1",
  .apply "+X" (0) "+1",
  .apply "-X" (0) "-1",
  .apply "-ShiftLeft" (0) "",
  .clear true,
  .apply "+ShiftLeft" (0) "+ShiftLeft",
  .apply "+X" (0) "-ShiftLeft +1",
  .apply "-X" (0) "-1",
  .apply "+X" (0) "+1",
  .apply "-X" (0) "-1",
  .apply "+Y" (0) "+ShiftLeft +Y",
  .apply "-Y" (0) "-Y",
  .apply "-ShiftLeft" (0) "-ShiftLeft"])

-- Not in output #2
#guard ok (runStage "\n    A >> S !S\n    B >> R{T !T}\n  " true [
  .apply "+A" (0) "+S -S",
  .apply "-A" (0) "",
  .clear true,
  .apply "+B" (0) "+R +T -T -R",
  .apply "-B" (0) "",
  .clear true])

-- Not Any in output
#guard ok (runStage "\n    Shift    >> Shift\n    Shift{X} >> !Any 1\n  " true [
  .apply "+ShiftLeft" (0) "+ShiftLeft",
  .seq "#ShiftLeft",
  .apply "+X" (0) "-ShiftLeft +1",
  .seq "#ShiftLeft #X",
  .apply "+X" (0) "-1 +1",
  .apply "+X" (0) "-1 +1",
  .apply "-X" (0) "-1",
  .apply "-ShiftLeft" (0) "",
  .clear true,
  .apply "+ShiftLeft" (0) "+ShiftLeft",
  .apply "+X" (0) "-ShiftLeft +1",
  .apply "-X" (0) "-1",
  .apply "+X" (0) "+1",
  .apply "-X" (0) "-1",
  .apply "+Y" (0) "+ShiftLeft +Y",
  .apply "-Y" (0) "-Y",
  .apply "-ShiftLeft" (0) "-ShiftLeft"])

-- Not Any with ContextActive
#guard ok (runStage "\n    ContextActive >> R ^ S\n    A             >> Virtual1\n    B             >> !Any T\n  " false [
  .size 1,
  .setActive [0] (some "+R -R"),
  .apply "+A" (0) "+Virtual1",
  .apply "+Virtual1" (0) "",
  .apply "-A" (0) "-Virtual1",
  .apply "+ShiftLeft" (0) "+ShiftLeft",
  .apply "+B" (0) "-ShiftLeft +T",
  .apply "-B" (0) "-T",
  .apply "+C" (0) "+ShiftLeft +C",
  .apply "-C" (0) "-C"])

-- Not in middle of output
#guard ok (runStage "\n    Shift    >> Shift\n    Shift{X} >> 2 !Shift 1\n  " true [
  .apply "+ShiftLeft" (0) "+ShiftLeft",
  .seq "#ShiftLeft",
  .apply "+X" (0) "+2 -ShiftLeft +1",
  .seq "#ShiftLeft #X",
  .apply "+X" (0) "+ShiftLeft -2 +2 -ShiftLeft -1 +1",
  .apply "+X" (0) "+ShiftLeft -2 +2 -ShiftLeft -1 +1",
  .apply "-X" (0) "-1 -2",
  .apply "-ShiftLeft" (0) "",
  .clear true,
  .apply "+ShiftLeft" (0) "+ShiftLeft",
  .apply "+X" (0) "+2 -ShiftLeft +1",
  .apply "-X" (0) "-1 -2",
  .apply "+X" (0) "+ShiftLeft +2 -ShiftLeft +1",
  .apply "-X" (0) "-1 -2",
  .apply "+Y" (0) "+ShiftLeft +Y",
  .apply "-Y" (0) "-Y",
  .apply "-ShiftLeft" (0) "-ShiftLeft"])

-- Toggle Virtual
#guard ok (runStage "\n    ScrollLock  >> Virtual1 X Virtual2\n    Virtual1{A} >> 1\n    Virtual2{B} >> 2\n  " true [
  .apply "+A" (0) "+A",
  .apply "-A" (0) "-A",
  .apply "+B" (0) "+B",
  .apply "-B" (0) "-B",
  .apply "+ScrollLock" (0) "+Virtual1 -Virtual1 +X -X +Virtual2 -Virtual2",
  .apply "+Virtual1" (0) "",
  .apply "+Virtual2" (0) "",
  .apply "-ScrollLock" (0) "",
  .seq "#Virtual1 #Virtual2",
  .apply "+A" (0) "+1",
  .apply "-A" (0) "-1",
  .apply "+B" (0) "+2",
  .apply "-B" (0) "-2",
  .apply "+ScrollLock" (0) "+Virtual1 -Virtual1 +X -X +Virtual2 -Virtual2",
  .apply "-Virtual1" (0) "",
  .apply "-Virtual2" (0) "",
  .apply "-ScrollLock" (0) "",
  .clear true,
  .apply "+A" (0) "+A",
  .apply "-A" (0) "-A",
  .apply "+B" (0) "+B",
  .apply "-B" (0) "-B"])

-- Not Virtual
#guard ok (runStage "\n    A >> Virtual1\n    B >> !Virtual1\n    C >> !Virtual1 Virtual1\n    Virtual1{X} >> Y\n  " true [
  .apply "+X" (0) "+X",
  .apply "-X" (0) "-X",
  .clear true,
  .apply "+A" (0) "+Virtual1",
  .apply "+Virtual1" (0) "",
  .apply "-A" (0) "-Virtual1",
  .apply "+Y" (0) "+Y",
  .apply "-Y" (0) "-Y",
  .apply "+B" (0) "+Virtual1",
  .apply "-Virtual1" (0) "",
  .apply "-B" (0) "-Virtual1",
  .apply "+X" (0) "+X",
  .apply "-X" (0) "-X",
  .apply "+B" (0) "",
  .apply "-B" (0) "",
  .apply "+X" (0) "+X",
  .apply "-X" (0) "-X",
  .clear true,
  .apply "+C" (0) "+Virtual1",
  .apply "+Virtual1" (0) "",
  .apply "-C" (0) "-Virtual1",
  .apply "+Y" (0) "+Y",
  .apply "-Y" (0) "-Y",
  .apply "+C" (0) "+Virtual1 +Virtual1",
  .apply "-Virtual1 +Virtual1" (0) "",
  .apply "-C" (0) "-Virtual1",
  .apply "+Y" (0) "+Y",
  .apply "-Y" (0) "-Y"])

-- Press already pressed
#guard ok (runStage "\n    Shift >> Shift\n    Shift{Quote} >> Shift{2}\n  " true [
  .apply "+ShiftLeft" (0) "+ShiftLeft",
  .apply "+Quote" (0) "+2 -2",
  .apply "+Quote" (0) "+2 -2",
  .apply "-Quote" (0) "",
  .apply "+G" (0) "+G",
  .apply "-G" (0) "-G",
  .apply "-ShiftLeft" (0) "-ShiftLeft"])

-- Press already pressed, with Not
#guard ok (runStage "\n    Shift    >> Shift\n    Shift{X} >> !Shift 1\n    Shift{Y} >> 1\n  " true [
  .apply "+ShiftLeft" (0) "+ShiftLeft",
  .seq "#ShiftLeft",
  .apply "+X" (0) "-ShiftLeft +1",
  .seq "#ShiftLeft #X",
  .apply "+Y" (0) "+ShiftLeft -1 +1",
  .apply "-Y" (0) "",
  .apply "-X" (0) "-1",
  .apply "-ShiftLeft" (0) "-ShiftLeft",
  .clear true])

-- Press already pressed, with Not 2
#guard ok (runStage "\n  Shift >> Shift\n  Shift{Comma}  >> !Shift IntlBackslash   # <\n  Shift{Period} >> Shift{IntlBackslash}   # >\n  " true [
  .apply "+ShiftLeft" (0) "+ShiftLeft",
  .apply "+Period" (0) "+IntlBackslash -IntlBackslash",
  .apply "-Period" (0) "",
  .apply "-ShiftLeft" (0) "-ShiftLeft",
  .apply "+ShiftLeft" (0) "+ShiftLeft",
  .apply "+Comma" (0) "-ShiftLeft +IntlBackslash",
  .apply "-Comma" (0) "-IntlBackslash",
  .apply "-ShiftLeft" (0) "",
  .apply "+ShiftLeft" (0) "+ShiftLeft",
  .apply "+Comma" (0) "-ShiftLeft +IntlBackslash",
  .apply "+Period" (0) "+ShiftLeft -IntlBackslash +IntlBackslash -IntlBackslash -ShiftLeft",
  .apply "-Comma" (0) "",
  .apply "-Period" (0) "",
  .apply "+Comma" (0) "+IntlBackslash",
  .apply "+Period" (0) "+ShiftLeft -IntlBackslash +IntlBackslash -IntlBackslash -ShiftLeft",
  .apply "-Comma" (0) "",
  .apply "-Period" (0) "",
  .apply "-ShiftLeft" (0) ""])

-- Complex modifier - ordered
#guard ok (runStage "\n    Control >> Control\n    Control{W{I}} >> A\n  " true [
  .apply "+W" (0) "+W",
  .apply "-W" (0) "-W",
  .apply "+ControlLeft" (0) "+ControlLeft",
  .apply "+W" (0) "",
  .apply "+I" (0) "+A",
  .apply "-I" (0) "-A",
  .apply "-W" (0) "",
  .apply "+I" (0) "+I",
  .apply "-I" (0) "-I",
  .apply "-ControlLeft" (0) "-ControlLeft",
  .apply "+W" (0) "+W",
  .apply "+ControlLeft" (0) "+ControlLeft",
  .apply "+I" (0) "+I",
  .apply "-I" (0) "-I",
  .apply "-W" (0) "-W",
  .apply "-ControlLeft" (0) "-ControlLeft"])

-- Complex modifier - unordered
#guard ok (runStage "\n    Shift   >> Shift\n    Control >> Control\n    (Control Shift){I} >> A\n  " true [
  .apply "+ShiftLeft" (0) "+ShiftLeft",
  .apply "-ShiftLeft" (0) "-ShiftLeft",
  .apply "+ControlLeft" (0) "+ControlLeft",
  .apply "+ShiftLeft" (0) "+ShiftLeft",
  .seq "#ControlLeft #ShiftLeft",
  .apply "+I" (0) "+A",
  .apply "-I" (0) "-A",
  .apply "-ShiftLeft" (0) "-ShiftLeft",
  .seq "#ControlLeft",
  .apply "+I" (0) "+I",
  .apply "-I" (0) "-I",
  .apply "-ControlLeft" (0) "-ControlLeft",
  .clear true,
  .apply "+ShiftLeft" (0) "+ShiftLeft",
  .apply "+ControlLeft" (0) "+ControlLeft",
  .seq "#ShiftLeft #ControlLeft",
  .apply "+I" (0) "+A",
  .apply "-I" (0) "-A",
  .apply "-ControlLeft" (0) "-ControlLeft",
  .apply "-ShiftLeft" (0) "-ShiftLeft",
  .clear true])

-- Might match, then no match or match
#guard ok (runStage "\n    D    >> 0\n    A{B} >> 1\n    B    >> 2\n    C    >> 3\n  " true [
  .apply "+A" (0) "",
  .apply "-A" (0) "+A -A",
  .apply "+A" (0) "",
  .apply "+X" (0) "+A +X",
  .apply "-A" (0) "-A",
  .apply "+A" (0) "",
  .apply "+D" (0) "+A +0",
  .apply "-D" (0) "-0",
  .apply "-A" (0) "-A",
  .apply "+A" (0) "",
  .apply "+C" (0) "+A +3",
  .apply "-C" (0) "-3",
  .apply "-A" (0) "-A",
  .apply "+A" (0) "",
  .apply "+B" (0) "+1",
  .apply "-B" (0) "-1",
  .apply "+B" (0) "+1",
  .apply "-B" (0) "-1",
  .apply "-A" (0) "",
  .apply "+B" (0) "+2",
  .apply "-B" (0) "-2"])

-- Keyrepeat might match
#guard ok (runStage "\n    Space{C} >> Control{C}\n  " true [
  .apply "+Space" (0) "",
  .apply "+Space" (0) "",
  .apply "+C" (0) "+ControlLeft +C -C -ControlLeft",
  .apply "+C" (0) "+ControlLeft +C -C -ControlLeft",
  .apply "-C" (0) "",
  .apply "-Space" (0) "",
  .apply "+Space" (0) "",
  .apply "+Space" (0) "",
  .apply "+D" (0) "+Space +D",
  .apply "-D" (0) "-D",
  .apply "-Space" (0) "-Space",
  .apply "+Space" (0) "",
  .apply "+Space" (0) "",
  .apply "-Space" (0) "+Space -Space"])

-- Might match problem
#guard ok (runStage "\n    Space{C}             >> Control{C}\n    IntlBackslash{Space} >> Space\n  " true [
  .apply "+IntlBackslash" (0) "",
  .apply "+Space" (0) "+Space",
  .apply "+Space" (0) "",
  .apply "+Space" (0) "",
  .apply "-Space" (0) "+Space -Space",
  .apply "-IntlBackslash" (0) ""])

-- Any key
#guard ok (runStage "\n    Meta >> Meta\n    Meta{Any} >> Any\n    A >> B\n    E >> F\n\n    K >> Any S\n  " true [
  .apply "+A" (0) "+B",
  .apply "-A" (0) "-B",
  .apply "+E" (0) "+F",
  .apply "-E" (0) "-F",
  .apply "+H" (0) "+H",
  .apply "-H" (0) "-H",
  .clear true,
  .apply "+MetaLeft" (0) "+MetaLeft",
  .apply "+A" (0) "+A",
  .apply "+E" (0) "+E",
  .apply "+H" (0) "+H",
  .apply "-A" (0) "-A",
  .apply "-E" (0) "-E",
  .apply "-H" (0) "-H",
  .apply "-MetaLeft" (0) "-MetaLeft",
  .clear true,
  .apply "+K" (0) "+S -S",
  .apply "-K" (0) "",
  .clear true])

-- Not Any checks previously matched
#guard ok (runStage "\n    A{X !X}     >> Meta{X}\n    B{Any !Any} >> Meta{Any}\n  " true [
  .apply "+A" (0) "",
  .apply "+X" (0) "",
  .apply "-X" (0) "+MetaLeft +X -X -MetaLeft",
  .apply "-A" (0) "",
  .clear true,
  .apply "+A" (0) "",
  .apply "+X" (0) "",
  .apply "-A" (0) "+A +X -A",
  .apply "-X" (0) "-X",
  .clear true,
  .apply "+A" (0) "",
  .apply "-A" (0) "+A -A",
  .clear true,
  .apply "+B" (0) "",
  .apply "+R" (0) "",
  .apply "-R" (0) "+MetaLeft +R -R -MetaLeft",
  .apply "-B" (0) "",
  .clear true,
  .apply "+B" (0) "",
  .apply "+R" (0) "",
  .apply "-B" (0) "+B +R -B",
  .apply "-R" (0) "-R",
  .clear true,
  .apply "+B" (0) "",
  .apply "-B" (0) "+B -B",
  .clear true])

-- Any key might match
#guard ok (runStage "\n    L Any >> E{Any}\n    M Any N >> F{Any}\n    O Any P >> G{Any Any}\n    Q Any Any R >> H{Any Any}\n  " true [
  .apply "+L" (0) "",
  .apply "+Z" (0) "+E +Z -Z -E",
  .apply "+Z" (0) "+E +Z -Z -E",
  .apply "-Z" (0) "",
  .apply "-L" (0) "",
  .clear true,
  .apply "+M" (0) "",
  .apply "+Z" (0) "",
  .apply "+N" (0) "+F +Z -Z -F",
  .apply "-N" (0) "",
  .apply "-Z" (0) "",
  .apply "-M" (0) "",
  .clear true,
  .apply "+M" (0) "",
  .apply "+Z" (0) "",
  .apply "-Z" (0) "",
  .apply "+N" (0) "+F +Z -Z -F",
  .apply "-N" (0) "",
  .apply "-M" (0) "",
  .clear true,
  .apply "+O" (0) "",
  .apply "+Z" (0) "",
  .apply "-Z" (0) "",
  .apply "+P" (0) "+G +Z -Z +Z -Z -G",
  .apply "-P" (0) "",
  .apply "-O" (0) "",
  .clear true,
  .apply "+Q" (0) "",
  .apply "+Z" (0) "",
  .apply "-Z" (0) "",
  .apply "+Y" (0) "",
  .apply "-Y" (0) "",
  .apply "+R" (0) "+H +Z +Y -Z -Y +Z +Y -Z -Y -H",
  .apply "-R" (0) "",
  .apply "-Q" (0) "",
  .clear true])

-- Output on release
#guard ok (runStage "\n    A  >>  X ^ Y\n    MetaLeft{C} >> MetaLeft{R} ^ C M\n    B !B  >>  X ^ Y\n  " true [
  .apply "+A" (0) "+X -X",
  .apply "+A" (0) "",
  .apply "-A" (0) "+Y -Y",
  .clear true,
  .apply "+MetaLeft" (0) "",
  .apply "+C" (0) "+MetaLeft +R -R -MetaLeft",
  .apply "+C" (0) "",
  .apply "+C" (0) "",
  .apply "-C" (0) "+C -C +M -M",
  .apply "-MetaLeft" (0) "",
  .clear true,
  .apply "+B" (0) "",
  .apply "+B" (0) "",
  .apply "-B" (0) "+X -X +Y -Y",
  .clear true])

-- Output on release at once
#guard ok (runStage "\n    A{B{C}} >> Z\n    A{B}    >> X ^ Y\n  " true [
  .apply "+A" (0) "",
  .apply "+B" (0) "",
  .apply "+C" (0) "+Z",
  .apply "-A" (0) "",
  .apply "-B" (0) "",
  .apply "-C" (0) "-Z",
  .clear true,
  .apply "+A" (0) "",
  .apply "+B" (0) "",
  .apply "-B" (0) "+X -X +Y -Y",
  .apply "-A" (0) "",
  .clear true])

-- Interleaving output on release
#guard ok (runStage "\n    ButtonForward >> U ^ M\n    ButtonBack    >> N ^ P\n  " true [
  .apply "+ButtonForward" (0) "+U -U",
  .apply "+ButtonForward" (0) "",
  .apply "-ButtonForward" (0) "+M -M",
  .clear true,
  .apply "+ButtonForward" (0) "+U -U",
  .apply "+ButtonForward" (0) "",
  .apply "+A" (0) "+A",
  .apply "-A" (0) "-A",
  .apply "-ButtonForward" (0) "+M -M",
  .clear true,
  .apply "+ButtonForward" (0) "+U -U",
  .apply "+ButtonForward" (0) "",
  .apply "+ButtonBack" (0) "+N -N",
  .apply "+ButtonBack" (0) "",
  .apply "-ButtonForward" (0) "+M -M",
  .apply "-ButtonBack" (0) "+P -P",
  .clear true])

-- Output on release toggle virtual
#guard ok (runStage "\n    MetaLeft       >> Virtual1 ^ Virtual1\n    Virtual1{A}    >> X\n    !Virtual1 A    >> Y\n  " true [
  .apply "+A" (0) "+Y",
  .apply "+A" (0) "+Y",
  .apply "-A" (0) "-Y",
  .apply "+MetaLeft" (0) "+Virtual1 -Virtual1",
  .apply "+Virtual1" (0) "",
  .apply "+MetaLeft" (0) "",
  .seq "#MetaLeft #Virtual1",
  .apply "+A" (0) "+X",
  .apply "+A" (0) "+X",
  .apply "-A" (0) "-X",
  .apply "-MetaLeft" (0) "+Virtual1 -Virtual1",
  .apply "-Virtual1" (0) "",
  .seq "",
  .apply "+A" (0) "+Y",
  .apply "+A" (0) "+Y",
  .apply "-A" (0) "-Y",
  .clear true])

-- Output on release with timeout
#guard ok (runStage "\n    Escape{250ms}  >>  X ^ Y\n  " true [
  .apply "+Escape" (0) "-250ms",
  .reply 123 "+Escape",
  .apply "-Escape" (0) "-Escape",
  .clear true,
  .apply "+Escape" (0) "-250ms",
  .reply 250 "+X -X",
  .apply "-Escape" (0) "+Y -Y"])

-- Cancelling output on release
#guard ok (runStage "\n    ButtonForward  >> $(system command 1) ^ $(system command 2)\n\n    [title = \"SomeApp\"]\n    ButtonMiddle >> ButtonLeft ^ M\n  " true [
  .setActive [0, 1] none,
  .apply "+ButtonMiddle" (0) "+ButtonLeft -ButtonLeft",
  .apply "+ButtonMiddle" (0) "",
  .apply "-ButtonMiddle" (0) "+M -M",
  .clear true,
  .apply "+ButtonMiddle" (0) "+ButtonLeft -ButtonLeft",
  .apply "+ButtonMiddle" (0) "",
  .setActive [0] none,
  .apply "-ButtonMiddle" (0) "",
  .clear true,
  .setActive [0, 1] none,
  .apply "+ButtonForward" (0) "+Action0",
  .apply "+ButtonForward" (0) "",
  .setActive [0] none,
  .apply "-ButtonForward" (0) "+Action1 -Action1 -Action0",
  .clear true])

-- System context
#guard ok (runStage "\n    A >> commandA\n    B >> commandB\n\n    [system=\"Linux\"]\n    commandA >> E\n\n    [system=\"Windows\"]\n    commandA >> F\n\n    [system=\"Windows\"]\n    commandB >> H\n\n    [system=\"Linux\"]\n    commandB >> G\n  " true [
  .size 3,
  .apply "+A -A" (0) "+E -E",
  .apply "+B -B" (0) "+G -G"])

-- System context - partially mapped
#guard ok (runStage "\n    # no mapping in other system\n    A >> commandLinux\n    B >> commandWindows\n    C >> commandLinuxDefault\n    D >> commandWindowsDefault\n\n    commandLinuxDefault >> I\n    commandWindowsDefault >> J\n\n    [system=\"Linux\"]\n    commandLinux >> E\n    commandLinuxDefault >> F\n\n    [system=\"Windows\"]\n    commandWindows >> G\n    commandWindowsDefault >> H\n  " true [
  .size 2,
  .apply "+A -A" (0) "+E -E",
  .apply "+B -B" (0) "+B -B",
  .apply "+C -C" (0) "+F -F",
  .apply "+D -D" (0) "+J -J"])

-- Mapping sequence in context
#guard ok (runStage "\n    R >> R\n\n    [title=\"Firefox\"]\n    A >> B\n    R >> U\n    X >> Y\n\n    [title=\"Konsole\"]\n    A >> C\n    R >> V\n    X >> Z\n\n    [system=\"Linux\"]\n    A >> E\n\n    [system=\"Windows\"]\n    A >> F\n  " true [
  .size 4,
  .setActive [0, 3] none,
  .apply "+A -A" (0) "+E -E",
  .apply "+R -R" (0) "+R -R",
  .apply "+X -X" (0) "+X -X",
  .setActive [0, 1, 3] none,
  .apply "+A -A" (0) "+B -B",
  .apply "+R -R" (0) "+R -R",
  .apply "+X -X" (0) "+Y -Y",
  .setActive [0, 2, 3] none,
  .apply "+A -A" (0) "+C -C",
  .apply "+R -R" (0) "+R -R",
  .apply "+X -X" (0) "+Z -Z"])

-- Mapping sequence in context - comparison
#guard ok (runStage "\n    A >> command\n    R >> command2\n    command2 >> R\n    X >> command3\n\n    [system=\"Linux\"]\n    command >> E\n\n    [system=\"Windows\"]\n    command >> F\n\n    [title=\"Firefox\"]\n    command >> B\n    command2 >> U\n    command3 >> Y\n\n    [title=\"Konsole\"]\n    command >> C\n    command2 >> V\n    command3 >> Z\n  " true [
  .size 4,
  .setActive [0, 1] none,
  .apply "+A -A" (0) "+E -E",
  .apply "+R -R" (0) "+R -R",
  .apply "+X -X" (0) "+X -X",
  .setActive [0, 1, 2] none,
  .apply "+A -A" (0) "+B -B",
  .apply "+R -R" (0) "+U -U",
  .apply "+X -X" (0) "+Y -Y",
  .setActive [0, 1, 3] none,
  .apply "+A -A" (0) "+C -C",
  .apply "+R -R" (0) "+V -V",
  .apply "+X -X" (0) "+Z -Z"])

-- Restore default context
#guard ok (runStage "\n    [title=\"AnyDesk\"]\n    Any >> Any\n\n    [default]\n    R >> R\n\n    [title=\"Firefox\"]\n    A >> B\n    R >> U\n    X >> Y\n\n    [title=\"Konsole\"]\n    A >> C\n    R >> V\n    X >> Z\n\n    [system=\"Linux\"]\n    A >> E\n\n    [system=\"Windows\"]\n    A >> F\n  " true [
  .size 5,
  .setActive [1, 4] none,
  .apply "+A -A" (0) "+E -E",
  .apply "+R -R" (0) "+R -R",
  .apply "+X -X" (0) "+X -X",
  .setActive [1, 2, 4] none,
  .apply "+A -A" (0) "+B -B",
  .apply "+R -R" (0) "+R -R",
  .apply "+X -X" (0) "+Y -Y",
  .setActive [1, 3, 4] none,
  .apply "+A -A" (0) "+C -C",
  .apply "+R -R" (0) "+R -R",
  .apply "+X -X" (0) "+Z -Z",
  .setActive [0, 0, 1, 4] none,
  .apply "+A -A" (0) "+A -A",
  .apply "+R -R" (0) "+R -R",
  .apply "+X -X" (0) "+X -X"])

-- Context with modifier filter
#guard ok (runStage "\n    [default]\n    A >> command\n    B >> Virtual1\n  \n    [modifier=\"!Virtual1\"]\n    command >> Z\n    \n    [modifier=\"Virtual1 Shift\"] # adds one implicit fallthrough context\n    command >> W\n  \n    [title=\"Firefox\"]\n    command >> X\n    \n    [title=\"Firefox\" modifier=\"ShiftLeft\"]\n    command >> Y\n  " true [
  .size 6,
  .setActive [0, 1, 2, 3] none,
  .apply "+A -A" (0) "+Z -Z",
  .clear true,
  .apply "+B -B" (0) "+Virtual1 -Virtual1",
  .apply "+Virtual1" (0) "",
  .apply "+A -A" (0) "+A -A",
  .apply "+ShiftLeft" (0) "+ShiftLeft",
  .apply "+A -A" (0) "+W -W",
  .apply "-ShiftLeft" (0) "-ShiftLeft",
  .apply "+ShiftRight" (0) "+ShiftRight",
  .apply "+A -A" (0) "+W -W",
  .apply "-ShiftRight" (0) "-ShiftRight",
  .apply "+B -B" (0) "+Virtual1 -Virtual1",
  .apply "-Virtual1" (0) "",
  .clear true,
  .setActive [0, 1, 2, 3, 4, 5] none,
  .apply "+A -A" (0) "+X -X",
  .clear true,
  .apply "+ShiftLeft" (0) "+ShiftLeft",
  .apply "+A" (0) "+Y",
  .apply "-A" (0) "-Y",
  .apply "-ShiftLeft" (0) "-ShiftLeft",
  .clear true])

-- Context with modifier filter #2
#guard ok (runStage "\n    [modifier='A']\n    E >> F\n\n    [default]\n    A >> B\n  " true [
  .size 2,
  .apply "+A -A" (0) "+B -B",
  .apply "+E -E" (0) "+E -E",
  .apply "+A +E -E -A" (0) "+B +F -F -B",
  .clear true])

-- Context with modifier filter and ContextActive mapping
#guard ok (runStage "\n    [default]\n    Virtual1{ U } >> R\n    Virtual2{ U } >> S\n    U >> V\n\n    [modifier=\"A\"]\n    ContextActive >> X\n\n    [modifier=\"B\"]\n    ContextActive >> Virtual1\n\n    [modifier=\"C\"]\n    U >> W\n\n    [modifier=\"D\"]\n    ContextActive >> Virtual2 ^ Virtual2\n  " false [
  .size 5,
  .setActive [0, 1, 2, 3, 4] (some ""),
  .apply "+A" (0) "+X +A",
  .apply "-A" (0) "-A -X",
  .apply "+U" (0) "+V",
  .apply "-U" (0) "-V",
  .apply "+B" (0) "+Virtual1 +B",
  .apply "+Virtual1" (0) "",
  .apply "-B" (0) "-B -Virtual1",
  .apply "+U" (0) "+R",
  .apply "-U" (0) "-R",
  .apply "+B" (0) "+Virtual1 +B",
  .apply "-Virtual1" (0) "",
  .apply "-B" (0) "-B -Virtual1",
  .apply "+U" (0) "+V",
  .apply "-U" (0) "-V",
  .apply "+D" (0) "+Virtual2 -Virtual2 +D",
  .apply "+Virtual2" (0) "",
  .apply "+U" (0) "+S",
  .apply "-U" (0) "-S",
  .apply "-D" (0) "-D +Virtual2 -Virtual2",
  .apply "-Virtual2" (0) "",
  .apply "+U" (0) "+V",
  .apply "-U" (0) "-V",
  .clear true])

-- Context with modifier filter and string typing
#guard ok (runStage "\n    [modifier = Virtual1]\n    A >> \"X\"\n\n    [default]\n    ContextActive >> Virtual1\n  " false [
  .size 2,
  .setActive [0, 1] (some "+Virtual1"),
  .apply "+Virtual1" (0) "",
  .apply "+A" (0) "+ShiftLeft +X -X -ShiftLeft",
  .apply "+A" (0) "+ShiftLeft +X -X -ShiftLeft",
  .apply "-A" (0) "",
  .apply "+A" (0) "+ShiftLeft +X -X -ShiftLeft",
  .apply "-A" (0) "",
  .apply "+B" (0) "+B",
  .apply "-B" (0) "-B",
  .apply "+A" (0) "+ShiftLeft +X -X -ShiftLeft",
  .apply "-A" (0) ""])

-- Context with modifier filter - layer switch
#guard ok (runStage "\n    ContextActive >> Virtual1\n\n    [modifier = Virtual1]\n    A >> Virtual1 Virtual2\n    B >> X\n\n    [modifier = Virtual2]\n    A >> Virtual2 Virtual3\n    B >> Y\n\n    [modifier = Virtual3]\n    A >> Virtual3 Virtual1\n    B >> Z\n  " false [
  .size 4,
  .setActive [0, 1, 2, 3] (some "+Virtual1"),
  .apply "+Virtual1" (0) "",
  .apply "+B" (0) "+X",
  .apply "-B" (0) "-X",
  .apply "+A" (0) "+Virtual1 -Virtual1 +Virtual2 -Virtual2",
  .apply "-Virtual1 +Virtual2" (0) "",
  .apply "-A" (0) "",
  .apply "+B" (0) "+Y",
  .apply "-B" (0) "-Y"])

-- Initially active contexts and ContextActive mapping
#guard ok (runStage "\n    [default]\n    ContextActive >> Y\n\n    [modifier=\"!A\"]\n    ContextActive >> X\n  " false [
  .setActive [0, 1] (some "+Y +X"),
  .apply "+A" (0) "-X +A",
  .apply "-A" (0) "-A +X"])

-- Initially active contexts and ContextActive mapping #2
#guard ok (runStage "\n    [default]\n    ContextActive >> Y ^ Z\n\n    [modifier=\"!A\"]\n    ContextActive >> X ^ W\n  " false [
  .setActive [0, 1] (some "+Y -Y +X -X"),
  .apply "+A" (0) "+W -W +A",
  .apply "-A" (0) "-A +X -X"])

-- Focusing window with ContextActive mapping
#guard ok (runStage "\n    [title=\"Thunar\"]\n    ContextActive >> A ^ B\n\n    [title=\"Firefox\"]\n    ContextActive >> C ^ D\n  " false [
  .size 2,
  .setActive [0] (some "+A -A"),
  .setActive [1] (some "+B -B +C -C"),
  .setActive [0] (some "+D -D +A -A"),
  .setActive [] (some "+B -B"),
  .clear true])

-- Fallthrough contexts
#guard ok (runStage "\n    [title=\"Thunar\"]\n    [class=\"thunar\"]\n    A >> X\n\n    [title=\"Firefox\"]\n    [system=\"Linux\"]   # two of\n    [system=\"Windows\"] # three\n    [system=\"MacOS\"]   # are removed\n    B >> Y\n  " false [
  .size 4,
  .setActive [0] (some ""),
  .apply "+A +B -A -B" (0) "+X +B -X -B",
  .setActive [1] (some ""),
  .apply "+A +B -A -B" (0) "+X +B -X -B",
  .setActive [2] (some ""),
  .apply "+A +B -A -B" (0) "+A +Y -A -Y",
  .setActive [3] (some ""),
  .apply "+A +B -A -B" (0) "+A +Y -A -Y",
  .clear true])

-- Trigger action
#guard ok (runStage "\n    A >> A $(system command 1)\n    B >> $(system command 2) B\n    C >> E{F} $(system (command) 3) G{H}\n    D >> ^ $(system command 4)\n    E >> $(system command 5) ^\n  " true [
  .apply "+A" (0) "+A -A +Action0",
  .apply "-A" (0) "-Action0",
  .apply "+B" (0) "+Action1 +B",
  .apply "-B" (0) "-B -Action1",
  .apply "+C" (0) "+E +F -F -E +Action2 +G +H -H -G",
  .apply "-C" (0) "-Action2",
  .apply "+D" (0) "",
  .apply "+D" (0) "",
  .apply "-D" (0) "+Action3 -Action3",
  .apply "+E" (0) "+Action4",
  .apply "+E" (0) "",
  .apply "-E" (0) "-Action4",
  .clear true])

-- Release output with modifiers before next output
#guard ok (runStage "\n    A >> ShiftLeft{B}\n    S >> T\n  " true [
  .apply "+A" (0) "+ShiftLeft +B -B -ShiftLeft",
  .apply "+A" (0) "+ShiftLeft +B -B -ShiftLeft",
  .apply "-A" (0) "",
  .clear true,
  .apply "+A" (0) "+ShiftLeft +B -B -ShiftLeft",
  .apply "+C" (0) "+C",
  .apply "+C" (0) "+C",
  .apply "-C" (0) "-C",
  .apply "-A" (0) "",
  .clear true,
  .apply "+S" (0) "+T",
  .apply "+S" (0) "+T",
  .apply "+C" (0) "+C",
  .apply "+C" (0) "+C",
  .apply "-C" (0) "-C",
  .apply "-S" (0) "-T",
  .clear true,
  .apply "+ShiftLeft" (0) "+ShiftLeft",
  .apply "+A" (0) "+B -B",
  .apply "+A" (0) "+B -B",
  .apply "+C" (0) "+C",
  .apply "+C" (0) "+C",
  .apply "-A" (0) "",
  .apply "-C" (0) "-C",
  .apply "-ShiftLeft" (0) "-ShiftLeft",
  .clear true])

-- Old common modifier behaviour
#guard ok (runStage "\n    Alt = AltLeft\n\n    # used to be implicitly mapped\n    Shift   >> Shift\n    Control >> Control\n    Alt     >> Alt\n\n    Alt{W}  >> !Alt IntlBackslash\n    Alt{X}  >> !Alt Shift{IntlBackslash}\n  " true [
  .apply "+AltLeft" (0) "+AltLeft",
  .apply "+W" (0) "-AltLeft +IntlBackslash",
  .apply "-W" (0) "-IntlBackslash",
  .apply "-AltLeft" (0) "",
  .apply "+AltLeft" (0) "+AltLeft",
  .apply "+X" (0) "-AltLeft +ShiftLeft +IntlBackslash -IntlBackslash -ShiftLeft",
  .apply "-X" (0) "",
  .apply "-AltLeft" (0) ""])

-- New common modifier behaviour
#guard ok (runStage "\n    Alt = AltLeft\n    Shift         >> Shift\n    Control       >> Control\n    (Control Alt) >> !Control Alt   # Alt mouse modifier\n\n    Alt{W} >> IntlBackslash\n    Alt{X} >> Shift{IntlBackslash}\n  " true [
  .apply "+AltLeft" (0) "",
  .apply "+W" (0) "+IntlBackslash",
  .apply "-W" (0) "-IntlBackslash",
  .apply "-AltLeft" (0) "",
  .apply "+AltLeft" (0) "",
  .apply "+X" (0) "+ShiftLeft +IntlBackslash -IntlBackslash -ShiftLeft",
  .apply "-X" (0) "",
  .apply "-AltLeft" (0) "",
  .apply "+AltLeft" (0) "",
  .apply "+F" (0) "+AltLeft +F",
  .apply "-F" (0) "-F",
  .apply "-AltLeft" (0) "-AltLeft",
  .clear true,
  .apply "+AltLeft" (0) "",
  .apply "+ControlLeft" (0) "+AltLeft",
  .apply "-ControlLeft" (0) "",
  .apply "-AltLeft" (0) "-AltLeft",
  .clear true,
  .apply "+ControlLeft" (0) "+ControlLeft",
  .apply "+AltLeft" (0) "-ControlLeft +AltLeft",
  .apply "-ControlLeft" (0) "",
  .apply "-AltLeft" (0) "-AltLeft"])

-- Continue matching after failed might-match
#guard ok (runStage "\n    A{B{C}}   >> Z\n    A{B}      >> Y\n    A{D{E}}   >> W\n    A         >> X\n    D{F}      >> U\n  " true [
  .apply "+A" (0) "",
  .apply "-A" (0) "+X -X",
  .apply "+A" (0) "",
  .apply "+B" (0) "",
  .apply "-B" (0) "+Y -Y",
  .apply "-A" (0) "",
  .apply "+A" (0) "",
  .apply "+B" (0) "",
  .apply "+C" (0) "+Z",
  .apply "-C" (0) "-Z",
  .apply "-B" (0) "",
  .apply "-A" (0) "",
  .apply "+A" (0) "",
  .apply "+S" (0) "+X +S",
  .apply "-S" (0) "-S",
  .apply "-A" (0) "-X",
  .apply "+A" (0) "",
  .apply "+B" (0) "",
  .apply "+S" (0) "+Y +S",
  .apply "-S" (0) "-S",
  .apply "-B" (0) "-Y",
  .apply "-A" (0) "",
  .apply "+A" (0) "",
  .apply "+D" (0) "",
  .apply "+S" (0) "+X +D +S",
  .apply "-S" (0) "-S",
  .apply "-D" (0) "-D",
  .apply "-A" (0) "-X",
  .apply "+A" (0) "",
  .apply "+D" (0) "",
  .apply "+F" (0) "+X +U",
  .apply "-F" (0) "-U",
  .apply "-D" (0) "",
  .apply "-A" (0) "-X"])

-- Timeout Hold
#guard ok (runStage "\n    A{1000ms} >> X\n  " true [
  .apply "+A" (0) "-1000ms",
  .reply 271 "+A",
  .apply "+B" (0) "+B",
  .apply "-B" (0) "-B",
  .apply "-A" (0) "-A",
  .clear true,
  .apply "+A" (0) "-1000ms",
  .reply 1000 "+X",
  .apply "+A" (0) "-1000ms",
  .reply 1000 "+X",
  .apply "+A" (0) "-1000ms",
  .reply 271 "",
  .apply "-A" (0) "-X",
  .clear true,
  .apply "+ShiftLeft" (0) "+ShiftLeft",
  .apply "+A" (0) "-1000ms",
  .reply 271 "+A",
  .apply "-A" (0) "-A",
  .apply "-ShiftLeft" (0) "-ShiftLeft",
  .clear true,
  .apply "+ShiftLeft" (0) "+ShiftLeft",
  .apply "+A" (0) "-1000ms",
  .reply 271 "+A",
  .apply "-ShiftLeft" (0) "-ShiftLeft",
  .apply "-A" (0) "-A",
  .clear true])

-- Timeout Hold, Another mapping
#guard ok (runStage "\n    A{1000ms} >> X\n    A >> Z\n  " true [
  .apply "+A" (0) "-1000ms",
  .reply 271 "+Z",
  .apply "+B" (0) "+B",
  .apply "-B" (0) "-B",
  .apply "-A" (0) "-Z",
  .clear true,
  .apply "+A" (0) "-1000ms",
  .reply 1000 "+X",
  .apply "+A" (0) "-1000ms",
  .reply 1000 "+X",
  .apply "+A" (0) "-1000ms",
  .reply 271 "",
  .apply "-A" (0) "-X",
  .clear true,
  .apply "+A" (0) "-1000ms",
  .reply 271 "+Z",
  .apply "-A" (0) "-Z",
  .clear true])

-- Timeout
#guard ok (runStage "\n    A !A 1000ms >> X\n    E 1000ms >> Y\n  " true [
  .apply "+A" (0) "",
  .apply "+A" (0) "",
  .apply "+A" (0) "",
  .apply "-A" (0) "+1000ms",
  .apply "+B" (0) "+A -A +B",
  .apply "-B" (0) "-B",
  .clear true,
  .apply "+A" (0) "",
  .apply "+A" (0) "",
  .apply "+A" (0) "",
  .apply "-A" (0) "+1000ms",
  .reply 1000 "+X -X",
  .clear true,
  .apply "+E" (0) "+1000ms",
  .reply 999 "+E",
  .apply "+F" (0) "+F",
  .apply "-F" (0) "-F",
  .apply "-E" (0) "-E",
  .clear true,
  .apply "+E" (0) "+1000ms",
  .reply 999 "+E",
  .apply "-E" (0) "-E",
  .apply "+E" (0) "+1000ms",
  .reply 1000 "+Y",
  .apply "-E" (0) "-Y",
  .clear true,
  .apply "+E" (0) "+1000ms",
  .reply 1000 "+Y",
  .apply "-E" (0) "-Y",
  .clear true,
  .apply "+ShiftLeft" (0) "+ShiftLeft",
  .apply "+E" (0) "+1000ms",
  .reply 999 "+E",
  .apply "-ShiftLeft" (0) "-ShiftLeft",
  .apply "+F" (0) "+F",
  .apply "-F" (0) "-F",
  .apply "-E" (0) "-E",
  .clear true,
  .apply "+ShiftLeft" (0) "+ShiftLeft",
  .apply "+E" (0) "+1000ms",
  .reply 1000 "+Y",
  .apply "-ShiftLeft" (0) "-ShiftLeft",
  .apply "-E" (0) "-Y",
  .clear true])

-- Timeout Switch
#guard ok (runStage "\n    A{2000ms} >> X\n    A{1000ms} >> Y\n    A{500ms}  >> Z\n  " true [
  .apply "+A" (0) "-2000ms",
  .reply 2000 "+X",
  .apply "+A" (0) "-2000ms",
  .reply 2000 "+X",
  .apply "+A" (0) "-2000ms",
  .reply 1999 "",
  .apply "-A" (0) "-X",
  .clear true,
  .apply "+A" (0) "-2000ms",
  .reply 1999 "+Y",
  .apply "-A" (0) "-Y",
  .clear true,
  .apply "+A" (0) "-2000ms",
  .reply 1000 "+Y",
  .apply "-A" (0) "-Y",
  .clear true,
  .apply "+A" (0) "-2000ms",
  .reply 999 "+Z",
  .apply "-A" (0) "-Z",
  .clear true,
  .apply "+A" (0) "-2000ms",
  .reply 500 "+Z",
  .apply "-A" (0) "-Z",
  .clear true,
  .apply "+A" (0) "-2000ms",
  .reply 499 "+A",
  .apply "-A" (0) "-A",
  .clear true])

-- Timeout Sequence #1
#guard ok (runStage "\n    A{500ms} B >> X\n  " true [
  .apply "+A" (0) "-500ms",
  .apply "+A" (0) "",
  .reply 500 "",
  .apply "+A" (0) "",
  .apply "-A" (0) "",
  .apply "+B" (0) "+X",
  .apply "+B" (0) "+B",
  .apply "+B" (0) "+B",
  .apply "-B" (0) "-B -X",
  .clear true,
  .apply "+A" (0) "-500ms",
  .apply "+A" (0) "",
  .reply 300 "+A",
  .apply "-A" (0) "-A",
  .apply "+C" (0) "+C",
  .apply "+C" (0) "+C",
  .apply "-C" (0) "-C",
  .clear true,
  .apply "+A" (0) "-500ms",
  .reply 500 "",
  .apply "-A" (0) "",
  .apply "+C" (0) "+A -A +C",
  .apply "+C" (0) "+C",
  .apply "-C" (0) "-C",
  .clear true])

-- Timeout Sequence #2
#guard ok (runStage "\n    A !A 500ms B >> X\n    E 500ms F >> Y\n  " true [
  .apply "+A" (0) "",
  .apply "+A" (0) "",
  .apply "-A" (0) "+500ms",
  .reply 500 "",
  .apply "+B" (0) "+X",
  .apply "+B" (0) "+B",
  .apply "+B" (0) "+B",
  .apply "-B" (0) "-B -X",
  .clear true,
  .apply "+A" (0) "",
  .apply "-A" (0) "+500ms",
  .apply "+C" (0) "+A -A +C",
  .apply "+C" (0) "+C",
  .apply "-C" (0) "-C",
  .clear true,
  .apply "+A" (0) "",
  .apply "-A" (0) "+500ms",
  .reply 500 "",
  .apply "+C" (0) "+A -A +C",
  .apply "+C" (0) "+C",
  .apply "-C" (0) "-C",
  .clear true,
  .apply "+E" (0) "+500ms",
  .reply 500 "",
  .apply "-E" (0) "",
  .apply "+F" (0) "+Y",
  .apply "+F" (0) "+F",
  .apply "+F" (0) "+F",
  .apply "-F" (0) "-F -Y",
  .clear true,
  .apply "+E" (0) "+500ms",
  .reply 500 "",
  .apply "+F" (0) "+Y",
  .apply "+F" (0) "+Y",
  .apply "+F" (0) "+Y",
  .apply "-F" (0) "-Y",
  .apply "-E" (0) "",
  .clear true])

-- Ignore cancelled timeout
#guard ok (runStage "\n    Q{500ms} >> C\n    (Q W) >> A\n    Q   >> B\n  " true [
  .apply "+Q" (0) "-500ms",
  .reply 500 "+C",
  .apply "+Q" (0) "-500ms",
  .reply 500 "+C",
  .apply "+Q" (0) "-500ms",
  .reply 499 "",
  .apply "-Q" (0) "-C",
  .clear true,
  .apply "+Q" (0) "-500ms",
  .reply 499 "",
  .apply "-Q" (0) "+B -B",
  .clear true,
  .apply "+Q" (0) "-500ms",
  .reply 499 "",
  .apply "+W" (0) "+A",
  .apply "-W" (0) "-A",
  .apply "-Q" (0) "",
  .clear true,
  .apply "+W" (0) "",
  .apply "-W" (0) "+W -W",
  .clear true,
  .apply "+W" (0) "",
  .apply "+Z" (0) "+W +Z",
  .apply "-Z" (0) "-Z",
  .apply "-W" (0) "-W",
  .clear true,
  .apply "+W" (0) "",
  .apply "+Q" (0) "+A",
  .apply "-Q" (0) "",
  .apply "-W" (0) "-A",
  .apply "+W" (0) "",
  .apply "+Q" (0) "+A",
  .apply "-W" (0) "-A",
  .apply "-Q" (0) "",
  .clear true])

-- Cancelled sequence
#guard ok (runStage "\n    A S D >> W\n    A >> X\n    S >> Y\n    D >> Z\n  " true [
  .apply "+A" (0) "",
  .apply "+S" (0) "",
  .apply "-S" (0) "",
  .apply "+D" (0) "+W",
  .apply "-A" (0) "",
  .apply "-D" (0) "-W",
  .clear true,
  .apply "+A" (0) "",
  .apply "+S" (0) "",
  .apply "-S" (0) "",
  .apply "+R" (0) "+X +Y +R",
  .apply "-A" (0) "-X",
  .apply "-R" (0) "-R -Y",
  .clear true])

-- Cancelled group
#guard ok (runStage "\n    (A S D) >> W\n    A >> X\n    S >> Y\n    D >> Z\n  " true [
  .apply "+S" (0) "",
  .apply "+D" (0) "",
  .apply "+A" (0) "+W",
  .apply "-A" (0) "",
  .apply "-D" (0) "-W",
  .apply "-S" (0) "",
  .clear true,
  .apply "+S" (0) "",
  .apply "+D" (0) "",
  .apply "-D" (0) "+Y +Z -Z",
  .apply "-S" (0) "-Y",
  .clear true,
  .apply "+D" (0) "",
  .apply "+S" (0) "",
  .apply "-D" (0) "+Z +Y -Z",
  .apply "-S" (0) "-Y",
  .clear true])

-- Cancelled group timeout
#guard ok (runStage "\n    (A S){500ms} >> C\n    S >> R\n  " true [
  .apply "+A" (0) "",
  .apply "+S" (0) "-500ms",
  .reply 500 "+C",
  .apply "-A" (0) "",
  .apply "-S" (0) "-C",
  .clear true,
  .apply "+A" (0) "",
  .apply "+S" (0) "-500ms",
  .reply 499 "+A +R",
  .apply "-A" (0) "-A",
  .apply "-S" (0) "-R",
  .clear true,
  .apply "+S" (0) "",
  .apply "+A" (0) "-500ms",
  .reply 499 "+R +A",
  .apply "-A" (0) "-A -R",
  .apply "-S" (0) "",
  .clear true])

-- Not Timeout Hold
#guard ok (runStage "\n    A{!1000ms} >> X\n    A >> Y\n  " true [
  .apply "+A" (0) "?1000ms",
  .reply 999 "",
  .apply "-A" (0) "+X -X",
  .clear true,
  .apply "+A" (0) "?1000ms",
  .reply 1000 "+Y",
  .apply "+A" (0) "?1000ms",
  .reply 1000 "+Y",
  .apply "+A" (0) "?1000ms",
  .reply 271 "",
  .apply "-A" (0) "+Y -Y",
  .clear true,
  .apply "+A" (0) "?1000ms",
  .reply 271 "",
  .apply "+B" (0) "+Y +B",
  .apply "+B" (0) "+B",
  .apply "-B" (0) "-B",
  .apply "-A" (0) "-Y",
  .clear true])

-- Not Timeout Hold with ContextActive
#guard ok (runStage "\n    ContextActive >> \n    A{!1000ms} >> X\n  " false [
  .setActive [0] (some ""),
  .apply "+A" (0) "?1000ms",
  .reply 1000 "+A",
  .apply "+A" (0) "?1000ms",
  .reply 1000 "+A",
  .apply "+A" (0) "?1000ms",
  .reply 271 "",
  .apply "-A" (0) "+A -A",
  .clear true,
  .apply "+A" (0) "?1000ms",
  .reply 999 "",
  .apply "-A" (0) "+X -X",
  .clear true])

-- Not Timeout
#guard ok (runStage "\n    A !A !1000ms >> X\n    B !1000ms >> Y\n  " true [
  .apply "+A" (0) "",
  .apply "-A" (0) "!1000ms",
  .reply 999 "+X -X",
  .clear true,
  .apply "+A" (0) "",
  .apply "-A" (0) "!1000ms",
  .reply 1000 "+A -A",
  .clear true,
  .apply "+B" (0) "!1000ms",
  .reply 999 "+Y",
  .apply "-B" (0) "-Y",
  .clear true,
  .apply "+B" (0) "!1000ms",
  .reply 1000 "+B",
  .apply "-B" (0) "-B",
  .clear true])

-- Timeout Xcape
#guard ok (runStage "\n    ControlLeft{!500ms} >> Escape\n    ButtonLeft >> ButtonLeft\n  " true [
  .apply "+ControlLeft" (0) "?500ms",
  .reply 500 "+ControlLeft",
  .apply "+ControlLeft" (0) "?500ms",
  .reply 500 "+ControlLeft",
  .apply "+ControlLeft" (0) "?500ms",
  .reply 271 "",
  .apply "-ControlLeft" (0) "+ControlLeft -ControlLeft",
  .clear true,
  .apply "+ControlLeft" (0) "?500ms",
  .reply 271 "",
  .apply "-ControlLeft" (0) "+Escape -Escape",
  .clear true,
  .apply "+ControlLeft" (0) "?500ms",
  .reply 271 "",
  .apply "+C" (0) "+ControlLeft +C",
  .apply "-C" (0) "-C",
  .apply "-ControlLeft" (0) "-ControlLeft",
  .clear true,
  .apply "+ControlLeft" (0) "?500ms",
  .reply 500 "+ControlLeft",
  .apply "+ControlLeft" (0) "?500ms",
  .reply 271 "",
  .apply "+C" (0) "+ControlLeft +C",
  .apply "+C" (0) "+C",
  .apply "-C" (0) "-C",
  .apply "-ControlLeft" (0) "-ControlLeft",
  .clear true,
  .apply "+ControlLeft" (0) "?500ms",
  .reply 500 "+ControlLeft",
  .apply "+ControlLeft" (0) "?500ms",
  .reply 271 "",
  .apply "+ButtonLeft" (0) "+ControlLeft +ButtonLeft",
  .apply "-ButtonLeft" (0) "-ButtonLeft",
  .apply "+ControlLeft" (0) "?500ms",
  .reply 271 "",
  .apply "-ControlLeft" (0) "+ControlLeft -ControlLeft",
  .clear true,
  .apply "+ControlLeft" (0) "?500ms",
  .reply 271 "",
  .apply "+ButtonLeft" (0) "+ControlLeft +ButtonLeft",
  .apply "-ButtonLeft" (0) "-ButtonLeft",
  .apply "+ControlLeft" (0) "?500ms",
  .reply 271 "",
  .apply "-ControlLeft" (0) "+ControlLeft -ControlLeft",
  .clear true,
  .apply "+ControlLeft" (0) "?500ms",
  .reply 271 "",
  .apply "+ButtonLeft" (0) "+ControlLeft +ButtonLeft",
  .apply "-ButtonLeft" (0) "-ButtonLeft",
  .apply "-ControlLeft" (0) "-ControlLeft",
  .clear true])

-- Not Timeout with modifier
#guard ok (runStage "\n    Shift{A{!500ms}} >> X\n  " true [
  .apply "+ShiftLeft" (0) "",
  .apply "+A" (0) "?500ms",
  .reply 500 "+ShiftLeft +A",
  .apply "-A" (0) "-A",
  .apply "-ShiftLeft" (0) "-ShiftLeft",
  .clear true,
  .apply "+ShiftLeft" (0) "",
  .apply "+A" (0) "?500ms",
  .reply 499 "",
  .apply "-A" (0) "+X -X",
  .apply "-ShiftLeft" (0) "",
  .clear true,
  .apply "+ShiftLeft" (0) "",
  .apply "+A" (0) "?500ms",
  .reply 500 "+ShiftLeft +A",
  .apply "+A" (0) "?500ms",
  .reply 500 "+A",
  .apply "+A" (0) "?500ms",
  .reply 499 "",
  .apply "-A" (0) "+A -A",
  .apply "-ShiftLeft" (0) "-ShiftLeft",
  .clear true,
  .apply "+ShiftLeft" (0) "",
  .apply "+A" (0) "?500ms",
  .reply 500 "+ShiftLeft +A",
  .apply "+A" (0) "?500ms",
  .reply 499 "",
  .apply "-A" (0) "+A -A",
  .apply "+A" (0) "?500ms",
  .reply 499 "",
  .apply "-A" (0) "+X -X",
  .apply "+A" (0) "?500ms",
  .reply 499 "",
  .apply "-A" (0) "+X -X",
  .apply "-ShiftLeft" (0) "-ShiftLeft",
  .clear true])

-- Timeout MinMax
#guard ok (runStage "\n    A{500ms !500ms} >> B\n  " true [
  .apply "+A" (0) "-500ms",
  .reply 499 "+A",
  .apply "-A" (0) "-A",
  .apply "+A" (0) "-500ms",
  .reply 500 "?500ms",
  .reply 499 "",
  .apply "-A" (0) "+B -B",
  .apply "+A" (0) "-500ms",
  .reply 500 "?500ms",
  .reply 500 "+A ?500ms",
  .reply 271 "",
  .apply "-A" (0) "-A"])

-- Timeout Morse
#guard ok (runStage "\n    e = 500ms       # end\n    c = !500ms      # continue\n    s = X{!200ms}   # short\n    l = X{200ms} !X # long\n\n    s c l e         >> A\n    l c s c s c s e >> B\n    s c s c s e     >> C\n    l c s c s e     >> D\n    s e             >> E\n\n    X >> Y\n  " true [
  .apply "+X" (0) "?200ms",
  .reply 100 "",
  .apply "-X" (0) "!500ms",
  .reply 123 "",
  .apply "+X" (0) "-200ms",
  .reply 200 "",
  .apply "+X" (0) "",
  .apply "+X" (0) "",
  .apply "-X" (0) "+500ms",
  .reply 500 "+A -A",
  .clear true,
  .apply "+X" (0) "?200ms",
  .reply 200 "",
  .apply "+X" (0) "",
  .apply "+X" (0) "",
  .apply "-X" (0) "!500ms",
  .reply 500 "+Y -Y",
  .clear true,
  .apply "+X" (0) "?200ms",
  .reply 100 "",
  .apply "-X" (0) "!500ms",
  .reply 500 "+E -E",
  .clear true,
  .apply "+X" (0) "?200ms",
  .reply 200 "",
  .apply "+X" (0) "",
  .apply "+X" (0) "",
  .apply "-X" (0) "!500ms",
  .reply 123 "",
  .apply "+X" (0) "?200ms",
  .reply 200 "+Y",
  .apply "+X" (0) "",
  .apply "+X" (0) "",
  .apply "-X" (0) "!500ms -Y",
  .reply 500 "+Y -Y",
  .clear true,
  .apply "+X" (0) "?200ms",
  .reply 200 "",
  .apply "+X" (0) "",
  .apply "+X" (0) "",
  .apply "-X" (0) "!500ms",
  .reply 123 "",
  .apply "+X" (0) "?200ms",
  .reply 100 "",
  .apply "-X" (0) "!500ms",
  .reply 123 "",
  .apply "+X" (0) "?200ms",
  .reply 100 "",
  .apply "-X" (0) "!500ms",
  .reply 500 "+D -D",
  .clear true])

-- Output Timeout
#guard ok (runStage "\n    A >> X 1000ms Y\n    B >> Z 1000ms\n  " true [
  .apply "+A" (0) "+X -X +1000ms +Y -Y",
  .apply "-A" (0) "",
  .apply "+B" (0) "+Z -Z +1000ms",
  .apply "-B" (0) ""])

-- Explicit modifier
#guard ok (runStage "\n    Shift >> Shift\n    A >> !Shift E Shift{F}                # eF\n    B >> !Shift E Shift{F} E Shift{F}     # eFeF\n    C >> !Shift Shift{G} H                # Gh\n    D >> !Shift Shift{G} H Shift{G} H     # GhGh\n  " true [
  .apply "+ShiftLeft" (0) "+ShiftLeft",
  .apply "+A" (0) "-ShiftLeft +E -E +ShiftLeft +F -F -ShiftLeft",
  .apply "-A" (0) "",
  .apply "+A" (0) "+E -E +ShiftLeft +F -F -ShiftLeft",
  .apply "-A" (0) "",
  .apply "+R" (0) "+ShiftLeft +R",
  .apply "-R" (0) "-R",
  .apply "-ShiftLeft" (0) "-ShiftLeft",
  .clear true,
  .apply "+ShiftLeft" (0) "+ShiftLeft",
  .apply "+B" (0) "-ShiftLeft +E -E +ShiftLeft +F -F -ShiftLeft +E -E +ShiftLeft +F -F -ShiftLeft",
  .apply "-B" (0) "",
  .apply "+B" (0) "+E -E +ShiftLeft +F -F -ShiftLeft +E -E +ShiftLeft +F -F -ShiftLeft",
  .apply "-B" (0) "",
  .apply "-ShiftLeft" (0) "",
  .clear true,
  .apply "+ShiftLeft" (0) "+ShiftLeft",
  .apply "+C" (0) "+G -G -ShiftLeft +H -H",
  .apply "-C" (0) "",
  .apply "+C" (0) "+ShiftLeft +G -G -ShiftLeft +H -H",
  .apply "-C" (0) "",
  .apply "+R" (0) "+ShiftLeft +R",
  .apply "-R" (0) "-R",
  .apply "-ShiftLeft" (0) "-ShiftLeft",
  .clear true,
  .apply "+ShiftLeft" (0) "+ShiftLeft",
  .apply "+D" (0) "+G -G -ShiftLeft +H -H +ShiftLeft +G -G -ShiftLeft +H -H",
  .apply "-D" (0) "",
  .apply "+D" (0) "+ShiftLeft +G -G -ShiftLeft +H -H +ShiftLeft +G -G -ShiftLeft +H -H",
  .apply "-D" (0) "",
  .apply "-ShiftLeft" (0) "",
  .clear true])

-- String typing
#guard ok (runStage "\n    Shift >> Shift\n    A >> \"eF\"\n    B >> \"eFeF\"\n    C >> \"Gh\"\n    D >> \"GhGh\"\n  " true [
  .apply "+ShiftLeft" (0) "+ShiftLeft",
  .apply "+A" (0) "-ShiftLeft +E -E +ShiftLeft +F -F -ShiftLeft",
  .apply "-A" (0) "",
  .apply "+A" (0) "+E -E +ShiftLeft +F -F -ShiftLeft",
  .apply "-A" (0) "",
  .apply "-ShiftLeft" (0) "",
  .clear true,
  .apply "+ShiftLeft" (0) "+ShiftLeft",
  .apply "+B" (0) "-ShiftLeft +E -E +ShiftLeft +F -F -ShiftLeft +E -E +ShiftLeft +F -F -ShiftLeft",
  .apply "-B" (0) "",
  .apply "+B" (0) "+E -E +ShiftLeft +F -F -ShiftLeft +E -E +ShiftLeft +F -F -ShiftLeft",
  .apply "-B" (0) "",
  .apply "-ShiftLeft" (0) "",
  .clear true,
  .apply "+ShiftLeft" (0) "+ShiftLeft",
  .apply "+C" (0) "+G -G -ShiftLeft +H -H",
  .apply "-C" (0) "",
  .apply "+C" (0) "+ShiftLeft +G -G -ShiftLeft +H -H",
  .apply "-C" (0) "",
  .apply "-ShiftLeft" (0) "",
  .clear true,
  .apply "+ShiftLeft" (0) "+ShiftLeft",
  .apply "+D" (0) "+G -G -ShiftLeft +H -H +ShiftLeft +G -G -ShiftLeft +H -H",
  .apply "-D" (0) "",
  .apply "+D" (0) "+ShiftLeft +G -G -ShiftLeft +H -H +ShiftLeft +G -G -ShiftLeft +H -H",
  .apply "-D" (0) "",
  .apply "-ShiftLeft" (0) "",
  .clear true])

-- String typing already pressed
#guard ok (runStage "\n    A    >> R\n    A{B} >> \"RS\"\n  " true [
  .apply "+A" (0) "+R",
  .apply "-A" (0) "-R",
  .clear true,
  .apply "+A" (0) "+R",
  .apply "+B" (0) "-R +ShiftLeft +R -R +S -S -ShiftLeft",
  .apply "-B" (0) "",
  .apply "-A" (0) "",
  .clear true])

-- String typing key repeat
#guard ok (runStage "\n    Shift      >> Shift\n    A          >> 'X'\n    Shift{B}   >> 'W'\n  " true [
  .apply "+A" (0) "+ShiftLeft +X -X -ShiftLeft",
  .apply "+A" (0) "+ShiftLeft +X -X -ShiftLeft",
  .apply "-A" (0) "",
  .clear true,
  .apply "+ShiftLeft" (0) "+ShiftLeft",
  .apply "+ShiftLeft" (0) "+ShiftLeft",
  .apply "+A" (0) "+X -X -ShiftLeft",
  .apply "+A" (0) "+ShiftLeft +X -X -ShiftLeft",
  .apply "-A" (0) "",
  .apply "+C" (0) "+ShiftLeft +C",
  .apply "+C" (0) "+C",
  .apply "-C" (0) "-C",
  .apply "-ShiftLeft" (0) "-ShiftLeft",
  .clear true,
  .apply "+ShiftLeft" (0) "+ShiftLeft",
  .apply "+ShiftLeft" (0) "+ShiftLeft",
  .apply "+B" (0) "+W -W -ShiftLeft",
  .apply "+B" (0) "+ShiftLeft +W -W -ShiftLeft",
  .apply "-B" (0) "",
  .apply "+C" (0) "+ShiftLeft +C",
  .apply "+C" (0) "+C",
  .apply "-C" (0) "-C",
  .apply "-ShiftLeft" (0) "-ShiftLeft",
  .clear true])

-- NoMightMatch
#guard ok (runStage "\n    ? A B >> X\n  " true [
  .apply "+A" (0) "+A",
  .apply "-A" (0) "-A",
  .clear false,
  .apply "+B" (0) "+X",
  .apply "-B" (0) "-X",
  .clear true,
  .apply "+A" (0) "+A",
  .apply "+B" (0) "+X",
  .apply "-A" (0) "-A",
  .apply "-B" (0) "-X",
  .clear true])

-- NoMightMatch Modifier
#guard ok (runStage "\n    ? A{B} >> X\n  " true [
  .apply "+A" (0) "+A",
  .apply "-A" (0) "-A",
  .clear true,
  .apply "+B" (0) "+B",
  .apply "-B" (0) "-B",
  .clear true,
  .apply "+A" (0) "+A",
  .apply "+B" (0) "+X",
  .apply "-B" (0) "-X",
  .apply "-A" (0) "-A",
  .clear true,
  .apply "+C" (0) "+C",
  .apply "+A" (0) "+A",
  .apply "+B" (0) "+X",
  .apply "-B" (0) "-X",
  .apply "-A" (0) "-A",
  .apply "-C" (0) "-C",
  .clear true,
  .apply "+C" (0) "+C",
  .apply "+B" (0) "+B",
  .apply "+A" (0) "+A",
  .apply "-B" (0) "-B",
  .apply "-A" (0) "-A",
  .apply "-C" (0) "-C",
  .clear true])

-- NoMightMatch Sequence
#guard ok (runStage "\n    ? A B >> X\n    ? A B C >> Y\n    ? B D >> Z\n  " true [
  .apply "+B" (0) "+B",
  .apply "-B" (0) "-B",
  .clear false,
  .apply "+D" (0) "+Z",
  .apply "-D" (0) "-Z",
  .clear true,
  .apply "+A" (0) "+A",
  .apply "-A" (0) "-A",
  .clear false,
  .apply "+C" (0) "+C",
  .apply "-C" (0) "-C",
  .clear true,
  .apply "+A" (0) "+A",
  .apply "-A" (0) "-A",
  .clear false,
  .apply "+B" (0) "+X",
  .apply "-B" (0) "-X",
  .clear false,
  .apply "+C" (0) "+Y",
  .apply "-C" (0) "-Y",
  .clear true,
  .apply "+A" (0) "+A",
  .apply "+B" (0) "+X",
  .apply "-A" (0) "-A",
  .apply "-B" (0) "-X",
  .clear false,
  .apply "+D" (0) "+Z",
  .apply "-D" (0) "-Z",
  .clear true,
  .apply "+B" (0) "+B",
  .apply "-B" (0) "-B",
  .clear false,
  .apply "+C" (0) "+C",
  .apply "-C" (0) "-C",
  .clear true,
  .apply "+B" (0) "+B",
  .apply "+A" (0) "+A",
  .apply "-B" (0) "-B",
  .apply "-A" (0) "-A",
  .clear false,
  .apply "+B" (0) "+X",
  .apply "-B" (0) "-X",
  .clear false,
  .apply "+D" (0) "+Z",
  .apply "-D" (0) "-Z",
  .clear true])

-- NoMightMatch Sequence with initial Not
#guard ok (runStage "\n    ? !A B >> X\n    ? !C D E >> Y\n  " true [
  .apply "+A" (0) "+A",
  .apply "-A" (0) "-A",
  .clear true,
  .apply "+B" (0) "+X",
  .apply "-B" (0) "-X",
  .clear true,
  .apply "+A" (0) "+A",
  .apply "+B" (0) "+B",
  .apply "-B" (0) "-B",
  .apply "-A" (0) "-A",
  .clear true,
  .apply "+C" (0) "+C",
  .apply "-C" (0) "-C",
  .clear true,
  .apply "+D" (0) "+D",
  .apply "-D" (0) "-D",
  .apply "+E" (0) "+Y",
  .apply "-E" (0) "-Y",
  .clear true,
  .apply "+C" (0) "+C",
  .apply "+D" (0) "+D",
  .apply "-C" (0) "-C",
  .apply "-D" (0) "-D",
  .apply "+E" (0) "+Y",
  .apply "-E" (0) "-Y",
  .clear true])

-- NoMightMatch Sequence with initial Any
#guard ok (runStage "\n    ? Any Any X >> Any\n  " true [
  .apply "+A" (0) "+A",
  .apply "-A" (0) "-A",
  .apply "+B" (0) "+B",
  .apply "-B" (0) "-B",
  .apply "+C" (0) "+C",
  .apply "-C" (0) "-C",
  .apply "+X" (0) "+B +C",
  .apply "-X" (0) "-C -B",
  .apply "+X" (0) "+C +X",
  .apply "-X" (0) "-X -C",
  .apply "+X" (0) "+X +X",
  .apply "-X" (0) "-X"])

-- NoMightMatch Sequence with Group
#guard ok (runStage "\n    ? (A B) C >> X\n  " true [
  .apply "+A" (0) "+A",
  .apply "-A" (0) "-A",
  .clear true,
  .apply "+B" (0) "+B",
  .apply "-B" (0) "-B",
  .clear true,
  .apply "+B" (0) "+B",
  .apply "+A" (0) "+A",
  .apply "-B" (0) "-B",
  .apply "-A" (0) "-A",
  .apply "+C" (0) "+X",
  .apply "-C" (0) "-X",
  .clear true,
  .apply "+A" (0) "+A",
  .apply "+B" (0) "+B",
  .apply "-B" (0) "-B",
  .apply "-A" (0) "-A",
  .clear false,
  .apply "+D" (0) "+D",
  .apply "-D" (0) "-D",
  .clear true])

-- NoMightMatch Sequence with String typing
#guard ok (runStage "\n    ? (N I O) >> \"fon\"\n    I >> U\n    N >> F\n  " true [
  .apply "+N" (0) "+F",
  .apply "+I" (0) "+U",
  .apply "+O" (0) "-F -U +F -F +O -O +N -N",
  .apply "-N" (0) "",
  .apply "-I" (0) "",
  .apply "-O" (0) "",
  .clear true])

-- String typing input
#guard ok (runStage "\n    \"Cat\" >> X\n     Shift >> Shift\n  " true [
  .apply "+ShiftLeft" (0) "",
  .apply "+C" (0) "",
  .apply "-C" (0) "",
  .apply "-ShiftLeft" (0) "",
  .apply "+A" (0) "",
  .apply "-A" (0) "",
  .apply "+N" (0) "+ShiftLeft +C -C -ShiftLeft +A -A +N",
  .apply "-N" (0) "-N",
  .clear true,
  .apply "+ShiftLeft" (0) "",
  .apply "+C" (0) "",
  .apply "-C" (0) "",
  .apply "-ShiftLeft" (0) "",
  .apply "+A" (0) "",
  .apply "-A" (0) "",
  .apply "+T" (0) "+X",
  .apply "-T" (0) "-X",
  .clear true])

-- String typing input #2
#guard ok (runStage "\n    \"Cat\" >> X\n  " true [
  .apply "+ShiftLeft" (0) "",
  .apply "+C" (0) "",
  .apply "-C" (0) "",
  .apply "-ShiftLeft" (0) "",
  .apply "+A" (0) "",
  .apply "-A" (0) "",
  .apply "+N" (0) "+ShiftLeft +C -C -ShiftLeft +A -A +N",
  .apply "-N" (0) "-N",
  .clear true])

-- String typing input #3
#guard ok (runStage "\n    \"CAT\" >> X\n  " true [
  .apply "+C" (0) "+C",
  .apply "-C" (0) "-C",
  .apply "+A" (0) "+A",
  .apply "-A" (0) "-A",
  .apply "+T" (0) "+T",
  .apply "-T" (0) "-T",
  .clear true,
  .apply "+ShiftLeft" (0) "",
  .apply "+C" (0) "",
  .apply "-C" (0) "",
  .apply "+A" (0) "",
  .apply "-A" (0) "",
  .apply "+R" (0) "+ShiftLeft +C -C +A -A +R",
  .apply "-R" (0) "-R",
  .apply "-ShiftLeft" (0) "-ShiftLeft",
  .clear true,
  .apply "+ShiftLeft" (0) "",
  .apply "+C" (0) "",
  .apply "-C" (0) "",
  .apply "-ShiftLeft" (0) "",
  .apply "+A" (0) "+ShiftLeft +C -C -ShiftLeft +A",
  .apply "-A" (0) "-A",
  .apply "+T" (0) "+T",
  .apply "-T" (0) "-T",
  .clear true,
  .apply "+ShiftLeft" (0) "",
  .apply "+C" (0) "",
  .apply "-C" (0) "",
  .apply "+A" (0) "",
  .apply "-A" (0) "",
  .apply "+T" (0) "+X",
  .apply "-T" (0) "-X",
  .apply "-ShiftLeft" (0) "",
  .clear true,
  .apply "+ShiftLeft" (0) "",
  .apply "+C" (0) "",
  .apply "-C" (0) "",
  .apply "-ShiftLeft" (0) "",
  .apply "+ShiftLeft" (0) "",
  .apply "+A" (0) "",
  .apply "-ShiftLeft" (0) "",
  .apply "-A" (0) "",
  .apply "+ShiftLeft" (0) "",
  .apply "+T" (0) "+X",
  .apply "-T" (0) "-X",
  .apply "-ShiftLeft" (0) "",
  .clear true,
  .apply "+ShiftLeft" (0) "",
  .apply "+C" (0) "",
  .apply "-C" (0) "",
  .apply "-ShiftLeft" (0) "",
  .apply "+ShiftLeft" (0) "",
  .apply "-ShiftLeft" (0) "+ShiftLeft +C -C -ShiftLeft +ShiftLeft -ShiftLeft",
  .apply "+ShiftLeft" (0) "",
  .apply "+A" (0) "+ShiftLeft +A",
  .apply "-A" (0) "-A",
  .apply "+T" (0) "+T",
  .apply "-T" (0) "-T",
  .apply "-ShiftLeft" (0) "-ShiftLeft",
  .clear true])

-- String typing input #4
#guard ok (runStage "\n    \"cat\" >> X\n  " true [
  .apply "+C" (0) "",
  .apply "-C" (0) "",
  .apply "+A" (0) "",
  .apply "-A" (0) "",
  .apply "+T" (0) "+X",
  .apply "-T" (0) "-X",
  .clear true,
  .apply "+ShiftLeft" (0) "+ShiftLeft",
  .apply "+C" (0) "+C",
  .apply "-C" (0) "-C",
  .apply "+A" (0) "+A",
  .apply "-A" (0) "-A",
  .apply "+T" (0) "+T",
  .apply "-T" (0) "-T",
  .apply "-ShiftLeft" (0) "-ShiftLeft",
  .clear true])

-- String typing input #5
#guard ok (runStage "\n    \"cAt\" >> X\n  " true [
  .apply "+C" (0) "",
  .apply "-C" (0) "",
  .apply "+ShiftLeft" (0) "",
  .apply "+A" (0) "",
  .apply "-A" (0) "",
  .apply "-ShiftLeft" (0) "",
  .apply "+T" (0) "+X",
  .apply "-T" (0) "-X",
  .clear true])

end KM.Test
