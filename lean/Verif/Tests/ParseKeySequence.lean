import Verif.Tests.Lib
/-! Generated from `src/test/test0_ParseKeySequence.cpp`. -/
namespace KM.Test

-- Input Expression
#guard (parseIn "").isNone
#guard parseIn "A" == some [⟨Key.KeyA, .Down, 0⟩, ⟨Key.KeyA, .UpAsync, 0⟩]
#guard parseIn "A B" == some [⟨Key.KeyA, .Down, 0⟩, ⟨Key.KeyA, .UpAsync, 0⟩, ⟨Key.KeyB, .Down, 0⟩, ⟨Key.KeyB, .UpAsync, 0⟩]
#guard parseIn "A{B}" == some [⟨Key.KeyA, .Down, 0⟩, ⟨Key.KeyB, .Down, 0⟩, ⟨Key.KeyB, .UpAsync, 0⟩, ⟨Key.KeyA, .UpAsync, 0⟩]
#guard (parseIn "{B}").isNone
#guard parseIn "A{B{C}}" == some [⟨Key.KeyA, .Down, 0⟩, ⟨Key.KeyB, .Down, 0⟩, ⟨Key.KeyC, .Down, 0⟩, ⟨Key.KeyC, .UpAsync, 0⟩, ⟨Key.KeyB, .UpAsync, 0⟩, ⟨Key.KeyA, .UpAsync, 0⟩]
#guard parseIn "(A B)" == some [⟨Key.KeyA, .DownAsync, 0⟩, ⟨Key.KeyB, .DownAsync, 0⟩, ⟨Key.KeyA, .Down, 0⟩, ⟨Key.KeyB, .Down, 0⟩, ⟨Key.KeyA, .UpAsync, 0⟩, ⟨Key.KeyB, .UpAsync, 0⟩]
#guard (parseIn "(A B{C})").isNone
#guard parseIn "A(B C)" == some [⟨Key.KeyA, .Down, 0⟩, ⟨Key.KeyA, .UpAsync, 0⟩, ⟨Key.KeyB, .DownAsync, 0⟩, ⟨Key.KeyC, .DownAsync, 0⟩, ⟨Key.KeyB, .Down, 0⟩, ⟨Key.KeyC, .Down, 0⟩, ⟨Key.KeyB, .UpAsync, 0⟩, ⟨Key.KeyC, .UpAsync, 0⟩]
#guard parseIn "A{B C}" == some [⟨Key.KeyA, .Down, 0⟩, ⟨Key.KeyB, .Down, 0⟩, ⟨Key.KeyB, .UpAsync, 0⟩, ⟨Key.KeyC, .Down, 0⟩, ⟨Key.KeyC, .UpAsync, 0⟩, ⟨Key.KeyA, .UpAsync, 0⟩]
#guard parseIn "A{(B C)}" == some [⟨Key.KeyA, .Down, 0⟩, ⟨Key.KeyB, .DownAsync, 0⟩, ⟨Key.KeyC, .DownAsync, 0⟩, ⟨Key.KeyB, .Down, 0⟩, ⟨Key.KeyC, .Down, 0⟩, ⟨Key.KeyB, .UpAsync, 0⟩, ⟨Key.KeyC, .UpAsync, 0⟩, ⟨Key.KeyA, .UpAsync, 0⟩]
#guard parseIn "A{B{C} D{E}}" == some [⟨Key.KeyA, .Down, 0⟩, ⟨Key.KeyB, .Down, 0⟩, ⟨Key.KeyC, .Down, 0⟩, ⟨Key.KeyC, .UpAsync, 0⟩, ⟨Key.KeyB, .UpAsync, 0⟩, ⟨Key.KeyD, .Down, 0⟩, ⟨Key.KeyE, .Down, 0⟩, ⟨Key.KeyE, .UpAsync, 0⟩, ⟨Key.KeyD, .UpAsync, 0⟩, ⟨Key.KeyA, .UpAsync, 0⟩]
#guard parseIn "A B{C} D" == some [⟨Key.KeyA, .Down, 0⟩, ⟨Key.KeyA, .UpAsync, 0⟩, ⟨Key.KeyB, .Down, 0⟩, ⟨Key.KeyC, .Down, 0⟩, ⟨Key.KeyC, .UpAsync, 0⟩, ⟨Key.KeyB, .UpAsync, 0⟩, ⟨Key.KeyD, .Down, 0⟩, ⟨Key.KeyD, .UpAsync, 0⟩]
#guard parseIn "A{(B C) D}" == some [⟨Key.KeyA, .Down, 0⟩, ⟨Key.KeyB, .DownAsync, 0⟩, ⟨Key.KeyC, .DownAsync, 0⟩, ⟨Key.KeyB, .Down, 0⟩, ⟨Key.KeyC, .Down, 0⟩, ⟨Key.KeyB, .UpAsync, 0⟩, ⟨Key.KeyC, .UpAsync, 0⟩, ⟨Key.KeyD, .Down, 0⟩, ⟨Key.KeyD, .UpAsync, 0⟩, ⟨Key.KeyA, .UpAsync, 0⟩]
#guard parseIn "(A B){C D}" == some [⟨Key.KeyA, .DownAsync, 0⟩, ⟨Key.KeyB, .DownAsync, 0⟩, ⟨Key.KeyA, .Down, 0⟩, ⟨Key.KeyB, .Down, 0⟩, ⟨Key.KeyC, .Down, 0⟩, ⟨Key.KeyC, .UpAsync, 0⟩, ⟨Key.KeyD, .Down, 0⟩, ⟨Key.KeyD, .UpAsync, 0⟩, ⟨Key.KeyB, .UpAsync, 0⟩, ⟨Key.KeyA, .UpAsync, 0⟩]
#guard parseIn "A !B" == some [⟨Key.KeyA, .Down, 0⟩, ⟨Key.KeyA, .UpAsync, 0⟩, ⟨Key.KeyB, .Not, 0⟩]
#guard parseIn "A !A B !B" == some [⟨Key.KeyA, .Down, 0⟩, ⟨Key.KeyA, .Up, 0⟩, ⟨Key.KeyB, .Down, 0⟩, ⟨Key.KeyB, .Up, 0⟩]
#guard parseIn "A B !A !B" == some [⟨Key.KeyA, .Down, 0⟩, ⟨Key.KeyA, .UpAsync, 0⟩, ⟨Key.KeyB, .Down, 0⟩, ⟨Key.KeyB, .UpAsync, 0⟩, ⟨Key.KeyA, .Up, 0⟩, ⟨Key.KeyB, .Up, 0⟩]
#guard parseIn "A !A B" == some [⟨Key.KeyA, .Down, 0⟩, ⟨Key.KeyA, .Up, 0⟩, ⟨Key.KeyB, .Down, 0⟩, ⟨Key.KeyB, .UpAsync, 0⟩]
#guard parseIn "!A B A !A" == some [⟨Key.KeyA, .Not, 0⟩, ⟨Key.KeyB, .Down, 0⟩, ⟨Key.KeyB, .UpAsync, 0⟩, ⟨Key.KeyA, .Down, 0⟩, ⟨Key.KeyA, .Up, 0⟩]
#guard parseIn "A{B !B}" == some [⟨Key.KeyA, .Down, 0⟩, ⟨Key.KeyB, .Down, 0⟩, ⟨Key.KeyB, .Up, 0⟩, ⟨Key.KeyA, .UpAsync, 0⟩]
#guard parseIn "A{B !B} !A" == some [⟨Key.KeyA, .Down, 0⟩, ⟨Key.KeyB, .Down, 0⟩, ⟨Key.KeyB, .Up, 0⟩, ⟨Key.KeyA, .Up, 0⟩]
#guard parseIn "A{B} !A" == some [⟨Key.KeyA, .Down, 0⟩, ⟨Key.KeyB, .Down, 0⟩, ⟨Key.KeyB, .UpAsync, 0⟩, ⟨Key.KeyA, .Up, 0⟩]
#guard (parseIn "!").isNone
#guard (parseIn "!A").isNone
#guard (parseIn "!(A B)").isNone
#guard (parseIn "!A{B}").isNone
#guard (parseIn "A{!B}").isNone
#guard (parseIn "!A 100ms").isNone
#guard (parseIn "A ^ B").isNone
#guard parseIn "? A B" == some [⟨Key.none, .NoMightMatch, 0⟩, ⟨Key.KeyA, .Down, 0⟩, ⟨Key.KeyA, .UpAsync, 0⟩, ⟨Key.KeyB, .Down, 0⟩]
#guard (parseIn "?").isNone
#guard (parseIn "? ? A B").isNone
#guard (parseIn "A ? B").isNone
#guard (parseIn "A ?").isNone
#guard (parseIn "(?A)").isNone
#guard (parseIn "? A{100ms}").isNone
#guard (parseIn "? Virtual1{A}").isNone
#guard (parseIn "!Any").isNone
#guard (parseIn "Any").isSome
#guard (parseIn "A Any").isSome
#guard (parseIn "A !Any B").isSome
#guard (parseIn "? Any A").isSome
#guard (parseIn "? !B Any A").isSome
#guard (parseIn "? A Any").isSome
#guard (parseIn "? A !Any B").isSome
#guard parseIn "Virtual0" == some [⟨Key.first_virtual, .Down, 0⟩, ⟨Key.first_virtual, .UpAsync, 0⟩]
#guard parseIn "!Virtual0 A" == some [⟨Key.first_virtual, .Not, 0⟩, ⟨Key.KeyA, .Down, 0⟩, ⟨Key.KeyA, .UpAsync, 0⟩]
#guard parseIn "A 1000ms" == some [⟨Key.KeyA, .Down, 0⟩, ⟨Key.KeyA, .UpAsync, 0⟩, ⟨Key.timeout, .Down, 1000⟩]
#guard parseIn "A !A 1000ms" == some [⟨Key.KeyA, .Down, 0⟩, ⟨Key.KeyA, .Up, 0⟩, ⟨Key.timeout, .Down, 1000⟩]
#guard parseIn "A{1000ms}" == some [⟨Key.KeyA, .Down, 0⟩, ⟨Key.timeout, .Up, 1000⟩, ⟨Key.KeyA, .UpAsync, 0⟩]
#guard parseIn "(A B){1000ms}" == some [⟨Key.KeyA, .DownAsync, 0⟩, ⟨Key.KeyB, .DownAsync, 0⟩, ⟨Key.KeyA, .Down, 0⟩, ⟨Key.KeyB, .Down, 0⟩, ⟨Key.timeout, .Up, 1000⟩, ⟨Key.KeyB, .UpAsync, 0⟩, ⟨Key.KeyA, .UpAsync, 0⟩]
#guard parseIn "A 1000ms B" == some [⟨Key.KeyA, .Down, 0⟩, ⟨Key.KeyA, .UpAsync, 0⟩, ⟨Key.timeout, .Down, 1000⟩, ⟨Key.KeyB, .Down, 0⟩, ⟨Key.KeyB, .UpAsync, 0⟩]
#guard parseIn "A !A 1000ms B" == some [⟨Key.KeyA, .Down, 0⟩, ⟨Key.KeyA, .Up, 0⟩, ⟨Key.timeout, .Down, 1000⟩, ⟨Key.KeyB, .Down, 0⟩, ⟨Key.KeyB, .UpAsync, 0⟩]
#guard parseIn "A{1000ms B}" == some [⟨Key.KeyA, .Down, 0⟩, ⟨Key.timeout, .Up, 1000⟩, ⟨Key.KeyB, .Down, 0⟩, ⟨Key.KeyB, .UpAsync, 0⟩, ⟨Key.KeyA, .UpAsync, 0⟩]
#guard (parseIn "A 10000000ms").isSome
#guard (parseIn "1000ms A").isNone
#guard (parseIn "(A 1000ms)").isNone
#guard (parseIn "(A !1000ms)").isNone
#guard parseIn "A !1000ms" == some [⟨Key.KeyA, .Down, 0⟩, ⟨Key.KeyA, .UpAsync, 0⟩, ⟨Key.timeout, .Not, 1000⟩]
#guard parseIn "A !A !1000ms" == some [⟨Key.KeyA, .Down, 0⟩, ⟨Key.KeyA, .Up, 0⟩, ⟨Key.timeout, .Not, 1000⟩]
#guard parseIn "A{!1000ms}" == some [⟨Key.KeyA, .Down, 0⟩, ⟨Key.timeout, .NotTimeout_cancel_on_up_down, 1000⟩, ⟨Key.KeyA, .UpAsync, 0⟩, ⟨Key.KeyA, .Up, 0⟩]
#guard parseIn "(A B){!1000ms}" == some [⟨Key.KeyA, .DownAsync, 0⟩, ⟨Key.KeyB, .DownAsync, 0⟩, ⟨Key.KeyA, .Down, 0⟩, ⟨Key.KeyB, .Down, 0⟩, ⟨Key.timeout, .NotTimeout_cancel_on_up_down, 1000⟩, ⟨Key.KeyB, .UpAsync, 0⟩, ⟨Key.KeyA, .UpAsync, 0⟩, ⟨Key.KeyB, .Up, 0⟩, ⟨Key.KeyA, .Up, 0⟩]
#guard parseIn "A{B{!1000ms}}" == some [⟨Key.KeyA, .Down, 0⟩, ⟨Key.KeyB, .Down, 0⟩, ⟨Key.timeout, .NotTimeout_cancel_on_up_down, 1000⟩, ⟨Key.KeyB, .UpAsync, 0⟩, ⟨Key.KeyB, .Up, 0⟩, ⟨Key.KeyA, .UpAsync, 0⟩]
#guard parseIn "A{B !1000ms}" == some [⟨Key.KeyA, .Down, 0⟩, ⟨Key.KeyB, .Down, 0⟩, ⟨Key.KeyB, .UpAsync, 0⟩, ⟨Key.timeout, .NotTimeout_cancel_on_up_down, 1000⟩, ⟨Key.KeyA, .UpAsync, 0⟩, ⟨Key.KeyA, .Up, 0⟩]
#guard parseIn "A{1000ms !1000ms}" == some [⟨Key.KeyA, .Down, 0⟩, ⟨Key.timeout, .Up, 1000⟩, ⟨Key.timeout, .NotTimeout_cancel_on_up_down, 1000⟩, ⟨Key.KeyA, .UpAsync, 0⟩, ⟨Key.KeyA, .Up, 0⟩]
#guard parseIn "(A B){1000ms !1000ms}" == some [⟨Key.KeyA, .DownAsync, 0⟩, ⟨Key.KeyB, .DownAsync, 0⟩, ⟨Key.KeyA, .Down, 0⟩, ⟨Key.KeyB, .Down, 0⟩, ⟨Key.timeout, .Up, 1000⟩, ⟨Key.timeout, .NotTimeout_cancel_on_up_down, 1000⟩, ⟨Key.KeyB, .UpAsync, 0⟩, ⟨Key.KeyA, .UpAsync, 0⟩, ⟨Key.KeyB, .Up, 0⟩, ⟨Key.KeyA, .Up, 0⟩]
#guard parseIn "A{1000ms 100ms !1000ms !100ms !10ms 1000ms}" == some [⟨Key.KeyA, .Down, 0⟩, ⟨Key.timeout, .Up, 1100⟩, ⟨Key.timeout, .NotTimeout_cancel_on_up_down, 1110⟩, ⟨Key.timeout, .Up, 1000⟩, ⟨Key.KeyA, .UpAsync, 0⟩]

-- Output Expression
#guard parseOut "" == some []
#guard parseOut "A" == some [⟨Key.KeyA, .Down, 0⟩]
#guard parseOut "A B" == some [⟨Key.KeyA, .Down, 0⟩, ⟨Key.KeyA, .Up, 0⟩, ⟨Key.KeyB, .Down, 0⟩, ⟨Key.KeyB, .Up, 0⟩]
#guard parseOut "A{B}" == some [⟨Key.KeyA, .Down, 0⟩, ⟨Key.KeyB, .Down, 0⟩, ⟨Key.KeyB, .Up, 0⟩, ⟨Key.KeyA, .Up, 0⟩]
#guard (parseOut "{B}").isNone
#guard parseOut "(A B)" == some [⟨Key.KeyA, .Down, 0⟩, ⟨Key.KeyB, .Down, 0⟩]
#guard parseOut "(A B C)" == some [⟨Key.KeyA, .Down, 0⟩, ⟨Key.KeyB, .Down, 0⟩, ⟨Key.KeyC, .Down, 0⟩]
#guard parseOut "A(B C)" == some [⟨Key.KeyA, .Down, 0⟩, ⟨Key.KeyA, .Up, 0⟩, ⟨Key.KeyB, .Down, 0⟩, ⟨Key.KeyC, .Down, 0⟩, ⟨Key.KeyB, .Up, 0⟩, ⟨Key.KeyC, .Up, 0⟩]
#guard parseOut "A{B C}" == some [⟨Key.KeyA, .Down, 0⟩, ⟨Key.KeyB, .Down, 0⟩, ⟨Key.KeyB, .Up, 0⟩, ⟨Key.KeyC, .Down, 0⟩, ⟨Key.KeyC, .Up, 0⟩, ⟨Key.KeyA, .Up, 0⟩]
#guard parseOut "A{(B C)}" == some [⟨Key.KeyA, .Down, 0⟩, ⟨Key.KeyB, .Down, 0⟩, ⟨Key.KeyC, .Down, 0⟩, ⟨Key.KeyB, .Up, 0⟩, ⟨Key.KeyC, .Up, 0⟩, ⟨Key.KeyA, .Up, 0⟩]
#guard parseOut "(A B){C D}" == some [⟨Key.KeyA, .Down, 0⟩, ⟨Key.KeyB, .Down, 0⟩, ⟨Key.KeyC, .Down, 0⟩, ⟨Key.KeyC, .Up, 0⟩, ⟨Key.KeyD, .Down, 0⟩, ⟨Key.KeyD, .Up, 0⟩, ⟨Key.KeyB, .Up, 0⟩, ⟨Key.KeyA, .Up, 0⟩]
#guard parseOut "A{B{C}}" == some [⟨Key.KeyA, .Down, 0⟩, ⟨Key.KeyB, .Down, 0⟩, ⟨Key.KeyC, .Down, 0⟩, ⟨Key.KeyC, .Up, 0⟩, ⟨Key.KeyB, .Up, 0⟩, ⟨Key.KeyA, .Up, 0⟩]
#guard parseOut "!A" == some [⟨Key.KeyA, .Not, 0⟩]
#guard parseOut "A !A" == some [⟨Key.KeyA, .Down, 0⟩, ⟨Key.KeyA, .Not, 0⟩]
#guard parseOut "A{B !B}" == some [⟨Key.KeyA, .Down, 0⟩, ⟨Key.KeyB, .Down, 0⟩, ⟨Key.KeyB, .Not, 0⟩, ⟨Key.KeyA, .Up, 0⟩]
#guard parseOut "A ^ B" == some [⟨Key.KeyA, .Down, 0⟩, ⟨Key.KeyA, .Up, 0⟩, ⟨Key.none, .OutputOnRelease, 0⟩, ⟨Key.KeyB, .Down, 0⟩, ⟨Key.KeyB, .Up, 0⟩]
#guard parseOut "^ A B" == some [⟨Key.none, .OutputOnRelease, 0⟩, ⟨Key.KeyA, .Down, 0⟩, ⟨Key.KeyA, .Up, 0⟩, ⟨Key.KeyB, .Down, 0⟩, ⟨Key.KeyB, .Up, 0⟩]
#guard parseOut "A B ^" == some [⟨Key.KeyA, .Down, 0⟩, ⟨Key.KeyA, .Up, 0⟩, ⟨Key.KeyB, .Down, 0⟩, ⟨Key.KeyB, .Up, 0⟩, ⟨Key.none, .OutputOnRelease, 0⟩]
#guard parseOut "^" == some [⟨Key.none, .OutputOnRelease, 0⟩]
#guard (parseOut "A ^ B ^ C").isNone
#guard (parseOut "^ A ^ B").isNone
#guard (parseOut "(A ^ B)").isNone
#guard (parseOut "A{^ B}").isNone
#guard (parseOut "A^{B}").isNone
#guard (parseOut "? A B").isNone
#guard parseOut "Any" == some [⟨Key.any, .Down, 0⟩]
#guard parseOut "!Any" == some [⟨Key.any, .Not, 0⟩]
#guard parseOut "Virtual0" == some [⟨Key.first_virtual, .Down, 0⟩]
#guard parseOut "!Virtual0" == some [⟨Key.first_virtual, .Not, 0⟩]
#guard parseOut "Virtual255" == some [⟨Key.first_virtual + 255, .Down, 0⟩]
#guard (parseOut "Virtual256").isNone
#guard parseOut "A 1000ms" == some [⟨Key.KeyA, .Down, 0⟩, ⟨Key.KeyA, .Up, 0⟩, ⟨Key.timeout, .Down, 1000⟩]
#guard parseOut "A{1000ms}" == some [⟨Key.KeyA, .Down, 0⟩, ⟨Key.timeout, .Down, 1000⟩, ⟨Key.KeyA, .Up, 0⟩]
#guard parseOut "A 1000ms B" == some [⟨Key.KeyA, .Down, 0⟩, ⟨Key.KeyA, .Up, 0⟩, ⟨Key.timeout, .Down, 1000⟩, ⟨Key.KeyB, .Down, 0⟩, ⟨Key.KeyB, .Up, 0⟩]
#guard parseOut "A{1000ms B}" == some [⟨Key.KeyA, .Down, 0⟩, ⟨Key.timeout, .Down, 1000⟩, ⟨Key.KeyB, .Down, 0⟩, ⟨Key.KeyB, .Up, 0⟩, ⟨Key.KeyA, .Up, 0⟩]
#guard parseOut "1000ms A" == some [⟨Key.timeout, .Down, 1000⟩, ⟨Key.KeyA, .Down, 0⟩]
#guard parseOut "(A B){1000ms}" == some [⟨Key.KeyA, .Down, 0⟩, ⟨Key.KeyB, .Down, 0⟩, ⟨Key.timeout, .Down, 1000⟩, ⟨Key.KeyB, .Up, 0⟩, ⟨Key.KeyA, .Up, 0⟩]
#guard (parseOut "A 10000000ms").isSome
#guard (parseOut "(A !1000ms)").isNone
#guard (parseOut "A !1000ms").isNone
#guard (parseOut "A{!1000ms}").isNone
#guard (parseOut "A{1000ms !1000ms}").isNone
#guard parseOut "A{1000ms 100ms 1000ms}" == some [⟨Key.KeyA, .Down, 0⟩, ⟨Key.timeout, .Down, 2100⟩, ⟨Key.KeyA, .Up, 0⟩]

-- Key names
#guard parseOut "(Digit1 2 KeyA B Any)" == some [⟨Key.Digit1, .Down, 0⟩, ⟨Key.Digit2, .Down, 0⟩, ⟨Key.KeyA, .Down, 0⟩, ⟨Key.KeyB, .Down, 0⟩, ⟨Key.any, .Down, 0⟩]
#guard parseOut "(OSLeft MetaLeft OSRight MetaRight)" == some [⟨Key.MetaLeft, .Down, 0⟩, ⟨Key.MetaLeft, .Down, 0⟩, ⟨Key.MetaRight, .Down, 0⟩, ⟨Key.MetaRight, .Down, 0⟩]
#guard parseOut "(Virtual0 Virtual255)" == some [⟨Key.first_virtual, .Down, 0⟩, ⟨Key.first_virtual + 255, .Down, 0⟩]
#guard (parseOut "Virtual256").isNone
#guard (parseOut "Key1").isNone
#guard (parseOut "DigitA").isNone

-- Key code
#guard parseOut "1ms (0 9 F 01 61439 0x1 0XefFF)" == some [⟨Key.timeout, .Down, 1⟩, ⟨Key.Digit0, .Down, 0⟩, ⟨Key.Digit9, .Down, 0⟩, ⟨Key.KeyF, .Down, 0⟩, ⟨1, .Down, 0⟩, ⟨61439, .Down, 0⟩, ⟨0x1, .Down, 0⟩, ⟨0xEFFF, .Down, 0⟩]
#guard (parseOut "00").isNone
#guard (parseOut "0F").isNone
#guard (parseOut "-01").isNone
#guard (parseOut "61440").isNone
#guard (parseOut "0xF000").isNone
#guard (parseOut "01z").isNone
#guard (parseOut "0xEFz").isNone
#guard (parseOut "0x1ms").isNone
#guard (parseOut "0xEFms").isNone

-- Input string
#guard parseIn "'a'" == some [⟨Key.Shift, .Not, 0⟩, ⟨Key.AltLeft, .Not, 0⟩, ⟨Key.AltRight, .Not, 0⟩, ⟨Key.Control, .Not, 0⟩, ⟨Key.KeyA, .Down, 0⟩, ⟨Key.KeyA, .UpAsync, 0⟩]
#guard parseIn "A 'b' C" == some [⟨Key.KeyA, .Down, 0⟩, ⟨Key.KeyA, .UpAsync, 0⟩, ⟨Key.Shift, .Not, 0⟩, ⟨Key.AltLeft, .Not, 0⟩, ⟨Key.AltRight, .Not, 0⟩, ⟨Key.Control, .Not, 0⟩, ⟨Key.KeyB, .Down, 0⟩, ⟨Key.KeyB, .UpAsync, 0⟩, ⟨Key.KeyC, .Down, 0⟩, ⟨Key.KeyC, .UpAsync, 0⟩]
#guard parseIn "'Cat'" == some [⟨Key.Shift, .DownAsync, 0⟩, ⟨Key.Shift, .Down, 0⟩, ⟨Key.AltLeft, .Not, 0⟩, ⟨Key.AltRight, .Not, 0⟩, ⟨Key.Control, .Not, 0⟩, ⟨Key.KeyC, .Down, 0⟩, ⟨Key.KeyC, .UpAsync, 0⟩, ⟨Key.Shift, .Up, 0⟩, ⟨Key.KeyA, .Down, 0⟩, ⟨Key.KeyA, .UpAsync, 0⟩, ⟨Key.KeyT, .Down, 0⟩, ⟨Key.KeyT, .UpAsync, 0⟩]
#guard parseIn "'cAt'" == some [⟨Key.Shift, .Not, 0⟩, ⟨Key.AltLeft, .Not, 0⟩, ⟨Key.AltRight, .Not, 0⟩, ⟨Key.Control, .Not, 0⟩, ⟨Key.KeyC, .Down, 0⟩, ⟨Key.KeyC, .UpAsync, 0⟩, ⟨Key.Shift, .DownAsync, 0⟩, ⟨Key.Shift, .Down, 0⟩, ⟨Key.KeyA, .Down, 0⟩, ⟨Key.KeyA, .UpAsync, 0⟩, ⟨Key.Shift, .Up, 0⟩, ⟨Key.KeyT, .Down, 0⟩, ⟨Key.KeyT, .UpAsync, 0⟩]
#guard parseIn "'CAP'" == some [⟨Key.Shift, .DownAsync, 0⟩, ⟨Key.Shift, .Down, 0⟩, ⟨Key.AltLeft, .Not, 0⟩, ⟨Key.AltRight, .Not, 0⟩, ⟨Key.Control, .Not, 0⟩, ⟨Key.KeyC, .Down, 0⟩, ⟨Key.KeyC, .UpAsync, 0⟩, ⟨Key.Shift, .UpAsync, 0⟩, ⟨Key.Shift, .DownAsync, 0⟩, ⟨Key.Shift, .Down, 0⟩, ⟨Key.KeyA, .Down, 0⟩, ⟨Key.KeyA, .UpAsync, 0⟩, ⟨Key.Shift, .UpAsync, 0⟩, ⟨Key.Shift, .DownAsync, 0⟩, ⟨Key.Shift, .Down, 0⟩, ⟨Key.KeyP, .Down, 0⟩, ⟨Key.KeyP, .UpAsync, 0⟩, ⟨Key.Shift, .UpAsync, 0⟩]
#guard parseIn "A{'b'}" == some [⟨Key.KeyA, .Down, 0⟩, ⟨Key.KeyB, .Down, 0⟩, ⟨Key.KeyB, .UpAsync, 0⟩, ⟨Key.KeyA, .UpAsync, 0⟩]
#guard parseIn "A{'Bb'}" == some [⟨Key.KeyA, .Down, 0⟩, ⟨Key.KeyB, .Down, 0⟩, ⟨Key.KeyB, .UpAsync, 0⟩, ⟨Key.KeyB, .Down, 0⟩, ⟨Key.KeyB, .UpAsync, 0⟩, ⟨Key.KeyA, .UpAsync, 0⟩]
#guard (parseIn "(A 'a')").isNone
#guard (parseIn "('a' B)").isNone
#guard (parseIn "'a'{B}").isNone

-- Output string
#guard parseOut "'a'" == some [⟨Key.any, .Not, 0⟩, ⟨Key.KeyA, .Down, 0⟩]
#guard parseOut "A 'b' C" == some [⟨Key.KeyA, .Down, 0⟩, ⟨Key.KeyA, .Up, 0⟩, ⟨Key.any, .Not, 0⟩, ⟨Key.KeyB, .Down, 0⟩, ⟨Key.KeyB, .Up, 0⟩, ⟨Key.KeyC, .Down, 0⟩, ⟨Key.KeyC, .Up, 0⟩]
#guard parseOut "\"ab\"" == some [⟨Key.any, .Not, 0⟩, ⟨Key.KeyA, .Down, 0⟩, ⟨Key.KeyA, .Up, 0⟩, ⟨Key.KeyB, .Down, 0⟩, ⟨Key.KeyB, .Up, 0⟩]
#guard parseOut "'A'" == some [⟨Key.any, .Not, 0⟩, ⟨Key.Shift, .Down, 0⟩, ⟨Key.KeyA, .Down, 0⟩, ⟨Key.KeyA, .Up, 0⟩, ⟨Key.Shift, .Up, 0⟩]
#guard parseOut "A 'B' C" == some [⟨Key.KeyA, .Down, 0⟩, ⟨Key.KeyA, .Up, 0⟩, ⟨Key.any, .Not, 0⟩, ⟨Key.Shift, .Down, 0⟩, ⟨Key.KeyB, .Down, 0⟩, ⟨Key.KeyB, .Up, 0⟩, ⟨Key.Shift, .Up, 0⟩, ⟨Key.KeyC, .Down, 0⟩, ⟨Key.KeyC, .Up, 0⟩]
#guard parseOut "\"AB\"" == some [⟨Key.any, .Not, 0⟩, ⟨Key.Shift, .Down, 0⟩, ⟨Key.KeyA, .Down, 0⟩, ⟨Key.KeyA, .Up, 0⟩, ⟨Key.KeyB, .Down, 0⟩, ⟨Key.KeyB, .Up, 0⟩, ⟨Key.Shift, .Up, 0⟩]
#guard parseOut "'AbC'" == some [⟨Key.any, .Not, 0⟩, ⟨Key.Shift, .Down, 0⟩, ⟨Key.KeyA, .Down, 0⟩, ⟨Key.KeyA, .Up, 0⟩, ⟨Key.Shift, .Up, 0⟩, ⟨Key.KeyB, .Down, 0⟩, ⟨Key.KeyB, .Up, 0⟩, ⟨Key.Shift, .Down, 0⟩, ⟨Key.KeyC, .Down, 0⟩, ⟨Key.KeyC, .Up, 0⟩, ⟨Key.Shift, .Up, 0⟩]
#guard parseOut "'aB'" == some [⟨Key.any, .Not, 0⟩, ⟨Key.KeyA, .Down, 0⟩, ⟨Key.KeyA, .Up, 0⟩, ⟨Key.Shift, .Down, 0⟩, ⟨Key.KeyB, .Down, 0⟩, ⟨Key.KeyB, .Up, 0⟩, ⟨Key.Shift, .Up, 0⟩]
#guard parseOut "A{'b'}" == some [⟨Key.KeyA, .Down, 0⟩, ⟨Key.KeyB, .Down, 0⟩, ⟨Key.KeyB, .Up, 0⟩, ⟨Key.KeyA, .Up, 0⟩]
#guard parseOut "A{'Bc'}" == some [⟨Key.KeyA, .Down, 0⟩, ⟨Key.Shift, .Down, 0⟩, ⟨Key.KeyB, .Down, 0⟩, ⟨Key.KeyB, .Up, 0⟩, ⟨Key.Shift, .Up, 0⟩, ⟨Key.KeyC, .Down, 0⟩, ⟨Key.KeyC, .Up, 0⟩, ⟨Key.KeyA, .Up, 0⟩]
#guard (parseOut "'A").isNone
#guard (parseOut "A'").isNone
#guard (parseOut "'A\"").isNone
#guard (parseOut "\"A'").isNone
#guard (parseOut "(A 'B')").isNone
#guard (parseOut "'B'{A}").isNone
#guard (parseOut "('B' A)").isNone
#guard (parseOut "!'B'").isNone

-- Parse ContextActive
#guard parseIn "ContextActive" == some [⟨Key.ContextActive, .Down, 0⟩]
#guard (parseOut "ContextActive").isNone
#guard (parseIn "ContextActive A").isNone

end KM.Test
