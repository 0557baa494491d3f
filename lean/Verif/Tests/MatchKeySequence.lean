import Verif.Tests.Lib
/-! Generated from `src/test/test2_MatchKeySequence.cpp`. -/
namespace KM.Test

/-- the result of matching with a parsed expression, and whether there was undefined behavior -/
def matchT (expr seq : String) : Option (MatchResult × Bool) :=
  match parseIn expr, parseSeq seq with
  | some e, some s => let r := matchSeq e s; some (r.res, r.ub)
  | _, _ => none

def matchAny (expr seq : String) : Option (List Key) :=
  match parseIn expr, parseSeq seq with
  | some e, some s => some (matchSeq e s).any
  | _, _ => none

def matchTo (expr seq : String) : Option (Option KeyEvent) :=
  match parseIn expr, parseSeq seq with
  | some e, some s => some (matchSeq e s).timeout
  | _, _ => none

-- Match status
#guard matchT "A" "+A" == some (.matched, false)
#guard matchT "A" "+B" == some (.no_match, false)
#guard matchT "A B" "+A" == some (.might_match, false)
#guard matchT "A B" "+A -A" == some (.might_match, false)
#guard matchT "A B" "+A +B" == some (.matched, false)
#guard matchT "A B" "+A -A +B" == some (.matched, false)
#guard matchT "A B" "+B" == some (.no_match, false)
#guard matchT "A{B}" "+A" == some (.might_match, false)
#guard matchT "A{B}" "+B" == some (.no_match, false)
#guard matchT "A{B}" "+A -A" == some (.no_match, false)
#guard matchT "A{B}" "+A +B" == some (.matched, false)
#guard matchT "(A B)" "+A" == some (.might_match, false)
#guard matchT "(A B)" "+B" == some (.might_match, false)
#guard matchT "(A B)" "+A -A" == some (.no_match, false)
#guard matchT "(A B)" "+B -B" == some (.no_match, false)
#guard matchT "(A B)" "+A +B" == some (.matched, false)
#guard matchT "(A B)" "+B +A" == some (.matched, false)
#guard matchT "A{B{C}}" "+A" == some (.might_match, false)
#guard matchT "A{B{C}}" "+A +B" == some (.might_match, false)
#guard matchT "A{B{C}}" "+A +B +C" == some (.matched, false)
#guard matchT "A{B{C}}" "+A -A" == some (.no_match, false)
#guard matchT "A{B{C}}" "+B +A +C" == some (.no_match, false)
#guard matchT "A{B{C}}" "+A +C +B" == some (.no_match, false)
#guard matchT "A{B C}" "+A" == some (.might_match, false)
#guard matchT "A{B C}" "+B" == some (.no_match, false)
#guard matchT "A{B C}" "+A +B" == some (.might_match, false)
#guard matchT "A{B C}" "+A +C" == some (.no_match, false)
#guard matchT "A{B C}" "+A +B -B" == some (.might_match, false)
#guard matchT "A{B C}" "+A +B -A" == some (.no_match, false)
#guard matchT "A{B C}" "+A +B +C" == some (.matched, false)
#guard matchT "A{B C}" "+A +B -B +C" == some (.matched, false)
#guard matchT "A{(B C)}" "+A" == some (.might_match, false)
#guard matchT "A{(B C)}" "+B" == some (.no_match, false)
#guard matchT "A{(B C)}" "+A -B" == some (.no_match, false)
#guard matchT "A{(B C)}" "+A +B" == some (.might_match, false)
#guard matchT "A{(B C)}" "+A +B -B" == some (.no_match, false)
#guard matchT "A{(B C)}" "+A +B +C" == some (.matched, false)
#guard matchT "A{(B C)}" "+A +B -A +C" == some (.no_match, false)
#guard matchT "A{(B C)}" "+A +C" == some (.might_match, false)
#guard matchT "A{(B C)}" "+A +C -C" == some (.no_match, false)
#guard matchT "A{(B C)}" "+A +C +B" == some (.matched, false)
#guard matchT "A{(B C)}" "+A +C -A +B" == some (.no_match, false)
#guard matchT "(A B){C D}" "+A" == some (.might_match, false)
#guard matchT "(A B){C D}" "+B" == some (.might_match, false)
#guard matchT "(A B){C D}" "+A -A" == some (.no_match, false)
#guard matchT "(A B){C D}" "+A +B" == some (.might_match, false)
#guard matchT "(A B){C D}" "+B +A" == some (.might_match, false)
#guard matchT "(A B){C D}" "+A +B -A" == some (.no_match, false)
#guard matchT "(A B){C D}" "+A +B -B" == some (.no_match, false)
#guard matchT "(A B){C D}" "+A +B +D" == some (.no_match, false)
#guard matchT "(A B){C D}" "+A +B +C" == some (.might_match, false)
#guard matchT "(A B){C D}" "+A +B +C +D" == some (.matched, false)
#guard matchT "(A B){C D}" "+A +B +C -C" == some (.might_match, false)
#guard matchT "(A B){C D}" "+A +B +C -C +D" == some (.matched, false)
#guard matchT "(A B){C D}" "+B +A +C -C +D" == some (.matched, false)
#guard matchT "(A B){C D}" "+B +A +C -C -B +D" == some (.no_match, false)
#guard (parseSeq "+S").map (fun s => (matchSeq [⟨Key.KeyS, .Down, 0⟩, ⟨Key.KeyA, .Down, 0⟩, ⟨Key.KeyA, .UpAsync, 0⟩, ⟨Key.KeyS, .UpAsync, 0⟩, ⟨Key.KeyS, .DownAsync, 0⟩, ⟨Key.KeyS, .Down, 0⟩, ⟨Key.KeyA, .Down, 0⟩, ⟨Key.KeyA, .UpAsync, 0⟩, ⟨Key.KeyS, .UpAsync, 0⟩] s).res) == some .might_match
#guard (parseSeq "+S -S").map (fun s => (matchSeq [⟨Key.KeyS, .Down, 0⟩, ⟨Key.KeyA, .Down, 0⟩, ⟨Key.KeyA, .UpAsync, 0⟩, ⟨Key.KeyS, .UpAsync, 0⟩, ⟨Key.KeyS, .DownAsync, 0⟩, ⟨Key.KeyS, .Down, 0⟩, ⟨Key.KeyA, .Down, 0⟩, ⟨Key.KeyA, .UpAsync, 0⟩, ⟨Key.KeyS, .UpAsync, 0⟩] s).res) == some .no_match
#guard (parseSeq "+A").map (fun s => (matchSeq [⟨Key.KeyS, .Down, 0⟩, ⟨Key.KeyA, .Down, 0⟩, ⟨Key.KeyA, .UpAsync, 0⟩, ⟨Key.KeyS, .UpAsync, 0⟩, ⟨Key.KeyS, .DownAsync, 0⟩, ⟨Key.KeyS, .Down, 0⟩, ⟨Key.KeyA, .Down, 0⟩, ⟨Key.KeyA, .UpAsync, 0⟩, ⟨Key.KeyS, .UpAsync, 0⟩] s).res) == some .no_match
#guard (parseSeq "+S +A").map (fun s => (matchSeq [⟨Key.KeyS, .Down, 0⟩, ⟨Key.KeyA, .Down, 0⟩, ⟨Key.KeyA, .UpAsync, 0⟩, ⟨Key.KeyS, .UpAsync, 0⟩, ⟨Key.KeyS, .DownAsync, 0⟩, ⟨Key.KeyS, .Down, 0⟩, ⟨Key.KeyA, .Down, 0⟩, ⟨Key.KeyA, .UpAsync, 0⟩, ⟨Key.KeyS, .UpAsync, 0⟩] s).res) == some .might_match
#guard (parseSeq "+S +A -A").map (fun s => (matchSeq [⟨Key.KeyS, .Down, 0⟩, ⟨Key.KeyA, .Down, 0⟩, ⟨Key.KeyA, .UpAsync, 0⟩, ⟨Key.KeyS, .UpAsync, 0⟩, ⟨Key.KeyS, .DownAsync, 0⟩, ⟨Key.KeyS, .Down, 0⟩, ⟨Key.KeyA, .Down, 0⟩, ⟨Key.KeyA, .UpAsync, 0⟩, ⟨Key.KeyS, .UpAsync, 0⟩] s).res) == some .might_match
#guard (parseSeq "+S +A -A +A").map (fun s => (matchSeq [⟨Key.KeyS, .Down, 0⟩, ⟨Key.KeyA, .Down, 0⟩, ⟨Key.KeyA, .UpAsync, 0⟩, ⟨Key.KeyS, .UpAsync, 0⟩, ⟨Key.KeyS, .DownAsync, 0⟩, ⟨Key.KeyS, .Down, 0⟩, ⟨Key.KeyA, .Down, 0⟩, ⟨Key.KeyA, .UpAsync, 0⟩, ⟨Key.KeyS, .UpAsync, 0⟩] s).res) == some .matched
#guard (parseSeq "+S +A -A -S +S +A").map (fun s => (matchSeq [⟨Key.KeyS, .Down, 0⟩, ⟨Key.KeyA, .Down, 0⟩, ⟨Key.KeyA, .UpAsync, 0⟩, ⟨Key.KeyS, .UpAsync, 0⟩, ⟨Key.KeyS, .DownAsync, 0⟩, ⟨Key.KeyS, .Down, 0⟩, ⟨Key.KeyA, .Down, 0⟩, ⟨Key.KeyA, .UpAsync, 0⟩, ⟨Key.KeyS, .UpAsync, 0⟩] s).res) == some .matched
#guard (parseSeq "+S +A -S +S -A +A").map (fun s => (matchSeq [⟨Key.KeyS, .Down, 0⟩, ⟨Key.KeyA, .Down, 0⟩, ⟨Key.KeyA, .UpAsync, 0⟩, ⟨Key.KeyS, .UpAsync, 0⟩, ⟨Key.KeyS, .DownAsync, 0⟩, ⟨Key.KeyS, .Down, 0⟩, ⟨Key.KeyA, .Down, 0⟩, ⟨Key.KeyA, .UpAsync, 0⟩, ⟨Key.KeyS, .UpAsync, 0⟩] s).res) == some .matched
#guard (parseSeq "+S +A -S -A +S +A").map (fun s => (matchSeq [⟨Key.KeyS, .Down, 0⟩, ⟨Key.KeyA, .Down, 0⟩, ⟨Key.KeyA, .UpAsync, 0⟩, ⟨Key.KeyS, .UpAsync, 0⟩, ⟨Key.KeyS, .DownAsync, 0⟩, ⟨Key.KeyS, .Down, 0⟩, ⟨Key.KeyA, .Down, 0⟩, ⟨Key.KeyA, .UpAsync, 0⟩, ⟨Key.KeyS, .UpAsync, 0⟩] s).res) == some .matched

-- Match Not
#guard matchT "!A B C" "+A" == some (.no_match, false)
#guard matchT "!A B C" "+A +B" == some (.no_match, false)
#guard matchT "!A B C" "+A +B +C" == some (.no_match, false)
#guard matchT "!A B C" "+B" == some (.might_match, false)
#guard matchT "!A B C" "+B +C" == some (.matched, false)
#guard matchT "!A B C" "+B -B +C" == some (.matched, false)
#guard matchT "B !A C" "+A" == some (.no_match, false)
#guard matchT "B !A C" "+A +B" == some (.no_match, false)
#guard matchT "B !A C" "+A +B +C" == some (.no_match, false)
#guard matchT "B !A C" "+B" == some (.might_match, false)
#guard matchT "B !A C" "+B +A" == some (.no_match, false)
#guard matchT "B !A C" "+B +C" == some (.matched, false)
#guard matchT "B C !A" "+A" == some (.no_match, false)
#guard matchT "B C !A" "+A +B" == some (.no_match, false)
#guard matchT "B C !A" "+A +B +C" == some (.no_match, false)
#guard matchT "B C !A" "+B" == some (.might_match, false)
#guard matchT "B C !A" "+B +C" == some (.matched, false)
#guard matchT "A !A B" "+A" == some (.might_match, false)
#guard matchT "A !A B" "+A +B" == some (.no_match, false)
#guard matchT "A !A B" "+A +C" == some (.no_match, false)
#guard matchT "A !A B" "+A -A" == some (.might_match, false)
#guard matchT "A !A B" "+A -A +A" == some (.no_match, false)
#guard matchT "A !A B" "+A -A +B" == some (.matched, false)
#guard matchT "A !A B" "+A -A +C" == some (.no_match, false)

-- Match ANY
#guard matchT "Any" "+A" == some (.matched, false)
#guard (matchAny "Any" "+A").map fmtKeys == some "A"
#guard matchT "B{Any}" "+A" == some (.no_match, false)
#guard matchT "B{Any}" "+B" == some (.might_match, false)
#guard matchT "B{Any}" "+B -B" == some (.no_match, false)
#guard matchT "B{Any}" "+B +A" == some (.matched, false)
#guard (matchAny "B{Any}" "+B +A").map fmtKeys == some "A"
#guard matchT "B Any" "+A" == some (.no_match, false)
#guard matchT "B Any" "+B" == some (.might_match, false)
#guard matchT "B Any" "+B -B" == some (.might_match, false)
#guard matchT "B Any" "+B -B +A" == some (.matched, false)
#guard (matchAny "B Any" "+B -B +A").map fmtKeys == some "A"
#guard matchT "Any B" "+A" == some (.might_match, false)
#guard matchT "Any B" "+B" == some (.might_match, false)
#guard matchT "Any B" "+B -B" == some (.might_match, false)
#guard matchT "Any B" "+B -B +B" == some (.matched, false)
#guard (matchAny "Any B" "+B -B +B").map fmtKeys == some "B"
#guard matchT "Any B" "+B -B +C" == some (.no_match, false)
#guard matchT "Any{B}" "+A" == some (.might_match, false)
#guard matchT "Any{B}" "+B" == some (.might_match, false)
#guard matchT "Any{B}" "+B -B" == some (.no_match, false)
#guard matchT "Any{B}" "+A +B" == some (.matched, false)
#guard (matchAny "Any{B}" "+A +B").map fmtKeys == some "A"
#guard matchT "Any" "+ButtonLeft" == some (.no_match, false)
#guard matchT "Any" "+WheelUp" == some (.no_match, false)
#guard matchT "Any" "+Virtual1" == some (.no_match, false)

-- Match Timeout
#guard matchT "A{100ms}" "+A" == some (.might_match, false)
#guard matchTo "A{100ms}" "+A" == some (some ⟨Key.timeout, .Up, 100⟩)
#guard (parseIn "A{100ms}").map (fun e => (matchSeq e [⟨Key.KeyA, .Down, 0⟩, ⟨Key.timeout, .Up, 100⟩]).res) == some .matched
#guard (parseIn "A{100ms}").map (fun e => (matchSeq e [⟨Key.KeyA, .Down, 0⟩, ⟨Key.timeout, .Up, 100⟩]).timeout) == some none
#guard (parseIn "A{100ms}").map (fun e => (matchSeq e [⟨Key.KeyA, .Down, 0⟩, ⟨Key.timeout, .Up, 71⟩]).res) == some .no_match
#guard (parseIn "A{100ms}").map (fun e => (matchSeq e [⟨Key.KeyA, .Down, 0⟩, ⟨Key.timeout, .Up, 71⟩]).timeout) == some none

-- Match Not Timeout
#guard matchT "A{!100ms}" "+A" == some (.might_match, false)
#guard matchTo "A{!100ms}" "+A" == some (some ⟨Key.timeout, .NotTimeout_cancel_on_up_down, 100⟩)
#guard (parseIn "A{!100ms}").map (fun e => (matchSeq e [⟨Key.KeyA, .Down, 0⟩, ⟨Key.timeout, .Up, 100⟩]).res) == some .no_match
#guard (parseIn "A{!100ms}").map (fun e => (matchSeq e [⟨Key.KeyA, .Down, 0⟩, ⟨Key.timeout, .Up, 100⟩]).timeout) == some none
#guard (parseIn "A{!100ms}").map (fun e => (matchSeq e [⟨Key.KeyA, .Down, 0⟩, ⟨Key.timeout, .Up, 71⟩]).res) == some .might_match
#guard (parseIn "A{!100ms}").map (fun e => (matchSeq e [⟨Key.KeyA, .Down, 0⟩, ⟨Key.timeout, .Up, 71⟩]).timeout) == some none
#guard (parseIn "A{!100ms}").map (fun e => (matchSeq e [⟨Key.KeyA, .Down, 0⟩, ⟨Key.timeout, .Up, 71⟩, ⟨Key.KeyA, .Up, 0⟩]).res) == some .matched
#guard (parseIn "A{!100ms}").map (fun e => (matchSeq e [⟨Key.KeyA, .Down, 0⟩, ⟨Key.timeout, .Up, 71⟩, ⟨Key.KeyA, .Up, 0⟩]).timeout) == some none
#guard (parseIn "A{!100ms}").map (fun e => (matchSeq e [⟨Key.KeyA, .Down, 0⟩, ⟨Key.timeout, .Up, 71⟩, ⟨Key.KeyB, .Down, 0⟩]).res) == some .no_match
#guard (parseIn "A{!100ms}").map (fun e => (matchSeq e [⟨Key.KeyA, .Down, 0⟩, ⟨Key.timeout, .Up, 71⟩, ⟨Key.KeyB, .Down, 0⟩]).timeout) == some none
#guard (parseIn "A{!100ms}").map (fun e => (matchSeq e [⟨Key.KeyA, .Down, 0⟩, ⟨Key.KeyA, .Up, 0⟩]).res) == some .no_match
#guard (parseIn "A{!100ms}").map (fun e => (matchSeq e [⟨Key.KeyA, .Down, 0⟩, ⟨Key.KeyA, .Up, 0⟩]).timeout) == some none

-- Ignore surplus Timeouts
#guard (parseIn "A{B}").map (fun e => (matchSeq e [⟨Key.KeyA, .Down, 0⟩, ⟨Key.KeyB, .Down, 0⟩]).res) == some .matched
#guard (parseIn "A{B}").map (fun e => (matchSeq e [⟨Key.KeyA, .Down, 0⟩, ⟨Key.KeyB, .Down, 0⟩, ⟨Key.timeout, .Up, 100⟩]).res) == some .matched
#guard (parseIn "A{B}").map (fun e => (matchSeq e [⟨Key.KeyA, .Down, 0⟩, ⟨Key.timeout, .Up, 100⟩, ⟨Key.KeyB, .Down, 0⟩]).res) == some .matched

end KM.Test
