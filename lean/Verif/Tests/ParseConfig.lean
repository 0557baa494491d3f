import Verif.Tests.Lib
/-! Generated from `src/test/test1_ParseConfig.cpp`. -/
namespace KM.Test

/-- evaluates a check on the parsed configuration -/
def onCfg (s : String) (f : Config → Bool) : Bool := ((parseCfg s).map f).getD false
def ctxAt (c : Config) (i : Nat) : CContext := c.contexts[i]?.getD {}
/-- `test1_ParseConfig.cpp:11-25` -/
def findCtx (c : Config) (cls title : String) (path : String := "") : Nat :=
  match c.contexts.tail.findIdx? (fun x => x.matches noRegex cls.toList title.toList path.toList) with
  | some i => i + 1
  | none => 0

-- Empty config
#guard (parseCfg "\n\n  ").isSome
#guard onCfg "\n\n  " (fun c => c.contexts.length == 1)
#guard onCfg "\n\n  " (fun c => (ctxAt c 0).inputs.isEmpty)
#guard (parseCfg "\n    [default]\n  ").isSome
#guard onCfg "\n    [default]\n  " (fun c => c.contexts.length == 1)
#guard onCfg "\n    [default]\n  " (fun c => (ctxAt c 0).inputs.isEmpty)
#guard (parseCfg "\n    @done\n    A >> B\n  ").isSome
#guard onCfg "\n    @done\n    A >> B\n  " (fun c => c.contexts.length == 1)
#guard onCfg "\n    @done\n    A >> B\n  " (fun c => (ctxAt c 0).inputs.isEmpty)

-- Valid config
#guard (parseCfg "\n    # comment\n    MyMacro = A B C# comment \"\n\n    Shift{A} >> B\n    C >> CommandA ; comment $(\n    CommandA >> X\n    E >> CommandB\n\n    ; comment\n    [ system = \"Windows\" class='test'title=test ] # comment\n    CommandA >> Y        #; comment /\n    CommandB >> MyMacro   ;# comment '\n\n    [system='Linux', title=/firefox[123]*x{1,3}/i ] # comment\n    CommandA >> Shift{Y}      ## comment\n    CommandB >> Shift{MyMacro}  ;; comment\n  ").isSome

-- Problems
#guard (parseCfg "!A >> B").isNone
#guard (parseCfg "!A 100ms >> B").isNone
#guard (parseCfg "\n    C >> CommandA\n  ").isNone
#guard (parseCfg "\n    C >> CommandA\n    D >> CommandA\n    CommandA >> E\n  ").isSome
#guard (parseCfg "\n    C >> CommandA\n    CommandA >> D\n    CommandA >> E\n  ").isNone
#guard (parseCfg "\n    CommandB >> E\n  ").isNone
#guard (parseCfg "\n    C >> CommandA\n    CommandA >> CommandB\n    CommandB >> D\n  ").isNone
#guard (parseCfg "\n    C >> CommandA\n\n    [windo]\n    CommandA >> D\n  ").isNone
#guard (parseCfg "\n    C >> CommandA\n\n    []\n    CommandA >> D\n  ").isNone
#guard (parseCfg "\n    [class='abc']\n    CommandB >> D\n  ").isNone
#guard (parseCfg "\n    C >> CommandA\n\n    [class='abc']\n    CommandA >> D\n    CommandA >> E\n  ").isNone
#guard (parseCfg "\n    [class='abc']\n    C >> D\n  ").isSome
#guard (parseCfg "\n    [class='abc']\n    C >> CommandA\n    CommandA >> D\n  ").isSome
#guard (parseCfg "\n    C >> CommandA\n\n    [class='abc']\n    CommandA >> D\n  ").isSome
#guard (parseCfg "\n    C >> CommandA A\n    CommandA >> D\n  ").isNone
#guard (parseCfg "\n    C >> A CommandA\n    CommandA >> D\n  ").isNone
#guard (parseCfg "\n    C >> CommandA CommandB\n    CommandA >> D\n    CommandB >> E\n  ").isNone
#guard (parseCfg "\n    C >> CommandA\n    [system='Linux'\n    CommandA >> D\n  ").isNone
#guard (parseCfg "\n    C >> CommandA\n    [system='Linux'] a\n    CommandA >> D\n  ").isNone
#guard (parseCfg "\n    C >> CommandA\n    [class='']\n    CommandA >> D\n  ").isNone
#guard (parseCfg "\n    C >> CommandA\n    [system=/Linux/]\n    CommandA >> D\n  ").isNone
#guard (parseCfg "\n    [class = 'abc', title = \"test\"]\n    A >> B\n  ").isSome
#guard (parseCfg "\n    [class = 'abc',, title = \"test\"]\n    A >> B\n  ").isNone
#guard (parseCfg "\n    [class = 'abc', title = \"test\",]\n    A >> B\n  ").isNone

-- Config directives
#guard (parseCfg "@unknown").isNone
#guard (parseCfg "@allow-unmapped-commands").isSome
#guard (parseCfg "@allow-unmapped-commands true").isSome
#guard (parseCfg "@allow-unmapped-commands false").isSome
#guard (parseCfg "@allow-unmapped-commands True").isNone
#guard (parseCfg "@allow-unmapped-commands true a").isNone
#guard (parseCfg "\n    A >> command\n  ").isNone
#guard (parseCfg "\n    command >> A\n  ").isNone
#guard (parseCfg "\n    @allow-unmapped-commands\n    A >> command\n  ").isSome
#guard (parseCfg "\n    @allow-unmapped-commands\n    A >> Command   # assumes that Command is a command\n  ").isSome
#guard (parseCfg "\n    @allow-unmapped-commands\n    command >> A\n  ").isSome
#guard (parseCfg "\n    @allow-unmapped-commands\n    Command >> A   # assumes that Command is a key\n  ").isNone
#guard (parseCfg "\n    A >> Command\n    Command >> B\n  ").isSome
#guard (parseCfg "\n    @enforce-lowercase-commands\n    A >> Command\n    Command >> B\n  ").isNone
#guard (parseCfg "\n    @enforce-lowercase-commands\n    A >> command\n    command >> B\n\n    # ensure numbers are not treated as lowercase\n    31 >> 64\n  ").isSome
#guard (parseCfg "\n    @allow-unmapped-commands\n    @enforce-lowercase-commands\n    A >> Command\n  ").isNone
#guard (parseCfg "\n    @allow-unmapped-commands\n    @enforce-lowercase-commands\n    A >> command\n  ").isSome
#guard (parseCfg "\n    @allow-unmapped-commands\n    @enforce-lowercase-commands\n    command >> A\n  ").isSome
#guard (parseCfg "\n    @allow-unmapped-commands\n    @enforce-lowercase-commands\n    command >> UndefinedKey   # output is still validated\n  ").isNone
#guard (parseCfg "\n    @enforce-lowercase-commands true\n    A >> command\n    @enforce-lowercase-commands false\n    B >> Command\n    @allow-unmapped-commands\n  ").isSome

-- Forward modifiers directive
#guard (parseCfg "\n    @forward-modifiers\n    @forward-modifiers A ; comment\n    @forward-modifiers Shift Control # comment\n  ").isSome
#guard (parseCfg "@forward-modifiers Shft").isNone
#guard (parseCfg "@forward-modifiers Shift ^").isNone
#guard (parseCfg "@forward-modifiers 100ms").isNone
#guard (parseCfg "@forward-modifiers Any").isNone
#guard (parseCfg "@forward-modifiers ContextActive").isNone
#guard (parseCfg "\n    @forward-modifiers Shift Control Shift AltLeft ControlLeft # duplicates are removed\n    Control{A} >> Shift{X}\n    Control{B} >> command\n    ControlLeft{C} >> command\n    AltLeft{D} >> command\n    command >> Shift{Y}\n\n    [title=\"app\"]\n    command >> Control{Z}\n\n    [stage]\n    ShiftRight{X} >> Z\n  ").isSome
#guard onCfg "\n    @forward-modifiers Shift Control Shift AltLeft ControlLeft # duplicates are removed\n    Control{A} >> Shift{X}\n    Control{B} >> command\n    ControlLeft{C} >> command\n    AltLeft{D} >> command\n    command >> Shift{Y}\n\n    [title=\"app\"]\n    command >> Control{Z}\n\n    [stage]\n    ShiftRight{X} >> Z\n  " (fun c => c.contexts.length == 3)
#guard onCfg "\n    @forward-modifiers Shift Control Shift AltLeft ControlLeft # duplicates are removed\n    Control{A} >> Shift{X}\n    Control{B} >> command\n    ControlLeft{C} >> command\n    AltLeft{D} >> command\n    command >> Shift{Y}\n\n    [title=\"app\"]\n    command >> Control{Z}\n\n    [stage]\n    ShiftRight{X} >> Z\n  " (fun c => (ctxAt c 0).inputs.length == 11)
#guard onCfg "\n    @forward-modifiers Shift Control Shift AltLeft ControlLeft # duplicates are removed\n    Control{A} >> Shift{X}\n    Control{B} >> command\n    ControlLeft{C} >> command\n    AltLeft{D} >> command\n    command >> Shift{Y}\n\n    [title=\"app\"]\n    command >> Control{Z}\n\n    [stage]\n    ShiftRight{X} >> Z\n  " (fun c => (ctxAt c 0).outputs.length == 6)
#guard onCfg "\n    @forward-modifiers Shift Control Shift AltLeft ControlLeft # duplicates are removed\n    Control{A} >> Shift{X}\n    Control{B} >> command\n    ControlLeft{C} >> command\n    AltLeft{D} >> command\n    command >> Shift{Y}\n\n    [title=\"app\"]\n    command >> Control{Z}\n\n    [stage]\n    ShiftRight{X} >> Z\n  " (fun c => (ctxAt c 0).commandOutputs.length == 1)
#guard onCfg "\n    @forward-modifiers Shift Control Shift AltLeft ControlLeft # duplicates are removed\n    Control{A} >> Shift{X}\n    Control{B} >> command\n    ControlLeft{C} >> command\n    AltLeft{D} >> command\n    command >> Shift{Y}\n\n    [title=\"app\"]\n    command >> Control{Z}\n\n    [stage]\n    ShiftRight{X} >> Z\n  " (fun c => fmtSeq ((((ctxAt c 0).inputs[0]?.map (·.input)).getD default)) == "+ShiftLeft ~ShiftLeft")
#guard onCfg "\n    @forward-modifiers Shift Control Shift AltLeft ControlLeft # duplicates are removed\n    Control{A} >> Shift{X}\n    Control{B} >> command\n    ControlLeft{C} >> command\n    AltLeft{D} >> command\n    command >> Shift{Y}\n\n    [title=\"app\"]\n    command >> Control{Z}\n\n    [stage]\n    ShiftRight{X} >> Z\n  " (fun c => fmtSeq ((((ctxAt c 0).inputs[1]?.map (·.input)).getD default)) == "+ShiftRight ~ShiftRight")
#guard onCfg "\n    @forward-modifiers Shift Control Shift AltLeft ControlLeft # duplicates are removed\n    Control{A} >> Shift{X}\n    Control{B} >> command\n    ControlLeft{C} >> command\n    AltLeft{D} >> command\n    command >> Shift{Y}\n\n    [title=\"app\"]\n    command >> Control{Z}\n\n    [stage]\n    ShiftRight{X} >> Z\n  " (fun c => fmtSeq ((((ctxAt c 0).inputs[2]?.map (·.input)).getD default)) == "+ControlLeft ~ControlLeft")
#guard onCfg "\n    @forward-modifiers Shift Control Shift AltLeft ControlLeft # duplicates are removed\n    Control{A} >> Shift{X}\n    Control{B} >> command\n    ControlLeft{C} >> command\n    AltLeft{D} >> command\n    command >> Shift{Y}\n\n    [title=\"app\"]\n    command >> Control{Z}\n\n    [stage]\n    ShiftRight{X} >> Z\n  " (fun c => fmtSeq ((((ctxAt c 0).inputs[3]?.map (·.input)).getD default)) == "+ControlRight ~ControlRight")
#guard onCfg "\n    @forward-modifiers Shift Control Shift AltLeft ControlLeft # duplicates are removed\n    Control{A} >> Shift{X}\n    Control{B} >> command\n    ControlLeft{C} >> command\n    AltLeft{D} >> command\n    command >> Shift{Y}\n\n    [title=\"app\"]\n    command >> Control{Z}\n\n    [stage]\n    ShiftRight{X} >> Z\n  " (fun c => fmtSeq ((((ctxAt c 0).inputs[4]?.map (·.input)).getD default)) == "+AltLeft ~AltLeft")
#guard onCfg "\n    @forward-modifiers Shift Control Shift AltLeft ControlLeft # duplicates are removed\n    Control{A} >> Shift{X}\n    Control{B} >> command\n    ControlLeft{C} >> command\n    AltLeft{D} >> command\n    command >> Shift{Y}\n\n    [title=\"app\"]\n    command >> Control{Z}\n\n    [stage]\n    ShiftRight{X} >> Z\n  " (fun c => fmtSeq ((((ctxAt c 0).inputs[5]?.map (·.input)).getD default)) == "+ControlLeft +A ~A ~ControlLeft")
#guard onCfg "\n    @forward-modifiers Shift Control Shift AltLeft ControlLeft # duplicates are removed\n    Control{A} >> Shift{X}\n    Control{B} >> command\n    ControlLeft{C} >> command\n    AltLeft{D} >> command\n    command >> Shift{Y}\n\n    [title=\"app\"]\n    command >> Control{Z}\n\n    [stage]\n    ShiftRight{X} >> Z\n  " (fun c => fmtSeq ((((ctxAt c 0).inputs[6]?.map (·.input)).getD default)) == "+ControlRight +A ~A ~ControlRight")
#guard onCfg "\n    @forward-modifiers Shift Control Shift AltLeft ControlLeft # duplicates are removed\n    Control{A} >> Shift{X}\n    Control{B} >> command\n    ControlLeft{C} >> command\n    AltLeft{D} >> command\n    command >> Shift{Y}\n\n    [title=\"app\"]\n    command >> Control{Z}\n\n    [stage]\n    ShiftRight{X} >> Z\n  " (fun c => fmtSeq ((((ctxAt c 0).inputs[7]?.map (·.input)).getD default)) == "+ControlLeft +B ~B ~ControlLeft")
#guard onCfg "\n    @forward-modifiers Shift Control Shift AltLeft ControlLeft # duplicates are removed\n    Control{A} >> Shift{X}\n    Control{B} >> command\n    ControlLeft{C} >> command\n    AltLeft{D} >> command\n    command >> Shift{Y}\n\n    [title=\"app\"]\n    command >> Control{Z}\n\n    [stage]\n    ShiftRight{X} >> Z\n  " (fun c => fmtSeq ((((ctxAt c 0).inputs[8]?.map (·.input)).getD default)) == "+ControlRight +B ~B ~ControlRight")
#guard onCfg "\n    @forward-modifiers Shift Control Shift AltLeft ControlLeft # duplicates are removed\n    Control{A} >> Shift{X}\n    Control{B} >> command\n    ControlLeft{C} >> command\n    AltLeft{D} >> command\n    command >> Shift{Y}\n\n    [title=\"app\"]\n    command >> Control{Z}\n\n    [stage]\n    ShiftRight{X} >> Z\n  " (fun c => fmtSeq ((((ctxAt c 0).inputs[9]?.map (·.input)).getD default)) == "+ControlLeft +C ~C ~ControlLeft")
#guard onCfg "\n    @forward-modifiers Shift Control Shift AltLeft ControlLeft # duplicates are removed\n    Control{A} >> Shift{X}\n    Control{B} >> command\n    ControlLeft{C} >> command\n    AltLeft{D} >> command\n    command >> Shift{Y}\n\n    [title=\"app\"]\n    command >> Control{Z}\n\n    [stage]\n    ShiftRight{X} >> Z\n  " (fun c => fmtSeq ((((ctxAt c 0).inputs[10]?.map (·.input)).getD default)) == "+AltLeft +D ~D ~AltLeft")
#guard onCfg "\n    @forward-modifiers Shift Control Shift AltLeft ControlLeft # duplicates are removed\n    Control{A} >> Shift{X}\n    Control{B} >> command\n    ControlLeft{C} >> command\n    AltLeft{D} >> command\n    command >> Shift{Y}\n\n    [title=\"app\"]\n    command >> Control{Z}\n\n    [stage]\n    ShiftRight{X} >> Z\n  " (fun c => fmtSeq ((((ctxAt c 0).commandOutputs[0]?.map (·.output)).getD default)) == "!AltLeft !ControlRight !ControlLeft +ShiftLeft +Y -Y -ShiftLeft")
#guard onCfg "\n    @forward-modifiers Shift Control Shift AltLeft ControlLeft # duplicates are removed\n    Control{A} >> Shift{X}\n    Control{B} >> command\n    ControlLeft{C} >> command\n    AltLeft{D} >> command\n    command >> Shift{Y}\n\n    [title=\"app\"]\n    command >> Control{Z}\n\n    [stage]\n    ShiftRight{X} >> Z\n  " (fun c => fmtSeq (((ctxAt c 0).outputs[0]?.getD [])) == "!ControlRight !ControlLeft +ShiftLeft +X -X -ShiftLeft")
#guard onCfg "\n    @forward-modifiers Shift Control Shift AltLeft ControlLeft # duplicates are removed\n    Control{A} >> Shift{X}\n    Control{B} >> command\n    ControlLeft{C} >> command\n    AltLeft{D} >> command\n    command >> Shift{Y}\n\n    [title=\"app\"]\n    command >> Control{Z}\n\n    [stage]\n    ShiftRight{X} >> Z\n  " (fun c => fmtSeq (((ctxAt c 0).outputs[1]?.getD [])) == "+AltLeft")
#guard onCfg "\n    @forward-modifiers Shift Control Shift AltLeft ControlLeft # duplicates are removed\n    Control{A} >> Shift{X}\n    Control{B} >> command\n    ControlLeft{C} >> command\n    AltLeft{D} >> command\n    command >> Shift{Y}\n\n    [title=\"app\"]\n    command >> Control{Z}\n\n    [stage]\n    ShiftRight{X} >> Z\n  " (fun c => fmtSeq (((ctxAt c 0).outputs[2]?.getD [])) == "+ControlRight")
#guard onCfg "\n    @forward-modifiers Shift Control Shift AltLeft ControlLeft # duplicates are removed\n    Control{A} >> Shift{X}\n    Control{B} >> command\n    ControlLeft{C} >> command\n    AltLeft{D} >> command\n    command >> Shift{Y}\n\n    [title=\"app\"]\n    command >> Control{Z}\n\n    [stage]\n    ShiftRight{X} >> Z\n  " (fun c => fmtSeq (((ctxAt c 0).outputs[3]?.getD [])) == "+ControlLeft")
#guard onCfg "\n    @forward-modifiers Shift Control Shift AltLeft ControlLeft # duplicates are removed\n    Control{A} >> Shift{X}\n    Control{B} >> command\n    ControlLeft{C} >> command\n    AltLeft{D} >> command\n    command >> Shift{Y}\n\n    [title=\"app\"]\n    command >> Control{Z}\n\n    [stage]\n    ShiftRight{X} >> Z\n  " (fun c => fmtSeq (((ctxAt c 0).outputs[4]?.getD [])) == "+ShiftRight")
#guard onCfg "\n    @forward-modifiers Shift Control Shift AltLeft ControlLeft # duplicates are removed\n    Control{A} >> Shift{X}\n    Control{B} >> command\n    ControlLeft{C} >> command\n    AltLeft{D} >> command\n    command >> Shift{Y}\n\n    [title=\"app\"]\n    command >> Control{Z}\n\n    [stage]\n    ShiftRight{X} >> Z\n  " (fun c => fmtSeq (((ctxAt c 0).outputs[5]?.getD [])) == "+ShiftLeft")
#guard onCfg "\n    @forward-modifiers Shift Control Shift AltLeft ControlLeft # duplicates are removed\n    Control{A} >> Shift{X}\n    Control{B} >> command\n    ControlLeft{C} >> command\n    AltLeft{D} >> command\n    command >> Shift{Y}\n\n    [title=\"app\"]\n    command >> Control{Z}\n\n    [stage]\n    ShiftRight{X} >> Z\n  " (fun c => (ctxAt c 1).inputs.length == 0)
#guard onCfg "\n    @forward-modifiers Shift Control Shift AltLeft ControlLeft # duplicates are removed\n    Control{A} >> Shift{X}\n    Control{B} >> command\n    ControlLeft{C} >> command\n    AltLeft{D} >> command\n    command >> Shift{Y}\n\n    [title=\"app\"]\n    command >> Control{Z}\n\n    [stage]\n    ShiftRight{X} >> Z\n  " (fun c => (ctxAt c 1).outputs.length == 0)
#guard onCfg "\n    @forward-modifiers Shift Control Shift AltLeft ControlLeft # duplicates are removed\n    Control{A} >> Shift{X}\n    Control{B} >> command\n    ControlLeft{C} >> command\n    AltLeft{D} >> command\n    command >> Shift{Y}\n\n    [title=\"app\"]\n    command >> Control{Z}\n\n    [stage]\n    ShiftRight{X} >> Z\n  " (fun c => (ctxAt c 1).commandOutputs.length == 1)
#guard onCfg "\n    @forward-modifiers Shift Control Shift AltLeft ControlLeft # duplicates are removed\n    Control{A} >> Shift{X}\n    Control{B} >> command\n    ControlLeft{C} >> command\n    AltLeft{D} >> command\n    command >> Shift{Y}\n\n    [title=\"app\"]\n    command >> Control{Z}\n\n    [stage]\n    ShiftRight{X} >> Z\n  " (fun c => fmtSeq ((((ctxAt c 1).commandOutputs[0]?.map (·.output)).getD default)) == "!AltLeft !ControlRight +ControlLeft +Z -Z -ControlLeft")
#guard onCfg "\n    @forward-modifiers Shift Control Shift AltLeft ControlLeft # duplicates are removed\n    Control{A} >> Shift{X}\n    Control{B} >> command\n    ControlLeft{C} >> command\n    AltLeft{D} >> command\n    command >> Shift{Y}\n\n    [title=\"app\"]\n    command >> Control{Z}\n\n    [stage]\n    ShiftRight{X} >> Z\n  " (fun c => (ctxAt c 2).inputs.length == 6)
#guard onCfg "\n    @forward-modifiers Shift Control Shift AltLeft ControlLeft # duplicates are removed\n    Control{A} >> Shift{X}\n    Control{B} >> command\n    ControlLeft{C} >> command\n    AltLeft{D} >> command\n    command >> Shift{Y}\n\n    [title=\"app\"]\n    command >> Control{Z}\n\n    [stage]\n    ShiftRight{X} >> Z\n  " (fun c => (ctxAt c 2).outputs.length == 6)
#guard onCfg "\n    @forward-modifiers Shift Control Shift AltLeft ControlLeft # duplicates are removed\n    Control{A} >> Shift{X}\n    Control{B} >> command\n    ControlLeft{C} >> command\n    AltLeft{D} >> command\n    command >> Shift{Y}\n\n    [title=\"app\"]\n    command >> Control{Z}\n\n    [stage]\n    ShiftRight{X} >> Z\n  " (fun c => (ctxAt c 2).commandOutputs.isEmpty)
#guard onCfg "\n    @forward-modifiers Shift Control Shift AltLeft ControlLeft # duplicates are removed\n    Control{A} >> Shift{X}\n    Control{B} >> command\n    ControlLeft{C} >> command\n    AltLeft{D} >> command\n    command >> Shift{Y}\n\n    [title=\"app\"]\n    command >> Control{Z}\n\n    [stage]\n    ShiftRight{X} >> Z\n  " (fun c => fmtSeq ((((ctxAt c 2).inputs[0]?.map (·.input)).getD default)) == "+ShiftLeft ~ShiftLeft")
#guard onCfg "\n    @forward-modifiers Shift Control Shift AltLeft ControlLeft # duplicates are removed\n    Control{A} >> Shift{X}\n    Control{B} >> command\n    ControlLeft{C} >> command\n    AltLeft{D} >> command\n    command >> Shift{Y}\n\n    [title=\"app\"]\n    command >> Control{Z}\n\n    [stage]\n    ShiftRight{X} >> Z\n  " (fun c => fmtSeq ((((ctxAt c 2).inputs[1]?.map (·.input)).getD default)) == "+ShiftRight ~ShiftRight")
#guard onCfg "\n    @forward-modifiers Shift Control Shift AltLeft ControlLeft # duplicates are removed\n    Control{A} >> Shift{X}\n    Control{B} >> command\n    ControlLeft{C} >> command\n    AltLeft{D} >> command\n    command >> Shift{Y}\n\n    [title=\"app\"]\n    command >> Control{Z}\n\n    [stage]\n    ShiftRight{X} >> Z\n  " (fun c => fmtSeq ((((ctxAt c 2).inputs[2]?.map (·.input)).getD default)) == "+ControlLeft ~ControlLeft")
#guard onCfg "\n    @forward-modifiers Shift Control Shift AltLeft ControlLeft # duplicates are removed\n    Control{A} >> Shift{X}\n    Control{B} >> command\n    ControlLeft{C} >> command\n    AltLeft{D} >> command\n    command >> Shift{Y}\n\n    [title=\"app\"]\n    command >> Control{Z}\n\n    [stage]\n    ShiftRight{X} >> Z\n  " (fun c => fmtSeq ((((ctxAt c 2).inputs[3]?.map (·.input)).getD default)) == "+ControlRight ~ControlRight")
#guard onCfg "\n    @forward-modifiers Shift Control Shift AltLeft ControlLeft # duplicates are removed\n    Control{A} >> Shift{X}\n    Control{B} >> command\n    ControlLeft{C} >> command\n    AltLeft{D} >> command\n    command >> Shift{Y}\n\n    [title=\"app\"]\n    command >> Control{Z}\n\n    [stage]\n    ShiftRight{X} >> Z\n  " (fun c => fmtSeq ((((ctxAt c 2).inputs[4]?.map (·.input)).getD default)) == "+AltLeft ~AltLeft")
#guard onCfg "\n    @forward-modifiers Shift Control Shift AltLeft ControlLeft # duplicates are removed\n    Control{A} >> Shift{X}\n    Control{B} >> command\n    ControlLeft{C} >> command\n    AltLeft{D} >> command\n    command >> Shift{Y}\n\n    [title=\"app\"]\n    command >> Control{Z}\n\n    [stage]\n    ShiftRight{X} >> Z\n  " (fun c => fmtSeq ((((ctxAt c 2).inputs[5]?.map (·.input)).getD default)) == "+ShiftRight +X ~X ~ShiftRight")
#guard onCfg "\n    @forward-modifiers Shift Control Shift AltLeft ControlLeft # duplicates are removed\n    Control{A} >> Shift{X}\n    Control{B} >> command\n    ControlLeft{C} >> command\n    AltLeft{D} >> command\n    command >> Shift{Y}\n\n    [title=\"app\"]\n    command >> Control{Z}\n\n    [stage]\n    ShiftRight{X} >> Z\n  " (fun c => fmtSeq (((ctxAt c 2).outputs[0]?.getD [])) == "!ShiftRight +Z")

-- System contexts
#guard (parseCfg "\n    [default]\n    A >> B\n    B >> command\n\n    [system=\"Linux\"]\n    command >> L\n\n    [system=\"Linux\" title=\"app1\"]\n    command >> X\n\n    [system=\"Windows\"]\n    command >> W\n\n    [system=\"Windows\" title=\"app1\"]\n    command >> Y\n\n    [system=\"MacOS\"]\n    command >> M\n\n    [system=\"MacOS\" title=\"app1\"]\n    command >> Z\n\n    [title=\"app2\"]\n    command >> R\n  ").isSome
#guard onCfg "\n    [default]\n    A >> B\n    B >> command\n\n    [system=\"Linux\"]\n    command >> L\n\n    [system=\"Linux\" title=\"app1\"]\n    command >> X\n\n    [system=\"Windows\"]\n    command >> W\n\n    [system=\"Windows\" title=\"app1\"]\n    command >> Y\n\n    [system=\"MacOS\"]\n    command >> M\n\n    [system=\"MacOS\" title=\"app1\"]\n    command >> Z\n\n    [title=\"app2\"]\n    command >> R\n  " (fun c => c.contexts.length == 4)
#guard onCfg "\n    [default]\n    A >> B\n    B >> command\n\n    [system=\"Linux\"]\n    command >> L\n\n    [system=\"Linux\" title=\"app1\"]\n    command >> X\n\n    [system=\"Windows\"]\n    command >> W\n\n    [system=\"Windows\" title=\"app1\"]\n    command >> Y\n\n    [system=\"MacOS\"]\n    command >> M\n\n    [system=\"MacOS\" title=\"app1\"]\n    command >> Z\n\n    [title=\"app2\"]\n    command >> R\n  " (fun c => (ctxAt c 0).inputs.length == 2)
#guard onCfg "\n    [default]\n    A >> B\n    B >> command\n\n    [system=\"Linux\"]\n    command >> L\n\n    [system=\"Linux\" title=\"app1\"]\n    command >> X\n\n    [system=\"Windows\"]\n    command >> W\n\n    [system=\"Windows\" title=\"app1\"]\n    command >> Y\n\n    [system=\"MacOS\"]\n    command >> M\n\n    [system=\"MacOS\" title=\"app1\"]\n    command >> Z\n\n    [title=\"app2\"]\n    command >> R\n  " (fun c => (ctxAt c 0).outputs.length == 1)
#guard onCfg "\n    [default]\n    A >> B\n    B >> command\n\n    [system=\"Linux\"]\n    command >> L\n\n    [system=\"Linux\" title=\"app1\"]\n    command >> X\n\n    [system=\"Windows\"]\n    command >> W\n\n    [system=\"Windows\" title=\"app1\"]\n    command >> Y\n\n    [system=\"MacOS\"]\n    command >> M\n\n    [system=\"MacOS\" title=\"app1\"]\n    command >> Z\n\n    [title=\"app2\"]\n    command >> R\n  " (fun c => (ctxAt c 0).commandOutputs.length == 0)
#guard onCfg "\n    [default]\n    A >> B\n    B >> command\n\n    [system=\"Linux\"]\n    command >> L\n\n    [system=\"Linux\" title=\"app1\"]\n    command >> X\n\n    [system=\"Windows\"]\n    command >> W\n\n    [system=\"Windows\" title=\"app1\"]\n    command >> Y\n\n    [system=\"MacOS\"]\n    command >> M\n\n    [system=\"MacOS\" title=\"app1\"]\n    command >> Z\n\n    [title=\"app2\"]\n    command >> R\n  " (fun c => fmtSeq (((ctxAt c 0).outputs[0]?.getD [])) == "+B")
#guard onCfg "\n    [default]\n    A >> B\n    B >> command\n\n    [system=\"Linux\"]\n    command >> L\n\n    [system=\"Linux\" title=\"app1\"]\n    command >> X\n\n    [system=\"Windows\"]\n    command >> W\n\n    [system=\"Windows\" title=\"app1\"]\n    command >> Y\n\n    [system=\"MacOS\"]\n    command >> M\n\n    [system=\"MacOS\" title=\"app1\"]\n    command >> Z\n\n    [title=\"app2\"]\n    command >> R\n  " (fun c => fmtSeq ((((ctxAt c 1).commandOutputs[0]?.map (·.output)).getD default)) == "+L")
#guard onCfg "\n    [default]\n    A >> B\n    B >> command\n\n    [system=\"Linux\"]\n    command >> L\n\n    [system=\"Linux\" title=\"app1\"]\n    command >> X\n\n    [system=\"Windows\"]\n    command >> W\n\n    [system=\"Windows\" title=\"app1\"]\n    command >> Y\n\n    [system=\"MacOS\"]\n    command >> M\n\n    [system=\"MacOS\" title=\"app1\"]\n    command >> Z\n\n    [title=\"app2\"]\n    command >> R\n  " (fun c => fmtSeq ((((ctxAt c 2).commandOutputs[0]?.map (·.output)).getD default)) == "+X")
#guard onCfg "\n    [default]\n    A >> B\n    B >> command\n\n    [system=\"Linux\"]\n    command >> L\n\n    [system=\"Linux\" title=\"app1\"]\n    command >> X\n\n    [system=\"Windows\"]\n    command >> W\n\n    [system=\"Windows\" title=\"app1\"]\n    command >> Y\n\n    [system=\"MacOS\"]\n    command >> M\n\n    [system=\"MacOS\" title=\"app1\"]\n    command >> Z\n\n    [title=\"app2\"]\n    command >> R\n  " (fun c => fmtSeq ((((ctxAt c 3).commandOutputs[0]?.map (·.output)).getD default)) == "+R")

-- Context filters
#guard (parseCfg "\n    A >> command\n\n    [title = /Title1|Title2/ ]\n    command >> B\n\n    [title = /Title3/i]\n    command >> C\n\n    [title = \"Title4\"] # substring for titles\n    command >> D\n\n    [title = /^Title5$/]\n    command >> E\n\n    [class = /Class1|Class2/ ]\n    command >> F\n\n    [class = /Class3/i]\n    command >> G\n\n    [class = \"Class4\"] # exact string for classes\n    command >> H\n\n    [class = /^Class5$/]\n    command >> I\n\n    [class = /^Base\\d+$/]\n    command >> J\n  ").isSome
#guard onCfg "\n    A >> command\n\n    [title = /Title1|Title2/ ]\n    command >> B\n\n    [title = /Title3/i]\n    command >> C\n\n    [title = \"Title4\"] # substring for titles\n    command >> D\n\n    [title = /^Title5$/]\n    command >> E\n\n    [class = /Class1|Class2/ ]\n    command >> F\n\n    [class = /Class3/i]\n    command >> G\n\n    [class = \"Class4\"] # exact string for classes\n    command >> H\n\n    [class = /^Class5$/]\n    command >> I\n\n    [class = /^Base\\d+$/]\n    command >> J\n  " (fun c => String.ofList (ctxAt c 1).windowTitle.string == "/Title1|Title2/")
#guard onCfg "\n    A >> command\n\n    [title = /Title1|Title2/ ]\n    command >> B\n\n    [title = /Title3/i]\n    command >> C\n\n    [title = \"Title4\"] # substring for titles\n    command >> D\n\n    [title = /^Title5$/]\n    command >> E\n\n    [class = /Class1|Class2/ ]\n    command >> F\n\n    [class = /Class3/i]\n    command >> G\n\n    [class = \"Class4\"] # exact string for classes\n    command >> H\n\n    [class = /^Class5$/]\n    command >> I\n\n    [class = /^Base\\d+$/]\n    command >> J\n  " (fun c => String.ofList (ctxAt c 7).windowClass.string == "Class4")
#guard onCfg "\n    A >> command\n\n    [title = /Title1|Title2/ ]\n    command >> B\n\n    [title = /Title3/i]\n    command >> C\n\n    [title = \"Title4\"] # substring for titles\n    command >> D\n\n    [title = /^Title5$/]\n    command >> E\n\n    [class = /Class1|Class2/ ]\n    command >> F\n\n    [class = /Class3/i]\n    command >> G\n\n    [class = \"Class4\"] # exact string for classes\n    command >> H\n\n    [class = /^Class5$/]\n    command >> I\n\n    [class = /^Base\\d+$/]\n    command >> J\n  " (fun c => String.ofList (ctxAt c 8).windowClass.string == "/^Class5$/")

-- Context filters #2
#guard (parseCfg "\n    A >> command\n\n    [device_id = \"usb-Dell_Dell_Multimedia_Pro_Keyboard-event-kbd\"]\n    command >> B\n  ").isSome
#guard onCfg "\n    A >> command\n\n    [device_id = \"usb-Dell_Dell_Multimedia_Pro_Keyboard-event-kbd\"]\n    command >> B\n  " (fun c => c.contexts.length == 2)
#guard onCfg "\n    A >> command\n\n    [device_id = \"usb-Dell_Dell_Multimedia_Pro_Keyboard-event-kbd\"]\n    command >> B\n  " (fun c => String.ofList (ctxAt c 1).deviceIdFilter.string == "usb-Dell_Dell_Multimedia_Pro_Keyboard-event-kbd")

-- Context modifier
#guard (parseCfg "\n    Ext = A\n    Ext{C} >> X\n\n    [modifier = \"Ext\"]\n    D >> Y\n\n    [modifier = \"!Ext\"]\n    E >> Z\n\n    [modifier = \"Virtual0 !Virtual1\"]\n    F >> W\n  ").isSome
#guard onCfg "\n    Ext = A\n    Ext{C} >> X\n\n    [modifier = \"Ext\"]\n    D >> Y\n\n    [modifier = \"!Ext\"]\n    E >> Z\n\n    [modifier = \"Virtual0 !Virtual1\"]\n    F >> W\n  " (fun c => c.contexts.length == 4)
#guard onCfg "\n    Ext = A\n    Ext{C} >> X\n\n    [modifier = \"Ext\"]\n    D >> Y\n\n    [modifier = \"!Ext\"]\n    E >> Z\n\n    [modifier = \"Virtual0 !Virtual1\"]\n    F >> W\n  " (fun c => (ctxAt c 0).inputs.length == 1)
#guard onCfg "\n    Ext = A\n    Ext{C} >> X\n\n    [modifier = \"Ext\"]\n    D >> Y\n\n    [modifier = \"!Ext\"]\n    E >> Z\n\n    [modifier = \"Virtual0 !Virtual1\"]\n    F >> W\n  " (fun c => (ctxAt c 1).inputs.length == 1)
#guard onCfg "\n    Ext = A\n    Ext{C} >> X\n\n    [modifier = \"Ext\"]\n    D >> Y\n\n    [modifier = \"!Ext\"]\n    E >> Z\n\n    [modifier = \"Virtual0 !Virtual1\"]\n    F >> W\n  " (fun c => (ctxAt c 2).inputs.length == 1)
#guard onCfg "\n    Ext = A\n    Ext{C} >> X\n\n    [modifier = \"Ext\"]\n    D >> Y\n\n    [modifier = \"!Ext\"]\n    E >> Z\n\n    [modifier = \"Virtual0 !Virtual1\"]\n    F >> W\n  " (fun c => (ctxAt c 3).inputs.length == 1)
#guard onCfg "\n    Ext = A\n    Ext{C} >> X\n\n    [modifier = \"Ext\"]\n    D >> Y\n\n    [modifier = \"!Ext\"]\n    E >> Z\n\n    [modifier = \"Virtual0 !Virtual1\"]\n    F >> W\n  " (fun c => fmtSeq ((((ctxAt c 0).inputs[0]?.map (·.input)).getD default)) == "+A +C ~C ~A")
#guard onCfg "\n    Ext = A\n    Ext{C} >> X\n\n    [modifier = \"Ext\"]\n    D >> Y\n\n    [modifier = \"!Ext\"]\n    E >> Z\n\n    [modifier = \"Virtual0 !Virtual1\"]\n    F >> W\n  " (fun c => fmtSeq ((ctxAt c 0).modifierFilter) == "")
#guard onCfg "\n    Ext = A\n    Ext{C} >> X\n\n    [modifier = \"Ext\"]\n    D >> Y\n\n    [modifier = \"!Ext\"]\n    E >> Z\n\n    [modifier = \"Virtual0 !Virtual1\"]\n    F >> W\n  " (fun c => fmtSeq ((((ctxAt c 1).inputs[0]?.map (·.input)).getD default)) == "+D ~D")
#guard onCfg "\n    Ext = A\n    Ext{C} >> X\n\n    [modifier = \"Ext\"]\n    D >> Y\n\n    [modifier = \"!Ext\"]\n    E >> Z\n\n    [modifier = \"Virtual0 !Virtual1\"]\n    F >> W\n  " (fun c => fmtSeq ((ctxAt c 1).modifierFilter) == "+A")
#guard onCfg "\n    Ext = A\n    Ext{C} >> X\n\n    [modifier = \"Ext\"]\n    D >> Y\n\n    [modifier = \"!Ext\"]\n    E >> Z\n\n    [modifier = \"Virtual0 !Virtual1\"]\n    F >> W\n  " (fun c => fmtSeq ((((ctxAt c 2).inputs[0]?.map (·.input)).getD default)) == "+E ~E")
#guard onCfg "\n    Ext = A\n    Ext{C} >> X\n\n    [modifier = \"Ext\"]\n    D >> Y\n\n    [modifier = \"!Ext\"]\n    E >> Z\n\n    [modifier = \"Virtual0 !Virtual1\"]\n    F >> W\n  " (fun c => fmtSeq ((ctxAt c 2).modifierFilter) == "!A")
#guard onCfg "\n    Ext = A\n    Ext{C} >> X\n\n    [modifier = \"Ext\"]\n    D >> Y\n\n    [modifier = \"!Ext\"]\n    E >> Z\n\n    [modifier = \"Virtual0 !Virtual1\"]\n    F >> W\n  " (fun c => fmtSeq ((((ctxAt c 3).inputs[0]?.map (·.input)).getD default)) == "+F ~F")
#guard onCfg "\n    Ext = A\n    Ext{C} >> X\n\n    [modifier = \"Ext\"]\n    D >> Y\n\n    [modifier = \"!Ext\"]\n    E >> Z\n\n    [modifier = \"Virtual0 !Virtual1\"]\n    F >> W\n  " (fun c => fmtSeq ((ctxAt c 3).modifierFilter) == "+Virtual0 !Virtual1")

-- Context macro
#guard (parseCfg "\n    DeviceA = /Device1/\n    TitleB = \"Title1\"\n\n    [device=DeviceA class = \"A\"]\n    A >> B\n\n    [title=TitleB device = DeviceB]\n    E >> F\n  ").isSome
#guard onCfg "\n    DeviceA = /Device1/\n    TitleB = \"Title1\"\n\n    [device=DeviceA class = \"A\"]\n    A >> B\n\n    [title=TitleB device = DeviceB]\n    E >> F\n  " (fun c => c.contexts.length == 2)
#guard onCfg "\n    DeviceA = /Device1/\n    TitleB = \"Title1\"\n\n    [device=DeviceA class = \"A\"]\n    A >> B\n\n    [title=TitleB device = DeviceB]\n    E >> F\n  " (fun c => String.ofList (ctxAt c 0).deviceFilter.string == "/Device1/")
#guard onCfg "\n    DeviceA = /Device1/\n    TitleB = \"Title1\"\n\n    [device=DeviceA class = \"A\"]\n    A >> B\n\n    [title=TitleB device = DeviceB]\n    E >> F\n  " (fun c => String.ofList (ctxAt c 0).windowClass.string == "A")
#guard onCfg "\n    DeviceA = /Device1/\n    TitleB = \"Title1\"\n\n    [device=DeviceA class = \"A\"]\n    A >> B\n\n    [title=TitleB device = DeviceB]\n    E >> F\n  " (fun c => String.ofList (ctxAt c 1).deviceFilter.string == "DeviceB")
#guard onCfg "\n    DeviceA = /Device1/\n    TitleB = \"Title1\"\n\n    [device=DeviceA class = \"A\"]\n    A >> B\n\n    [title=TitleB device = DeviceB]\n    E >> F\n  " (fun c => String.ofList (ctxAt c 1).windowTitle.string == "Title1")

-- Context with inverted filters
#guard (parseCfg "\n    [device != DeviceA class!=\"A\" title!=\"B\" path!=\"C\" modifier!=A]\n    A >> B\n  ").isSome
#guard onCfg "\n    [device != DeviceA class!=\"A\" title!=\"B\" path!=\"C\" modifier!=A]\n    A >> B\n  " (fun c => c.contexts.length == 1)
#guard onCfg "\n    [device != DeviceA class!=\"A\" title!=\"B\" path!=\"C\" modifier!=A]\n    A >> B\n  " (fun c => (ctxAt c 0).deviceFilter.invert)
#guard onCfg "\n    [device != DeviceA class!=\"A\" title!=\"B\" path!=\"C\" modifier!=A]\n    A >> B\n  " (fun c => (ctxAt c 0).invertModifierFilter)
#guard onCfg "\n    [device != DeviceA class!=\"A\" title!=\"B\" path!=\"C\" modifier!=A]\n    A >> B\n  " (fun c => (ctxAt c 0).windowTitle.invert)
#guard onCfg "\n    [device != DeviceA class!=\"A\" title!=\"B\" path!=\"C\" modifier!=A]\n    A >> B\n  " (fun c => (ctxAt c 0).windowClass.invert)
#guard onCfg "\n    [device != DeviceA class!=\"A\" title!=\"B\" path!=\"C\" modifier!=A]\n    A >> B\n  " (fun c => (ctxAt c 0).windowPath.invert)

-- Context with fallthrough
#guard (parseCfg "\n    [title = A]\n    A >> B\n\n    [title = B]  # fallthrough\n    [title = C]\n    A >> B\n\n    [title = D]  # removed\n    \n    [title = E]\n    A >> B\n\n    [title = F]  # removed\n    #A >> B\n    [title = G]\n    A >> B\n\n    [title = H]  # removed\n    [title = I]  # removed\n\n    [title = J]  # fallthrough\n    [system = \"Linux\"]   # two of\n    [system = \"Windows\"] # three\n    [system = \"MacOS\"]   # are removed\n    A >> B\n  ").isSome
#guard onCfg "\n    [title = A]\n    A >> B\n\n    [title = B]  # fallthrough\n    [title = C]\n    A >> B\n\n    [title = D]  # removed\n    \n    [title = E]\n    A >> B\n\n    [title = F]  # removed\n    #A >> B\n    [title = G]\n    A >> B\n\n    [title = H]  # removed\n    [title = I]  # removed\n\n    [title = J]  # fallthrough\n    [system = \"Linux\"]   # two of\n    [system = \"Windows\"] # three\n    [system = \"MacOS\"]   # are removed\n    A >> B\n  " (fun c => c.contexts.length == 7)
#guard onCfg "\n    [title = A]\n    A >> B\n\n    [title = B]  # fallthrough\n    [title = C]\n    A >> B\n\n    [title = D]  # removed\n    \n    [title = E]\n    A >> B\n\n    [title = F]  # removed\n    #A >> B\n    [title = G]\n    A >> B\n\n    [title = H]  # removed\n    [title = I]  # removed\n\n    [title = J]  # fallthrough\n    [system = \"Linux\"]   # two of\n    [system = \"Windows\"] # three\n    [system = \"MacOS\"]   # are removed\n    A >> B\n  " (fun c => !(ctxAt c 0).fallthrough)
#guard onCfg "\n    [title = A]\n    A >> B\n\n    [title = B]  # fallthrough\n    [title = C]\n    A >> B\n\n    [title = D]  # removed\n    \n    [title = E]\n    A >> B\n\n    [title = F]  # removed\n    #A >> B\n    [title = G]\n    A >> B\n\n    [title = H]  # removed\n    [title = I]  # removed\n\n    [title = J]  # fallthrough\n    [system = \"Linux\"]   # two of\n    [system = \"Windows\"] # three\n    [system = \"MacOS\"]   # are removed\n    A >> B\n  " (fun c => (ctxAt c 1).fallthrough)
#guard onCfg "\n    [title = A]\n    A >> B\n\n    [title = B]  # fallthrough\n    [title = C]\n    A >> B\n\n    [title = D]  # removed\n    \n    [title = E]\n    A >> B\n\n    [title = F]  # removed\n    #A >> B\n    [title = G]\n    A >> B\n\n    [title = H]  # removed\n    [title = I]  # removed\n\n    [title = J]  # fallthrough\n    [system = \"Linux\"]   # two of\n    [system = \"Windows\"] # three\n    [system = \"MacOS\"]   # are removed\n    A >> B\n  " (fun c => !(ctxAt c 2).fallthrough)
#guard onCfg "\n    [title = A]\n    A >> B\n\n    [title = B]  # fallthrough\n    [title = C]\n    A >> B\n\n    [title = D]  # removed\n    \n    [title = E]\n    A >> B\n\n    [title = F]  # removed\n    #A >> B\n    [title = G]\n    A >> B\n\n    [title = H]  # removed\n    [title = I]  # removed\n\n    [title = J]  # fallthrough\n    [system = \"Linux\"]   # two of\n    [system = \"Windows\"] # three\n    [system = \"MacOS\"]   # are removed\n    A >> B\n  " (fun c => !(ctxAt c 3).fallthrough)
#guard onCfg "\n    [title = A]\n    A >> B\n\n    [title = B]  # fallthrough\n    [title = C]\n    A >> B\n\n    [title = D]  # removed\n    \n    [title = E]\n    A >> B\n\n    [title = F]  # removed\n    #A >> B\n    [title = G]\n    A >> B\n\n    [title = H]  # removed\n    [title = I]  # removed\n\n    [title = J]  # fallthrough\n    [system = \"Linux\"]   # two of\n    [system = \"Windows\"] # three\n    [system = \"MacOS\"]   # are removed\n    A >> B\n  " (fun c => !(ctxAt c 4).fallthrough)
#guard onCfg "\n    [title = A]\n    A >> B\n\n    [title = B]  # fallthrough\n    [title = C]\n    A >> B\n\n    [title = D]  # removed\n    \n    [title = E]\n    A >> B\n\n    [title = F]  # removed\n    #A >> B\n    [title = G]\n    A >> B\n\n    [title = H]  # removed\n    [title = I]  # removed\n\n    [title = J]  # fallthrough\n    [system = \"Linux\"]   # two of\n    [system = \"Windows\"] # three\n    [system = \"MacOS\"]   # are removed\n    A >> B\n  " (fun c => (ctxAt c 5).fallthrough)
#guard onCfg "\n    [title = A]\n    A >> B\n\n    [title = B]  # fallthrough\n    [title = C]\n    A >> B\n\n    [title = D]  # removed\n    \n    [title = E]\n    A >> B\n\n    [title = F]  # removed\n    #A >> B\n    [title = G]\n    A >> B\n\n    [title = H]  # removed\n    [title = I]  # removed\n\n    [title = J]  # fallthrough\n    [system = \"Linux\"]   # two of\n    [system = \"Windows\"] # three\n    [system = \"MacOS\"]   # are removed\n    A >> B\n  " (fun c => !(ctxAt c 6).fallthrough)

-- Stages
#guard (parseCfg "\n    A >> B    # 0\n\n    [stage]   # 1, no fallthrough\n    [default] # 2\n    B >> C\n    \n    [default] # removed\n    [stage]   # 3\n    C >> D\n\n    [default] # removed\n\n    [stage]   # 4\n    E >> F\n\n    [default] # removed\n\n    [default] # 5\n    F >> G\n\n    [stage]   # 6, no fallthrough\n    [stage]   # 7\n\n    [default] # 8\n    H >> J\n  ").isSome
#guard onCfg "\n    A >> B    # 0\n\n    [stage]   # 1, no fallthrough\n    [default] # 2\n    B >> C\n    \n    [default] # removed\n    [stage]   # 3\n    C >> D\n\n    [default] # removed\n\n    [stage]   # 4\n    E >> F\n\n    [default] # removed\n\n    [default] # 5\n    F >> G\n\n    [stage]   # 6, no fallthrough\n    [stage]   # 7\n\n    [default] # 8\n    H >> J\n  " (fun c => c.contexts.length == 9)
#guard onCfg "\n    A >> B    # 0\n\n    [stage]   # 1, no fallthrough\n    [default] # 2\n    B >> C\n    \n    [default] # removed\n    [stage]   # 3\n    C >> D\n\n    [default] # removed\n\n    [stage]   # 4\n    E >> F\n\n    [default] # removed\n\n    [default] # 5\n    F >> G\n\n    [stage]   # 6, no fallthrough\n    [stage]   # 7\n\n    [default] # 8\n    H >> J\n  " (fun c => (ctxAt c 0).beginStage)
#guard onCfg "\n    A >> B    # 0\n\n    [stage]   # 1, no fallthrough\n    [default] # 2\n    B >> C\n    \n    [default] # removed\n    [stage]   # 3\n    C >> D\n\n    [default] # removed\n\n    [stage]   # 4\n    E >> F\n\n    [default] # removed\n\n    [default] # 5\n    F >> G\n\n    [stage]   # 6, no fallthrough\n    [stage]   # 7\n\n    [default] # 8\n    H >> J\n  " (fun c => (ctxAt c 1).beginStage)
#guard onCfg "\n    A >> B    # 0\n\n    [stage]   # 1, no fallthrough\n    [default] # 2\n    B >> C\n    \n    [default] # removed\n    [stage]   # 3\n    C >> D\n\n    [default] # removed\n\n    [stage]   # 4\n    E >> F\n\n    [default] # removed\n\n    [default] # 5\n    F >> G\n\n    [stage]   # 6, no fallthrough\n    [stage]   # 7\n\n    [default] # 8\n    H >> J\n  " (fun c => !(ctxAt c 2).beginStage)
#guard onCfg "\n    A >> B    # 0\n\n    [stage]   # 1, no fallthrough\n    [default] # 2\n    B >> C\n    \n    [default] # removed\n    [stage]   # 3\n    C >> D\n\n    [default] # removed\n\n    [stage]   # 4\n    E >> F\n\n    [default] # removed\n\n    [default] # 5\n    F >> G\n\n    [stage]   # 6, no fallthrough\n    [stage]   # 7\n\n    [default] # 8\n    H >> J\n  " (fun c => (ctxAt c 3).beginStage)
#guard onCfg "\n    A >> B    # 0\n\n    [stage]   # 1, no fallthrough\n    [default] # 2\n    B >> C\n    \n    [default] # removed\n    [stage]   # 3\n    C >> D\n\n    [default] # removed\n\n    [stage]   # 4\n    E >> F\n\n    [default] # removed\n\n    [default] # 5\n    F >> G\n\n    [stage]   # 6, no fallthrough\n    [stage]   # 7\n\n    [default] # 8\n    H >> J\n  " (fun c => (ctxAt c 4).beginStage)
#guard onCfg "\n    A >> B    # 0\n\n    [stage]   # 1, no fallthrough\n    [default] # 2\n    B >> C\n    \n    [default] # removed\n    [stage]   # 3\n    C >> D\n\n    [default] # removed\n\n    [stage]   # 4\n    E >> F\n\n    [default] # removed\n\n    [default] # 5\n    F >> G\n\n    [stage]   # 6, no fallthrough\n    [stage]   # 7\n\n    [default] # 8\n    H >> J\n  " (fun c => !(ctxAt c 5).beginStage)
#guard onCfg "\n    A >> B    # 0\n\n    [stage]   # 1, no fallthrough\n    [default] # 2\n    B >> C\n    \n    [default] # removed\n    [stage]   # 3\n    C >> D\n\n    [default] # removed\n\n    [stage]   # 4\n    E >> F\n\n    [default] # removed\n\n    [default] # 5\n    F >> G\n\n    [stage]   # 6, no fallthrough\n    [stage]   # 7\n\n    [default] # 8\n    H >> J\n  " (fun c => (ctxAt c 6).beginStage)
#guard onCfg "\n    A >> B    # 0\n\n    [stage]   # 1, no fallthrough\n    [default] # 2\n    B >> C\n    \n    [default] # removed\n    [stage]   # 3\n    C >> D\n\n    [default] # removed\n\n    [stage]   # 4\n    E >> F\n\n    [default] # removed\n\n    [default] # 5\n    F >> G\n\n    [stage]   # 6, no fallthrough\n    [stage]   # 7\n\n    [default] # 8\n    H >> J\n  " (fun c => (ctxAt c 7).beginStage)
#guard onCfg "\n    A >> B    # 0\n\n    [stage]   # 1, no fallthrough\n    [default] # 2\n    B >> C\n    \n    [default] # removed\n    [stage]   # 3\n    C >> D\n\n    [default] # removed\n\n    [stage]   # 4\n    E >> F\n\n    [default] # removed\n\n    [default] # 5\n    F >> G\n\n    [stage]   # 6, no fallthrough\n    [stage]   # 7\n\n    [default] # 8\n    H >> J\n  " (fun c => !(ctxAt c 8).beginStage)

-- Macros
#guard (parseCfg "\n    MyMacro = A{B}\n    MyMacro >> C # MyMacro\n    C >> MyMacro   # MyMacro\n  ").isSome
#guard onCfg "\n    MyMacro = A{B}\n    MyMacro >> C # MyMacro\n    C >> MyMacro   # MyMacro\n  " (fun c => (ctxAt c 0).inputs.length == 2)
#guard onCfg "\n    MyMacro = A{B}\n    MyMacro >> C # MyMacro\n    C >> MyMacro   # MyMacro\n  " (fun c => (ctxAt c 0).outputs.length == 2)
#guard onCfg "\n    MyMacro = A{B}\n    MyMacro >> C # MyMacro\n    C >> MyMacro   # MyMacro\n  " (fun c => (ctxAt c 0).commandOutputs.length == 0)
#guard onCfg "\n    MyMacro = A{B}\n    MyMacro >> C # MyMacro\n    C >> MyMacro   # MyMacro\n  " (fun c => fmtSeq ((((ctxAt c 0).inputs[0]?.map (·.input)).getD default)) == "+A +B ~B ~A")
#guard onCfg "\n    MyMacro = A{B}\n    MyMacro >> C # MyMacro\n    C >> MyMacro   # MyMacro\n  " (fun c => fmtSeq (((ctxAt c 0).outputs[0]?.getD [])) == "+C")
#guard onCfg "\n    MyMacro = A{B}\n    MyMacro >> C # MyMacro\n    C >> MyMacro   # MyMacro\n  " (fun c => fmtSeq ((((ctxAt c 0).inputs[1]?.map (·.input)).getD default)) == "+C ~C")
#guard onCfg "\n    MyMacro = A{B}\n    MyMacro >> C # MyMacro\n    C >> MyMacro   # MyMacro\n  " (fun c => fmtSeq (((ctxAt c 0).outputs[1]?.getD [])) == "+A +B -B -A")
#guard (parseCfg "\n    Macro1 = F   # >\n    Macro2 = E Macro1 G  # Macro1\n    Macro3 =     # -\n    Macro1 A Macro2 Macro3 >> Macro3 Macro2 B Macro1\n  ").isSome
#guard onCfg "\n    Macro1 = F   # >\n    Macro2 = E Macro1 G  # Macro1\n    Macro3 =     # -\n    Macro1 A Macro2 Macro3 >> Macro3 Macro2 B Macro1\n  " (fun c => (ctxAt c 0).inputs.length == 1)
#guard onCfg "\n    Macro1 = F   # >\n    Macro2 = E Macro1 G  # Macro1\n    Macro3 =     # -\n    Macro1 A Macro2 Macro3 >> Macro3 Macro2 B Macro1\n  " (fun c => (ctxAt c 0).outputs.length == 1)
#guard onCfg "\n    Macro1 = F   # >\n    Macro2 = E Macro1 G  # Macro1\n    Macro3 =     # -\n    Macro1 A Macro2 Macro3 >> Macro3 Macro2 B Macro1\n  " (fun c => (ctxAt c 0).commandOutputs.length == 0)
#guard onCfg "\n    Macro1 = F   # >\n    Macro2 = E Macro1 G  # Macro1\n    Macro3 =     # -\n    Macro1 A Macro2 Macro3 >> Macro3 Macro2 B Macro1\n  " (fun c => fmtSeq ((((ctxAt c 0).inputs[0]?.map (·.input)).getD default)) == "+F ~F +A ~A +E ~E +F ~F +G ~G")
#guard onCfg "\n    Macro1 = F   # >\n    Macro2 = E Macro1 G  # Macro1\n    Macro3 =     # -\n    Macro1 A Macro2 Macro3 >> Macro3 Macro2 B Macro1\n  " (fun c => fmtSeq (((ctxAt c 0).outputs[0]?.getD [])) == "+E -E +F -F +G -G +B -B +F -F")
#guard (parseCfg "\n    ab = E F\n    X >> ab 'ab' ab\n  ").isSome
#guard onCfg "\n    ab = E F\n    X >> ab 'ab' ab\n  " (fun c => (ctxAt c 0).inputs.length == 1)
#guard onCfg "\n    ab = E F\n    X >> ab 'ab' ab\n  " (fun c => (ctxAt c 0).outputs.length == 1)
#guard onCfg "\n    ab = E F\n    X >> ab 'ab' ab\n  " (fun c => (ctxAt c 0).commandOutputs.length == 0)
#guard onCfg "\n    ab = E F\n    X >> ab 'ab' ab\n  " (fun c => fmtSeq ((((ctxAt c 0).inputs[0]?.map (·.input)).getD default)) == "+X ~X")
#guard onCfg "\n    ab = E F\n    X >> ab 'ab' ab\n  " (fun c => fmtSeq (((ctxAt c 0).outputs[0]?.getD [])) == "+E -E +F -F !Any +A -A +B -B +E -E +F -F")
#guard (parseCfg "\n    Alt{A} >> X\n\n    Alt = AltRight\n    Alt{B} >> Y\n  ").isSome
#guard onCfg "\n    Alt{A} >> X\n\n    Alt = AltRight\n    Alt{B} >> Y\n  " (fun c => (ctxAt c 0).inputs.length == 3)
#guard onCfg "\n    Alt{A} >> X\n\n    Alt = AltRight\n    Alt{B} >> Y\n  " (fun c => (ctxAt c 0).outputs.length == 2)
#guard onCfg "\n    Alt{A} >> X\n\n    Alt = AltRight\n    Alt{B} >> Y\n  " (fun c => (ctxAt c 0).commandOutputs.length == 0)
#guard onCfg "\n    Alt{A} >> X\n\n    Alt = AltRight\n    Alt{B} >> Y\n  " (fun c => fmtSeq ((((ctxAt c 0).inputs[0]?.map (·.input)).getD default)) == "+AltLeft +A ~A ~AltLeft")
#guard onCfg "\n    Alt{A} >> X\n\n    Alt = AltRight\n    Alt{B} >> Y\n  " (fun c => fmtSeq ((((ctxAt c 0).inputs[1]?.map (·.input)).getD default)) == "+AltRight +A ~A ~AltRight")
#guard onCfg "\n    Alt{A} >> X\n\n    Alt = AltRight\n    Alt{B} >> Y\n  " (fun c => fmtSeq ((((ctxAt c 0).inputs[2]?.map (·.input)).getD default)) == "+AltRight +B ~B ~AltRight")
#guard onCfg "\n    Alt{A} >> X\n\n    Alt = AltRight\n    Alt{B} >> Y\n  " (fun c => fmtSeq (((ctxAt c 0).outputs[0]?.getD [])) == "+X")
#guard onCfg "\n    Alt{A} >> X\n\n    Alt = AltRight\n    Alt{B} >> Y\n  " (fun c => fmtSeq (((ctxAt c 0).outputs[1]?.getD [])) == "+Y")

-- Macros and system filter
#guard (parseCfg "\n    [system=\"Linux\"]\n    Macro1 = C\n\n    [system=\"Windows\"]\n    Macro1 = D\n\n    [system=\"MacOS\"]\n    Macro1 = E\n\n    [system=\"MacOS\"]\n    Macro2 = F\n\n    [system=\"Windows\"]\n    Macro2 = G\n\n    [system=\"Linux\"]\n    Macro2 = H\n\n    [system=\"None\"]\n    Macro1 = A\n    Macro2 = B\n    Macro3 = C # still define, so the following is valid:\n    Macro3 >> I\n\n    [default]\n    Macro1 >> X\n    Macro2 >> Y\n  ").isSome
#guard onCfg "\n    [system=\"Linux\"]\n    Macro1 = C\n\n    [system=\"Windows\"]\n    Macro1 = D\n\n    [system=\"MacOS\"]\n    Macro1 = E\n\n    [system=\"MacOS\"]\n    Macro2 = F\n\n    [system=\"Windows\"]\n    Macro2 = G\n\n    [system=\"Linux\"]\n    Macro2 = H\n\n    [system=\"None\"]\n    Macro1 = A\n    Macro2 = B\n    Macro3 = C # still define, so the following is valid:\n    Macro3 >> I\n\n    [default]\n    Macro1 >> X\n    Macro2 >> Y\n  " (fun c => c.contexts.length == 1)
#guard onCfg "\n    [system=\"Linux\"]\n    Macro1 = C\n\n    [system=\"Windows\"]\n    Macro1 = D\n\n    [system=\"MacOS\"]\n    Macro1 = E\n\n    [system=\"MacOS\"]\n    Macro2 = F\n\n    [system=\"Windows\"]\n    Macro2 = G\n\n    [system=\"Linux\"]\n    Macro2 = H\n\n    [system=\"None\"]\n    Macro1 = A\n    Macro2 = B\n    Macro3 = C # still define, so the following is valid:\n    Macro3 >> I\n\n    [default]\n    Macro1 >> X\n    Macro2 >> Y\n  " (fun c => (ctxAt c 0).inputs.length == 2)
#guard onCfg "\n    [system=\"Linux\"]\n    Macro1 = C\n\n    [system=\"Windows\"]\n    Macro1 = D\n\n    [system=\"MacOS\"]\n    Macro1 = E\n\n    [system=\"MacOS\"]\n    Macro2 = F\n\n    [system=\"Windows\"]\n    Macro2 = G\n\n    [system=\"Linux\"]\n    Macro2 = H\n\n    [system=\"None\"]\n    Macro1 = A\n    Macro2 = B\n    Macro3 = C # still define, so the following is valid:\n    Macro3 >> I\n\n    [default]\n    Macro1 >> X\n    Macro2 >> Y\n  " (fun c => fmtSeq ((((ctxAt c 0).inputs[0]?.map (·.input)).getD default)) == "+C ~C")
#guard onCfg "\n    [system=\"Linux\"]\n    Macro1 = C\n\n    [system=\"Windows\"]\n    Macro1 = D\n\n    [system=\"MacOS\"]\n    Macro1 = E\n\n    [system=\"MacOS\"]\n    Macro2 = F\n\n    [system=\"Windows\"]\n    Macro2 = G\n\n    [system=\"Linux\"]\n    Macro2 = H\n\n    [system=\"None\"]\n    Macro1 = A\n    Macro2 = B\n    Macro3 = C # still define, so the following is valid:\n    Macro3 >> I\n\n    [default]\n    Macro1 >> X\n    Macro2 >> Y\n  " (fun c => fmtSeq ((((ctxAt c 0).inputs[1]?.map (·.input)).getD default)) == "+H ~H")

-- Macros with arguments
#guard (parseCfg "\n    modify = $0{ $1 }\n    print = \"$0\"\n    echo = $(echo \"$0\")\n    func = modify[$0 $2, $1]\n\n    A >> modify[ShiftLeft, X]\n    B >> print[X]\n    C >> print[ \"a b\" ]\n    E >> echo[\"Title\"]\n    F >> func[X, Y, Z, W]\n    G >> func[X, Y]\n    H >> func[ , Y, (Z W)]\n    I >> func[ , Y Z, W]\n  ").isSome
#guard onCfg "\n    modify = $0{ $1 }\n    print = \"$0\"\n    echo = $(echo \"$0\")\n    func = modify[$0 $2, $1]\n\n    A >> modify[ShiftLeft, X]\n    B >> print[X]\n    C >> print[ \"a b\" ]\n    E >> echo[\"Title\"]\n    F >> func[X, Y, Z, W]\n    G >> func[X, Y]\n    H >> func[ , Y, (Z W)]\n    I >> func[ , Y Z, W]\n  " (fun c => c.contexts.length == 1)
#guard onCfg "\n    modify = $0{ $1 }\n    print = \"$0\"\n    echo = $(echo \"$0\")\n    func = modify[$0 $2, $1]\n\n    A >> modify[ShiftLeft, X]\n    B >> print[X]\n    C >> print[ \"a b\" ]\n    E >> echo[\"Title\"]\n    F >> func[X, Y, Z, W]\n    G >> func[X, Y]\n    H >> func[ , Y, (Z W)]\n    I >> func[ , Y Z, W]\n  " (fun c => (ctxAt c 0).inputs.length == 8)
#guard onCfg "\n    modify = $0{ $1 }\n    print = \"$0\"\n    echo = $(echo \"$0\")\n    func = modify[$0 $2, $1]\n\n    A >> modify[ShiftLeft, X]\n    B >> print[X]\n    C >> print[ \"a b\" ]\n    E >> echo[\"Title\"]\n    F >> func[X, Y, Z, W]\n    G >> func[X, Y]\n    H >> func[ , Y, (Z W)]\n    I >> func[ , Y Z, W]\n  " (fun c => (ctxAt c 0).outputs.length == 8)
#guard onCfg "\n    modify = $0{ $1 }\n    print = \"$0\"\n    echo = $(echo \"$0\")\n    func = modify[$0 $2, $1]\n\n    A >> modify[ShiftLeft, X]\n    B >> print[X]\n    C >> print[ \"a b\" ]\n    E >> echo[\"Title\"]\n    F >> func[X, Y, Z, W]\n    G >> func[X, Y]\n    H >> func[ , Y, (Z W)]\n    I >> func[ , Y Z, W]\n  " (fun c => fmtSeq (((ctxAt c 0).outputs[0]?.getD [])) == "+ShiftLeft +X -X -ShiftLeft")
#guard onCfg "\n    modify = $0{ $1 }\n    print = \"$0\"\n    echo = $(echo \"$0\")\n    func = modify[$0 $2, $1]\n\n    A >> modify[ShiftLeft, X]\n    B >> print[X]\n    C >> print[ \"a b\" ]\n    E >> echo[\"Title\"]\n    F >> func[X, Y, Z, W]\n    G >> func[X, Y]\n    H >> func[ , Y, (Z W)]\n    I >> func[ , Y Z, W]\n  " (fun c => fmtSeq (((ctxAt c 0).outputs[1]?.getD [])) == "!Any +ShiftLeft +X -X -ShiftLeft")
#guard onCfg "\n    modify = $0{ $1 }\n    print = \"$0\"\n    echo = $(echo \"$0\")\n    func = modify[$0 $2, $1]\n\n    A >> modify[ShiftLeft, X]\n    B >> print[X]\n    C >> print[ \"a b\" ]\n    E >> echo[\"Title\"]\n    F >> func[X, Y, Z, W]\n    G >> func[X, Y]\n    H >> func[ , Y, (Z W)]\n    I >> func[ , Y Z, W]\n  " (fun c => fmtSeq (((ctxAt c 0).outputs[2]?.getD [])) == "!Any +A -A +Space -Space +B -B")
#guard onCfg "\n    modify = $0{ $1 }\n    print = \"$0\"\n    echo = $(echo \"$0\")\n    func = modify[$0 $2, $1]\n\n    A >> modify[ShiftLeft, X]\n    B >> print[X]\n    C >> print[ \"a b\" ]\n    E >> echo[\"Title\"]\n    F >> func[X, Y, Z, W]\n    G >> func[X, Y]\n    H >> func[ , Y, (Z W)]\n    I >> func[ , Y Z, W]\n  " (fun c => fmtSeq (((ctxAt c 0).outputs[3]?.getD [])) == "+Action0")
#guard onCfg "\n    modify = $0{ $1 }\n    print = \"$0\"\n    echo = $(echo \"$0\")\n    func = modify[$0 $2, $1]\n\n    A >> modify[ShiftLeft, X]\n    B >> print[X]\n    C >> print[ \"a b\" ]\n    E >> echo[\"Title\"]\n    F >> func[X, Y, Z, W]\n    G >> func[X, Y]\n    H >> func[ , Y, (Z W)]\n    I >> func[ , Y Z, W]\n  " (fun c => fmtSeq (((ctxAt c 0).outputs[4]?.getD [])) == "+X -X +Z +Y -Y -Z")
#guard onCfg "\n    modify = $0{ $1 }\n    print = \"$0\"\n    echo = $(echo \"$0\")\n    func = modify[$0 $2, $1]\n\n    A >> modify[ShiftLeft, X]\n    B >> print[X]\n    C >> print[ \"a b\" ]\n    E >> echo[\"Title\"]\n    F >> func[X, Y, Z, W]\n    G >> func[X, Y]\n    H >> func[ , Y, (Z W)]\n    I >> func[ , Y Z, W]\n  " (fun c => fmtSeq (((ctxAt c 0).outputs[5]?.getD [])) == "+X +Y -Y -X")
#guard onCfg "\n    modify = $0{ $1 }\n    print = \"$0\"\n    echo = $(echo \"$0\")\n    func = modify[$0 $2, $1]\n\n    A >> modify[ShiftLeft, X]\n    B >> print[X]\n    C >> print[ \"a b\" ]\n    E >> echo[\"Title\"]\n    F >> func[X, Y, Z, W]\n    G >> func[X, Y]\n    H >> func[ , Y, (Z W)]\n    I >> func[ , Y Z, W]\n  " (fun c => fmtSeq (((ctxAt c 0).outputs[6]?.getD [])) == "+Z +W +Y -Y -W -Z")
#guard onCfg "\n    modify = $0{ $1 }\n    print = \"$0\"\n    echo = $(echo \"$0\")\n    func = modify[$0 $2, $1]\n\n    A >> modify[ShiftLeft, X]\n    B >> print[X]\n    C >> print[ \"a b\" ]\n    E >> echo[\"Title\"]\n    F >> func[X, Y, Z, W]\n    G >> func[X, Y]\n    H >> func[ , Y, (Z W)]\n    I >> func[ , Y Z, W]\n  " (fun c => fmtSeq (((ctxAt c 0).outputs[7]?.getD [])) == "+W +Y -Y +Z -Z -W")

-- Macros with arguments - Problems
#guard (parseCfg " \n    macro = $0 \n    A >> macro[]\n  ").isSome
#guard (parseCfg " \n    macro = $0 \n    A >> macro[,]\n  ").isSome
#guard (parseCfg " \n    macro = $0 \n    A >> macro[\"]\n  ").isNone
#guard (parseCfg " \n    macro = $0 \n    A >> macro[']\n  ").isNone
#guard (parseCfg " \n    macro = $0 \n    A >> macro[,']\n  ").isNone
#guard (parseCfg " \n    macro = $0 \n    A >> macro[$]\n  ").isNone

-- Macros with arguments #2
#guard (parseCfg "\n    LOG_FILE = \"logfile.txt\"\n    base00       = \"#657b83\"\n    logColor     = $(pastel --force-color paint \"$1\" \"[$0]\" >> \"${LOG_FILE}\")\n    stage1       = 50ms logColor[\"$0\", blue] ^ logColor[\"$0\", base00]\n    F1 >> stage1[\"EditMode\"]\n  ").isSome
#guard onCfg "\n    LOG_FILE = \"logfile.txt\"\n    base00       = \"#657b83\"\n    logColor     = $(pastel --force-color paint \"$1\" \"[$0]\" >> \"${LOG_FILE}\")\n    stage1       = 50ms logColor[\"$0\", blue] ^ logColor[\"$0\", base00]\n    F1 >> stage1[\"EditMode\"]\n  " (fun c => c.contexts.length == 1)
#guard onCfg "\n    LOG_FILE = \"logfile.txt\"\n    base00       = \"#657b83\"\n    logColor     = $(pastel --force-color paint \"$1\" \"[$0]\" >> \"${LOG_FILE}\")\n    stage1       = 50ms logColor[\"$0\", blue] ^ logColor[\"$0\", base00]\n    F1 >> stage1[\"EditMode\"]\n  " (fun c => c.actions.length == 2)
#guard onCfg "\n    LOG_FILE = \"logfile.txt\"\n    base00       = \"#657b83\"\n    logColor     = $(pastel --force-color paint \"$1\" \"[$0]\" >> \"${LOG_FILE}\")\n    stage1       = 50ms logColor[\"$0\", blue] ^ logColor[\"$0\", base00]\n    F1 >> stage1[\"EditMode\"]\n  " (fun c => (String.ofList ((c.actions[0]?).getD [])) == "pastel --force-color paint \"blue\" \"[EditMode]\" >> \"logfile.txt\"")
#guard onCfg "\n    LOG_FILE = \"logfile.txt\"\n    base00       = \"#657b83\"\n    logColor     = $(pastel --force-color paint \"$1\" \"[$0]\" >> \"${LOG_FILE}\")\n    stage1       = 50ms logColor[\"$0\", blue] ^ logColor[\"$0\", base00]\n    F1 >> stage1[\"EditMode\"]\n  " (fun c => (String.ofList ((c.actions[1]?).getD [])) == "pastel --force-color paint \"#657b83\" \"[EditMode]\" >> \"logfile.txt\"")

-- Macro with string arguments
#guard (parseCfg "\n    test = \"$0\"\n    A >> test[\"test\"]\n  ").isSome
#guard onCfg "\n    test = \"$0\"\n    A >> test[\"test\"]\n  " (fun c => c.contexts.length == 1)
#guard onCfg "\n    test = \"$0\"\n    A >> test[\"test\"]\n  " (fun c => (ctxAt c 0).outputs.length == 1)
#guard onCfg "\n    test = \"$0\"\n    A >> test[\"test\"]\n  " (fun c => fmtSeq (((ctxAt c 0).outputs[0]?.getD [])) == "!Any +T -T +E -E +S -S +T -T")

-- Macros with Alias arguments
#guard (parseCfg "\n    twice = $0 $0\n    Boss = Virtual1\n    make = $0$1\n    A >> twice[X]\n    B >> twice[Boss]\n    C >> make[make[Arr, ow], make[Le, ft]]\n  ").isSome
#guard onCfg "\n    twice = $0 $0\n    Boss = Virtual1\n    make = $0$1\n    A >> twice[X]\n    B >> twice[Boss]\n    C >> make[make[Arr, ow], make[Le, ft]]\n  " (fun c => c.contexts.length == 1)
#guard onCfg "\n    twice = $0 $0\n    Boss = Virtual1\n    make = $0$1\n    A >> twice[X]\n    B >> twice[Boss]\n    C >> make[make[Arr, ow], make[Le, ft]]\n  " (fun c => (ctxAt c 0).outputs.length == 3)
#guard onCfg "\n    twice = $0 $0\n    Boss = Virtual1\n    make = $0$1\n    A >> twice[X]\n    B >> twice[Boss]\n    C >> make[make[Arr, ow], make[Le, ft]]\n  " (fun c => fmtSeq (((ctxAt c 0).outputs[0]?.getD [])) == "+X -X +X -X")
#guard onCfg "\n    twice = $0 $0\n    Boss = Virtual1\n    make = $0$1\n    A >> twice[X]\n    B >> twice[Boss]\n    C >> make[make[Arr, ow], make[Le, ft]]\n  " (fun c => fmtSeq (((ctxAt c 0).outputs[1]?.getD [])) == "+Virtual1 -Virtual1 +Virtual1 -Virtual1")
#guard onCfg "\n    twice = $0 $0\n    Boss = Virtual1\n    make = $0$1\n    A >> twice[X]\n    B >> twice[Boss]\n    C >> make[make[Arr, ow], make[Le, ft]]\n  " (fun c => fmtSeq (((ctxAt c 0).outputs[2]?.getD [])) == "+ArrowLeft")

-- Macros with Terminal Commands
#guard (parseCfg "\n    notify = $(notify-send -t 2000 -a \"keymapper\" \"$0\")\n    F1 >> notify[\"F7\"]\n\n    echo = $(echo $0$1)\n    F2 >> echo[echo]\n    F3 >> echo[\"echo$echo\"]\n    F4 >> echo[\"echo, echo\"]\n    F5 >> echo[\"echo\", \" echo \"]\n    F6 >> $(echo ${echo})\n  ").isSome
#guard onCfg "\n    notify = $(notify-send -t 2000 -a \"keymapper\" \"$0\")\n    F1 >> notify[\"F7\"]\n\n    echo = $(echo $0$1)\n    F2 >> echo[echo]\n    F3 >> echo[\"echo$echo\"]\n    F4 >> echo[\"echo, echo\"]\n    F5 >> echo[\"echo\", \" echo \"]\n    F6 >> $(echo ${echo})\n  " (fun c => c.actions.length == 6)
#guard onCfg "\n    notify = $(notify-send -t 2000 -a \"keymapper\" \"$0\")\n    F1 >> notify[\"F7\"]\n\n    echo = $(echo $0$1)\n    F2 >> echo[echo]\n    F3 >> echo[\"echo$echo\"]\n    F4 >> echo[\"echo, echo\"]\n    F5 >> echo[\"echo\", \" echo \"]\n    F6 >> $(echo ${echo})\n  " (fun c => (String.ofList ((c.actions[0]?).getD [])) == "notify-send -t 2000 -a \"keymapper\" \"F7\"")
#guard onCfg "\n    notify = $(notify-send -t 2000 -a \"keymapper\" \"$0\")\n    F1 >> notify[\"F7\"]\n\n    echo = $(echo $0$1)\n    F2 >> echo[echo]\n    F3 >> echo[\"echo$echo\"]\n    F4 >> echo[\"echo, echo\"]\n    F5 >> echo[\"echo\", \" echo \"]\n    F6 >> $(echo ${echo})\n  " (fun c => (String.ofList ((c.actions[1]?).getD [])) == "echo $(echo $0$1)")
#guard onCfg "\n    notify = $(notify-send -t 2000 -a \"keymapper\" \"$0\")\n    F1 >> notify[\"F7\"]\n\n    echo = $(echo $0$1)\n    F2 >> echo[echo]\n    F3 >> echo[\"echo$echo\"]\n    F4 >> echo[\"echo, echo\"]\n    F5 >> echo[\"echo\", \" echo \"]\n    F6 >> $(echo ${echo})\n  " (fun c => (String.ofList ((c.actions[2]?).getD [])) == "echo echo$(echo $0$1)")
#guard onCfg "\n    notify = $(notify-send -t 2000 -a \"keymapper\" \"$0\")\n    F1 >> notify[\"F7\"]\n\n    echo = $(echo $0$1)\n    F2 >> echo[echo]\n    F3 >> echo[\"echo$echo\"]\n    F4 >> echo[\"echo, echo\"]\n    F5 >> echo[\"echo\", \" echo \"]\n    F6 >> $(echo ${echo})\n  " (fun c => (String.ofList ((c.actions[3]?).getD [])) == "echo echo, echo")
#guard onCfg "\n    notify = $(notify-send -t 2000 -a \"keymapper\" \"$0\")\n    F1 >> notify[\"F7\"]\n\n    echo = $(echo $0$1)\n    F2 >> echo[echo]\n    F3 >> echo[\"echo$echo\"]\n    F4 >> echo[\"echo, echo\"]\n    F5 >> echo[\"echo\", \" echo \"]\n    F6 >> $(echo ${echo})\n  " (fun c => (String.ofList ((c.actions[4]?).getD [])) == "echo echo echo ")
#guard onCfg "\n    notify = $(notify-send -t 2000 -a \"keymapper\" \"$0\")\n    F1 >> notify[\"F7\"]\n\n    echo = $(echo $0$1)\n    F2 >> echo[echo]\n    F3 >> echo[\"echo$echo\"]\n    F4 >> echo[\"echo, echo\"]\n    F5 >> echo[\"echo\", \" echo \"]\n    F6 >> $(echo ${echo})\n  " (fun c => (String.ofList ((c.actions[5]?).getD [])) == "echo $(echo $0$1)")

-- Macro result substituted again
#guard (parseCfg "\n    x0 = \n    x1 = x0[$0] $0\n    x2 = x1[$0] $0\n\n    xi = x$0\n    x = xi[$0][$1]\n    xZ = x[$0, Z]\n\n    A >> xi[0][X]\n    B >> x[1, Y]\n    C >> xZ[2]\n    D >> xi[i][2][W]\n  ").isSome
#guard onCfg "\n    x0 = \n    x1 = x0[$0] $0\n    x2 = x1[$0] $0\n\n    xi = x$0\n    x = xi[$0][$1]\n    xZ = x[$0, Z]\n\n    A >> xi[0][X]\n    B >> x[1, Y]\n    C >> xZ[2]\n    D >> xi[i][2][W]\n  " (fun c => c.contexts.length == 1)
#guard onCfg "\n    x0 = \n    x1 = x0[$0] $0\n    x2 = x1[$0] $0\n\n    xi = x$0\n    x = xi[$0][$1]\n    xZ = x[$0, Z]\n\n    A >> xi[0][X]\n    B >> x[1, Y]\n    C >> xZ[2]\n    D >> xi[i][2][W]\n  " (fun c => (ctxAt c 0).outputs.length == 4)
#guard onCfg "\n    x0 = \n    x1 = x0[$0] $0\n    x2 = x1[$0] $0\n\n    xi = x$0\n    x = xi[$0][$1]\n    xZ = x[$0, Z]\n\n    A >> xi[0][X]\n    B >> x[1, Y]\n    C >> xZ[2]\n    D >> xi[i][2][W]\n  " (fun c => fmtSeq (((ctxAt c 0).outputs[0]?.getD [])) == "")
#guard onCfg "\n    x0 = \n    x1 = x0[$0] $0\n    x2 = x1[$0] $0\n\n    xi = x$0\n    x = xi[$0][$1]\n    xZ = x[$0, Z]\n\n    A >> xi[0][X]\n    B >> x[1, Y]\n    C >> xZ[2]\n    D >> xi[i][2][W]\n  " (fun c => fmtSeq (((ctxAt c 0).outputs[1]?.getD [])) == "+Y")
#guard onCfg "\n    x0 = \n    x1 = x0[$0] $0\n    x2 = x1[$0] $0\n\n    xi = x$0\n    x = xi[$0][$1]\n    xZ = x[$0, Z]\n\n    A >> xi[0][X]\n    B >> x[1, Y]\n    C >> xZ[2]\n    D >> xi[i][2][W]\n  " (fun c => fmtSeq (((ctxAt c 0).outputs[2]?.getD [])) == "+Z -Z +Z -Z")
#guard onCfg "\n    x0 = \n    x1 = x0[$0] $0\n    x2 = x1[$0] $0\n\n    xi = x$0\n    x = xi[$0][$1]\n    xZ = x[$0, Z]\n\n    A >> xi[0][X]\n    B >> x[1, Y]\n    C >> xZ[2]\n    D >> xi[i][2][W]\n  " (fun c => fmtSeq (((ctxAt c 0).outputs[3]?.getD [])) == "+W -W +W -W")

-- Builtin Macros
#guard (parseCfg "\n    macro1 = repeat[$0, length[\"$1\"]]\n    macro2 = repeat[$0, $1]\n    A >> repeat[A, length[\"Hello\"]]\n    B >> macro1[B, \"Hello\"]\n    C >> macro2[C, length[\"Hello\"]]\n    D >> repeat[repeat[A, 2] B, 2]\n  ").isSome
#guard onCfg "\n    macro1 = repeat[$0, length[\"$1\"]]\n    macro2 = repeat[$0, $1]\n    A >> repeat[A, length[\"Hello\"]]\n    B >> macro1[B, \"Hello\"]\n    C >> macro2[C, length[\"Hello\"]]\n    D >> repeat[repeat[A, 2] B, 2]\n  " (fun c => c.contexts.length == 1)
#guard onCfg "\n    macro1 = repeat[$0, length[\"$1\"]]\n    macro2 = repeat[$0, $1]\n    A >> repeat[A, length[\"Hello\"]]\n    B >> macro1[B, \"Hello\"]\n    C >> macro2[C, length[\"Hello\"]]\n    D >> repeat[repeat[A, 2] B, 2]\n  " (fun c => (ctxAt c 0).outputs.length == 4)
#guard onCfg "\n    macro1 = repeat[$0, length[\"$1\"]]\n    macro2 = repeat[$0, $1]\n    A >> repeat[A, length[\"Hello\"]]\n    B >> macro1[B, \"Hello\"]\n    C >> macro2[C, length[\"Hello\"]]\n    D >> repeat[repeat[A, 2] B, 2]\n  " (fun c => fmtSeq (((ctxAt c 0).outputs[0]?.getD [])) == "+A -A +A -A +A -A +A -A +A -A")
#guard onCfg "\n    macro1 = repeat[$0, length[\"$1\"]]\n    macro2 = repeat[$0, $1]\n    A >> repeat[A, length[\"Hello\"]]\n    B >> macro1[B, \"Hello\"]\n    C >> macro2[C, length[\"Hello\"]]\n    D >> repeat[repeat[A, 2] B, 2]\n  " (fun c => fmtSeq (((ctxAt c 0).outputs[1]?.getD [])) == "+B -B +B -B +B -B +B -B +B -B")
#guard onCfg "\n    macro1 = repeat[$0, length[\"$1\"]]\n    macro2 = repeat[$0, $1]\n    A >> repeat[A, length[\"Hello\"]]\n    B >> macro1[B, \"Hello\"]\n    C >> macro2[C, length[\"Hello\"]]\n    D >> repeat[repeat[A, 2] B, 2]\n  " (fun c => fmtSeq (((ctxAt c 0).outputs[2]?.getD [])) == "+C -C +C -C +C -C +C -C +C -C")
#guard onCfg "\n    macro1 = repeat[$0, length[\"$1\"]]\n    macro2 = repeat[$0, $1]\n    A >> repeat[A, length[\"Hello\"]]\n    B >> macro1[B, \"Hello\"]\n    C >> macro2[C, length[\"Hello\"]]\n    D >> repeat[repeat[A, 2] B, 2]\n  " (fun c => fmtSeq (((ctxAt c 0).outputs[3]?.getD [])) == "+A -A +A -A +B -B +A -A +A -A +B -B")
#guard (parseCfg "A >> length[A]").isNone
#guard (parseCfg "A >> repeat[A,]").isNone
#guard (parseCfg "A >> repeat[A, A]").isNone

-- Builtin Macros #2
#guard (parseCfg "\n    type = $(keymapperctl --type $0)\n\n    # Replace trigger string with the second argument\n    trigger = ? \"$0\" >> repeat[Backspace, sub[length[\"$0\"], 1]] $1\n\n    # Format date\n    format_date = $(date +\"$0\")\n\n    trigger[\":time\", type[format_date[\"%H:%M:%S\"]]]\n  ").isSome
#guard onCfg "\n    type = $(keymapperctl --type $0)\n\n    # Replace trigger string with the second argument\n    trigger = ? \"$0\" >> repeat[Backspace, sub[length[\"$0\"], 1]] $1\n\n    # Format date\n    format_date = $(date +\"$0\")\n\n    trigger[\":time\", type[format_date[\"%H:%M:%S\"]]]\n  " (fun c => c.contexts.length == 1)
#guard onCfg "\n    type = $(keymapperctl --type $0)\n\n    # Replace trigger string with the second argument\n    trigger = ? \"$0\" >> repeat[Backspace, sub[length[\"$0\"], 1]] $1\n\n    # Format date\n    format_date = $(date +\"$0\")\n\n    trigger[\":time\", type[format_date[\"%H:%M:%S\"]]]\n  " (fun c => c.actions.length == 1)
#guard onCfg "\n    type = $(keymapperctl --type $0)\n\n    # Replace trigger string with the second argument\n    trigger = ? \"$0\" >> repeat[Backspace, sub[length[\"$0\"], 1]] $1\n\n    # Format date\n    format_date = $(date +\"$0\")\n\n    trigger[\":time\", type[format_date[\"%H:%M:%S\"]]]\n  " (fun c => (String.ofList ((c.actions[0]?).getD [])) == "keymapperctl --type $(date +\"%H:%M:%S\")")

-- Builtin Macros #3
#guard (parseCfg "\n    test = default[$1, R] $0\n    A >> test[]    # [] is currently required\n    B >> test[X]\n    C >> test[Y, S]\n    D >> test[, T]\n  ").isSome
#guard onCfg "\n    test = default[$1, R] $0\n    A >> test[]    # [] is currently required\n    B >> test[X]\n    C >> test[Y, S]\n    D >> test[, T]\n  " (fun c => c.contexts.length == 1)
#guard onCfg "\n    test = default[$1, R] $0\n    A >> test[]    # [] is currently required\n    B >> test[X]\n    C >> test[Y, S]\n    D >> test[, T]\n  " (fun c => (ctxAt c 0).outputs.length == 4)
#guard onCfg "\n    test = default[$1, R] $0\n    A >> test[]    # [] is currently required\n    B >> test[X]\n    C >> test[Y, S]\n    D >> test[, T]\n  " (fun c => fmtSeq (((ctxAt c 0).outputs[0]?.getD [])) == "+R")
#guard onCfg "\n    test = default[$1, R] $0\n    A >> test[]    # [] is currently required\n    B >> test[X]\n    C >> test[Y, S]\n    D >> test[, T]\n  " (fun c => fmtSeq (((ctxAt c 0).outputs[1]?.getD [])) == "+R -R +X -X")
#guard onCfg "\n    test = default[$1, R] $0\n    A >> test[]    # [] is currently required\n    B >> test[X]\n    C >> test[Y, S]\n    D >> test[, T]\n  " (fun c => fmtSeq (((ctxAt c 0).outputs[2]?.getD [])) == "+S -S +Y -Y")
#guard onCfg "\n    test = default[$1, R] $0\n    A >> test[]    # [] is currently required\n    B >> test[X]\n    C >> test[Y, S]\n    D >> test[, T]\n  " (fun c => fmtSeq (((ctxAt c 0).outputs[3]?.getD [])) == "+T")

-- Builtin Macros #4
#guard (parseCfg "\n    log1 = $(echo $0)\n    log2 = $(echo --color $1 $0)\n    switch = $0$1\n    log = switch[\"log\", $$][$0, $1]\n    A >> log[\"test\"]\n    B >> log[\"test\", \"FF0000\"]   # '#' is not allowed yet\n  ").isSome
#guard onCfg "\n    log1 = $(echo $0)\n    log2 = $(echo --color $1 $0)\n    switch = $0$1\n    log = switch[\"log\", $$][$0, $1]\n    A >> log[\"test\"]\n    B >> log[\"test\", \"FF0000\"]   # '#' is not allowed yet\n  " (fun c => c.contexts.length == 1)
#guard onCfg "\n    log1 = $(echo $0)\n    log2 = $(echo --color $1 $0)\n    switch = $0$1\n    log = switch[\"log\", $$][$0, $1]\n    A >> log[\"test\"]\n    B >> log[\"test\", \"FF0000\"]   # '#' is not allowed yet\n  " (fun c => c.actions.length == 2)
#guard onCfg "\n    log1 = $(echo $0)\n    log2 = $(echo --color $1 $0)\n    switch = $0$1\n    log = switch[\"log\", $$][$0, $1]\n    A >> log[\"test\"]\n    B >> log[\"test\", \"FF0000\"]   # '#' is not allowed yet\n  " (fun c => (String.ofList ((c.actions[0]?).getD [])) == "echo test")
#guard onCfg "\n    log1 = $(echo $0)\n    log2 = $(echo --color $1 $0)\n    switch = $0$1\n    log = switch[\"log\", $$][$0, $1]\n    A >> log[\"test\"]\n    B >> log[\"test\", \"FF0000\"]   # '#' is not allowed yet\n  " (fun c => (String.ofList ((c.actions[1]?).getD [])) == "echo --color FF0000 test")

-- Builtin Macros #5
#guard (parseCfg "\n    apply[$0 >> $(keymapperctl --type $0), Space, Enter, Escape, Tab]\n  ").isSome
#guard onCfg "\n    apply[$0 >> $(keymapperctl --type $0), Space, Enter, Escape, Tab]\n  " (fun c => c.contexts.length == 1)
#guard onCfg "\n    apply[$0 >> $(keymapperctl --type $0), Space, Enter, Escape, Tab]\n  " (fun c => (ctxAt c 0).inputs.length == 4)
#guard onCfg "\n    apply[$0 >> $(keymapperctl --type $0), Space, Enter, Escape, Tab]\n  " (fun c => c.actions.length == 4)
#guard onCfg "\n    apply[$0 >> $(keymapperctl --type $0), Space, Enter, Escape, Tab]\n  " (fun c => fmtSeq ((((ctxAt c 0).inputs[0]?.map (·.input)).getD default)) == "+Space ~Space")
#guard onCfg "\n    apply[$0 >> $(keymapperctl --type $0), Space, Enter, Escape, Tab]\n  " (fun c => fmtSeq ((((ctxAt c 0).inputs[1]?.map (·.input)).getD default)) == "+Enter ~Enter")
#guard onCfg "\n    apply[$0 >> $(keymapperctl --type $0), Space, Enter, Escape, Tab]\n  " (fun c => fmtSeq ((((ctxAt c 0).inputs[2]?.map (·.input)).getD default)) == "+Escape ~Escape")
#guard onCfg "\n    apply[$0 >> $(keymapperctl --type $0), Space, Enter, Escape, Tab]\n  " (fun c => fmtSeq ((((ctxAt c 0).inputs[3]?.map (·.input)).getD default)) == "+Tab ~Tab")
#guard onCfg "\n    apply[$0 >> $(keymapperctl --type $0), Space, Enter, Escape, Tab]\n  " (fun c => (String.ofList ((c.actions[0]?).getD [])) == "keymapperctl --type Space")
#guard onCfg "\n    apply[$0 >> $(keymapperctl --type $0), Space, Enter, Escape, Tab]\n  " (fun c => (String.ofList ((c.actions[1]?).getD [])) == "keymapperctl --type Enter")
#guard onCfg "\n    apply[$0 >> $(keymapperctl --type $0), Space, Enter, Escape, Tab]\n  " (fun c => (String.ofList ((c.actions[2]?).getD [])) == "keymapperctl --type Escape")
#guard onCfg "\n    apply[$0 >> $(keymapperctl --type $0), Space, Enter, Escape, Tab]\n  " (fun c => (String.ofList ((c.actions[3]?).getD [])) == "keymapperctl --type Tab")
#guard (parseCfg "\n    macro = $0 >> $(keymapperctl --type $1)\n    apply[macro, \\\n      Space, Enter, \\\n      Escape, Tab]\n  ").isSome
#guard onCfg "\n    macro = $0 >> $(keymapperctl --type $1)\n    apply[macro, \\\n      Space, Enter, \\\n      Escape, Tab]\n  " (fun c => c.contexts.length == 1)
#guard onCfg "\n    macro = $0 >> $(keymapperctl --type $1)\n    apply[macro, \\\n      Space, Enter, \\\n      Escape, Tab]\n  " (fun c => (ctxAt c 0).inputs.length == 2)
#guard onCfg "\n    macro = $0 >> $(keymapperctl --type $1)\n    apply[macro, \\\n      Space, Enter, \\\n      Escape, Tab]\n  " (fun c => c.actions.length == 2)
#guard onCfg "\n    macro = $0 >> $(keymapperctl --type $1)\n    apply[macro, \\\n      Space, Enter, \\\n      Escape, Tab]\n  " (fun c => fmtSeq ((((ctxAt c 0).inputs[0]?.map (·.input)).getD default)) == "+Space ~Space")
#guard onCfg "\n    macro = $0 >> $(keymapperctl --type $1)\n    apply[macro, \\\n      Space, Enter, \\\n      Escape, Tab]\n  " (fun c => fmtSeq ((((ctxAt c 0).inputs[1]?.map (·.input)).getD default)) == "+Escape ~Escape")
#guard onCfg "\n    macro = $0 >> $(keymapperctl --type $1)\n    apply[macro, \\\n      Space, Enter, \\\n      Escape, Tab]\n  " (fun c => (String.ofList ((c.actions[0]?).getD [])) == "keymapperctl --type Enter")
#guard onCfg "\n    macro = $0 >> $(keymapperctl --type $1)\n    apply[macro, \\\n      Space, Enter, \\\n      Escape, Tab]\n  " (fun c => (String.ofList ((c.actions[1]?).getD [])) == "keymapperctl --type Tab")
#guard (parseCfg "\n    A >> X { apply[($0 $1 ), Y, Z, R, S] }\n    B >> X { apply[\"$0 $1 \", Y, Z, R, S] }\n  ").isSome
#guard onCfg "\n    A >> X { apply[($0 $1 ), Y, Z, R, S] }\n    B >> X { apply[\"$0 $1 \", Y, Z, R, S] }\n  " (fun c => c.contexts.length == 1)
#guard onCfg "\n    A >> X { apply[($0 $1 ), Y, Z, R, S] }\n    B >> X { apply[\"$0 $1 \", Y, Z, R, S] }\n  " (fun c => (ctxAt c 0).outputs.length == 2)
#guard onCfg "\n    A >> X { apply[($0 $1 ), Y, Z, R, S] }\n    B >> X { apply[\"$0 $1 \", Y, Z, R, S] }\n  " (fun c => fmtSeq (((ctxAt c 0).outputs[0]?.getD [])) == "+X +Y +Z -Y -Z +R +S -R -S -X")
#guard onCfg "\n    A >> X { apply[($0 $1 ), Y, Z, R, S] }\n    B >> X { apply[\"$0 $1 \", Y, Z, R, S] }\n  " (fun c => fmtSeq (((ctxAt c 0).outputs[1]?.getD [])) == "+X +Y -Y +Z -Z +R -R +S -S -X")

-- Top-level Macro
#guard (parseCfg "\n    macro = A >> B ; comment\n    shift = >> # comment\n    context = [title = \"$0\"] # comment\n    subst = ? \"$0\" >> repeat[Backspace, sub[length[\"$0\"], 1]] \"$1\" # comment\n\n    macro  # comment\n    C shift D ; comment\n\n    context[\"Test\"] # comment\n    subst[\"cat\", \"dog\"] ; comment\n  ").isSome
#guard onCfg "\n    macro = A >> B ; comment\n    shift = >> # comment\n    context = [title = \"$0\"] # comment\n    subst = ? \"$0\" >> repeat[Backspace, sub[length[\"$0\"], 1]] \"$1\" # comment\n\n    macro  # comment\n    C shift D ; comment\n\n    context[\"Test\"] # comment\n    subst[\"cat\", \"dog\"] ; comment\n  " (fun c => c.contexts.length == 2)
#guard onCfg "\n    macro = A >> B ; comment\n    shift = >> # comment\n    context = [title = \"$0\"] # comment\n    subst = ? \"$0\" >> repeat[Backspace, sub[length[\"$0\"], 1]] \"$1\" # comment\n\n    macro  # comment\n    C shift D ; comment\n\n    context[\"Test\"] # comment\n    subst[\"cat\", \"dog\"] ; comment\n  " (fun c => (ctxAt c 0).inputs.length == 2)
#guard onCfg "\n    macro = A >> B ; comment\n    shift = >> # comment\n    context = [title = \"$0\"] # comment\n    subst = ? \"$0\" >> repeat[Backspace, sub[length[\"$0\"], 1]] \"$1\" # comment\n\n    macro  # comment\n    C shift D ; comment\n\n    context[\"Test\"] # comment\n    subst[\"cat\", \"dog\"] ; comment\n  " (fun c => (ctxAt c 0).outputs.length == 2)
#guard onCfg "\n    macro = A >> B ; comment\n    shift = >> # comment\n    context = [title = \"$0\"] # comment\n    subst = ? \"$0\" >> repeat[Backspace, sub[length[\"$0\"], 1]] \"$1\" # comment\n\n    macro  # comment\n    C shift D ; comment\n\n    context[\"Test\"] # comment\n    subst[\"cat\", \"dog\"] ; comment\n  " (fun c => fmtSeq ((((ctxAt c 0).inputs[0]?.map (·.input)).getD default)) == "+A ~A")
#guard onCfg "\n    macro = A >> B ; comment\n    shift = >> # comment\n    context = [title = \"$0\"] # comment\n    subst = ? \"$0\" >> repeat[Backspace, sub[length[\"$0\"], 1]] \"$1\" # comment\n\n    macro  # comment\n    C shift D ; comment\n\n    context[\"Test\"] # comment\n    subst[\"cat\", \"dog\"] ; comment\n  " (fun c => fmtSeq (((ctxAt c 0).outputs[0]?.getD [])) == "+B")
#guard onCfg "\n    macro = A >> B ; comment\n    shift = >> # comment\n    context = [title = \"$0\"] # comment\n    subst = ? \"$0\" >> repeat[Backspace, sub[length[\"$0\"], 1]] \"$1\" # comment\n\n    macro  # comment\n    C shift D ; comment\n\n    context[\"Test\"] # comment\n    subst[\"cat\", \"dog\"] ; comment\n  " (fun c => fmtSeq ((((ctxAt c 0).inputs[1]?.map (·.input)).getD default)) == "+C ~C")
#guard onCfg "\n    macro = A >> B ; comment\n    shift = >> # comment\n    context = [title = \"$0\"] # comment\n    subst = ? \"$0\" >> repeat[Backspace, sub[length[\"$0\"], 1]] \"$1\" # comment\n\n    macro  # comment\n    C shift D ; comment\n\n    context[\"Test\"] # comment\n    subst[\"cat\", \"dog\"] ; comment\n  " (fun c => fmtSeq (((ctxAt c 0).outputs[1]?.getD [])) == "+D")
#guard onCfg "\n    macro = A >> B ; comment\n    shift = >> # comment\n    context = [title = \"$0\"] # comment\n    subst = ? \"$0\" >> repeat[Backspace, sub[length[\"$0\"], 1]] \"$1\" # comment\n\n    macro  # comment\n    C shift D ; comment\n\n    context[\"Test\"] # comment\n    subst[\"cat\", \"dog\"] ; comment\n  " (fun c => (ctxAt c 1).inputs.length == 1)
#guard onCfg "\n    macro = A >> B ; comment\n    shift = >> # comment\n    context = [title = \"$0\"] # comment\n    subst = ? \"$0\" >> repeat[Backspace, sub[length[\"$0\"], 1]] \"$1\" # comment\n\n    macro  # comment\n    C shift D ; comment\n\n    context[\"Test\"] # comment\n    subst[\"cat\", \"dog\"] ; comment\n  " (fun c => (ctxAt c 1).outputs.length == 1)
#guard onCfg "\n    macro = A >> B ; comment\n    shift = >> # comment\n    context = [title = \"$0\"] # comment\n    subst = ? \"$0\" >> repeat[Backspace, sub[length[\"$0\"], 1]] \"$1\" # comment\n\n    macro  # comment\n    C shift D ; comment\n\n    context[\"Test\"] # comment\n    subst[\"cat\", \"dog\"] ; comment\n  " (fun c => String.ofList (ctxAt c 1).windowTitle.string == "Test")
#guard onCfg "\n    macro = A >> B ; comment\n    shift = >> # comment\n    context = [title = \"$0\"] # comment\n    subst = ? \"$0\" >> repeat[Backspace, sub[length[\"$0\"], 1]] \"$1\" # comment\n\n    macro  # comment\n    C shift D ; comment\n\n    context[\"Test\"] # comment\n    subst[\"cat\", \"dog\"] ; comment\n  " (fun c => fmtSeq ((((ctxAt c 1).inputs[0]?.map (·.input)).getD default)) == "? !ShiftLeft !ShiftRight !AltLeft !AltRight !ControlLeft !ControlRight +C ~C +A ~A +T")
#guard onCfg "\n    macro = A >> B ; comment\n    shift = >> # comment\n    context = [title = \"$0\"] # comment\n    subst = ? \"$0\" >> repeat[Backspace, sub[length[\"$0\"], 1]] \"$1\" # comment\n\n    macro  # comment\n    C shift D ; comment\n\n    context[\"Test\"] # comment\n    subst[\"cat\", \"dog\"] ; comment\n  " (fun c => fmtSeq (((ctxAt c 1).outputs[0]?.getD [])) == "+Backspace -Backspace +Backspace -Backspace !Any +D -D +O -O +G -G")
#guard (parseCfg "\n    macro = A\n    macro = macro B\n    macro = macro C\n    macro >> macro\n  ").isSome
#guard onCfg "\n    macro = A\n    macro = macro B\n    macro = macro C\n    macro >> macro\n  " (fun c => fmtSeq (((ctxAt c 0).outputs[0]?.getD [])) == "+A -A +B -B +C -C")
#guard (parseCfg "\n    default = [default]\n    default\n  ").isNone
#guard (parseCfg "\n    Mouse = /Mouse|Logitech USB Receiver|G502/i\n    [device = Mouse]\n  ").isSome

-- Terminal command
#guard (parseCfg "A >> $").isNone
#guard (parseCfg "A >> $(ls ").isNone
#guard (parseCfg "A >> A{ $(ls) }").isNone
#guard (parseCfg "A >> (A $(ls) )").isNone

-- Special characters in string and macro
#guard (parseCfg "\n    trigger = $(pastel \"#cb4b16\" \"[trigger = $0]\")\n    A >> trigger[\"[\"]\n    B >> trigger[\"]\"]\n    C >> trigger[\"#\"]\n    D >> trigger[\";\"]\n  ").isSome
#guard onCfg "\n    trigger = $(pastel \"#cb4b16\" \"[trigger = $0]\")\n    A >> trigger[\"[\"]\n    B >> trigger[\"]\"]\n    C >> trigger[\"#\"]\n    D >> trigger[\";\"]\n  " (fun c => c.actions.length == 4)

-- Logical keys
#guard (parseCfg "\n    Ext = IntlBackslash | AltRight\n    Ext{A} >> ArrowLeft\n  ").isSome
#guard onCfg "\n    Ext = IntlBackslash | AltRight\n    Ext{A} >> ArrowLeft\n  " (fun c => c.contexts.length == 1)
#guard onCfg "\n    Ext = IntlBackslash | AltRight\n    Ext{A} >> ArrowLeft\n  " (fun c => (ctxAt c 0).inputs.length == 2)
#guard onCfg "\n    Ext = IntlBackslash | AltRight\n    Ext{A} >> ArrowLeft\n  " (fun c => (ctxAt c 0).outputs.length == 1)
#guard onCfg "\n    Ext = IntlBackslash | AltRight\n    Ext{A} >> ArrowLeft\n  " (fun c => fmtSeq ((((ctxAt c 0).inputs[0]?.map (·.input)).getD default)) == "+IntlBackslash +A ~A ~IntlBackslash")
#guard onCfg "\n    Ext = IntlBackslash | AltRight\n    Ext{A} >> ArrowLeft\n  " (fun c => (((ctxAt c 0).inputs[0]?.map (·.outputIndex)).getD default) == 0)
#guard onCfg "\n    Ext = IntlBackslash | AltRight\n    Ext{A} >> ArrowLeft\n  " (fun c => fmtSeq ((((ctxAt c 0).inputs[1]?.map (·.input)).getD default)) == "+AltRight +A ~A ~AltRight")
#guard onCfg "\n    Ext = IntlBackslash | AltRight\n    Ext{A} >> ArrowLeft\n  " (fun c => (((ctxAt c 0).inputs[1]?.map (·.outputIndex)).getD default) == 0)
#guard (parseCfg "\n    Ext = IntlBackslash | AltRight\n    Alt = AltLeft\n    Ext2 = Ext | Alt\n    Ext2{A} >> ArrowLeft\n  ").isSome
#guard onCfg "\n    Ext = IntlBackslash | AltRight\n    Alt = AltLeft\n    Ext2 = Ext | Alt\n    Ext2{A} >> ArrowLeft\n  " (fun c => c.contexts.length == 1)
#guard onCfg "\n    Ext = IntlBackslash | AltRight\n    Alt = AltLeft\n    Ext2 = Ext | Alt\n    Ext2{A} >> ArrowLeft\n  " (fun c => (ctxAt c 0).inputs.length == 3)
#guard onCfg "\n    Ext = IntlBackslash | AltRight\n    Alt = AltLeft\n    Ext2 = Ext | Alt\n    Ext2{A} >> ArrowLeft\n  " (fun c => (ctxAt c 0).outputs.length == 1)
#guard onCfg "\n    Ext = IntlBackslash | AltRight\n    Alt = AltLeft\n    Ext2 = Ext | Alt\n    Ext2{A} >> ArrowLeft\n  " (fun c => fmtSeq ((((ctxAt c 0).inputs[0]?.map (·.input)).getD default)) == "+IntlBackslash +A ~A ~IntlBackslash")
#guard onCfg "\n    Ext = IntlBackslash | AltRight\n    Alt = AltLeft\n    Ext2 = Ext | Alt\n    Ext2{A} >> ArrowLeft\n  " (fun c => fmtSeq ((((ctxAt c 0).inputs[1]?.map (·.input)).getD default)) == "+AltRight +A ~A ~AltRight")
#guard onCfg "\n    Ext = IntlBackslash | AltRight\n    Alt = AltLeft\n    Ext2 = Ext | Alt\n    Ext2{A} >> ArrowLeft\n  " (fun c => fmtSeq ((((ctxAt c 0).inputs[2]?.map (·.input)).getD default)) == "+AltLeft +A ~A ~AltLeft")
#guard (parseCfg "\n    Ext = IntlBackslash | AltRight | AltLeft | AltRight  # duplicates are not removed (not ideal)\n    Macro = A $(ls -la | grep xy) B\n    Ext{A} >> Macro\n    X >> !Ext Y\n  ").isSome
#guard onCfg "\n    Ext = IntlBackslash | AltRight | AltLeft | AltRight  # duplicates are not removed (not ideal)\n    Macro = A $(ls -la | grep xy) B\n    Ext{A} >> Macro\n    X >> !Ext Y\n  " (fun c => c.contexts.length == 1)
#guard onCfg "\n    Ext = IntlBackslash | AltRight | AltLeft | AltRight  # duplicates are not removed (not ideal)\n    Macro = A $(ls -la | grep xy) B\n    Ext{A} >> Macro\n    X >> !Ext Y\n  " (fun c => (ctxAt c 0).inputs.length == 5)
#guard onCfg "\n    Ext = IntlBackslash | AltRight | AltLeft | AltRight  # duplicates are not removed (not ideal)\n    Macro = A $(ls -la | grep xy) B\n    Ext{A} >> Macro\n    X >> !Ext Y\n  " (fun c => (ctxAt c 0).outputs.length == 2)
#guard onCfg "\n    Ext = IntlBackslash | AltRight | AltLeft | AltRight  # duplicates are not removed (not ideal)\n    Macro = A $(ls -la | grep xy) B\n    Ext{A} >> Macro\n    X >> !Ext Y\n  " (fun c => fmtSeq ((((ctxAt c 0).inputs[0]?.map (·.input)).getD default)) == "+IntlBackslash +A ~A ~IntlBackslash")
#guard onCfg "\n    Ext = IntlBackslash | AltRight | AltLeft | AltRight  # duplicates are not removed (not ideal)\n    Macro = A $(ls -la | grep xy) B\n    Ext{A} >> Macro\n    X >> !Ext Y\n  " (fun c => fmtSeq ((((ctxAt c 0).inputs[1]?.map (·.input)).getD default)) == "+AltRight +A ~A ~AltRight")
#guard onCfg "\n    Ext = IntlBackslash | AltRight | AltLeft | AltRight  # duplicates are not removed (not ideal)\n    Macro = A $(ls -la | grep xy) B\n    Ext{A} >> Macro\n    X >> !Ext Y\n  " (fun c => fmtSeq ((((ctxAt c 0).inputs[2]?.map (·.input)).getD default)) == "+AltLeft +A ~A ~AltLeft")
#guard onCfg "\n    Ext = IntlBackslash | AltRight | AltLeft | AltRight  # duplicates are not removed (not ideal)\n    Macro = A $(ls -la | grep xy) B\n    Ext{A} >> Macro\n    X >> !Ext Y\n  " (fun c => fmtSeq ((((ctxAt c 0).inputs[3]?.map (·.input)).getD default)) == "+AltRight +A ~A ~AltRight")
#guard onCfg "\n    Ext = IntlBackslash | AltRight | AltLeft | AltRight  # duplicates are not removed (not ideal)\n    Macro = A $(ls -la | grep xy) B\n    Ext{A} >> Macro\n    X >> !Ext Y\n  " (fun c => fmtSeq ((((ctxAt c 0).inputs[4]?.map (·.input)).getD default)) == "+X ~X")
#guard onCfg "\n    Ext = IntlBackslash | AltRight | AltLeft | AltRight  # duplicates are not removed (not ideal)\n    Macro = A $(ls -la | grep xy) B\n    Ext{A} >> Macro\n    X >> !Ext Y\n  " (fun c => fmtSeq (((ctxAt c 0).outputs[0]?.getD [])) == "+A -A +Action0 +B -B")
#guard onCfg "\n    Ext = IntlBackslash | AltRight | AltLeft | AltRight  # duplicates are not removed (not ideal)\n    Macro = A $(ls -la | grep xy) B\n    Ext{A} >> Macro\n    X >> !Ext Y\n  " (fun c => fmtSeq (((ctxAt c 0).outputs[1]?.getD [])) == "!IntlBackslash !AltRight !AltLeft !AltRight +Y")
#guard onCfg "\n    Ext = IntlBackslash | AltRight | AltLeft | AltRight  # duplicates are not removed (not ideal)\n    Macro = A $(ls -la | grep xy) B\n    Ext{A} >> Macro\n    X >> !Ext Y\n  " (fun c => c.actions.length == 1)
#guard onCfg "\n    Ext = IntlBackslash | AltRight | AltLeft | AltRight  # duplicates are not removed (not ideal)\n    Macro = A $(ls -la | grep xy) B\n    Ext{A} >> Macro\n    X >> !Ext Y\n  " (fun c => (String.ofList ((c.actions[0]?).getD [])) == "ls -la | grep xy")
#guard (parseCfg "Ext = A | ").isNone
#guard (parseCfg "Ext = A | B |").isNone
#guard (parseCfg "Ext = A | something").isNone
#guard (parseCfg "A >> B | C").isNone
#guard (parseCfg "A | B >> C").isNone

-- Logical keys 2
#guard (parseCfg "\n    Shift{A} >> Shift{B}\n  ").isSome
#guard onCfg "\n    Shift{A} >> Shift{B}\n  " (fun c => c.contexts.length == 1)
#guard onCfg "\n    Shift{A} >> Shift{B}\n  " (fun c => (ctxAt c 0).inputs.length == 2)
#guard onCfg "\n    Shift{A} >> Shift{B}\n  " (fun c => (ctxAt c 0).outputs.length == 2)
#guard onCfg "\n    Shift{A} >> Shift{B}\n  " (fun c => fmtSeq ((((ctxAt c 0).inputs[0]?.map (·.input)).getD default)) == "+ShiftLeft +A ~A ~ShiftLeft")
#guard onCfg "\n    Shift{A} >> Shift{B}\n  " (fun c => fmtSeq ((((ctxAt c 0).inputs[1]?.map (·.input)).getD default)) == "+ShiftRight +A ~A ~ShiftRight")
#guard onCfg "\n    Shift{A} >> Shift{B}\n  " (fun c => fmtSeq (((ctxAt c 0).outputs[0]?.getD [])) == "+ShiftLeft +B -B -ShiftLeft")
#guard onCfg "\n    Shift{A} >> Shift{B}\n  " (fun c => fmtSeq (((ctxAt c 0).outputs[1]?.getD [])) == "+ShiftRight +B -B -ShiftRight")

-- Logical keys in context filter
#guard (parseCfg "\n    Mod = A | B | C\n    \n    [modifier = \"Mod\"] # 2 fallthrough contexts\n    R >> X\n    \n    [modifier = \"!Mod !Mod Mod\"]  # duplicates are removed\n    S >> Y\n    \n    [default]\n    T >> Z\n  ").isSome
#guard onCfg "\n    Mod = A | B | C\n    \n    [modifier = \"Mod\"] # 2 fallthrough contexts\n    R >> X\n    \n    [modifier = \"!Mod !Mod Mod\"]  # duplicates are removed\n    S >> Y\n    \n    [default]\n    T >> Z\n  " (fun c => c.contexts.length == 5)
#guard onCfg "\n    Mod = A | B | C\n    \n    [modifier = \"Mod\"] # 2 fallthrough contexts\n    R >> X\n    \n    [modifier = \"!Mod !Mod Mod\"]  # duplicates are removed\n    S >> Y\n    \n    [default]\n    T >> Z\n  " (fun c => (ctxAt c 0).fallthrough)
#guard onCfg "\n    Mod = A | B | C\n    \n    [modifier = \"Mod\"] # 2 fallthrough contexts\n    R >> X\n    \n    [modifier = \"!Mod !Mod Mod\"]  # duplicates are removed\n    S >> Y\n    \n    [default]\n    T >> Z\n  " (fun c => (ctxAt c 0).inputs.isEmpty)
#guard onCfg "\n    Mod = A | B | C\n    \n    [modifier = \"Mod\"] # 2 fallthrough contexts\n    R >> X\n    \n    [modifier = \"!Mod !Mod Mod\"]  # duplicates are removed\n    S >> Y\n    \n    [default]\n    T >> Z\n  " (fun c => (ctxAt c 1).fallthrough)
#guard onCfg "\n    Mod = A | B | C\n    \n    [modifier = \"Mod\"] # 2 fallthrough contexts\n    R >> X\n    \n    [modifier = \"!Mod !Mod Mod\"]  # duplicates are removed\n    S >> Y\n    \n    [default]\n    T >> Z\n  " (fun c => (ctxAt c 1).inputs.isEmpty)
#guard onCfg "\n    Mod = A | B | C\n    \n    [modifier = \"Mod\"] # 2 fallthrough contexts\n    R >> X\n    \n    [modifier = \"!Mod !Mod Mod\"]  # duplicates are removed\n    S >> Y\n    \n    [default]\n    T >> Z\n  " (fun c => !(ctxAt c 2).fallthrough)
#guard onCfg "\n    Mod = A | B | C\n    \n    [modifier = \"Mod\"] # 2 fallthrough contexts\n    R >> X\n    \n    [modifier = \"!Mod !Mod Mod\"]  # duplicates are removed\n    S >> Y\n    \n    [default]\n    T >> Z\n  " (fun c => (ctxAt c 2).inputs.length == 1)
#guard onCfg "\n    Mod = A | B | C\n    \n    [modifier = \"Mod\"] # 2 fallthrough contexts\n    R >> X\n    \n    [modifier = \"!Mod !Mod Mod\"]  # duplicates are removed\n    S >> Y\n    \n    [default]\n    T >> Z\n  " (fun c => !(ctxAt c 3).fallthrough)
#guard onCfg "\n    Mod = A | B | C\n    \n    [modifier = \"Mod\"] # 2 fallthrough contexts\n    R >> X\n    \n    [modifier = \"!Mod !Mod Mod\"]  # duplicates are removed\n    S >> Y\n    \n    [default]\n    T >> Z\n  " (fun c => (ctxAt c 3).inputs.length == 1)
#guard onCfg "\n    Mod = A | B | C\n    \n    [modifier = \"Mod\"] # 2 fallthrough contexts\n    R >> X\n    \n    [modifier = \"!Mod !Mod Mod\"]  # duplicates are removed\n    S >> Y\n    \n    [default]\n    T >> Z\n  " (fun c => !(ctxAt c 4).fallthrough)
#guard onCfg "\n    Mod = A | B | C\n    \n    [modifier = \"Mod\"] # 2 fallthrough contexts\n    R >> X\n    \n    [modifier = \"!Mod !Mod Mod\"]  # duplicates are removed\n    S >> Y\n    \n    [default]\n    T >> Z\n  " (fun c => (ctxAt c 4).inputs.length == 1)
#guard onCfg "\n    Mod = A | B | C\n    \n    [modifier = \"Mod\"] # 2 fallthrough contexts\n    R >> X\n    \n    [modifier = \"!Mod !Mod Mod\"]  # duplicates are removed\n    S >> Y\n    \n    [default]\n    T >> Z\n  " (fun c => fmtSeq ((ctxAt c 0).modifierFilter) == "+A")
#guard onCfg "\n    Mod = A | B | C\n    \n    [modifier = \"Mod\"] # 2 fallthrough contexts\n    R >> X\n    \n    [modifier = \"!Mod !Mod Mod\"]  # duplicates are removed\n    S >> Y\n    \n    [default]\n    T >> Z\n  " (fun c => fmtSeq ((ctxAt c 1).modifierFilter) == "+B")
#guard onCfg "\n    Mod = A | B | C\n    \n    [modifier = \"Mod\"] # 2 fallthrough contexts\n    R >> X\n    \n    [modifier = \"!Mod !Mod Mod\"]  # duplicates are removed\n    S >> Y\n    \n    [default]\n    T >> Z\n  " (fun c => fmtSeq ((ctxAt c 2).modifierFilter) == "+C")
#guard onCfg "\n    Mod = A | B | C\n    \n    [modifier = \"Mod\"] # 2 fallthrough contexts\n    R >> X\n    \n    [modifier = \"!Mod !Mod Mod\"]  # duplicates are removed\n    S >> Y\n    \n    [default]\n    T >> Z\n  " (fun c => fmtSeq ((ctxAt c 3).modifierFilter) == "!A !B !C")
#guard onCfg "\n    Mod = A | B | C\n    \n    [modifier = \"Mod\"] # 2 fallthrough contexts\n    R >> X\n    \n    [modifier = \"!Mod !Mod Mod\"]  # duplicates are removed\n    S >> Y\n    \n    [default]\n    T >> Z\n  " (fun c => fmtSeq ((ctxAt c 4).modifierFilter) == "")

-- String escape sequence
#guard (parseCfg "\n    A >> '\\nnt\\t'\n    B >> $(echo \"a\\nb\")\n  ").isSome
#guard onCfg "\n    A >> '\\nnt\\t'\n    B >> $(echo \"a\\nb\")\n  " (fun c => c.contexts.length == 1)
#guard onCfg "\n    A >> '\\nnt\\t'\n    B >> $(echo \"a\\nb\")\n  " (fun c => (ctxAt c 0).outputs.length == 2)
#guard onCfg "\n    A >> '\\nnt\\t'\n    B >> $(echo \"a\\nb\")\n  " (fun c => fmtSeq (((ctxAt c 0).outputs[0]?.getD [])) == "!Any +Enter -Enter +N -N +T -T +Tab -Tab")
#guard onCfg "\n    A >> '\\nnt\\t'\n    B >> $(echo \"a\\nb\")\n  " (fun c => c.actions.length == 1)
#guard onCfg "\n    A >> '\\nnt\\t'\n    B >> $(echo \"a\\nb\")\n  " (fun c => (String.ofList ((c.actions[0]?).getD [])) == "echo \"a\\nb\"")

-- Complex terminal commands
#guard (parseCfg "\n    F1 >> $(i3-open -c Telegram \"gtk-launch $(basename $(rg -l Telegram $HOME/.local/share/applications)) \")\n  ").isSome
#guard onCfg "\n    F1 >> $(i3-open -c Telegram \"gtk-launch $(basename $(rg -l Telegram $HOME/.local/share/applications)) \")\n  " (fun c => c.actions.length == 1)

-- Device directives
#guard (parseCfg "\n    @skip-device /.*/\n\n    [system = \"Linux\"]\n    @grab-device \"MyKeyboard 1\"  # comment\n\n    [system = \"Windows\"]\n    @grab-device \"MyKeyboard 2\"\n\n    [system = \"MacOS\"]\n    @grab-device \"MyKeyboard 3\"\n\n    [default]\n    @grab-device \"MyKeyboard\"\n  ").isSome
#guard onCfg "\n    @skip-device /.*/\n\n    [system = \"Linux\"]\n    @grab-device \"MyKeyboard 1\"  # comment\n\n    [system = \"Windows\"]\n    @grab-device \"MyKeyboard 2\"\n\n    [system = \"MacOS\"]\n    @grab-device \"MyKeyboard 3\"\n\n    [default]\n    @grab-device \"MyKeyboard\"\n  " (fun c => c.grabDeviceFilters.length == 3)
#guard onCfg "\n    @skip-device /.*/\n\n    [system = \"Linux\"]\n    @grab-device \"MyKeyboard 1\"  # comment\n\n    [system = \"Windows\"]\n    @grab-device \"MyKeyboard 2\"\n\n    [system = \"MacOS\"]\n    @grab-device \"MyKeyboard 3\"\n\n    [default]\n    @grab-device \"MyKeyboard\"\n  " (fun c => (c.grabDeviceFilters[0]?.getD default).invert == true)
#guard onCfg "\n    @skip-device /.*/\n\n    [system = \"Linux\"]\n    @grab-device \"MyKeyboard 1\"  # comment\n\n    [system = \"Windows\"]\n    @grab-device \"MyKeyboard 2\"\n\n    [system = \"MacOS\"]\n    @grab-device \"MyKeyboard 3\"\n\n    [default]\n    @grab-device \"MyKeyboard\"\n  " (fun c => (c.grabDeviceFilters[0]?.getD default).isRegex)
#guard onCfg "\n    @skip-device /.*/\n\n    [system = \"Linux\"]\n    @grab-device \"MyKeyboard 1\"  # comment\n\n    [system = \"Windows\"]\n    @grab-device \"MyKeyboard 2\"\n\n    [system = \"MacOS\"]\n    @grab-device \"MyKeyboard 3\"\n\n    [default]\n    @grab-device \"MyKeyboard\"\n  " (fun c => String.ofList (c.grabDeviceFilters[0]?.getD default).string == "/.*/")
#guard onCfg "\n    @skip-device /.*/\n\n    [system = \"Linux\"]\n    @grab-device \"MyKeyboard 1\"  # comment\n\n    [system = \"Windows\"]\n    @grab-device \"MyKeyboard 2\"\n\n    [system = \"MacOS\"]\n    @grab-device \"MyKeyboard 3\"\n\n    [default]\n    @grab-device \"MyKeyboard\"\n  " (fun c => (c.grabDeviceFilters[1]?.getD default).invert == false)
#guard onCfg "\n    @skip-device /.*/\n\n    [system = \"Linux\"]\n    @grab-device \"MyKeyboard 1\"  # comment\n\n    [system = \"Windows\"]\n    @grab-device \"MyKeyboard 2\"\n\n    [system = \"MacOS\"]\n    @grab-device \"MyKeyboard 3\"\n\n    [default]\n    @grab-device \"MyKeyboard\"\n  " (fun c => !(c.grabDeviceFilters[1]?.getD default).isRegex)
#guard onCfg "\n    @skip-device /.*/\n\n    [system = \"Linux\"]\n    @grab-device \"MyKeyboard 1\"  # comment\n\n    [system = \"Windows\"]\n    @grab-device \"MyKeyboard 2\"\n\n    [system = \"MacOS\"]\n    @grab-device \"MyKeyboard 3\"\n\n    [default]\n    @grab-device \"MyKeyboard\"\n  " (fun c => (c.grabDeviceFilters[2]?.getD default).invert == false)
#guard onCfg "\n    @skip-device /.*/\n\n    [system = \"Linux\"]\n    @grab-device \"MyKeyboard 1\"  # comment\n\n    [system = \"Windows\"]\n    @grab-device \"MyKeyboard 2\"\n\n    [system = \"MacOS\"]\n    @grab-device \"MyKeyboard 3\"\n\n    [default]\n    @grab-device \"MyKeyboard\"\n  " (fun c => !(c.grabDeviceFilters[2]?.getD default).isRegex)
#guard onCfg "\n    @skip-device /.*/\n\n    [system = \"Linux\"]\n    @grab-device \"MyKeyboard 1\"  # comment\n\n    [system = \"Windows\"]\n    @grab-device \"MyKeyboard 2\"\n\n    [system = \"MacOS\"]\n    @grab-device \"MyKeyboard 3\"\n\n    [default]\n    @grab-device \"MyKeyboard\"\n  " (fun c => String.ofList (c.grabDeviceFilters[2]?.getD default).string == "MyKeyboard")
#guard (parseCfg "@skip-dev /.*/").isNone
#guard (parseCfg "@skip-device /.*/ X").isNone

-- Line break
#guard (parseCfg "\n    A >> \\\n    B \\\n    C \n  ").isSome
#guard onCfg "\n    A >> \\\n    B \\\n    C \n  " (fun c => c.contexts.length == 1)
#guard onCfg "\n    A >> \\\n    B \\\n    C \n  " (fun c => fmtSeq ((((ctxAt c 0).inputs[0]?.map (·.input)).getD default)) == "+A ~A")
#guard onCfg "\n    A >> \\\n    B \\\n    C \n  " (fun c => fmtSeq (((ctxAt c 0).outputs[0]?.getD [])) == "+B -B +C -C")

-- String interpolation
#guard (parseCfg "\n    TEST = \"bc\"\n    A >> \"${TEST}TEST$TEST\";\n    [title = /${TEST}TEST$TEST/]\n    B >> $(${TEST}TEST$TEST)\n    D >> $(${TEST1 TEST$TEST1)\n  ").isSome
#guard onCfg "\n    TEST = \"bc\"\n    A >> \"${TEST}TEST$TEST\";\n    [title = /${TEST}TEST$TEST/]\n    B >> $(${TEST}TEST$TEST)\n    D >> $(${TEST1 TEST$TEST1)\n  " (fun c => c.contexts.length == 2)
#guard onCfg "\n    TEST = \"bc\"\n    A >> \"${TEST}TEST$TEST\";\n    [title = /${TEST}TEST$TEST/]\n    B >> $(${TEST}TEST$TEST)\n    D >> $(${TEST1 TEST$TEST1)\n  " (fun c => (ctxAt c 0).outputs.length == 1)
#guard onCfg "\n    TEST = \"bc\"\n    A >> \"${TEST}TEST$TEST\";\n    [title = /${TEST}TEST$TEST/]\n    B >> $(${TEST}TEST$TEST)\n    D >> $(${TEST1 TEST$TEST1)\n  " (fun c => c.actions.length == 2)
#guard onCfg "\n    TEST = \"bc\"\n    A >> \"${TEST}TEST$TEST\";\n    [title = /${TEST}TEST$TEST/]\n    B >> $(${TEST}TEST$TEST)\n    D >> $(${TEST1 TEST$TEST1)\n  " (fun c => fmtSeq (((ctxAt c 0).outputs[0]?.getD [])) == "!Any +B -B +C -C +ShiftLeft +T -T +E -E +S -S +T -T -ShiftLeft +B -B +C -C")
#guard onCfg "\n    TEST = \"bc\"\n    A >> \"${TEST}TEST$TEST\";\n    [title = /${TEST}TEST$TEST/]\n    B >> $(${TEST}TEST$TEST)\n    D >> $(${TEST1 TEST$TEST1)\n  " (fun c => String.ofList (ctxAt c 1).windowTitle.string == "/bcTESTbc/")
#guard onCfg "\n    TEST = \"bc\"\n    A >> \"${TEST}TEST$TEST\";\n    [title = /${TEST}TEST$TEST/]\n    B >> $(${TEST}TEST$TEST)\n    D >> $(${TEST1 TEST$TEST1)\n  " (fun c => (String.ofList ((c.actions[0]?).getD [])) == "bcTESTbc")
#guard onCfg "\n    TEST = \"bc\"\n    A >> \"${TEST}TEST$TEST\";\n    [title = /${TEST}TEST$TEST/]\n    B >> $(${TEST}TEST$TEST)\n    D >> $(${TEST1 TEST$TEST1)\n  " (fun c => (String.ofList ((c.actions[1]?).getD [])) == "${TEST1 TEST$TEST1")

end KM.Test
