import Verif.Model.Capabilities
import Verif.Model.Client
import Verif.Model.ClientProgram
import Verif.Model.Connection
import Verif.Model.Control
import Verif.Model.Devices
import Verif.Model.Filter
import Verif.Model.FocusedWindow
import Verif.Model.Host
import Verif.Model.Key
import Verif.Model.KeyName
import Verif.Model.KeyTable
import Verif.Model.Layout
import Verif.Model.Match
import Verif.Model.MultiStage
import Verif.Model.Notification
import Verif.Model.ParseConfig
import Verif.Model.ParseKeySequence
import Verif.Model.Preprocess
import Verif.Model.Serial
import Verif.Model.Server
import Verif.Model.ServerLoop
import Verif.Model.ServerProgram
import Verif.Model.Socket
import Verif.Model.Stage
import Verif.Model.StringIteration
import Verif.Model.StringTyper
import Verif.Model.Util
import Verif.Model.Windows
import Verif.Spec.Abbreviations
import Verif.Spec.Capabilities
import Verif.Spec.Client
import Verif.Spec.ClientProgram
import Verif.Spec.Clock
import Verif.Spec.Combinations
import Verif.Spec.Configuration
import Verif.Spec.Context
import Verif.Spec.Control
import Verif.Spec.ControlPort
import Verif.Spec.Devices
import Verif.Spec.Document
import Verif.Spec.EndToEnd
import Verif.Spec.Exclude
import Verif.Spec.Expression
import Verif.Spec.Flush
import Verif.Spec.Focus
import Verif.Spec.FocusedWindow
import Verif.Spec.Forward
import Verif.Spec.Grammar
import Verif.Spec.GrammarInput
import Verif.Spec.HeldBack
import Verif.Spec.Layers
import Verif.Spec.Layout
import Verif.Spec.Logical
import Verif.Spec.Macros
import Verif.Spec.Match
import Verif.Spec.MultiStage
import Verif.Spec.OnRelease
import Verif.Spec.Reload
import Verif.Spec.ReloadHistory
import Verif.Spec.Remap
import Verif.Spec.Safe
import Verif.Spec.Serial
import Verif.Spec.Server
import Verif.Spec.ServerProgram
import Verif.Spec.Shell
import Verif.Spec.StageRun
import Verif.Spec.Stages
import Verif.Spec.Timed
import Verif.Spec.TimedRepeats
import Verif.Spec.Transparent
import Verif.Spec.TypedText
import Verif.Spec.Unmapped
import Verif.Spec.Windows
import Verif.Lemmas.Abandon
import Verif.Lemmas.AbandonMatch
import Verif.Lemmas.Active
import Verif.Lemmas.Attribution
import Verif.Lemmas.ChordMatch
import Verif.Lemmas.Client
import Verif.Lemmas.ClientRun
import Verif.Lemmas.ClockSim
import Verif.Lemmas.CombinationHolds
import Verif.Lemmas.CombinationMatch
import Verif.Lemmas.CombinationOutput
import Verif.Lemmas.CombinationStep
import Verif.Lemmas.ConfigChain
import Verif.Lemmas.ConfigCommands
import Verif.Lemmas.ConfigInv
import Verif.Lemmas.ConfigPasses
import Verif.Lemmas.ConfigSteps
import Verif.Lemmas.Context
import Verif.Lemmas.Control
import Verif.Lemmas.ControlPort
import Verif.Lemmas.ControlPortCtl
import Verif.Lemmas.ControlPortRun
import Verif.Lemmas.Delay
import Verif.Lemmas.DocContext
import Verif.Lemmas.DocExpand
import Verif.Lemmas.DocFinish
import Verif.Lemmas.DocForward
import Verif.Lemmas.DocMapping
import Verif.Lemmas.DocSimple
import Verif.Lemmas.DocState
import Verif.Lemmas.DocStep
import Verif.Lemmas.DocSuppress
import Verif.Lemmas.DocText
import Verif.Lemmas.Document
import Verif.Lemmas.EndToEnd
import Verif.Lemmas.Exclude
import Verif.Lemmas.ExcludeMatch
import Verif.Lemmas.Foreign
import Verif.Lemmas.Framing
import Verif.Lemmas.Frozen
import Verif.Lemmas.GrabbedDevices
import Verif.Lemmas.GrammarEvents
import Verif.Lemmas.GrammarIn
import Verif.Lemmas.GrammarOut
import Verif.Lemmas.GrammarText
import Verif.Lemmas.Held
import Verif.Lemmas.HeldBack
import Verif.Lemmas.HeldKey
import Verif.Lemmas.HeldMatch
import Verif.Lemmas.History
import Verif.Lemmas.HistoryRun
import Verif.Lemmas.Host
import Verif.Lemmas.Kept
import Verif.Lemmas.KeyRange
import Verif.Lemmas.LayerShortcuts
import Verif.Lemmas.Layers
import Verif.Lemmas.LayersRefine
import Verif.Lemmas.Logical
import Verif.Lemmas.LogicalHeld
import Verif.Lemmas.MacroExpand
import Verif.Lemmas.MacroScan
import Verif.Lemmas.Match
import Verif.Lemmas.MatchSafe
import Verif.Lemmas.MultiSafe
import Verif.Lemmas.Output
import Verif.Lemmas.ParseInput
import Verif.Lemmas.ParseInputFinal
import Verif.Lemmas.ParseInputInv
import Verif.Lemmas.ParseKeys
import Verif.Lemmas.ParseOutput
import Verif.Lemmas.ParseProgress
import Verif.Lemmas.ParseSeq
import Verif.Lemmas.ParseValues
import Verif.Lemmas.ParsedActions
import Verif.Lemmas.PatternMatch
import Verif.Lemmas.Pressed
import Verif.Lemmas.Release
import Verif.Lemmas.Reload
import Verif.Lemmas.RemapLookup
import Verif.Lemmas.RemapMatch
import Verif.Lemmas.RemapStep
import Verif.Lemmas.Safe
import Verif.Lemmas.Search
import Verif.Lemmas.SeqAll
import Verif.Lemmas.SeqReplace
import Verif.Lemmas.Serial
import Verif.Lemmas.ServerClock
import Verif.Lemmas.ServerForward
import Verif.Lemmas.ServerKeeps
import Verif.Lemmas.ServerProgram
import Verif.Lemmas.ServerQuiet
import Verif.Lemmas.ServerRel
import Verif.Lemmas.ServerServes
import Verif.Lemmas.ServerSteps
import Verif.Lemmas.StageInv
import Verif.Lemmas.StageRun
import Verif.Lemmas.Stages
import Verif.Lemmas.StagesDoc
import Verif.Lemmas.SwitchOff
import Verif.Lemmas.TimedEvents
import Verif.Lemmas.TimedLoop
import Verif.Lemmas.TimedMatch
import Verif.Lemmas.TimedRepeat
import Verif.Lemmas.TimedRounds
import Verif.Lemmas.TimedRun
import Verif.Lemmas.TimedStep
import Verif.Lemmas.Tracking
import Verif.Lemmas.Transparent
import Verif.Lemmas.VirtualDeviceKeys
import Verif.Lemmas.VirtualDevices
import Verif.Lemmas.WordEnd
import Verif.Lemmas.WordHeld
import Verif.Lemmas.WordMatch
import Verif.Lemmas.WordRun
import Verif.Lemmas.WordStep
import Verif.Props.Abbreviations
import Verif.Props.Attribution
import Verif.Props.Capabilities
import Verif.Props.Client
import Verif.Props.ClientConfig
import Verif.Props.ClientLimits
import Verif.Props.ClientProgram
import Verif.Props.Clock
import Verif.Props.Combinations
import Verif.Props.CommandLine
import Verif.Props.Configuration
import Verif.Props.ConfigurationLimits
import Verif.Props.Contexts
import Verif.Props.Control
import Verif.Props.ControlLimits
import Verif.Props.ControlLimits2
import Verif.Props.ControlPort
import Verif.Props.ControlProgram
import Verif.Props.ControlWait
import Verif.Props.Delay
import Verif.Props.Devices
import Verif.Props.Document
import Verif.Props.EndToEnd
import Verif.Props.Exclude
import Verif.Props.Exit
import Verif.Props.Expressions
import Verif.Props.Flush
import Verif.Props.Focus
import Verif.Props.FocusedWindow
import Verif.Props.GrabbedDevices
import Verif.Props.Grammar
import Verif.Props.GrammarInput
import Verif.Props.HeldBack
import Verif.Props.History
import Verif.Props.Host
import Verif.Props.Injected
import Verif.Props.KeyNames
import Verif.Props.LayerShortcuts
import Verif.Props.Layers
import Verif.Props.Layout
import Verif.Props.LogicalKeys
import Verif.Props.Lookup
import Verif.Props.Macros
import Verif.Props.Matcher
import Verif.Props.MultiStage
import Verif.Props.Notification
import Verif.Props.Notifications
import Verif.Props.OnRelease
import Verif.Props.Overlap
import Verif.Props.ParsedOutput
import Verif.Props.Pressed
import Verif.Props.ReleaseOutput
import Verif.Props.Reload
import Verif.Props.ReloadHistory
import Verif.Props.Remap
import Verif.Props.Safe
import Verif.Props.Serial
import Verif.Props.ServerInput
import Verif.Props.ServerProgram
import Verif.Props.ServerTimeout
import Verif.Props.Socket
import Verif.Props.StageOutput
import Verif.Props.Stages
import Verif.Props.SwitchOff
import Verif.Props.Termination
import Verif.Props.Timed
import Verif.Props.TimedClock
import Verif.Props.TimedRepeats
import Verif.Props.Timeout
import Verif.Props.Transparent
import Verif.Props.TypedText
import Verif.Props.Typing
import Verif.Props.Unmapped
import Verif.Props.VirtualDevices
import Verif.Props.VirtualKeys
import Verif.Props.Wheel
import Verif.Props.Windows
import Verif.Props.WindowsOrder
import Verif.Props.WindowsUnmapped
import Verif.Tests.Lib
import Verif.Tests.MatchKeySequence
import Verif.Tests.ParseConfig
import Verif.Tests.ParseKeySequence
import Verif.Tests.Server
import Verif.Tests.Stage
