# Design of the verification of keymapper

Source: `/repo` (houmain/keymapper, pinned commit), read as text, the Linux
(non-`_WIN32`, non-`__APPLE__`) variant. Everything is in Lean 4.33 core; Mathlib is
only imported, module by module, where a lemma is really needed.

## Modelling conventions

* `Key` is a 16 bit code, modelled as `Nat` (with the code's named constants). Where the
  width matters (serialisation) `< 2^16` is an explicit hypothesis.
* `KeyState` is an inductive type with the ten values of `KeyEvent.h`; the aliases
  (`Timeout_cancel_on_down = Down`, ...) are definitions, so that the sharing is kept.
* `KeyEvent` is a structure (key, state, value); `value` is a `Nat`, 12 bit truncation is
  modelled where events are created from wider values.
* A class with members is a structure, a member function is a function
  `State -> Args -> State x Result`; `const KeySequence*` are modelled by values where
  only the content is used, and by (context, index) pairs where the identity is compared.
* C++ loops are structural or well-founded recursions without fuel: termination is part
  of the model being accepted, and bounds on the number of rounds are stated separately.
* Undefined behaviour (out of bounds, failing `assert`) is an explicit outcome
  (`Option`/flag), never a default value silently chosen, wherever a property speaks
  about it.
* `Clock::now()` is an argument.

## Module plan

| module | code modelled |
|---|---|
| `Verif.Model.Key` | `runtime/Key.h`, `runtime/KeyEvent.h`, `runtime/Timeout.h` |
| `Verif.Model.Match` | `runtime/MatchKeySequence.cpp` |
| `Verif.Model.Stage` | `runtime/Stage.h`, `runtime/Stage.cpp` (all functions) |
| `Verif.Model.MultiStage` | `runtime/MultiStage.cpp` |
| `Verif.Model.Server` | `server/ServerState.cpp` (non Windows) |
| `Verif.Model.Windows` | `server/windows/main.cpp` (conversion of input and output, hooks), `server/ServerState.cpp` (Windows: when events are passed on), `client/windows/StringTyper.cpp` (`type`) |
| `Verif.Model.Serial` | `common/Connection.h`, `client/ServerPort.cpp`, `server/ClientPort.cpp` |
| `Verif.Model.KeyName` | `config/get_key_name.cpp` |
| `Verif.Model.ParseKeySequence` | `config/string_iteration.h`, `config/ParseKeySequence.cpp` |
| `Verif.Model.ParseConfig` | `config/ParseConfig.cpp` |
| `Verif.Model.Filter` | `common/Filter.h`, `common/parse_regex.h` (regex matching itself is a parameter) |
| `Verif.Model.Client` | `client/ClientState.cpp`, `client/ControlPort.cpp`, `client/ConfigFile.cpp` |
| `Verif.Model.Control` | `control/Settings.cpp`, `control/main.cpp`, `control/ClientPort.cpp`, together with the client it talks to |
| `Verif.Model.ClientProgram` | `client/Settings.{h,cpp}`, `client/unix/main.cpp` (`main`, `connection_loop`, `main_loop`, `update_options`, `resolve_config_file_path`), `client/unix/TrayIcon.cpp` (items of the menu), `common/output.cpp` (where messages appear) |
| `Verif.Model.Layout` | `client/unix/StringTyperXKB.cpp`, `client/unix/StringTyperX11.cpp` (dictionary without xkbcommon) |
| `Verif.Model.Capabilities` | `server/unix/GrabbedDevicesLinux.cpp` (what the kernel tells about a device), `server/unix/VirtualDevicesLinux.cpp` (what is announced for the virtual devices) |
| `Verif.Model.ServerProgram` | `server/unix/main.cpp` (`main`, `connection_loop`, `read_initial_config`, `main_loop`, the overridden handlers of messages), `server/Settings.cpp` |
| `Verif.Model.Host` | `common/Host.cpp` (handshake), `server/unix/main.cpp` (`connection_loop`: order of accepting and closing) |
| `Verif.Model.Notification` | `client/ClientState.cpp` (text of the information about a key), `client/unix/main.cpp` (`show_notification`) |
| `Verif.Model.FocusedWindow`, `Verif.Model.StringTyper` | `client/unix/FocusedWindow{Impl,Wlroots,DBus,X11}.cpp` (`update` and the handlers of events), `client/unix/StringTyperImpl.cpp`, `client/unix/StringTyperGeneric.cpp` |
| `Verif.Model.Devices` | `server/unix/VirtualDevicesLinux.cpp`, `GrabbedDevicesLinux.cpp`; what the kernel reports about a device is the content of `EvDev`, what is written is recorded |
| `Verif.Props.*` | one file per group of properties, statements in terms of small specifications defined there |
| `Verif.Tests.*` | the project's own unit tests replayed on the model (`#guard`), evidence for fidelity only, not proofs |

## Plan per property

| id | model | proof idea |
|---|---|---|
| C01 | main loop of `apply_input` as well-founded recursion | measure `length + number of Down/Up` decreases per round |
| C02 | `update` | `release_triggered` is the last step which can touch such entries; context outputs afterwards have the context trigger |
| C03 | output buffer + device fold | invariant by induction over operations, for one key at a time (`Holds q`); fails for keys which are held over `^` (witness, see disagreements), which are therefore excepted |
| C04 | output history | counting invariant: presses emitted >= tracked + pressed twice |
| C05 | `update` with no active context | forward simulation to a set of pressed keys |
| C06 | all operations | invariant `Nodup` |
| C07 | `advance_exit_sequence` | automaton, induction on histories; lifted through `MultiStage` and server |
| C08 | `match_input` | characterise the fold as "first element satisfying" |
| C09 | `find_output` | sorting + lower_bound = linear search in the last context |
| C10 | merge loop | induction on both sorted lists |
| C11 | `update_active_contexts` | filter/map/dedup lemmas |
| C12 | `evaluate_device_filters` | bit-level induction on device list; UB for index >= 64 explicit |
| C13 C69 | `update_history`, `clean_up_history`, everything in `Stage` and `MultiStage`; a flag records failed assertions and accesses outside | invariant `KeyHist` per key relates the history to the input (`Lemmas/History`), invariant `Ok` of the stage (`Lemmas/Safe`), lifted to stages in sequence (`Lemmas/MultiSafe`) and to what the parser accepts |
| C14 | matcher | simulation of the two runs until the result is produced |
| C15 C16 | matcher | induction on the expression with generalised loop state |
| C17 C18 | matcher | loop invariants on not-keys / any-matches |
| C19 | `Timeout.h` | arithmetic |
| C20 C21 | `MultiStage` | induction on stages; specification: feeding the output of a pipeline into the next stage |
| C22 | `ServerState`, main loop | every operation is a sequence of primitive steps (`SrvSteps`), over which invariants are shown; `told` replays what the client hears, `ToldAcross` with the keys silently released when the configuration is replaced |
| C23 | `flush_send_buffer` | the loop is total: structural in the number of toggles left and the buffer; announcements counted |
| C24 | `flush_send_buffer` | induction principle `flushLoop_rec` of the loop |
| C25 | `reset_configuration` | from C24 and monotony of the effects |
| C26 C27 C28 | `ServerState`, main loop | equations for `translate_input`, counting invariants over histories |
| C29 C30 C31 | `Model/Serial`: bytes, `Serializer`, `Deserializer` with an explicit buffer and position, all messages, framing loop | `Reads r bytes a`: the reader consumes exactly these bytes wherever they are; composes. Chunking by splitting a prefix of the stream into complete messages and an incomplete one. `Rd.Safe`: a flag records accesses outside of the buffer |
| C32 C33 C34 | expression parser | the loop is a sequence of abstract steps (`OutStep`, `InStep`, `Lemmas/ParseSeq`, `Lemmas/ParseInput`), invariants over the parser state for each step |
| C35 C36 C37 C38 C54 | configuration parser | parsing a file is a sequence of abstract steps (`CStep`, `Lemmas/ConfigSteps`); invariants of single contexts over the steps (`CtxHyps`) and over each pass (`CtxOk`, `Chain`, `AllOutputs`); replacing the logical keys is described by an equivalence with the specification `choose` (`Lemmas/Logical`), the filters by `held_all` (`Lemmas/LogicalHeld`) |
| C39 | name table | decision over the complete finite table + digits round trip |
| C40 C47 C63 C64 | client | each operation changes the control port in a described way (`step_port`, `ctl_after`), the table of the client follows `toldDown`, the aliases follow `serverView`; UB is a flag |
| C41 C66 | client, expression parser, typer | the keys are sent to a small model of a keyboard (`Keyboard.step`), `typedBy` reads which keys were pressed with which modifiers |
| C65 | `keymapperctl` and the client; what happens while `keymapperctl` waits is an arbitrary schedule | `foreign_run`: what else happens does not reply to the connection; `Idle` is restored by each answered request |
| C67 | `interpret_commandline` | round trip from options, induction |
| C68 | `schedule_flush`, `flush_send_buffer`, `main_loop` | relation `DelayKept` preserved by every operation, then C24 |
| C46 C60 C61 C62 | client: its state machine with everything it sends recorded; the file system is an argument of each operation | invariant `ClientInv`: what the server was told (replayed by `serverView`) agrees with the client, over all histories (`Lemmas/Client`, `Lemmas/ClientRun`) |
| C42 | filters | induction |
| C43 C44 C58 | virtual devices | invariant `VInv` over all histories: the state of each device agrees with what was written to it (`Lemmas/VirtualDevices`, `Lemmas/VirtualDeviceKeys`) |
| C55 C56 C57 C59 | grabbed devices | `grabUpdate_eq` describes an update exactly; arithmetic |
| C45 | typing | digits, `hexValue` reads them back |
| C05 C48 | stage | invariant `TInv`: only forwarded keys are in the sequence and held down; the matcher rejects every expression which does not mention them (`Lemmas/Foreign`, `Lemmas/Transparent`) |
| C49 | stage | invariant: last event of a key in the pending sequence = physical state |
| C50 C51 | stage | invariant over the tracked outputs and what triggered them (`Lemmas/Attribution`) |
| C52 | `apply_output`, `continue_output_on_release` | induction on the output sequence; every state |
| C53 | matcher | evaluation with symbolic keys |
| C70 | stage | simulation relation `RInv` between the stage and a specification which only remembers held keys and who pressed what (`Lemmas/RemapStep`); the lookup in sorted lists is shown to be the search in the listed contexts (`Lemmas/RemapLookup`) |
| C71 C72 | expression parser | syntax trees, their texts and their meaning are given separately (`Spec/Grammar`, `Spec/GrammarInput`); the texts are read term by term (`Lemmas/GrammarText`, `GrammarOut`, `GrammarIn`), induction over the tree |
| C73 | preprocessing | a relation `Expand` on tokens (`Spec/Macros`); the scanners skip exactly the texts of tokens (`Lemmas/MacroScan`), the code computes the result of every derivation (`Lemmas/MacroExpand`), induction over the derivation |
| C74 | the parser of lines, contexts, mappings, commands; the passes after parsing | statements with a meaning of their own (`Spec/Document`: a document is a list of blocks, `Doc.result` are the contexts which remain); a relation between the state of the parser and the document (`DocRel`) is kept by every kind of line (`Lemmas/DocState`, `DocMapping`, `DocStep`, `DocContext`, `Document`), the passes after parsing compute `Doc.result` (`Lemmas/DocFinish`); included files by induction over `Doc.Lines` |
| C75 | the whole path: file, parser, client, protocol, server loop, stage, virtual device (`Model/Connection` for the start of a connection, unix/main.cpp:192-212) | composition: C74 gives the contexts, `Lemmas/EndToEnd` what the client sends, C30 that the messages arrive, `Lemmas/ServerForward` that the loop of the server forwards what a stage outputs, C70 what the stage outputs |
| C76 | the passes for logical keys and forwarded modifiers after parsing | the meaning of a document are groups of mappings (`Spec/Logical`: `Doc.groups`); every pass is shown to keep the relation `Means` between contexts and groups: `Lemmas/DocForward` (mappings of modifiers are added; the numbers of outputs differ, `SameMeaning` is kept by removing contexts), `Lemmas/DocExpand` (alternatives), `Lemmas/DocSuppress` (releases: every step is below in an order of contexts, and reaches what it has to) |
| C77 | the loop over the requests of keymapperctl and its restarts (`CtlSys.pass`, `CtlSys.main`) | induction over the requests; a request which is sent does not use the previous result (`makeRequest_sent`), only `--stdout` adds a code (`codes_makeRequest`); `C77_ends` by induction over the passes |
| C78 | the stage while mappings might match (`forwardFromSequence`, `beforeMatchUp`, `finishInput`) | an invariant for each key relating what was input, output, is in the sequence and is held (`KInv`, Lemmas/HeldKey), kept by every step of `update` (`Core`, Lemmas/HeldBack); an expression which requires a missing key does not match (`matchSeq_requires`), one which does not mention a key in the sequence cannot match any more (`matchSeq_unrelated`) |
| C79 | the stage, with the matching of expressions | refinement of a specification (Spec/Abbreviations) event by event; three phases of a word with an invariant each: keys typed so far (`TypingState`), its last key, keys being released (`ReleasingState`); the matching of the beginnings and of the whole of a word (Lemmas/WordMatch, WordStep) and of a chord (Lemmas/ChordMatch, PatternMatch: invariants of the matching for an event which the expression never accepts, and for a key which is not pressed); a sequence which is not completed is flushed (Lemmas/Abandon: the loop forwards one key in each round; AbandonMatch: none of the rests matches, by the argument of C78); between words `TypingState` holds with nothing typed |
| C80 | the stage, with timeouts (`trackTimeout`, `timeoutMatched`, `suppressTimeout`) and the matching of `A`, `A{500ms}`, `A{!500ms}` | refinement of a state machine (Spec/Timed: idle, waiting for the elapsed time, waiting whether it is a tap) event by event; the sequence in each state is known exactly up to remainders of elapsed times (`Base`, Lemmas/TimedLoop); the matching of every expression against each of these sequences (Lemmas/TimedMatch); the rounds of the main loop for each event (TimedRounds, TimedEvents); the invariant `TimedInv` (TimedRun). The repeats (`C80_repeats`, Lemmas/TimedRepeat): the stage remembers which mapping was applied for the time it asked for (`matchedOutput`); induction over the repeats, between which the sequence is one of two |
| C81 | parser, client, protocol, server loop with `schedule_timeout`, `cancel_timeout`, `injectElapsed`, `answerTimeout`, and the stage | a clock around anything with states and outputs (Spec/Clock); invariant between the server and the clocked stage (`Clocking`, Lemmas/ServerClock), by induction over the iterations |
| C82 | as C81, with configurations of C80 | simulation (Lemmas/ClockSim): the clock around the stage outputs the same as the clock around the state machine of C80; then the runs for a key with two functions are computed symbolically |
| C83 | stages with mappings for combinations of keys, whole histories; outputs which press, release and lift keys (`!Control`, `!Any`), press virtual keys and switch them off (`!Virtual1`), and continue when the key is released (`^`) | refinement: an invariant relates the stage with a small state machine (which keys are held, which keys are held in the output, lifted or pressed twice, what is to be output when keys are released); matching a combination against the keys held is computed in general (Lemmas/CombinationMatch), so is the effect of an output (Lemmas/CombinationOutput) |
| C84 | `Connection::send`, `Connection::recv`, `send_message`, `read_messages`, where every call of the socket functions may be interrupted, transmit any part, fail, or find that the connection was closed | the bytes accepted and received are computed by induction over the results of the calls, which reduces `read_messages` to `receive` of C30; composed with C30; termination by counting the calls |
| C85 | `FocusedWindowWlroots` (the events of the protocol), `FocusedWindowDBus`, `FocusedWindowX11::update`, `FocusedWindowImpl::update`; specification: what happens to the windows on a desktop | invariant: each window's record is its title and application, the active one is the one activated last; for X11 induction over the calls; composed with C60: the contexts which are active in the server match the focused window |
| C86 | `interpret_commandline`, `apply_config_options`, `resolve_config_file_path`, `main`, `connection_loop`, `main_loop`, `update_options`, the menu of the tray icon, where messages appear (`vprint`); specification: the ways to write options, the candidates for the configuration file, the shape of the history of the client | induction over the arguments, over the passes of the loop and over the connections; the program only calls the operations of the client's model, so that C46, C60–C63 and C65 apply to it |
| C87 | `ClientState::on_next_key_info_message` (the text), `show_next_key_info`, `vprint` (the buffer), `show_notification` (the command); specification (`Spec/Shell`): how `sh` reads a command and `notify-send` its argument, and the grammar of contexts (C74) | induction over the message: the shell reads the escaped message, `notify-send` removes the escaping; the lines derive a context of the grammar of C74, whose filters match |
| C88 | `xkb_keyname_to_key`, `get_xkb_modifiers`, `get_locale`, `update_layout_xkbcommon`, `update_layout_x11`; specification (`Spec/Layout`): the symbol which a key with modifiers types in a layout | invariant over the loops (keys, layouts, levels; then the compose table): each stroke which is noted for a symbol types it; the first entry for a character is kept |
| C89 | `get_num_keys`, `has_uncommon_abs_axes`, `is_supported_device`, `get_device_keys`, `create_keyboard_device`, `create_forward_device`; specification (`Spec/Capabilities`): the kernel passes on an event of a virtual device when its type and code were announced | bits of the reported masks against the announced codes; composed with the model of the virtual devices |
| C90 | `Host::accept`, `Host::connect`, the order in which `connection_loop` of the server accepts, uses and closes connections; each call of the operating system is a step, steps of any number of programs in any order | invariant over all interleavings (bytes underway, phases of both programs, the connection the server handles); a decreasing measure for progress (`Lemmas/Host`) |
| C91 | the whole of `Stage::update` while the first active context begins with `Any >> Any`; arbitrary mappings in other contexts (with the restrictions of `OrdinaryMapping`) | matching lemmas for `Any` and for releases (`Lemmas/ExcludeMatch`), invariant over all operations while the application is excluded, after an arbitrary history which ended with nothing held (`Lemmas/Exclude`) |
| C92 | the server around one stage (`translate_input`, `flush_send_buffer`, `set_virtual_key_state`, `toggle_virtual_key`, the main loop from the first message of a client on); outputs with virtual keys, terminal commands and keys, without delays and device filters | refinement by `Layers` (`Spec/Layers`: the state of the mappings and the virtual keys which are on); one induction over the send buffer, in which toggling reenters the stage and appends to the buffer, then over messages and iterations (`Lemmas/Layers`); composed with the replacements of C70 and the combinations of C83 (`Lemmas/LayersRefine`, `Lemmas/LayerShortcuts`); closed forms of the effects of typing keys with a layer which one key switches on and off |
| C93 | as C92, outputs which press virtual keys, tap them (`A >> Virtual1 ^ Virtual1`) and switch them off (`!Virtual1`) | an invariant of `Layers`: the virtual keys which are on are those which are held, and those of which the client was told last that they are on; the presses which an output adds are counted (`Lemmas/SwitchOff`); what is output at the release is kept while other keys are pressed |
| C94 | `main`, `connection_loop`, `read_initial_config`, `main_loop`, `on_grab_device_filters_message`, `on_configuration_message` of the server program, `interpret_commandline`; what is observed: configurations received, the keyboard created, devices grabbed, let go | invariants over all sessions, passes and messages (`Lemmas/ServerProgram`): the stages are replaced by a configuration message and by the exit sequence only (`Lemmas/ServerKeeps`); passes which go on are iterations of the loop model (`C94_history`); the flag for a changed configuration is only set until the end of the pass (`Lemmas/ServerServes`) |
| C95 | as C75, for configurations of any number of stages | the specification (`Spec/Stages`) runs every stage alone on the output of the one in front of it; `updateGo` and `setActiveGo` are that when only keys are output, the server around it as for C75 (`Lemmas/Stages`); exchanging keys: C70 applied to every stage with its history, the configuration from the lines of the file by C74 (`Lemmas/StagesDoc`) |
| C96 | as C95, with the client looking for the focused window and being paused and resumed (`Spec/Focus`) | an invariant relates the client to the focus it knows of and gives what it sends (`FollowsFocus.step`); with C30 that is what arrives; the server as for C95; replacing keys: C70 |
| C97 | as C95, with configurations among the messages which arrive (`Spec/Reload`: stages are replaced by fresh ones and what the last one holds down is released) | the invariant of C95 is also kept by `resetConfiguration` (`configure_stages`); an iteration is split into what is read and the messages (`iterate_split`); the exit sequence: the first stage is only ever input a part of what is typed (`reload_exit`); nothing held: the last stage's history since it was configured, C03 and the releases (`LastHistory`); `C97_history`: induction over what happens to the client (`KnowsAll`), the messages specified by `userMessages` (`Spec/ReloadHistory`) arrive by C30 |
| C98 | as C96 (`Spec/Unmapped`: `asTyped`, `ActivatesForeign`) | every stage holds the same keys as typed (`Mirrors`), each step of a stage by C05; the keys of one device: repetitions are by the device used last (`device_fold`); then C96_follow. When the configuration is replaced what the last stage tracks is what is held (`unmapped_down`), then C97_history |
| C99 | `Model/Windows`: the conversions of `server/windows/main.cpp` and the typing of `client/windows/StringTyper.cpp`; specification (`Spec/Windows`): the codes whose halves are sent, alternating presses and releases | induction over the events with the half which was received; over the histories with the set of held buttons; scan codes by evaluation of all 255 |
| C100 | `Model/Windows` (`translateInput`, `flushLoop`, `Server.react`): `ServerState.cpp` as compiled on Windows, with arbitrary stages | invariant over the history: the buffer is empty unless a flush is scheduled, hence nothing is passed on while something waits; what was seen and the buffer are together what was output; `C100_unmapped` with the stages of the model, by C98's invariant; `C100_timeouts` with timeouts pending at arbitrary moments |

## Trusted base

Lean's kernel with the axioms `propext`, `Classical.choice`, `Quot.sound` (at most);
the hand translation from C++ to Lean, which is documented by file and line at each
definition, and is additionally exercised by replaying the project's unit tests.
### What is modelled

Every function of these files (the variant for Linux), unless listed as not modelled: `runtime/*`,
`config/get_key_name.cpp`, `config/string_iteration.h`, `config/ParseKeySequence.cpp`,
`config/ParseConfig.cpp`, `config/Config.h`, `common/Filter.h`, `common/parse_regex.h`, `common/Connection.h`, `common/Connection.cpp` (sending and receiving),
`client/ServerPort.cpp`, `client/ControlPort.cpp`, `client/ClientState.cpp`, `client/ConfigFile.cpp`,
`client/unix/StringTyperImpl.cpp`, `client/unix/StringTyperGeneric.cpp`, `client/unix/StringTyperXKB.cpp`, `server/ClientPort.cpp`,
`server/ServerState.cpp`, `server/unix/main.cpp`, `server/Settings.cpp`, `server/unix/GrabbedDevicesLinux.cpp`,
`server/unix/VirtualDevicesLinux.cpp`, `control/Settings.cpp`, `control/main.cpp`, `control/ClientPort.cpp`.

### What is not modelled

* The operating system: `select`/`epoll`, sockets (byte streams, the functions of which may be interrupted, transmit any part or fail), uinput and evdev
  (devices are what they report, what is written to them is recorded), the file system (files are given by content and
  modification time), processes, D-Bus, X11, Wayland.
* Regular expression matching (`std::regex`): an arbitrary predicate, every theorem holds for all of them.
* Keyboard layouts: what `xkbcommon` and `Xlib` tell about the keys, levels and compose sequences is an arbitrary table (C88); elsewhere the dictionary of characters is arbitrary.
* Time: an argument of the functions which call `Clock::now()`.
* The wording of messages (apart from the information about a key), what is only logged (`--verbose`), how the tray icon is displayed, opening the configuration, the help and the about dialog, the connections to X11, D-Bus and Wayland (what these tell is an input), `FocusedWindowCocoa`. Of `Host.cpp`: the path of the socket, that `::connect` is tried again every 50 milliseconds, and that different versions have different hashes (`std::hash`; the version is empty when it was not known at compile time).
* Memory allocation failures; undefined behaviour is an explicit outcome only where a property speaks about it.
* The macOS variant. Of the Windows variant only what C99 and C100 are about; not the messages of the client, the Interception driver and the client's windows.

<!-- axioms begin -->
### Axioms of each theorem

Printed by `#print axioms` for each of the 411 theorems named in MANIFEST.json (all in the namespace `KM`):

* `propext`, `Classical.choice`, `Quot.sound`: all 316 theorems which are not listed below.
* `propext`, `Quot.sound` only: `C01_loop_terminates`, `C01_loop_result`, `C01_matcher_terminates`, `Rounds.deterministic`, `C03_counterexample`, `C07_exit_recognised`, `C07_exit_only_then`, `C09_last_context_overrides`, `LastMapped.unique`, `C10_context_switch`, `C100_order`, `C100_complete`, `C100_given`, `C100_passed`, `C100_timeouts`, `C100_wheel`, `C100_wheel_counterexample`, `C11_active_contexts_valid`, `C11_active_exactly`, `C12_device_64`, `C13_wheel_counterexample`, `C16_any_counterexample`, `C19_clamped`, `C19_fits`, `C19_monotone`, `C19_sum_saturates`, `C19_sum_comm`, `C19_sum_assoc`, `C19_sum_mono`, `C20_single_stage`, `C20_no_stage`, `C20_stages_compose`, `C22_no_duplicates`, `C22_configuration_not_announced`, `C23_flush_bounded`, `C24_flush_order`, `C24_flush_order_virtual`, `C25_keys_released`, `C25_nothing_remains`, `C26_reported_and_swallowed`, `C26_others_unaffected`, `C26_wheel_reported`, `C26_one_reply_per_request`, `C27_press_never_sent`, `C27_turn_ignored`, `C28_cancelled_by_event`, `C28_release_keeps`, `C28_answered_when_elapsed`, `C28_not_before`, `C28_none_overdue`, `C28_wakes_in_time`, `C29_stages_determined`, `C30_counterexample`, `C31_within_buffer`, `C33_presses_released`, `C34_flag_alone_counterexample`, `C38_expression`, `C42_last_filter_decides`, `C44_reported`, `C45_code`, `C49_lost_press_counterexample`, `C49_wheel_counterexample`, `C52_press_outputs_first_part`, `C52_release_outputs_all`, `C52_cancelled_by_context_switch`, `C56_forwarded_with`, `C59_wheel_reproduced`, `C59_keys_reproduced`, `C68_delay_kept`, `C69_wheel_values_counterexample`, `C34_flag_alone_counterexample`, `C78_virtual_key_counterexample`, `C80_two_held_counterexample`, `C84_sent`, `C84_send_fails_only`, `C89_forward_keys`, `C89_forward_identity`, `C91_noMight_counterexample`, `C91_release_counterexample`, `C91_button_counterexample`, `C93_off`, `C93_on`, `C94_history`, `C97_connection`, `C99_characters`, `C99_keys`.
* `propext` only: `C42_default`, `C85_dbus`, `C85_x11`, `C85_x11_quiet`, `C85_x11_idle`, `C85_no_silent_change`.
* no axioms: `C59_steps_converted`, `C59_large_counterexample`, `C93_not_counterexample`.
<!-- axioms end -->

## Disagreements between code and properties

Proved by a witness in Lean (the theorem is named):

* **C03** `C03_counterexample`, `C03_parsed_counterexample`: an output which releases a key it did not press
  in the same piece leaves a key down for ever. The parser creates such outputs: `!key` keeps the keys
  before it pressed, so in `A !B ^ C` the key `A` is held over `^` and released after `C`. A parsed
  configuration with two mappings and a `ContextActive` mapping leaves `A` down on the output keyboard while
  nothing is tracked.
* **C33** `C33_twice_counterexample`: `A{A}` is `+A +A -A`; strict alternation of press and release is false,
  only counts over prefixes are claimed.
* **C34** `C34_flag_alone`, `C34_flag_alone_counterexample`: `? ContextActive` is accepted, but the press of
  `ContextActive` is removed instead of its release (`ParseKeySequence.cpp:279`). The remaining `?` makes an
  assertion fail at the first release of any key.
* **C34** `C34_release_without_press`: `!A B !A` is accepted, requires `A` to be released which must not be held.
  `C34_typed_in_group`: within a group (`X{"B"}`) the modifiers of typed characters are not required.
* **C12** `C12_device_64`: the 65th device has no bit, `1 << 64` is undefined.
* **C49** `C49_lost_press_counterexample`: `A >> X ^ Y` and `(B A) >> Z ^ W`. Two outputs on release
  can be pending for `A`, but only the first is removed when `A` is released. The next press of `A`
  is swallowed, since output is still pending for it (`Stage.cpp:677-693`).
* **C49** `C49_wheel_counterexample`: releases of a mouse wheel carry a value, so
  `finish_sequence` and `forward_from_sequence`, which look for `KeyEvent(key, Up)`, do not find them.
  The wheel is considered pressed for ever, and a later turn is lost.

* **C22** `C22_configuration_not_announced`: replacing the configuration releases the pressed virtual
  keys without telling the client, whose `ControlPort` keeps its own record until the server
  disconnects. `keymapperctl` is then told a stale state.
* **C27** `C27_turn_ignored`: while output is pending (a delay), a second turn of the wheel by the same
  distance is taken for a key repeat and is lost (`ServerState.cpp:180-184`).

* **C30** `C30_counterexample` and **C31** `C31_short_counterexample`: the deserializer checks reads against the
  end of the buffer, not of the message, and silently leaves default values when there is not enough data. So a
  message which is too short for its content is accepted when it is the last one received (nine bytes are accepted as
  the request to inject 2^32 - 1 events), and is completed from the following message, and then rejected, otherwise.
  The claims were restated accordingly.

* **C54** `C54_inverted_counterexample`: the filter `modifier != "Shift"` is replaced by `!= ShiftLeft` falling
  through to `!= ShiftRight` (`ParseConfig.cpp:1052-1065`), so the context is active unless both keys are held.
* **C38** `C38_limit_counterexample`: a configuration with 257 terminal commands is accepted, but the key of the last one is
  the one of the logical key `Shift`, so `ShiftLeft` is pressed instead of running the command.
* **C36** `C36_other_system_counterexample`: a command which only has an output in a context for another system is accepted,
  its input does nothing.

* **C55** `C55_long_name_counterexample`: the name of a forward device is cut off at 79 characters
  (`VirtualDevicesLinux.cpp:88`), so for a device whose name has more than 68 characters it does not end with `keymapper`.
  It is then grabbed itself, a forward device is created for it, and so on.
* **C57** `C57_forward_counterexample`: `ABS_VOLUME` and `ABS_MISC` are mapped to 0 to 1023 for all devices, but a forward device
  announces the range of the original device. The identification of the tool of a tablet (`ABS_MISC` without range) is always 0.
* **C58** `C58_button_counterexample`: mouse buttons are sent with the last active mouse, which may have changed between
  press and release (by moving a mouse for the first time, moving another one, or plugging in any device, which
  resets it), so that the button stays down on the first device.
* **C59** `C59_large_counterexample`: the distance of a wheel event is truncated to 12 bits; 35 steps at once become less than one.
* **C60**, **C61** `C60_switch_counterexample`: setting a configuration file which was used before fails when it cannot be
  read any more, but it was already swapped in (`ClientState.cpp:95-121`): the client then uses the contexts and commands of this
  configuration while the server still has the other one. It sends indices the server does not have, and executes
  commands which are not in the configuration in use.
* **C62** `C62_older_counterexample`: only the newest modification time of all the files is compared, so replacing an included file
  by a newer one which is older than the main file is not detected. `C62_invalid_counterexample`: the includes of a
  configuration which is not valid are not remembered, correcting an included file is not detected.
* **C40** `C40_last_key_counterexample`: the table of virtual keys in the client has one entry less than there are virtual keys
  (`ControlPort.h`: `last_virtual - first_virtual` entries), `keymapperctl --is-pressed Virtual255` reads behind it, and it is
  written to when the server tells about the key.
* **C41** `C41_not_counterexample`: `keymapperctl --output '!A B'` presses `A` (only the state `Up` is taken for a release) and does
  not release it. `C41_alt_counterexample`: `Alt` is not replaced, since only Shift, Control and Meta are.
* **C65** `C65_wait_unknown_counterexample`: `--wait-pressed` with an unknown key succeeds at once (the other operations report
  that it is not found). `C65_wait_race_counterexample`: a key pressed between the two messages of a wait is missed, the wait ends
  when it is released. `C65_late_reply_counterexample`: the late notification of a wait which timed out is taken for the answer to
  the next request.
* **C66** `C66_quote_counterexample`: `keymapperctl --type` puts the text between quotes without escaping, a text with quotes is
  rejected or interpreted as an expression.
* **C67** `C67_timeout_counterexample`: `--timeout` "sets a timeout for the following operation" (README, help), but it applies to all
  following operations, and `--wait` overwrites it.

* **C13** `C13_wheel_counterexample`: a stage outputs the release of a mouse wheel without its value, so in the following stage
  the press (with value) stays in the history for ever: after turning the wheel once, `? A B` does not match any more when it is
  in a later stage.
* **C69** `C69_wheel_values_counterexample`: an injected `WheelUp` which is held and a turn of the real wheel make
  the assertion in `Stage.cpp:928` fail. `C69_contextActive_counterexample`: `Foo = ContextActive | A` lets `ContextActive` into
  outputs, so an assertion fails in the next stage.

Found while modelling (not needed by a theorem, or the theorem has a hypothesis excluding it):

* A pending tap is dropped without output when a virtual key event arrives which does not match
  (`A B >> X`: `+A -A` and then a virtual key).
* The release of a forwarded key which is later consumed by a match (`Any Any X`) leaves its output down.
* A matched timeout in the sequence counts as physically pressed, so outputs may be
  attributed to the timeout key (third case of C51).
* `X >> A; Y >> A; Z >> !A C; W >> A B`: after `+X +Y +Z -Z +W`, `W` only outputs `B`.
* `A B >> X; A >> A` and `+A -A +C`: `A` stays down until the next release of `A` (`Stage.cpp:627-638`).
* `continue_output_on_release` uses the keys which matched `Any` in the latest call of the matcher.
* `!Any` in an input forbids nothing (keys are compared exactly).
* A trailing output delay (`A >> B 500ms`) is mistaken for an input timeout request (`ServerState.cpp:239-245`).
* In multi-stage configurations a timeout requested by a later stage may land in the middle of the output and is
  treated as output delay.
* `reset_configuration` with a pending delay in the send buffer: the releases remain in the buffer.
* The history clean-up compares whole events, a release with another value than the press
  unbalances it (assert in `Stage.cpp:928`).
* `evaluate_device_filters` does not recompute the active contexts.
* The outputs of commands always use the left alternative of a logical key, also when the command was triggered by an
  input in which the right one was demanded.
* `@forward-modifiers` with a logical key which is defined in terms of logical keys: the pass which suppresses the forwarded
  modifiers looks for keys which were replaced before, so it has no effect.
* `X = ContextActive | A` as a logical key bypasses the check that `ContextActive` is alone in an input.
* `try_read_number`, durations beyond `int`, `010` (octal), `Virtualfoo` (= `Virtual0`) are accepted silently.
* Exit sequence: when it is recognised while a virtual key is being toggled, the reset clears the
  virtual keys, and afterwards the press of the toggled key is still announced.
* `unix/main.cpp:39-41` dereferences `stage` before the check for null in the base class.
* A forwarded event (for example mouse motion) skips the handling of timeouts and flushes of that iteration
  (`unix/main.cpp:128`), so a stream of motion events delays them.
* A key repeat is ignored while a flush or timeout is pending, even when the next key was requested.
* A requested next key which is a mouse wheel: the inserted press is the reply, the release is processed.
* `keymapperctl --press` with an unknown name sets the state of `Key::none`.
* `Connection::recv` returns false when the other side closed the connection, also when data was received just
  before; messages sent right before closing are lost.
* `read_stages` resizes vectors to counts taken from the message, a malformed count makes the server allocate
  any amount of memory; an invalid regular expression in a message throws.
* Mouse buttons and wheel events are sent with the last active mouse, which only announces the keys and axes of the
  original device: mapping to a button or a wheel which the mouse does not have has no effect.
* `has_mouse_axes` of `VirtualDevicesLinux.cpp:161` uses the axis numbers as a mask (`REL_X | REL_Y` is 1), it only tests for `REL_X`.
* A device which is replaced by another one with the same event id between two updates is taken for the old one.
* `map_to_range` overflows for ranges above 2 million.
* A configuration file whose modification time is the error value of `last_write_time` is never loaded.
* `keymapperctl`: a key info which arrives late makes the next request fail as if the connection was lost; a partly received message is
  reported as a timeout; a reply directly followed by closing the connection is lost.
* `notify` of the client passes the text to a shell with only backslash and quote escaped, so `$()` and backticks in it are run.
* **C71** `C71_held_counterexample`: `A{B{A} C}`: the inner group removes the outer `A` from the pressed keys, the `}` of `B` then keeps `B` held while `C` is pressed. `!200ms` is not rejected in a sequence with `?`.
* `keymapperctl --press bogus` with an input `? A B`: `Key::none` in the sequence stalls the matcher.
* A device filter which matches all 64 devices is the same as no filter. `class='/i'` and `@include ""` access outside of the string.
* `on_inject_input` ignores everything but presses and releases of keys, so delays in `--input` have no effect.
* From position 2 of the exit sequence pressing `ShiftLeft` resets it to 0 although it is its first key.
* A cancel-on-up timeout which was requested by the inserted press of a wheel is not cancelled by the release directly following.
* `}` is not checked while within `(`; `~A *A +A` at the begin of an expression skips `+A` when the optional one matched.
* `atoi` reads past the end of the view it is given. `skip_until_not_in_string` skips the opening quote of a string which directly follows another one.
* An empty line or a comment between two context blocks ends the sharing of the mappings (`m_after_empty_context_block` is reset by every line which is not a block or a definition), the first block is then removed as it has no mappings.
* `MultiStage::set_active_client_contexts` keeps its output in the buffer; only because the server calls `reuse_buffer` it is not sent twice.
* A message of an unknown type which is longer than its type byte closes the connection.
* wlroots: a closed toplevel is deleted while `m_active_toplevel` may still point to it.
* **C73** `C73_comment_counterexample`: `F1 >> repeat[A, 2] # don't` is rejected: to find the end of an argument list, the rest of the line is searched for quotes, also the comment. `C73_definition_counterexample`: after `m = repeat[A, $0]`, the line `p = m[2]` is rejected, since the first word of every definition is replaced (to find out if it is a logical key) without its arguments. `C73_strings_counterexample`: `"a""b"` is rejected, since behind a string a quote is not seen as the begin of a string. In `$(ls (a) /usr)` the terminal command ends at the first `)` for the preprocessor, the rest is a regular expression which does not end. A line `= text` defines a macro with an empty name, then every `$` in a string which is not followed by a name is removed.
* **C74** `C74_comment_counterexample`: two begins of contexts share mappings only when they are in consecutive lines; an empty line or comment between them silently leaves the first one without mappings. `C74_delay_counterexample`: `A >> 100ms` is rejected (`100ms` is taken as the name of a command). `C74_arrow_counterexample`: `">>" >> B` is rejected. `C74_backslash_counterexample`: a last line which ends with a backslash is silently ignored.
* **C76** `C76_inverted_modifier_counterexample`: `[modifier != "Shift"]` is replaced by two inverted contexts which share their mappings, so it is active unless *both* shift keys are held. `[modifier = "!Shift"]` works as expected.
* **C77** `C77_only_wait_counterexample`: the result starts as "connection failed", so `keymapperctl --wait 100` ends with 3 (and `--stdout` as first request outputs 3) although it is connected.
* **C78** `C78_virtual_key_counterexample`: a virtual key toggled by keymapperctl while a press is held back finishes the sequence, the press which was held back is neither output nor can it be matched any more.
* **C79** a word which begins with the word of a mapping in front (or is the beginning of one) is not covered: the mapping in front wins, or holds the word back. The same holds for a chord which contains the one of a mapping in front (an `example` shows that it is never output), or is contained in it.
* **C79** what the output of a chord `(A B) >> X` leaves pressed is released with `B`, the last key of the expression, also when `B` is pressed first and `A` last: while `A` is still held, `X` is already released.
* **C80** `C80_two_held_counterexample`: with `A{500ms} >> X` and `B{1000ms} >> Y`, when `A` was not held long enough (another key was pressed, so `A` was output as it is) and stays pressed, then holding `B` for 700 ms outputs `B` and also `X`: the time which passed after `B` is matched by the mapping of `A`, the press of which is still in the sequence. The statement excludes pressing a second timed key while one is held.
* **C16** `C16_any_counterexample`: the wildcard in a group of simultaneous keys also stands for the other keys of the group: `(X Any)` is matched by pressing A and B.
* **C80/C82** a key with two functions (`A{!200ms} >> X; A >> Y`) which repeats after it was decided that it is held: every repeat asks for the
  time again and outputs `Y` again; a short time after such a repeat does not make it a tap. Only the time of the first matching mapping is asked
  for: with `A{!200ms} >> X; A{500ms} >> Z` the second mapping never triggers.
* `$$1` in a text which is passed to `apply` counts as parameter 1. A defined logical key in lower case (`ext = A | B`, `ext >> C`) is rejected as
  input, since it looks like the name of a command.
* **C83** without `@forward-modifiers` a modifier which was held back is output when an unmapped key is pressed, and is not lifted by a shortcut
  pressed afterwards (`Control{A} >> X`: pressing Control, B, A outputs `Control B X`: X with Control). The order of the modifiers matters:
  `Control{Shift{A}}` is not triggered by Shift, Control, A. `Control{!Shift D}` is a parse error (`!Shift Control{D}` is not).
* **C84** `C84_close_counterexample`: a message which arrived completely, followed by the end of the connection, is not handled when both are noticed in
  the same call of `read_messages` (`Connection::recv` returns -1 although bytes were received). `send` repeats without waiting while the socket would block.
* **C85** `C85_reused_address_counterexample`: the record of the active window (wlroots) is a pointer which is kept when the window is closed; a new window which
  happens to be allocated at the same address is taken for the focused one. `C85_fullscreen_counterexample`: states are tested with `state & activated`, which is
  also true for `fullscreen` (3); only version 1 of the protocol, which does not have it, is requested. When the focused window is closed it remains the focused
  one. `C85_class_counterexample` (X11): a change of the class without a change of the title is not noticed. `C85_mixed_counterexample`: when several systems are
  available, a window told by D-Bus is replaced at the next update by the X11 window, which did not change.
* **C86** `C86_no_notify_counterexample`: `--no-notify` and the option `no-notify` have no effect on Linux: a message which is not notified is shown in a "message box", which is
  a notification, too. `C86_set_config_counterexample`: the options (`update`, `verbose`, `no-tray`, ...) of a configuration which is set by `keymapperctl --set-config` are not applied.
  `C86_active_item_counterexample`: after a reconnection the item "Active" of the tray icon's menu is checked, although the client is still inactive.
  `C86_reload_item_counterexample`: the item "Reload" is not added when updating automatically is turned off while the menu is shown.
  Also visible in the model: the program ends with code 1 when sending the configuration fails directly after connecting (a lost connection later leads to a reconnection), and
  a configuration file whose modification time cannot be determined is never loaded (the hypothesis of `C86_check`).
* **C87** `C87_title_counterexample`, `C87_client_counterexample`: **the title of the focused window is executed by the shell**. The information about the next key, which is shown when it
  was requested in the menu of the tray icon, contains the title of the focused window; `show_notification` passes it to `std::system` in double quotes and only escapes backslashes
  and quotes, so a title `$(command)` (e.g. chosen by a web page) executes the command. `C87_quote_counterexample`: a backslash before a quote ends the quoted text (it becomes
  `\\\\"`), the rest of the message is read as arguments (or commands). `C87_backslash_counterexample`: a message which ends with a backslash is not shown.
* **C88** `C88_layout_counterexample`: the dictionary contains the characters of all layouts of the keyboard, whichever is active: with the layouts `us,ru` the string `"ф"` is typed by
  the key A, which types `a` while the first layout is active (instead of the Unicode input, which would work). `C88_modifier_counterexample`: modifiers other than Shift, Mod1 and Mod5
  are left out, so a character on a level which is selected by another one (Mod3 in the layout Neo, NumLock, CapsLock) is typed by the bare key, which types another character.
  `C88_last_counterexample`: the key with the greatest key code is not looked at (`keycode < max`; the other dictionary uses `<=`), which only matters for unusual keymaps.
  `C88_compose_counterexample`: a compose sequence for a text of several characters is used for its first character. `C88_locale_counterexample`: a variable like `LC_ALL` which is set
  to nothing is taken as the locale, though POSIX says it counts as not set; the compose sequences are then missing. `C88_ro_counterexample`: the key `AB11` (`IntlRo`, next to the right
  Shift of Brazilian and Japanese keyboards) is not known, instead `AC12` (another name of `BKSL`, which is not used as the name of a key code) is taken for it.
* **C89** `C89_button_counterexample`: a mouse button which is the output of a mapping is sent with the forward device of the mouse which was used last; when the mouse does not have the
  button (`ButtonForward` with a mouse of three buttons), the kernel drops it, though the virtual keyboard could send it. `C89_wheel_counterexample`: the same for the horizontal wheel.
  `C89_keyboard_counterexample`: a keyboard with 32 keys is grabbed even if it has switches or a dial (`REL_DIAL`), but it gets no forward device and the virtual keyboard does not announce
  them, so these events are lost. `C89_key_counterexample`: keys with a code from 512 (`KEY_NUMERIC_0`, `BTN_TRIGGER_HAPPY`, ...) of a grabbed keyboard are lost even if nothing is mapped.
* **C90** `C90_silent_counterexample`: the server reads the hash of the version without a time limit, so a program which connects and sends nothing prevents all others from being accepted. (The
  same function is used by the client for the connections of `keymapperctl`, there it also stops reacting to the server and to the focused window.) `C90_mismatch_ends`: any program which
  sends another hash makes a waiting server end, which seems to be intended for updates.
* **C91** `C91_noMight_counterexample`, `C91_release_counterexample`, `C91_button_counterexample`: the README says that `[title="Remote Desktop"] Any >> Any` excludes an application from any
  mapping. It does not exclude it from mappings which start with `?` and end with a release (`? A !A >> X` still outputs X), from mappings which contain the release of a key
  they do not press (`!A B !A >> X`), nor from mappings of mouse buttons, which `Any` does not match. The theorems therefore require `OrdinaryMapping` mappings and keyboard keys.
* **C92** `C92_order_counterexample`: the README lists `Virtual1{A} >> B` before `Virtual1 >> G`, "keep G held as long as Virtual1 is down". In this order G is never held: when Virtual1 is
  pressed `Virtual1{A}` might match, and a virtual key has to match directly, so no mapping is applied. `C92_virtual_modifier` therefore has `Virtual1 >> G` first. Also visible in the
  hypotheses: the server toggles at most nine virtual keys for one output and ignores further ones.
* **C93** `C93_not_counterexample`: `!Virtual1` refers to the state before the output: `Virtual1 !Virtual1` leaves the key on when it was off, `!Virtual1 !Virtual1` leaves it on when it was on.
  `C93_release_counterexample`: `B >> Virtual1 Z` (the virtual key is pressed and released before Z) toggles Virtual1 twice, that is not at all, while another key is held which toggled it and a
  modifier is lifted (`ControlLeft{X} >> !ControlLeft Y` was typed): the release only marks the key as lifted, and before Z is pressed it is pressed again. The README says "each time it is output it is toggled".
  In the theorems each virtual key is therefore either always released by the outputs which press it (right after), or never.
* **C94** `m_send_buffer` is not cleared by `reset_configuration`. When a client disconnects (or the devices have to be grabbed again) while
  output with several delays is underway, the part up to the next delay is sent at once, the rest is kept and sent when the next client
  connected, however much later (`C94_leftover_counterexample`).
* **C94** Two different configurations which are read at once before the devices are grabbed set the flag for a changed configuration, so the
  client is dropped in its first pass although the devices were grabbed as the second one demands (excluded in `C94_keeps_serving`).
* **C94** `m_next_key_info_requested` is not reset when the client disconnects: the first key pressed for the next client is swallowed and
  reported to it (`C94_request_counterexample`).
* **C94** `-h` and `--help`, which the help message of keymapperd lists, are not interpreted: as any unknown argument they print the help and
  the program returns 1.
* **C99** On Windows a turn of the wheel by a distance of zero is output as a whole notch, and a distance of 4096 or more (34 notches in one
  message) is reduced modulo 4096, since the value of an event has 12 bits (excluded in `C99_mouse`, shown by an example next to it).
* **C100** On Windows the result of translating the inserted press of the wheel is not used (`ServerState.cpp:223-224`). When the release is output
  unchanged but the press is not, as with `WheelUp >> A WheelUp`, the turn of the wheel is passed on, while the `A` stays in the buffer and is only sent
  together with some later output (`C100_wheel_counterexample`; excluded by `WheelConsistent` in `C100_wheel`).
