{"id": "C01", "title": "Every input event is processed in finitely many steps", "statement": "Handing an event to a stage always returns: for any configuration, any previous history and any key event, the loop that repeatedly matches, holds back or forwards the pending key sequence stops, after at most twice as many rounds as there are pending events (plus one).", "quantifier": "all stage configurations, all reachable and unreachable stage states, all events, all device indices", "why_tests_cant": "A test only shows that the histories it plays do not hang; a keyboard daemon that grabs all devices and hangs on one unlucky history locks the user out.", "anchors": ["src/runtime/Stage.cpp: Stage::apply_input", "src/runtime/Stage.cpp: Stage::forward_from_sequence", "src/runtime/Stage.cpp: Stage::finish_sequence"]}
{"id": "C02", "title": "Releasing an input key releases everything it triggered", "statement": "After the release of a key has been processed, none of the keys which the stage reports as being down in the output is attributed to that key: everything triggered by it was released (or was already temporarily released) during this call, in whatever state the stage was before.", "quantifier": "all configurations, all states, all release events of keys other than the internal context/timeout keys, all devices", "why_tests_cant": "Depends on every interleaving of presses, pending matches, temporary releases and output-on-release; tests play a handful.", "anchors": ["src/runtime/Stage.cpp: Stage::release_triggered", "src/runtime/Stage.cpp: Stage::apply_input"]}
{"id": "C03", "title": "No output key is stuck: what the output device holds is what the stage tracks", "statement": "Replaying everything a stage ever emitted on a keyboard, each key which is down on that keyboard is a key the stage still tracks as down and not temporarily released (so that releasing its trigger will release it), except for a key which one of the outputs of the configuration holds over its `^` (or, in configurations which were not made by the parser, releases without having pressed it): such a key can get stuck.", "quantifier": "all configurations, all histories of events and context changes from the initial state", "why_tests_cant": "A stuck key needs a specific combination of overlapping mappings, temporary releases and output-on-release; the number of histories is unbounded.", "anchors": ["src/runtime/Stage.cpp: Stage::update_output", "src/runtime/Stage.cpp: Stage::release_triggered", "src/runtime/Stage.cpp: Stage::apply_output"]}
{"id": "C04", "title": "A release is only emitted for a key which was pressed before", "statement": "Every key release in the output of a stage is preceded, in everything the stage emitted so far, by a press of the same key.", "quantifier": "all configurations, all histories", "why_tests_cant": "Quantifies over all histories; the code removes presses from the pending output again (undo), so it is not obvious locally.", "anchors": ["src/runtime/Stage.cpp: Stage::update_output", "src/runtime/Stage.cpp: Stage::release_triggered"]}
{"id": "C05", "title": "Keys which are not mapped pass through unchanged", "statement": "While no active context mentions the keys pressed (in particular while no context is active at all), each press is output as exactly that press, each release of a held key as its release, a release of a key which is not held outputs nothing, and a key repeat is output as a repeat, unless it comes from another device than the last key press. Context switches output nothing, and the output keyboard holds exactly the keys physically held.", "quantifier": "all configurations, all histories of press/release events of keys not mentioned by the contexts activated, context switches and device changes in between", "why_tests_cant": "Tests check a few keys and orders; the statement is about all interleavings of all keys.", "anchors": ["src/runtime/Stage.cpp: Stage::update", "src/runtime/Stage.cpp: Stage::forward_from_sequence", "src/runtime/Stage.cpp: Stage::update_output"]}
{"id": "C06", "title": "A key is tracked as held in the output at most once", "statement": "The list of held output keys never contains a key twice, so a release is sent at most once per trigger release.", "quantifier": "all configurations, all histories of all operations", "why_tests_cant": "Invariant over unbounded histories.", "anchors": ["src/runtime/Stage.cpp: Stage::update_output", "src/runtime/Stage.cpp: Stage::get_output_keys_down"]}
{"id": "C07", "title": "The exit sequence is recognised in every configuration", "statement": "Whatever the configuration maps and whatever happened before, as long as the recogniser is at its start (any key release puts it there), pressing ShiftLeft, Escape, K in this order (each repeated arbitrarily often, interleaved with arbitrary non-keyboard events) requests the exit; and exit is only requested when the last keyboard events were such presses.", "quantifier": "all configurations, all histories, all numbers of key repeats, all interleavings with mouse/timeout/virtual events", "why_tests_cant": "It is the emergency brake of a daemon which grabs the keyboard; must be independent of mappings and history.", "anchors": ["src/runtime/Stage.cpp: Stage::advance_exit_sequence", "src/runtime/Stage.cpp: Stage::should_exit", "src/server/ServerState.cpp: ServerState::translate_input"]}
{"id": "C08", "title": "The first mapping in order decides", "statement": "When a pending sequence is looked up, the mapping used is the first one, in the order of active contexts and then of mappings in the context, which matches (with an output) or may still match; no later mapping can take precedence, mappings of inactive contexts and contexts of other devices never participate.", "quantifier": "all configurations, all states, all sequences", "why_tests_cant": "Order must hold for any number of contexts and mappings, with the history- and timeout-related exceptions interleaved.", "anchors": ["src/runtime/Stage.cpp: Stage::match_input"]}
{"id": "C09", "title": "The last active context overrides a command", "statement": "The output looked up for an abstract command is the one of the last active context which maps this command; if no active context maps it there is no output. (The implementation binary searches tables sorted at construction.)", "quantifier": "all configurations, all sets of active contexts, all command indices", "why_tests_cant": "Binary search in a table sorted in reverse order is only right when sorting and searching agree for all table sizes.", "anchors": ["src/runtime/Stage.cpp: Stage::find_output", "src/runtime/Stage.cpp: sort_command_outputs"]}
{"id": "C10", "title": "Context switches are reported exactly once, deactivations first", "statement": "When the set of active contexts changes from P to C, the context-active outputs are released for exactly the contexts in P but not C and then triggered for exactly the contexts in C but not P, each once and in order; contexts in both are not touched.", "quantifier": "all sorted lists P, C of any length", "why_tests_cant": "The merge loop has to be right for all pairs of lists.", "anchors": ["src/runtime/Stage.cpp: Stage::update_active_contexts", "src/runtime/Stage.cpp: Stage::on_context_active_event"]}
{"id": "C11", "title": "Active contexts are valid, ordered and never fall through", "statement": "After each update the active contexts are strictly increasing valid indices, none of them is a fallthrough context, and a context is active exactly if some client-activated context whose filters currently match falls through to it.", "quantifier": "all configurations in which the last context does not fall through, all client activations (sorted), all states", "why_tests_cant": "Out of bounds access of a fallthrough chain depends on the configuration.", "anchors": ["src/runtime/Stage.cpp: Stage::update_active_contexts", "src/runtime/Stage.cpp: Stage::fallthrough_context"]}
{"id": "C12", "title": "Device filters select exactly the matching devices", "statement": "After evaluating the device filters, a context with a device filter accepts events of device number i exactly if the i-th device's name and id match its filters, contexts without filter accept all devices, and events without device are only accepted by contexts which accept all.", "quantifier": "all configurations, all lists of devices, all device numbers below 64 (the width of the device bits)", "why_tests_cant": "The implementation uses a 64 bit set and shifts; larger device numbers are not covered by tests.", "anchors": ["src/runtime/Stage.cpp: Stage::evaluate_device_filters", "src/runtime/Stage.cpp: Stage::device_matches_filter"]}
{"id": "C13", "title": "Mappings with `?` are compared with a well formed history of the input", "statement": "A mapping whose input begins with `?` is compared with a history of what was input, which other mappings do not consume. The history consists of input events in their order; in it each key is pressed first and then alternately released and pressed; a key which is pressed at its end is physically held; a held key in it is never forgotten before it is released, whatever else is pressed and whichever contexts become active. After each event the history is empty, begins with a held key, or an active mapping with `?` might still match it: it does not grow without need.", "quantifier": "all usable configurations, all histories of input, context changes, device changes and validations, in which the events of a mouse wheel are presses followed by releases with the same value (or without any)", "why_tests_cant": "An assertion in the code relies on it; it is an invariant over unbounded histories.", "anchors": ["src/runtime/Stage.cpp: Stage::update_history, Stage::clean_up_history, Stage::apply_input"]}
{"id": "C14", "title": "No match is final", "statement": "If an input expression (without the no-might-match marker) does not match a sequence, then it does not match, and will never match, any continuation of the sequence.", "quantifier": "all expressions, all sequences, all continuations", "why_tests_cant": "This justifies forwarding held back keys; it quantifies over all continuations.", "anchors": ["src/runtime/MatchKeySequence.cpp: MatchKeySequence::operator()"]}
{"id": "C15", "title": "Sequential expressions match exactly the typed keys", "statement": "The input expression for typing keys k1 .. kn one after the other matches a typed sequence of complete strokes exactly if it consists of these keys in this order, may still match exactly for the proper prefixes, and does not match otherwise.", "quantifier": "all non-empty lists of keys of any length, all typed sequences of any length", "why_tests_cant": "Unbounded in the length of expression and sequence.", "anchors": ["src/runtime/MatchKeySequence.cpp: MatchKeySequence::operator()", "src/config/ParseKeySequence.cpp: ParseKeySequence::parse"]}
{"id": "C16", "title": "Chords match in any order", "statement": "The input expression for pressing a group of distinct keys together matches when the keys are pressed in any order, and may still match while only some of them are pressed.", "quantifier": "all groups of distinct keys of any size, all permutations, all subsets", "why_tests_cant": "n! orders.", "anchors": ["src/runtime/MatchKeySequence.cpp: MatchKeySequence::operator()"]}
{"id": "C17", "title": "A key which must not be held prevents the match", "statement": "If an expression demands at its beginning that a key is not held (and does not demand its press later), it does not match any sequence in which this key gets pressed or is still held from before.", "quantifier": "all expressions, all sequences", "why_tests_cant": "All positions of the key in the sequence, all expressions.", "anchors": ["src/runtime/MatchKeySequence.cpp: MatchKeySequence::operator()"]}
{"id": "C18", "title": "Any stands for keyboard keys only", "statement": "The keys reported as matched by Any are keyboard keys which were pressed in the sequence, never mouse buttons, wheels, virtual keys or timeouts.", "quantifier": "all expressions, all sequences", "why_tests_cant": "All expressions and sequences.", "anchors": ["src/runtime/MatchKeySequence.cpp: MatchKeySequence::operator()", "src/runtime/Key.h: is_keyboard_key"]}
{"id": "C19", "title": "Timeouts saturate and never wrap", "statement": "Durations converted to the 12 bit timeout field are clamped to 0..4095, adding timeouts saturates at 4095, is commutative, associative and monotone.", "quantifier": "all durations representable as int milliseconds, all pairs/triples of timeouts", "why_tests_cant": "All values.", "anchors": ["src/runtime/Timeout.h: duration_to_timeout", "src/runtime/Timeout.h: sum_timeouts"]}
{"id": "C20", "title": "Stages compose", "statement": "A configuration with a single stage behaves like that stage, one without stages forwards events unchanged, and the output of several stages is the output of the last ones applied to the output of the first ones, except for server events (timeouts, virtual keys, actions) which bypass the following stages unchanged and in order.", "quantifier": "all numbers of stages, all stage states, all events", "why_tests_cant": "Any number of stages.", "anchors": ["src/runtime/MultiStage.cpp: MultiStage::update"]}
{"id": "C21", "title": "Active contexts are distributed to their stages", "statement": "Setting the active contexts of a multi-stage configuration gives each stage exactly the contexts which belong to it, renumbered from zero; no index is lost, duplicated or given to two stages.", "quantifier": "all numbers of stages and contexts, all index lists", "why_tests_cant": "Any number of stages/contexts.", "anchors": ["src/runtime/MultiStage.cpp: MultiStage::set_active_client_contexts"]}
{"id": "C22", "title": "Virtual key state is consistent and announced exactly on change", "statement": "The set of pressed virtual keys never holds a key twice; press, release and toggle have their usual meaning on that set; toggling twice restores the set. As long as the server was not asked to exit, the client is informed exactly when the state of a virtual key changed, and with the new state, with one exception: replacing the configuration releases all virtual keys and does not inform the client.", "quantifier": "all server states, all keys, all requested states, all histories", "why_tests_cant": "Histories are unbounded, recursion through mappings.", "anchors": ["src/server/ServerState.cpp: ServerState::set_virtual_key_state"]}
{"id": "C23", "title": "Flushing terminates even when mappings toggle each other", "statement": "Sending the buffered output terminates for any configuration, even if toggling virtual keys appends further toggles: at most nine virtual keys are toggled per flush.", "quantifier": "all server states, all configurations", "why_tests_cant": "Non-termination depends on configurations with mutually toggling contexts.", "anchors": ["src/server/ServerState.cpp: ServerState::flush_send_buffer"]}
{"id": "C24", "title": "Flushing preserves order and loses nothing", "statement": "Without virtual keys in the buffer, the keys sent plus the keys left in the buffer are exactly the buffered events in order, except for wheel presses, actions and the delay at which it stopped; a delay stops sending exactly before the events behind it; when sending fails the remaining events are kept.", "quantifier": "all buffers, all failure points of the device", "why_tests_cant": "Crash point / failure at any position.", "anchors": ["src/server/ServerState.cpp: ServerState::flush_send_buffer"]}
{"id": "C25", "title": "Replacing the configuration releases all held keys", "statement": "When the configuration is replaced or reset, for each device key which the last stage tracks as down a release is sent (or is left in the buffer behind a pending delay or when the device does not accept it), no virtual key remains pressed, and no timeout or flush of the old configuration remains scheduled when the new configuration starts to process the known devices.", "quantifier": "all server states", "why_tests_cant": "All states at the moment of the reset.", "anchors": ["src/server/ServerState.cpp: ServerState::reset_configuration", "src/server/ServerState.cpp: ServerState::release_all_keys"]}
{"id": "C26", "title": "The next-key-info request is answered exactly once", "statement": "After a client requested information about the next key, the first press of a device key other than the left mouse button is reported to the client (with the device it came from) and swallowed, unless it is a repetition while output or a timeout is pending; all other events are processed as if nothing had been requested; turning a wheel is reported once; at most one reply is sent per request.", "quantifier": "all server states, all event sequences", "why_tests_cant": "Unbounded event sequences before the reply.", "anchors": ["src/server/ServerState.cpp: ServerState::translate_input"]}
{"id": "C27", "title": "A wheel event is a press and a release and keeps its distance", "statement": "Each mouse wheel event (unless it repeats the previous one while output is pending) is processed as a press followed by a release; a wheel press never reaches the output device; wheel events produced from it without own value carry the distance of the input event.", "quantifier": "all configurations and states, all wheel events", "why_tests_cant": "All states.", "anchors": ["src/server/ServerState.cpp: ServerState::translate_input", "src/server/ServerState.cpp: ServerState::flush_send_buffer"]}
{"id": "C28", "title": "At most one timeout is pending and each is answered once", "statement": "A requested timeout is answered by exactly one timeout event: in the first iteration of the main loop after it elapsed (for which it wakes up in time), or with the elapsed time when an event cancels it, before that event is processed. Presses cancel it, releases only when this was requested; otherwise it stays pending until it is answered, replaced by a newer request, or the configuration is replaced.", "quantifier": "all server states, all event times", "why_tests_cant": "All arrival times of events.", "anchors": ["src/server/ServerState.cpp: ServerState::translate_input", "src/server/unix/main.cpp: main loop"]}
{"id": "C29", "title": "Messages round-trip", "statement": "What the client sends to the server (configuration, active contexts, requests) is received as the same data: the same contexts in the same order with all mappings, outputs, commands and filters, grouped into the stages marked in the configuration, the same device filters and directives. The same holds for everything the server sends to the client.", "quantifier": "all messages whose lists have fewer than 2^32 elements, with 16 bit keys, 12 bit values and 32 bit indices", "why_tests_cant": "All sizes and nestings.", "anchors": ["src/client/ServerPort.cpp: ServerPort::send_config", "src/server/ClientPort.cpp: ClientPort::read_messages, read_stages", "src/common/Connection.h: Serializer, Deserializer"]}
{"id": "C30", "title": "Message framing is independent of packet boundaries", "statement": "However the bytes of a sequence of messages are split into reads, the receiver handles exactly these messages in order, each as soon as it is completely received, and keeps the incomplete rest.", "quantifier": "all sequences of well-formed messages followed by an incomplete one, all ways of chopping them into chunks", "why_tests_cant": "Exponentially many ways to split.", "anchors": ["src/common/Connection.h: Connection::read_messages", "src/common/Connection.cpp"]}
{"id": "C31", "title": "Malformed messages do not cause accesses out of bounds, and end the connection", "statement": "Whatever bytes are received, reading messages never accesses bytes outside of the received ones. When the content of a message does not end where its size says, the connection is closed and no further message is handled.", "quantifier": "all byte strings, on both sides of the connection", "why_tests_cant": "All malformed messages.", "anchors": ["src/common/Connection.h: Deserializer, Connection::read_messages"]}
{"id": "C32", "title": "Parsed output sequences only contain what the runtime can output", "statement": "Each successfully parsed output expression only consists of presses, releases, temporary releases (!key), delays and at most one on-release marker; the runtime's output function never meets another kind of event.", "quantifier": "all strings, all assignments of names to keys, all string typers", "why_tests_cant": "All strings.", "anchors": ["src/config/ParseKeySequence.cpp", "src/runtime/Stage.cpp: Stage::update_output"]}
{"id": "C33", "title": "Parsed output sequences are balanced", "statement": "In no prefix of a successfully parsed output expression a key is released more often than it was pressed. Each press is followed by a release, unless the expression is a chord, whose keys are held until the trigger is released.", "quantifier": "all strings, all assignments of names to keys, all string typers", "why_tests_cant": "All nestings and groups.", "anchors": ["src/config/ParseKeySequence.cpp"]}
{"id": "C34", "title": "Parsed input sequences are matchable", "statement": "Each successfully parsed input expression presses at least one key and only contains events the matcher knows: presses, releases of what was pressed before, early presses of what is pressed later, keys which must not be held, timeouts after a press, and the flag ? only at its begin. Every press has to be released, except after ?. ContextActive is only used alone. (Exception: '? ContextActive'.)", "quantifier": "all strings, all assignments of names to keys, all string typers", "why_tests_cant": "All strings.", "anchors": ["src/config/ParseKeySequence.cpp"]}
{"id": "C35", "title": "Logical keys never reach the runtime", "statement": "After parsing a configuration no mapping, output or filter contains a logical key such as Shift or a user defined A | B: each was replaced by the concrete keys, and each combination of alternatives is present.", "quantifier": "all configurations", "why_tests_cant": "Number of logical keys and mappings is unbounded.", "anchors": ["src/config/ParseConfig.cpp: replace_logical_key, replace_logical_keys"]}
{"id": "C36", "title": "References from mappings to outputs are valid", "statement": "In a parsed configuration, each non-negative output reference is an index of an output of the same context, and each command which is mapped to has an output (unless unmapped commands are allowed).", "quantifier": "all configurations accepted by the parser", "why_tests_cant": "All configurations; the optimiser moves and merges contexts after the references were assigned.", "anchors": ["src/config/ParseConfig.cpp: optimize_contexts, check_mappings", "src/runtime/Stage.cpp: Stage::find_output"]}
{"id": "C37", "title": "A fallthrough context is always followed by another one of its stage", "statement": "In the context list sent to the server no stage ends with a fallthrough context, so that following the chain never leaves the stage.", "quantifier": "all configurations accepted by the parser", "why_tests_cant": "All configurations.", "anchors": ["src/config/ParseConfig.cpp: optimize_contexts", "src/runtime/Stage.cpp: Stage::fallthrough_context"]}
{"id": "C38", "title": "Each terminal command triggers itself", "statement": "The action number sent when a terminal command of the configuration is triggered identifies that command and no other.", "quantifier": "all numbers of terminal commands", "why_tests_cant": "A test has a few commands; the number is only bounded by the key range.", "anchors": ["src/config/ParseConfig.cpp: add_terminal_command_action", "src/runtime/Key.h: first_action, last_action"]}
{"id": "C39", "title": "Key names round-trip", "statement": "The name of each named key is parsed back as the same key, and parsing a name yields at most one key.", "quantifier": "all keys with a name", "why_tests_cant": "The table is large; aliases could shadow each other.", "anchors": ["src/config/get_key_name.cpp: get_key_name, get_key_by_name"]}
{"id": "C40", "title": "keymapperctl is told the state of a virtual key the server told last", "statement": "Asking for the state of a virtual key, by its name or by the name the configuration of the server gives to it, is answered with the state the server told last for exactly this key (released, when it was not told anything since it connected); a name which denotes no virtual key is answered as not found. All accesses stay within the client's table, except for Virtual255, whose entry does not exist (witness).", "quantifier": "all histories of server messages, configurations, reconnections and control requests; all names", "why_tests_cant": "All histories; the boundary of the key range is not exercised by a test.", "anchors": ["src/client/ControlPort.cpp: get_virtual_key_state, on_virtual_key_state_changed, get_virtual_key", "src/client/ControlPort.h: m_virtual_keys_down"]}
{"id": "C41", "title": "Injected sequences contain no logical key and leave no key pressed", "statement": "A sequence injected by keymapperctl which is accepted is sent with its missing releases, so that no key it presses stays pressed (keys pressed before which do not occur in it are not affected), and with concrete keys instead of Shift, Control and Meta. False for sequences with `!key`, which presses this key and leaves it pressed, and for `Alt`, which is not replaced (witnesses).", "quantifier": "all texts which parse as output expressions", "why_tests_cant": "All sequences.", "anchors": ["src/client/ClientState.cpp: ensure_all_keys_up, replace_logical_keys, on_inject_output_message"]}
{"id": "C42", "title": "Filters of grabbed devices: the last matching filter decides", "statement": "Whether a device is grabbed is decided by the last grab/skip filter which matches it, and by the default when none matches.", "quantifier": "all filter lists, all devices", "why_tests_cant": "All lists.", "anchors": ["src/common/Filter.h: evaluate_grab_filters"]}
{"id": "C43", "title": "High resolution wheel distance is conserved", "statement": "The low resolution wheel steps emitted by the virtual device times 120 differ from the total high resolution distance by less than one step, for any sequence of wheel events, and nothing accumulates.", "quantifier": "all sequences of wheel events", "why_tests_cant": "Unbounded sequences.", "anchors": ["src/server/unix/VirtualDevicesLinux.cpp: update_lowres_wheel, send_key_event"]}
{"id": "C44", "title": "The virtual device alternates press, repeats and release", "statement": "The values written for a key are press (1), then only repeats (2) until a release (0).", "quantifier": "all sequences of key events", "why_tests_cant": "Unbounded sequences.", "anchors": ["src/server/unix/VirtualDevicesLinux.cpp: update_key_state"]}
{"id": "C45", "title": "Unicode characters are typed by their hexadecimal code", "statement": "The hex digit keys typed for a character without dictionary entry, read as a number in base 16, are the character, without leading zero.", "quantifier": "all characters", "why_tests_cant": "2^21 characters.", "anchors": ["src/client/unix/StringTyperImpl.cpp: hex_type_unicode_linux"]}
{"id": "C46", "title": "A configuration which fails to parse does not replace the loaded one", "statement": "When reloading the configuration file fails (it cannot be read or is not valid), the configuration the server uses stays the same; every configuration it ever uses is the result of reading a valid file. A reload which succeeds is sent. Setting another configuration file succeeds exactly when it can be read, and reports that.", "quantifier": "all file contents, all histories of updates", "why_tests_cant": "All histories.", "anchors": ["src/client/ConfigFile.cpp: ConfigFile::update", "src/client/ClientState.cpp: ClientState::on_set_config_file_message"]}
{"id": "C47", "title": "A newer keymapperctl instance replaces the older ones", "statement": "After a control connection announced an instance id (not empty and not 0) all other connections which announced it last are closed, connections which last announced other ids or none stay open, as does the one which announced it.", "quantifier": "all sets of connections, all histories of announcements", "why_tests_cant": "Unbounded number of connections.", "anchors": ["src/client/ControlPort.cpp: on_set_instance_id"]}
{"id": "C48", "title": "Key repeats do not alter what is held", "statement": "While nothing is held back, repeating the press of a key which was forwarded repeats its press in the output and does not change the set of held output keys.", "quantifier": "as in C05, all numbers of repeats", "why_tests_cant": "All states.", "anchors": ["src/runtime/Stage.cpp: Stage::apply_input", "src/runtime/Stage.cpp: Stage::update_output"]}
{"id": "C49", "title": "The keys considered pressed are the physically held ones", "statement": "For input without valued releases: a key which a stage considers pressed is physically held. Without output on release, every physically held key is considered pressed (apart from the timeout pseudo key).", "quantifier": "all configurations, all histories of key presses and releases, context changes, device changes", "why_tests_cant": "The state after arbitrarily long histories of interleaved matches is concerned.", "anchors": ["src/runtime/Stage.cpp: Stage::is_physically_pressed", "src/runtime/Stage.cpp: Stage::finish_sequence", "src/runtime/Stage.cpp: Stage::forward_from_sequence"]}
{"id": "C50", "title": "Output of a context activation ends with the context", "statement": "In each state, an output key which was pressed by the activation of a context belongs to a context which is active.", "quantifier": "all configurations, all histories, including context changes caused by modifier filters", "why_tests_cant": "Activations and deactivations in all orders, by focus changes and by modifier keys.", "anchors": ["src/runtime/Stage.cpp: Stage::on_context_active_event", "src/runtime/Stage.cpp: Stage::update_active_contexts"]}
{"id": "C51", "title": "A held output has a cause which is still there", "statement": "In each state, every output key which is down is attributed to an input key which is physically held, to the activation of a context, to a timeout, or is itself a forwarded input key. With C03: when no input key is held, only such keys remain down.", "quantifier": "all configurations, all histories of presses and releases", "why_tests_cant": "Which key an output is attributed to depends on the whole history of matches.", "anchors": ["src/runtime/Stage.cpp: Stage::apply_input", "src/runtime/Stage.cpp: Stage::forward_from_sequence", "src/runtime/Stage.cpp: Stage::release_triggered"]}
{"id": "C52", "title": "Output on release is output at the release, once, unless its context was left", "statement": "Of the output `a ^ b` exactly `a` is output when the trigger is pressed. `b` is output when it is released, presses repeated in between are ignored. Changing the client's contexts cancels the pending output of contexts which are no longer active.", "quantifier": "all output sequences, all states", "why_tests_cant": "Unbounded output sequences and states.", "anchors": ["src/runtime/Stage.cpp: Stage::apply_output", "src/runtime/Stage.cpp: Stage::continue_output_on_release", "src/runtime/Stage.cpp: Stage::cancel_inactive_output_on_release"]}
{"id": "C53", "title": "A held key may be the first key of a following chord", "statement": "The input `A (A B)` is matched by holding A and pressing B, as well as by pressing A again; the order in the chord does not matter.", "quantifier": "all keys A, B", "why_tests_cant": "All pairs of keys.", "anchors": ["src/runtime/MatchKeySequence.cpp: MatchKeySequence::operator()"]}
{"id": "C54", "title": "A modifier filter with a logical key accepts either alternative", "statement": "A context with the filter `modifier = \"...\"` is activated by its own filters exactly when the client activated it, its device filter matches and each required modifier is held, where a logical key (`Shift`, or one defined in the configuration) counts as held when one of its alternatives is. This is false for `modifier != \"...\"`: `modifier != \"Shift\"` is active unless both Shift keys are held (witness).", "quantifier": "all logical keys (nested to any depth), all filters, all states of the keyboard, all surrounding contexts", "why_tests_cant": "The replacement of logical keys creates any number of contexts, for all definitions of logical keys.", "anchors": ["src/config/ParseConfig.cpp: ParseConfig::replace_logical_key", "src/runtime/Stage.cpp: Stage::update_active_contexts"]}
{"id": "C55", "title": "The own virtual devices are not grabbed", "statement": "No device is ever grabbed whose name ends with `keymapper`, and the names of the virtual devices end with it, when the name of the original device has at most 68 characters. Longer names are cut off, so that a forward device is grabbed itself (witness).", "quantifier": "all device names, all histories of device changes", "why_tests_cant": "All names and all orders in which devices appear.", "anchors": ["src/server/unix/GrabbedDevicesLinux.cpp: update, is_virtual_device", "src/server/unix/VirtualDevicesLinux.cpp: create_forward_device"]}
{"id": "C56", "title": "The grabbed devices are the wanted ones, once each, in a stable order", "statement": "After each update of the device list the grabbed devices are the previously grabbed ones which are still wanted, in their order, followed by the wanted new ones; no device is grabbed twice; events of each are forwarded with the virtual device created for it, and the list of virtual devices is never accessed outside of its bounds.", "quantifier": "all sets of devices, all filters, all histories of device changes", "why_tests_cant": "All histories of devices which appear and disappear.", "anchors": ["src/server/unix/GrabbedDevicesLinux.cpp: update, is_grabbed_by_default", "src/server/unix/VirtualDevicesLinux.cpp: update_forward_devices, forward_event"]}
{"id": "C57", "title": "Positions of absolute axes stay within the announced range", "statement": "The volume and miscellaneous axes are mapped monotonically from the range of the device to 0 to 1023, ends to ends; other axes are not changed. This is the range which the virtual keyboard announces. A forward device announces the range of the original device instead (witness).", "quantifier": "all ranges, all values", "why_tests_cant": "All ranges and values.", "anchors": ["src/server/unix/GrabbedDevicesLinux.cpp: map_to_range, read_input_event", "src/server/unix/VirtualDevicesLinux.cpp: create_forward_device"]}
{"id": "C58", "title": "The keys down on the virtual devices are the ones which were pressed", "statement": "After every history of sent keys, forwarded events and device changes, a key is down on the virtual keyboard exactly when the last event sent for it was a press, and on no other device. The same holds for mouse buttons while one mouse is used; it is false when the mouse changes or a device is plugged in while a button is held (witnesses).", "quantifier": "all histories", "why_tests_cant": "All histories of keys, mouse movements and device changes.", "anchors": ["src/server/unix/VirtualDevicesLinux.cpp: send_key_event, forward_event, update_forward_devices"]}
{"id": "C59", "title": "Keys and wheel events which are not mapped are reproduced", "statement": "Everything which a keyboard reports (presses, repeats and releases of any keys) is read as key events whose sending writes the same events. An event of a high resolution wheel is read as a key event whose sending writes the same event, for up to 4095 units; a step of a low resolution wheel is read as 120 units. Larger values are truncated to 12 bits (witness).", "quantifier": "all values, both wheels, all sequences of key events", "why_tests_cant": "All values and sequences.", "anchors": ["src/server/unix/GrabbedDevicesLinux.cpp: to_key_event, read_input_event", "src/server/unix/VirtualDevicesLinux.cpp: send_key_event"]}
{"id": "C60", "title": "The active contexts follow the focused window", "statement": "While the client is active and connected, the contexts the server considers active are exactly those contexts of its configuration whose window filters match the window last seen, whatever happened before: reloads, other configurations, reconnections. While the client is toggled inactive no context is active. The indices are always within the server's configuration. (Not guaranteed after switching back to a configuration file which cannot be read any more, see the counterexample.)", "quantifier": "all histories of focus changes, file updates, control requests, connection losses; all configurations and files", "why_tests_cant": "All interleavings of updates, focus changes and reconnections.", "anchors": ["src/client/ClientState.cpp: ClientState::update_active_contexts", "src/client/ClientState.cpp: ClientState::send_config", "src/client/ServerPort.cpp: ServerPort::send_active_contexts"]}
{"id": "C61", "title": "The terminal commands executed are those of the server's configuration", "statement": "When the server asks for the execution of a command, the client executes exactly one command: the one with this number in the configuration the server was sent last. Nothing else executes a command.", "quantifier": "all histories, all command numbers, all configurations", "why_tests_cant": "All interleavings of configuration updates and execution requests.", "anchors": ["src/client/ClientState.cpp: ClientState::on_execute_action_message"]}
{"id": "C62", "title": "A modified configuration file is detected", "statement": "With automatic updates, when the configuration file or an included file has a modification time newer than all the files of the configuration had when it was read, the new contents are read and sent; when no modification time changed, nothing is sent. Not detected: files which become newer but not the newest, and new files of a configuration which was not valid (counterexamples).", "quantifier": "all file systems, all configurations with any number of includes", "why_tests_cant": "All file systems.", "anchors": ["src/client/ConfigFile.cpp: ConfigFile::update", "src/client/ConfigFile.cpp: get_latest_modify_time"]}
{"id": "C63", "title": "A waiting keymapperctl is notified about the next change of its key", "statement": "A control connection which asked to be notified about a virtual key is sent exactly one message when the server tells the state of this key the next time, with the new state, whatever else happens in between; it is not notified about other keys, and not again unless it asks again.", "quantifier": "all histories with the connection open and no other such request on it", "why_tests_cant": "All interleavings of messages and connections.", "anchors": ["src/client/ControlPort.cpp: on_virtual_key_toggle_notification_requested, send_virtual_key_toggle_notification"]}
{"id": "C64", "title": "The next key is reported to the one who asked", "statement": "When the server tells which key was pressed, every control connection which asked for it is sent this key, its device and the focused window, once; when no connection asked a notification is shown.", "quantifier": "all histories", "why_tests_cant": "All interleavings.", "anchors": ["src/client/ControlPort.cpp: on_next_key_info_requested, reply_next_key_info", "src/client/ClientState.cpp: on_next_key_info_message"]}
{"id": "C65", "title": "The result code of keymapperctl tells what happened", "statement": "`--is-pressed`/`--is-released` give success or failure according to the state of the key when the client handled the request, and 'not found' when no virtual key has the name; `--press`, `--release` and `--toggle` succeed when the server was told to do it; `--input`, `--output` and `--type` succeed exactly when the sequence is valid, `--set-config` when the configuration is loaded; the result is a timeout when there is no reply in time, and a connection failure when the connection is closed. `--wait-pressed` succeeds when the key is pressed. Waiting for an unknown key succeeds at once, a change between the two messages of a wait is missed, and after a timeout the late reply is taken for the reply to the next request (witnesses).", "quantifier": "all histories of the client, all interleavings of what it does with the messages of keymapperctl", "why_tests_cant": "All interleavings of two processes.", "anchors": ["src/control/main.cpp: make_request, read_virtual_key_state", "src/control/ClientPort.cpp: read_virtual_key_state"]}
{"id": "C66", "title": "A typed string types its characters", "statement": "The keys an output string is parsed to, sent to a keyboard, press exactly the keys of its characters with exactly the modifiers of each, and release everything at the end; `keymapperctl --type` with a text of the US keyboard without quotes types exactly this text.", "quantifier": "all strings, all tables of characters", "why_tests_cant": "All strings: modifiers depend on the neighbouring characters.", "anchors": ["src/config/ParseKeySequence.cpp: ParseKeySequence::add_string_typing_output", "src/client/unix/StringTyperGeneric.cpp", "src/control/main.cpp: request_inject_output"]}
{"id": "C67", "title": "The command line of keymapperctl is read as its options", "statement": "A command line which consists of valid options is turned into exactly the requests of these options, in their order, each with the timeout set last; any unknown option rejects it. Not as documented, `--timeout` applies to all following operations and `--wait` replaces it (witness).", "quantifier": "all lists of options and their arguments", "why_tests_cant": "Unbounded lists of options.", "anchors": ["src/control/Settings.cpp: interpret_commandline"]}
{"id": "C68", "title": "A delay in the output is kept", "statement": "When sending reaches a delay in the output, nothing behind it is sent until the time of the delay is over, whatever keys are pressed, messages arrive or devices change meanwhile; what they output is queued behind, and the end of the delay is not moved. As soon as the loop runs after the end, everything waiting is sent in order, up to the next delay, which then lasts from that time on. Replacing the configuration and the exit sequence end a delay at once.", "quantifier": "all reachable states with a delay, all histories until and after its end", "why_tests_cant": "All interleavings of input, messages and time.", "anchors": ["src/server/ServerState.cpp: ServerState::schedule_flush, ServerState::flush_send_buffer", "src/server/unix/main.cpp: main_loop"]}
{"id": "C69", "title": "No assertion fails and only well formed events are emitted", "statement": "Using a configuration which was accepted never makes an assertion fail, accesses an element outside of a list or shifts a bit too far, in any of its stages; and everything the stages emit is a press, a release without a value, or the request of a timeout, of a device key, a virtual key or a key which starts a terminal command, never a placeholder like `Any`, the marker of `^` or a logical key.", "quantifier": "all configurations accepted by the parser in which no mapping has an input which only consists of `?`, no output contains `ContextActive` (possible by a logical key), with at most 256 terminal commands; all numbers of stages; all histories of key events of device and virtual keys of at most 64 devices with fitting wheel values, context changes, device changes and validations", "why_tests_cant": "Assertions are invariants over all reachable states; tests only see the executed states.", "anchors": ["src/runtime/Stage.cpp: Stage::apply_input, Stage::update, Stage::output_current", "src/runtime/MultiStage.cpp: MultiStage::update", "src/runtime/MatchKeySequence.cpp: MatchKeySequence::operator()"]}
{"id": "C70", "title": "A configuration which replaces keys replaces them", "statement": "When every mapping replaces a single key by keys (`A >> B`, `A >> (Shift B)`, `A >> command`), pressing a key outputs exactly the replacement given by the first mapping with an output in the first context in use which accepts the device (the key itself when there is none), repeats output it again, and releasing the key releases exactly the keys it pressed, in reverse order. When the mappings exchange keys, so that no two keys become the same, the output is the input with every key exchanged, event by event.", "quantifier": "all contexts with such mappings, filters, fallthrough and commands; all histories of presses, repeats and releases on up to 64 devices, changes of the active contexts and of the devices", "why_tests_cant": "All interleavings of keys held together, all numbers of mappings and contexts.", "anchors": ["src/runtime/Stage.cpp: Stage::apply_input, Stage::find_output, Stage::update_active_contexts, Stage::apply_output, Stage::release_triggered", "src/runtime/MatchKeySequence.cpp: MatchKeySequence::operator()"]}
{"id": "C71", "title": "Output expressions mean what the grammar says", "statement": "An output expression made of keys `A`, keys together `(A B)`, held keys `A{ ... }`, not `!A`, delays `100ms`, strings, terminal commands `$(...)` and `^`, nested and in any order, with any white space, is parsed to the events its terms stand for: a key is pressed and released, keys together are pressed before they are released, held keys are pressed around the terms in braces, keys before a `!A` are kept, a string types its characters, a terminal command triggers the action with its number, delays next to each other are summed up (at most 4095ms). A list of keys pressed at once without modifiers leaves the last releases to the release of the trigger.", "quantifier": "all trees of terms in which no key is pressed or released while it is held by braces, all texts of the tree, all key names", "why_tests_cant": "Unbounded nesting and length.", "anchors": ["src/config/ParseKeySequence.cpp: ParseKeySequence::parse", "README.md: Output expressions"]}
{"id": "C72", "title": "Input expressions mean what the grammar says", "statement": "An input expression made of keys `A`, keys in any order `(A B)`, held keys `A{ ... }`, not `!A`, timeouts `100ms` and `!100ms`, strings and an initial `?`, nested and in any order, with any white space, is parsed to the events its terms stand for: a key has to be pressed and may be released later, keys together may be pressed in any order, held keys may be released after the terms in braces (have to be, when they end with a `!100ms`), `!A` requires `A` to be released if it was mentioned before and not to be held otherwise, timeouts within braces also end with a release, equal timeouts next to each other are summed up (at most 4095ms), `?` does not expect the last releases.", "quantifier": "all trees of terms obeying the rules (a timeout only after a key, `!A` in braces only directly after `A`, positive timeouts and virtual keys not with `?`), all texts of the tree, all key names", "why_tests_cant": "Unbounded nesting and length.", "anchors": ["src/config/ParseKeySequence.cpp: ParseKeySequence::parse", "README.md: Input expressions"]}
{"id": "C73", "title": "Aliases and macros are replaced by their definitions", "statement": "A line of the configuration which uses aliases and macros means the same as the line in which they are replaced: a defined word is replaced by its definition, again and again up to 30 levels, an undefined word stays; in `name[a, b]` the arguments are first replaced themselves, then `$0`, `$1`, ... and `$$` in the definition are replaced by the arguments (without their quotes) and their number, and the result is replaced again; `length`, `repeat`, `default`, `add`, `sub`, `mul`, `div`, `mod` (truncating towards zero, empty for a division by zero), `min`, `max` compute their result, `apply` repeats its first argument for groups of the others (mappings in lines of their own); in `name[a][b]` the further arguments are applied to the result; in strings, terminal commands and regular expressions only `$name` and `${name}` are replaced, comments are removed, everything else stays. A definition `name = text` is kept with its aliases replaced and its macros with arguments unapplied, and replaces an earlier definition.", "quantifier": "all lines and definitions of words, macros with arguments, strings, terminal commands, regular expressions and other characters in which quotes and brackets match, behind all lines", "why_tests_cant": "Unbounded nesting, number of definitions and arguments.", "anchors": ["src/config/ParseConfig.cpp: ParseConfig::preprocess, ParseConfig::substitute_variables, ParseConfig::apply_builtin_macro, ParseConfig::parse_macro, get_argument_list, substitute_arguments", "src/config/string_iteration.h: skip_arglist, skip_until_not_in_string", "README.md: Key aliases / Macros"]}
{"id": "C74", "title": "The lines of a configuration have the meaning which is documented", "statement": "A configuration whose lines are definitions of aliases, mappings `input >> output`, mappings to commands `input >> command`, outputs of commands `command >> output`, begins of contexts `[...]` with filters for class, title, path, device, system and modifiers, begins of stages, definitions of keys which stand for several keys (`Ext = A | B`), directives, empty lines and comments, is accepted if every used command has an output or `@allow-unmapped-commands` was given. A line may be broken with a backslash at its end, a line may contain several mappings when a macro creates them, the lines of an included file stand for themselves, and nothing is read after `@done`. The contexts appear in the order of the lines, each with its filters; the mappings belong to the context above them, in the order of the lines; a mapping to a command refers to this command; a context directly followed by the begin of another one shares the mappings of it; contexts of other systems and contexts without mappings are left out; terminal commands are collected in order; aliases of virtual keys are known by name; the filters of grabbed and skipped devices, the options, the directives for the server and the included files are the ones of the directives, and directives in contexts of other systems have no effect. If a used command has no output, the configuration is rejected.", "quantifier": "all configurations of such lines (any number), with up to ten levels of included files, with or without byte order mark, which do not use logical keys like Shift in mappings", "why_tests_cant": "Any number of lines, contexts, commands, aliases.", "anchors": ["src/config/ParseConfig.cpp: ParseConfig::operator(), parse_file, parse_line, parse_context, parse_mapping, parse_command_and_mapping, add_command, add_mapping, optimize_contexts", "README.md: Configuration"]}
{"id": "C75", "title": "What is typed appears with the keys of the configuration file replaced", "statement": "When the client has read a configuration file, connects to the server and sends the configuration, in whatever pieces the bytes arrive, then the server outputs on its virtual device exactly what the configuration outputs for what is typed, with the contexts active whose filters match the focused window (for configurations of one stage without device filters, virtual keys, delays and terminal commands in the output). In particular for a file with lines `A >> B`, empty lines and comments, in which no two keys are replaced by the same key, everything which is typed on the grabbed keyboards appears on the virtual device, event by event and in order, with the keys replaced by those of the file.", "quantifier": "all files with such lines, all texts of the lines, all cuts of the byte stream into pieces, all sequences of presses and releases (other than those which terminate the server), interleaved with changes of devices", "why_tests_cant": "The whole path from the text of the file over the protocol to the virtual device, for all files, histories and cuts.", "anchors": ["src/config/ParseConfig.cpp: ParseConfig::operator()", "src/client/ServerPort.cpp: ServerPort::send_config, ServerPort::send_active_contexts", "src/server/ClientPort.cpp: ClientPort::read_messages", "src/server/unix/main.cpp: main_loop, connection_loop", "src/server/ServerState.cpp: ServerState::translate_input, flush_send_buffer", "src/runtime/Stage.cpp: Stage::update"]}
{"id": "C76", "title": "Logical keys and forwarded modifiers in a configuration mean what is documented", "statement": "In the contexts of an accepted configuration (see C74), a mapping which uses a logical key like Shift, or one which is defined by `Name = A | B`, stands for one mapping for each of the two keys, at the place of the line and in this order, with the same key in the output; when only the output uses it, the first key is pressed; `!Shift` means that none of both is held; a modifier filter with it stands for a context for each key. Keys which stand for more than two keys, or for other logical keys, are replaced until no logical key remains. With `@forward-modifiers` every stage begins with mappings of the forwarded modifiers to themselves, and the output of a mapping (also over a command) whose input presses a forwarded modifier releases it first, unless it presses it itself; other outputs only get additional releases of forwarded modifiers.", "quantifier": "all configurations of the lines of C74, with any definitions of logical keys and any forwarded modifiers", "why_tests_cant": "Any number of lines, contexts, definitions and nesting of definitions.", "anchors": ["src/config/ParseConfig.cpp: ParseConfig::replace_logical_key, add_logical_key, prepend_forward_modifier_mappings, suppress_forwarded_modifiers_in_outputs, optimize_contexts", "README.md: Keys, Order of mappings, @forward-modifiers"]}
{"id": "C77", "title": "keymapperctl makes its requests in order, and its exit code and --stdout are the result of the last answered request", "statement": "The requests of the command line are made one after the other. The exit code is the result of the last request which asks the client for something, whatever the results before it were; `--wait` and `--stdout` do not change it. `--stdout` outputs the result of the last request before it, and no other request outputs a result code. At `--restart` the requests are made from the beginning, those behind it are never made, unless the connection failed and an instance id was set. A command line without `--restart` ends after its requests; one with `--restart` only ends because the connection failed.", "quantifier": "all command lines, all states of the client, everything which happens while the requests wait, any number of passes", "why_tests_cant": "Tests run the control program with few requests, not all sequences of requests interleaved with the client and losses of the connection.", "anchors": ["src/control/main.cpp: main, make_request", "src/control/ClientPort.cpp: ClientPort::connect", "README.md: keymapperctl"]}
{"id": "C78", "title": "What is held back because a mapping might match is not lost", "statement": "While keys are typed which so far only match the beginning of mappings, some of them are held back. As long as no mapping is completed the presses which are output are always the first of the ones typed, in the order in which they were typed, with none left out or added, and for each key its presses and releases are output in turn as they were typed. As soon as a key is pressed or released which no mapping mentions, everything which was held back is output, so all presses are output in order, all releases are output and the same keys are held.", "quantifier": "all configurations without timeouts whose active mappings need a key which is not pressed, all sequences of pressing and releasing keys of any length, any switching of contexts and devices in between", "why_tests_cant": "Tests check a few sequences; the state kept between inputs depends on all keys pressed and released while something is held back.", "anchors": ["src/runtime/Stage.cpp: Stage::apply_input, Stage::forward_from_sequence, Stage::match_input, Stage::release_triggered", "src/runtime/MatchKeySequence.cpp: MatchKeySequence::operator()"]}
{"id": "C79", "title": "A typed sequence of keys, and keys pressed together, are replaced by their output", "statement": "In a configuration all mappings of which are for keys typed one after the other (`A >> B`, `B T W >> 'by the way'`) or pressed together (`(J K) >> Escape`): while such a sequence is typed, or not all of the keys are pressed together, nothing is output; when its last key is pressed its output is output, and nothing else; whether the keys of a sequence overlap, in which order the keys are pressed together, in which order they are released, on which devices they are typed and which keys are held that no mapping mentions does not matter. Keys which the output leaves pressed are released exactly when the key is released which is the last one of the input in the configuration (for keys pressed together this need not be the one which was pressed last). Afterwards typing goes on as if nothing had happened, and keys which no mapping mentions are output as they are pressed and released. When a sequence is not completed, because a key is pressed which no mapping mentions, or because one of the keys which are to be pressed together is released, then everything held back is output, in the order it was typed, with this event; from then on these keys are ordinary keys, which are released as they are released.", "quantifier": "For all such configurations (any number of contexts, mappings and keys, mappings of commands included), all sequences which are not in conflict with a mapping in front, and all histories of typing such sequences, of other keys, and of changes of the active contexts and of the devices.", "why_tests_cant": "Tests type a few fixed sequences; they cannot cover every interleaving of the releases of a sequence with its presses, with held keys, and with what was typed before.", "anchors": ["src/runtime/Stage.cpp:397-680", "src/runtime/MatchKeySequence.cpp:55-218", "src/test/test3_Stage.cpp", "README.md"]}
{"id": "C80", "title": "Keys which are held or tapped", "statement": "Mappings can be for a key which is pressed (A), held for a time (A{500ms}) or tapped, that is released within a time (A{!500ms}). When such a configuration is used, then the output for every event is exactly determined: when a key is pressed, the first of its mappings decides whether it is output immediately, or whether it is waited. When it is known how much time passed until the next event (or the time ran out), the first mapping of the key which fits is applied, or the key itself is output when there is none; except that a mapping for a tap is only applied when the next event is the release of the key itself: when another key is pressed or released instead, then the first other mapping which fits is applied before that event is handled. So for A{!200ms} >> X, A >> Y: a tap outputs X on release; holding it outputs Y when the time ran out or another key is pressed, and Y stays pressed until A is released. What a mapping pressed is released together with its key. This does not depend on how many other keys are held. When the mapping of a key requires it to be held for a time, then each repeat of the key by the keyboard asks for the time again, and only when that much time passed its output is repeated: in particular no other mapping of the key is applied once one was, however little time passed. (Not covered: pressing a second key which has timed mappings while one is held.)", "quantifier": "for all lists of contexts of such mappings (with any keys, times, outputs of pressed keys), and all histories of presses, releases, elapsed times (whenever they were asked for) and changes of the active contexts (while nothing is undecided); exactly the output for every single event. For the repeats: any number of them, with any elapsed times, of any key held alone, after any such history and followed by any other", "why_tests_cant": "The number of orders in which presses, releases and timeouts of several keys can overlap, with several mappings for the same key, is unbounded; tests only check some of them for fixed durations.", "anchors": ["src/runtime/Stage.cpp:382-443", "src/runtime/Stage.cpp:450-675", "src/runtime/MatchKeySequence.cpp", "src/runtime/Timeout.h"]}
{"id": "C81", "title": "The server measures the time mappings depend on", "statement": "When a configuration of one stage is read by the client and sent to the server, then the output on the virtual device is exactly the one of the stage, where the stage is told how much time passed whenever it asked for it: When keys arrive before the time which is asked for is over, then the stage is first told how many milliseconds passed (at most 4095) since it asked, and then about the key; when the time is over before a key arrives, then it is told so as soon as the server is woken up. It is told exactly once for each time it asked (or not at all when it asks anew). While time is measured, repeats of the last key do not reach the stage, and a release does not end the measurement, unless the request says so. Changes of the active contexts do not affect the measurement. (Not covered: several stages, device filters, delays, virtual keys, terminal commands.)", "quantifier": "for all configurations of one stage without device filters, all pieces in which it arrives, and all sequences of iterations of the main loop (any times which do not run backwards, any keys, any repeats, any changes of the active contexts), as long as only keys are output and the exit keys are not typed", "why_tests_cant": "The interleavings of times, key events, repeats and messages are unbounded; timing related tests are flaky and check few of them.", "anchors": ["src/server/ServerState.cpp:178-277", "src/server/ServerState.cpp:355-374", "src/server/unix/main.cpp:86-166", "src/runtime/Timeout.h"]}
{"id": "C82", "title": "Holding and tapping keys, by the clock", "statement": "A configuration file with mappings for keys which are pressed, held for some time or tapped (C80) is read and sent to the server. Then for everything typed on the keyboards the output on the virtual device is the one determined by the mappings and the times at which keys are pressed and released. In particular for A{!T} >> X, A >> Y, when A is pressed at t0 (and possibly repeats): nothing is output at first; when it is released before t0+T, then X is pressed and released; when it is still held at t0+T, then Y is pressed as soon as the server wakes up, and released when A is released; when another key is pressed before t0+T, then Y is pressed followed by the other key.", "quantifier": "for all such configurations, all times T of 1 to 4095 ms, all outputs X, Y, all points in time t0 and t1, any number of wake-ups and repeats in between; the general theorem for all sequences of iterations", "why_tests_cant": "Depends on the combination of parser, protocol, server loop and stage with real time; tests of the stage use artificial timeouts, and tests of the server check few times.", "anchors": ["src/server/ServerState.cpp:178-277", "src/server/unix/main.cpp:86-166", "src/runtime/Stage.cpp:382-675", "src/runtime/MatchKeySequence.cpp"]}
{"id": "C83", "title": "Shortcuts: a key replaced while other keys are held", "statement": "In a configuration all mappings of which are for combinations of keys (`A >> X`, `Control{A} >> X`, `!Shift Control{Alt{A}} >> Alt{X}`): when a key is pressed while the other keys of the combination are held (in this order) and none of the excluded keys is, then the output of the first such mapping in the active contexts is output instead of the key; the other keys are output as they are. What the output presses is released when the key is released. Keys which the output lifts (`!Control X`, or all of them: `!Any X`) are released if they are held and pressed again before another key is pressed; after the shortcut is released they remain released until then. When an output contains `^`, then the part after it is output when the key is released, unless the context of the mapping became inactive meanwhile, and repeats of the key output nothing. With `@forward-modifiers` (the keys which have to be held are mapped to themselves in front) no key is ever held back.", "quantifier": "for all such configurations (any number of contexts, filters, mappings, commands), and all histories of presses, repeats and releases on any devices, changes of the devices and of the active contexts, in which no key has to wait for another one; exactly the output for every single event", "why_tests_cant": "Which keys are down on the virtual device depends on the whole history of overlapping shortcuts, lifted and restored modifiers; tests replay some fixed sequences.", "anchors": ["src/runtime/Stage.cpp:382-447", "src/runtime/Stage.cpp:450-690", "src/runtime/Stage.cpp:695-860", "src/runtime/MatchKeySequence.cpp:55-218", "src/config/ParseConfig.cpp:1105-1150"]}
{"id": "C84", "title": "Messages get through the sockets", "statement": "Whatever the operating system does with the calls of send and recv (interrupt them, accept or return any part, would block): what is accepted of a message is a prefix of it, and the whole message when sending reports success; sending only fails when the socket fails. The messages which were sent successfully are handled by the receiver in order, each exactly once, as soon as they arrived completely, as long as the connection is neither closed nor fails; nothing else is handled. Reading ends when there is nothing more to receive.", "quantifier": "all sequences of messages of any sizes, all results of all calls of send and recv, everything which may arrive between these calls", "why_tests_cant": "Tests on one machine never see short writes, interrupted calls or a would-block at a particular position; there are unboundedly many ways to cut the stream.", "anchors": ["src/common/Connection.cpp: Connection::send, Connection::recv", "src/common/Connection.h: Connection::send_message, Connection::read_messages"]}
{"id": "C85", "title": "The focused window is noticed", "statement": "The window which decides about the active contexts is the one which was activated last, with its current title and class, as soon as the client updates the focused window; the update reports a change when title, class or the focused window changed, and when it reports none, then the window is the same as before. This holds for the windows told by a wlroots compositor (any opening, closing, activation and change of titles), by D-Bus (the last one told wins, one per update) and by an X11 server (the window which has the focus, when it has a class and a title and one of window and title changed). The server's active contexts are the ones which match this window.", "quantifier": "all sequences of changes of the windows on the desktop, distributed in any way over the updates, interleaved with anything else the client does", "why_tests_cant": "Depends on the order of asynchronous events from the compositor and the updates; there are no tests for it, as it needs a compositor.", "anchors": ["src/client/unix/FocusedWindowWlroots.cpp", "src/client/unix/FocusedWindowDBus.cpp", "src/client/unix/FocusedWindowX11.cpp", "src/client/unix/FocusedWindowImpl.cpp", "src/client/ClientState.cpp: ClientState::update_active_contexts"]}
{"id": "C86", "title": "The program does what its command line and options say", "statement": "The command line is accepted exactly when it consists of the documented options, each with its meaning wherever it is written. The configuration file is the given one, else the first existing one of the documented places. --check tells by message and exit code whether the configuration is valid and never contacts the server. Without valid configuration and tray icon the program fails before connecting, and when it cannot connect, it fails. It only ends successfully when Exit is chosen. While connected, the options in effect are those of the command line and of the current configuration, the last of update/no-update wins, and the configuration file is looked at once in every pass of the loop exactly when updating automatically is in effect. Everything the program does is a history of the client, so the guarantees about the client hold for the program.", "quantifier": "all command lines, files, environments, and all sequences of connections, passes of the loop, messages, control messages and uses of the menu", "why_tests_cant": "The program's main loop is not tested at all; it depends on the environment, the state of files and the timing of connections.", "anchors": ["src/client/Settings.cpp: interpret_commandline", "src/client/Settings.cpp: apply_config_options", "src/client/unix/main.cpp: main", "src/client/unix/main.cpp: connection_loop", "src/client/unix/main.cpp: main_loop", "src/client/unix/TrayIcon.cpp", "src/common/output.cpp: vprint"]}
{"id": "C87", "title": "The information about a key is shown as it is and can be used in the configuration", "statement": "A message to the user is shown as a notification with exactly its text, and showing it executes nothing else. The name and the code in the information about a key denote this key when they are written in the configuration. The lines about window and device, written in brackets, are a context which is active for this window and this device. (Fails for messages with characters special to the shell: the title of the focused window can execute commands.)", "quantifier": "all messages (any length up to the buffer) without $, backtick, or a backslash before a backslash, quote or line end; all keys, windows and devices", "why_tests_cant": "The text is passed through three layers of quoting (C++, shell, notify-send) which tests do not run; titles of windows are chosen by other programs.", "anchors": ["src/client/unix/main.cpp: show_notification", "src/client/ClientState.cpp: ClientState::on_next_key_info_message", "src/common/output.cpp: vprint", "src/config/ParseConfig.cpp: parse_context"]}
{"id": "C88", "title": "Characters are typed with the keys which have them in the layout", "statement": "The keys by which a character of a string is typed type this character in the layout of the keyboard: one key with modifiers, or the keys of a compose sequence for it. Each character on a key, and each with a compose sequence of symbols on keys, can be typed. A text of characters which are on keys is typed by one key for each. Without xkbcommon the simplest combination of modifiers is used. The compose sequences are those of the locale for characters. (Fails for keyboards with several layouts and for levels which are selected by other modifiers.)", "quantifier": "all keymaps (any number of keys, levels and symbols), compose keys, compose tables and texts", "why_tests_cant": "Depends on the layout of the keyboard, the locale and the compose table of the machine; tests use a fixed generic layout.", "anchors": ["src/client/unix/StringTyperXKB.cpp: StringTyperXKB::update_layout_xkbcommon", "src/client/unix/StringTyperXKB.cpp: get_locale", "src/client/unix/StringTyperX11.cpp: update_layout_x11", "src/client/unix/StringTyperImpl.cpp: StringTyperImpl::type"]}
{"id": "C89", "title": "What is sent gets through the virtual devices", "statement": "The virtual devices announce to the kernel what is sent with them, so that the kernel passes it on: the virtual keyboard can send each key which has a name, the mouse buttons and the wheels. The virtual counterpart of a grabbed mouse can send exactly the movements, switches and miscellaneous events which the mouse can send, and its keys with a code less than 512, and has its identity, properties and ranges of axes. An event of a grabbed device which is not a key is written to a virtual device which can send it. A device with at least 32 keys is grabbed unless a filter says otherwise. (Fails for buttons the last used mouse does not have, and for switches, dials and keys from code 512 of a keyboard.)", "quantifier": "all devices (any reported keys, axes, switches, properties), states of the virtual devices, and events", "why_tests_cant": "Depends on what the hardware reports; needs uinput and the privileges for it, and hardware which tests do not have.", "anchors": ["src/server/unix/GrabbedDevicesLinux.cpp: get_device_keys", "src/server/unix/GrabbedDevicesLinux.cpp: is_supported_device", "src/server/unix/VirtualDevicesLinux.cpp: create_keyboard_device", "src/server/unix/VirtualDevicesLinux.cpp: VirtualDevicesImpl::forward_event", "src/server/unix/VirtualDevicesLinux.cpp: VirtualDevicesImpl::send_key_event"]}
{"id": "C90", "title": "Only programs of the same version talk to each other, one at a time", "statement": "When the server or a program which connected to it has a connection, then the other side has the same version. The program which connected only has it once the server accepted it. The server has one connection at a time, others wait. Messages begin right after the handshake and arrive in order without loss. The server ends only because a program of another version connected, and does so once it read its version. A program of the same version gets the connection when it is its turn, whatever other programs do. (A program which connects and sends nothing blocks all others.)", "quantifier": "all interleavings of calls of any number of programs, all versions, and any partial transmissions", "why_tests_cant": "Depends on the order in which several processes run and on partial transmissions; tests do not run several programs of different versions.", "anchors": ["src/common/Host.cpp: Host::accept", "src/common/Host.cpp: Host::connect", "src/server/unix/main.cpp: connection_loop", "src/common/Connection.cpp: Connection::send"]}
{"id": "C91", "title": "Any >> Any excludes an application from all mappings", "statement": "When the first context which is active begins with the mapping Any >> Any, keyboard keys are output as they are typed, whatever other contexts map: a press as that press, a release as that release, a repetition as a repetition (unless it comes from another device than the last press). Changing the focus between excluded windows outputs nothing. (Except for mappings starting with ?, mappings of the release of a key they do not press, and mappings of mouse buttons, which still apply.)", "quantifier": "all configurations, all histories before the application got the focus, all sequences of presses, releases, focus and device changes while it is excluded", "why_tests_cant": "The mappings of all other contexts have to be kept from matching, for every sequence of keys; tests only try single keys.", "anchors": ["README.md: Context awareness", "src/runtime/Stage.cpp: Stage::match_input", "src/runtime/MatchKeySequence.cpp: MatchKeySequence::operator()", "src/runtime/Stage.cpp: Stage::apply_output"]}
{"id": "C92", "title": "Virtual keys switch layers of mappings", "statement": "A virtual key is toggled each time it is output: it is switched on when it is off and off when it is on, the client is told, and the mappings of the virtual key apply as if a key was pressed or released. Contexts with it as modifier apply exactly as long as it is on. Clients can switch it on, off or toggle it, setting it to the state it is in has no effect. It can also be used as modifier in the inputs of mappings (V{A}, !V A), where it counts as a key which is held as long as it is on. In particular, with a layer of mappings which a key switches, every key typed outputs the key the layer gives it when the layer was switched an odd number of times, otherwise the one of the other mappings.", "quantifier": "all configurations of one stage without device filters, all sequences of keys, focus changes and requests of clients, all numbers of virtual keys and mappings", "why_tests_cant": "Toggling reenters the stage while its output is being sent, and contexts are reevaluated in between; tests of the server try single toggles.", "anchors": ["README.md: Virtual keys", "src/server/ServerState.cpp: ServerState::flush_send_buffer", "src/server/ServerState.cpp: ServerState::set_virtual_key_state", "src/server/ServerState.cpp: ServerState::translate_input", "src/runtime/Stage.cpp: Stage::update_active_contexts"]}
{"id": "C93", "title": "Outputs switch virtual keys on and off", "statement": "After any history of keys, focus changes and requests, the client was told the state of each virtual key which is the one that decides about the mappings. When a key is pressed the mapping of which outputs virtual keys, then afterwards each of them is in the state the output says: an output with !Virtual1 switches it off (and does nothing when it is off already), one with !Virtual1 Virtual1 switches it on, one with Virtual1 toggles it, one which does not mention it leaves it alone. The same holds for the part of an output after ^, when the key is released, whatever was pressed meanwhile; so with A >> Virtual1 ^ Virtual1 the virtual key is on as long as A is held.", "quantifier": "all configurations of one stage without device filters with mappings for combinations of keys, all outputs (each virtual key is either released right after it was pressed, in all of them, or in none), all histories, all virtual keys", "why_tests_cant": "Whether a virtual key ends up on depends on the parity of all presses an output causes, including keys which are restored or pressed twice; tests try it from a fresh state.", "anchors": ["README.md: Virtual keys", "src/runtime/Stage.cpp: Stage::apply_output", "src/runtime/Stage.cpp: Stage::update_output", "src/server/ServerState.cpp: ServerState::flush_send_buffer", "src/server/ServerState.cpp: ServerState::toggle_virtual_key"]}
{"id": "C94", "title": "The server only uses the devices while a client with a configuration is connected", "statement": "Whatever the clients, the devices and the user do, while keymapperd waits for a client, and after it ended regularly, it does not use any device (neither a virtual keyboard nor grabbed devices) and has no configuration. While it serves a client it has them, grabbed as the configuration which it received last demands: with the mice when it maps mouse buttons or wheels, and with its filters; a configuration which demands something else makes it let go of the devices and of the client. A client which sends a configuration is served, and it is not dropped without a reason: it is served until there is a signal, the exit sequence is read, reading, writing or setting up a device fails, it disconnects, or its configuration demands something else. What it does in the meantime is what the statements about its loop say. It ends regularly (code 0) when it got a signal while it served a client or when the exit sequence was read, and only then; it fails (code 1) when an argument is not known, the socket cannot be opened, a client of another version connects or the devices cannot be created or grabbed, and only then. (Not true: that nothing is carried over from one client to the next, see the counterexamples.)", "quantifier": "all command lines, all sequences of clients with all messages (well-formed, with configurations which are not empty), all events, devices, signals and failures of system calls at any time", "why_tests_cant": "Tests of the server start with its state, the program around it (which needs devices and privileges) is not tested at all.", "anchors": ["src/server/unix/main.cpp: main", "src/server/unix/main.cpp: connection_loop", "src/server/unix/main.cpp: main_loop", "src/server/unix/main.cpp: read_initial_config", "src/server/unix/main.cpp: ServerStateImpl::on_grab_device_filters_message", "src/server/unix/main.cpp: ServerStateImpl::on_configuration_message", "src/server/Settings.cpp: interpret_commandline"]}
{"id": "C95", "title": "Stages are applied one after the other, from the configuration file to the virtual device", "statement": "When a configuration is divided into stages with [stage], then what appears on the virtual keyboard is what the last stage outputs, when the first stage gets what is typed and every further stage gets exactly what the stage in front of it outputs, event by event and in order, and in every stage those of its contexts are active whose filters match the focused window (also when the window changes: what the stages output because of that passes through the following stages). It does not matter in what pieces the configuration arrives at the server. In particular, when the lines A >> B of a configuration file are divided by lines [stage] into stages which exchange keys each, then everything which is typed appears event by event with each key replaced by the first stage, the result by the second stage, and so on.", "quantifier": "all configurations of any number of stages which only output keys (no virtual keys, delays and terminal commands) and have no device filters, all fragmentations of the messages, all sequences of typed keys and changes of active contexts (without the exit sequence); exchanging keys: all stages of lines which exchange keys, everything typed in which keys are pressed and released alternately", "why_tests_cant": "The tests of stages run a handful of configurations with two or three stages on the stage objects alone; that every stage sees what it would see alone holds for configurations and inputs of any size and across client, connection and server.", "anchors": ["src/runtime/MultiStage.cpp: MultiStage::update", "src/runtime/MultiStage.cpp: MultiStage::set_active_client_contexts", "src/server/ServerState.cpp: ServerState::translate_input", "src/server/ClientPort.cpp: read_messages", "src/client/ServerPort.cpp: ServerPort::send_config", "src/server/unix/main.cpp: main_loop"]}
{"id": "C96", "title": "The mappings follow the focused window, from the client to the virtual device", "statement": "While another window is focused, or keymapper is paused and resumed, what appears on the virtual keyboard is exactly what the stages output, when they are input all keys which are typed, in order, and in between exactly those contexts are activated, one list after the other, which match the windows focused one after the other, none while it is paused. No change of the focus is lost, repeated or reordered, in whatever pieces the messages arrive and whenever they arrive between the typed keys. When everything has arrived, then exactly the contexts are active whose filters match the window focused last. When the contexts only replace keys, a key is replaced as in the window which was focused when it was pressed, and released accordingly.", "quantifier": "all configurations of any number of stages which only output keys and have no device filters, all sequences of focused windows, pauses and resumptions, all fragmentations of the messages and all interleavings of their arrival with typed keys (without the exit sequence)", "why_tests_cant": "The tests of contexts activate them directly on a stage; that client, connection and server together neither lose nor reorder a change holds for arbitrary histories, fragmentations and interleavings.", "anchors": ["src/client/ClientState.cpp: ClientState::update_active_contexts", "src/client/ClientState.cpp: ClientState::toggle_active", "src/client/ServerPort.cpp: ServerPort::send_active_contexts", "src/server/ClientPort.cpp: read_messages", "src/server/ServerState.cpp: ServerState::on_active_contexts_message", "src/server/unix/main.cpp: main_loop"]}
{"id": "C97", "title": "Replacing the configuration while typing releases what is held and starts anew, from the file to the virtual device", "statement": "When the configuration file is modified while keys are typed, then up to the moment at which the new configuration arrives everything is mapped by the old one; at this moment the keys which are held down on the virtual keyboard are released, so that none remains held down; and everything which is typed afterwards is mapped by the new configuration, as if keymapper had just been started with it, with the contexts active which match the focused window. Nothing which is typed is lost or mapped by both. This holds however often the configuration is replaced, and whatever is held down at that time.", "quantifier": "all configurations of any number of stages which only output keys and have no device filters, all typed keys (without the exit sequence), all fragmentations of the messages and all moments at which they arrive, any number of replacements (C97_history, C97_connection, C97_nothing_held)", "why_tests_cant": "No test replaces a configuration while keys are held; that nothing remains stuck and that the new stages start without memory of the old ones concerns arbitrary histories of several components.", "anchors": ["src/client/unix/main.cpp: ClientStateImpl::on_reload_config", "src/client/ClientState.cpp: ClientState::update_config", "src/client/ClientState.cpp: ClientState::send_config", "src/client/ConfigFile.cpp: ConfigFile::update", "src/server/ServerState.cpp: ServerState::on_configuration_message", "src/server/ServerState.cpp: ServerState::reset_configuration", "src/server/ServerState.cpp: ServerState::release_all_keys", "src/server/unix/main.cpp: main_loop"]}
{"id": "C98", "title": "What is not mapped appears as it is typed, from the configuration file to the virtual device", "statement": "While a configuration is used in which the typed keys do not occur in the input of any mapping (nor Any), or while no context matches the focused windows, exactly what is typed appears on the virtual device, event by event and in order, including repetitions of held keys, through all stages, whichever windows are focused and whenever keymapper is paused and resumed. Only releases of keys which are not held do not appear. When the configuration is replaced by another one which does not mention the keys either, then exactly those which are held are released, once each.", "quantifier": "all configurations of any number of stages without device filters, all histories of focused windows, pauses, modifications of the configuration and typed keys of one device (without the exit sequence), all fragmentations of the messages and all moments at which they arrive", "why_tests_cant": "Tests type a few unmapped keys into a single stage; that nothing is swallowed, delayed or reordered by any number of stages, while contexts are switched at any moment between the events, is about all interleavings.", "anchors": ["src/runtime/Stage.cpp: Stage::update", "src/runtime/Stage.cpp: Stage::set_active_client_contexts", "src/runtime/MultiStage.cpp: MultiStage::update", "src/runtime/MultiStage.cpp: MultiStage::set_active_client_contexts", "src/server/ServerState.cpp: ServerState::translate_input", "src/server/unix/main.cpp: main_loop"]}
{"id": "C99", "title": "On Windows characters, buttons and the wheel are converted without loss", "statement": "On Windows every character of a typed text for which the keyboard has no key is pressed and released exactly once and in order, whatever else is output in between. Of each mouse button the programs see presses and releases alternately, whatever keymapper sends and however the mouse is used meanwhile. Keys, clicks and turns of the wheel which are not changed by the mappings are output as the same key, click or distance.", "quantifier": "all texts of UTF-16 codes, all dictionaries, all sequences of sent events, all histories of sent events and uses of the mouse, all scan codes", "why_tests_cant": "Tests do not run the Windows server at all; that two halves of a character are always joined correctly and that a button is never pressed twice is about all interleavings of sent and physical input.", "anchors": ["src/server/windows/main.cpp: make_key_input", "src/server/windows/main.cpp: prevent_button_repeat", "src/server/windows/main.cpp: make_button_input", "src/server/windows/main.cpp: get_button_event", "src/server/windows/main.cpp: get_key_event", "src/server/windows/main.cpp: on_send_key", "src/client/windows/StringTyper.cpp: StringTyperImpl::type"]}
{"id": "C100", "title": "On Windows the programs see what the mappings output, in order", "statement": "On Windows an event which the mappings output unchanged is passed on, all others are withheld and replaced, at once or later. For any history of keys, clicks and (for mappings which do not change only the press of the wheel) turns of the wheel the programs nevertheless see exactly the presses and releases the mappings output, in this order: nothing is lost, doubled or overtaken. What is not seen yet is the end of it, and a timer is set for it.", "quantifier": "all mappings (any function from states and events to outputs), all histories of keyboard events, clicks and expirations of the timer", "why_tests_cant": "Tests do not run the Windows server; that a passed event never overtakes a withheld one is about all interleavings of delayed output and input.", "anchors": ["src/server/ServerState.cpp: ServerState::translate_input", "src/server/ServerState.cpp: ServerState::flush_send_buffer", "src/server/windows/main.cpp: keyboard_hook_proc", "src/server/windows/main.cpp: mouse_hook_proc", "src/server/windows/main.cpp: window_proc"]}
