{
 "claims": [
  {
   "property": "C01",
   "status": "proved",
   "theorems": [
    "KM.C01_loop_terminates",
    "KM.C01_loop_result",
    "KM.C01_matcher_terminates",
    "KM.Rounds.deterministic"
   ],
   "note": "Literal execution relation of the main loop ends after at most 2*pending rounds in any state; matcher loop bounded by the sizes."
  },
  {
   "property": "C02",
   "status": "proved",
   "theorems": [
    "KM.C02_release_releases_triggered",
    "KM.C02_released_on_keyboard"
   ],
   "note": "First theorem for every state; second about the replayed output keyboard except for keys held over ^ as in C03."
  },
  {
   "property": "C03",
   "status": "proved",
   "theorems": [
    "KM.C03_no_stuck_key",
    "KM.C03_parsed",
    "KM.C33_releases_own",
    "KM.C03_counterexample",
    "KM.C03_parsed_counterexample"
   ],
   "note": "For every configuration, history and key: the exception only concerns the key which is held over ^ (per key), and it is needed (witnesses of stuck keys, also for configurations the parser accepts). Histories without validate_state, which makes a stage forget keys on purpose."
  },
  {
   "property": "C04",
   "status": "proved",
   "theorems": [
    "KM.C04_release_after_press",
    "KM.C04_tracked_was_pressed"
   ],
   "note": "All contexts, all histories including validate_state."
  },
  {
   "property": "C05",
   "status": "proved",
   "theorems": [
    "KM.C05_unmapped_key_passes",
    "KM.C05_switching_is_silent",
    "KM.C05_keyboard_mirrored",
    "KM.C05_no_context_transparent"
   ],
   "note": "All histories of keys not mentioned by the activated contexts; virtual keys are never output."
  },
  {
   "property": "C06",
   "status": "proved",
   "theorems": [
    "KM.C06_held_once",
    "KM.C06_reported_once"
   ],
   "note": "All contexts, all histories."
  },
  {
   "property": "C07",
   "status": "proved",
   "theorems": [
    "KM.C07_exit_recognised",
    "KM.C07_exit_only_then"
   ],
   "note": "At the level of a stage."
  },
  {
   "property": "C08",
   "status": "proved",
   "theorems": [
    "KM.C08_first_mapping_decides"
   ],
   "note": "Any state reached by a valid history; matching of a single expression is the subject of C14-C18."
  },
  {
   "property": "C09",
   "status": "proved",
   "theorems": [
    "KM.C09_last_context_overrides",
    "KM.LastMapped.unique"
   ],
   "note": "Includes sorting and binary search; uniqueness of command numbers per context assumed (parser rejects duplicates)."
  },
  {
   "property": "C10",
   "status": "proved",
   "theorems": [
    "KM.C10_context_switch",
    "KM.C10_same_contexts"
   ],
   "note": "For every reachable state."
  },
  {
   "property": "C100",
   "status": "proved",
   "theorems": [
    "KM.C100_order",
    "KM.C100_complete",
    "KM.C100_given",
    "KM.C100_passed",
    "KM.C100_unmapped",
    "KM.C100_timeouts",
    "KM.C100_wheel",
    "KM.C100_wheel_counterexample"
   ],
   "note": "Without requests for the next key, the exit sequence and toggling of virtual keys, which are left out of this model; C100_timeouts includes input timeouts (when one is pending is arbitrary). C100_wheel includes the wheel, for mappings which output its release unchanged only if they output its press unchanged; without this the claim is false (C100_wheel_counterexample)."
  },
  {
   "property": "C11",
   "status": "proved",
   "theorems": [
    "KM.C11_active_contexts_valid",
    "KM.C11_active_exactly"
   ],
   "note": "Exact set while no device change/validate_state happened since the contexts were set (the server sets the contexts again after device changes)."
  },
  {
   "property": "C12",
   "status": "proved",
   "theorems": [
    "KM.C12_accepts_matching_devices",
    "KM.C12_no_device",
    "KM.C12_mapping_of_matching_device",
    "KM.C12_device_64"
   ],
   "note": "Device numbers below 64; C12_device_64 is the witness that the 65th device is not represented."
  },
  {
   "property": "C13",
   "status": "proved",
   "theorems": [
    "KM.C13_history_well_formed",
    "KM.C13_held_keys_are_kept",
    "KM.C13_cleaned_up",
    "KM.C13_wheel_counterexample"
   ],
   "note": "All histories, all usable contexts (C69_parsed shows which parsed ones are). The values of the events of a mouse wheel must fit (C69_wheel_values_counterexample); the counterexample shows that turning a wheel disables `?` mappings in later stages."
  },
  {
   "property": "C14",
   "status": "proved",
   "theorems": [
    "KM.C14_no_match_is_final",
    "KM.C14_prefixes_not_rejected"
   ],
   "note": "For expressions without the no-might-match marker; an example shows that the marker has to be excluded."
  },
  {
   "property": "C15",
   "status": "proved",
   "theorems": [
    "KM.C15_typing"
   ],
   "note": "For every interleaving of presses and releases."
  },
  {
   "property": "C16",
   "status": "proved",
   "theorems": [
    "KM.C16_chord",
    "KM.C16_any_order",
    "KM.C16_any_counterexample"
   ],
   "note": "Presses in any order, followed by releases in any order."
  },
  {
   "property": "C17",
   "status": "proved",
   "theorems": [
    "KM.C17_not_prevents_match"
   ],
   "note": ""
  },
  {
   "property": "C18",
   "status": "proved",
   "theorems": [
    "KM.C18_any_is_pressed_keyboard_key"
   ],
   "note": ""
  },
  {
   "property": "C19",
   "status": "proved",
   "theorems": [
    "KM.C19_clamped",
    "KM.C19_fits",
    "KM.C19_monotone",
    "KM.C19_sum_saturates",
    "KM.C19_sum_comm",
    "KM.C19_sum_assoc",
    "KM.C19_sum_mono"
   ],
   "note": "Clamping for durations whose milliseconds fit into int."
  },
  {
   "property": "C20",
   "status": "proved",
   "theorems": [
    "KM.C20_single_stage",
    "KM.C20_no_stage",
    "KM.C20_stages_compose",
    "KM.C20_context_change_composes"
   ],
   "note": "All configurations and events."
  },
  {
   "property": "C21",
   "status": "proved",
   "theorems": [
    "KM.C21_context_distribution",
    "KM.C21_each_context_once",
    "KM.C21_valid"
   ],
   "note": "All configurations and index lists."
  },
  {
   "property": "C22",
   "status": "proved",
   "theorems": [
    "KM.C22_no_duplicates",
    "KM.C22_set_state",
    "KM.C22_toggle_twice",
    "KM.C22_client_informed",
    "KM.C22_configuration_kept",
    "KM.C22_configuration_not_announced"
   ],
   "note": "Over all histories of the server, in which the configuration is replaced any number of times. The exception is needed (witness)."
  },
  {
   "property": "C23",
   "status": "proved",
   "theorems": [
    "KM.C23_flush_bounded"
   ],
   "note": "The flush loop is a total function; at most nine toggles per flush whatever the configuration does."
  },
  {
   "property": "C24",
   "status": "proved",
   "theorems": [
    "KM.C24_flush_order",
    "KM.C24_flush_order_virtual"
   ],
   "note": "Exact equation without virtual keys in the buffer; order and completeness also with virtual keys toggled in between. All failure points."
  },
  {
   "property": "C25",
   "status": "proved",
   "theorems": [
    "KM.C25_keys_released",
    "KM.C25_nothing_remains"
   ],
   "note": "Every state outside of flushing."
  },
  {
   "property": "C26",
   "status": "proved",
   "theorems": [
    "KM.C26_reported_and_swallowed",
    "KM.C26_others_unaffected",
    "KM.C26_wheel_reported",
    "KM.C26_one_reply_per_request"
   ],
   "note": "Every state; the count of replies over all histories of the server."
  },
  {
   "property": "C27",
   "status": "proved",
   "theorems": [
    "KM.C27_press_and_release",
    "KM.C27_press_never_sent",
    "KM.C27_turn_ignored"
   ],
   "note": "Every state between events; what reaches the device over all histories. C27_turn_ignored is the witness that a second turn is ignored while output is pending."
  },
  {
   "property": "C28",
   "status": "proved",
   "theorems": [
    "KM.C28_cancelled_by_event",
    "KM.C28_release_keeps",
    "KM.C28_answered_when_elapsed",
    "KM.C28_not_before",
    "KM.C28_none_overdue",
    "KM.C28_wakes_in_time"
   ],
   "note": "The equations C28_cancelled_by_event and C28_answered_when_elapsed are about the case that answering does not itself request a further timeout."
  },
  {
   "property": "C29",
   "status": "proved",
   "theorems": [
    "KM.C29_client_to_server",
    "KM.C29_parsed_filters",
    "KM.C29_server_to_client",
    "KM.C29_stages_determined"
   ],
   "note": "All messages between client and server, byte by byte. Filters contain a regular expression exactly when their string looks like one (as the parser ensures)."
  },
  {
   "property": "C30",
   "status": "proved",
   "theorems": [
    "KM.C30_any_chunks",
    "KM.C30_prompt",
    "KM.C30_conversation",
    "KM.C30_counterexample"
   ],
   "note": "For streams of well-formed messages. C30_counterexample: for a message which is too short for its content the boundaries do matter."
  },
  {
   "property": "C31",
   "status": "proved",
   "theorems": [
    "KM.C31_within_buffer",
    "KM.C31_wrong_size_rejected",
    "KM.C31_too_long_rejected",
    "KM.C31_short_counterexample"
   ],
   "note": "Memory accesses are tracked by a flag. A message which is too short for its content is not rejected when nothing follows it (C31_short_counterexample), so rejection is proved for what the position check can detect."
  },
  {
   "property": "C32",
   "status": "proved",
   "theorems": [
    "KM.C32_output_alphabet",
    "KM.C32_marker_once"
   ],
   "note": "for all texts, names and typers; the alphabet is the specification OutputEvent"
  },
  {
   "property": "C33",
   "status": "proved",
   "theorems": [
    "KM.C33_output_balanced",
    "KM.C33_presses_released",
    "KM.C33_releases_own",
    "KM.C33_twice_counterexample"
   ],
   "note": "prefix counts for all texts; each press is released or the expression is a chord; A{A} shows that strict alternation is false"
  },
  {
   "property": "C34",
   "status": "proved",
   "theorems": [
    "KM.C34_input_well_formed",
    "KM.C34_presses_released",
    "KM.C34_context_active_alone",
    "KM.C34_names",
    "KM.C34_flag_alone",
    "KM.C34_flag_alone_counterexample",
    "KM.C34_release_without_press",
    "KM.C34_typed_in_group"
   ],
   "note": "for all texts, names (none of which denotes a timeout, proved for the real names) and typers; the last four are disagreements: ? ContextActive becomes an expression without key, on which an assertion of the runtime fails"
  },
  {
   "property": "C35",
   "status": "proved",
   "theorems": [
    "KM.C35_no_logical_keys",
    "KM.C35_all_combinations",
    "KM.C35_alternatives",
    "KM.C35_applies"
   ],
   "note": "For all texts; at most 256 terminal commands (C38_limit_counterexample). C35_all_combinations is an equivalence: exactly the combinations of alternatives are present. Outputs of commands always use the left alternative."
  },
  {
   "property": "C36",
   "status": "proved",
   "theorems": [
    "KM.C36_references",
    "KM.C36_commands_mapped",
    "KM.C36_other_system_counterexample"
   ],
   "note": "For all texts. That commands have an output is proved when no context is for another system; the counterexample shows that this is necessary."
  },
  {
   "property": "C37",
   "status": "proved",
   "theorems": [
    "KM.C37_last_stops",
    "KM.C37_falls_to"
   ],
   "note": "For all texts, and the stages which the server makes of the contexts."
  },
  {
   "property": "C38",
   "status": "proved",
   "theorems": [
    "KM.C38_expression",
    "KM.C38_commands_identified",
    "KM.C38_limit_counterexample"
   ],
   "note": "For all texts, up to 256 terminal commands; the counterexample shows that 257 are accepted and the last one presses Shift instead."
  },
  {
   "property": "C39",
   "status": "proved",
   "theorems": [
    "KM.C39_name_round_trip",
    "KM.C39_names_unique",
    "KM.C39_virtual_keys",
    "KM.C39_decimal_code",
    "KM.C39_hexadecimal_code",
    "KM.C39_parsed_is_name"
   ],
   "note": "Over the whole key table, all virtual keys and all scan codes."
  },
  {
   "property": "C40",
   "status": "proved",
   "theorems": [
    "KM.C40_reply",
    "KM.C40_unknown",
    "KM.C40_in_bounds",
    "KM.C40_last_key_counterexample"
   ],
   "note": "All histories, keys up to Virtual254; the counterexample shows the access outside of the table for Virtual255."
  },
  {
   "property": "C41",
   "status": "proved",
   "theorems": [
    "KM.C41_released",
    "KM.C41_no_logical_keys",
    "KM.C41_completes",
    "KM.C41_not_counterexample",
    "KM.C41_alt_counterexample"
   ],
   "note": "All texts without `!key` and `Alt`; the counterexamples show these are needed."
  },
  {
   "property": "C42",
   "status": "proved",
   "theorems": [
    "KM.C42_last_filter_decides",
    "KM.C42_default"
   ],
   "note": "Regular expression search is a parameter."
  },
  {
   "property": "C43",
   "status": "proved",
   "theorems": [
    "KM.C43_less_than_a_step",
    "KM.C43_distance_conserved"
   ],
   "note": "Per device for the difference, over all devices for the total. All histories."
  },
  {
   "property": "C44",
   "status": "proved",
   "theorems": [
    "KM.C44_alternates",
    "KM.C44_reported"
   ],
   "note": "All histories, all virtual devices."
  },
  {
   "property": "C45",
   "status": "proved",
   "theorems": [
    "KM.C45_code"
   ],
   "note": "All characters."
  },
  {
   "property": "C46",
   "status": "proved",
   "theorems": [
    "KM.C46_keeps",
    "KM.C46_valid",
    "KM.C46_reload",
    "KM.C46_set_config"
   ],
   "note": "All histories; the file system may change arbitrarily between operations. C46_keeps excludes switching to another file (covered by C46_set_config)."
  },
  {
   "property": "C47",
   "status": "proved",
   "theorems": [
    "KM.C47_replaced",
    "KM.C47_stays_open"
   ],
   "note": "All histories."
  },
  {
   "property": "C48",
   "status": "proved",
   "theorems": [
    "KM.C48_repeats"
   ],
   "note": "For keys not mentioned by the activated contexts."
  },
  {
   "property": "C49",
   "status": "proved",
   "theorems": [
    "KM.C49_pressed_is_held",
    "KM.C49_pressed_iff_held",
    "KM.C49_lost_press_counterexample",
    "KM.C49_wheel_counterexample"
   ],
   "note": "Pressed implies held for all configurations, when releases carry no value (only mouse wheels do). The converse for configurations without output on release. Both restrictions of the property are needed: witnesses of lost presses."
  },
  {
   "property": "C50",
   "status": "proved",
   "theorems": [
    "KM.C50_activation_output_of_active_context"
   ],
   "note": "All histories of key presses and releases (no input of the pseudo keys Any and ContextActive)."
  },
  {
   "property": "C51",
   "status": "proved",
   "theorems": [
    "KM.C51_attributed_to_held_key",
    "KM.C51_all_released"
   ],
   "note": "All histories of key presses and releases (no valued releases, no input of the pseudo keys Any and ContextActive)."
  },
  {
   "property": "C52",
   "status": "proved",
   "theorems": [
    "KM.C52_press_outputs_first_part",
    "KM.C52_release_outputs_all",
    "KM.C52_release_continues",
    "KM.C52_repeat_ignored",
    "KM.C52_cancelled_by_context_switch"
   ],
   "note": "For every state. C52_release_continues for a single pending output of a key; that there can be two is the counterexample of C49."
  },
  {
   "property": "C53",
   "status": "proved",
   "theorems": [
    "KM.C53_held_key_in_chord",
    "KM.C53_released_key_in_chord",
    "KM.C53_released_key_in_chord'",
    "KM.C53_released_key_missing"
   ],
   "note": "For all pairs of different keys."
  },
  {
   "property": "C54",
   "status": "proved",
   "theorems": [
    "KM.C54_modifier_filter",
    "KM.C54_inverted_counterexample"
   ],
   "note": "For filters which are not inverted as a whole, any nesting of logical keys; for inverted ones it is false (counterexample on a parsed configuration)."
  },
  {
   "property": "C55",
   "status": "proved",
   "theorems": [
    "KM.C55_not_grabbed",
    "KM.C55_own_names",
    "KM.C55_long_name_counterexample"
   ],
   "note": "The counterexample: names of more than 68 characters."
  },
  {
   "property": "C56",
   "status": "proved",
   "theorems": [
    "KM.C56_default",
    "KM.C56_update",
    "KM.C56_grabbed_once",
    "KM.C56_forwarded_with"
   ],
   "note": "What the kernel reports about the devices is a parameter; event ids of the files are distinct."
  },
  {
   "property": "C57",
   "status": "proved",
   "theorems": [
    "KM.C57_range",
    "KM.C57_announced",
    "KM.C57_forward_counterexample"
   ],
   "note": "For devices without forward device; false for the others (counterexample). Integers are unbounded (the code overflows for ranges above 2 million)."
  },
  {
   "property": "C58",
   "status": "proved",
   "theorems": [
    "KM.C58_keys_follow",
    "KM.C58_buttons_follow",
    "KM.C58_button_counterexample"
   ],
   "note": "Keys: all histories. Mouse buttons: while one mouse is used and no device changes; false otherwise (counterexample)."
  },
  {
   "property": "C59",
   "status": "proved",
   "theorems": [
    "KM.C59_wheel_reproduced",
    "KM.C59_steps_converted",
    "KM.C59_keys_reproduced",
    "KM.C59_large_counterexample"
   ],
   "note": "Every state of the virtual devices; up to 4095 units. Keys: everything a keyboard can report."
  },
  {
   "property": "C60",
   "status": "proved",
   "theorems": [
    "KM.C60_follows_focus",
    "KM.C60_inactive",
    "KM.C60_in_range",
    "KM.C60_switch_counterexample"
   ],
   "note": "All histories in which no switch back to a recently used file fails to read it; the counterexample shows that this is necessary."
  },
  {
   "property": "C61",
   "status": "proved",
   "theorems": [
    "KM.C61_executed",
    "KM.C61_only_then",
    "KM.C60_switch_counterexample"
   ],
   "note": "Same hypothesis as C60."
  },
  {
   "property": "C62",
   "status": "proved",
   "theorems": [
    "KM.C62_detected",
    "KM.C62_idle",
    "KM.C62_older_counterexample",
    "KM.C62_invalid_counterexample"
   ],
   "note": "Every file system; the counterexamples show which modifications are not detected."
  },
  {
   "property": "C63",
   "status": "proved",
   "theorems": [
    "KM.C63_notified",
    "KM.C63_other_keys",
    "KM.C63_only_once"
   ],
   "note": "All histories."
  },
  {
   "property": "C64",
   "status": "proved",
   "theorems": [
    "KM.C64_replied",
    "KM.C64_shown",
    "KM.C64_asked"
   ],
   "note": "All histories."
  },
  {
   "property": "C65",
   "status": "proved",
   "theorems": [
    "KM.C65_is_pressed",
    "KM.C65_not_found",
    "KM.C65_press",
    "KM.C65_inject",
    "KM.C65_set_config",
    "KM.C65_connection_failed",
    "KM.C65_timeout",
    "KM.C65_wait_already",
    "KM.C65_wait",
    "KM.C65_waited",
    "KM.C65_wait_unknown_counterexample",
    "KM.C65_wait_race_counterexample",
    "KM.C65_late_reply_counterexample",
    "KM.C65_last_reply"
   ],
   "note": "All interleavings, when nothing of an earlier request is outstanding (which each answered request restores); the counterexamples show what is excluded."
  },
  {
   "property": "C66",
   "status": "proved",
   "theorems": [
    "KM.C66_generic_typer",
    "KM.C66_string",
    "KM.C66_injected",
    "KM.C66_types_text",
    "KM.C66_quote_counterexample"
   ],
   "note": "All strings. The typer with the US layout; what other layouts type is a parameter."
  },
  {
   "property": "C67",
   "status": "proved",
   "theorems": [
    "KM.C67_options",
    "KM.C67_rejected",
    "KM.C67_timeout_counterexample"
   ],
   "note": "All command lines made of options."
  },
  {
   "property": "C68",
   "status": "proved",
   "theorems": [
    "KM.C68_delay_kept",
    "KM.C68_sent"
   ],
   "note": "All histories. When the delay begins is C24_flush_order_virtual."
  },
  {
   "property": "C69",
   "status": "proved",
   "theorems": [
    "KM.C69_stage",
    "KM.C69_stages",
    "KM.C69_parsed",
    "KM.C69_wheel_values_counterexample",
    "KM.C69_contextActive_counterexample",
    "KM.C34_flag_alone_counterexample"
   ],
   "note": "All histories, any number of stages, all accepted texts except the ones excluded by the hypotheses, each of which is shown to be needed by a counterexample (C38_limit_counterexample for the number of commands, C12_device_64 for the devices)."
  },
  {
   "property": "C70",
   "status": "proved",
   "theorems": [
    "KM.C70_refines",
    "KM.C70_exchange"
   ],
   "note": "Full refinement of a small specification (Spec/Remap). The correction of missed releases (validate) is not part of the histories."
  },
  {
   "property": "C71",
   "status": "proved",
   "theorems": [
    "KM.C71_output",
    "KM.C71_held_counterexample"
   ],
   "note": "All trees and texts. The counterexample shows why no key may be pressed while it is held: `A{B{A} C}` also holds B while C is pressed."
  },
  {
   "property": "C72",
   "status": "proved",
   "theorems": [
    "KM.C72_input"
   ],
   "note": "All trees and texts."
  },
  {
   "property": "C73",
   "status": "proved",
   "theorems": [
    "KM.C73_line",
    "KM.C73_lines",
    "KM.C73_definition",
    "KM.C73_comment_counterexample",
    "KM.C73_definition_counterexample",
    "KM.C73_strings_counterexample"
   ],
   "note": "Replacing is specified by a relation on tokens (Spec/Macros: Expand, Builtin for the builtin macros). The counterexamples show why quotes have to match behind a macro with arguments even in comments, that a macro which only works with arguments cannot be the first word of another definition, and that two strings may not be next to each other."
  },
  {
   "property": "C74",
   "status": "proved",
   "theorems": [
    "KM.C74_configuration",
    "KM.C74_unmapped",
    "KM.C74_comment_counterexample",
    "KM.C74_delay_counterexample",
    "KM.C74_arrow_counterexample",
    "KM.C74_backslash_counterexample"
   ],
   "note": "The meaning of the lines is given by Spec/Document (Doc.step, Doc.result), their texts by Doc.Line on top of the grammars of C71-C73. Not covered: @compose-key, and the use of logical keys and @forward-modifiers in the contexts (C76). The counterexamples show that a comment between two begins of contexts separates them, that a delay cannot be the only output that >> cannot be used in a string of an input, and that a last line which ends with a backslash is silently ignored."
  },
  {
   "property": "C75",
   "status": "proved",
   "theorems": [
    "KM.C75_pipeline",
    "KM.C75_exchange"
   ],
   "note": "Composes C30 (protocol), C46 (client), C70 (stage), C74 (parser) and the main loop of the server (Lemmas/ServerForward). Everything sent on the virtual device succeeds (sendResults = []). Configurations with more than one stage, device filters, and outputs with virtual keys, delays or terminal commands are not covered by this theorem."
  },
  {
   "property": "C76",
   "status": "proved",
   "theorems": [
    "KM.C76_contexts",
    "KM.C76_logical",
    "KM.C76_inverted_modifier_counterexample"
   ],
   "note": "The meaning is given by Spec/Logical (Doc.groups: the alternatives of mappings, Suppressed: the releases), texts by Spec/Document. Means compares the contexts of the configuration with mappings in order, with the number of each output resolved. The counterexample shows that [modifier != \"Shift\"] is active while one of both keys is held."
  },
  {
   "property": "C77",
   "status": "proved",
   "theorems": [
    "KM.C77_order",
    "KM.C77_exit_code",
    "KM.C77_stdout",
    "KM.C77_restart",
    "KM.C77_ends",
    "KM.C77_once",
    "KM.C77_only_wait_counterexample"
   ],
   "note": "Timeouts for connecting are not modelled. The counterexample shows that a command line without a request to the client ends with the code for a failed connection, although it is connected."
  },
  {
   "property": "C78",
   "status": "proved",
   "theorems": [
    "KM.C78_nothing_lost",
    "KM.C78_flushed",
    "KM.C78_virtual_key_counterexample"
   ],
   "note": "TypedOn excludes key repeats and releases of keys which are not held (C05, C48 for those). Mappings with timeouts are not covered. The counterexample shows that toggling a virtual key by keymapperctl while a press is held back loses the press."
  },
  {
   "property": "C79",
   "status": "proved",
   "theorems": [
    "KM.C79_words_are_replaced",
    "KM.C79_any_order",
    "KM.C79_tapped"
   ],
   "note": "Refinement of a small specification (Spec/Abbreviations), event by event, for keys typed one after the other and keys pressed together. Words and chords which begin with the ones of a mapping in front, or the other way round, are left out (the statement says so): the mapping in front wins. The second theorem spells out that a chord is replaced in whatever order its keys are pressed, the third that its keys can still be tapped on their own. What is begun but not completed is covered when an unmentioned key is pressed next, and for chords when one of the keys is released; and while keys of an abandoned sequence are still held, only keys which no mapping mentions are covered."
  },
  {
   "property": "C80",
   "status": "proved",
   "theorems": [
    "KM.C80_held_and_tapped",
    "KM.C80_two_functions",
    "KM.C80_repeats",
    "KM.C80_two_held_counterexample"
   ],
   "note": "Refinement of a small state machine (Spec/Timed), event by event; the second theorem spells out a key with two functions. C80_repeats is about the repeats of a key which is held alone, the first mapping of which requires a time (and none a tap). C80_two_held_counterexample shows that the restriction of the statement is necessary: with two timed keys held, the hold mapping of a key which was already output as it is gets triggered by the time which passed for the other one."
  },
  {
   "property": "C81",
   "status": "proved",
   "theorems": [
    "KM.C81_measures_time"
   ],
   "note": "The output of the stage with a clock is specified by Spec/Clock for anything with states and outputs. Everything sent on the virtual device succeeds. Time stands still while an event is processed. The assumption Timely says that the clock does not run backwards, that the server is woken up within 2^31 ms after a request, and that requests are of at most 4095 ms. Configurations with more than one stage, device filters, and outputs with virtual keys, delays or terminal commands are not covered."
  },
  {
   "property": "C82",
   "status": "proved",
   "theorems": [
    "KM.C82_by_the_clock",
    "KM.C82_two_functions"
   ],
   "note": "Composes C81 with C80: the clock of Spec/Clock around the state machine of Spec/Timed. The second theorem spells out a key with two functions in terms of the times at which keys are pressed and released. Repeats of a key after it was decided what it means are not covered."
  },
  {
   "property": "C83",
   "status": "proved",
   "theorems": [
    "KM.C83_refines",
    "KM.C83_forwarded_keys",
    "KM.C83_shortcut",
    "KM.C83_lift_all",
    "KM.C83_on_release",
    "KM.C83_on_release_contexts"
   ],
   "note": "Refinement of a small specification (Spec/Combinations), event by event. The first theorem is for histories in which no key has to wait; the second gives a condition on the configuration (met by what @forward-modifiers adds) which rules waiting out; the others spell out what a shortcut does with its modifiers, and with all keys held (!Any), and when the parts of an output before and after ^ are typed."
  },
  {
   "property": "C84",
   "status": "proved",
   "theorems": [
    "KM.C84_sent",
    "KM.C84_send_fails_only",
    "KM.C84_delivered",
    "KM.C84_conversation",
    "KM.C84_returns",
    "KM.C84_close_counterexample"
   ],
   "note": "All results of the calls of send and recv. The counterexample shows that a message is lost when the connection is closed right behind it."
  },
  {
   "property": "C85",
   "status": "proved",
   "theorems": [
    "KM.C85_wlroots",
    "KM.C85_dbus",
    "KM.C85_x11",
    "KM.C85_x11_quiet",
    "KM.C85_x11_idle",
    "KM.C85_no_silent_change",
    "KM.C85_contexts",
    "KM.C85_reused_address_counterexample",
    "KM.C85_fullscreen_counterexample",
    "KM.C85_class_counterexample",
    "KM.C85_mixed_counterexample"
   ],
   "note": "wlroots for all possible changes of the windows (an address is not reused while its window is the focused one), D-Bus and X11 for all sequences of what they tell; C85_contexts is for wlroots with a client which is not made inactive."
  },
  {
   "property": "C86",
   "status": "proved",
   "theorems": [
    "KM.C86_arguments",
    "KM.C86_options",
    "KM.C86_config_file",
    "KM.C86_config_dir",
    "KM.C86_history",
    "KM.C86_invalid_arguments",
    "KM.C86_check",
    "KM.C86_start",
    "KM.C86_exit",
    "KM.C86_options_in_effect",
    "KM.C86_auto_update",
    "KM.C86_no_notify_counterexample",
    "KM.C86_set_config_counterexample",
    "KM.C86_active_item_counterexample",
    "KM.C86_reload_item_counterexample"
   ],
   "note": "For every behaviour of the system: sessions with any number of passes, messages, control messages, menu items and losses of the connection. The options of the configuration are in effect unless it was set by keymapperctl (counterexample)."
  },
  {
   "property": "C87",
   "status": "proved",
   "theorems": [
    "KM.C87_shown",
    "KM.C87_key",
    "KM.C87_context",
    "KM.C87_title_counterexample",
    "KM.C87_client_counterexample",
    "KM.C87_quote_counterexample",
    "KM.C87_backslash_counterexample"
   ],
   "note": "C87_shown is for messages without $, backtick and with each backslash followed by an ordinary character (the counterexamples show that these matter); C87_context for texts without single quotes which do not look like a regular expression."
  },
  {
   "property": "C88",
   "status": "proved",
   "theorems": [
    "KM.C88_types",
    "KM.C88_complete",
    "KM.C88_compose",
    "KM.C88_text",
    "KM.C88_x11_types",
    "KM.C88_x11_complete",
    "KM.C88_locale",
    "KM.C88_names",
    "KM.C88_names_known",
    "KM.C88_ro_counterexample",
    "KM.C88_layout_counterexample",
    "KM.C88_modifier_counterexample",
    "KM.C88_last_counterexample",
    "KM.C88_compose_counterexample",
    "KM.C88_locale_counterexample"
   ],
   "note": "For all keymaps and compose tables. C88_types and C88_text are for keymaps with one layout, the levels of which are selected by Shift, Alt and AltGr (the counterexamples show that both matter)."
  },
  {
   "property": "C89",
   "status": "proved",
   "theorems": [
    "KM.C89_forward",
    "KM.C89_forward_keys",
    "KM.C89_forward_identity",
    "KM.C89_named",
    "KM.C89_forwarded",
    "KM.C89_sent",
    "KM.C89_keyboard_grabbed",
    "KM.C89_button_counterexample",
    "KM.C89_wheel_counterexample",
    "KM.C89_keyboard_counterexample",
    "KM.C89_key_counterexample"
   ],
   "note": "For all devices and states of the virtual devices. C89_sent needs that the last used mouse has the button or wheel, C89_forwarded that a device without a forward device sends only keys, the wheel and the axes for volume and miscellaneous things; the counterexamples show what happens otherwise."
  },
  {
   "property": "C90",
   "status": "proved",
   "theorems": [
    "KM.C90_same_version",
    "KM.C90_accepted",
    "KM.C90_one",
    "KM.C90_messages",
    "KM.C90_mismatch",
    "KM.C90_mismatch_ends",
    "KM.C90_connects",
    "KM.C90_silent_counterexample"
   ],
   "note": "For all interleavings of the calls of the server and any number of programs, with calls which block, transmit only a part, or fail because the other side closed the connection. The hashes of versions are arbitrary bytes."
  },
  {
   "property": "C91",
   "status": "proved",
   "theorems": [
    "KM.C91_excluded",
    "KM.C91_switching_is_silent",
    "KM.C91_output_is_input",
    "KM.C91_noMight_counterexample",
    "KM.C91_release_counterexample",
    "KM.C91_button_counterexample"
   ],
   "note": "For a stage (a configuration without further [stage]s). The window of the application gets the focus while nothing is held; mappings with ?, ContextActive, Any in a group, or the release of a key they do not press are excluded from the configuration, and counterexamples show that the first and last of these restrictions are needed. An excluded press loses its value (0 for keys)."
  },
  {
   "property": "C92",
   "status": "proved",
   "theorems": [
    "KM.C92_virtual_keys",
    "KM.C92_layers",
    "KM.C92_two_layers",
    "KM.C92_shortcuts",
    "KM.C92_virtual_modifier",
    "KM.C92_order_counterexample"
   ],
   "note": "Configurations of one stage without device filters. The outputs contain no delays and do not scroll, at most nine virtual keys are toggled by one output (the server ignores further ones), mappings of virtual keys do not output virtual keys, and the outputs either never release a virtual key, or always right after it was pressed (C92_shortcuts); all of this is part of the hypothesis DescribesAll, which C92_layers and C92_shortcuts derive from the form of the mappings (C92_shortcuts for configurations which begin with mappings for the other keys which have to be held, as forwarded modifiers do). The exit sequence is not typed, and everything can be sent."
  },
  {
   "property": "C93",
   "status": "proved",
   "theorems": [
    "KM.C93_client_knows",
    "KM.C93_switched",
    "KM.C93_released",
    "KM.C93_held",
    "KM.C93_momentary",
    "KM.C93_off",
    "KM.C93_on",
    "KM.C93_not_counterexample",
    "KM.C93_release_counterexample"
   ],
   "note": "Configurations and histories as in C92_shortcuts. Each virtual key is either never released by the outputs, or always right after it was pressed (a counterexample shows what happens when outputs do both); the key which triggers the output was not held before."
  },
  {
   "property": "C94",
   "status": "proved",
   "theorems": [
    "KM.C94_devices",
    "KM.C94_as_configured",
    "KM.C94_serves",
    "KM.C94_keeps_serving",
    "KM.C94_history",
    "KM.C94_ends",
    "KM.C94_ends_only_then",
    "KM.C94_exit_code",
    "KM.C94_fails",
    "KM.C94_leftover_counterexample",
    "KM.C94_request_counterexample"
   ],
   "note": "The environment (clients, devices, signals, results of system calls) is an arbitrary argument. When reading from a client fails then it delivered no message before in the same call (which holds as long as its messages are well-formed), and its configurations have a stage. C94_keeps_serving requires that each client sends one configuration to begin with (with two different ones read at once, it is dropped in its first pass without a need). Signals are only handled while a client is served (otherwise they end the process as usual). That exitRequested is recorded by the server state is the call of on_exit_requested. Two counterexamples show what is carried over from one client to the next: output which was still to be sent, and a request for the next key."
  },
  {
   "property": "C95",
   "status": "proved",
   "theorems": [
    "KM.C95_pipeline",
    "KM.C95_exchange",
    "KM.C95_file"
   ],
   "note": "The stages of the configuration are those of C29 (StagesOf, which determines them). The specification runs every stage alone on what the one in front of it outputs. The stages only output keys: other events (virtual keys, timeouts, actions) are not input to the next stage but handed on, see C20. No device filters; sending always succeeds; the exit sequence is not typed. In C95_exchange the contexts of all stages match the focused window; C95_file starts with the text of the configuration file (lines A >> B, comments, empty lines and [stage])."
  },
  {
   "property": "C96",
   "status": "proved",
   "theorems": [
    "KM.C96_follow",
    "KM.C96_replace",
    "KM.C96_last"
   ],
   "note": "The client looks for the focused window, is paused and resumed; it does not reload the configuration in between (that is C60). The contexts which match a window are those of C60 (AreMatching). The first messages (at least the configuration) arrive before the server reads keys, the others in any iterations of its loop; iterations which end early (an error while reading) carry none. Restrictions of the stages as for C95; C96_replace is for a single stage, with the specification of C70."
  },
  {
   "property": "C97",
   "status": "proved",
   "theorems": [
    "KM.C97_reload",
    "KM.C97_history",
    "KM.C97_connection",
    "KM.C97_nothing_held"
   ],
   "note": "C97_reload: one modification, from the file; C97_history: any number of modifications (also to files which cannot be read, which change nothing), of reloads by the user (which send a configuration in any case, when the file cannot be read the old one), of changes of the focused window, of pauses and resumptions, in any order, from the client to the virtual device (another file set by keymapperctl is not part of these histories); C97_connection: any number of configurations and changes of the active contexts, in any iterations of the loop. Restrictions of the stages as for C95. The new configuration is to make the server not grab the devices anew (unix/main.cpp:39-63: the same filters of devices to grab, and mice are mapped by both or by none), otherwise the loop ends and begins again with other devices (Iteration.regrab). That no key remains held down is, as in C03, for keys which no output of the last stage releases without having pressed them."
  },
  {
   "property": "C98",
   "status": "proved",
   "theorems": [
    "KM.C98_unmapped",
    "KM.C98_history",
    "KM.C98_stages",
    "KM.C98_reload"
   ],
   "note": "C98_unmapped: from the client to the virtual device; C98_history: the same also while the file is modified and reloaded; C98_stages, C98_reload: any number of stages, any history. The typed keys come from one device (the repetition of a key by another device than the one used last may be ignored, C05), and the contexts have no device filters."
  },
  {
   "property": "C99",
   "status": "proved",
   "theorems": [
    "KM.C99_characters",
    "KM.C99_typed",
    "KM.C99_buttons",
    "KM.C99_mouse",
    "KM.C99_keys"
   ],
   "note": "For the hooks of the system and SendInput; the Interception driver is not modelled. The distance of the wheel has to be nonzero and to fit in 12 bits (see the disagreements). C99_typed is about the keys which the client adds for a text, pressed and released one after the other."
  }
 ]
}