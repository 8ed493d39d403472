{"claims": [
  {"property": "C01", "status": "proved", "theorems": ["Verif.C01_ids_increase", "Verif.C01_ids_unique"], "note": ""},
  {"property": "C02", "status": "proved", "theorems": ["Verif.C02_causation"], "note": ""},
  {"property": "C03", "status": "proved", "theorems": ["Verif.C03_conversation", "Verif.C03_correlation"], "note": ""},
  {"property": "C04", "status": "proved", "theorems": ["Verif.C04_time_and_origin"], "note": ""},
  {"property": "C05", "status": "proved", "theorems": ["Verif.C05_complete", "Verif.C05_prefix"], "note": ""},
  {"property": "C06", "status": "proved", "theorems": ["Verif.C06_once", "Verif.C06_distinct"], "note": ""},
  {"property": "C07", "status": "proved", "theorems": ["Verif.C07_offers", "Verif.C07_panic"], "note": ""},
  {"property": "C08", "status": "proved", "theorems": ["Verif.C08_timeout_origin"], "note": ""},
  {"property": "C09", "status": "proved", "theorems": ["Verif.C09_declared_and_valid", "Verif.C09_rejected_aggregate", "Verif.C09_rejected_integration", "Verif.C09_rejected_process"], "note": ""},
  {"property": "C10", "status": "proved", "theorems": ["Verif.C10_errors"], "note": ""},
  {"property": "C11", "status": "proved", "theorems": ["Verif.C11_result", "Verif.C11_stops", "Verif.C11_tick", "Verif.C11_tick_phase"], "note": ""},
  {"property": "C12", "status": "proved", "theorems": ["Verif.C12_closed", "Verif.C12_always"], "note": ""},
  {"property": "C13", "status": "proved", "theorems": ["Verif.C13_rejected", "Verif.C13_accepted"], "note": ""},
  {"property": "C14", "status": "proved", "theorems": ["Verif.C14_concluded", "Verif.C14_facts", "Verif.C14_offered", "Verif.C14_announced", "Verif.C14_ticked"], "note": ""},
  {"property": "C15", "status": "proved", "theorems": ["Verif.C15_inert"], "note": ""},
  {"property": "C16", "status": "proved", "theorems": ["Verif.C16_panic_commits_nothing"], "note": "State and later operations; release of the engine's mutexes by defer is treated with the concurrency properties."},
  {"property": "C17", "status": "proved", "theorems": ["Verif.C17_handling", "Verif.C17_operation"], "note": ""},
  {"property": "C18", "status": "partial", "theorems": ["Verif.C18_reset", "Verif.C18_like_new_partial", "Verif.C18_like_new_but_clocks", "Verif.C18_fails"], "note": "C18_reset is unconditional; likeness to a new engine is proved when no tick has compacted a projection; C18_fails proves the full claim false."},
  {"property": "C19", "status": "proved", "theorems": ["Verif.C19_options", "Verif.C19_time", "Verif.C19_unknown"], "note": ""},
  {"property": "C20", "status": "proved", "theorems": ["Verif.C20_same_facts"], "note": ""},
  {"property": "C21", "status": "proved", "theorems": ["Verif.C21_history", "Verif.C21_since_destroyed"], "note": ""},
  {"property": "C22", "status": "proved", "theorems": ["Verif.C22_replay", "Verif.C22_replay_pure"], "note": ""},
  {"property": "C23", "status": "proved", "theorems": ["Verif.C23_truth", "Verif.C23_reported"], "note": ""},
  {"property": "C24", "status": "proved", "theorems": ["Verif.C24_starts_over", "Verif.C24_deleted", "Verif.C24_dispatched"], "note": ""},
  {"property": "C25", "status": "proved", "theorems": ["Verif.C25_alternation", "Verif.C25_outcome"], "note": ""},
  {"property": "C26", "status": "partial", "theorems": ["Verif.C26_kept_partial", "Verif.C26_reverted_false", "Verif.C26_changed_false"], "note": "Proved for handlings without a reverted destruction, of handlers that change their roots by recording events only; C26_reverted_false and C26_changed_false prove the general claim false for each of the other two."},
  {"property": "C27", "status": "proved", "theorems": ["Verif.C27_aggregate_empty_id", "Verif.C27_aggregate_nil_root", "Verif.C27_process_empty_id", "Verif.C27_process_nil_root"], "note": ""},
  {"property": "C28", "status": "proved", "theorems": ["Verif.C28_exists", "Verif.C28_truth", "Verif.C28_reported"], "note": ""},
  {"property": "C29", "status": "proved", "theorems": ["Verif.C29_pending", "Verif.C29_pending_iff"], "note": ""},
  {"property": "C30", "status": "proved", "theorems": ["Verif.C30_no_early_timeout"], "note": ""},
  {"property": "C31", "status": "proved", "theorems": ["Verif.C31_none_left"], "note": ""},
  {"property": "C32", "status": "proved", "theorems": ["Verif.C32_chronological"], "note": ""},
  {"property": "C33", "status": "proved", "theorems": ["Verif.C33_commands", "Verif.C33_dropped", "Verif.C33_none_pending"], "note": ""},
  {"property": "C34", "status": "partial", "theorems": ["Verif.C34_partial", "Verif.C34_fails"], "note": "C34_partial proved; C34_fails proves the full claim false with a concrete run."},
  {"property": "C35", "status": "proved", "theorems": ["Verif.C35_alternation", "Verif.C35_survives"], "note": ""},
  {"property": "C36", "status": "proved", "theorems": ["Verif.C36_dropped", "Verif.C36_state"], "note": ""},
  {"property": "C37", "status": "proved", "theorems": ["Verif.C37_immediate"], "note": ""},
  {"property": "C38", "status": "proved", "theorems": ["Verif.C38_dispatched"], "note": ""},
  {"property": "C39", "status": "proved", "theorems": ["Verif.C39_protocol", "Verif.C39_no_messages"], "note": ""},
  {"property": "C40", "status": "proved", "theorems": ["Verif.C40_iff_due", "Verif.C40_apart"], "note": ""},
  {"property": "C41", "status": "proved", "theorems": ["Verif.C41_bracketed"], "note": ""},
  {"property": "C42", "status": "proved", "theorems": ["Verif.C42_version_error", "Verif.C42_precedence"], "note": ""},
  {"property": "C43", "status": "proved", "theorems": ["Verif.C43_surfaced", "Verif.C43_never_raw", "Verif.C43_operation"], "note": ""},
  {"property": "C44", "status": "proved", "theorems": ["Verif.C44_message", "Verif.C44_expect"], "note": ""},
  {"property": "C45", "status": "proved", "theorems": ["Verif.C45_type"], "note": ""},
  {"property": "C46", "status": "proved", "theorems": ["Verif.C46_matching", "Verif.C46_pure"], "note": ""},
  {"property": "C47", "status": "proved", "theorems": ["Verif.C47_only_matching", "Verif.C47_pure"], "note": ""},
  {"property": "C48", "status": "proved", "theorems": ["Verif.C48_composite", "Verif.C48_tree", "Verif.C48_list"], "note": ""},
  {"property": "C49", "status": "proved", "theorems": ["Verif.C49_laws"], "note": ""},
  {"property": "C50", "status": "proved", "theorems": ["Verif.C50_verdict", "Verif.C50_factory_calls", "Verif.C50_report"], "note": ""},
  {"property": "C51", "status": "partial", "theorems": ["Verif.C51_verdict", "Verif.C51_abort", "Verif.C51_panic_partial", "Verif.C51_out", "Verif.C51_panic_fails"], "note": "C51_verdict and C51_abort hold for all functions (C51_abort for direct calls). The panic clause is proved only when no cleanup function panics or aborts; C51_panic_fails proves it false otherwise."},
  {"property": "C52", "status": "partial", "theorems": ["Verif.C52_cleanups_partial", "Verif.C52_effects_partial", "Verif.C52_fails", "Verif.C52_nested_fails"], "note": "Covers cleanups registered by the function itself: they run once each in reverse order, all of them if none panics or aborts. C52_fails and C52_nested_fails prove the full claim false."},
  {"property": "C53", "status": "proved", "theorems": ["Verif.C53_report", "Verif.C53_children"], "note": ""},
  {"property": "C54", "status": "partial", "theorems": ["Verif.C54_impossible_partial", "Verif.C54_only_fails"], "note": "Proved for every message expectation except the ToOnly... forms; C54_only_fails proves the claim false for those."},
  {"property": "C55", "status": "proved", "theorems": ["Verif.C55_counts", "Verif.C55_only_report"], "note": ""},
  {"property": "C56", "status": "proved", "theorems": ["Verif.C56_forwards", "Verif.C56_only_advance", "Verif.C56_past", "Verif.C56_advance"], "note": ""},
  {"property": "C57", "status": "proved", "theorems": ["Verif.C57_protocol", "Verif.C57_outcome"], "note": ""},
  {"property": "C58", "status": "partial", "theorems": ["Verif.C58_own_partial", "Verif.C58_others", "Verif.C58_verdict", "Verif.C58_nested_fails"], "note": "C58_others holds for all actions. That the predicate sees all facts of its own action is proved for actions that perform no nested Prepare(); C58_nested_fails proves it false otherwise. C58_verdict connects this with the meaning of the built-in expectations."},
  {"property": "C59", "status": "proved", "theorems": ["Verif.C59_defaults", "Verif.C59_panics"], "note": ""},
  {"property": "C60", "status": "proved", "theorems": ["Verif.C60_like"], "note": ""},
  {"property": "C61", "status": "partial", "theorems": ["Verif.C61_outside", "Verif.C61_during_partial", "Verif.C61_nested_fails"], "note": "C61_outside covers all histories of a test. That the executor stays usable during Call() is proved for functions that perform no nested Call(); C61_nested_fails proves it false otherwise."},
  {"property": "C62", "status": "proved", "theorems": ["Verif.C62_intercepts", "Verif.C62_restored", "Verif.C62_replaces"], "note": ""},
  {"property": "C63", "status": "partial", "theorems": ["Verif.C63_partial", "Verif.C63_fails", "Verif.C63_bounds", "Verif.C63_still"], "note": "Proved for actions whose functions perform no nested AdvanceTime() (AdvanceTime itself: C56_advance) and for all actions that leave the clock where it was (C63_still). For all actions C63_bounds: engine times lie between the clock when the action began and the clock at the operation, ticks exactly at the latter. C63_fails proves the full claim false for a nested AdvanceTime(), which leaves the bound executor at the old time."},
  {"property": "C64", "status": "proved", "theorems": ["Verif.C64_ticks", "Verif.C64_monotonic", "Verif.C64_run", "Verif.C64_overridden"], "note": ""},
  {"property": "C65", "status": "partial", "theorems": ["Verif.Conc.C65_exclusive", "Verif.Conc.C65_serial", "Verif.Conc.C65_order", "Verif.Conc.C65_calls", "Verif.Conc.C65_progress", "Verif.Conc.C65_sequential_partial", "Verif.Conc.C65_renaming_fails"], "note": "C65_exclusive, C65_serial, C65_order, C65_calls and C65_progress hold for all interleavings: controller state is only touched under the lock and the effect is that of the critical sections in lock order. Equality with a sequential run holds up to renaming of message IDs for engines that are not reset (C65_sequential_partial; for the engine itself: C89); C65_renaming_fails shows that the renaming is needed."},
  {"property": "C66", "status": "partial", "theorems": ["Verif.Conc.C66_sequence", "Verif.Conc.C66_reset_partial", "Verif.Conc.C66_fails"], "note": "C66_sequence: in every interleaving without Reset the IDs are 1, 2, ... in the order taken. With Reset only per period between resets (C66_reset_partial); C66_fails exhibits the collision."},
  {"property": "C67", "status": "proved", "theorems": ["Verif.Inflect.C67_order"], "note": ""},
  {"property": "C68", "status": "proved", "theorems": ["Verif.C68_line", "Verif.C68_join", "Verif.C68_enabled_order", "Verif.C68_enabled_names", "Verif.C68_error", "Verif.C68_produced"], "note": ""},
  {"property": "C69", "status": "partial", "theorems": ["Verif.C69_readable_partial", "Verif.C69_ticks_partial", "Verif.C69_trimmed", "Verif.C69_forged"], "note": "Proved for reports whose criteria, outcomes and section titles are single lines; C69_forged shows the hypothesis is needed (criteria of ToSatisfy are arbitrary text)."},
  {"property": "C70", "status": "partial", "theorems": ["Verif.C70_site_partial", "Verif.C70_none", "Verif.C70_enrich", "Verif.C70_call", "Verif.C70_deep_fails"], "note": "Proved when the frame that called panic is among the first eight ones, and for the engine's own use whatever the stack (C70_enrich); C70_deep_fails shows the general claim false."},
  {"property": "C71", "status": "proved", "theorems": ["Verif.C71_snapshots"], "note": ""},
  {"property": "C72", "status": "proved", "theorems": ["Verif.C72_choice", "Verif.C72_refl_symm"], "note": ""},
  {"property": "C73", "status": "proved", "theorems": ["Verif.C73_canonical", "Verif.C73_distinct", "Verif.C73_repeats", "Verif.C73_numbers"], "note": ""},
  {"property": "C74", "status": "partial", "theorems": ["Verif.C74_recorded_partial", "Verif.C74_recorded_false"], "note": "Proved when New() and ApplyEvent() are well behaved; C74_recorded_false proves the general claim false."},
  {"property": "C75", "status": "proved", "theorems": ["Verif.C75_provenance", "Verif.C75_dropped"], "note": ""},
  {"property": "C76", "status": "proved", "theorems": ["Verif.C76_order", "Verif.C76_ids"], "note": ""},
  {"property": "C77", "status": "proved", "theorems": ["Verif.C77_history", "Verif.C77_reach", "Verif.C77_action", "Verif.C77_facts"], "note": ""},
  {"property": "C78", "status": "proved", "theorems": ["Verif.C78_kept", "Verif.C78_advanced", "Verif.C78_always"], "note": ""},
  {"property": "C79", "status": "partial", "theorems": ["Verif.C79_no_internal_partial", "Verif.C79_fails"], "note": "Proved when New() of aggregates never returns nil (and user code does not forge the engine's own failure values); C79_fails shows the nil dereference after Destroy() otherwise."},
  {"property": "C80", "status": "proved", "theorems": ["Verif.C80_forever", "Verif.C80_ends", "Verif.C80_no_timeouts", "Verif.C80_circle"], "note": "C80_forever and C80_ends cover applications with timeouts, C80_no_timeouts those without; C80_circle shows that the ranking is needed. Each single call of user code is assumed to return or panic."},
  {"property": "C81", "status": "proved", "theorems": ["Verif.C81_accounted", "Verif.C81_exclusive", "Verif.C81_interrupted"], "note": "C81_accounted: every announced message has one of the three fates (Discarded lists the reasons for discarding); C81_exclusive: at most one; C81_interrupted: a concrete tick with a cancelled context that loses a pending timeout."},
  {"property": "C82", "status": "proved", "theorems": ["Verif.C82_unique", "Verif.C82_message", "Verif.C82_type", "Verif.C82_silent", "Verif.C82_named"], "note": "Texts are those of the model's inflection (names of handlers pass through it, as in the code). 'Enabled' is what the last dispatch of the action announced for handler types; handlers enabled by name are not looked at by the code."},
  {"property": "C83", "status": "partial", "theorems": ["Verif.C83_some_partial", "Verif.C83_only", "Verif.C83_silent", "Verif.C83_ignored_not"], "note": "The last clause is false for expectations that need one match: messages of another type, which the function is never asked about, are counted as ignored (C83_ignored_not). C83_some_partial gives the exact number; for ToOnly... the clause holds (C83_only)."},
  {"property": "C84", "status": "partial", "theorems": ["Verif.C84_blame_partial", "Verif.C84_unknown_partial", "Verif.C84_silent", "Verif.C84_report", "Verif.C84_deep_fails", "Verif.C84_cleanup_fails"], "note": "Holds for less than 50 frames of user code and outside of cleanup functions that are helpers. C84_deep_fails and C84_cleanup_fails are the runs for which the full claim is false of the code."},
  {"property": "C85", "status": "proved", "theorems": ["Verif.C85_complete", "Verif.C85_prepare", "Verif.C85_nested", "Verif.C85_expect", "Verif.C85_report", "Verif.C85_prepare_marks", "Verif.C85_expect_marks"], "note": ""},
  {"property": "C86", "status": "proved", "theorems": ["Verif.Exec.C86_quiet", "Verif.Exec.C86_pinned", "Verif.Exec.C86_choice", "Verif.Exec.C86_refused", "Verif.Exec.C86_progress", "Verif.Exec.C86_deadlock_call", "Verif.Exec.C86_deadlock_exec", "Verif.Exec.C86_deadlock_handler"], "note": "All interleavings. Deadlock freedom is for interceptors and handlers as described; C86_deadlock_call, C86_deadlock_exec and C86_deadlock_handler are runs that end in a deadlock without this."},
  {"property": "C87", "status": "proved", "theorems": ["Verif.C87_names", "Verif.C87_one", "Verif.C87_origin", "Verif.C87_nonempty"], "note": ""},
  {"property": "C88", "status": "proved", "theorems": ["Verif.C88_integration", "Verif.C88_aggregate", "Verif.C88_process", "Verif.C88_projection", "Verif.C88_history"], "note": "Per handling, from any state and however it ends (C88_aggregate, _process, _integration, _projection), and for every handling completed in any history (C88_history). For projections only the logged texts are compared here; C39 to C42 have the rest."},
  {"property": "C89", "status": "proved", "theorems": ["Verif.Conc.C89_sequential", "Verif.Conc.C89_transfer", "Verif.Conc.C89_distinct", "Verif.Conc.C89_aggregate", "Verif.Conc.C89_reset_fails"], "note": "C89_sequential relates the interleaved run (small steps of the engine's critical sections, EngineConc) to the sequential model of the engine; C89_transfer carries over what is true of all sequential histories, C89_distinct and C89_aggregate being two cases. App.Anon says what 'does no more with IDs than store and compare them' means. C89_reset_fails: with Reset, an event is not handled by a projection that a sequential program would have had handled. Contexts are not done while goroutines wait for locks."},
  {"property": "C90", "status": "proved", "theorems": ["Verif.C90_prepare", "Verif.C90_expect"], "note": "Actions are programs over ActionScope (Verif.UserAction); the built-in ones are translated (Action.asUser) and shown equal to the model of Verif.Test and Verif.Protocol in all states."},
  {"property": "C91", "status": "proved", "theorems": ["Verif.C91_protocol", "Verif.C91_outcome"], "note": "Generalises C57 to all actions. Panics of Notify() are not modelled here; for them see C110 and C111."},
  {"property": "C92", "status": "proved", "theorems": ["Verif.C92_own", "Verif.C92_others", "Verif.C92_needed_fails"], "note": "Generalises C58. C92_needed_fails: the conditions are needed."},
  {"property": "C93", "status": "proved", "theorems": ["Verif.C93_history", "Verif.C93_reach", "Verif.C93_facts"], "note": "Generalises C77; resets allowed."},
  {"property": "C94", "status": "partial", "theorems": ["Verif.C94_partial", "Verif.C94_failed", "Verif.C94_fails"], "note": "False if the first action changes the virtual clock (C94_fails); proved for all others."},
  {"property": "C95", "status": "proved", "theorems": ["Verif.C95_prepare", "Verif.C95_expect", "Verif.C95_needed_fails"], "note": "C95_needed_fails: the conditions are needed."},
  {"property": "C96", "status": "partial", "theorems": ["Verif.C96_adjustments", "Verif.C96_actions_partial", "Verif.C96_actions_fails", "Verif.C96_misnamed", "Verif.C96_expectations_partial", "Verif.C96_expectations_fails", "Verif.C96_use"], "note": "Holds of adjustments (C96_adjustments), of actions except ExecuteCommand of an invalid command, which panics with another function's name (C96_actions_fails, C96_misnamed), of expectations except nil among those given to AllOf, AnyOf or Not (C96_expectations_fails). C96_use: what usable arguments make does not panic in Expect before the action."},
  {"property": "C97", "status": "partial", "theorems": ["Verif.C97_partial", "Verif.C97_fails"], "note": "C97_partial: unknown types are an error without effect, consumed types are dispatched. C97_fails: types that are produced but not consumed panic in the engine, in every application."},
  {"property": "C98", "status": "proved", "theorems": ["Verif.C98_options", "Verif.C98_first"], "note": "C98_options: the test that any list of options makes. C98_first: what that means for the time and the handlers of the first operation."},
  {"property": "C99", "status": "proved", "theorems": ["Verif.C99_expectations", "Verif.C99_clock", "Verif.C99_call"], "note": "C99_expectations: verdicts in terms of the arguments (ExpCall.Means). C99_clock, C99_call: actions."},
  {"property": "C100", "status": "partial", "theorems": ["Verif.C100_expectations", "Verif.C100_actions_partial", "Verif.C100_actions_fails"], "note": "C100_expectations holds of all expectations with plain names. C100_actions_partial needs that the last word of the name of a message type has three letters or more, C100_actions_fails shows why."},
  {"property": "C101", "status": "partial", "theorems": ["Verif.C101_read_partial", "Verif.C101_report_partial", "Verif.C101_fails"], "note": "C101_read_partial, C101_report_partial: texts without marks, any diff library that does its job. C101_fails: two differences that look the same."},
  {"property": "C102", "status": "partial", "theorems": ["Verif.C102_read_partial", "Verif.C102_fails"], "note": "C102_read_partial: reading back what the text tells, for locations whose function has no blank in its name. Missing: functions declared with a name like func1 are taken for closures (C102_fails). How the runtime names functions is not modelled."},
  {"property": "C103", "status": "proved", "theorems": ["Verif.C103_behaved", "Verif.C103_unexpected", "Verif.C103_error"], "note": "C103_behaved and C103_unexpected: reading back the texts of the two kinds of panic; C103_error: that of the error that stands for a handler's error. That the panics carry the right handler and method is C27, C43 and C09."},
  {"property": "C104", "status": "proved", "theorems": ["Verif.C104_heard", "Verif.C104_once"], "note": ""},
  {"property": "C105", "status": "proved", "theorems": ["Verif.Conc.C105_ends", "Verif.Conc.C105_done", "Verif.Exec.C105_calls_end", "Verif.Exec.C105_calls_done"], "note": "The engine's calls are trees of steps: a call that would run forever on its own (see C80) is left out. For the executor the engine is one arbitrary program per message, as in C86."},
  {"property": "C106", "status": "proved", "theorems": ["Verif.C106_roots", "Verif.C106_once", "Verif.C106_pure"], "note": ""},
  {"property": "C107", "status": "proved", "theorems": ["Verif.Par.C107_alone", "Verif.Par.C107_serial", "Verif.Par.C107_verdict", "Verif.Par.C107_cleanups", "Verif.Par.C107_over", "Verif.Par.C107_progress", "Verif.Par.C107_bounded", "Verif.Par.C107_ends", "Verif.Par.C107_format_fails", "Verif.Par.C107_elsewhere"], "note": ""},
  {"property": "C108", "status": "proved", "theorems": ["Verif.C108_composite", "Verif.C108_not", "Verif.C108_repeatedly", "Verif.C108_some", "Verif.C108_position", "Verif.C108_nothing_else", "Verif.C108_explains", "Verif.C108_logged"], "note": ""},
  {"property": "C109", "status": "proved", "theorems": ["Verif.C109_order", "Verif.C109_any", "Verif.C109_later", "Verif.C109_verdict", "Verif.C109_matters"], "note": "Props/TickOrder.lean. C109_order: the observations, outcome and stored state of all orders with the same sequence of delivering process handlers have one common form; C109_any: at most one such handler; C109_later: the behaviour ever after; C109_verdict: verdicts and reports of plain expectations; C109_matters: a witness that the order of two delivering processes decides about a verdict and that timeouts are delivered out of the order of time. Assumes a context that is not cancelled and Compact() methods that do not panic (stated as hypotheses)."},
  {"property": "C110", "status": "proved", "theorems": ["Verif.C110_same", "Verif.C110_prefix", "Verif.C110_stop", "Verif.C110_first", "Verif.C110_recovered"], "note": ""},
  {"property": "C111", "status": "proved", "theorems": ["Verif.C111_panic", "Verif.C111_success", "Verif.C111_process", "Verif.C111_integration", "Verif.C111_ids", "Verif.C111_history", "Verif.C111_pending", "Verif.C111_lost"], "note": ""},
  {"property": "C112", "status": "proved", "theorems": ["Verif.C112_same", "Verif.C112_stop", "Verif.C112_protocol", "Verif.C112_recovered"], "note": "C112_same and C112_stop: the run with panics of Notify() against the one without; handlers, interceptors and functions given to Call() that recover are excluded in C112_stop only. C112_protocol: whatever recovers. C112_recovered: the witness that a recovered panic lets an Expect() pass."},
  {"property": "C113", "status": "proved", "theorems": ["Verif.C113_calls", "Verif.C113_same", "Verif.C113_done", "Verif.C113_stop"], "note": "C113_calls: when a tree of expectations told facts calls which function. C113_done: what Done() sees after a panic. C113_same, C113_stop: Expect(), on top of C112; panics with dogma.UnexpectedMessage are left to C112_protocol."},
  {"property": "C114", "status": "proved", "theorems": ["Verif.C114_effect", "Verif.C114_as_if", "Verif.C114_ids", "Verif.C114_lost", "Verif.Conc.C114_anytime"], "note": "C114_effect: one late call. C114_as_if: a history with late calls leaves the engine as one without, whose trace is the trace without the late facts. C114_lost, C114_ids: the late messages. C114_anytime: late calls in other goroutines, under the hypotheses of C89_sequential. Left out: an observer that uses the scope of a process while HandlingCompleted is told."},
  {"property": "C115", "status": "proved", "theorems": ["Verif.Memory.C115_lists", "Verif.Memory.C115_window", "Verif.Memory.C115_window_fails", "Verif.Sliced.C115_engine"], "note": "C115_lists: all programs of slice statements that avoid the exception. C115_window: what the exception does. C115_window_fails: it does happen. C115_engine: the engine with slices simulates the engine with lists, state by state, so what is proved of Reach holds of it."},
  {"property": "C116", "status": "proved", "theorems": ["Verif.C116_prepare", "Verif.C116_expect", "Verif.C116_last_prepare", "Verif.C116_last_expect", "Verif.C116_protocol", "Verif.C116_silent", "Verif.C116_call", "Verif.C116_same_prepare", "Verif.C116_same_expect"], "note": "C116_same_* tie this model to that of C90-C95; a Compact() that leaves its own goroutine is left out."},
  {"property": "C117", "status": "proved", "theorems": ["Verif.C117_operation", "Verif.C117_history", "Verif.C117_calls", "Verif.C117_unheard"], "note": "All handlers left out, all histories; C117_unheard is the case in which the two applications differ."},
  {"property": "C118", "status": "proved", "theorems": ["Verif.C118_verdict", "Verif.C118_kept", "Verif.C118_prepare", "Verif.C118_expect", "Verif.C118_test", "Verif.C118_default"], "note": "For tests with the built-in actions and any tree of expectations; expectations written by the user must not themselves look at the handlers left out (hypothesis `Unaware`). Log texts are left out of the comparison: reports name the handlers that are not enabled. A concrete case shows that the condition on predicates is needed."},
  {"property": "C119", "status": "proved", "theorems": ["Verif.C119_settles", "Verif.C119_kept", "Verif.C119_idle", "Verif.C119_twice", "Verif.C119_advance"], "note": "The hypothesis that the first tick was not interrupted is needed: an example beside the theorems shows a cancelled tick whose timeouts are left for the next. Interrupted means that the returned errors contain one of the context or of the engine's lock."},
  {"property": "C120", "status": "proved", "theorems": ["Verif.C120_operation", "Verif.C120_history", "Verif.C120_new", "Verif.C120_early"], "note": "C120_operation for one operation on any reachable state, C120_history and C120_new for sequences with changes of the world in between; App.AnyTime says what is assumed of user code; C120_early is the witness that ticks within the first hour after Go's zero time differ."},
  {"property": "C121", "status": "proved", "theorems": ["Verif.C121_verdict", "Verif.C121_prepare", "Verif.C121_expect", "Verif.C121_test", "Verif.C121_adjustments"], "note": "For all tests whose user code does not depend on absolute times (Action.Late, App.AnyTime, Expectation.Unaware state this for functions given to Call(), interceptors, handlers and predicates). Log texts are left out: they may mention times."},
  {"property": "C122", "status": "proved", "theorems": ["Verif.C122_met", "Verif.C122_unmet", "Verif.C122_set", "Verif.C122_order", "Verif.C122_limits"], "note": "Facts-level statement about verdicts (Notify of all facts, Done, Ok), for trees of any shape; C122_limits are witnesses that the converses fail."},
  {"property": "C123", "status": "proved", "theorems": ["Verif.C123_operation", "Verif.C123_history", "Verif.C123_reset", "Verif.C123_nothing_left", "Verif.C123_verdict"], "note": "For dispatches and ticks; Reset() begins again with the first ID (C123_reset). Hypothesis App.Anon: handlers do not look into IDs, which only projections are given."},
  {"property": "C124", "status": "proved", "theorems": ["Verif.C124_observer", "Verif.C124_same", "Verif.C124_limits"], "note": "The roots in facts are not modelled, so nothing is said about them. C124_limits is a witness that the next ID is not determined."},
  {"property": "C125", "status": "proved", "theorems": ["Verif.C125_operation", "Verif.C125_history", "Verif.C125_common", "Verif.C125_prepare", "Verif.C125_expect", "Verif.C125_test"], "note": "Refits relates the two applications: a simulation of each handler's programs. The assumption that behaviour follows from the new form is part of it. C125_operation, C125_history: the engine; C125_common: two applications with a common abstraction; C125_prepare, C125_expect, C125_test: tests."},
  {"property": "C126", "status": "proved", "theorems": ["Verif.C126_operation", "Verif.C126_history", "Verif.C126_nameless", "Verif.C126_prepare", "Verif.C126_expect", "Verif.C126_test"], "note": "A one-to-one renaming of instances commutes with every operation, history and test; all expectations of the module give the same verdicts and reports."},
  {"property": "C127", "status": "proved", "theorems": ["Verif.C127_operation", "Verif.C127_history", "Verif.C127_sealed", "Verif.C127_types", "Verif.C127_wordless", "Verif.C127_prepare", "Verif.C127_expect", "Verif.C127_test"], "note": "Changing contents of messages (several may become one) commutes with every operation and history; with handlers that do not look, histories differing in contents only show the same; type expectations have the same verdicts and reports, and whole tests with them end the same."},
  {"property": "C128", "status": "proved", "theorems": ["Verif.C128_uncounted", "Verif.C128_prepare", "Verif.C128_expect", "Verif.C128_test", "Verif.C128_needless"], "note": "C123 for tests: from two points at which the engines remember the same but for the number of IDs handed out, any Prepare()/Expect() statements end the same, tell predicates the same but for IDs, and record and say the same; a Prepare() that leaves nothing behind can be left out; all trees of expectations, given that functions of users do not look into IDs."},
  {"property": "C129", "status": "proved", "theorems": ["Verif.C129_observers", "Verif.C129_expect", "Verif.C129_later", "Verif.C129_replace", "Verif.C129_plain"], "note": "C129_observers: observers among the options make no difference to an operation. C129_expect: any implementation of Expectation that provides a predicate. C129_later, C129_replace and C129_plain: sequences of statements. What a test said and did is not compared between Expect() and Prepare() (the lines of the log differ); a user's implementation of Expectation cannot change the application's state in the model."},
  {"property": "C130", "status": "proved", "theorems": ["Verif.C130_run", "Verif.C130_prepare", "Verif.C130_indifferent", "Verif.C130_expect"], "note": "C130_run: the action with any options of the operation, in particular observers. C130_prepare, C130_expect: the statements. C130_indifferent: for this module's expectations the hypothesis of C130_expect comes down to Predicate() giving the same predicate for both actions. What expectations on messages count with each of the actions is C44 to C47 and C57."}
]}
