# Axioms of the property theorems

Output of `#print axioms` for every theorem named in `MANIFEST.json`, made by `tools/axioms.sh`.

```
'Verif.C01_ids_increase' depends on axioms: [propext, Classical.choice, Quot.sound]
'Verif.C01_ids_unique' depends on axioms: [propext, Classical.choice, Quot.sound]
'Verif.C02_causation' depends on axioms: [propext, Classical.choice, Quot.sound]
'Verif.C03_conversation' depends on axioms: [propext, Classical.choice, Quot.sound]
'Verif.C03_correlation' depends on axioms: [propext, Classical.choice, Quot.sound]
'Verif.C04_time_and_origin' depends on axioms: [propext, Classical.choice, Quot.sound]
'Verif.C05_complete' depends on axioms: [propext, Classical.choice, Quot.sound]
'Verif.C05_prefix' depends on axioms: [propext, Classical.choice, Quot.sound]
'Verif.C06_once' depends on axioms: [propext, Classical.choice, Quot.sound]
'Verif.C06_distinct' depends on axioms: [propext, Classical.choice, Quot.sound]
'Verif.C07_offers' depends on axioms: [propext, Classical.choice, Quot.sound]
'Verif.C07_panic' depends on axioms: [propext, Classical.choice, Quot.sound]
'Verif.C08_timeout_origin' depends on axioms: [propext, Classical.choice, Quot.sound]
'Verif.C09_declared_and_valid' depends on axioms: [propext, Classical.choice, Quot.sound]
'Verif.C09_rejected_aggregate' depends on axioms: [propext, Quot.sound]
'Verif.C09_rejected_integration' depends on axioms: [propext, Quot.sound]
'Verif.C09_rejected_process' depends on axioms: [propext, Quot.sound]
'Verif.C10_errors' depends on axioms: [propext, Classical.choice, Quot.sound]
'Verif.C11_result' depends on axioms: [propext, Classical.choice, Quot.sound]
'Verif.C11_stops' depends on axioms: [propext, Quot.sound]
'Verif.C11_tick' depends on axioms: [propext, Classical.choice, Quot.sound]
'Verif.C11_tick_phase' depends on axioms: [propext, Classical.choice, Quot.sound]
'Verif.C12_closed' depends on axioms: [propext, Classical.choice, Quot.sound]
'Verif.C12_always' depends on axioms: [propext, Classical.choice, Quot.sound]
'Verif.C13_rejected' depends on axioms: [propext, Classical.choice, Quot.sound]
'Verif.C13_accepted' depends on axioms: [propext, Classical.choice, Quot.sound]
'Verif.C14_concluded' depends on axioms: [propext, Classical.choice, Quot.sound]
'Verif.C14_facts' depends on axioms: [propext, Classical.choice, Quot.sound]
'Verif.C14_offered' depends on axioms: [propext, Classical.choice, Quot.sound]
'Verif.C14_announced' depends on axioms: [propext, Classical.choice, Quot.sound]
'Verif.C14_ticked' depends on axioms: [propext, Classical.choice, Quot.sound]
'Verif.C15_inert' depends on axioms: [propext, Classical.choice, Quot.sound]
'Verif.C16_panic_commits_nothing' depends on axioms: [propext, Quot.sound]
'Verif.C17_handling' depends on axioms: [propext, Classical.choice, Quot.sound]
'Verif.C17_operation' depends on axioms: [propext, Classical.choice, Quot.sound]
'Verif.C18_reset' depends on axioms: [propext, Classical.choice, Quot.sound]
'Verif.C18_like_new_partial' depends on axioms: [propext, Classical.choice, Quot.sound]
'Verif.C18_like_new_but_clocks' depends on axioms: [propext, Classical.choice, Quot.sound]
'Verif.C18_fails' depends on axioms: [propext, Classical.choice, Quot.sound]
'Verif.C19_options' depends on axioms: [propext, Quot.sound]
'Verif.C19_time' depends on axioms: [propext, Classical.choice, Quot.sound]
'Verif.C19_unknown' depends on axioms: [propext, Classical.choice, Quot.sound]
'Verif.C20_same_facts' depends on axioms: [propext, Classical.choice, Quot.sound]
'Verif.C21_history' depends on axioms: [propext, Classical.choice, Quot.sound]
'Verif.C21_since_destroyed' depends on axioms: [propext, Classical.choice, Quot.sound]
'Verif.C22_replay' depends on axioms: [propext, Classical.choice, Quot.sound]
'Verif.C22_replay_pure' depends on axioms: [propext, Classical.choice, Quot.sound]
'Verif.C23_truth' depends on axioms: [propext, Classical.choice, Quot.sound]
'Verif.C23_reported' depends on axioms: [propext, Classical.choice, Quot.sound]
'Verif.C24_starts_over' depends on axioms: [propext, Classical.choice, Quot.sound]
'Verif.C24_deleted' depends on axioms: [propext, Classical.choice, Quot.sound]
'Verif.C24_dispatched' depends on axioms: [propext, Classical.choice, Quot.sound]
'Verif.C25_alternation' depends on axioms: [propext, Classical.choice, Quot.sound]
'Verif.C25_outcome' depends on axioms: [propext, Classical.choice, Quot.sound]
'Verif.C26_kept_partial' depends on axioms: [propext, Classical.choice, Quot.sound]
'Verif.C26_reverted_false' depends on axioms: [propext, Classical.choice, Quot.sound]
'Verif.C26_changed_false' depends on axioms: [propext, Classical.choice, Quot.sound]
'Verif.C27_aggregate_empty_id' depends on axioms: [propext]
'Verif.C27_aggregate_nil_root' depends on axioms: [propext]
'Verif.C27_process_empty_id' depends on axioms: [propext]
'Verif.C27_process_nil_root' depends on axioms: [propext]
'Verif.C28_exists' depends on axioms: [propext, Classical.choice, Quot.sound]
'Verif.C28_truth' depends on axioms: [propext, Classical.choice, Quot.sound]
'Verif.C28_reported' depends on axioms: [propext, Classical.choice, Quot.sound]
'Verif.C29_pending' depends on axioms: [propext, Classical.choice, Quot.sound]
'Verif.C29_pending_iff' depends on axioms: [propext, Classical.choice, Quot.sound]
'Verif.C30_no_early_timeout' depends on axioms: [propext, Classical.choice, Quot.sound]
'Verif.C31_none_left' depends on axioms: [propext, Classical.choice, Quot.sound]
'Verif.C32_chronological' depends on axioms: [propext, Classical.choice, Quot.sound]
'Verif.C33_commands' depends on axioms: [propext, Classical.choice, Quot.sound]
'Verif.C33_dropped' depends on axioms: [propext, Classical.choice, Quot.sound]
'Verif.C33_none_pending' depends on axioms: [propext, Classical.choice, Quot.sound]
'Verif.C34_partial' depends on axioms: [propext, Classical.choice, Quot.sound]
'Verif.C34_fails' depends on axioms: [propext, Quot.sound]
'Verif.C35_alternation' depends on axioms: [propext, Classical.choice, Quot.sound]
'Verif.C35_survives' depends on axioms: [propext, Classical.choice, Quot.sound]
'Verif.C36_dropped' depends on axioms: [propext, Classical.choice, Quot.sound]
'Verif.C36_state' depends on axioms: [propext, Quot.sound]
'Verif.C37_immediate' depends on axioms: [propext, Classical.choice, Quot.sound]
'Verif.C38_dispatched' depends on axioms: [propext, Classical.choice, Quot.sound]
'Verif.C39_protocol' depends on axioms: [propext, Classical.choice, Quot.sound]
'Verif.C39_no_messages' depends on axioms: [propext, Classical.choice, Quot.sound]
'Verif.C40_iff_due' depends on axioms: [propext, Classical.choice, Quot.sound]
'Verif.C40_apart' depends on axioms: [propext, Classical.choice, Quot.sound]
'Verif.C41_bracketed' depends on axioms: [propext, Quot.sound]
'Verif.C42_version_error' depends on axioms: [propext]
'Verif.C42_precedence' depends on axioms: [propext, Quot.sound]
'Verif.C43_surfaced' depends on axioms: [propext]
'Verif.C43_never_raw' depends on axioms: [propext]
'Verif.C43_operation' depends on axioms: [propext, Classical.choice, Quot.sound]
'Verif.C44_message' depends on axioms: [propext, Classical.choice, Quot.sound]
'Verif.C44_expect' depends on axioms: [propext, Classical.choice, Quot.sound]
'Verif.C45_type' depends on axioms: [propext, Classical.choice, Quot.sound]
'Verif.C46_matching' depends on axioms: [propext, Classical.choice, Quot.sound]
'Verif.C46_pure' depends on axioms: [propext, Classical.choice, Quot.sound]
'Verif.C47_only_matching' depends on axioms: [propext, Classical.choice, Quot.sound]
'Verif.C47_pure' depends on axioms: [propext, Classical.choice, Quot.sound]
'Verif.C48_composite' depends on axioms: [propext, Classical.choice, Quot.sound]
'Verif.C48_tree' depends on axioms: [propext, Classical.choice, Quot.sound]
'Verif.C48_list' depends on axioms: [propext, Classical.choice, Quot.sound]
'Verif.C49_laws' depends on axioms: [propext, Classical.choice, Quot.sound]
'Verif.C50_verdict' depends on axioms: [propext, Classical.choice, Quot.sound]
'Verif.C50_factory_calls' depends on axioms: [propext, Quot.sound]
'Verif.C50_report' depends on axioms: [propext, Classical.choice, Quot.sound]
'Verif.C51_verdict' depends on axioms: [propext, Classical.choice, Quot.sound]
'Verif.C51_abort' depends on axioms: [propext, Classical.choice, Quot.sound]
'Verif.C51_panic_partial' depends on axioms: [propext, Classical.choice, Quot.sound]
'Verif.C51_out' depends on axioms: [propext, Classical.choice, Quot.sound]
'Verif.C51_panic_fails' depends on axioms: [propext, Classical.choice, Quot.sound]
'Verif.C52_cleanups_partial' depends on axioms: [propext, Classical.choice, Quot.sound]
'Verif.C52_effects_partial' depends on axioms: [propext, Classical.choice, Quot.sound]
'Verif.C52_fails' depends on axioms: [propext, Classical.choice, Quot.sound]
'Verif.C52_nested_fails' depends on axioms: [propext, Classical.choice, Quot.sound]
'Verif.C53_report' depends on axioms: [propext, Classical.choice, Quot.sound]
'Verif.C53_children' depends on axioms: [propext, Classical.choice, Quot.sound]
'Verif.C54_impossible_partial' depends on axioms: [propext, Classical.choice, Quot.sound]
'Verif.C54_only_fails' depends on axioms: [propext, Classical.choice, Quot.sound]
'Verif.C55_counts' depends on axioms: [propext, Quot.sound]
'Verif.C55_only_report' depends on axioms: [propext, Classical.choice, Quot.sound]
'Verif.C56_forwards' depends on axioms: [propext, Classical.choice, Quot.sound]
'Verif.C56_only_advance' depends on axioms: [propext, Classical.choice, Quot.sound]
'Verif.C56_past' depends on axioms: [propext, Classical.choice, Quot.sound]
'Verif.C56_advance' depends on axioms: [propext, Classical.choice, Quot.sound]
'Verif.C57_protocol' depends on axioms: [propext, Classical.choice, Quot.sound]
'Verif.C57_outcome' depends on axioms: [propext, Classical.choice, Quot.sound]
'Verif.C58_own_partial' depends on axioms: [propext, Classical.choice, Quot.sound]
'Verif.C58_others' depends on axioms: [propext, Classical.choice, Quot.sound]
'Verif.C58_verdict' depends on axioms: [propext, Classical.choice, Quot.sound]
'Verif.C58_nested_fails' depends on axioms: [propext, Classical.choice, Quot.sound]
'Verif.C59_defaults' depends on axioms: [propext, Quot.sound]
'Verif.C59_panics' depends on axioms: [propext, Classical.choice, Quot.sound]
'Verif.C60_like' depends on axioms: [propext, Classical.choice, Quot.sound]
'Verif.C61_outside' depends on axioms: [propext, Classical.choice, Quot.sound]
'Verif.C61_during_partial' depends on axioms: [propext, Classical.choice, Quot.sound]
'Verif.C61_nested_fails' depends on axioms: [propext, Classical.choice, Quot.sound]
'Verif.C62_intercepts' depends on axioms: [propext, Classical.choice, Quot.sound]
'Verif.C62_restored' depends on axioms: [propext, Classical.choice, Quot.sound]
'Verif.C62_replaces' depends on axioms: [propext, Classical.choice, Quot.sound]
'Verif.C63_partial' depends on axioms: [propext, Classical.choice, Quot.sound]
'Verif.C63_fails' depends on axioms: [propext, Classical.choice, Quot.sound]
'Verif.C63_bounds' depends on axioms: [propext, Classical.choice, Quot.sound]
'Verif.C63_still' depends on axioms: [propext, Classical.choice, Quot.sound]
'Verif.C64_ticks' depends on axioms: [propext, Quot.sound]
'Verif.C64_monotonic' depends on axioms: [propext, Quot.sound]
'Verif.C64_run' depends on axioms: [propext, Quot.sound]
'Verif.C64_overridden' depends on axioms: [propext, Quot.sound]
'Verif.Conc.C65_exclusive' depends on axioms: [propext, Quot.sound]
'Verif.Conc.C65_serial' depends on axioms: [propext, Quot.sound]
'Verif.Conc.C65_order' depends on axioms: [propext, Quot.sound]
'Verif.Conc.C65_calls' depends on axioms: [propext, Quot.sound]
'Verif.Conc.C65_progress' depends on axioms: [propext, Quot.sound]
'Verif.Conc.C65_sequential_partial' depends on axioms: [propext, Classical.choice, Quot.sound]
'Verif.Conc.C65_renaming_fails' depends on axioms: [propext]
'Verif.Conc.C66_sequence' depends on axioms: [propext, Quot.sound]
'Verif.Conc.C66_reset_partial' depends on axioms: [propext, Classical.choice, Quot.sound]
'Verif.Conc.C66_fails' depends on axioms: [propext]
'Verif.Inflect.C67_order' depends on axioms: [propext, Classical.choice, Quot.sound]
'Verif.C68_line' depends on axioms: [propext, Classical.choice, Quot.sound]
'Verif.C68_join' depends on axioms: [propext, Classical.choice, Quot.sound]
'Verif.C68_enabled_order' depends on axioms: [propext, Classical.choice, Quot.sound]
'Verif.C68_enabled_names' depends on axioms: [propext, Classical.choice, Quot.sound]
'Verif.C68_error' depends on axioms: [propext, Classical.choice, Quot.sound]
'Verif.C68_produced' depends on axioms: [propext, Classical.choice, Quot.sound]
'Verif.C69_readable_partial' depends on axioms: [propext, Classical.choice, Quot.sound]
'Verif.C69_ticks_partial' depends on axioms: [propext, Classical.choice, Quot.sound]
'Verif.C69_trimmed' depends on axioms: [propext, Classical.choice, Quot.sound]
'Verif.C69_forged' depends on axioms: [propext, Classical.choice, Quot.sound]
'Verif.C70_site_partial' depends on axioms: [propext, Classical.choice, Quot.sound]
'Verif.C70_none' depends on axioms: [propext, Classical.choice, Quot.sound]
'Verif.C70_enrich' depends on axioms: [propext, Classical.choice, Quot.sound]
'Verif.C70_call' does not depend on any axioms
'Verif.C70_deep_fails' depends on axioms: [propext, Classical.choice, Quot.sound]
'Verif.C71_snapshots' depends on axioms: [propext, Classical.choice, Quot.sound]
'Verif.C72_choice' depends on axioms: [propext]
'Verif.C72_refl_symm' does not depend on any axioms
'Verif.C73_canonical' depends on axioms: [propext, Classical.choice, Quot.sound]
'Verif.C73_distinct' depends on axioms: [propext, Classical.choice, Quot.sound]
'Verif.C73_repeats' depends on axioms: [propext, Classical.choice, Quot.sound]
'Verif.C73_numbers' depends on axioms: [propext, Classical.choice, Quot.sound]
'Verif.C74_recorded_partial' depends on axioms: [propext, Classical.choice, Quot.sound]
'Verif.C74_recorded_false' depends on axioms: [propext, Quot.sound]
'Verif.C75_provenance' depends on axioms: [propext, Classical.choice, Quot.sound]
'Verif.C75_dropped' depends on axioms: [propext, Classical.choice, Quot.sound]
'Verif.C76_order' depends on axioms: [propext, Classical.choice, Quot.sound]
'Verif.C76_ids' depends on axioms: [propext, Classical.choice, Quot.sound]
'Verif.C77_history' depends on axioms: [propext, Classical.choice, Quot.sound]
'Verif.C77_reach' depends on axioms: [propext, Classical.choice, Quot.sound]
'Verif.C77_action' depends on axioms: [propext, Classical.choice, Quot.sound]
'Verif.C77_facts' depends on axioms: [propext, Classical.choice, Quot.sound]
'Verif.C78_kept' depends on axioms: [propext, Classical.choice, Quot.sound]
'Verif.C78_advanced' depends on axioms: [propext, Classical.choice, Quot.sound]
'Verif.C78_always' depends on axioms: [propext, Classical.choice, Quot.sound]
'Verif.C79_no_internal_partial' depends on axioms: [propext, Classical.choice, Quot.sound]
'Verif.C79_fails' depends on axioms: [propext, Classical.choice, Quot.sound]
'Verif.C80_forever' depends on axioms: [propext, Classical.choice, Quot.sound]
'Verif.C80_ends' depends on axioms: [propext, Classical.choice, Quot.sound]
'Verif.C80_no_timeouts' depends on axioms: [propext, Classical.choice, Quot.sound]
'Verif.C80_circle' depends on axioms: [propext, Classical.choice, Quot.sound]
'Verif.C81_accounted' depends on axioms: [propext, Classical.choice, Quot.sound]
'Verif.C81_exclusive' depends on axioms: [propext, Classical.choice, Quot.sound]
'Verif.C81_interrupted' depends on axioms: [propext, Classical.choice, Quot.sound]
'Verif.C82_unique' depends on axioms: [propext, Classical.choice, Quot.sound]
'Verif.C82_message' depends on axioms: [propext, Classical.choice, Quot.sound]
'Verif.C82_type' depends on axioms: [propext, Classical.choice, Quot.sound]
'Verif.C82_silent' depends on axioms: [propext, Classical.choice, Quot.sound]
'Verif.C82_named' depends on axioms: [propext, Classical.choice, Quot.sound]
'Verif.C83_some_partial' depends on axioms: [propext, Classical.choice, Quot.sound]
'Verif.C83_only' depends on axioms: [propext, Classical.choice, Quot.sound]
'Verif.C83_silent' depends on axioms: [propext, Classical.choice, Quot.sound]
'Verif.C83_ignored_not' depends on axioms: [propext, Classical.choice, Quot.sound]
'Verif.C84_blame_partial' depends on axioms: [propext, Classical.choice, Quot.sound]
'Verif.C84_unknown_partial' depends on axioms: [propext, Classical.choice, Quot.sound]
'Verif.C84_silent' depends on axioms: [propext, Classical.choice, Quot.sound]
'Verif.C84_report' depends on axioms: [propext, Classical.choice, Quot.sound]
'Verif.C84_deep_fails' depends on axioms: [propext, Classical.choice, Quot.sound]
'Verif.C84_cleanup_fails' depends on axioms: [propext, Classical.choice, Quot.sound]
'Verif.C85_complete' depends on axioms: [propext, Classical.choice, Quot.sound]
'Verif.C85_prepare' depends on axioms: [propext, Classical.choice, Quot.sound]
'Verif.C85_nested' depends on axioms: [propext, Classical.choice, Quot.sound]
'Verif.C85_expect' depends on axioms: [propext, Classical.choice, Quot.sound]
'Verif.C85_report' depends on axioms: [propext, Classical.choice, Quot.sound]
'Verif.C85_prepare_marks' depends on axioms: [propext, Classical.choice, Quot.sound]
'Verif.C85_expect_marks' depends on axioms: [propext, Classical.choice, Quot.sound]
'Verif.Exec.C86_quiet' depends on axioms: [propext, Classical.choice, Quot.sound]
'Verif.Exec.C86_pinned' depends on axioms: [propext, Classical.choice, Quot.sound]
'Verif.Exec.C86_choice' depends on axioms: [propext, Classical.choice, Quot.sound]
'Verif.Exec.C86_refused' depends on axioms: [propext]
'Verif.Exec.C86_progress' depends on axioms: [propext, Classical.choice, Quot.sound]
'Verif.Exec.C86_deadlock_call' depends on axioms: [propext, Quot.sound]
'Verif.Exec.C86_deadlock_exec' depends on axioms: [propext, Quot.sound]
'Verif.Exec.C86_deadlock_handler' depends on axioms: [propext, Quot.sound]
'Verif.C87_names' depends on axioms: [propext, Classical.choice, Quot.sound]
'Verif.C87_one' depends on axioms: [propext, Classical.choice, Quot.sound]
'Verif.C87_origin' depends on axioms: [propext, Classical.choice, Quot.sound]
'Verif.C87_nonempty' depends on axioms: [propext, Classical.choice, Quot.sound]
'Verif.C88_integration' depends on axioms: [propext, Quot.sound]
'Verif.C88_aggregate' depends on axioms: [propext, Quot.sound]
'Verif.C88_process' depends on axioms: [propext, Quot.sound]
'Verif.C88_projection' depends on axioms: [propext, Quot.sound]
'Verif.C88_history' depends on axioms: [propext, Classical.choice, Quot.sound]
'Verif.Conc.C89_sequential' depends on axioms: [propext, Classical.choice, Quot.sound]
'Verif.Conc.C89_transfer' depends on axioms: [propext, Classical.choice, Quot.sound]
'Verif.Conc.C89_distinct' depends on axioms: [propext, Classical.choice, Quot.sound]
'Verif.Conc.C89_aggregate' depends on axioms: [propext, Classical.choice, Quot.sound]
'Verif.Conc.C89_reset_fails' depends on axioms: [propext, Quot.sound]
'Verif.C90_prepare' depends on axioms: [propext, Classical.choice, Quot.sound]
'Verif.C90_expect' depends on axioms: [propext, Classical.choice, Quot.sound]
'Verif.C91_protocol' depends on axioms: [propext, Classical.choice, Quot.sound]
'Verif.C91_outcome' depends on axioms: [propext, Classical.choice, Quot.sound]
'Verif.C92_own' depends on axioms: [propext, Classical.choice, Quot.sound]
'Verif.C92_others' depends on axioms: [propext, Classical.choice, Quot.sound]
'Verif.C92_needed_fails' depends on axioms: [propext, Classical.choice, Quot.sound]
'Verif.C93_history' depends on axioms: [propext, Classical.choice, Quot.sound]
'Verif.C93_reach' depends on axioms: [propext, Classical.choice, Quot.sound]
'Verif.C93_facts' depends on axioms: [propext, Classical.choice, Quot.sound]
'Verif.C94_partial' depends on axioms: [propext, Classical.choice, Quot.sound]
'Verif.C94_failed' depends on axioms: [propext, Classical.choice, Quot.sound]
'Verif.C94_fails' depends on axioms: [propext, Classical.choice, Quot.sound]
'Verif.C95_prepare' depends on axioms: [propext, Classical.choice, Quot.sound]
'Verif.C95_expect' depends on axioms: [propext, Classical.choice, Quot.sound]
'Verif.C95_needed_fails' depends on axioms: [propext, Classical.choice, Quot.sound]
'Verif.C96_adjustments' depends on axioms: [propext, Quot.sound]
'Verif.C96_actions_partial' depends on axioms: [propext, Quot.sound]
'Verif.C96_actions_fails' depends on axioms: [propext, Classical.choice, Quot.sound]
'Verif.C96_misnamed' depends on axioms: [propext]
'Verif.C96_expectations_partial' depends on axioms: [propext, Classical.choice, Quot.sound]
'Verif.C96_expectations_fails' depends on axioms: [propext]
'Verif.C96_use' depends on axioms: [propext, Classical.choice, Quot.sound]
'Verif.C97_partial' depends on axioms: [propext, Classical.choice, Quot.sound]
'Verif.C97_fails' depends on axioms: [propext, Classical.choice, Quot.sound]
'Verif.C98_options' depends on axioms: [propext, Quot.sound]
'Verif.C98_first' depends on axioms: [propext, Quot.sound]
'Verif.C99_expectations' depends on axioms: [propext, Classical.choice, Quot.sound]
'Verif.C99_clock' depends on axioms: [propext, Classical.choice, Quot.sound]
'Verif.C99_call' depends on axioms: [propext, Classical.choice, Quot.sound]
'Verif.C100_expectations' depends on axioms: [propext, Classical.choice, Quot.sound]
'Verif.C100_actions_partial' depends on axioms: [propext, Classical.choice, Quot.sound]
'Verif.C100_actions_fails' depends on axioms: [propext, Classical.choice, Quot.sound]
'Verif.C101_read_partial' depends on axioms: [propext, Classical.choice, Quot.sound]
'Verif.C101_report_partial' depends on axioms: [propext, Classical.choice, Quot.sound]
'Verif.C101_fails' depends on axioms: [propext]
'Verif.C102_read_partial' depends on axioms: [propext, Classical.choice, Quot.sound]
'Verif.C102_fails' depends on axioms: [propext, Classical.choice, Quot.sound]
'Verif.C103_behaved' depends on axioms: [propext, Classical.choice, Quot.sound]
'Verif.C103_unexpected' depends on axioms: [propext, Classical.choice, Quot.sound]
'Verif.C103_error' depends on axioms: [propext, Classical.choice, Quot.sound]
'Verif.C104_heard' depends on axioms: [propext, Classical.choice, Quot.sound]
'Verif.C104_once' depends on axioms: [propext, Classical.choice, Quot.sound]
'Verif.Conc.C105_ends' depends on axioms: [propext, Classical.choice, Quot.sound]
'Verif.Conc.C105_done' depends on axioms: [propext, Classical.choice, Quot.sound]
'Verif.Exec.C105_calls_end' depends on axioms: [propext, Classical.choice, Quot.sound]
'Verif.Exec.C105_calls_done' depends on axioms: [propext, Classical.choice, Quot.sound]
'Verif.C106_roots' depends on axioms: [propext, Quot.sound]
'Verif.C106_once' depends on axioms: [propext, Quot.sound]
'Verif.C106_pure' depends on axioms: [propext, Quot.sound]
'Verif.Par.C107_alone' depends on axioms: [propext, Classical.choice, Quot.sound]
'Verif.Par.C107_serial' depends on axioms: [propext, Classical.choice, Quot.sound]
'Verif.Par.C107_verdict' depends on axioms: [propext, Classical.choice, Quot.sound]
'Verif.Par.C107_cleanups' depends on axioms: [propext, Classical.choice, Quot.sound]
'Verif.Par.C107_over' depends on axioms: [propext, Classical.choice, Quot.sound]
'Verif.Par.C107_progress' depends on axioms: [propext, Classical.choice, Quot.sound]
'Verif.Par.C107_bounded' depends on axioms: [propext, Classical.choice, Quot.sound]
'Verif.Par.C107_ends' depends on axioms: [propext, Classical.choice, Quot.sound]
'Verif.Par.C107_format_fails' depends on axioms: [propext, Classical.choice, Quot.sound]
'Verif.Par.C107_elsewhere' depends on axioms: [propext, Classical.choice, Quot.sound]
'Verif.C108_composite' depends on axioms: [propext, Classical.choice, Quot.sound]
'Verif.C108_not' depends on axioms: [propext, Classical.choice, Quot.sound]
'Verif.C108_repeatedly' depends on axioms: [propext, Classical.choice, Quot.sound]
'Verif.C108_some' depends on axioms: [propext, Classical.choice, Quot.sound]
'Verif.C108_position' depends on axioms: [propext, Classical.choice, Quot.sound]
'Verif.C108_nothing_else' depends on axioms: [propext, Classical.choice, Quot.sound]
'Verif.C108_explains' depends on axioms: [propext, Classical.choice, Quot.sound]
'Verif.C108_logged' depends on axioms: [propext, Classical.choice, Quot.sound]
'Verif.C109_order' depends on axioms: [propext, Quot.sound]
'Verif.C109_any' depends on axioms: [propext, Quot.sound]
'Verif.C109_later' depends on axioms: [propext, Quot.sound]
'Verif.C109_verdict' depends on axioms: [propext, Classical.choice, Quot.sound]
'Verif.C109_matters' depends on axioms: [propext, Classical.choice, Quot.sound]
'Verif.C110_same' depends on axioms: [propext, Quot.sound]
'Verif.C110_prefix' depends on axioms: [propext, Quot.sound]
'Verif.C110_stop' depends on axioms: [propext, Quot.sound]
'Verif.C110_first' depends on axioms: [propext, Quot.sound]
'Verif.C110_recovered' depends on axioms: [propext, Quot.sound]
'Verif.C111_panic' depends on axioms: [propext, Classical.choice, Quot.sound]
'Verif.C111_success' depends on axioms: [propext, Classical.choice, Quot.sound]
'Verif.C111_process' depends on axioms: [propext, Classical.choice, Quot.sound]
'Verif.C111_integration' depends on axioms: [propext, Classical.choice, Quot.sound]
'Verif.C111_ids' depends on axioms: [propext, Classical.choice, Quot.sound]
'Verif.C111_history' depends on axioms: [propext, Classical.choice, Quot.sound]
'Verif.C111_pending' depends on axioms: [propext, Classical.choice, Quot.sound]
'Verif.C111_lost' depends on axioms: [propext, Quot.sound]
'Verif.C112_same' depends on axioms: [propext, Classical.choice, Quot.sound]
'Verif.C112_stop' depends on axioms: [propext, Classical.choice, Quot.sound]
'Verif.C112_protocol' depends on axioms: [propext, Classical.choice, Quot.sound]
'Verif.C112_recovered' depends on axioms: [propext, Classical.choice, Quot.sound]
'Verif.C113_calls' depends on axioms: [propext, Quot.sound]
'Verif.C113_same' depends on axioms: [propext, Classical.choice, Quot.sound]
'Verif.C113_done' depends on axioms: [propext, Classical.choice, Quot.sound]
'Verif.C113_stop' depends on axioms: [propext, Classical.choice, Quot.sound]
'Verif.C114_effect' depends on axioms: [propext, Quot.sound]
'Verif.C114_as_if' depends on axioms: [propext, Classical.choice, Quot.sound]
'Verif.C114_ids' depends on axioms: [propext, Classical.choice, Quot.sound]
'Verif.C114_lost' depends on axioms: [propext, Classical.choice, Quot.sound]
'Verif.Conc.C114_anytime' depends on axioms: [propext, Classical.choice, Quot.sound]
'Verif.Memory.C115_lists' depends on axioms: [propext, Quot.sound]
'Verif.Memory.C115_window' depends on axioms: [propext, Quot.sound]
'Verif.Memory.C115_window_fails' depends on axioms: [propext]
'Verif.Sliced.C115_engine' depends on axioms: [propext, Classical.choice, Quot.sound]
'Verif.C116_prepare' depends on axioms: [propext, Classical.choice, Quot.sound]
'Verif.C116_expect' depends on axioms: [propext, Classical.choice, Quot.sound]
'Verif.C116_last_prepare' depends on axioms: [propext, Classical.choice, Quot.sound]
'Verif.C116_last_expect' depends on axioms: [propext, Classical.choice, Quot.sound]
'Verif.C116_protocol' depends on axioms: [propext, Classical.choice, Quot.sound]
'Verif.C116_silent' depends on axioms: [propext, Classical.choice, Quot.sound]
'Verif.C116_call' depends on axioms: [propext, Classical.choice, Quot.sound]
'Verif.C116_same_prepare' depends on axioms: [propext, Classical.choice, Quot.sound]
'Verif.C116_same_expect' depends on axioms: [propext, Classical.choice, Quot.sound]
'Verif.C117_operation' depends on axioms: [propext, Classical.choice, Quot.sound]
'Verif.C117_history' depends on axioms: [propext, Classical.choice, Quot.sound]
'Verif.C117_calls' depends on axioms: [propext]
'Verif.C117_unheard' depends on axioms: [propext, Classical.choice, Quot.sound]
'Verif.C118_verdict' depends on axioms: [propext, Classical.choice, Quot.sound]
'Verif.C118_kept' depends on axioms: [propext, Classical.choice, Quot.sound]
'Verif.C118_prepare' depends on axioms: [propext, Classical.choice, Quot.sound]
'Verif.C118_expect' depends on axioms: [propext, Classical.choice, Quot.sound]
'Verif.C118_test' depends on axioms: [propext, Classical.choice, Quot.sound]
'Verif.C118_default' depends on axioms: [propext, Classical.choice, Quot.sound]
'Verif.C119_settles' depends on axioms: [propext, Classical.choice, Quot.sound]
'Verif.C119_kept' depends on axioms: [propext, Classical.choice, Quot.sound]
'Verif.C119_idle' depends on axioms: [propext, Classical.choice, Quot.sound]
'Verif.C119_twice' depends on axioms: [propext, Classical.choice, Quot.sound]
'Verif.C119_advance' depends on axioms: [propext, Classical.choice, Quot.sound]
'Verif.C120_operation' depends on axioms: [propext, Classical.choice, Quot.sound]
'Verif.C120_history' depends on axioms: [propext, Classical.choice, Quot.sound]
'Verif.C120_new' depends on axioms: [propext, Classical.choice, Quot.sound]
'Verif.C120_early' depends on axioms: [propext, Quot.sound]
'Verif.C121_verdict' depends on axioms: [propext, Classical.choice, Quot.sound]
'Verif.C121_prepare' depends on axioms: [propext, Classical.choice, Quot.sound]
'Verif.C121_expect' depends on axioms: [propext, Classical.choice, Quot.sound]
'Verif.C121_test' depends on axioms: [propext, Classical.choice, Quot.sound]
'Verif.C121_adjustments' depends on axioms: [propext, Quot.sound]
'Verif.C122_met' depends on axioms: [propext, Classical.choice, Quot.sound]
'Verif.C122_unmet' depends on axioms: [propext, Classical.choice, Quot.sound]
'Verif.C122_set' depends on axioms: [propext, Classical.choice, Quot.sound]
'Verif.C122_order' depends on axioms: [propext, Classical.choice, Quot.sound]
'Verif.C122_limits' depends on axioms: [propext, Classical.choice, Quot.sound]
'Verif.C123_operation' depends on axioms: [propext, Classical.choice, Quot.sound]
'Verif.C123_history' depends on axioms: [propext, Classical.choice, Quot.sound]
'Verif.C123_reset' depends on axioms: [propext, Quot.sound]
'Verif.C123_nothing_left' depends on axioms: [propext, Classical.choice, Quot.sound]
'Verif.C123_verdict' depends on axioms: [propext, Classical.choice, Quot.sound]
'Verif.C124_observer' depends on axioms: [propext, Classical.choice, Quot.sound]
'Verif.C124_same' depends on axioms: [propext, Classical.choice, Quot.sound]
'Verif.C124_limits' depends on axioms: [propext, Quot.sound]
'Verif.C125_operation' depends on axioms: [propext, Quot.sound]
'Verif.C125_history' depends on axioms: [propext, Quot.sound]
'Verif.C125_common' depends on axioms: [propext, Quot.sound]
'Verif.C125_prepare' depends on axioms: [propext, Classical.choice, Quot.sound]
'Verif.C125_expect' depends on axioms: [propext, Classical.choice, Quot.sound]
'Verif.C125_test' depends on axioms: [propext, Classical.choice, Quot.sound]
'Verif.C126_operation' depends on axioms: [propext, Quot.sound]
'Verif.C126_history' depends on axioms: [propext, Quot.sound]
'Verif.C126_nameless' depends on axioms: [propext, Classical.choice, Quot.sound]
'Verif.C126_prepare' depends on axioms: [propext, Classical.choice, Quot.sound]
'Verif.C126_expect' depends on axioms: [propext, Classical.choice, Quot.sound]
'Verif.C126_test' depends on axioms: [propext, Classical.choice, Quot.sound]
'Verif.C127_operation' depends on axioms: [propext, Quot.sound]
'Verif.C127_history' depends on axioms: [propext, Quot.sound]
'Verif.C127_sealed' depends on axioms: [propext, Quot.sound]
'Verif.C127_types' depends on axioms: [propext, Classical.choice, Quot.sound]
'Verif.C127_wordless' depends on axioms: [propext, Classical.choice, Quot.sound]
'Verif.C127_prepare' depends on axioms: [propext, Classical.choice, Quot.sound]
'Verif.C127_expect' depends on axioms: [propext, Classical.choice, Quot.sound]
'Verif.C127_test' depends on axioms: [propext, Classical.choice, Quot.sound]
'Verif.C128_uncounted' depends on axioms: [propext, Classical.choice, Quot.sound]
'Verif.C128_prepare' depends on axioms: [propext, Classical.choice, Quot.sound]
'Verif.C128_expect' depends on axioms: [propext, Classical.choice, Quot.sound]
'Verif.C128_test' depends on axioms: [propext, Classical.choice, Quot.sound]
'Verif.C128_needless' depends on axioms: [propext, Classical.choice, Quot.sound]
'Verif.C129_observers' depends on axioms: [propext, Quot.sound]
'Verif.C129_expect' depends on axioms: [propext, Classical.choice, Quot.sound]
'Verif.C129_later' depends on axioms: [propext, Classical.choice, Quot.sound]
'Verif.C129_replace' depends on axioms: [propext, Classical.choice, Quot.sound]
'Verif.C129_plain' depends on axioms: [propext, Classical.choice, Quot.sound]
'Verif.C130_run' depends on axioms: [propext, Classical.choice, Quot.sound]
'Verif.C130_prepare' depends on axioms: [propext, Classical.choice, Quot.sound]
'Verif.C130_indifferent' depends on axioms: [propext, Classical.choice, Quot.sound]
'Verif.C130_expect' depends on axioms: [propext, Classical.choice, Quot.sound]
```
