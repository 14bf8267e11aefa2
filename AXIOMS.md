# Axioms of the theorems in MANIFEST.json

Generated by `tools/axioms.py` from `#print axioms`.

| theorem | axioms |
|---|---|
| `J8a.C01_longest_match` | propext, Classical.choice, Quot.sound |
| `J8a.C01_configured` | propext, Classical.choice, Quot.sound |
| `J8a.C01_order_independent` | propext, Classical.choice, Quot.sound |
| `J8a.C02_unrouted` | propext, Classical.choice, Quot.sound |
| `J8a.C02_own_404` | propext, Classical.choice, Quot.sound |
| `J8a.C03_violated` | propext, Classical.choice, Quot.sound |
| `J8a.C03_violated_boot` | propext, Classical.choice, Quot.sound |
| `J8a.C03_partial` | propext, Classical.choice, Quot.sound |
| `J8a.C04_interval` | propext, Classical.choice, Quot.sound |
| `J8a.C04_exact_share` | propext, Classical.choice, Quot.sound |
| `J8a.C04_zero_weight_never` | propext, Classical.choice, Quot.sound |
| `J8a.C05_violated` | propext, Classical.choice, Quot.sound |
| `J8a.C05_partial` | propext, Classical.choice, Quot.sound |
| `J8a.C05_exact_partial` | propext, Classical.choice, Quot.sound |
| `J8a.SortRace.C06_partial` | propext, Quot.sound |
| `J8a.SortRace.C06_violated` | propext, Classical.choice, Quot.sound |
| `J8a.SortRace.C06_violated_forever` | propext, Classical.choice, Quot.sound |
| `J8a.SortRace.C06_violated_steady` | propext, Classical.choice, Quot.sound |
| `J8a.SortRace.C06_sequential` | propext, Classical.choice, Quot.sound |
| `J8a.SortRace.C06_warm_partial` | propext, Classical.choice, Quot.sound |
| `J8a.SortRace.C06_serial_partial` | propext, Classical.choice, Quot.sound |
| `J8a.C07_mapped_sound` | propext, Classical.choice, Quot.sound |
| `J8a.C07_not_mapped_iff` | propext, Classical.choice, Quot.sound |
| `J8a.C08_transform` | propext, Classical.choice, Quot.sound |
| `J8a.C08_booted` | propext, Classical.choice, Quot.sound |
| `J8a.C09_violated` | propext, Classical.choice, Quot.sound |
| `J8a.C09_partial` | propext, Classical.choice, Quot.sound |
| `J8a.C09_root_transform_partial` | propext, Classical.choice, Quot.sound |
| `J8a.C10_downstream_defaults` | propext, Classical.choice, Quot.sound |
| `J8a.C10_upstream_defaults` | propext |
| `J8a.C10_defaults_idempotent` | propext, Classical.choice, Quot.sound |
| `J8a.C10_boot_connection` | propext, Classical.choice, Quot.sound |
| `J8a.C11_scheme` | propext, Classical.choice, Quot.sound |
| `J8a.C11_idempotent` | propext, Classical.choice, Quot.sound |
| `J8a.C11_boot_resources` | propext, Classical.choice, Quot.sound |
| `J8a.C12_default_policy` | propext, Classical.choice, Quot.sound |
| `J8a.C13_boot_sound` | propext, Classical.choice, Quot.sound |
| `J8a.C13_boot_refused` | propext, Classical.choice, Quot.sound |
| `J8a.C14_verified_key` | propext, Classical.choice, Quot.sound |
| `J8a.C14_booted` | propext, Classical.choice, Quot.sound |
| `J8a.C15_rejected_partial` | propext, Classical.choice, Quot.sound |
| `J8a.C15_malformed_crashes` | propext, Classical.choice, Quot.sound |
| `J8a.C15_violated` | propext, Classical.choice, Quot.sound |
| `J8a.C16_violated` | propext, Classical.choice, Quot.sound |
| `J8a.C16_scheme_token_partial` | propext, Classical.choice, Quot.sound |
| `J8a.C16_bearer_taken_partial` | propext, Classical.choice, Quot.sound |
| `J8a.C17_some_key` | propext, Classical.choice, Quot.sound |
| `J8a.C18_violated` | propext, Quot.sound |
| `J8a.C18_violated_overflow` | propext, Classical.choice, Quot.sound |
| `J8a.C18_violated_epoch` | propext, Quot.sound |
| `J8a.C18_date_claims_partial` | propext, Classical.choice, Quot.sound |
| `J8a.C19_violated` | none |
| `J8a.C19_monotone_partial` | propext, Classical.choice, Quot.sound |
| `J8a.C19_exp_monotone_partial` | propext, Quot.sound |
| `J8a.C20_violated` | propext, Classical.choice, Quot.sound |
| `J8a.C20_violated_refresh` | propext, Classical.choice, Quot.sound |
| `J8a.C20_new_kid_partial` | propext, Classical.choice, Quot.sound |
| `J8a.C20_find_after_upsert_partial` | propext, Classical.choice, Quot.sound |
| `J8a.C21_any_schedule` | propext, Classical.choice, Quot.sound |
| `J8a.C21_never_forgets` | propext, Classical.choice, Quot.sound |
| `J8a.C22_one_fetch` | propext, Classical.choice, Quot.sound |
| `J8a.C22_ten_seconds` | propext, Classical.choice, Quot.sound |
| `J8a.C22_log_faithful` | propext, Classical.choice, Quot.sound |
| `J8a.C23_only_configured_alg` | propext, Classical.choice, Quot.sound |
| `J8a.C23_no_remote_secrets` | propext, Classical.choice, Quot.sound |
| `J8a.C23_foreign_alg_rejected` | propext, Classical.choice, Quot.sound |
| `J8a.C24_violated` | propext, Classical.choice, Quot.sound |
| `J8a.C24_returns_partial` | propext, Classical.choice, Quot.sound |
| `J8a.C25_validate_sound` | propext, Classical.choice, Quot.sound |
| `J8a.C25_skew_is_a_number` | propext, Classical.choice, Quot.sound |
| `J8a.C26_rsa` | propext, Classical.choice, Quot.sound |
| `J8a.C26_ec` | propext, Classical.choice, Quot.sound |
| `J8a.C26_rejected_stores_nothing` | propext, Classical.choice, Quot.sound |
| `J8a.C26_rsa_accepts` | propext, Classical.choice, Quot.sound |
| `J8a.C26_ec_accepts` | propext, Classical.choice, Quot.sound |
| `J8a.C27_always_checked_partial` | propext, Classical.choice, Quot.sound |
| `J8a.C27_violated_about` | propext, Classical.choice, Quot.sound |
| `J8a.C28_body_bounded` | propext, Classical.choice, Quot.sound |
| `J8a.C29_violated` | propext, Classical.choice, Quot.sound |
| `J8a.C29_declared_partial` | propext, Classical.choice, Quot.sound |
| `J8a.C29_complete_partial` | propext, Classical.choice, Quot.sound |
| `J8a.C29_nothing_forwarded_partial` | propext, Classical.choice, Quot.sound |
| `J8a.C30_forwarded_exactly` | propext, Classical.choice, Quot.sound |
| `J8a.C30_accepted` | propext, Classical.choice, Quot.sound |
| `J8a.C30_at_limit` | propext, Classical.choice, Quot.sound |
| `J8a.C31_violated` | propext, Classical.choice, Quot.sound |
| `J8a.C31_no_fragment_partial` | propext, Classical.choice, Quot.sound |
| `J8a.C31_failed_read_partial` | propext, Classical.choice, Quot.sound |
| `J8a.C32_request_id` | propext, Classical.choice, Quot.sound |
| `J8a.C33_illegal` | propext, Classical.choice, Quot.sound |
| `J8a.C33_own_400` | propext, Classical.choice, Quot.sound |
| `J8a.C33_upstream_method` | propext, Classical.choice, Quot.sound |
| `J8a.C34_headers` | propext, Classical.choice, Quot.sound |
| `J8a.C34_any_case` | propext, Classical.choice, Quot.sound |
| `J8a.C34_order_irrelevant` | propext, Classical.choice, Quot.sound |
| `J8a.C35_violated` | propext, Classical.choice, Quot.sound |
| `J8a.C35_partial` | propext, Classical.choice, Quot.sound |
| `J8a.C36_own_headers_partial` | propext, Classical.choice, Quot.sound |
| `J8a.C36_partial` | propext, Classical.choice, Quot.sound |
| `J8a.C36_status_partial` | propext, Classical.choice, Quot.sound |
| `J8a.C36_violated` | propext, Classical.choice, Quot.sound |
| `J8a.C37_partial` | propext, Classical.choice, Quot.sound |
| `J8a.C37_every_schedule_partial` | propext, Classical.choice, Quot.sound |
| `J8a.C37_violated` | propext, Classical.choice, Quot.sound |
| `J8a.C38_partial` | propext, Classical.choice, Quot.sound |
| `J8a.C38_violated` | propext, Classical.choice, Quot.sound |
| `J8a.C39_partial` | propext, Classical.choice, Quot.sound |
| `J8a.C39_violated` | propext, Classical.choice, Quot.sound |
| `J8a.C39_violated_witness` | propext, Classical.choice, Quot.sound |
| `J8a.C40_partial` | propext, Classical.choice, Quot.sound |
| `J8a.C40_orderly_partial` | propext, Classical.choice, Quot.sound |
| `J8a.C40_violated` | propext, Classical.choice, Quot.sound |
| `J8a.C41_every_schedule_partial` | propext, Classical.choice, Quot.sound |
| `J8a.C41_partial` | propext, Classical.choice, Quot.sound |
| `J8a.C41_violated` | propext, Classical.choice, Quot.sound |
| `J8a.C42_identity_headers` | propext, Classical.choice, Quot.sound |
| `J8a.C43_own_bodies` | propext, Classical.choice, Quot.sound |
| `J8a.C43_message` | propext, Classical.choice, Quot.sound |
| `J8a.C44_partial` | propext, Classical.choice, Quot.sound |
| `J8a.C44_violated` | propext, Classical.choice, Quot.sound |
| `J8a.C45_attempts_bounded` | propext, Classical.choice, Quot.sound |
| `J8a.C45_attempts_pos` | propext, Classical.choice, Quot.sound |
| `J8a.C45_one_call_per_attempt` | propext, Classical.choice, Quot.sound |
| `J8a.C46_one_response` | propext, Classical.choice, Quot.sound |
| `J8a.C46_response_final` | propext, Classical.choice, Quot.sound |
| `J8a.C47_after_deadline` | propext, Classical.choice, Quot.sound |
| `J8a.C47_after_observation` | propext, Classical.choice, Quot.sound |
| `J8a.C48_decision` | propext, Classical.choice, Quot.sound |
| `J8a.C48_outcome` | propext, Classical.choice, Quot.sound |
| `J8a.C49_bounded` | propext, Classical.choice, Quot.sound |
| `J8a.C49_terminates` | propext, Classical.choice, Quot.sound |
| `J8a.C50_violated` | propext, Classical.choice, Quot.sound |
| `J8a.C50_covered_single` | propext, Classical.choice, Quot.sound |
| `J8a.C50_covered_no_timeout` | propext, Classical.choice, Quot.sound |
| `J8a.C50_answer_partial` | propext, Classical.choice, Quot.sound |
| `J8a.C50_partial` | propext, Classical.choice, Quot.sound |
| `J8a.C51_violated` | propext, Classical.choice, Quot.sound |
| `J8a.C51_partial` | propext, Classical.choice, Quot.sound |
| `J8a.C52_cancel_all` | propext, Classical.choice, Quot.sound |
| `J8a.C52_stay_cancelled` | propext, Classical.choice, Quot.sound |
| `J8a.C53_violated` | propext, Classical.choice, Quot.sound |
| `J8a.C53_partial` | propext, Classical.choice, Quot.sound |
| `J8a.C53_orderly_partial` | propext, Classical.choice, Quot.sound |
| `J8a.C54_closed_once` | propext, Classical.choice, Quot.sound |
| `J8a.C55_gzip_result` | propext, Classical.choice, Quot.sound |
| `J8a.C55_gunzip_result` | propext, Classical.choice, Quot.sound |
| `J8a.C55_history_independent` | propext, Classical.choice, Quot.sound |
| `J8a.C55_no_sharing` | propext, Classical.choice, Quot.sound |
| `J8a.C55_input_kept` | propext, Quot.sound |
| `J8a.C55_magic_bytes` | propext |
| `J8a.C56_history_is_last_24` | propext, Classical.choice, Quot.sound |
| `J8a.C56_fill_forgotten` | propext, Classical.choice, Quot.sound |
| `J8a.C56_always_24` | propext, Classical.choice, Quot.sound |
| `J8a.C57_incomplete_not_flagged` | propext, Classical.choice, Quot.sound |
| `J8a.C57_one_rate_per_sample` | propext |
| `J8a.C57_flagged_iff_rounded` | propext, Classical.choice, Quot.sound |
| `J8a.C57_flagged_iff_doubled_partial` | propext, Classical.choice, Quot.sound |
| `J8a.C57_violated_by_rounding` | propext, Classical.choice, Quot.sound |
| `J8a.C57_violated_by_zero` | propext, Classical.choice, Quot.sound |
| `J8a.C58_one_marked_minimal` | propext, Quot.sound |
| `J8a.C58_none_expires_earlier_partial` | propext, Quot.sound |
| `J8a.C58_expiry_within_clock_progress` | propext, Quot.sound |
| `J8a.C58_violated_clock_moves` | propext, Quot.sound |
| `J8a.C59_panics_iff` | propext, Classical.choice, Quot.sound |
| `J8a.C59_dashed_hex_partial` | propext, Classical.choice, Quot.sound |
| `J8a.C59_violated_three_digits` | propext, Classical.choice, Quot.sound |
| `J8a.C59_violated_twenty_bytes` | propext, Classical.choice, Quot.sound |
| `J8a.C60_started_only_verified_partial` | propext, Classical.choice, Quot.sound |
| `J8a.C60_roots_self_issued_partial` | propext, Classical.choice, Quot.sound |
| `J8a.C60_good_chain_starts` | propext, Quot.sound |
| `J8a.C60_violated_root_not_self_signed` | propext, Classical.choice, Quot.sound |
| `J8a.C61_ipv4_exact` | propext, Classical.choice, Quot.sound |
| `J8a.C62_full_exact_partial` | propext, Classical.choice, Quot.sound |
| `J8a.C62_gap_last_exact_partial` | propext, Classical.choice, Quot.sound |
| `J8a.C62_gap_first_exact_partial` | propext, Classical.choice, Quot.sound |
| `J8a.C62_gap_middle_result` | propext, Classical.choice, Quot.sound |
| `J8a.C62_gap_middle_exact_iff` | propext, Classical.choice, Quot.sound |
| `J8a.C62_violated_truncated` | propext, Classical.choice, Quot.sound |
| `J8a.C62_violated_wrong_start` | propext, Classical.choice, Quot.sound |
| `J8a.C63_larger_iff` | propext, Classical.choice, Quot.sound |
| `J8a.C63_one_second_more_partial` | propext, Classical.choice, Quot.sound |
| `J8a.C63_violated_overflow` | propext, Classical.choice, Quot.sound |
| `J8a.C64_precedence` | propext, Classical.choice, Quot.sound |
| `J8a.C64_file_alone` | propext, Classical.choice, Quot.sound |
| `J8a.C65_starts_iff` | propext, Classical.choice, Quot.sound |
| `J8a.C65_answer` | propext, Classical.choice, Quot.sound |
| `J8a.C65_about_iff` | propext, Classical.choice, Quot.sound |
| `J8a.C65_eventually` | propext, Classical.choice, Quot.sound |
| `J8a.C65_violated` | propext, Classical.choice, Quot.sound |
| `J8a.C66_truthful` | propext, Classical.choice, Quot.sound |
| `J8a.C66_delivered` | propext, Classical.choice, Quot.sound |
| `J8a.C67_violated_logger_panics` | propext |
| `J8a.C67_violated_rates_too_short` | propext |
| `J8a.C67_no_panic_between_appends_partial` | propext, Classical.choice, Quot.sound |
| `J8a.C68_violated_by_serial` | propext |
| `J8a.C68_goes_on_partial` | propext, Quot.sound |
| `J8a.C69_warns_iff_month_left_partial` | propext, Quot.sound |
| `J8a.C69_violated_after_expiry` | propext, Classical.choice, Quot.sound |
| `J8a.C70_answer_iff` | propext, Quot.sound |
| `J8a.C70_answer_partial` | propext, Classical.choice, Quot.sound |
| `J8a.C70_violated` | propext, Classical.choice, Quot.sound |
| `J8a.C71_longest_partial` | propext, Classical.choice, Quot.sound |
| `J8a.C71_hidden_iff` | propext, Classical.choice, Quot.sound |
| `J8a.C71_violated` | propext, Classical.choice, Quot.sound |
| `J8a.C72_no_dot_segments_partial` | propext, Classical.choice, Quot.sound |
| `J8a.C72_violated_connect` | propext, Classical.choice, Quot.sound |
| `J8a.C73_one_request` | propext, Classical.choice, Quot.sound |
| `J8a.C74_result` | propext, Classical.choice, Quot.sound |
| `J8a.C74_handed_on_partial` | propext, Classical.choice, Quot.sound |
| `J8a.C74_violated` | propext, Classical.choice, Quot.sound |
| `J8a.C75_wire_partial` | propext, Classical.choice, Quot.sound |
| `J8a.C75_violated` | propext, Classical.choice, Quot.sound |
| `J8a.C76_violated` | propext, Classical.choice, Quot.sound |
| `J8a.C76_partial` | propext, Classical.choice, Quot.sound |
| `J8a.C76_violated_witness` | propext, Classical.choice, Quot.sound |
| `J8a.C77_partial` | propext, Classical.choice, Quot.sound |
| `J8a.C77_violated` | propext, Classical.choice, Quot.sound |
| `J8a.C78_failed_read_partial` | propext, Classical.choice, Quot.sound |
| `J8a.C78_violated` | propext, Classical.choice, Quot.sound |
| `J8a.C79_released` | propext, Classical.choice, Quot.sound |
| `J8a.C79_closed_once` | propext, Classical.choice, Quot.sound |
| `J8a.C80_goroutines` | propext, Classical.choice, Quot.sound |
| `J8a.C81_logged_partial` | propext, Classical.choice, Quot.sound |
| `J8a.C81_violated` | propext, Classical.choice, Quot.sound |
| `J8a.C82_partial` | propext, Classical.choice, Quot.sound |
| `J8a.C82_violated` | propext, Classical.choice, Quot.sound |
| `J8a.C82_violated_empty` | propext, Classical.choice, Quot.sound |
| `J8a.SortRace.C83_in_range` | propext, Quot.sound |
| `J8a.SortRace.C83_terminates` | propext, Classical.choice, Quot.sound |
| `J8a.SortRace.C84_configured` | propext, Quot.sound |
| `J8a.Rand.C85_since_reseed_partial` | propext, Quot.sound |
| `J8a.Rand.C85_no_own_partial` | propext, Quot.sound |
| `J8a.Rand.C85_violated` | propext |
| `J8a.Rand.C85_violated_same_dice` | propext |
| `J8a.Rand.C85_violated_outage` | propext |
| `J8a.Rand.C85_violated_one_label` | propext, Classical.choice, Quot.sound |
| `J8a.C86_framing_partial` | propext, Classical.choice, Quot.sound |
| `J8a.C86_response_partial` | propext, Classical.choice, Quot.sound |
| `J8a.C86_violated_always` | propext, Classical.choice, Quot.sound |
| `J8a.C86_violated` | propext, Classical.choice, Quot.sound |
| `J8a.C86_violated_response` | propext, Classical.choice, Quot.sound |
| `J8a.C87_partial` | propext, Classical.choice, Quot.sound |
| `J8a.C87_violated_always` | propext, Classical.choice, Quot.sound |
| `J8a.C87_violated` | propext, Classical.choice, Quot.sound |
| `J8a.C88_violated_always` | propext, Classical.choice, Quot.sound |
| `J8a.C88_violated` | propext, Classical.choice, Quot.sound |
| `J8a.C88_violated_unavailable` | propext, Classical.choice, Quot.sound |
| `J8a.C88_violated_crash` | propext, Classical.choice, Quot.sound |
| `J8a.C88_partial` | propext, Classical.choice, Quot.sound |
| `J8a.C89_partial` | propext, Classical.choice, Quot.sound |
| `J8a.C89_violated_always` | propext, Classical.choice, Quot.sound |
| `J8a.C89_violated` | propext, Classical.choice, Quot.sound |
| `J8a.C90_faithful_partial` | propext, Classical.choice, Quot.sound |
| `J8a.C90_boot_partial` | propext, Classical.choice, Quot.sound |
| `J8a.C90_violated_unknown` | propext, Classical.choice, Quot.sound |
| `J8a.C90_violated_mistyped` | propext, Classical.choice, Quot.sound |
| `J8a.C90_violated` | propext, Classical.choice, Quot.sound |
| `J8a.C91_wire_partial` | propext, Classical.choice, Quot.sound |
| `J8a.C91_violated` | propext, Classical.choice, Quot.sound |
| `J8a.C92_built_partial` | propext, Classical.choice, Quot.sound |
| `J8a.C92_exact` | propext, Classical.choice, Quot.sound |
| `J8a.C92_violated_always` | propext, Classical.choice, Quot.sound |
| `J8a.C92_violated` | propext, Classical.choice, Quot.sound |
| `J8a.C92_violated_root` | propext, Classical.choice, Quot.sound |
| `J8a.C93_same_partial` | propext, Classical.choice, Quot.sound |
| `J8a.C93_violated` | propext, Classical.choice, Quot.sound |
| `J8a.C93_violated_token` | propext, Classical.choice, Quot.sound |
| `J8a.C94_violated` | propext, Classical.choice, Quot.sound |
| `J8a.C94_violated_demo` | propext, Classical.choice, Quot.sound |
| `J8a.C95_below_partial` | propext, Classical.choice, Quot.sound |
| `J8a.C95_violated` | propext, Classical.choice, Quot.sound |
| `J8a.C95_violated_token` | propext, Classical.choice, Quot.sound |
| `J8a.C96_answered_by` | propext, Classical.choice, Quot.sound |
| `J8a.C96_before_write_deadline` | propext, Classical.choice, Quot.sound |
| `J8a.C96_time_passes` | propext, Classical.choice, Quot.sound |
| `J8a.C97_answered_by` | propext, Classical.choice, Quot.sound |
| `J8a.C97_answered_by_limit` | propext, Classical.choice, Quot.sound |
| `J8a.C97_one_attempt` | propext, Classical.choice, Quot.sound |
| `J8a.C98_duration_partial` | propext, Quot.sound |
| `J8a.C98_violated` | propext, Classical.choice, Quot.sound |
| `J8a.C99_all_loaded_partial` | propext, Classical.choice, Quot.sound |
| `J8a.C99_violated_always` | propext, Classical.choice, Quot.sound |
| `J8a.C99_violated` | propext, Classical.choice, Quot.sound |
| `J8a.C100_rotated_partial` | propext, Classical.choice, Quot.sound |
| `J8a.C100_violated_no_kid` | propext |
| `J8a.C100_violated_reused` | propext, Classical.choice, Quot.sound |
| `J8a.C101_violated_always` | propext, Classical.choice, Quot.sound |
| `J8a.C101_since_boot_partial` | propext, Classical.choice, Quot.sound |
| `J8a.C102_violated_stalled` | propext, Classical.choice, Quot.sound |
| `J8a.C102_refresh_possible_partial` | propext, Classical.choice, Quot.sound |
| `J8a.C103_strong` | propext, Quot.sound |
| `J8a.C103_logged` | propext, Classical.choice, Quot.sound |
| `J8a.C104_connects_partial` | propext, Quot.sound |
| `J8a.C104_violated_always` | propext, Quot.sound |
| `J8a.C104_violated` | propext, Quot.sound |
| `J8a.C105_preferred_partial` | propext, Quot.sound |
| `J8a.C105_violated_always` | propext, Quot.sound |
| `J8a.C105_violated` | propext, Quot.sound |
| `J8a.C106_no_crash_partial` | propext, Classical.choice, Quot.sound |
| `J8a.C106_violated_always` | propext, Classical.choice, Quot.sound |
| `J8a.C106_violated` | propext, Classical.choice, Quot.sound |
| `J8a.C107_final_partial` | propext, Classical.choice, Quot.sound |
| `J8a.C107_violated` | propext, Classical.choice, Quot.sound |
| `J8a.C108_exact` | propext, Classical.choice, Quot.sound |
| `J8a.C108_anchored_partial` | propext, Classical.choice, Quot.sound |
| `J8a.C108_violated_always` | propext, Classical.choice, Quot.sound |
| `J8a.C108_violated` | propext, Classical.choice, Quot.sound |
| `J8a.C109_refused_partial` | propext, Classical.choice, Quot.sound |
| `J8a.C109_exact` | propext, Classical.choice, Quot.sound |
| `J8a.C109_accepted` | propext, Classical.choice, Quot.sound |
| `J8a.C109_violated_always` | propext, Classical.choice, Quot.sound |
| `J8a.C109_violated` | propext, Classical.choice, Quot.sound |
| `J8a.C110_literal_partial` | propext, Classical.choice, Quot.sound |
| `J8a.C110_violated_always` | propext, Classical.choice, Quot.sound |
| `J8a.C110_violated` | propext, Classical.choice, Quot.sound |
| `J8a.C111_exact_partial` | propext, Classical.choice, Quot.sound |
| `J8a.C111_violated_always` | propext, Classical.choice, Quot.sound |
| `J8a.C111_violated` | propext, Classical.choice, Quot.sound |
| `J8a.C112_idle_bounded` | propext, Classical.choice, Quot.sound |
| `J8a.C112_reused` | propext, Quot.sound |
| `J8a.C113_at_rest_partial` | propext, Classical.choice, Quot.sound |
| `J8a.C113_violated_always` | propext, Classical.choice, Quot.sound |
| `J8a.C113_violated` | propext |
| `J8a.C114_sent_partial` | propext, Classical.choice, Quot.sound |
| `J8a.C114_violated_always` | propext, Classical.choice, Quot.sound |
| `J8a.C114_violated` | propext, Classical.choice, Quot.sound |
| `J8a.C115_probes_partial` | propext, Classical.choice, Quot.sound |
| `J8a.C115_violated_always` | propext, Classical.choice, Quot.sound |
| `J8a.C115_violated` | propext, Classical.choice, Quot.sound |
| `J8a.C116_partial` | propext, Classical.choice, Quot.sound |
| `J8a.C116_violated_always` | propext, Classical.choice, Quot.sound |
| `J8a.C116_violated` | propext, Classical.choice, Quot.sound |
| `J8a.C117_logged` | propext, Classical.choice, Quot.sound |
| `J8a.C117_ipv4_partial` | propext, Classical.choice, Quot.sound |
| `J8a.C117_same_partial` | propext, Classical.choice, Quot.sound |
| `J8a.C117_violated_always` | propext, Classical.choice, Quot.sound |
| `J8a.C117_violated` | propext, Classical.choice, Quot.sound |
| `J8a.C118_exact_partial` | propext, Classical.choice, Quot.sound |
| `J8a.C118_violated_always` | propext, Classical.choice, Quot.sound |
| `J8a.C118_violated` | propext, Classical.choice, Quot.sound |
| `J8a.C119_json_partial` | propext, Classical.choice, Quot.sound |
| `J8a.C119_access_partial` | propext, Classical.choice, Quot.sound |
| `J8a.C119_access_values_partial` | propext, Classical.choice, Quot.sound |
| `J8a.C119_console_partial` | propext, Classical.choice, Quot.sound |
| `J8a.C119_violated_always` | propext, Classical.choice, Quot.sound |
| `J8a.C119_violated` | propext, Classical.choice, Quot.sound |
| `J8a.C120_protocol` | propext, Classical.choice, Quot.sound |
| `J8a.C121_http2_partial` | propext, Classical.choice, Quot.sound |
| `J8a.C121_seconds_partial` | propext, Classical.choice, Quot.sound |
| `J8a.C121_http1_partial` | propext, Classical.choice, Quot.sound |
| `J8a.C121_violated_always` | propext, Classical.choice, Quot.sound |
| `J8a.C121_violated` | propext, Classical.choice, Quot.sound |
| `J8a.C122_writer` | propext, Classical.choice, Quot.sound |
| `J8a.C122_known_partial` | propext, Classical.choice, Quot.sound |
| `J8a.C122_exact_partial` | propext, Classical.choice, Quot.sound |
| `J8a.C122_violated_always` | propext, Quot.sound |
| `J8a.C122_violated` | propext, Classical.choice, Quot.sound |
| `J8a.C123_tls13_partial` | propext, Classical.choice, Quot.sound |
| `J8a.C123_floor_partial` | propext, Classical.choice, Quot.sound |
| `J8a.C123_violated_always` | propext, Classical.choice, Quot.sound |
| `J8a.C123_violated` | propext, Classical.choice, Quot.sound |
| `J8a.C124_verified` | propext, Classical.choice, Quot.sound |
| `J8a.C124_clear` | propext, Classical.choice, Quot.sound |
| `J8a.C124_served` | propext, Classical.choice, Quot.sound |
| `J8a.C125_static_partial` | propext, Classical.choice, Quot.sound |
| `J8a.C125_violated_always` | propext, Classical.choice, Quot.sound |
| `J8a.C125_violated` | propext, Classical.choice, Quot.sound |
| `J8a.C126_ec_partial` | propext, Classical.choice, Quot.sound |
| `J8a.C126_violated_rsa` | propext, Classical.choice, Quot.sound |
| `J8a.C126_violated_hmac` | propext, Classical.choice, Quot.sound |
| `J8a.C126_violated` | propext, Classical.choice, Quot.sound |
| `J8a.C127_kid` | propext, Classical.choice, Quot.sound |
| `J8a.C127_no_kid` | propext, Classical.choice, Quot.sound |
| `J8a.C127_not_string` | propext, Classical.choice, Quot.sound |
| `J8a.C127_garbage` | propext, Classical.choice, Quot.sound |
| `J8a.C127_only` | propext, Classical.choice, Quot.sound |
| `J8a.C127_named_key` | propext, Classical.choice, Quot.sound |
| `J8a.C127_unknown_key` | propext, Classical.choice, Quot.sound |
| `J8a.C128_read_partial` | propext, Classical.choice, Quot.sound |
| `J8a.C128_http1_partial` | propext, Classical.choice, Quot.sound |
| `J8a.C128_violated_always` | propext, Classical.choice, Quot.sound |
| `J8a.C128_violated` | propext, Classical.choice, Quot.sound |
| `J8a.C129_exact` | propext, Classical.choice, Quot.sound |
| `J8a.C129_violated` | propext, Classical.choice, Quot.sound |
| `J8a.C130_exact` | propext, Classical.choice, Quot.sound |
| `J8a.C130_violated` | propext, Classical.choice, Quot.sound |
| `J8a.C131_partial` | propext, Classical.choice, Quot.sound |
| `J8a.C131_violated_always` | propext, Classical.choice, Quot.sound |
| `J8a.C131_violated` | propext, Classical.choice, Quot.sound |
| `J8a.C132_exact` | propext, Classical.choice, Quot.sound |
| `J8a.C132_violated` | propext, Classical.choice, Quot.sound |
| `J8a.C133_exact` | propext, Classical.choice, Quot.sound |
| `J8a.C133_read_partial` | propext, Classical.choice, Quot.sound |
| `J8a.C133_own_partial` | propext, Classical.choice, Quot.sound |
| `J8a.C133_clean_partial` | propext, Classical.choice, Quot.sound |
| `J8a.C133_violated_always` | propext, Classical.choice, Quot.sound |
| `J8a.C133_violated` | propext, Classical.choice, Quot.sound |
| `J8a.C138_attempts` | propext, Classical.choice, Quot.sound |
| `J8a.C138_ended` | propext, Classical.choice, Quot.sound |
| `J8a.C138_codes` | propext, Classical.choice, Quot.sound |
| `J8a.C138_failed` | propext, Classical.choice, Quot.sound |
| `J8a.C138_outcome_partial` | propext, Classical.choice, Quot.sound |
| `J8a.C138_uri` | propext, Classical.choice, Quot.sound |
| `J8a.C138_never_recovers` | propext, Classical.choice, Quot.sound |
| `J8a.C138_level` | propext, Classical.choice, Quot.sound |
| `J8a.C138_fields` | propext, Classical.choice, Quot.sound |
| `J8a.C138_violated` | propext, Classical.choice, Quot.sound |
| `J8a.C139_independent_partial` | propext, Classical.choice, Quot.sound |
| `J8a.C139_violated_always` | propext, Classical.choice, Quot.sound |
| `J8a.C139_violated` | propext, Classical.choice, Quot.sound |
| `J8a.C139_token_partial` | propext, Classical.choice, Quot.sound |
| `J8a.C134_relayed_partial` | propext, Classical.choice, Quot.sound |
| `J8a.C134_violated_always` | propext, Classical.choice, Quot.sound |
| `J8a.C134_violated_own` | propext, Classical.choice, Quot.sound |
| `J8a.C134_violated` | propext, Classical.choice, Quot.sound |
| `J8a.C135_violated_always` | propext, Classical.choice, Quot.sound |
| `J8a.C135_id_partial` | propext, Classical.choice, Quot.sound |
| `J8a.C135_violated` | propext, Classical.choice, Quot.sound |
| `J8a.C136_violated_always` | propext, Classical.choice, Quot.sound |
| `J8a.C136_violated` | propext, Classical.choice, Quot.sound |
| `J8a.C137_own_partial` | propext, Classical.choice, Quot.sound |
| `J8a.C137_violated_always` | propext, Classical.choice, Quot.sound |
| `J8a.C137_violated` | propext, Classical.choice, Quot.sound |
| `J8a.C140_form_partial` | propext, Classical.choice, Quot.sound |
| `J8a.C140_text_partial` | propext, Classical.choice, Quot.sound |
| `J8a.C140_source_partial` | propext, Classical.choice, Quot.sound |
| `J8a.C140_violated_always` | propext, Classical.choice, Quot.sound |
| `J8a.C140_violated` | propext, Classical.choice, Quot.sound |
| `J8a.C140_violated_hosts` | propext, Classical.choice, Quot.sound |
| `J8a.C141_accepted_partial` | propext, Classical.choice, Quot.sound |
| `J8a.C141_rejected_partial` | propext, Classical.choice, Quot.sound |
| `J8a.C141_dates_partial` | propext, Classical.choice, Quot.sound |
| `J8a.C141_unsigned_partial` | propext, Classical.choice, Quot.sound |
| `J8a.C141_kid_partial` | propext, Classical.choice, Quot.sound |
| `J8a.C141_violated_always` | propext, Classical.choice, Quot.sound |
| `J8a.C141_violated_malformed_always` | propext, Classical.choice, Quot.sound |
| `J8a.C141_violated_early_always` | propext, Classical.choice, Quot.sound |
| `J8a.C141_violated` | propext, Classical.choice, Quot.sound |
| `J8a.C142_authority_partial` | propext, Classical.choice, Quot.sound |
| `J8a.C142_leaf_partial` | propext, Classical.choice, Quot.sound |
| `J8a.C142_violated_disruption` | propext, Classical.choice, Quot.sound |
| `J8a.C142_violated_sign` | propext, Classical.choice, Quot.sound |
| `J8a.C142_violated_saturated` | propext, Classical.choice, Quot.sound |
| `J8a.C142_violated_unmarked` | propext, Classical.choice, Quot.sound |
| `J8a.C143_form_partial` | propext, Classical.choice, Quot.sound |
| `J8a.C143_distinct_partial` | propext, Classical.choice, Quot.sound |
| `J8a.C143_violated_source` | propext, Classical.choice, Quot.sound |
| `J8a.C143_violated_chosen` | propext, Classical.choice, Quot.sound |
| `J8a.C144_uptime_true` | propext, Classical.choice, Quot.sound |
| `J8a.C144_violated_first_day` | propext, Classical.choice, Quot.sound |
| `J8a.C144_growth_partial` | propext, Classical.choice, Quot.sound |
| `J8a.C144_violated_fallen` | propext, Classical.choice, Quot.sound |
| `J8a.C144_violated_early` | propext, Classical.choice, Quot.sound |
| `J8a.C144_violated_span` | propext, Classical.choice, Quot.sound |
| `J8a.C145_readings_kept_partial` | propext, Classical.choice, Quot.sound |
| `J8a.C145_violated_reading` | propext, Quot.sound |
| `J8a.C145_violated_process` | propext, Quot.sound |
| `J8a.C145_violated` | propext, Quot.sound |
| `J8a.C146_violated_always` | propext, Classical.choice, Quot.sound |
| `J8a.C146_violated_uncancelled` | propext, Classical.choice, Quot.sound |
| `J8a.C146_bounded_partial` | propext, Classical.choice, Quot.sound |
| `J8a.C146_violated` | propext, Classical.choice, Quot.sound |
| `J8a.C147_secret_partial` | propext, Classical.choice, Quot.sound |
| `J8a.C147_static_partial` | propext, Classical.choice, Quot.sound |
| `J8a.C147_violated` | propext, Classical.choice, Quot.sound |
| `J8a.C148_remote_partial` | propext, Classical.choice, Quot.sound |
| `J8a.C148_static_partial` | propext, Classical.choice, Quot.sound |
| `J8a.C148_boot_partial` | propext, Classical.choice, Quot.sound |
| `J8a.C148_violated_size` | propext, Classical.choice, Quot.sound |
| `J8a.C148_violated_remote` | propext, Classical.choice, Quot.sound |
| `J8a.C148_violated_hmac` | propext, Classical.choice, Quot.sound |
| `J8a.C149_location_partial` | propext, Classical.choice, Quot.sound |
| `J8a.C149_followed_partial` | propext, Classical.choice, Quot.sound |
| `J8a.C149_violated_slash` | propext, Classical.choice, Quot.sound |
| `J8a.C149_violated_opaque` | propext, Classical.choice, Quot.sound |
| `J8a.C149_violated_fragment` | propext, Classical.choice, Quot.sound |
| `J8a.C150_one_token_partial` | propext, Classical.choice, Quot.sound |
| `J8a.C150_first_partial` | propext, Classical.choice, Quot.sound |
| `J8a.C150_violated` | propext, Classical.choice, Quot.sound |
| `J8a.C151_request_partial` | propext, Classical.choice, Quot.sound |
| `J8a.C151_violated` | propext, Classical.choice, Quot.sound |
| `J8a.C152_announced_partial` | propext, Classical.choice, Quot.sound |
| `J8a.C152_violated_always` | propext, Classical.choice, Quot.sound |
| `J8a.C152_violated` | propext, Classical.choice, Quot.sound |
| `J8a.C153_proxy_partial` | propext, Classical.choice, Quot.sound |
| `J8a.C153_about_partial` | propext, Classical.choice, Quot.sound |
| `J8a.C153_handled_iff` | propext, Classical.choice, Quot.sound |
| `J8a.C153_violated_always` | propext, Classical.choice, Quot.sound |
| `J8a.C153_violated` | propext, Classical.choice, Quot.sound |
| `J8a.C154_quiet_partial` | propext, Classical.choice, Quot.sound |
| `J8a.C154_violated_old_always` | propext, Classical.choice, Quot.sound |
| `J8a.C154_violated` | propext, Classical.choice, Quot.sound |
| `J8a.C154_violated_connect_always` | propext, Classical.choice, Quot.sound |
| `J8a.C154_violated_connect` | propext, Classical.choice, Quot.sound |
| `J8a.C154_said_partial` | propext, Classical.choice, Quot.sound |
| `J8a.C155_announced_partial` | propext, Classical.choice, Quot.sound |
| `J8a.C155_violated` | propext, Classical.choice, Quot.sound |
| `J8a.C155_violated_connect_always` | propext, Classical.choice, Quot.sound |
| `J8a.C156_partial` | propext, Classical.choice, Quot.sound |
| `J8a.C156_violated_always` | propext, Classical.choice, Quot.sound |
| `J8a.C156_violated` | propext, Classical.choice, Quot.sound |
| `J8a.C157_started_partial` | propext, Classical.choice, Quot.sound |
| `J8a.C157_listening_partial` | propext, Classical.choice, Quot.sound |
| `J8a.C157_violated` | propext, Classical.choice, Quot.sound |
| `J8a.C158_private_key` | propext, Classical.choice, Quot.sound |
| `J8a.C159_quiet_partial` | propext, Classical.choice, Quot.sound |
| `J8a.C159_after_partial` | propext, Classical.choice, Quot.sound |
| `J8a.C159_violated_always` | propext, Classical.choice, Quot.sound |
| `J8a.C160_level` | propext, Classical.choice, Quot.sound |
| `J8a.C160_told` | propext, Classical.choice, Quot.sound |
| `J8a.C161_told` | propext, Classical.choice, Quot.sound |
| `J8a.C161_partial` | propext, Classical.choice, Quot.sound |
| `J8a.C161_instant` | propext, Classical.choice, Quot.sound |
| `J8a.C161_violated` | propext, Classical.choice, Quot.sound |
| `J8a.C162_granted` | propext, Classical.choice, Quot.sound |
| `J8a.C162_sends_partial` | propext, Classical.choice, Quot.sound |
| `J8a.C162_violated` | propext, Classical.choice, Quot.sound |
| `J8a.C163_refuses_partial` | propext, Classical.choice, Quot.sound |
| `J8a.C163_violated` | propext, Classical.choice, Quot.sound |
| `J8a.C164_named` | propext, Classical.choice, Quot.sound |
| `J8a.C164_exits` | propext, Classical.choice, Quot.sound |
| `J8a.C164_started_partial` | propext, Classical.choice, Quot.sound |
| `J8a.C164_file_alone` | propext, Classical.choice, Quot.sound |
| `J8a.C164_variable_alone` | propext, Classical.choice, Quot.sound |
| `J8a.C164_violated` | propext, Classical.choice, Quot.sound |
| `J8a.C164_violated_empty` | propext, Classical.choice, Quot.sound |
| `J8a.C165_sound_partial` | propext, Classical.choice, Quot.sound |
| `J8a.C165_delivered_partial` | propext, Classical.choice, Quot.sound |
| `J8a.C165_accepted_partial` | propext, Classical.choice, Quot.sound |
| `J8a.C165_wire_partial` | propext, Classical.choice, Quot.sound |
| `J8a.C165_violated_always` | propext, Classical.choice, Quot.sound |
| `J8a.C165_violated` | propext, Classical.choice, Quot.sound |
| `J8a.C166_sound_partial` | propext, Classical.choice, Quot.sound |
| `J8a.C166_received_partial` | propext, Classical.choice, Quot.sound |
| `J8a.C166_accepted_partial` | propext, Classical.choice, Quot.sound |
| `J8a.C166_wire_partial` | propext, Classical.choice, Quot.sound |
| `J8a.C166_content_partial` | propext, Classical.choice, Quot.sound |
| `J8a.C166_violated_always` | propext, Classical.choice, Quot.sound |
| `J8a.C166_violated` | propext, Classical.choice, Quot.sound |
| `J8a.C167_replies_partial` | propext, Classical.choice, Quot.sound |
| `J8a.C167_pairs_partial` | propext, Classical.choice, Quot.sound |
| `J8a.C167_partial` | propext, Classical.choice, Quot.sound |
| `J8a.C167_violated_always` | propext, Classical.choice, Quot.sound |
| `J8a.C167_violated` | propext, Classical.choice, Quot.sound |
| `J8a.C168_partial` | propext, Classical.choice, Quot.sound |
| `J8a.C168_violated_empty` | propext, Classical.choice, Quot.sound |
| `J8a.C168_violated` | propext, Classical.choice, Quot.sound |
| `J8a.C169_partial` | propext, Classical.choice, Quot.sound |
| `J8a.C169_old_partial` | propext, Classical.choice, Quot.sound |
| `J8a.C169_violated_old` | propext, Classical.choice, Quot.sound |
| `J8a.C169_violated` | propext, Classical.choice, Quot.sound |
| `J8a.C169_violated_words` | propext, Classical.choice, Quot.sound |
| `J8a.C170_relayed_partial` | propext, Classical.choice, Quot.sound |
| `J8a.C170_violated` | propext, Classical.choice, Quot.sound |
| `J8a.C171_exact_partial` | propext, Classical.choice, Quot.sound |
| `J8a.C171_own_partial` | propext, Classical.choice, Quot.sound |
| `J8a.C171_violated` | propext, Classical.choice, Quot.sound |
| `J8a.C171_violated_always` | propext, Classical.choice, Quot.sound |
| `J8a.C172_partial` | propext, Classical.choice, Quot.sound |
| `J8a.C172_violated_always` | propext, Classical.choice, Quot.sound |
| `J8a.C172_violated` | propext, Classical.choice, Quot.sound |
| `J8a.C173_own_partial` | propext, Classical.choice, Quot.sound |
| `J8a.C173_ended_partial` | propext, Classical.choice, Quot.sound |
| `J8a.C173_whole_partial` | propext, Classical.choice, Quot.sound |
| `J8a.C173_waiting_partial` | propext, Classical.choice, Quot.sound |
| `J8a.C173_close_partial` | propext, Classical.choice, Quot.sound |
| `J8a.C173_reused` | propext, Classical.choice, Quot.sound |
| `J8a.C173_abandoned` | propext, Classical.choice, Quot.sound |
| `J8a.C173_violated_always` | propext, Classical.choice, Quot.sound |
| `J8a.C173_violated` | propext, Classical.choice, Quot.sound |
| `J8a.C174_alone` | propext, Classical.choice, Quot.sound |
| `J8a.C174_source` | propext, Classical.choice, Quot.sound |
| `J8a.C174_own_partial` | propext, Classical.choice, Quot.sound |
| `J8a.C174_message_partial` | propext, Classical.choice, Quot.sound |
| `J8a.C174_violated_always` | propext, Classical.choice, Quot.sound |
| `J8a.C174_violated` | propext, Classical.choice, Quot.sound |
| `J8a.C175_partial` | propext, Classical.choice, Quot.sound |
| `J8a.C175_violated_always` | propext, Classical.choice, Quot.sound |
| `J8a.C175_violated` | propext, Classical.choice, Quot.sound |
| `J8a.C176_finished` | propext, Classical.choice, Quot.sound |
| `J8a.C177_source_partial` | propext, Classical.choice, Quot.sound |
| `J8a.C177_message_partial` | propext, Classical.choice, Quot.sound |
| `J8a.C177_violated` | propext, Classical.choice, Quot.sound |
| `J8a.C177_refused_partial` | propext, Classical.choice, Quot.sound |
| `J8a.C178_refused_partial` | propext, Classical.choice, Quot.sound |
| `J8a.C178_requests_partial` | propext, Classical.choice, Quot.sound |
| `J8a.C178_exchange_partial` | propext, Classical.choice, Quot.sound |
| `J8a.C178_violated` | propext, Classical.choice, Quot.sound |
| `J8a.C179_turned_partial` | propext, Classical.choice, Quot.sound |
| `J8a.C179_violated` | propext, Classical.choice, Quot.sound |
| `J8a.C180_answered_partial` | propext, Classical.choice, Quot.sound |
| `J8a.C180_violated` | propext, Classical.choice, Quot.sound |
| `J8a.C180_violated_always` | propext, Classical.choice, Quot.sound |
| `J8a.C181_refused_partial` | propext, Classical.choice, Quot.sound |
| `J8a.C181_violated` | propext, Classical.choice, Quot.sound |
| `J8a.C182_admitted_partial` | propext, Classical.choice, Quot.sound |
| `J8a.C182_violated` | propext, Classical.choice, Quot.sound |
| `J8a.C183_passed_partial` | propext, Classical.choice, Quot.sound |
| `J8a.C183_violated` | propext, Classical.choice, Quot.sound |
| `J8a.C184_alive_partial` | propext, Classical.choice, Quot.sound |
| `J8a.C184_violated` | propext, Classical.choice, Quot.sound |
| `J8a.C185_served_partial` | propext, Classical.choice, Quot.sound |
| `J8a.C185_once_partial` | propext, Classical.choice, Quot.sound |
| `J8a.C185_violated` | propext, Classical.choice, Quot.sound |
| `J8a.C186_told_partial` | propext, Classical.choice, Quot.sound |
| `J8a.C186_violated` | propext, Classical.choice, Quot.sound |
| `J8a.C187_answered_partial` | propext, Classical.choice, Quot.sound |
| `J8a.C187_violated` | propext, Classical.choice, Quot.sound |
