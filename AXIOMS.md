# Axioms of the claimed theorems

Output of `#print axioms` for every theorem in `MANIFEST.json`.

| theorem | axioms |
|---|---|
| `Siphon.Fsm.C01_ack_exactly_once` | propext, Quot.sound |
| `Siphon.Fsm.C01_final_is_delivered` | propext |
| `Siphon.Manager.C01_manager` | propext, Classical.choice, Quot.sound |
| `Siphon.Manager.C01_second_2xx_lost` | propext, Classical.choice, Quot.sound |
| `Siphon.Fsm.C02_silent_after_response` | propext |
| `Siphon.Fsm.C02_retransmits_same_request` | propext, Quot.sound |
| `Siphon.Fsm.C03_invite_schedule` | propext, Classical.choice, Quot.sound |
| `Siphon.Fsm.C03_invite_first` | propext, Quot.sound |
| `Siphon.Fsm.C03_invite_reliable` | propext, Classical.choice, Quot.sound |
| `Siphon.Fsm.C03_noninvite_schedule` | propext, Classical.choice, Quot.sound |
| `Siphon.Fsm.C03_noninvite_reliable` | propext, Classical.choice, Quot.sound |
| `Siphon.Fsm.C04_nothing_after_final` | propext, Classical.choice, Quot.sound |
| `Siphon.Fsm.C04_at_most_one_final` | propext, Classical.choice, Quot.sound |
| `Siphon.Fsm.C04_final_is_delivered` | propext |
| `Siphon.Manager.C04_manager` | propext, Classical.choice, Quot.sound |
| `Siphon.Fsm.C05_only_first_final` | propext, Classical.choice, Quot.sound |
| `Siphon.Fsm.C05_retransmission_answer` | propext |
| `Siphon.Fsm.C06_2xx_never_retransmitted` | propext, Quot.sound |
| `Siphon.Fsm.C06_timer_sends_latest_final` | propext, Classical.choice, Quot.sound |
| `Siphon.Fsm.C06_silent_after_ack` | propext, Quot.sound |
| `Siphon.Fsm.C06_timerG_schedule` | propext, Classical.choice, Quot.sound |
| `Siphon.Fsm.C06_reliable` | propext, Classical.choice, Quot.sound |
| `Siphon.Fsm.C06_retransmission_answer` | propext, Classical.choice, Quot.sound |
| `Siphon.Fsm.C07_client_invite_forward` | propext, Quot.sound |
| `Siphon.Fsm.C07_client_invite_terminated` | propext, Classical.choice, Quot.sound |
| `Siphon.Fsm.C07_client_invite_never_confirmed` | propext |
| `Siphon.Fsm.C07_client_noninvite_forward` | propext, Quot.sound |
| `Siphon.Fsm.C07_client_noninvite_terminated` | propext, Quot.sound |
| `Siphon.Fsm.C07_server_noninvite_forward` | propext, Quot.sound |
| `Siphon.Fsm.C07_server_noninvite_terminated` | propext |
| `Siphon.Fsm.C07_server_invite_terminated` | propext, Quot.sound |
| `Siphon.Fsm.C07_server_invite_forward_partial` | propext, Quot.sound |
| `Siphon.Fsm.C07_server_invite_goes_back` | propext |
| `Siphon.Fsm.C07_server_invite_only_regression` | propext, Quot.sound |
| `Siphon.Fsm.C08_invite_client_terminates` | propext, Classical.choice, Quot.sound |
| `Siphon.Fsm.C08_noninvite_client_terminates` | propext, Classical.choice, Quot.sound |
| `Siphon.Fsm.C08_invite_user_told` | propext, Quot.sound |
| `Siphon.Fsm.C08_noninvite_user_told` | propext, Quot.sound |
| `Siphon.Manager.C08_manager` | propext, Classical.choice, Quot.sound |
| `Siphon.Fsm.C09_noninvite_server_terminates` | propext |
| `Siphon.Fsm.C09_invite_server_terminates` | propext, Classical.choice, Quot.sound |
| `Siphon.Manager.C09_manager` | propext, Classical.choice, Quot.sound |
| `Siphon.Manager.C09_final_ends_waiting` | propext, Classical.choice, Quot.sound |
| `Siphon.Manager.C09_stray_ack_stays` | propext, Classical.choice, Quot.sound |
| `Siphon.C26_roundtrip` | propext, Classical.choice, Quot.sound |
| `Siphon.C26_case_insensitive` | propext, Classical.choice, Quot.sound |
| `Siphon.C26_injective` | propext, Classical.choice, Quot.sound |
| `Siphon.C26_token_safe` | propext, Classical.choice, Quot.sound |
| `Siphon.Manager.C10_tables_bounded` | propext, Classical.choice, Quot.sound |
| `Siphon.Manager.C10_client_room` | propext, Classical.choice, Quot.sound |
| `Siphon.Manager.C10_client_evicts_oldest` | propext, Classical.choice, Quot.sound |
| `Siphon.Manager.C10_server_evicts_oldest` | propext, Classical.choice, Quot.sound |
| `Siphon.Manager.C10_zero_limit_not_enforced` | propext, Classical.choice, Quot.sound |
| `Siphon.Manager.Race.C10_one_task` | propext, Quot.sound |
| `Siphon.Manager.Race.C10_concurrent_unbounded` | propext, Quot.sound |
| `Siphon.Manager.C11_absorbed_partial` | propext, Classical.choice, Quot.sound |
| `Siphon.Manager.C11_copies_look_alike` | propext, Classical.choice, Quot.sound |
| `Siphon.Manager.C11_after_2xx_new_transaction` | propext, Classical.choice, Quot.sound |
| `Siphon.Manager.C11_cancel_ignored` | propext, Classical.choice, Quot.sound |
| `Siphon.Manager.C12_isolated` | propext, Classical.choice, Quot.sound |
| `Siphon.Manager.C12_unmatched` | propext, Classical.choice, Quot.sound |
| `Siphon.Manager.C12_branch_is_via_param` | propext, Classical.choice, Quot.sound |
| `Siphon.Manager.C12_user` | propext, Classical.choice, Quot.sound |
| `Siphon.Manager.C13_failover` | propext, Classical.choice, Quot.sound |
| `Siphon.Manager.C13_failure_reported` | propext, Classical.choice, Quot.sound |
| `Siphon.Manager.C13_no_target` | propext, Classical.choice, Quot.sound |
| `Siphon.Manager.C13_restart_replaces` | propext, Classical.choice, Quot.sound |
| `Siphon.Transport.C31_split_partial` | propext, Classical.choice, Quot.sound |
| `Siphon.Transport.C31_open_agree` | propext, Classical.choice, Quot.sound |
| `Siphon.Transport.C31_never_disagree` | propext, Classical.choice, Quot.sound |
| `Siphon.Transport.C31_error_for_all` | propext, Classical.choice, Quot.sound |
| `Siphon.Transport.C31_error_loses_messages` | none |
| `Siphon.Transport.C31_limit_matters` | propext, Classical.choice, Quot.sound |
| `Siphon.Transport.C32_conserved` | propext, Classical.choice, Quot.sound |
| `Siphon.Transport.C32_buffer_bounded` | propext, Classical.choice, Quot.sound |
| `Siphon.Transport.C33_only_messages` | propext, Classical.choice, Quot.sound |
| `Siphon.Transport.C33_bad_header_closes` | propext, Classical.choice, Quot.sound |
| `Siphon.Transport.C33_endless_header_closes` | propext, Classical.choice, Quot.sound |
| `Siphon.Transport.C34_pipeline` | propext, Classical.choice, Quot.sound |
| `Siphon.Transport.C34_one_read` | propext, Classical.choice, Quot.sound |
| `Siphon.RateLimit.C47_bound` | propext, Classical.choice, Quot.sound |
| `Siphon.RateLimit.C47_window` | propext, Classical.choice, Quot.sound |
| `Siphon.RateLimit.C47_presets` | propext |
| `Siphon.RateLimit.C47_admits` | propext, Classical.choice, Quot.sound |
| `Siphon.RateLimit.C47_disabled` | propext, Quot.sound |
| `Siphon.RateLimit.C47_needs_idle` | propext, Quot.sound |
| `Siphon.RateLimit.C48_refines` | propext, Classical.choice, Quot.sound |
| `Siphon.RateLimit.C48_independent` | propext, Classical.choice, Quot.sound |
| `Siphon.RateLimit.C48_needs_idle` | propext, Quot.sound |
| `Siphon.RateLimit.C48_look_matters` | propext |
| `Siphon.RateLimit.C49_bounded` | propext, Classical.choice, Quot.sound |
| `Siphon.RateLimit.C49_full_refuses` | propext, Classical.choice, Quot.sound |
| `Siphon.RateLimit.Race.C49_concurrent` | propext, Classical.choice, Quot.sound |
| `Siphon.RateLimit.Race.C49_one_caller` | propext, Classical.choice, Quot.sound |
| `Siphon.RateLimit.Race.C49_limit_exceeded` | propext, Classical.choice, Quot.sound |
| `Siphon.RateLimit.C65_metrics` | propext, Quot.sound |
| `Siphon.C24_bounded` | propext, Classical.choice, Quot.sound |
| `Siphon.C24_bounded_lengths` | propext, Classical.choice, Quot.sound |
| `Siphon.C24_full_refuses` | propext, Quot.sound |
| `Siphon.C24_get` | propext, Classical.choice, Quot.sound |
| `Siphon.C24_get_none` | propext, Classical.choice, Quot.sound |
| `Siphon.C24_getAll` | propext, Classical.choice, Quot.sound |
| `Siphon.C24_contains` | propext, Classical.choice, Quot.sound |
| `Siphon.C24_count` | propext |
| `Siphon.C24_push` | propext, Classical.choice, Quot.sound |
| `Siphon.C24_push_ok` | propext, Classical.choice, Quot.sound |
| `Siphon.C24_remove` | propext, Classical.choice, Quot.sound |
| `Siphon.C24_replaceFirst` | propext, Classical.choice, Quot.sound |
| `Siphon.C24_setOrPush` | propext, Classical.choice, Quot.sound |
| `Siphon.C24_removeAt` | propext, Quot.sound |
| `Siphon.Auth.C35_issued_and_fresh` | propext, Classical.choice, Quot.sound |
| `Siphon.Auth.C35_no_replay_partial` | propext, Classical.choice, Quot.sound |
| `Siphon.Auth.C35_same_text` | propext, Classical.choice, Quot.sound |
| `Siphon.Auth.C35_headers_not_covered` | propext, Classical.choice, Quot.sound |
| `Siphon.Auth.C35_count_consumed_before_check` | propext, Classical.choice, Quot.sound |
| `Siphon.Auth.C35_text_ambiguous` | propext, Classical.choice, Quot.sound |
| `Siphon.Auth.C36_sound` | propext, Classical.choice, Quot.sound |
| `Siphon.Auth.C36_presents_unique` | propext, Classical.choice, Quot.sound |
| `Siphon.Auth.C38_bounded` | propext, Classical.choice, Quot.sound |
| `Siphon.Auth.C38_drops_oldest` | propext, Quot.sound |
| `Siphon.Auth.C38_small_maximum_unbounded` | propext, Classical.choice, Quot.sound |
| `Siphon.Auth.C39_stale_sound` | propext, Classical.choice, Quot.sound |
| `Siphon.Auth.C39_reuse_sound` | propext, Classical.choice, Quot.sound |
| `Siphon.Auth.C39_stale_complete` | propext, Classical.choice, Quot.sound |
| `Siphon.Auth.C39_challenge_text` | propext, Classical.choice, Quot.sound |
| `Siphon.Auth.C37_accepted_partial` | propext, Classical.choice, Quot.sound |
| `Siphon.Auth.C37_long_uri_refused` | propext, Classical.choice, Quot.sound |
| `Siphon.Auth.C37_old_client_refused` | propext, Classical.choice, Quot.sound |
| `Siphon.Auth.C37_quote_refused` | propext, Classical.choice, Quot.sound |
| `Siphon.Auth.C37_rechallenge_keeps_old` | propext, Classical.choice, Quot.sound |
| `Siphon.Auth.C66_roundtrip` | propext, Classical.choice, Quot.sound |
| `Siphon.Auth.C66_verify_iff` | propext, Classical.choice, Quot.sound |
| `Siphon.Auth.C66_accepted` | propext, Classical.choice, Quot.sound |
| `Siphon.Auth.C67_quote_panics` | propext, Classical.choice, Quot.sound |
| `Siphon.Auth.C67_full_request_panics` | propext, Classical.choice, Quot.sound |
| `Siphon.Auth.C67_cseq_panics` | propext, Classical.choice, Quot.sound |
| `Siphon.Auth.C67_parse_panics_only_partial` | propext, Classical.choice, Quot.sound |
| `Siphon.Registrar.C40_lookup` | propext, Classical.choice, Quot.sound |
| `Siphon.Registrar.C40_cleanup` | propext, Classical.choice, Quot.sound |
| `Siphon.Registrar.C40_registrar` | propext, Classical.choice, Quot.sound |
| `Siphon.Registrar.C41_bounds` | propext, Classical.choice, Quot.sound |
| `Siphon.Registrar.C41_registrar` | propext, Classical.choice, Quot.sound |
| `Siphon.Registrar.C41_flows_collide` | propext, Classical.choice, Quot.sound |
| `Siphon.Registrar.C41_full_refuses_refresh` | propext, Classical.choice, Quot.sound |
| `Siphon.Registrar.Race.C41_race_per_aor` | propext, Classical.choice, Quot.sound |
| `Siphon.Registrar.Race.C41_race_total` | propext, Classical.choice, Quot.sound |
| `Siphon.Registrar.Race.C41_race_over_limit` | propext, Classical.choice, Quot.sound |
| `Siphon.Registrar.C42_own_address_partial` | propext, Classical.choice, Quot.sound |
| `Siphon.Registrar.C42_any_host` | propext, Classical.choice, Quot.sound |
| `Siphon.Registrar.C42_proxy_bypass` | propext, Classical.choice, Quot.sound |
| `Siphon.Registrar.C43_partial` | propext, Classical.choice, Quot.sound |
| `Siphon.Registrar.C43_refused_only` | propext, Classical.choice, Quot.sound |
| `Siphon.Registrar.C43_wildcard_ignores_cseq` | propext, Classical.choice, Quot.sound |
| `Siphon.Registrar.C43_removed_comes_back` | propext, Classical.choice, Quot.sound |
| `Siphon.Registrar.Race.C43_race` | propext, Classical.choice, Quot.sound |
| `Siphon.Registrar.C44_not_atomic` | propext, Classical.choice, Quot.sound |
| `Siphon.Registrar.C44_one_contact_partial` | propext, Classical.choice, Quot.sound |
| `Siphon.Registrar.C44_others_untouched_partial` | propext, Classical.choice, Quot.sound |
| `Siphon.Registrar.C44_turned_away` | propext, Classical.choice, Quot.sound |
| `Siphon.Registrar.C45_C46_effect` | propext, Classical.choice, Quot.sound |
| `Siphon.Registrar.C45_wildcard` | propext, Classical.choice, Quot.sound |
| `Siphon.Registrar.C46_too_brief` | propext, Classical.choice, Quot.sound |
| `Siphon.Registrar.C46_min_below_60_fails` | propext, Classical.choice, Quot.sound |
| `Siphon.Registrar.C71_answer_lists_bindings` | propext, Classical.choice, Quot.sound |
| `Siphon.Registrar.C71_ambiguous` | propext, Classical.choice, Quot.sound |
| `Siphon.Auth.C68_same_request_partial` | propext, Classical.choice, Quot.sound |
| `Siphon.Auth.C68_case` | propext, Classical.choice, Quot.sound |
| `Siphon.UriP.C69_effect` | propext, Classical.choice, Quot.sound |
| `Siphon.UriP.C69_reparse_partial` | propext, Classical.choice, Quot.sound |
| `Siphon.UriP.C69_user_not_escaped` | propext, Classical.choice, Quot.sound |
| `Siphon.UriP.C69_user_unreadable` | propext, Classical.choice, Quot.sound |
| `Siphon.UriP.C69_param_injection` | propext, Classical.choice, Quot.sound |
| `Siphon.UriP.C69_host_case` | propext, Classical.choice, Quot.sound |
| `Siphon.UriP.C69_too_long` | propext, Classical.choice, Quot.sound |
| `Siphon.UriP.C69_empty_headers_stay` | propext, Classical.choice, Quot.sound |
| `Siphon.UriP.C69_new_ipv6` | propext, Classical.choice, Quot.sound |
| `Siphon.Registrar.C70_sip_partial` | propext, Classical.choice, Quot.sound |
| `Siphon.Registrar.C70_ipv6_port` | propext, Classical.choice, Quot.sound |
| `Siphon.Registrar.C70_tel_distinct` | propext, Classical.choice, Quot.sound |
| `Siphon.Registrar.C70_tel_same` | propext, Classical.choice, Quot.sound |
| `Siphon.Registrar.C70_schemes` | propext, Classical.choice, Quot.sound |
| `Siphon.Registrar.C70_identity_sip` | propext, Classical.choice, Quot.sound |
| `Siphon.Registrar.C70_identity_tel` | propext, Classical.choice, Quot.sound |
| `Siphon.C23_header_new` | propext, Classical.choice, Quot.sound |
| `Siphon.C23_header_stored` | propext, Classical.choice, Quot.sound |
| `Siphon.C23_stored_clean` | propext, Classical.choice, Quot.sound |
| `Siphon.Parse.C23_request` | propext, Classical.choice, Quot.sound |
| `Siphon.Parse.C23_response` | propext, Classical.choice, Quot.sound |
| `Siphon.Parse.C23_method_injection` | propext, Classical.choice, Quot.sound |
| `Siphon.C25_forward` | propext, Classical.choice, Quot.sound |
| `Siphon.C25_refused` | propext, Classical.choice, Quot.sound |
| `Siphon.C25_exhausted` | propext, Classical.choice, Quot.sound |
| `Siphon.C25_chain` | propext, Classical.choice, Quot.sound |
| `Siphon.C25_chain_absent` | propext, Classical.choice, Quot.sound |
| `Siphon.C25_at_most_255` | propext, Classical.choice, Quot.sound |
| `Siphon.C25_bound_met` | propext, Classical.choice, Quot.sound |
| `Siphon.Proxy.C25_proxies` | propext, Classical.choice, Quot.sound |
| `Siphon.Proxy.C50_kept` | propext, Classical.choice, Quot.sound |
| `Siphon.Proxy.C50_upstream` | propext, Classical.choice, Quot.sound |
| `Siphon.Proxy.C51_success_partial` | propext, Classical.choice, Quot.sound |
| `Siphon.Proxy.C51_fork` | propext, Classical.choice, Quot.sound |
| `Siphon.Proxy.C51_tried` | propext, Classical.choice, Quot.sound |
| `Siphon.Proxy.C51_sequential` | propext, Classical.choice, Quot.sound |
| `Siphon.Proxy.C51_after_6xx` | propext, Classical.choice, Quot.sound |
| `Siphon.Proxy.C51_6xx_sends_no_cancel` | propext, Classical.choice, Quot.sound |
| `Siphon.Proxy.C51_6xx_after_2xx` | propext, Classical.choice, Quot.sound |
| `Siphon.Proxy.C51_100_forwarded` | propext, Classical.choice, Quot.sound |
| `Siphon.Proxy.C51_cseq_tab` | propext, Classical.choice, Quot.sound |
| `Siphon.Proxy.C52_waits_partial` | propext, Classical.choice, Quot.sound |
| `Siphon.Proxy.C52_at_most_one_partial` | propext, Classical.choice, Quot.sound |
| `Siphon.Proxy.C52_exactly_one_partial` | propext, Classical.choice, Quot.sound |
| `Siphon.Proxy.C52_none_partial` | propext, Classical.choice, Quot.sound |
| `Siphon.Proxy.C52_retransmission` | propext, Classical.choice, Quot.sound |
| `Siphon.Proxy.C52_late_branch` | propext, Classical.choice, Quot.sound |
| `Siphon.Proxy.C52_same_id_twice` | propext, Classical.choice, Quot.sound |
| `Siphon.Proxy.C52_success_repeated` | propext, Classical.choice, Quot.sound |
| `Siphon.Proxy.C52_late_provisional` | propext, Classical.choice, Quot.sound |
| `Siphon.Proxy.C53_removes` | propext, Classical.choice, Quot.sound |
| `Siphon.Proxy.C53_undo` | propext, Classical.choice, Quot.sound |
| `Siphon.Proxy.C53_response_path` | propext, Classical.choice, Quot.sound |
| `Siphon.Proxy.C53_full_panics` | propext, Classical.choice, Quot.sound |
| `Siphon.Proxy.C53_joined` | propext, Classical.choice, Quot.sound |
| `Siphon.Proxy.C54_exactly` | propext, Classical.choice, Quot.sound |
| `Siphon.Proxy.C54_detected_partial` | propext, Classical.choice, Quot.sound |
| `Siphon.Proxy.C54_as_sent` | propext, Classical.choice, Quot.sound |
| `Siphon.Proxy.C54_spiral` | propext, Classical.choice, Quot.sound |
| `Siphon.Proxy.C54_port` | propext, Classical.choice, Quot.sound |
| `Siphon.Proxy.C54_joined` | propext, Classical.choice, Quot.sound |
| `Siphon.Proxy.C54_ambiguous` | propext |
| `Siphon.Proxy.C55_bounded` | propext, Classical.choice, Quot.sound |
| `Siphon.Proxy.C55_no_branch_after_6xx` | propext, Classical.choice, Quot.sound |
| `Siphon.Proxy.C55_contexts` | propext, Quot.sound |
| `Siphon.Proxy.C56_cancel_partial` | propext, Classical.choice, Quot.sound |
| `Siphon.Proxy.C56_tag_in_uri` | propext, Classical.choice, Quot.sound |
| `Siphon.Proxy.C56_tag_case` | propext, Classical.choice, Quot.sound |
| `Siphon.Proxy.C72_forwarded` | propext, Classical.choice, Quot.sound |
| `Siphon.Proxy.C72_refused` | propext, Classical.choice, Quot.sound |
| `Siphon.Proxy.C72_succeeds` | propext, Classical.choice, Quot.sound |
| `Siphon.Proxy.C72_record_route_order` | propext, Classical.choice, Quot.sound |
| `Siphon.Proxy.C73_all_challenges` | propext, Classical.choice, Quot.sound |
| `Siphon.Proxy.C73_ack_non2xx` | propext, Classical.choice, Quot.sound |
| `Siphon.Proxy.C73_ack_loses_target` | propext, Classical.choice, Quot.sound |
| `Siphon.Dlg.C14_refused_changes_nothing` | propext, Classical.choice, Quot.sound |
| `Siphon.Dlg.C14_accepted_iff` | propext, Classical.choice, Quot.sound |
| `Siphon.Dlg.C14_accepted_recorded` | propext, Classical.choice, Quot.sound |
| `Siphon.Dlg.C14_ack_iff` | propext, Classical.choice, Quot.sound |
| `Siphon.Dlg.C14_history` | propext, Classical.choice, Quot.sound |
| `Siphon.Dlg.C14_strictly_increasing` | propext, Classical.choice, Quot.sound |
| `Siphon.Dlg.C14_ack_after_prack` | propext, Classical.choice, Quot.sound |
| `Siphon.Dlg.C15_history` | propext, Classical.choice, Quot.sound |
| `Siphon.Dlg.C15_consecutive_partial` | propext, Classical.choice, Quot.sound |
| `Siphon.Dlg.C15_repeats` | propext |
| `Siphon.Dlg.C16_forward` | propext, Classical.choice, Quot.sound |
| `Siphon.Dlg.C16_stays_terminated` | propext, Classical.choice, Quot.sound |
| `Siphon.Dlg.C16_never_early_again` | propext, Classical.choice, Quot.sound |
| `Siphon.Dlg.C16_confirmed_by_2xx` | propext, Classical.choice, Quot.sound |
| `Siphon.Dlg.C17_frozen` | propext, Classical.choice, Quot.sound |
| `Siphon.Dlg.C17_only_2xx` | propext, Classical.choice, Quot.sound |
| `Siphon.Dlg.C17_identity` | propext, Classical.choice, Quot.sound |
| `Siphon.Dlg.C17_error_moves_target` | propext, Classical.choice, Quot.sound |
| `Siphon.Dlg.C18_bounded` | propext, Classical.choice, Quot.sound |
| `Siphon.Dlg.C18_early_bounded` | propext, Classical.choice, Quot.sound |
| `Siphon.Dlg.C18_insert_works` | propext, Quot.sound |
| `Siphon.Dlg.C18_refused_changes_nothing` | propext |
| `Siphon.Dlg.C18_remove_works` | propext, Quot.sound |
| `Siphon.Dlg.C18_full_refuses_update` | propext, Quot.sound |
| `Siphon.Dlg.C19_uac_named` | propext, Classical.choice, Quot.sound |
| `Siphon.Dlg.C19_uas_named` | propext, Classical.choice, Quot.sound |
| `Siphon.Dlg.C19_mirrored` | propext, Classical.choice, Quot.sound |
| `Siphon.Dlg.C19_matches_iff` | propext, Classical.choice, Quot.sound |
| `Siphon.Dlg.C19_found` | propext, Classical.choice, Quot.sound |
| `Siphon.Dlg.C19_not_found` | propext, Classical.choice, Quot.sound |
| `Siphon.Dlg.C19_delivered` | propext, Classical.choice, Quot.sound |
| `Siphon.Dlg.C19_tag_inside_uri` | propext, Classical.choice, Quot.sound |
| `Siphon.Dlg.C74_ascii_partial` | propext, Classical.choice, Quot.sound |
| `Siphon.Dlg.C74_panics_iff` | propext, Classical.choice, Quot.sound |
| `Siphon.Dlg.C74_display_name_panics` | propext, Classical.choice, Quot.sound |
| `Siphon.Dlg.C77_uac_routes` | propext, Classical.choice, Quot.sound |
| `Siphon.Dlg.C77_uas_routes` | propext, Classical.choice, Quot.sound |
| `Siphon.Dlg.C77_opposite` | propext, Classical.choice, Quot.sound |
| `Siphon.Dlg.C77_confirmed_routes` | propext, Classical.choice, Quot.sound |
| `Siphon.Dlg.C78_sent` | propext, Classical.choice, Quot.sound |
| `Siphon.Dlg.C78_ack` | propext, Classical.choice, Quot.sound |
| `Siphon.Dlg.C78_visits_recorded` | propext, Classical.choice, Quot.sound |
| `Siphon.Dlg.C79_ack_partial` | propext, Classical.choice, Quot.sound |
| `Siphon.Dlg.C79_accepted` | propext, Classical.choice, Quot.sound |
| `Siphon.Dlg.C79_tab` | propext, Classical.choice, Quot.sound |
| `Siphon.Dlg.C80_named_partial` | propext, Classical.choice, Quot.sound |
| `Siphon.Dlg.C80_tags` | propext, Classical.choice, Quot.sound |
| `Siphon.Dlg.C80_accepted_partial` | propext, Classical.choice, Quot.sound |
| `Siphon.Dlg.C80_built` | propext, Classical.choice, Quot.sound |
| `Siphon.Dlg.C80_body` | propext, Classical.choice, Quot.sound |
| `Siphon.Dlg.C80_second_refused` | propext, Classical.choice, Quot.sound |
| `Siphon.Dlg.C80_display_name` | propext, Classical.choice, Quot.sound |
| `Siphon.Dlg.C80_long_tag_panics` | propext, Classical.choice, Quot.sound |
| `Siphon.Dlg.C80_long_tag_reached` | propext, Classical.choice, Quot.sound |
| `Siphon.Dlg.C80_method` | propext, Classical.choice, Quot.sound |
| `Siphon.Dlg.C81_distinct_partial` | propext, Classical.choice, Quot.sound |
| `Siphon.Dlg.C81_never_back` | propext, Classical.choice, Quot.sound |
| `Siphon.Dlg.C81_bye_collides` | propext, Classical.choice, Quot.sound |
| `Siphon.Dlg.C81_terminate_undone` | propext, Classical.choice, Quot.sound |
| `Siphon.Dlg.C81_replay` | propext, Classical.choice, Quot.sound |
| `Siphon.Dlg.C82_in_time` | propext, Quot.sound |
| `Siphon.Dlg.C82_stops_iff` | propext, Quot.sound |
| `Siphon.Dlg.C82_reports` | propext, Quot.sound |
| `Siphon.Dlg.C82_answer` | propext, Classical.choice, Quot.sound |
| `Siphon.Dlg.C20_read` | propext, Classical.choice, Quot.sound |
| `Siphon.Dlg.C20_rack` | propext, Classical.choice, Quot.sound |
| `Siphon.Dlg.C20_once_interleaved` | propext, Quot.sound |
| `Siphon.Dlg.C20_once` | propext, Classical.choice, Quot.sound |
| `Siphon.Dlg.C20_bounded` | propext, Classical.choice, Quot.sound |
| `Siphon.Dlg.C20_accepted_partial` | propext, Classical.choice, Quot.sound |
| `Siphon.Dlg.C20_eleventh` | propext, Classical.choice, Quot.sound |
| `Siphon.Dlg.C20_shadowed` | propext, Classical.choice, Quot.sound |
| `Siphon.Dlg.C20_unicode` | propext, Classical.choice, Quot.sound |
| `Siphon.Dlg.C20_agree` | propext, Classical.choice, Quot.sound |
| `Siphon.Dlg.C20_written` | propext, Classical.choice, Quot.sound |
| `Siphon.Dlg.C20_reliable_iff` | propext, Classical.choice, Quot.sound |
| `Siphon.Dlg.C20_forgets` | propext, Classical.choice, Quot.sound |
| `Siphon.Dlg.C21_first` | propext, Quot.sound |
| `Siphon.Dlg.C21_consecutive_partial` | propext, Classical.choice, Quot.sound |
| `Siphon.Dlg.C21_out_of_range` | propext |
| `Siphon.Dlg.C22_read` | propext, Classical.choice, Quot.sound |
| `Siphon.Dlg.C22_interval` | propext, Classical.choice, Quot.sound |
| `Siphon.Dlg.C22_refused_iff` | propext, Classical.choice, Quot.sound |
| `Siphon.Dlg.C22_retry` | propext, Classical.choice, Quot.sound |
| `Siphon.Dlg.C22_no_timer_iff` | propext, Classical.choice, Quot.sound |
| `Siphon.Dlg.C22_agree` | propext, Classical.choice, Quot.sound |
| `Siphon.Dlg.C22_exactly_one` | propext, Classical.choice, Quot.sound |
| `Siphon.Dlg.C22_role` | propext, Classical.choice, Quot.sound |
| `Siphon.Dlg.C22_role_text` | propext, Classical.choice, Quot.sound |
| `Siphon.Dlg.C22_new` | propext, Quot.sound |
| `Siphon.Dlg.C22_roundtrip` | propext, Classical.choice, Quot.sound |
| `Siphon.Dlg.C22_short_ignored` | propext, Classical.choice, Quot.sound |
| `Siphon.Dlg.C22_unreadable` | propext, Classical.choice, Quot.sound |
| `Siphon.Dlg.C22_case_disagrees` | propext, Classical.choice, Quot.sound |
| `Siphon.Dlg.C22_siphond_inverted` | propext, Classical.choice, Quot.sound |
| `Siphon.Dlg.C83_schedule` | propext |
| `Siphon.Dlg.C83_intervals` | propext, Classical.choice, Quot.sound |
| `Siphon.Dlg.C83_too_late` | propext |
| `Siphon.Dlg.C83_only_acked` | propext, Classical.choice, Quot.sound |
| `Siphon.Dlg.C83_acked` | propext, Classical.choice, Quot.sound |
| `Siphon.Dlg.C83_forgotten` | propext, Classical.choice, Quot.sound |
| `Siphon.Dlg.C83_ends` | none |
| `Siphon.Dlg.C83_remembered_partial` | propext, Classical.choice, Quot.sound |
| `Siphon.Dlg.C84_ok_iff` | propext, Classical.choice, Quot.sound |
| `Siphon.Dlg.C84_harmless` | propext, Classical.choice, Quot.sound |
| `Siphon.Dlg.C84_nothing_partial` | propext, Classical.choice, Quot.sound |
| `Siphon.Dlg.C84_mismatch_400` | propext, Classical.choice, Quot.sound |
| `Siphon.Dlg.C84_garbled_481` | propext, Classical.choice, Quot.sound |
| `Siphon.Dlg.C84_key` | propext |
| `Siphon.Dlg.C84_key_collides` | propext, Classical.choice, Quot.sound |
| `Siphon.Dlg.C84_no_rack_400` | propext, Classical.choice, Quot.sound |
| `Siphon.Via.C28_read` | propext, Classical.choice, Quot.sound |
| `Siphon.Via.C28_accepts` | propext, Classical.choice, Quot.sound |
| `Siphon.Via.C28_roundtrip` | propext, Classical.choice, Quot.sound |
| `Siphon.Via.C28_built_partial` | propext, Classical.choice, Quot.sound |
| `Siphon.Via.C28_injection` | propext, Classical.choice, Quot.sound |
| `Siphon.Via.C28_space_lost` | propext, Classical.choice, Quot.sound |
| `Siphon.Via.C28_with` | propext, Classical.choice, Quot.sound |
| `Siphon.Via.C28_set` | propext, Classical.choice, Quot.sound |
| `Siphon.Via.C28_set_iff` | propext, Classical.choice, Quot.sound |
| `Siphon.Via.C28_joined` | propext, Classical.choice, Quot.sound |
| `Siphon.Uas.C88_host` | propext, Classical.choice, Quot.sound |
| `Siphon.Uas.C88_top_partial` | propext, Classical.choice, Quot.sound |
| `Siphon.Uas.C88_unreadable` | propext, Classical.choice, Quot.sound |
| `Siphon.Uas.C88_spoofed` | propext, Classical.choice, Quot.sound |
| `Siphon.Uas.C88_joined` | propext, Classical.choice, Quot.sound |
| `Siphon.Uas.C88_full` | propext, Classical.choice, Quot.sound |
| `Siphon.Uas.C85_belongs` | propext, Classical.choice, Quot.sound |
| `Siphon.Uas.C85_terminated` | propext, Classical.choice, Quot.sound |
| `Siphon.Uas.C85_to` | propext, Classical.choice, Quot.sound |
| `Siphon.Uas.C85_to_plain` | propext, Classical.choice, Quot.sound |
| `Siphon.Uas.C85_rest` | propext, Classical.choice, Quot.sound |
| `Siphon.Uas.C85_two_tags` | propext, Classical.choice, Quot.sound |
| `Siphon.Uas.C85_tag_in_uri` | propext, Classical.choice, Quot.sound |
| `Siphon.Uas.C85_cancel_vias` | propext, Classical.choice, Quot.sound |
| `Siphon.Uas.C86_create_iff` | propext, Classical.choice, Quot.sound |
| `Siphon.Uas.C86_build_partial` | propext, Classical.choice, Quot.sound |
| `Siphon.Uas.C86_dispatch_partial` | propext, Classical.choice, Quot.sound |
| `Siphon.Uas.C86_full_crashes` | propext, Classical.choice, Quot.sound |
| `Siphon.Uas.C86_name_crashes` | propext, Classical.choice, Quot.sound |
| `Siphon.Uas.C87_accept` | propext, Classical.choice, Quot.sound |
| `Siphon.Uas.C87_then_found` | propext, Classical.choice, Quot.sound |
| `Siphon.Uas.C87_reliable` | propext, Classical.choice, Quot.sound |
| `Siphon.Uas.C87_reliable_again` | propext, Classical.choice, Quot.sound |
| `Siphon.Uas.C87_fresh_tags` | propext, Classical.choice, Quot.sound |
| `Siphon.Uas.C87_full` | propext, Classical.choice, Quot.sound |
| `Siphon.Uas.C87_again_resets` | propext, Classical.choice, Quot.sound |
| `Siphon.Uas.C87_reliable_code` | propext, Classical.choice, Quot.sound |
| `Siphon.Uas.C87_reliable_trying` | propext, Classical.choice, Quot.sound |
| `Siphon.Uas.C87_timer` | propext, Classical.choice, Quot.sound |
| `Siphon.Uas.C87_too_small` | propext, Classical.choice, Quot.sound |
| `Siphon.Uas.C89_in_dialog` | propext, Classical.choice, Quot.sound |
| `Siphon.Uas.C89_ack` | propext, Classical.choice, Quot.sound |
| `Siphon.Uas.C89_invite` | propext, Classical.choice, Quot.sound |
| `Siphon.Uas.C89_unknown` | propext, Classical.choice, Quot.sound |
| `Siphon.Uas.C89_unauthenticated` | propext, Classical.choice, Quot.sound |
| `Siphon.Uas.C89_one_final` | propext, Classical.choice, Quot.sound |
| `Siphon.Uas.C89_cancel` | propext, Classical.choice, Quot.sound |
| `Siphon.Uas.C89_filled` | propext, Classical.choice, Quot.sound |
| `Siphon.Uas.C89_contact` | propext, Classical.choice, Quot.sound |
| `Siphon.Uas.C89_contact_text` | propext, Classical.choice, Quot.sound |
| `Siphon.Uas.C89_no_dialog` | propext, Classical.choice, Quot.sound |
| `Siphon.Uas.C89_options` | propext, Classical.choice, Quot.sound |
| `Siphon.Uas.C89_cancel_challenged` | propext, Classical.choice, Quot.sound |
| `Siphon.Uas.C89_unknown_call` | propext, Classical.choice, Quot.sound |
| `Siphon.Uas.C89_ipv6` | propext, Classical.choice, Quot.sound |
| `Siphon.Dlg.C90_uac` | propext, Classical.choice, Quot.sound |
| `Siphon.Dlg.C90_uas` | propext, Classical.choice, Quot.sound |
| `Siphon.Dlg.C90_id` | propext, Quot.sound |
| `Siphon.Dlg.C90_empty_tag` | propext, Classical.choice, Quot.sound |
| `Siphon.Dlg.C91_request` | propext, Classical.choice, Quot.sound |
| `Siphon.Dlg.C91_response` | propext, Classical.choice, Quot.sound |
| `Siphon.Dlg.C91_set_interval` | propext, Classical.choice, Quot.sound |
| `Siphon.Dlg.C91_set_too_long` | propext, Classical.choice, Quot.sound |
| `Siphon.Dlg.C91_refresh_due` | propext, Classical.choice, Quot.sound |
| `Siphon.Parse.C29_request` | propext, Classical.choice, Quot.sound |
| `Siphon.Parse.C29_request_strict` | propext, Classical.choice, Quot.sound |
| `Siphon.Parse.C29_response` | propext, Classical.choice, Quot.sound |
| `Siphon.Parse.C29_response_strict` | propext, Classical.choice, Quot.sound |
| `Siphon.Parse.C29_request_built` | propext, Classical.choice, Quot.sound |
| `Siphon.Parse.C29_forward` | propext, Classical.choice, Quot.sound |
| `Siphon.Parse.C29_stable` | propext, Classical.choice, Quot.sound |
| `Siphon.Parse.C29_second_pass` | propext, Classical.choice, Quot.sound |
| `Siphon.Parse.C29_response_built` | propext, Classical.choice, Quot.sound |
| `Siphon.Parse.C29_response_forward` | propext, Classical.choice, Quot.sound |
| `Siphon.Parse.C29_uri_space` | propext, Classical.choice, Quot.sound |
| `Siphon.Parse.C29_empty_reason` | propext, Classical.choice, Quot.sound |
| `Siphon.Parse.C29_too_many` | propext, Classical.choice, Quot.sound |
| `Siphon.Parse.C29_too_long` | propext, Classical.choice, Quot.sound |
| `Siphon.Parse.C30_strict_request` | propext, Classical.choice, Quot.sound |
| `Siphon.Parse.C30_strict_response` | propext, Classical.choice, Quot.sound |
| `Siphon.Parse.C30_lenient_partial` | propext, Classical.choice, Quot.sound |
| `Siphon.Parse.C30_lenient_response_partial` | propext, Classical.choice, Quot.sound |
| `Siphon.Parse.C30_rejected` | propext, Classical.choice, Quot.sound |
| `Siphon.Parse.C30_strict_malformed` | propext, Classical.choice, Quot.sound |
| `Siphon.Parse.C30_malformed` | propext, Classical.choice, Quot.sound |
| `Siphon.Parse.C30_huge` | propext, Classical.choice, Quot.sound |
| `Siphon.Parse.C92_request` | propext, Classical.choice, Quot.sound |
| `Siphon.Parse.C92_request_strict` | propext, Classical.choice, Quot.sound |
| `Siphon.Parse.C92_response` | propext, Classical.choice, Quot.sound |
| `Siphon.Parse.C92_response_strict` | propext, Classical.choice, Quot.sound |
| `Siphon.Parse.C92_default_limit` | propext, Classical.choice, Quot.sound |
| `Siphon.Parse.C93_request_frame` | propext, Classical.choice, Quot.sound |
| `Siphon.Parse.C93_response_frame` | propext, Classical.choice, Quot.sound |
| `Siphon.Parse.C93_stream` | propext, Classical.choice, Quot.sound |
| `Siphon.Parse.C93_kinds` | propext, Classical.choice, Quot.sound |
| `Siphon.Parse.C93_end_to_end` | propext, Classical.choice, Quot.sound |
| `Siphon.Dlg.C75_get` | propext, Classical.choice, Quot.sound |
| `Siphon.Dlg.C75_total` | propext, Quot.sound |
| `Siphon.Dlg.C75_size` | propext, Classical.choice, Quot.sound |
| `Siphon.Dlg.C75_list` | propext, Classical.choice, Quot.sound |
| `Siphon.Dlg.C75_once_partial` | propext, Classical.choice, Quot.sound |
| `Siphon.Dlg.C75_listed_twice` | propext, Quot.sound |
| `Siphon.Dlg.C75_alone_put` | propext |
| `Siphon.Dlg.C75_alone_remove` | propext, Quot.sound |
| `Siphon.Dlg.C75_race_lost` | propext, Classical.choice, Quot.sound |
| `Siphon.Dlg.C75_race_same` | propext, Classical.choice, Quot.sound |
| `Siphon.Dlg.C75_concurrent_partial` | propext, Classical.choice, Quot.sound |
| `Siphon.Dlg.TimerMgr.C76_justified` | propext, Classical.choice, Quot.sound |
| `Siphon.Dlg.TimerMgr.C76_stopped` | propext, Classical.choice, Quot.sound |
| `Siphon.Dlg.TimerMgr.C76_on_time` | propext, Classical.choice, Quot.sound |
| `Siphon.Dlg.TimerMgr.C76_expiry_race` | propext |
| `Siphon.Dlg.TimerMgr.C76_late` | propext |
| `Siphon.Dlg.TimerMgr.C76_full` | propext, Quot.sound |
| `Siphon.RSeq.C27_new` | propext, Classical.choice, Quot.sound |
| `Siphon.RSeq.C27_next` | propext, Classical.choice, Quot.sound |
| `Siphon.RSeq.C27_parse` | propext, Classical.choice, Quot.sound |
| `Siphon.RSeq.C27_roundtrip` | propext, Classical.choice, Quot.sound |
| `Siphon.RSeq.C27_rack_new` | propext, Classical.choice, Quot.sound |
| `Siphon.RSeq.C27_rack_parse` | propext, Classical.choice, Quot.sound |
| `Siphon.RSeq.C27_rack_roundtrip_partial` | propext, Classical.choice, Quot.sound |
| `Siphon.RSeq.C27_rack_lost` | propext, Classical.choice, Quot.sound |
| `Siphon.Dns.C57_order` | propext, Classical.choice, Quot.sound |
| `Siphon.Dns.C57_share` | propext, Classical.choice, Quot.sound |
| `Siphon.Dns.C57_share_zero` | propext, Classical.choice, Quot.sound |
| `Siphon.Dns.C57_zero_never_first` | propext, Classical.choice, Quot.sound |
| `Siphon.Dns.C58_sips` | propext, Classical.choice, Quot.sound |
| `Siphon.Dns.C58_param` | propext, Classical.choice, Quot.sound |
| `Siphon.Dns.C58_dhcp` | propext, Classical.choice, Quot.sound |
| `Siphon.Dns.C59_addresses_partial` | propext, Classical.choice, Quot.sound |
| `Siphon.Dns.C59_srv_name` | propext, Classical.choice, Quot.sound |
| `Siphon.Dns.C59_srv_all` | propext, Classical.choice, Quot.sound |
| `Siphon.Dns.Enum.C60_domain` | propext, Classical.choice, Quot.sound |
| `Siphon.Dns.Enum.C60_injective` | propext, Classical.choice, Quot.sound |
| `Siphon.Dns.Enum.C60_tel` | propext, Classical.choice, Quot.sound |
| `Siphon.Dns.Enum.C60_new_no_domain` | propext, Classical.choice, Quot.sound |
| `Siphon.Dns.Enum.C60_uri` | propext, Classical.choice, Quot.sound |
| `Siphon.Dns.Enum.C60_not_applied` | propext, Classical.choice, Quot.sound |
| `Siphon.Dns.Enum.C60_sort` | propext, Classical.choice, Quot.sound |
| `Siphon.Dns.Enum.C60_best` | propext, Classical.choice, Quot.sound |
| `Siphon.Dns.Enum.C60_not_terminal` | propext, Classical.choice, Quot.sound |
| `Siphon.Dns.C61_names` | propext, Quot.sound |
| `Siphon.Dns.C61_roundtrip` | propext, Classical.choice, Quot.sound |
| `Siphon.Dns.C61_ipv4` | propext, Classical.choice, Quot.sound |
| `Siphon.Dns.C61_other` | propext |
| `Siphon.Dns.C61_option150` | propext, Classical.choice, Quot.sound |
| `Siphon.Dns.C61_option66` | propext, Classical.choice, Quot.sound |
| `Siphon.Dns.C61_text` | propext, Classical.choice, Quot.sound |
| `Siphon.Dns.C61_dot` | propext, Classical.choice, Quot.sound |
| `Siphon.Dns.C61_too_long` | propext, Classical.choice, Quot.sound |
| `Siphon.Dns.C94_resolve` | propext, Classical.choice, Quot.sound |
| `Siphon.Dns.C94_naptr_doubled` | propext, Classical.choice, Quot.sound |
| `Siphon.Dns.C94_tls_port` | propext, Classical.choice, Quot.sound |
| `Siphon.Dns.C94_too_many` | propext, Classical.choice, Quot.sound |
| `Siphon.Dns.C95_dhcp` | propext, Classical.choice, Quot.sound |
| `Siphon.Dns.C95_hybrid` | propext, Classical.choice, Quot.sound |
| `Siphon.Dns.C95_bad_name` | propext, Classical.choice, Quot.sound |
| `Siphon.Sdp.C62_answer` | propext, Classical.choice, Quot.sound |
| `Siphon.Sdp.C62_succeeds` | propext, Classical.choice, Quot.sound |
| `Siphon.Sdp.C62_mirror` | propext, Classical.choice, Quot.sound |
| `Siphon.Sdp.C62_ignores_port` | propext, Classical.choice, Quot.sound |
| `Siphon.Sdp.C62_disabled_accepted` | propext, Classical.choice, Quot.sound |
| `Siphon.Sdp.C62_static_unchecked` | propext, Classical.choice, Quot.sound |
| `Siphon.Sdp.C62_wrong_parameters` | propext, Classical.choice, Quot.sound |
| `Siphon.Sdp.C63_first` | propext, Classical.choice, Quot.sound |
| `Siphon.Sdp.C63_one` | propext, Classical.choice, Quot.sound |
| `Siphon.Sdp.C64_offerer` | propext, Classical.choice, Quot.sound |
| `Siphon.Sdp.C64_exact_partial` | propext, Classical.choice, Quot.sound |
| `Siphon.Sdp.C64_fails` | propext, Classical.choice, Quot.sound |
| `Siphon.Sdp.C64_local_ignored` | propext, Classical.choice, Quot.sound |
| `Siphon.Sdp.C64_no_answer` | propext, Classical.choice, Quot.sound |
| `Siphon.Sdp.C64_session_ignored` | propext, Classical.choice, Quot.sound |
| `Siphon.Sdp.C96_reads` | propext, Classical.choice, Quot.sound |
| `Siphon.Sdp.C96_accepts` | propext, Classical.choice, Quot.sound |
| `Siphon.Sdp.C96_one` | propext, Classical.choice, Quot.sound |
| `Siphon.Sdp.C96_protocols` | propext, Classical.choice, Quot.sound |
| `Siphon.Sdp.C96_unreadable_profiles` | propext, Classical.choice, Quot.sound |
| `Siphon.Sdp.C96_swallowed` | propext, Classical.choice, Quot.sound |
| `Siphon.Sdp.C96_joined` | propext, Classical.choice, Quot.sound |
| `Siphon.Sdp.C97_round` | propext, Classical.choice, Quot.sound |
| `Siphon.Sdp.C97_exact` | propext, Classical.choice, Quot.sound |
| `Siphon.Sdp.C97_writable` | propext, Classical.choice, Quot.sound |
| `Siphon.Sdp.C97_stable` | propext, Classical.choice, Quot.sound |
| `Siphon.Sdp.C97_user_name` | propext, Classical.choice, Quot.sound |
| `Siphon.Sdp.C97_no_format` | propext, Classical.choice, Quot.sound |
| `Siphon.Sdp.C97_injection` | propext, Classical.choice, Quot.sound |
| `Siphon.Sdp.C98_answer` | propext, Classical.choice, Quot.sound |
| `Siphon.Sdp.C98_panics_iff` | propext, Classical.choice, Quot.sound |
| `Siphon.Sdp.C98_picks` | propext, Quot.sound |
| `Siphon.Sdp.C98_offer` | propext, Classical.choice, Quot.sound |
| `Siphon.Sdp.C98_mirrors_partial` | propext, Classical.choice, Quot.sound |
| `Siphon.Sdp.C98_panics` | propext, Classical.choice, Quot.sound |
| `Siphon.Sdp.C98_port` | propext, Classical.choice, Quot.sound |
| `Siphon.Sdp.C98_order` | propext, Classical.choice, Quot.sound |
| `Siphon.Sdp.C98_left_out` | propext, Classical.choice, Quot.sound |
| `Siphon.Sdp.C98_merged` | propext, Classical.choice, Quot.sound |
| `Siphon.Sdp.C98_not_offered` | propext, Classical.choice, Quot.sound |
| `Siphon.Sdp.C98_ignored` | propext, Classical.choice, Quot.sound |
| `Siphon.Pool.C99_cap` | propext, Quot.sound |
| `Siphon.Pool.C99_sockets` | propext, Classical.choice, Quot.sound |
| `Siphon.Pool.C99_idle` | propext, Quot.sound |
| `Siphon.Pool.C99_lru` | propext, Classical.choice, Quot.sound |
| `Siphon.Pool.C99_room` | propext, Classical.choice, Quot.sound |
| `Siphon.Pool.C99_refused` | propext, Classical.choice, Quot.sound |
| `Siphon.Pool.C99_used` | propext, Quot.sound |
| `Siphon.Pool.C100_channel` | propext, Classical.choice, Quot.sound |
| `Siphon.Pool.C100_peer` | propext, Classical.choice, Quot.sound |
| `Siphon.Pool.C100_peer_tcp` | propext, Classical.choice, Quot.sound |
| `Siphon.Pool.C100_peer_tls` | propext, Classical.choice, Quot.sound |
| `Siphon.Pool.C100_other_name` | propext |
| `Siphon.Pool.C100_order` | propext, Classical.choice, Quot.sound |
| `Siphon.Pool.C100_drains` | propext, Classical.choice, Quot.sound |
| `Siphon.Pool.C100_causes` | propext, Classical.choice, Quot.sound |
| `Siphon.Pool.C100_delivers_partial` | propext, Classical.choice, Quot.sound |
| `Siphon.Pool.C100_lost` | propext |
| `Siphon.Pool.C100_not` | propext |
| `Siphon.Pool.C100_late` | propext |
| `Siphon.Pool.C100_stalls` | propext, Classical.choice, Quot.sound |
| `Siphon.Pool.C100_reuse` | propext, Classical.choice, Quot.sound |
| `Siphon.Pool.C100_search` | propext, Classical.choice, Quot.sound |
| `Siphon.Pool.C101_once` | propext, Classical.choice, Quot.sound |
| `Siphon.Pool.C101_reported` | propext, Classical.choice, Quot.sound |
| `Siphon.Pool.C101_failure_is_closed` | propext, Classical.choice, Quot.sound |
| `Siphon.Pool.C101_failed_is_dropped` | propext, Classical.choice, Quot.sound |
| `Siphon.Pool.C101_swapped` | propext |
| `Siphon.Sub.C102_total` | propext, Quot.sound |
| `Siphon.Sub.C102_history` | propext, Quot.sound |
| `Siphon.Sub.C102_full_loses_refresh` | propext, Quot.sound |
| `Siphon.Sub.C102_threads` | propext, Quot.sound |
| `Siphon.Sub.C102_cleanup_partial` | propext, Quot.sound |
| `Siphon.Sub.C102_cleanup_race` | propext |
| `Siphon.Sub.C103_notifier` | propext, Classical.choice, Quot.sound |
| `Siphon.Sub.C103_subscriber` | propext, Classical.choice, Quot.sound |
| `Siphon.Sub.C103_same_name` | propext, Classical.choice, Quot.sound |
| `Siphon.Sub.C103_accepted` | propext, Classical.choice, Quot.sound |
| `Siphon.Sub.C103_refresh` | propext, Classical.choice, Quot.sound |
| `Siphon.Sub.C103_daemon_partial` | propext, Classical.choice, Quot.sound |
| `Siphon.Sub.C103_refused` | propext, Classical.choice, Quot.sound |
| `Siphon.Sub.C103_client` | propext, Classical.choice, Quot.sound |
| `Siphon.Sub.C103_refer_none` | propext, Classical.choice, Quot.sound |
| `Siphon.Sub.C104_notify` | propext, Classical.choice, Quot.sound |
| `Siphon.Sub.C104_sipfrag` | propext, Classical.choice, Quot.sound |
| `Siphon.Sub.C104_sipfrag_refused` | propext, Classical.choice, Quot.sound |
| `Siphon.Sub.C104_named_partial` | propext, Classical.choice, Quot.sound |
| `Siphon.Sub.C104_consecutive` | propext, Classical.choice, Quot.sound |
| `Siphon.Sub.C104_same_number` | propext, Classical.choice, Quot.sound |
| `Siphon.Sub.C104_answer` | propext, Classical.choice, Quot.sound |
| `Siphon.Sub.C104_found_partial` | propext, Classical.choice, Quot.sound |
| `Siphon.Sub.C104_parameters_never` | propext, Classical.choice, Quot.sound |
| `Siphon.Sub.C104_initial` | propext, Classical.choice, Quot.sound |
| `Siphon.Sub.C104_always_active` | propext, Classical.choice, Quot.sound |
| `Siphon.Sub.C104_to_itself` | propext, Classical.choice, Quot.sound |
| `Siphon.Sub.C104_two_types` | propext, Classical.choice, Quot.sound |
| `Siphon.Sub.C104_uri_tag` | propext, Classical.choice, Quot.sound |
| `Siphon.Sub.C104_via` | propext, Classical.choice, Quot.sound |
| `Siphon.Sub.C105_story` | propext, Classical.choice, Quot.sound |
| `Siphon.Sub.C105_accepted` | propext, Classical.choice, Quot.sound |
| `Siphon.Sub.C105_refused` | propext, Classical.choice, Quot.sound |
| `Siphon.Sub.C105_subscription` | propext, Classical.choice, Quot.sound |
| `Siphon.Sub.C105_progress_partial` | propext, Classical.choice, Quot.sound |
| `Siphon.Sub.C105_named_partial` | propext, Classical.choice, Quot.sound |
| `Siphon.Sub.C105_ends_once_partial` | propext, Classical.choice, Quot.sound |
| `Siphon.Sub.C105_ends` | propext, Classical.choice, Quot.sound |
| `Siphon.Sub.C105_repeated` | propext, Classical.choice, Quot.sound |
| `Siphon.Sub.C105_lost_twice` | propext, Classical.choice, Quot.sound |
| `Siphon.Sub.C105_long_reason` | propext, Classical.choice, Quot.sound |
| `Siphon.Sub.C105_number_refused` | propext, Classical.choice, Quot.sound |
| `Siphon.Sub.C106_filter` | propext, Classical.choice, Quot.sound |
| `Siphon.Sub.C106_filter6` | propext, Classical.choice, Quot.sound |
| `Siphon.Sub.C106_target` | propext, Classical.choice, Quot.sound |
| `Siphon.Sub.C106_request_uri_partial` | propext, Classical.choice, Quot.sound |
| `Siphon.Sub.C106_refused` | propext, Classical.choice, Quot.sound |
| `Siphon.Sub.C106_called` | propext, Classical.choice, Quot.sound |
| `Siphon.Sub.C106_names_fail` | propext, Classical.choice, Quot.sound |
| `Siphon.Sub.C106_gaps` | propext, Classical.choice, Quot.sound |
| `Siphon.Sub.C106_gaps6` | propext |
| `Siphon.Sub.C106_transport` | propext, Classical.choice, Quot.sound |
| `Siphon.Sub.C107_invite` | propext, Classical.choice, Quot.sound |
| `Siphon.Sub.C107_round_trip_partial` | propext, Classical.choice, Quot.sound |
| `Siphon.Sub.C107_attended_partial` | propext, Classical.choice, Quot.sound |
| `Siphon.Sub.C107_two_marks` | propext, Classical.choice, Quot.sound |
| `Siphon.Sub.C107_misread` | propext, Classical.choice, Quot.sound |
| `Siphon.Ident.C108_roundtrip` | propext, Classical.choice, Quot.sound |
| `Siphon.Ident.C108_total` | propext, Classical.choice, Quot.sound |
| `Siphon.Ident.C108_signer_fails` | propext, Classical.choice, Quot.sound |
| `Siphon.Ident.C108_layout` | propext, Classical.choice, Quot.sound |
| `Siphon.Ident.C108_header` | propext, Classical.choice, Quot.sound |
| `Siphon.Ident.C108_address_injected` | propext, Classical.choice, Quot.sound |
| `Siphon.Ident.C109_token` | propext, Classical.choice, Quot.sound |
| `Siphon.Ident.C109_header` | propext, Classical.choice, Quot.sound |
| `Siphon.Ident.C109_json` | propext, Classical.choice, Quot.sound |
| `Siphon.Ident.C109_base64` | propext, Classical.choice, Quot.sound |
| `Siphon.Ident.C109_pieces` | propext, Classical.choice, Quot.sound |
| `Siphon.Ident.C109_too_long` | propext, Classical.choice, Quot.sound |
| `Siphon.Ident.C109_bad_base64` | propext, Classical.choice, Quot.sound |
| `Siphon.Ident.C109_no_address` | propext, Classical.choice, Quot.sound |
| `Siphon.Ident.C109_bad_attest` | propext, Classical.choice, Quot.sound |
| `Siphon.Ident.C109_header_refusals` | propext, Classical.choice, Quot.sound |
| `Siphon.Ident.C109_arrays_accepted` | propext, Classical.choice, Quot.sound |
| `Siphon.Ident.C110_signature` | propext, Classical.choice, Quot.sound |
| `Siphon.Ident.C110_refusals` | propext, Classical.choice, Quot.sound |
| `Siphon.Ident.C110_bound` | propext, Classical.choice, Quot.sound |
| `Siphon.Ident.C110_only_signed` | propext, Classical.choice, Quot.sound |
| `Siphon.Ident.C110_signed` | propext, Classical.choice, Quot.sound |
| `Siphon.Ident.C110_chain` | propext, Classical.choice, Quot.sound |
| `Siphon.Ident.C110_der` | propext, Classical.choice, Quot.sound |
| `Siphon.Priv.C111_parse` | propext, Classical.choice, Quot.sound |
| `Siphon.Priv.C111_roundtrip` | propext, Classical.choice, Quot.sound |
| `Siphon.Priv.C111_new` | propext, Quot.sound |
| `Siphon.Priv.C111_required` | propext, Classical.choice, Quot.sound |
| `Siphon.Priv.C111_lost` | propext, Classical.choice, Quot.sound |
| `Siphon.Priv.C112_result` | propext, Classical.choice, Quot.sound |
| `Siphon.Priv.C112_fails` | propext, Classical.choice, Quot.sound |
| `Siphon.Priv.C112_nothing_seen` | propext, Classical.choice, Quot.sound |
| `Siphon.Priv.C112_dialog` | propext, Classical.choice, Quot.sound |
| `Siphon.Priv.C112_display_leaks` | propext, Classical.choice, Quot.sound |
| `Siphon.Priv.C112_contacts_leak` | propext, Classical.choice, Quot.sound |
| `Siphon.Priv.C112_half_done` | propext, Classical.choice, Quot.sound |
| `Siphon.Priv.C112_dialog_moves` | propext, Classical.choice, Quot.sound |
| `Siphon.Bridge.C113_one_final` | propext, Classical.choice, Quot.sound |
| `Siphon.Bridge.C113_in_order` | propext, Classical.choice, Quot.sound |
| `Siphon.Bridge.C113_delivered` | propext, Classical.choice, Quot.sound |
| `Siphon.Bridge.Cases.C113_panic_loses_final` | propext, Classical.choice, Quot.sound |
| `Siphon.Bridge.Cases.C113_host_name_no_final` | propext, Classical.choice, Quot.sound |
| `Siphon.Bridge.Cases.C113_any_response_answers` | propext, Classical.choice, Quot.sound |
| `Siphon.Bridge.C114_invite` | propext, Classical.choice, Quot.sound |
| `Siphon.Bridge.C114_called` | propext, Classical.choice, Quot.sound |
| `Siphon.Bridge.C114_not_found` | propext, Classical.choice, Quot.sound |
| `Siphon.Bridge.C114_binary_body` | propext, Classical.choice, Quot.sound |
| `Siphon.Bridge.C114_no_record_route` | propext, Classical.choice, Quot.sound |
| `Siphon.Bridge.Cases.C114_goes_round` | propext, Classical.choice, Quot.sound |
| `Siphon.Bridge.Cases.C114_two_tags` | propext, Classical.choice, Quot.sound |
| `Siphon.Bridge.Cases.C114_capital_tag` | propext, Classical.choice, Quot.sound |
| `Siphon.Bridge.C115_ack` | propext, Classical.choice, Quot.sound |
| `Siphon.Bridge.C115_bye_caller` | propext, Classical.choice, Quot.sound |
| `Siphon.Bridge.C115_bye_callee` | propext, Classical.choice, Quot.sound |
| `Siphon.Bridge.C115_unknown` | propext, Classical.choice, Quot.sound |
| `Siphon.Bridge.C115_unknown_ack` | propext, Classical.choice, Quot.sound |
| `Siphon.Bridge.C115_refusal_not_acked` | propext, Classical.choice, Quot.sound |
| `Siphon.Bridge.C115_five_minutes` | propext, Classical.choice, Quot.sound |
| `Siphon.Bridge.Cases.C115_any_tags` | propext, Classical.choice, Quot.sound |
| `Siphon.Bridge.Cases.C115_early_bye` | propext, Classical.choice, Quot.sound |
| `Siphon.Bridge.Cases.C115_caller_not_told` | propext, Classical.choice, Quot.sound |
| `Siphon.Bridge.C116_cancelled` | propext, Classical.choice, Quot.sound |
| `Siphon.Bridge.Cases.C116_no_final` | propext, Classical.choice, Quot.sound |
| `Siphon.Bridge.Cases.C116_callee_rings_on` | propext, Classical.choice, Quot.sound |
| `Siphon.Bridge.Cases.C116_late_cancel` | propext, Classical.choice, Quot.sound |
| `Siphon.Bridge.Cases.C116_any_cancel` | propext, Classical.choice, Quot.sound |
| `Siphon.Bridge.C117_passed_partial` | propext, Classical.choice, Quot.sound |
| `Siphon.Bridge.C117_echo` | propext, Classical.choice, Quot.sound |
| `Siphon.Bridge.C117_number` | propext, Classical.choice, Quot.sound |
| `Siphon.Bridge.C117_no_third` | propext, Classical.choice, Quot.sound |
| `Siphon.Bridge.C117_no_ack` | propext, Classical.choice, Quot.sound |
| `Siphon.Bridge.C117_kept` | propext, Classical.choice, Quot.sound |
| `Siphon.Bridge.C117_full` | propext, Classical.choice, Quot.sound |
| `Siphon.Bridge.Cases.C117_repeated` | propext, Classical.choice, Quot.sound |
| `Siphon.Bridge.Cases.C117_after` | propext, Classical.choice, Quot.sound |
| `Siphon.Daemon.C118_greeted` | propext, Classical.choice, Quot.sound |
| `Siphon.Daemon.C118_waits` | propext, Classical.choice, Quot.sound |
| `Siphon.Daemon.C118_rings` | propext, Classical.choice, Quot.sound |
| `Siphon.Daemon.C118_reliable` | propext, Classical.choice, Quot.sound |
| `Siphon.Daemon.C118_unreliable` | propext, Classical.choice, Quot.sound |
| `Siphon.Daemon.C118_answers` | propext, Classical.choice, Quot.sound |
| `Siphon.Daemon.C118_declines` | propext, Classical.choice, Quot.sound |
| `Siphon.Daemon.C118_no_offer` | propext, Classical.choice, Quot.sound |
| `Siphon.Daemon.C118_call` | propext, Classical.choice, Quot.sound |
| `Siphon.Daemon.C118_two_tags` | propext, Classical.choice, Quot.sound |
| `Siphon.Daemon.C118_own_target` | propext, Classical.choice, Quot.sound |
| `Siphon.Daemon.C118_no_422` | propext, Classical.choice, Quot.sound |
| `Siphon.Daemon.C118_longer` | propext, Classical.choice, Quot.sound |
| `Siphon.Daemon.C118_early_left` | propext, Classical.choice, Quot.sound |
| `Siphon.Daemon.C118_retransmission` | propext, Classical.choice, Quot.sound |
| `Siphon.Daemon.C119_ok` | propext, Classical.choice, Quot.sound |
| `Siphon.Daemon.C119_terminates` | propext, Classical.choice, Quot.sound |
| `Siphon.Daemon.C119_only` | propext, Classical.choice, Quot.sound |
| `Siphon.Daemon.C119_too_early` | propext, Classical.choice, Quot.sound |
| `Siphon.Daemon.C119_answered_anyway` | propext, Classical.choice, Quot.sound |
| `Siphon.Daemon.C119_collision` | propext, Classical.choice, Quot.sound |
| `Siphon.Daemon.C120_unknown` | propext, Classical.choice, Quot.sound |
| `Siphon.Daemon.C120_bye` | propext, Classical.choice, Quot.sound |
| `Siphon.Daemon.C120_info` | propext, Classical.choice, Quot.sound |
| `Siphon.Daemon.C120_prack` | propext, Classical.choice, Quot.sound |
| `Siphon.Daemon.C120_out_of_order` | propext, Classical.choice, Quot.sound |
| `Siphon.Daemon.C120_refused` | propext, Classical.choice, Quot.sound |
| `Siphon.Daemon.C120_modifies` | propext, Classical.choice, Quot.sound |
| `Siphon.Daemon.C120_spared` | propext, Classical.choice, Quot.sound |
| `Siphon.Daemon.C120_expired` | propext, Classical.choice, Quot.sound |
| `Siphon.Daemon.C120_own_target` | propext, Classical.choice, Quot.sound |
| `Siphon.Daemon.C120_old_bye` | propext, Classical.choice, Quot.sound |
| `Siphon.Daemon.C120_reinvite_unknown` | propext, Classical.choice, Quot.sound |
| `Siphon.Daemon.C120_interval_ignored` | propext, Classical.choice, Quot.sound |
| `Siphon.Daemon.C121_malformed` | propext, Classical.choice, Quot.sound |
| `Siphon.Daemon.C121_refused` | propext, Classical.choice, Quot.sound |
| `Siphon.Daemon.C121_taken` | propext, Classical.choice, Quot.sound |
| `Siphon.Daemon.C121_only` | propext, Classical.choice, Quot.sound |
| `Siphon.Daemon.C121_nothing_replaced` | propext, Classical.choice, Quot.sound |
| `Siphon.Daemon.C121_anyone` | propext, Classical.choice, Quot.sound |
| `Siphon.Daemon.C122_refines` | propext, Classical.choice, Quot.sound |
| `Siphon.Daemon.C122_hops` | propext, Classical.choice, Quot.sound |
| `Siphon.Daemon.C122_no_calls` | propext, Classical.choice, Quot.sound |
| `Siphon.Daemon.C122_credentials` | propext, Classical.choice, Quot.sound |
| `Siphon.Daemon.C122_attempts` | propext, Classical.choice, Quot.sound |
| `Siphon.Daemon.C122_calls` | propext, Classical.choice, Quot.sound |
| `Siphon.Daemon.C122_unknown_user_ignored` | propext, Classical.choice, Quot.sound |
| `Siphon.Daemon.C122_hangup_refused` | propext, Classical.choice, Quot.sound |
| `Siphon.Daemon.C122_cancel_from_elsewhere` | propext, Classical.choice, Quot.sound |
| `Siphon.Offer.C123_answer` | propext, Classical.choice, Quot.sound |
| `Siphon.Offer.C123_succeeds` | propext, Classical.choice, Quot.sound |
| `Siphon.Offer.C123_streams` | propext, Classical.choice, Quot.sound |
| `Siphon.Offer.C123_ports` | propext, Classical.choice, Quot.sound |
| `Siphon.Offer.C123_refused_iff` | propext, Classical.choice, Quot.sound |
| `Siphon.Offer.C123_session_level_ignored` | propext, Classical.choice, Quot.sound |
| `Siphon.Offer.C123_ip4_only` | propext, Classical.choice, Quot.sound |
| `Siphon.Offer.C123_disabled_answered` | propext, Classical.choice, Quot.sound |
| `Siphon.Offer.C123_order_counterexample` | propext, Classical.choice, Quot.sound |
| `Siphon.Offer.C123_unlisted_counterexample` | propext, Classical.choice, Quot.sound |
| `Siphon.Offer.C123_panic_counterexample` | propext, Classical.choice, Quot.sound |
| `Siphon.Offer.C123_port_zero_counterexample` | propext, Classical.choice, Quot.sound |
| `Siphon.Offer.C124_hold` | propext, Classical.choice, Quot.sound |
| `Siphon.Offer.C124_resume` | propext, Classical.choice, Quot.sound |
| `Siphon.Offer.C124_panics_iff` | propext, Classical.choice, Quot.sound |
| `Siphon.Offer.C124_hold_resume` | propext, Classical.choice, Quot.sound |
| `Siphon.Offer.C124_resume_counterexample` | propext, Classical.choice, Quot.sound |
| `Siphon.Offer.C124_session_direction_counterexample` | propext, Classical.choice, Quot.sound |
| `Siphon.Offer.C125_met_iff` | propext, Classical.choice, Quot.sound |
| `Siphon.Offer.C125_curr_roundtrip` | propext, Classical.choice, Quot.sound |
| `Siphon.Offer.C125_des_roundtrip` | propext, Classical.choice, Quot.sound |
| `Siphon.Offer.C125_curr_iff` | propext, Classical.choice, Quot.sound |
| `Siphon.Offer.C125_des_iff` | propext, Classical.choice, Quot.sound |
| `Siphon.Offer.C125_e2e_agrees` | propext, Classical.choice, Quot.sound |
| `Siphon.Offer.C125_remote_forgotten` | propext, Classical.choice, Quot.sound |
| `Siphon.Offer.C125_unknown_kind_dropped` | propext, Classical.choice, Quot.sound |
| `Siphon.Relay.C126_forward` | propext, Classical.choice, Quot.sound |
| `Siphon.Relay.C126_branch` | propext, Classical.choice, Quot.sound |
| `Siphon.Relay.C126_request` | propext, Classical.choice, Quot.sound |
| `Siphon.Relay.C126_ack` | propext, Classical.choice, Quot.sound |
| `Siphon.Relay.C126_circulates` | propext, Classical.choice, Quot.sound |
| `Siphon.Relay.Cases.C126_loop_silent` | propext, Classical.choice, Quot.sound |
| `Siphon.Relay.Cases.C126_route_skipped` | propext, Classical.choice, Quot.sound |
| `Siphon.Relay.Cases.C126_name_dropped` | propext, Classical.choice, Quot.sound |
| `Siphon.Relay.C127_invite` | propext, Classical.choice, Quot.sound |
| `Siphon.Relay.Cases.C127_not_found` | propext, Classical.choice, Quot.sound |
| `Siphon.Relay.Cases.C127_reinvite_lost` | propext, Classical.choice, Quot.sound |
| `Siphon.Relay.Cases.C127_credential_leaks` | propext, Classical.choice, Quot.sound |
| `Siphon.Relay.Cases.C127_twice` | propext, Classical.choice, Quot.sound |
| `Siphon.Relay.Cases.C127_hangs` | propext, Classical.choice, Quot.sound |
| `Siphon.Relay.C128_response` | propext, Classical.choice, Quot.sound |
| `Siphon.Relay.C128_up` | propext, Classical.choice, Quot.sound |
| `Siphon.Relay.C128_one` | propext, Classical.choice, Quot.sound |
| `Siphon.Relay.C128_sent` | propext, Classical.choice, Quot.sound |
| `Siphon.Relay.C128_roundtrip` | propext, Classical.choice, Quot.sound |
| `Siphon.Relay.C128_once` | propext, Classical.choice, Quot.sound |
| `Siphon.Relay.C128_takeover` | propext, Classical.choice, Quot.sound |
| `Siphon.Relay.Cases.C128_trying` | propext, Classical.choice, Quot.sound |
| `Siphon.Relay.C129_unmatched` | propext, Classical.choice, Quot.sound |
| `Siphon.Relay.C129_uri` | propext, Classical.choice, Quot.sound |
| `Siphon.Relay.Cases.C129_cancel_dropped` | propext, Classical.choice, Quot.sound |
| `Siphon.UriText.C130_sip` | propext, Classical.choice, Quot.sound |
| `Siphon.UriText.C130_tel` | propext, Classical.choice, Quot.sound |
| `Siphon.UriText.C130_uri` | propext, Classical.choice, Quot.sound |
| `Siphon.UriText.C130_user_cut` | propext, Classical.choice, Quot.sound |
| `Siphon.UriText.C130_rfc_example` | propext, Classical.choice, Quot.sound |
| `Siphon.UriText.C130_after_bracket` | propext, Classical.choice, Quot.sound |
| `Siphon.UriText.C130_repeated` | propext, Classical.choice, Quot.sound |
| `Siphon.UriText.C130_scheme_case` | propext, Classical.choice, Quot.sound |
| `Siphon.Prefs.C131_add` | propext, Classical.choice, Quot.sound |
| `Siphon.Prefs.C131_matches` | propext, Classical.choice, Quot.sound |
| `Siphon.Prefs.C131_reads` | propext, Classical.choice, Quot.sound |
| `Siphon.Prefs.C131_from_params` | propext, Classical.choice, Quot.sound |
| `Siphon.Prefs.C131_from_built` | propext, Classical.choice, Quot.sound |
| `Siphon.Prefs.C131_to_params` | propext, Classical.choice, Quot.sound |
| `Siphon.Prefs.C131_param` | propext, Classical.choice, Quot.sound |
| `Siphon.Prefs.C131_roundtrip` | propext, Classical.choice, Quot.sound |
| `Siphon.Prefs.C131_lost` | propext, Classical.choice, Quot.sound |
| `Siphon.Prefs.C132_score` | propext, Classical.choice, Quot.sound |
| `Siphon.Prefs.C132_range` | propext, Classical.choice, Quot.sound |
| `Siphon.Prefs.C132_feature` | propext, Classical.choice, Quot.sound |
| `Siphon.Prefs.C132_q_unused` | propext, Classical.choice, Quot.sound |
| `Siphon.Prefs.C132_new` | propext, Classical.choice, Quot.sound |
| `Siphon.Prefs.C132_not_immune` | propext, Classical.choice, Quot.sound |
| `Siphon.Prefs.C133_parse` | propext, Classical.choice, Quot.sound |
| `Siphon.Prefs.C133_roundtrip` | propext, Classical.choice, Quot.sound |
| `Siphon.Replaces.C134_parse` | propext, Classical.choice, Quot.sound |
| `Siphon.Replaces.C134_one` | propext, Classical.choice, Quot.sound |
| `Siphon.Replaces.C134_new` | propext, Classical.choice, Quot.sound |
| `Siphon.Replaces.C134_early` | none |
| `Siphon.Replaces.C134_roundtrip_partial` | propext, Classical.choice, Quot.sound |
| `Siphon.Replaces.C134_reread` | propext, Classical.choice, Quot.sound |
| `Siphon.Replaces.C134_injected` | propext, Classical.choice, Quot.sound |
| `Siphon.SecAgree.C135_weight` | propext, Classical.choice, Quot.sound |
| `Siphon.SecAgree.C135_ordered` | propext, Classical.choice, Quot.sound |
| `Siphon.SecAgree.C135_set` | propext, Classical.choice, Quot.sound |
| `Siphon.SecAgree.C135_set_preference` | propext, Classical.choice, Quot.sound |
| `Siphon.SecAgree.C135_made` | propext, Classical.choice, Quot.sound |
| `Siphon.SecAgree.C135_new_header` | propext, Quot.sound |
| `Siphon.SecAgree.C135_best` | propext, Classical.choice, Quot.sound |
| `Siphon.SecAgree.C135_some` | propext, Classical.choice, Quot.sound |
| `Siphon.SecAgree.C135_choice` | propext, Classical.choice, Quot.sound |
| `Siphon.SecAgree.C135_sorted` | propext, Classical.choice, Quot.sound |
| `Siphon.SecAgree.C135_verify` | propext, Quot.sound |
| `Siphon.SecAgree.C135_not_server_choice` | propext, Classical.choice, Quot.sound |
| `Siphon.SecAgree.C135_bidding_down` | propext, Classical.choice, Quot.sound |
| `Siphon.SecAgree.C135_case` | propext, Classical.choice, Quot.sound |
| `Siphon.SecAgree.C136_mechanism` | propext, Classical.choice, Quot.sound |
| `Siphon.SecAgree.C136_entry` | propext, Classical.choice, Quot.sound |
| `Siphon.SecAgree.C136_header` | propext, Classical.choice, Quot.sound |
| `Siphon.SecAgree.C136_ten` | propext, Classical.choice, Quot.sound |
| `Siphon.SecAgree.C136_ordered` | propext, Classical.choice, Quot.sound |
| `Siphon.SecAgree.C136_roundtrip_partial` | propext, Classical.choice, Quot.sound |
| `Siphon.SecAgree.C136_injected` | propext, Classical.choice, Quot.sound |
| `Siphon.Hep.C137_found` | propext, Classical.choice, Quot.sound |
| `Siphon.Hep.C137_body` | propext, Classical.choice, Quot.sound |
| `Siphon.Hep.C137_request` | propext, Classical.choice, Quot.sound |
| `Siphon.Hep.C137_response` | propext, Classical.choice, Quot.sound |
| `Siphon.Hep.C137_without` | propext, Classical.choice, Quot.sound |
| `Siphon.Hep.C137_packet` | propext, Classical.choice, Quot.sound |
| `Siphon.Hep.C137_datagram` | propext, Classical.choice, Quot.sound |
| `Siphon.Hep.C137_once` | none |
| `Siphon.Hep.C137_spaced` | propext, Classical.choice, Quot.sound |
| `Siphon.Reason.C138_parse` | propext, Classical.choice, Quot.sound |
| `Siphon.Reason.C138_header` | propext, Classical.choice, Quot.sound |
| `Siphon.Reason.C138_get` | propext, Classical.choice, Quot.sound |
| `Siphon.Reason.C138_new` | propext, Classical.choice, Quot.sound |
| `Siphon.Reason.C138_sip` | propext, Classical.choice, Quot.sound |
| `Siphon.Reason.C138_sip_made` | propext, Classical.choice, Quot.sound |
| `Siphon.Reason.C138_q850` | propext, Classical.choice, Quot.sound |
| `Siphon.Reason.C138_as_q850` | propext, Classical.choice, Quot.sound |
| `Siphon.Reason.C138_codes` | none |
| `Siphon.Reason.C138_words` | propext, Classical.choice, Quot.sound |
| `Siphon.Reason.C138_roundtrip_partial` | propext, Classical.choice, Quot.sound |
| `Siphon.Reason.C138_semicolon` | propext, Classical.choice, Quot.sound |
| `Siphon.Reason.C138_backslash` | propext, Classical.choice, Quot.sound |
| `Siphon.Reason.C138_quotes` | propext, Classical.choice, Quot.sound |
| `Siphon.Reason.C138_two_reasons` | propext, Classical.choice, Quot.sound |
| `Siphon.Mwi.C139_parse` | propext, Classical.choice, Quot.sound |
| `Siphon.Mwi.C139_roundtrip_partial` | propext, Classical.choice, Quot.sound |
| `Siphon.Mwi.C139_totals` | propext, Quot.sound |
| `Siphon.Mwi.C139_overflow` | propext, Classical.choice, Quot.sound |
| `Siphon.Mwi.C139_two_headers` | propext, Classical.choice, Quot.sound |
| `Siphon.UriText.C140_without_headers` | propext, Classical.choice, Quot.sound |
| `Siphon.UriText.C140_upper_case_keeps_headers` | propext, Classical.choice, Quot.sound |
| `Siphon.Prio.C141_priority` | propext, Classical.choice, Quot.sound |
| `Siphon.Prio.C141_priority_written` | propext, Classical.choice, Quot.sound |
| `Siphon.Prio.C141_resource` | propext, Quot.sound |
| `Siphon.Prio.C141_resource_made` | propext, Quot.sound |
| `Siphon.Prio.C141_resource_roundtrip_partial` | propext, Quot.sound |
| `Siphon.Prio.C141_resource_read_plain` | propext, Quot.sound |
| `Siphon.Prio.C141_resource_injection` | propext, Classical.choice, Quot.sound |
| `Siphon.Prio.C141_resource_dot` | propext, Classical.choice, Quot.sound |
| `Siphon.Prio.C141_resource_long` | propext |
| `Siphon.Prio.C141_refer_sub` | propext, Classical.choice, Quot.sound |
| `Siphon.Prio.C141_etag` | propext, Classical.choice, Quot.sound |
| `Siphon.Tokens.C142_made` | propext, Classical.choice, Quot.sound |
| `Siphon.Tokens.C142_parse` | propext, Classical.choice, Quot.sound |
| `Siphon.Tokens.C142_contains` | propext, Classical.choice, Quot.sound |
| `Siphon.Tokens.C142_roundtrip` | propext, Classical.choice, Quot.sound |
| `Siphon.Tokens.C142_headers` | propext, Classical.choice, Quot.sound |
| `Siphon.Tokens.C142_empty` | propext |
| `Siphon.Tokens.C142_one_bad` | propext, Classical.choice, Quot.sound |
| `Siphon.DateHdr.C143_new` | propext, Classical.choice, Quot.sound |
| `Siphon.DateHdr.C143_past` | propext, Quot.sound |
| `Siphon.DateHdr.C143_parse` | propext, Classical.choice, Quot.sound |
| `Siphon.DateHdr.C143_of_time` | propext, Quot.sound |
| `Siphon.DateHdr.C143_never_no` | propext, Quot.sound |
| `Siphon.DateHdr.C143_bad_is_now` | propext, Classical.choice, Quot.sound |
| `Siphon.DateHdr.C143_lax` | propext, Classical.choice, Quot.sound |
| `Siphon.Frag.C144_header` | propext, Classical.choice, Quot.sound |
| `Siphon.Frag.C144_body` | propext, Classical.choice, Quot.sound |
| `Siphon.Frag.C144_sound` | propext, Classical.choice, Quot.sound |
| `Siphon.Frag.C144_status` | propext, Classical.choice, Quot.sound |
| `Siphon.Frag.C144_start` | propext, Classical.choice, Quot.sound |
| `Siphon.Frag.C144_text` | propext, Classical.choice, Quot.sound |
| `Siphon.Frag.C144_headers_mut` | propext, Classical.choice, Quot.sound |
| `Siphon.Frag.C144_panic` | propext, Classical.choice, Quot.sound |
| `Siphon.EventHdr.C145_event` | propext, Classical.choice, Quot.sound |
| `Siphon.EventHdr.C145_state` | propext, Classical.choice, Quot.sound |
| `Siphon.EventHdr.C145_add` | propext, Classical.choice, Quot.sound |
| `Siphon.EventHdr.C145_state_text` | propext, Classical.choice, Quot.sound |
| `Siphon.EventHdr.C145_form` | propext, Classical.choice, Quot.sound |
| `Siphon.Mime.C146_new` | propext, Classical.choice, Quot.sound |
| `Siphon.Mime.C146_value` | propext, Classical.choice, Quot.sound |
| `Siphon.Mime.C146_add` | propext, Classical.choice, Quot.sound |
| `Siphon.Mime.C146_made` | propext, Classical.choice, Quot.sound |
| `Siphon.Mime.C146_parse` | propext, Quot.sound |
| `Siphon.Mime.C146_roundtrip_partial` | propext, Classical.choice, Quot.sound |
| `Siphon.Mime.C146_semicolon` | propext, Classical.choice, Quot.sound |
| `Siphon.Version.C147_version` | propext, Classical.choice, Quot.sound |
| `Siphon.Version.C147_zeros` | propext, Classical.choice, Quot.sound |
| `Siphon.Subject.C148_subject` | propext, Classical.choice, Quot.sound |
| `Siphon.Subject.C148_utf8` | propext, Classical.choice, Quot.sound |
