{
 "claims": [
  {
   "property": "C01",
   "status": "proved",
   "theorems": [
    "Siphon.Fsm.C01_ack_exactly_once",
    "Siphon.Fsm.C01_final_is_delivered",
    "Siphon.Manager.C01_manager",
    "Siphon.Manager.C01_second_2xx_lost"
   ],
   "note": "Proved for the INVITE client machine and for the whole manager. Finding: the manager drops the entry at the first 2xx, so a retransmitted 2xx reaches nobody."
  },
  {
   "property": "C02",
   "status": "proved",
   "theorems": [
    "Siphon.Fsm.C02_silent_after_response",
    "Siphon.Fsm.C02_retransmits_same_request"
   ],
   "note": ""
  },
  {
   "property": "C03",
   "status": "proved",
   "theorems": [
    "Siphon.Fsm.C03_invite_schedule",
    "Siphon.Fsm.C03_invite_first",
    "Siphon.Fsm.C03_invite_reliable",
    "Siphon.Fsm.C03_noninvite_schedule",
    "Siphon.Fsm.C03_noninvite_reliable"
   ],
   "note": "Timer A is capped at T2 by the code; the theorem states what the code does."
  },
  {
   "property": "C04",
   "status": "proved",
   "theorems": [
    "Siphon.Fsm.C04_nothing_after_final",
    "Siphon.Fsm.C04_at_most_one_final",
    "Siphon.Fsm.C04_final_is_delivered",
    "Siphon.Manager.C04_manager"
   ],
   "note": ""
  },
  {
   "property": "C05",
   "status": "proved",
   "theorems": [
    "Siphon.Fsm.C05_only_first_final",
    "Siphon.Fsm.C05_retransmission_answer"
   ],
   "note": ""
  },
  {
   "property": "C06",
   "status": "proved",
   "theorems": [
    "Siphon.Fsm.C06_2xx_never_retransmitted",
    "Siphon.Fsm.C06_timer_sends_latest_final",
    "Siphon.Fsm.C06_silent_after_ack",
    "Siphon.Fsm.C06_timerG_schedule",
    "Siphon.Fsm.C06_reliable",
    "Siphon.Fsm.C06_retransmission_answer"
   ],
   "note": ""
  },
  {
   "property": "C07",
   "status": "partial",
   "theorems": [
    "Siphon.Fsm.C07_client_invite_forward",
    "Siphon.Fsm.C07_client_invite_terminated",
    "Siphon.Fsm.C07_client_invite_never_confirmed",
    "Siphon.Fsm.C07_client_noninvite_forward",
    "Siphon.Fsm.C07_client_noninvite_terminated",
    "Siphon.Fsm.C07_server_noninvite_forward",
    "Siphon.Fsm.C07_server_noninvite_terminated",
    "Siphon.Fsm.C07_server_invite_terminated",
    "Siphon.Fsm.C07_server_invite_forward_partial",
    "Siphon.Fsm.C07_server_invite_goes_back",
    "Siphon.Fsm.C07_server_invite_only_regression"
   ],
   "note": "Forward-only is false for the INVITE server machine: a second final in Confirmed returns to Completed. Negation proved, and proved to be the only exception."
  },
  {
   "property": "C08",
   "status": "proved",
   "theorems": [
    "Siphon.Fsm.C08_invite_client_terminates",
    "Siphon.Fsm.C08_noninvite_client_terminates",
    "Siphon.Fsm.C08_invite_user_told",
    "Siphon.Fsm.C08_noninvite_user_told",
    "Siphon.Manager.C08_manager"
   ],
   "note": ""
  },
  {
   "property": "C09",
   "status": "proved",
   "theorems": [
    "Siphon.Fsm.C09_noninvite_server_terminates",
    "Siphon.Fsm.C09_invite_server_terminates",
    "Siphon.Manager.C09_manager",
    "Siphon.Manager.C09_final_ends_waiting",
    "Siphon.Manager.C09_stray_ack_stays"
   ],
   "note": "Finding: an ACK that matches nothing opens a server transaction that has no timer."
  },
  {
   "property": "C26",
   "status": "proved",
   "theorems": [
    "Siphon.C26_roundtrip",
    "Siphon.C26_case_insensitive",
    "Siphon.C26_injective",
    "Siphon.C26_token_safe"
   ],
   "note": ""
  },
  {
   "property": "C10",
   "status": "partial",
   "theorems": [
    "Siphon.Manager.C10_tables_bounded",
    "Siphon.Manager.C10_client_room",
    "Siphon.Manager.C10_client_evicts_oldest",
    "Siphon.Manager.C10_server_evicts_oldest",
    "Siphon.Manager.C10_zero_limit_not_enforced",
    "Siphon.Manager.Race.C10_one_task",
    "Siphon.Manager.Race.C10_concurrent_unbounded"
   ],
   "note": "Proved for every history of calls that run one after the other. Two exceptions proved: a limit of 0 is not enforced, and with two concurrent calls the table can grow without bound."
  },
  {
   "property": "C11",
   "status": "partial",
   "theorems": [
    "Siphon.Manager.C11_absorbed_partial",
    "Siphon.Manager.C11_copies_look_alike",
    "Siphon.Manager.C11_after_2xx_new_transaction",
    "Siphon.Manager.C11_cancel_ignored"
   ],
   "note": "Absorption proved; delivery to the application is false: receive_request returns the same handle for originals and copies, and siphond dispatches every one."
  },
  {
   "property": "C12",
   "status": "proved",
   "theorems": [
    "Siphon.Manager.C12_isolated",
    "Siphon.Manager.C12_unmatched",
    "Siphon.Manager.C12_branch_is_via_param",
    "Siphon.Manager.C12_user"
   ],
   "note": ""
  },
  {
   "property": "C13",
   "status": "proved",
   "theorems": [
    "Siphon.Manager.C13_failover",
    "Siphon.Manager.C13_failure_reported",
    "Siphon.Manager.C13_no_target",
    "Siphon.Manager.C13_restart_replaces"
   ],
   "note": "For keys started once; C13_restart_replaces shows that starting a live key again silently replaces it."
  },
  {
   "property": "C31",
   "status": "partial",
   "theorems": [
    "Siphon.Transport.C31_split_partial",
    "Siphon.Transport.C31_open_agree",
    "Siphon.Transport.C31_never_disagree",
    "Siphon.Transport.C31_error_for_all",
    "Siphon.Transport.C31_error_loses_messages",
    "Siphon.Transport.C31_limit_matters"
   ],
   "note": "True for streams without framing error whose header blocks are at most 65533 bytes. Two exceptions proved: messages read together with a later framing error are lost, and a header block of 65534-65536 bytes is refused if the blank line is split."
  },
  {
   "property": "C32",
   "status": "proved",
   "theorems": [
    "Siphon.Transport.C32_conserved",
    "Siphon.Transport.C32_buffer_bounded"
   ],
   "note": ""
  },
  {
   "property": "C33",
   "status": "proved",
   "theorems": [
    "Siphon.Transport.C33_only_messages",
    "Siphon.Transport.C33_bad_header_closes",
    "Siphon.Transport.C33_endless_header_closes"
   ],
   "note": ""
  },
  {
   "property": "C34",
   "status": "proved",
   "theorems": [
    "Siphon.Transport.C34_pipeline",
    "Siphon.Transport.C34_one_read"
   ],
   "note": "For any split: header blocks up to 65533 bytes; in one read: up to 65536 (see C31_limit_matters)."
  },
  {
   "property": "C47",
   "status": "proved",
   "theorems": [
    "Siphon.RateLimit.C47_bound",
    "Siphon.RateLimit.C47_window",
    "Siphon.RateLimit.C47_presets",
    "Siphon.RateLimit.C47_admits",
    "Siphon.RateLimit.C47_disabled",
    "Siphon.RateLimit.C47_needs_idle"
   ],
   "note": "Needs an idle timeout at least as long as a full refill; true of every preset, and C47_needs_idle proves the bound false without it."
  },
  {
   "property": "C48",
   "status": "proved",
   "theorems": [
    "Siphon.RateLimit.C48_refines",
    "Siphon.RateLimit.C48_independent",
    "Siphon.RateLimit.C48_needs_idle",
    "Siphon.RateLimit.C48_look_matters"
   ],
   "note": "Same condition on the idle timeout, proved necessary. Queries of the key itself are excluded: C48_look_matters shows they change later answers."
  },
  {
   "property": "C49",
   "status": "proved",
   "theorems": [
    "Siphon.RateLimit.C49_bounded",
    "Siphon.RateLimit.C49_full_refuses",
    "Siphon.RateLimit.Race.C49_concurrent",
    "Siphon.RateLimit.Race.C49_one_caller",
    "Siphon.RateLimit.Race.C49_limit_exceeded"
   ],
   "note": "Sequential calls: 100000. With n concurrent callers the exact bound is 100000 + n - 1."
  },
  {
   "property": "C65",
   "status": "proved",
   "theorems": [
    "Siphon.RateLimit.C65_metrics"
   ],
   "note": ""
  },
  {
   "property": "C24",
   "status": "proved",
   "theorems": [
    "Siphon.C24_bounded",
    "Siphon.C24_bounded_lengths",
    "Siphon.C24_full_refuses",
    "Siphon.C24_get",
    "Siphon.C24_get_none",
    "Siphon.C24_getAll",
    "Siphon.C24_contains",
    "Siphon.C24_count",
    "Siphon.C24_push",
    "Siphon.C24_push_ok",
    "Siphon.C24_remove",
    "Siphon.C24_replaceFirst",
    "Siphon.C24_setOrPush",
    "Siphon.C24_removeAt"
   ],
   "note": ""
  },
  {
   "property": "C35",
   "status": "partial",
   "theorems": [
    "Siphon.Auth.C35_issued_and_fresh",
    "Siphon.Auth.C35_no_replay_partial",
    "Siphon.Auth.C35_same_text",
    "Siphon.Auth.C35_headers_not_covered",
    "Siphon.Auth.C35_count_consumed_before_check",
    "Siphon.Auth.C35_text_ambiguous"
   ],
   "note": "A repeated count is accepted only for the same method/URI/body text inside the reuse window; missing: headers are not covered (negation proved), so one captured credential is accepted again with other headers."
  },
  {
   "property": "C36",
   "status": "proved",
   "theorems": [
    "Siphon.Auth.C36_sound",
    "Siphon.Auth.C36_presents_unique"
   ],
   "note": ""
  },
  {
   "property": "C38",
   "status": "proved",
   "theorems": [
    "Siphon.Auth.C38_bounded",
    "Siphon.Auth.C38_drops_oldest",
    "Siphon.Auth.C38_small_maximum_unbounded"
   ],
   "note": "For maxima of at least 10; C38_small_maximum_unbounded proves the bound false below 10."
  },
  {
   "property": "C39",
   "status": "proved",
   "theorems": [
    "Siphon.Auth.C39_stale_sound",
    "Siphon.Auth.C39_reuse_sound",
    "Siphon.Auth.C39_stale_complete",
    "Siphon.Auth.C39_challenge_text"
   ],
   "note": ""
  },
  {
   "property": "C37",
   "status": "partial",
   "theorems": [
    "Siphon.Auth.C37_accepted_partial",
    "Siphon.Auth.C37_long_uri_refused",
    "Siphon.Auth.C37_old_client_refused",
    "Siphon.Auth.C37_quote_refused",
    "Siphon.Auth.C37_rechallenge_keeps_old"
   ],
   "note": "Proved end to end (challenge text, client, server) for values that need no escaping and at most 256 bytes. False otherwise, with proofs: names with quotes, URIs over 256 bytes, clients past 1000 requests, second challenge."
  },
  {
   "property": "C66",
   "status": "proved",
   "theorems": [
    "Siphon.Auth.C66_roundtrip",
    "Siphon.Auth.C66_verify_iff",
    "Siphon.Auth.C66_accepted"
   ],
   "note": ""
  },
  {
   "property": "C67",
   "status": "partial",
   "theorems": [
    "Siphon.Auth.C67_quote_panics",
    "Siphon.Auth.C67_full_request_panics",
    "Siphon.Auth.C67_cseq_panics",
    "Siphon.Auth.C67_parse_panics_only_partial"
   ],
   "note": "False: three panics proved; reading the challenge panics only for a lone quotation mark."
  },
  {
   "property": "C40",
   "status": "proved",
   "theorems": [
    "Siphon.Registrar.C40_lookup",
    "Siphon.Registrar.C40_cleanup",
    "Siphon.Registrar.C40_registrar"
   ],
   "note": "For histories in which the clock does not go back."
  },
  {
   "property": "C41",
   "status": "proved",
   "theorems": [
    "Siphon.Registrar.C41_bounds",
    "Siphon.Registrar.C41_registrar",
    "Siphon.Registrar.C41_flows_collide",
    "Siphon.Registrar.C41_full_refuses_refresh",
    "Siphon.Registrar.Race.C41_race_per_aor",
    "Siphon.Registrar.Race.C41_race_total",
    "Siphon.Registrar.Race.C41_race_over_limit"
   ],
   "note": "Sequential calls: exact. Concurrent calls: the limit per address holds under every interleaving; the total limit can be exceeded by the number of calls under way (bound and negation proved). Findings proved: RFC 5626 flows of one contact replace each other; a full store refuses refreshes."
  },
  {
   "property": "C42",
   "status": "partial",
   "theorems": [
    "Siphon.Registrar.C42_own_address_partial",
    "Siphon.Registrar.C42_any_host",
    "Siphon.Registrar.C42_proxy_bypass"
   ],
   "note": "The user part must be the authenticated user's (non-proxy authentication). False beyond that, with proofs: the host of the address is not checked, and with proxy authentication the name is taken from a header nobody verified."
  },
  {
   "property": "C43",
   "status": "partial",
   "theorems": [
    "Siphon.Registrar.C43_partial",
    "Siphon.Registrar.C43_refused_only",
    "Siphon.Registrar.C43_wildcard_ignores_cseq",
    "Siphon.Registrar.C43_removed_comes_back",
    "Siphon.Registrar.Race.C43_race"
   ],
   "note": "Proved for requests without wildcard while the binding exists, handled one after the other; false for wildcards, after removal, and for two requests handled at once (negations proved)."
  },
  {
   "property": "C44",
   "status": "partial",
   "theorems": [
    "Siphon.Registrar.C44_not_atomic",
    "Siphon.Registrar.C44_one_contact_partial",
    "Siphon.Registrar.C44_others_untouched_partial",
    "Siphon.Registrar.C44_turned_away"
   ],
   "note": "False for several contacts (negation proved); true for one contact, and contacts not mentioned are never touched."
  },
  {
   "property": "C45",
   "status": "proved",
   "theorems": [
    "Siphon.Registrar.C45_C46_effect",
    "Siphon.Registrar.C45_wildcard"
   ],
   "note": ""
  },
  {
   "property": "C46",
   "status": "partial",
   "theorems": [
    "Siphon.Registrar.C45_C46_effect",
    "Siphon.Registrar.C46_too_brief",
    "Siphon.Registrar.C46_min_below_60_fails"
   ],
   "note": "A configured minimum below 60 s is not honoured (negation proved)."
  },
  {
   "property": "C71",
   "status": "partial",
   "theorems": [
    "Siphon.Registrar.C71_answer_lists_bindings",
    "Siphon.Registrar.C71_ambiguous"
   ],
   "note": "The list is exact; its text is ambiguous for URIs with parameters because it is written without angle brackets (proved)."
  },
  {
   "property": "C68",
   "status": "partial",
   "theorems": [
    "Siphon.Auth.C68_same_request_partial",
    "Siphon.Auth.C68_case"
   ],
   "note": "The retry is the original request with a new branch, the next CSeq and the credentials, for the header spelling Via/CSeq; with other spellings neither is renewed (proved)."
  },
  {
   "property": "C69",
   "status": "partial",
   "theorems": [
    "Siphon.UriP.C69_effect",
    "Siphon.UriP.C69_reparse_partial",
    "Siphon.UriP.C69_user_not_escaped",
    "Siphon.UriP.C69_user_unreadable",
    "Siphon.UriP.C69_param_injection",
    "Siphon.UriP.C69_host_case",
    "Siphon.UriP.C69_too_long",
    "Siphon.UriP.C69_empty_headers_stay",
    "Siphon.UriP.C69_new_ipv6"
   ],
   "note": "Reparsing gives an equal URI for plain users, lower-case hosts, valid parameter text and length limits; each of these conditions is proved necessary."
  },
  {
   "property": "C70",
   "status": "partial",
   "theorems": [
    "Siphon.Registrar.C70_sip_partial",
    "Siphon.Registrar.C70_ipv6_port",
    "Siphon.Registrar.C70_tel_distinct",
    "Siphon.Registrar.C70_tel_same",
    "Siphon.Registrar.C70_schemes",
    "Siphon.Registrar.C70_identity_sip",
    "Siphon.Registrar.C70_identity_tel"
   ],
   "note": "Distinct addresses have distinct keys except an IPv6 host that ends like another host with port (collision proved)."
  },
  {
   "property": "C23",
   "status": "partial",
   "theorems": [
    "Siphon.C23_header_new",
    "Siphon.C23_header_stored",
    "Siphon.C23_stored_clean",
    "Siphon.Parse.C23_request",
    "Siphon.Parse.C23_response",
    "Siphon.Parse.C23_method_injection"
   ],
   "note": "The header collection stores only clean names and values, and a written message has exactly the lines of its start line and headers, for every method that comes from a token and every URI from the URI parser. Violated (proved): the public variant Method::Unknown (and likewise Uri::Absolute) lets an application write a method with line ends in it."
  },
  {
   "property": "C25",
   "status": "proved",
   "theorems": [
    "Siphon.C25_forward",
    "Siphon.C25_refused",
    "Siphon.C25_exhausted",
    "Siphon.C25_chain",
    "Siphon.C25_chain_absent",
    "Siphon.C25_at_most_255",
    "Siphon.C25_bound_met",
    "Siphon.Proxy.C25_proxies"
   ],
   "note": ""
  },
  {
   "property": "C50",
   "status": "proved",
   "theorems": [
    "Siphon.Proxy.C50_kept",
    "Siphon.Proxy.C50_upstream"
   ],
   "note": ""
  },
  {
   "property": "C51",
   "status": "partial",
   "theorems": [
    "Siphon.Proxy.C51_success_partial",
    "Siphon.Proxy.C51_fork",
    "Siphon.Proxy.C51_tried",
    "Siphon.Proxy.C51_sequential",
    "Siphon.Proxy.C51_after_6xx",
    "Siphon.Proxy.C51_6xx_sends_no_cancel",
    "Siphon.Proxy.C51_6xx_after_2xx",
    "Siphon.Proxy.C51_100_forwarded",
    "Siphon.Proxy.C51_cseq_tab"
   ],
   "note": "Proved while no 6xx has arrived, for host and transport names without white space and `;`. False otherwise, with proofs: a 2xx after a 6xx is dropped, a 6xx sends no CANCEL, a CSeq with a tab keeps INVITE."
  },
  {
   "property": "C52",
   "status": "partial",
   "theorems": [
    "Siphon.Proxy.C52_waits_partial",
    "Siphon.Proxy.C52_at_most_one_partial",
    "Siphon.Proxy.C52_exactly_one_partial",
    "Siphon.Proxy.C52_none_partial",
    "Siphon.Proxy.C52_retransmission",
    "Siphon.Proxy.C52_late_branch",
    "Siphon.Proxy.C52_same_id_twice",
    "Siphon.Proxy.C52_success_repeated",
    "Siphon.Proxy.C52_late_provisional"
   ],
   "note": "Proved for histories in which every branch answers once and all branches are added first; each condition is proved necessary."
  },
  {
   "property": "C53",
   "status": "partial",
   "theorems": [
    "Siphon.Proxy.C53_removes",
    "Siphon.Proxy.C53_undo",
    "Siphon.Proxy.C53_response_path",
    "Siphon.Proxy.C53_full_panics",
    "Siphon.Proxy.C53_joined"
   ],
   "note": "True for one Via per line; Vias joined on one line are all lost, and a request with 200 headers stops the task (both proved)."
  },
  {
   "property": "C54",
   "status": "partial",
   "theorems": [
    "Siphon.Proxy.C54_exactly",
    "Siphon.Proxy.C54_detected_partial",
    "Siphon.Proxy.C54_as_sent",
    "Siphon.Proxy.C54_spiral",
    "Siphon.Proxy.C54_port",
    "Siphon.Proxy.C54_joined",
    "Siphon.Proxy.C54_ambiguous"
   ],
   "note": "Detected whatever else was inserted, as long as the proxy's name has no port and its Via stands on a line of its own; never detected for a name with a port, and not if Vias are joined (proved)."
  },
  {
   "property": "C55",
   "status": "proved",
   "theorems": [
    "Siphon.Proxy.C55_bounded",
    "Siphon.Proxy.C55_no_branch_after_6xx",
    "Siphon.Proxy.C55_contexts",
    "Siphon.Proxy.C51_fork"
   ],
   "note": ""
  },
  {
   "property": "C56",
   "status": "partial",
   "theorems": [
    "Siphon.Proxy.C56_cancel_partial",
    "Siphon.Proxy.C56_tag_in_uri",
    "Siphon.Proxy.C56_tag_case"
   ],
   "note": "The iff is proved with the tag read by cutting at every `;`; false for `;tag=` inside the URI and for `Tag=` (proved)."
  },
  {
   "property": "C72",
   "status": "proved",
   "theorems": [
    "Siphon.Proxy.C72_forwarded",
    "Siphon.Proxy.C72_refused",
    "Siphon.Proxy.C72_succeeds",
    "Siphon.Proxy.C72_record_route_order"
   ],
   "note": "Finding proved: Record-Route is appended at the end instead of put in front."
  },
  {
   "property": "C73",
   "status": "proved",
   "theorems": [
    "Siphon.Proxy.C73_all_challenges",
    "Siphon.Proxy.C73_ack_non2xx",
    "Siphon.Proxy.C73_ack_loses_target"
   ],
   "note": ""
  },
  {
   "property": "C14",
   "status": "proved",
   "theorems": [
    "Siphon.Dlg.C14_refused_changes_nothing",
    "Siphon.Dlg.C14_accepted_iff",
    "Siphon.Dlg.C14_accepted_recorded",
    "Siphon.Dlg.C14_ack_iff",
    "Siphon.Dlg.C14_history",
    "Siphon.Dlg.C14_strictly_increasing",
    "Siphon.Dlg.C14_ack_after_prack"
   ],
   "note": "Finding proved: an ACK after a PRACK of the same dialog is refused."
  },
  {
   "property": "C15",
   "status": "partial",
   "theorems": [
    "Siphon.Dlg.C15_history",
    "Siphon.Dlg.C15_consecutive_partial",
    "Siphon.Dlg.C15_repeats"
   ],
   "note": "Consecutive below 2^32-1; at the limit the number repeats (proved)."
  },
  {
   "property": "C16",
   "status": "proved",
   "theorems": [
    "Siphon.Dlg.C16_forward",
    "Siphon.Dlg.C16_stays_terminated",
    "Siphon.Dlg.C16_never_early_again",
    "Siphon.Dlg.C16_confirmed_by_2xx"
   ],
   "note": ""
  },
  {
   "property": "C17",
   "status": "proved",
   "theorems": [
    "Siphon.Dlg.C17_frozen",
    "Siphon.Dlg.C17_only_2xx",
    "Siphon.Dlg.C17_identity",
    "Siphon.Dlg.C17_error_moves_target"
   ],
   "note": "Finding proved: an error response with a Contact moves the remote target."
  },
  {
   "property": "C18",
   "status": "proved",
   "theorems": [
    "Siphon.Dlg.C18_bounded",
    "Siphon.Dlg.C18_early_bounded",
    "Siphon.Dlg.C18_insert_works",
    "Siphon.Dlg.C18_refused_changes_nothing",
    "Siphon.Dlg.C18_remove_works",
    "Siphon.Dlg.C18_full_refuses_update"
   ],
   "note": "Finding proved: a full table refuses to update a dialog it holds."
  },
  {
   "property": "C19",
   "status": "proved",
   "theorems": [
    "Siphon.Dlg.C19_uac_named",
    "Siphon.Dlg.C19_uas_named",
    "Siphon.Dlg.C19_mirrored",
    "Siphon.Dlg.C19_matches_iff",
    "Siphon.Dlg.C19_found",
    "Siphon.Dlg.C19_not_found",
    "Siphon.Dlg.C19_delivered",
    "Siphon.Dlg.C19_tag_inside_uri"
   ],
   "note": "Tags are read by cutting at every `;`; a `;tag=` inside a URI is taken for the tag (proved)."
  },
  {
   "property": "C74",
   "status": "partial",
   "theorems": [
    "Siphon.Dlg.C74_ascii_partial",
    "Siphon.Dlg.C74_panics_iff",
    "Siphon.Dlg.C74_display_name_panics"
   ],
   "note": "True for ASCII; the exact condition for the panic is proved, with an ordinary display name that meets it."
  },
  {
   "property": "C77",
   "status": "proved",
   "theorems": [
    "Siphon.Dlg.C77_uac_routes",
    "Siphon.Dlg.C77_uas_routes",
    "Siphon.Dlg.C77_opposite",
    "Siphon.Dlg.C77_confirmed_routes"
   ],
   "note": ""
  },
  {
   "property": "C78",
   "status": "proved",
   "theorems": [
    "Siphon.Dlg.C78_sent",
    "Siphon.Dlg.C78_ack",
    "Siphon.Dlg.C78_visits_recorded"
   ],
   "note": ""
  },
  {
   "property": "C79",
   "status": "partial",
   "theorems": [
    "Siphon.Dlg.C79_ack_partial",
    "Siphon.Dlg.C79_accepted",
    "Siphon.Dlg.C79_tab"
   ],
   "note": "True when the CSeq number is followed by a space; with a tab the ACK has no CSeq (proved)."
  },
  {
   "property": "C80",
   "status": "partial",
   "theorems": [
    "Siphon.Dlg.C80_named_partial",
    "Siphon.Dlg.C80_tags",
    "Siphon.Dlg.C80_accepted_partial",
    "Siphon.Dlg.C80_built",
    "Siphon.Dlg.C80_body",
    "Siphon.Dlg.C80_second_refused",
    "Siphon.Dlg.C80_display_name",
    "Siphon.Dlg.C80_long_tag_panics",
    "Siphon.Dlg.C80_long_tag_reached",
    "Siphon.Dlg.C80_method"
   ],
   "note": "True for addresses without `;tag=`, ASCII text and values of at most 8192 bytes; each condition is proved necessary. Two requests built from one dialog value collide (proved)."
  },
  {
   "property": "C81",
   "status": "partial",
   "theorems": [
    "Siphon.Dlg.C81_distinct_partial",
    "Siphon.Dlg.C81_never_back",
    "Siphon.Dlg.C81_bye_collides",
    "Siphon.Dlg.C81_terminate_undone",
    "Siphon.Dlg.C81_replay"
   ],
   "note": "Numbers are distinct for all schedules without a BYE sent from a clone; the BYE collision, the undone termination and the replay are proved."
  },
  {
   "property": "C82",
   "status": "proved",
   "theorems": [
    "Siphon.Dlg.C82_in_time",
    "Siphon.Dlg.C82_stops_iff",
    "Siphon.Dlg.C82_reports",
    "Siphon.Dlg.C82_answer"
   ],
   "note": ""
  },
  {
   "property": "C20",
   "status": "partial",
   "theorems": [
    "Siphon.Dlg.C20_read",
    "Siphon.Dlg.C20_rack",
    "Siphon.Dlg.C20_once_interleaved",
    "Siphon.Dlg.C20_once",
    "Siphon.Dlg.C20_bounded",
    "Siphon.Dlg.C20_accepted_partial",
    "Siphon.Dlg.C20_eleventh",
    "Siphon.Dlg.C20_shadowed",
    "Siphon.Dlg.C20_unicode",
    "Siphon.Dlg.C20_agree",
    "Siphon.Dlg.C20_written",
    "Siphon.Dlg.C20_reliable_iff",
    "Siphon.Dlg.C20_forgets"
   ],
   "note": "At most one PRACK is accepted per response under every interleaving. A PRACK is accepted if at most ten responses are outstanding and numbers are not reused; both conditions are proved necessary."
  },
  {
   "property": "C21",
   "status": "partial",
   "theorems": [
    "Siphon.Dlg.C21_first",
    "Siphon.Dlg.C21_consecutive_partial",
    "Siphon.Dlg.C21_out_of_range"
   ],
   "note": "Consecutive below 2^32-1; beyond 2^31-1 the numbers are out of range and at 2^32-1 they repeat (proved)."
  },
  {
   "property": "C22",
   "status": "partial",
   "theorems": [
    "Siphon.Dlg.C22_read",
    "Siphon.Dlg.C22_interval",
    "Siphon.Dlg.C22_refused_iff",
    "Siphon.Dlg.C22_retry",
    "Siphon.Dlg.C22_no_timer_iff",
    "Siphon.Dlg.C22_agree",
    "Siphon.Dlg.C22_exactly_one",
    "Siphon.Dlg.C22_role",
    "Siphon.Dlg.C22_role_text",
    "Siphon.Dlg.C22_new",
    "Siphon.Dlg.C22_roundtrip",
    "Siphon.Dlg.C22_short_ignored",
    "Siphon.Dlg.C22_unreadable",
    "Siphon.Dlg.C22_case_disagrees",
    "Siphon.Dlg.C22_siphond_inverted"
   ],
   "note": "Interval, refusal, retry and agreement are proved for policies with a minimum of at least 90 s. Violated (proved): requests below 90 s are not refused, siphond takes the wrong side for the refresher, a mixed-case role is read differently by two functions."
  },
  {
   "property": "C83",
   "status": "partial",
   "theorems": [
    "Siphon.Dlg.C83_schedule",
    "Siphon.Dlg.C83_intervals",
    "Siphon.Dlg.C83_too_late",
    "Siphon.Dlg.C83_only_acked",
    "Siphon.Dlg.C83_acked",
    "Siphon.Dlg.C83_forgotten",
    "Siphon.Dlg.C83_ends",
    "Siphon.Dlg.C83_remembered_partial"
   ],
   "note": "The schedule and the stop are proved; violated (proved): the last copy goes out at 35.5 s, after 64 T1, and cleanup forgets an acknowledgement so that copies go out again."
  },
  {
   "property": "C84",
   "status": "partial",
   "theorems": [
    "Siphon.Dlg.C84_ok_iff",
    "Siphon.Dlg.C84_harmless",
    "Siphon.Dlg.C84_nothing_partial",
    "Siphon.Dlg.C84_mismatch_400",
    "Siphon.Dlg.C84_garbled_481",
    "Siphon.Dlg.C84_key",
    "Siphon.Dlg.C84_key_collides",
    "Siphon.Dlg.C84_no_rack_400"
   ],
   "note": "200 exactly when accepted, and a refused PRACK changes nothing; the codes for mismatch and unreadable text are swapped (proved)."
  },
  {
   "property": "C28",
   "status": "partial",
   "theorems": [
    "Siphon.Via.C28_read",
    "Siphon.Via.C28_accepts",
    "Siphon.Via.C28_roundtrip",
    "Siphon.Via.C28_built_partial",
    "Siphon.Via.C28_injection",
    "Siphon.Via.C28_space_lost",
    "Siphon.Via.C28_with",
    "Siphon.Via.C28_set",
    "Siphon.Via.C28_set_iff",
    "Siphon.Via.C28_joined"
   ],
   "note": "Every Via read from a text round-trips, and so does one built from values without `;` and outer white space; with a `;` a value injects another parameter (proved)."
  },
  {
   "property": "C88",
   "status": "partial",
   "theorems": [
    "Siphon.Uas.C88_host",
    "Siphon.Uas.C88_top_partial",
    "Siphon.Uas.C88_unreadable",
    "Siphon.Uas.C88_spoofed",
    "Siphon.Uas.C88_joined",
    "Siphon.Uas.C88_full"
   ],
   "note": "Proved for a topmost Via that can be read on a line of its own; a received written by the client is kept, joined Vias and a Via with twenty parameters are not marked (proved)."
  },
  {
   "property": "C85",
   "status": "partial",
   "theorems": [
    "Siphon.Uas.C85_belongs",
    "Siphon.Uas.C85_terminated",
    "Siphon.Uas.C85_to",
    "Siphon.Uas.C85_to_plain",
    "Siphon.Uas.C85_rest",
    "Siphon.Uas.C85_two_tags",
    "Siphon.Uas.C85_tag_in_uri",
    "Siphon.Uas.C85_cancel_vias"
   ],
   "note": "Proved for every answer, with the To tag recognised by the text `;tag=`. Violated (proved): `;Tag=` gets a second tag, `;tag=` inside the URI counts as one, and the 487 for a cancelled INVITE has only the Vias of the CANCEL."
  },
  {
   "property": "C86",
   "status": "partial",
   "theorems": [
    "Siphon.Uas.C86_create_iff",
    "Siphon.Uas.C86_build_partial",
    "Siphon.Uas.C86_dispatch_partial",
    "Siphon.Uas.C86_full_crashes",
    "Siphon.Uas.C86_name_crashes"
   ],
   "note": "The exact condition for the crash of create_response is proved; all other builders and the dispatcher are proved safe for at most 190 headers, To values up to 7900 bytes and ASCII text."
  },
  {
   "property": "C87",
   "status": "partial",
   "theorems": [
    "Siphon.Uas.C87_accept",
    "Siphon.Uas.C87_then_found",
    "Siphon.Uas.C87_reliable",
    "Siphon.Uas.C87_reliable_again",
    "Siphon.Uas.C87_fresh_tags",
    "Siphon.Uas.C87_full",
    "Siphon.Uas.C87_again_resets",
    "Siphon.Uas.C87_reliable_code",
    "Siphon.Uas.C87_reliable_trying",
    "Siphon.Uas.C87_timer",
    "Siphon.Uas.C87_too_small"
   ],
   "note": "The accepted dialog has the identifiers of its answer and is found again. Violated (proved): two answers to one INVITE carry different tags, a full table drops the dialog of an accepted call, accepting a re-INVITE resets the dialog."
  },
  {
   "property": "C89",
   "status": "proved",
   "theorems": [
    "Siphon.Uas.C89_in_dialog",
    "Siphon.Uas.C89_ack",
    "Siphon.Uas.C89_invite",
    "Siphon.Uas.C89_unknown",
    "Siphon.Uas.C89_unauthenticated",
    "Siphon.Uas.C89_one_final",
    "Siphon.Uas.C89_cancel",
    "Siphon.Uas.C89_filled",
    "Siphon.Uas.C89_contact",
    "Siphon.Uas.C89_contact_text",
    "Siphon.Uas.C89_no_dialog",
    "Siphon.Uas.C89_options",
    "Siphon.Uas.C89_cancel_challenged",
    "Siphon.Uas.C89_unknown_call",
    "Siphon.Uas.C89_ipv6"
   ],
   "note": "Findings proved: CANCEL is challenged, an INVITE inside an unknown call is not answered 481, an IPv6 Contact is written without brackets."
  },
  {
   "property": "C90",
   "status": "proved",
   "theorems": [
    "Siphon.Dlg.C90_uac",
    "Siphon.Dlg.C90_uas",
    "Siphon.Dlg.C90_id",
    "Siphon.Dlg.C90_empty_tag"
   ],
   "note": "Exact, apart from the panics of C74. Finding: identifiers taken from messages are not checked, an empty tag is accepted."
  },
  {
   "property": "C91",
   "status": "partial",
   "theorems": [
    "Siphon.Dlg.C91_request",
    "Siphon.Dlg.C91_response",
    "Siphon.Dlg.C91_set_interval",
    "Siphon.Dlg.C91_set_too_long",
    "Siphon.Dlg.C91_refresh_due"
   ],
   "note": "Updates are exact; violated (proved): an interval set by hand is cut to 32 bits before it is checked, so much longer ones are accepted."
  },
  {
   "property": "C29",
   "status": "partial",
   "theorems": [
    "Siphon.Parse.C29_request",
    "Siphon.Parse.C29_request_strict",
    "Siphon.Parse.C29_response",
    "Siphon.Parse.C29_response_strict",
    "Siphon.Parse.C29_request_built",
    "Siphon.Parse.C29_forward",
    "Siphon.Parse.C29_stable",
    "Siphon.Parse.C29_second_pass",
    "Siphon.Parse.C29_response_built",
    "Siphon.Parse.C29_response_forward",
    "Siphon.Parse.C29_uri_space",
    "Siphon.Parse.C29_empty_reason",
    "Siphon.Parse.C29_too_many",
    "Siphon.Parse.C29_too_long"
   ],
   "note": "The exact normal form that comes back, and the exact conditions under which anything comes back. Violated (proved): a URI with a space, a blank reason, 200 headers without Content-Length and messages above 65 536 bytes are written but cannot be read."
  },
  {
   "property": "C30",
   "status": "partial",
   "theorems": [
    "Siphon.Parse.C30_strict_request",
    "Siphon.Parse.C30_strict_response",
    "Siphon.Parse.C30_lenient_partial",
    "Siphon.Parse.C30_lenient_response_partial",
    "Siphon.Parse.C30_rejected",
    "Siphon.Parse.C30_strict_malformed",
    "Siphon.Parse.C30_malformed",
    "Siphon.Parse.C30_huge"
   ],
   "note": "Proved for the strict parsers and, for a readable Content-Length, for the default ones. Violated (proved): the default parsers ignore a malformed Content-Length and one of 2^64 or more."
  },
  {
   "property": "C92",
   "status": "proved",
   "theorems": [
    "Siphon.Parse.C92_request",
    "Siphon.Parse.C92_request_strict",
    "Siphon.Parse.C92_response",
    "Siphon.Parse.C92_response_strict",
    "Siphon.Parse.C92_default_limit"
   ],
   "note": "Exact: parsed if and only if the grammar-style specification holds, with exactly the message that it describes."
  },
  {
   "property": "C93",
   "status": "proved",
   "theorems": [
    "Siphon.Parse.C93_request_frame",
    "Siphon.Parse.C93_response_frame",
    "Siphon.Parse.C93_stream",
    "Siphon.Parse.C93_kinds",
    "Siphon.Parse.C93_end_to_end"
   ],
   "note": "Serializer, stream framing and parser together, for every sequence of messages and every way to cut the stream."
  },
  {
   "property": "C75",
   "status": "partial",
   "theorems": [
    "Siphon.Dlg.C75_get",
    "Siphon.Dlg.C75_total",
    "Siphon.Dlg.C75_size",
    "Siphon.Dlg.C75_list",
    "Siphon.Dlg.C75_once_partial",
    "Siphon.Dlg.C75_listed_twice",
    "Siphon.Dlg.C75_alone_put",
    "Siphon.Dlg.C75_alone_remove",
    "Siphon.Dlg.C75_race_lost",
    "Siphon.Dlg.C75_race_same",
    "Siphon.Dlg.C75_concurrent_partial"
   ],
   "note": "Contents and limit are exact for every history of one thread, and concurrent puts are proved in every interleaving. Violated (proved): putting a dialog again lists it again, and a removal that races with a put loses the new dialog's listing."
  },
  {
   "property": "C76",
   "status": "partial",
   "theorems": [
    "Siphon.Dlg.TimerMgr.C76_justified",
    "Siphon.Dlg.TimerMgr.C76_stopped",
    "Siphon.Dlg.TimerMgr.C76_on_time",
    "Siphon.Dlg.TimerMgr.C76_expiry_race",
    "Siphon.Dlg.TimerMgr.C76_late",
    "Siphon.Dlg.TimerMgr.C76_full"
   ],
   "note": "Every event is justified in every run; the exact schedule is proved for a runtime that runs due tasks before time goes on. Violated (proved): a timer restarted while the old one expires dies silently, a stopped timer can still report if the runtime is late, and the limit of 10 000 drops a timer silently."
  },
  {
   "property": "C27",
   "status": "partial",
   "theorems": [
    "Siphon.RSeq.C27_new",
    "Siphon.RSeq.C27_next",
    "Siphon.RSeq.C27_parse",
    "Siphon.RSeq.C27_roundtrip",
    "Siphon.RSeq.C27_rack_new",
    "Siphon.RSeq.C27_rack_parse",
    "Siphon.RSeq.C27_rack_roundtrip_partial",
    "Siphon.RSeq.C27_rack_lost"
   ],
   "note": "RSeq complete; a RAck written with an extension method that has lower-case letters or a space is not read back (C27_rack_lost), the round trip holds for the other methods."
  },
  {
   "property": "C57",
   "status": "proved",
   "theorems": [
    "Siphon.Dns.C57_order",
    "Siphon.Dns.C57_share",
    "Siphon.Dns.C57_share_zero",
    "Siphon.Dns.C57_zero_never_first"
   ],
   "note": "Every outcome is a priority-ordered permutation and every such outcome with the required place of zero weights can happen; the share of random choices that picks a record is its share of the weights. Finding: RFC 2782 wants zero-weight records to have a small chance to be first, here they have none."
  },
  {
   "property": "C58",
   "status": "proved",
   "theorems": [
    "Siphon.Dns.C58_sips",
    "Siphon.Dns.C58_param",
    "Siphon.Dns.C58_dhcp"
   ],
   "note": "For every DNS content and random choice, and through the DHCP and hybrid resolvers."
  },
  {
   "property": "C59",
   "status": "partial",
   "theorems": [
    "Siphon.Dns.C59_addresses_partial",
    "Siphon.Dns.C59_srv_name",
    "Siphon.Dns.C59_srv_all"
   ],
   "note": "Violated (proved): targets found through SRV records carry the name in the record, which the DNS chooses. Proved for the others."
  },
  {
   "property": "C60",
   "status": "proved",
   "theorems": [
    "Siphon.Dns.Enum.C60_domain",
    "Siphon.Dns.Enum.C60_injective",
    "Siphon.Dns.Enum.C60_tel",
    "Siphon.Dns.Enum.C60_new_no_domain",
    "Siphon.Dns.Enum.C60_uri",
    "Siphon.Dns.Enum.C60_not_applied",
    "Siphon.Dns.Enum.C60_sort",
    "Siphon.Dns.Enum.C60_best",
    "Siphon.Dns.Enum.C60_not_terminal"
   ],
   "note": "The domain is exact and injective. Findings: a tel URI built by hand keeps separators and has no domain, the regular expression is not applied to the number, a non-terminal record can be chosen."
  },
  {
   "property": "C61",
   "status": "proved",
   "theorems": [
    "Siphon.Dns.C61_names",
    "Siphon.Dns.C61_roundtrip",
    "Siphon.Dns.C61_ipv4",
    "Siphon.Dns.C61_other",
    "Siphon.Dns.C61_option150",
    "Siphon.Dns.C61_option66",
    "Siphon.Dns.C61_text",
    "Siphon.Dns.C61_dot",
    "Siphon.Dns.C61_too_long"
   ],
   "note": "Exact acceptance and round trips. Findings: a dot inside a label is not told from a dot between labels, the length of a whole name is not limited."
  },
  {
   "property": "C94",
   "status": "partial",
   "theorems": [
    "Siphon.Dns.C94_resolve",
    "Siphon.Dns.C94_naptr_doubled",
    "Siphon.Dns.C94_tls_port",
    "Siphon.Dns.C94_too_many"
   ],
   "note": "Exact: a target list is a possible outcome if and only if the relational specification of what the code does allows it. Deviations from RFC 3263, proved: a NAPTR replacement is used as a domain again, transport=tls gets port 5060, more than a hundred targets are an error."
  },
  {
   "property": "C95",
   "status": "partial",
   "theorems": [
    "Siphon.Dns.C95_dhcp",
    "Siphon.Dns.C95_hybrid",
    "Siphon.Dns.C95_bad_name"
   ],
   "note": "Exact. Violated (proved): one announced name that is no valid host makes every request fail although the DNS would answer."
  },
  {
   "property": "C62",
   "status": "proved",
   "theorems": [
    "Siphon.Sdp.C62_answer",
    "Siphon.Sdp.C62_succeeds",
    "Siphon.Sdp.C62_mirror",
    "Siphon.Sdp.C62_ignores_port",
    "Siphon.Sdp.C62_disabled_accepted",
    "Siphon.Sdp.C62_static_unchecked",
    "Siphon.Sdp.C62_wrong_parameters"
   ],
   "note": "Exact: which offers are answered, and the answer stream by stream. Findings: a disabled stream (port zero) is accepted, a payload type below 96 is accepted by number alone, parameters may be those of another codec."
  },
  {
   "property": "C63",
   "status": "proved",
   "theorems": [
    "Siphon.Sdp.C63_first",
    "Siphon.Sdp.C63_one"
   ],
   "note": "A stream is accepted if and only if it is the first of its kind with a common codec."
  },
  {
   "property": "C64",
   "status": "partial",
   "theorems": [
    "Siphon.Sdp.C64_offerer",
    "Siphon.Sdp.C64_exact_partial",
    "Siphon.Sdp.C64_fails",
    "Siphon.Sdp.C64_local_ignored",
    "Siphon.Sdp.C64_no_answer",
    "Siphon.Sdp.C64_session_ignored"
   ],
   "note": "Proved for every offer: never contrary to what the offerer does; exact if one side says sendrecv. Violated (proved): local restrictions are ignored if both sides restrict alike, eight of sixteen pairs of directions leave the whole offer without an answer, directions at the level of the session are ignored."
  },
  {
   "property": "C96",
   "status": "proved",
   "theorems": [
    "Siphon.Sdp.C96_reads",
    "Siphon.Sdp.C96_accepts",
    "Siphon.Sdp.C96_one",
    "Siphon.Sdp.C96_protocols",
    "Siphon.Sdp.C96_unreadable_profiles",
    "Siphon.Sdp.C96_swallowed",
    "Siphon.Sdp.C96_joined"
   ],
   "note": "Exact in both directions, up to the order of the table of maps. Findings (proved): the profiles RTP/AVPF, UDP/TLS/RTP/SAVP, TCP/MSRP, UDPTL and TCP/BFCP make a whole description unreadable, a bandwidth line without a number swallows the next line, lines need no line end after a number."
  },
  {
   "property": "C97",
   "status": "proved",
   "theorems": [
    "Siphon.Sdp.C97_round",
    "Siphon.Sdp.C97_exact",
    "Siphon.Sdp.C97_writable",
    "Siphon.Sdp.C97_stable",
    "Siphon.Sdp.C97_user_name",
    "Siphon.Sdp.C97_no_format",
    "Siphon.Sdp.C97_injection"
   ],
   "note": "Exact: read back if and only if writable. Findings (proved): the library writes descriptions that are not writable (user name with a space, no formats, codec parameters with a line end, which add a line)."
  },
  {
   "property": "C98",
   "status": "partial",
   "theorems": [
    "Siphon.Sdp.C98_answer",
    "Siphon.Sdp.C98_panics_iff",
    "Siphon.Sdp.C98_picks",
    "Siphon.Sdp.C98_offer",
    "Siphon.Sdp.C98_mirrors_partial",
    "Siphon.Sdp.C98_panics",
    "Siphon.Sdp.C98_port",
    "Siphon.Sdp.C98_order",
    "Siphon.Sdp.C98_left_out",
    "Siphon.Sdp.C98_merged",
    "Siphon.Sdp.C98_not_offered",
    "Siphon.Sdp.C98_ignored"
   ],
   "note": "The answer and the offers that panic are characterised exactly, for profiles of up to forty codecs. Violated (proved on texts): a clock rate of 1, an empty codec name or a repeated format crash the handler; streams are answered in another order, merged or left out; an unoffered codec is answered; hold, port zero and SRTP are ignored."
  },
  {
   "property": "C99",
   "status": "proved",
   "theorems": [
    "Siphon.Pool.C99_cap",
    "Siphon.Pool.C99_sockets",
    "Siphon.Pool.C99_idle",
    "Siphon.Pool.C99_lru",
    "Siphon.Pool.C99_room",
    "Siphon.Pool.C99_refused",
    "Siphon.Pool.C99_used"
   ],
   "note": "Invariant over every interleaving. Finding (proved): a pool full of WebSockets that are not idle refuses every send, since they are never evicted."
  },
  {
   "property": "C100",
   "status": "partial",
   "theorems": [
    "Siphon.Pool.C100_channel",
    "Siphon.Pool.C100_peer",
    "Siphon.Pool.C100_peer_tcp",
    "Siphon.Pool.C100_peer_tls",
    "Siphon.Pool.C100_other_name",
    "Siphon.Pool.C100_order",
    "Siphon.Pool.C100_drains",
    "Siphon.Pool.C100_causes",
    "Siphon.Pool.C100_delivers_partial",
    "Siphon.Pool.C100_lost",
    "Siphon.Pool.C100_not",
    "Siphon.Pool.C100_late",
    "Siphon.Pool.C100_stalls",
    "Siphon.Pool.C100_reuse",
    "Siphon.Pool.C100_search"
   ],
   "note": "Proved: right peer, order, at most once, and all causes of a loss; delivery if no two calls open connections to one peer at once. Violated (proved): two sends to a new peer both return Ok and both are lost; the supervisor of an old connection closes the new one; a peer that does not read blocks sends to others; a TLS connection that was checked for one name is used for another."
  },
  {
   "property": "C101",
   "status": "partial",
   "theorems": [
    "Siphon.Pool.C101_once",
    "Siphon.Pool.C101_reported",
    "Siphon.Pool.C101_failure_is_closed",
    "Siphon.Pool.C101_failed_is_dropped",
    "Siphon.Pool.C101_swapped"
   ],
   "note": "Once: proved. Violated (proved): a failure is reported as Closed, a connection the pool itself dropped as Failed, the opposite of the documentation."
  },
  {
   "property": "C102",
   "status": "partial",
   "theorems": [
    "Siphon.Sub.C102_total",
    "Siphon.Sub.C102_history",
    "Siphon.Sub.C102_full_loses_refresh",
    "Siphon.Sub.C102_threads",
    "Siphon.Sub.C102_cleanup_partial",
    "Siphon.Sub.C102_cleanup_race"
   ],
   "note": "Proved: the table after every history, its size and keys under every interleaving, and a cleanup never removes a subscription that was never terminated. Violated (proved): a subscription made anew between the two steps of a cleanup is removed; a full table also refuses to refresh what it holds."
  },
  {
   "property": "C103",
   "status": "partial",
   "theorems": [
    "Siphon.Sub.C103_notifier",
    "Siphon.Sub.C103_subscriber",
    "Siphon.Sub.C103_same_name",
    "Siphon.Sub.C103_accepted",
    "Siphon.Sub.C103_refresh",
    "Siphon.Sub.C103_daemon_partial",
    "Siphon.Sub.C103_refused",
    "Siphon.Sub.C103_client",
    "Siphon.Sub.C103_refer_none"
   ],
   "note": "Exact (iff) for both ends; for headers in ASCII the constructors also never panic. Missing: a full table. Violated (proved): the client never makes the subscription of a REFER, since its REFER has no Event header."
  },
  {
   "property": "C104",
   "status": "partial",
   "theorems": [
    "Siphon.Sub.C104_notify",
    "Siphon.Sub.C104_sipfrag",
    "Siphon.Sub.C104_sipfrag_refused",
    "Siphon.Sub.C104_named_partial",
    "Siphon.Sub.C104_consecutive",
    "Siphon.Sub.C104_same_number",
    "Siphon.Sub.C104_answer",
    "Siphon.Sub.C104_found_partial",
    "Siphon.Sub.C104_parameters_never",
    "Siphon.Sub.C104_initial",
    "Siphon.Sub.C104_always_active",
    "Siphon.Sub.C104_to_itself",
    "Siphon.Sub.C104_two_types",
    "Siphon.Sub.C104_uri_tag",
    "Siphon.Sub.C104_via"
   ],
   "note": "Proved: contents of every NOTIFY, and that its subscriber recognises it if the event has no parameters. Violated (proved): the client's NOTIFYs all have the same number; the daemon's first NOTIFY goes to its own Contact, always says active and has two content types; events with parameters are never found."
  },
  {
   "property": "C105",
   "status": "partial",
   "theorems": [
    "Siphon.Sub.C105_story",
    "Siphon.Sub.C105_accepted",
    "Siphon.Sub.C105_refused",
    "Siphon.Sub.C105_subscription",
    "Siphon.Sub.C105_progress_partial",
    "Siphon.Sub.C105_named_partial",
    "Siphon.Sub.C105_ends_once_partial",
    "Siphon.Sub.C105_ends",
    "Siphon.Sub.C105_repeated",
    "Siphon.Sub.C105_lost_twice",
    "Siphon.Sub.C105_long_reason",
    "Siphon.Sub.C105_number_refused"
   ],
   "note": "Proved: which REFERs are accepted, the subscription, and for every history of the call the exact list of reports (iff). Missing in the partial theorems: reasons that no NOTIFY can carry, tags that read as others, and histories with repeated finals or transport errors. Violated (proved): a retransmitted failure and a transport error are reported twice, a reason over 128 bytes is never reported, the NOTIFYs count in the peer's numbers and can be refused."
  },
  {
   "property": "C106",
   "status": "partial",
   "theorems": [
    "Siphon.Sub.C106_filter",
    "Siphon.Sub.C106_filter6",
    "Siphon.Sub.C106_target",
    "Siphon.Sub.C106_request_uri_partial",
    "Siphon.Sub.C106_refused",
    "Siphon.Sub.C106_called",
    "Siphon.Sub.C106_names_fail",
    "Siphon.Sub.C106_gaps",
    "Siphon.Sub.C106_gaps6",
    "Siphon.Sub.C106_transport"
   ],
   "note": "Exact: the filter, who is called and when a refusal is reported. Missing: that the Request-URI is read back is shown for users without a percent sign. Violated (proved): host names and IPv6 targets are never called; 0.0.0.1 and 240.0.0.1 pass the filter, and so do IPv6 addresses that embed IPv4 ones."
  },
  {
   "property": "C107",
   "status": "partial",
   "theorems": [
    "Siphon.Sub.C107_invite",
    "Siphon.Sub.C107_round_trip_partial",
    "Siphon.Sub.C107_attended_partial",
    "Siphon.Sub.C107_two_marks",
    "Siphon.Sub.C107_misread"
   ],
   "note": "Exact for the daemon; the round trip holds for targets without headers. Violated (proved): with headers in the target the transfer becomes a blind one; parameters after the bracket become part of the value; a pair without an equals sign or an escaped line end makes the transfer blind."
  },
  {
   "property": "C108",
   "status": "partial",
   "theorems": [
    "Siphon.Ident.C108_roundtrip",
    "Siphon.Ident.C108_total",
    "Siphon.Ident.C108_signer_fails",
    "Siphon.Ident.C108_layout",
    "Siphon.Ident.C108_header",
    "Siphon.Ident.C108_address_injected"
   ],
   "note": "Exact: every signed token decodes to its parameters, and the header is read back exactly if the address has no semicolon, no white space at its ends and the value at most 8192 bytes. Violated (proved): signing accepts other addresses, and one of them makes a header that names another certificate than the token."
  },
  {
   "property": "C109",
   "status": "proved",
   "theorems": [
    "Siphon.Ident.C109_token",
    "Siphon.Ident.C109_header",
    "Siphon.Ident.C109_json",
    "Siphon.Ident.C109_base64",
    "Siphon.Ident.C109_pieces",
    "Siphon.Ident.C109_too_long",
    "Siphon.Ident.C109_bad_base64",
    "Siphon.Ident.C109_no_address",
    "Siphon.Ident.C109_bad_attest",
    "Siphon.Ident.C109_header_refusals",
    "Siphon.Ident.C109_arrays_accepted"
   ],
   "note": "Acceptance and meaning as iff against separate grammars of JSON, UTF-8, base64url and the header; and every refusal but that for unreadable JSON, which is what remains, as an iff. JSON numbers outside 64 bits and fractions are accepted as values and refused as iat. Noted: arrays in place of objects are accepted, as serde derives it."
  },
  {
   "property": "C110",
   "status": "proved",
   "theorems": [
    "Siphon.Ident.C110_signature",
    "Siphon.Ident.C110_refusals",
    "Siphon.Ident.C110_bound",
    "Siphon.Ident.C110_only_signed",
    "Siphon.Ident.C110_signed",
    "Siphon.Ident.C110_chain",
    "Siphon.Ident.C110_der"
   ],
   "note": "For every oracle in place of ring and webpki. Freshness, the certificate's authority over the number and the header parameters are not checked by the code and not claimed."
  },
  {
   "property": "C111",
   "status": "partial",
   "theorems": [
    "Siphon.Priv.C111_parse",
    "Siphon.Priv.C111_roundtrip",
    "Siphon.Priv.C111_new",
    "Siphon.Priv.C111_required",
    "Siphon.Priv.C111_lost"
   ],
   "note": "Exact in both directions. Violated (proved): one unknown word, such as history, makes the whole header count for nothing, so that the user's wish for privacy is lost."
  },
  {
   "property": "C112",
   "status": "partial",
   "theorems": [
    "Siphon.Priv.C112_result",
    "Siphon.Priv.C112_fails",
    "Siphon.Priv.C112_nothing_seen",
    "Siphon.Priv.C112_dialog",
    "Siphon.Priv.C112_display_leaks",
    "Siphon.Priv.C112_contacts_leak",
    "Siphon.Priv.C112_half_done",
    "Siphon.Priv.C112_dialog_moves"
   ],
   "note": "Exact result and failures, and non-interference up to the parameters of From and Contact. Missing/violated (proved): a semicolon in an unquoted display name and further contacts in the same header leave the address to be seen; a failure leaves the message half changed with the asserted identity; a From with a tag inside the address changes its dialog."
  },
  {
   "property": "C113",
   "status": "partial",
   "theorems": [
    "Siphon.Bridge.C113_one_final",
    "Siphon.Bridge.C113_in_order",
    "Siphon.Bridge.C113_delivered",
    "Siphon.Bridge.Cases.C113_panic_loses_final",
    "Siphon.Bridge.Cases.C113_host_name_no_final",
    "Siphon.Bridge.Cases.C113_any_response_answers"
   ],
   "note": "At most one final response: for every history. Order, content (exact header list) and delivery: for calls that nothing but the callee ends, with headers fit to be stored and ASCII From and To. Violated (proved): a multi-byte character in the callee's To makes the relay task panic and the caller never gets a final response; a callee registered with a host name is never called and the caller gets nothing but 100; any response that has the Call-ID counts, whatever its Via and CSeq."
  },
  {
   "property": "C114",
   "status": "partial",
   "theorems": [
    "Siphon.Bridge.C114_invite",
    "Siphon.Bridge.C114_called",
    "Siphon.Bridge.C114_not_found",
    "Siphon.Bridge.C114_binary_body",
    "Siphon.Bridge.C114_no_record_route",
    "Siphon.Bridge.Cases.C114_goes_round",
    "Siphon.Bridge.Cases.C114_two_tags",
    "Siphon.Bridge.Cases.C114_capital_tag"
   ],
   "note": "Exact request and answers in every state. Violated (proved): Max-Forwards is set anew, so a contact that is the bridge itself makes the call go round for ever; a body that is not UTF-8 is never forwarded and the caller gets nothing but 100; the caller's responses never carry Record-Route; an INVITE inside an unknown dialog makes a call whose To has two tags; a tag written in capitals is lost on the way back."
  },
  {
   "property": "C115",
   "status": "partial",
   "theorems": [
    "Siphon.Bridge.C115_ack",
    "Siphon.Bridge.C115_bye_caller",
    "Siphon.Bridge.C115_bye_callee",
    "Siphon.Bridge.C115_unknown",
    "Siphon.Bridge.C115_unknown_ack",
    "Siphon.Bridge.C115_refusal_not_acked",
    "Siphon.Bridge.C115_five_minutes",
    "Siphon.Bridge.Cases.C115_any_tags",
    "Siphon.Bridge.Cases.C115_early_bye",
    "Siphon.Bridge.Cases.C115_caller_not_told"
   ],
   "note": "Exact requests and answers for every call that was accepted, after every history. Violated (proved): a refusal of the callee is never acknowledged; five minutes after its start a call is forgotten and a BYE gets 481; a BYE ends a call by its Call-ID alone; a BYE before the answer goes to the callee without a To; the callee's BYE does not reach a caller without a Contact that has an address."
  },
  {
   "property": "C116",
   "status": "partial",
   "theorems": [
    "Siphon.Bridge.C116_cancelled",
    "Siphon.Bridge.Cases.C116_no_final",
    "Siphon.Bridge.Cases.C116_callee_rings_on",
    "Siphon.Bridge.Cases.C116_late_cancel",
    "Siphon.Bridge.Cases.C116_any_cancel"
   ],
   "note": "Exact for the order in which the CANCEL is passed on before the relay task has its turn and the call is dropped after it. Violated (proved): in one other order the caller never gets a final answer, in the other the callee is never sent a CANCEL; after an answer the CANCEL drops the call, and the BYE gets 481; any CANCEL with the Call-ID counts, and one of no call is answered 200."
  },
  {
   "property": "C117",
   "status": "partial",
   "theorems": [
    "Siphon.Bridge.C117_passed_partial",
    "Siphon.Bridge.C117_echo",
    "Siphon.Bridge.C117_number",
    "Siphon.Bridge.C117_no_third",
    "Siphon.Bridge.C117_no_ack",
    "Siphon.Bridge.C117_kept",
    "Siphon.Bridge.C117_full",
    "Siphon.Bridge.Cases.C117_repeated",
    "Siphon.Bridge.Cases.C117_after"
   ],
   "note": "Proved for every history: whenever a re-INVITE is accepted, exactly one INVITE has just gone to the other party of the same call, within that party's dialog, with the same body (exact header list). Violated (proved): the sender is answered at once with its own body, before the other party answers; the number does not grow from one re-INVITE to the next; none is acknowledged; dialogs are never removed and at 10000 no more are stored; after the end of a call, or five minutes after its start, a re-INVITE gets 100 and never a final answer."
  },
  {
   "property": "C118",
   "status": "partial",
   "theorems": [
    "Siphon.Daemon.C118_greeted",
    "Siphon.Daemon.C118_waits",
    "Siphon.Daemon.C118_rings",
    "Siphon.Daemon.C118_reliable",
    "Siphon.Daemon.C118_unreliable",
    "Siphon.Daemon.C118_answers",
    "Siphon.Daemon.C118_declines",
    "Siphon.Daemon.C118_no_offer",
    "Siphon.Daemon.C118_call",
    "Siphon.Daemon.C118_two_tags",
    "Siphon.Daemon.C118_own_target",
    "Siphon.Daemon.C118_no_422",
    "Siphon.Daemon.C118_longer",
    "Siphon.Daemon.C118_early_left",
    "Siphon.Daemon.C118_retransmission"
   ],
   "note": "Exact for each stage and for the whole call, whatever happens in between. Violated (proved): the 180 and the 200 have different To tags; with session timers on the stored remote target is the daemon's own Contact, no interval is ever too small and 1800 is granted whatever was asked; the early dialog of a reliable 180 is left behind; a retransmitted INVITE makes a second call."
  },
  {
   "property": "C119",
   "status": "partial",
   "theorems": [
    "Siphon.Daemon.C119_ok",
    "Siphon.Daemon.C119_terminates",
    "Siphon.Daemon.C119_only",
    "Siphon.Daemon.C119_too_early",
    "Siphon.Daemon.C119_answered_anyway",
    "Siphon.Daemon.C119_collision"
   ],
   "note": "Proved for every history: the CANCEL of a call that rings gets it 487 (with the tag of the 180), and a 487 is only sent for a CANCEL whose joined key is the same. Violated (proved): a CANCEL between the 100 and the 180 is lost; the handler of the INVITE goes on after the 487, sends 200 and stores a dialog; the key is joined with colons, so another caller's CANCEL can end the call."
  },
  {
   "property": "C120",
   "status": "partial",
   "theorems": [
    "Siphon.Daemon.C120_unknown",
    "Siphon.Daemon.C120_bye",
    "Siphon.Daemon.C120_info",
    "Siphon.Daemon.C120_prack",
    "Siphon.Daemon.C120_out_of_order",
    "Siphon.Daemon.C120_refused",
    "Siphon.Daemon.C120_modifies",
    "Siphon.Daemon.C120_spared",
    "Siphon.Daemon.C120_expired",
    "Siphon.Daemon.C120_own_target",
    "Siphon.Daemon.C120_old_bye",
    "Siphon.Daemon.C120_reinvite_unknown",
    "Siphon.Daemon.C120_interval_ignored"
   ],
   "note": "Exact for each request, and for histories that do not touch a dialog. Violated (proved): the remote target becomes the daemon's own Contact; the CSeq of a BYE or INFO is not checked; an INVITE of an unknown dialog is a new call; the Session-Expires of a re-INVITE is ignored; an expired session ends without a BYE. (What the check of a PRACK does to a reliable response is C83.)"
  },
  {
   "property": "C121",
   "status": "partial",
   "theorems": [
    "Siphon.Daemon.C121_malformed",
    "Siphon.Daemon.C121_refused",
    "Siphon.Daemon.C121_taken",
    "Siphon.Daemon.C121_only",
    "Siphon.Daemon.C121_nothing_replaced",
    "Siphon.Daemon.C121_anyone"
   ],
   "note": "Exact answers in all cases and states. Violated (proved): nothing is replaced, the old call stays and gets no BYE; without authentication the name in From is enough. early-only is ignored."
  },
  {
   "property": "C122",
   "status": "partial",
   "theorems": [
    "Siphon.Daemon.C122_refines",
    "Siphon.Daemon.C122_hops",
    "Siphon.Daemon.C122_no_calls",
    "Siphon.Daemon.C122_credentials",
    "Siphon.Daemon.C122_attempts",
    "Siphon.Daemon.C122_calls",
    "Siphon.Daemon.C122_unknown_user_ignored",
    "Siphon.Daemon.C122_hangup_refused",
    "Siphon.Daemon.C122_cancel_from_elsewhere"
   ],
   "note": "For all histories, by refinement to C35, C36 and C47. Violated in spirit (proved): a request of an unknown user gets no answer; the limiter counts requests with the right credentials too, so that a short call cannot be ended; CANCEL needs no credentials. (Missing: REGISTER, which has an authenticator and limiter of its own, C42 and C47; MESSAGE, NOTIFY, SUBSCRIBE and REFER are counted and authenticated, but their handlers are left out here.)"
  },
  {
   "property": "C123",
   "status": "partial",
   "theorems": [
    "Siphon.Offer.C123_answer",
    "Siphon.Offer.C123_succeeds",
    "Siphon.Offer.C123_streams",
    "Siphon.Offer.C123_ports",
    "Siphon.Offer.C123_refused_iff",
    "Siphon.Offer.C123_session_level_ignored",
    "Siphon.Offer.C123_ip4_only",
    "Siphon.Offer.C123_disabled_answered",
    "Siphon.Offer.C123_order_counterexample",
    "Siphon.Offer.C123_unlisted_counterexample",
    "Siphon.Offer.C123_panic_counterexample",
    "Siphon.Offer.C123_port_zero_counterexample"
   ],
   "note": "Exact for all offers, options and hash orders, with the attributes of the answer read by the same specification as those of the offer. Violated (proved): the order of the formats is that of a hash map, so the offerer's preference is lost; payload types not among the formats are answered; a disabled stream is answered; the session's direction is ignored; addresses are always IP4; the engine panics when the last port is reached."
  },
  {
   "property": "C124",
   "status": "partial",
   "theorems": [
    "Siphon.Offer.C124_hold",
    "Siphon.Offer.C124_resume",
    "Siphon.Offer.C124_panics_iff",
    "Siphon.Offer.C124_hold_resume",
    "Siphon.Offer.C124_resume_counterexample",
    "Siphon.Offer.C124_session_direction_counterexample"
   ],
   "note": "Exact for all sessions. Violated (proved): after hold and resume a stream that was not received before is received; a direction of the whole session is neither read nor changed; the greatest version panics."
  },
  {
   "property": "C125",
   "status": "proved",
   "theorems": [
    "Siphon.Offer.C125_met_iff",
    "Siphon.Offer.C125_curr_roundtrip",
    "Siphon.Offer.C125_des_roundtrip",
    "Siphon.Offer.C125_curr_iff",
    "Siphon.Offer.C125_des_iff",
    "Siphon.Offer.C125_e2e_agrees",
    "Siphon.Offer.C123_answer",
    "Siphon.Offer.C125_remote_forgotten",
    "Siphon.Offer.C125_unknown_kind_dropped"
   ],
   "note": "Exact, with the texts specified by words; the mirrored attributes are in Spec.Takes (fields curr, des and conf), which C123_answer proves. Preconditions of other kinds than qos are dropped from answers, and the status of an access network in an answer is the application's."
  },
  {
   "property": "C126",
   "status": "partial",
   "theorems": [
    "Siphon.Relay.C126_forward",
    "Siphon.Relay.C126_branch",
    "Siphon.Relay.C126_request",
    "Siphon.Relay.C126_ack",
    "Siphon.Relay.C126_circulates",
    "Siphon.Relay.Cases.C126_loop_silent",
    "Siphon.Relay.Cases.C126_route_skipped",
    "Siphon.Relay.Cases.C126_name_dropped"
   ],
   "note": "Exact for all requests, peers and states. Violated (proved): of several Routes those behind the proxy's own are not followed; a proxy with a port in its URI does not notice loops, and a request for itself goes round as often as Max-Forwards says; whatever is not sent is not answered either (no 482, and host names are not looked up). (Missing: the sending itself, whose failures are only logged.)"
  },
  {
   "property": "C127",
   "status": "partial",
   "theorems": [
    "Siphon.Relay.C127_invite",
    "Siphon.Relay.Cases.C127_not_found",
    "Siphon.Relay.Cases.C127_reinvite_lost",
    "Siphon.Relay.Cases.C127_credential_leaks",
    "Siphon.Relay.Cases.C127_twice",
    "Siphon.Relay.Cases.C127_hangs"
   ],
   "note": "Exact for all INVITEs, stores and states. Violated (proved): Route is ignored, so that a re-INVITE gets 404; the credential for the proxy goes on to the callee; a retransmission is sent on as another INVITE; a contact with a host name gets 100 and nothing more; 404 and 483 have no tag in To."
  },
  {
   "property": "C128",
   "status": "partial",
   "theorems": [
    "Siphon.Relay.C128_response",
    "Siphon.Relay.C128_up",
    "Siphon.Relay.C128_one",
    "Siphon.Relay.C128_sent",
    "Siphon.Relay.C128_roundtrip",
    "Siphon.Relay.C128_once",
    "Siphon.Relay.C128_takeover",
    "Siphon.Relay.Cases.C128_trying"
   ],
   "note": "Exact for all histories. Violated (proved): after the first final response no other is returned, so that a retransmitted or second 200 is lost; 100 is returned too; whoever sends a request with the same identifying headers takes over the responses. (Missing: the daemon's own client transactions, which get the other responses, are C01 to C08.)"
  },
  {
   "property": "C129",
   "status": "partial",
   "theorems": [
    "Siphon.Relay.C129_unmatched",
    "Siphon.Relay.C129_uri",
    "Siphon.Relay.Cases.C129_cancel_dropped"
   ],
   "note": "Violated (proved for all requests): no CANCEL and no ACK that is sent on has the branch of an INVITE that was sent on, since one is a hash of 32 digits and the other 16 random characters; nor is its Request-URI rewritten to the contact."
  },
  {
   "property": "C130",
   "status": "partial",
   "theorems": [
    "Siphon.UriText.C130_sip",
    "Siphon.UriText.C130_tel",
    "Siphon.UriText.C130_uri",
    "Siphon.UriText.C130_user_cut",
    "Siphon.UriText.C130_rfc_example",
    "Siphon.UriText.C130_after_bracket",
    "Siphon.UriText.C130_repeated",
    "Siphon.UriText.C130_scheme_case"
   ],
   "note": "Exact: for every text, what is read is what a relational description of the accepted texts says. Violated (proved): a semicolon or question mark in the user part, which RFC 3261 allows, makes the part before it the host (`sip:alice;day=tuesday@atlanta.com` names the host alice); text after the bracket of an IPv6 host is ignored; a parameter may be repeated; `SIP:` is not a SIP URI for `Uri::parse`."
  },
  {
   "property": "C131",
   "status": "partial",
   "theorems": [
    "Siphon.Prefs.C131_add",
    "Siphon.Prefs.C131_matches",
    "Siphon.Prefs.C131_reads",
    "Siphon.Prefs.C131_from_params",
    "Siphon.Prefs.C131_from_built",
    "Siphon.Prefs.C131_to_params",
    "Siphon.Prefs.C131_param",
    "Siphon.Prefs.C131_roundtrip",
    "Siphon.Prefs.C131_lost"
   ],
   "note": "Exact for every set, parameter and model of the floating-point texts. Violated (proved): a token that looks like a number, a list under a tag that is not read as a list, an empty list and the flag `false` do not come back, and the token `nan` makes the set unreadable."
  },
  {
   "property": "C132",
   "status": "partial",
   "theorems": [
    "Siphon.Prefs.C132_score",
    "Siphon.Prefs.C132_range",
    "Siphon.Prefs.C132_feature",
    "Siphon.Prefs.C132_q_unused",
    "Siphon.Prefs.C132_new",
    "Siphon.Prefs.C132_not_immune"
   ],
   "note": "Exact for all contacts, headers and capabilities the API can build, for any rounding that is monotone and exact on multiples of 2^-20 up to 1024. Violated (proved): contacts without features are not immune; the `q` of an Accept-Contact is ignored."
  },
  {
   "property": "C133",
   "status": "proved",
   "theorems": [
    "Siphon.Prefs.C133_parse",
    "Siphon.Prefs.C133_roundtrip"
   ],
   "note": "Exact, for every text and every set of directives."
  },
  {
   "property": "C134",
   "status": "partial",
   "theorems": [
    "Siphon.Replaces.C134_parse",
    "Siphon.Replaces.C134_one",
    "Siphon.Replaces.C134_new",
    "Siphon.Replaces.C134_early",
    "Siphon.Replaces.C134_roundtrip_partial",
    "Siphon.Replaces.C134_reread",
    "Siphon.Replaces.C134_injected"
   ],
   "note": "Exact for all texts; the round trip of what was read holds always, of what was made exactly when the Call-ID and the tags have no semicolon and no blank at an end. Violated (proved): `new` accepts a tag with a semicolon, so that a tag chosen by the peer sets the early-only flag of the header that is written."
  },
  {
   "property": "C135",
   "status": "partial",
   "theorems": [
    "Siphon.SecAgree.C135_weight",
    "Siphon.SecAgree.C135_ordered",
    "Siphon.SecAgree.C135_set",
    "Siphon.SecAgree.C135_set_preference",
    "Siphon.SecAgree.C135_made",
    "Siphon.SecAgree.C135_new_header",
    "Siphon.SecAgree.C135_best",
    "Siphon.SecAgree.C135_some",
    "Siphon.SecAgree.C135_choice",
    "Siphon.SecAgree.C135_sorted",
    "Siphon.SecAgree.C135_verify",
    "Siphon.SecAgree.C135_not_server_choice",
    "Siphon.SecAgree.C135_bidding_down",
    "Siphon.SecAgree.C135_case"
   ],
   "note": "Exact for all lists and any rounding. Violated (proved): the verification compares one mechanism name and not the list, so that a list changed on the way is not noticed; the choice can be one that the server prefers less (RFC 3329 leaves the choice to the server's preference); names of other mechanisms are compared with regard to case."
  },
  {
   "property": "C136",
   "status": "partial",
   "theorems": [
    "Siphon.SecAgree.C136_mechanism",
    "Siphon.SecAgree.C136_entry",
    "Siphon.SecAgree.C136_header",
    "Siphon.SecAgree.C136_ten",
    "Siphon.SecAgree.C136_ordered",
    "Siphon.SecAgree.C136_roundtrip_partial",
    "Siphon.SecAgree.C136_injected"
   ],
   "note": "Reading is exact for all texts; the round trip is proved for entries without separators, quotes and blanks at the ends in their texts. Violated (proved): a parameter value with a semicolon is accepted and written as it is, and changes the preference of the entry."
  },
  {
   "property": "C137",
   "status": "partial",
   "theorems": [
    "Siphon.Hep.C137_found",
    "Siphon.Hep.C137_body",
    "Siphon.Hep.C137_request",
    "Siphon.Hep.C137_response",
    "Siphon.Hep.C137_without",
    "Siphon.Hep.C137_packet",
    "Siphon.Hep.C137_datagram",
    "Siphon.Hep.C137_once",
    "Siphon.Hep.C137_spaced"
   ],
   "note": "Exact for all byte strings, and for all requests and responses that the API can build. Violated (proved): a Call-ID with a space before the colon, which the parser accepts, is not found."
  },
  {
   "property": "C138",
   "status": "partial",
   "theorems": [
    "Siphon.Reason.C138_parse",
    "Siphon.Reason.C138_header",
    "Siphon.Reason.C138_get",
    "Siphon.Reason.C138_new",
    "Siphon.Reason.C138_sip",
    "Siphon.Reason.C138_sip_made",
    "Siphon.Reason.C138_q850",
    "Siphon.Reason.C138_as_q850",
    "Siphon.Reason.C138_codes",
    "Siphon.Reason.C138_words",
    "Siphon.Reason.C138_roundtrip_partial",
    "Siphon.Reason.C138_semicolon",
    "Siphon.Reason.C138_backslash",
    "Siphon.Reason.C138_quotes",
    "Siphon.Reason.C138_two_reasons"
   ],
   "note": "Reading and making are exact for all texts and tables; the round trip is proved for parameters without semicolons and, where the value is written in quotes, without backslashes. Violated (proved): words with a semicolon or a backslash are accepted and do not survive; two reasons in one header are taken for one."
  },
  {
   "property": "C139",
   "status": "partial",
   "theorems": [
    "Siphon.Mwi.C139_parse",
    "Siphon.Mwi.C139_roundtrip_partial",
    "Siphon.Mwi.C139_totals",
    "Siphon.Mwi.C139_overflow",
    "Siphon.Mwi.C139_two_headers"
   ],
   "note": "Reading is exact for all bodies; the round trip is proved for summaries with at most one described message, which must have a field. Violated (proved): two described messages are written without a blank line and are read as one; a total can exceed 32 bits."
  },
  {
   "property": "C140",
   "status": "partial",
   "theorems": [
    "Siphon.UriText.C140_without_headers",
    "Siphon.UriText.C140_upper_case_keeps_headers"
   ],
   "note": "For every URI read with a lower-case scheme; violated (proved) for `SIP:`: `Uri::parse` takes such a text for a URI of another kind and the headers stay in it."
  },
  {
   "property": "C141",
   "status": "partial",
   "theorems": [
    "Siphon.Prio.C141_priority",
    "Siphon.Prio.C141_priority_written",
    "Siphon.Prio.C141_resource",
    "Siphon.Prio.C141_resource_made",
    "Siphon.Prio.C141_resource_roundtrip_partial",
    "Siphon.Prio.C141_resource_read_plain",
    "Siphon.Prio.C141_resource_injection",
    "Siphon.Prio.C141_resource_dot",
    "Siphon.Prio.C141_resource_long",
    "Siphon.Prio.C141_refer_sub",
    "Siphon.Prio.C141_etag"
   ],
   "note": "Reading is exact for all texts. The round trip of Resource-Priority is proved for names without commas, namespaces without dots and texts of at most 512 bytes, and violated (proved) otherwise: one accepted value is written as two with other priorities."
  },
  {
   "property": "C142",
   "status": "partial",
   "theorems": [
    "Siphon.Tokens.C142_made",
    "Siphon.Tokens.C142_parse",
    "Siphon.Tokens.C142_contains",
    "Siphon.Tokens.C142_roundtrip",
    "Siphon.Tokens.C142_headers",
    "Siphon.Tokens.C142_empty",
    "Siphon.Tokens.C142_one_bad"
   ],
   "note": "Reading, making and asking are exact for all texts; the round trip holds for every list that is not empty. Violated (proved): the empty list cannot be read back, and one bad or empty element makes Allow and Supported empty."
  },
  {
   "property": "C143",
   "status": "partial",
   "theorems": [
    "Siphon.DateHdr.C143_new",
    "Siphon.DateHdr.C143_past",
    "Siphon.DateHdr.C143_parse",
    "Siphon.DateHdr.C143_of_time",
    "Siphon.DateHdr.C143_never_no",
    "Siphon.DateHdr.C143_bad_is_now",
    "Siphon.DateHdr.C143_lax"
   ],
   "note": "Acceptance is exact for all texts, for any behaviour of httpdate. Violated (proved): a text that is no date is read as the present time; the question whether a date is past is never answered with no; dates that do not exist and words after the zone are accepted."
  },
  {
   "property": "C144",
   "status": "partial",
   "theorems": [
    "Siphon.Frag.C144_header",
    "Siphon.Frag.C144_body",
    "Siphon.Frag.C144_sound",
    "Siphon.Frag.C144_status",
    "Siphon.Frag.C144_start",
    "Siphon.Frag.C144_text",
    "Siphon.Frag.C144_headers_mut",
    "Siphon.Frag.C144_panic"
   ],
   "note": "Acceptance of a body is exact, the invariant holds for every history of the calls that add headers and set bodies, and the text is exact. Violated (proved): headers_mut hands out the headers unchecked, and a fragment whose body is no UTF-8 text is accepted but cannot be written, so to_string panics."
  },
  {
   "property": "C145",
   "status": "partial",
   "theorems": [
    "Siphon.EventHdr.C145_event",
    "Siphon.EventHdr.C145_state",
    "Siphon.EventHdr.C145_add",
    "Siphon.EventHdr.C145_state_text",
    "Siphon.EventHdr.C145_form"
   ],
   "note": "Acceptance and result are exact for all texts, and so is adding a parameter. Violated (proved): white space before the sign of equality and a quoted value that is no token are refused, a quote on one side only is accepted."
  },
  {
   "property": "C146",
   "status": "partial",
   "theorems": [
    "Siphon.Mime.C146_new",
    "Siphon.Mime.C146_value",
    "Siphon.Mime.C146_add",
    "Siphon.Mime.C146_made",
    "Siphon.Mime.C146_parse",
    "Siphon.Mime.C146_roundtrip_partial",
    "Siphon.Mime.C146_semicolon"
   ],
   "note": "Making, adding and reading are exact for all texts; the round trip holds for every type that can be made whose values have no semicolon and at most 254 bytes when escaped. Violated (proved): a value with a semicolon is accepted and written, but the text is refused."
  },
  {
   "property": "C147",
   "status": "partial",
   "theorems": [
    "Siphon.Version.C147_version",
    "Siphon.Version.C147_zeros"
   ],
   "note": "Acceptance is exact for all texts. Violated (proved): zeros in front of the numbers are accepted."
  },
  {
   "property": "C148",
   "status": "partial",
   "theorems": [
    "Siphon.Subject.C148_subject",
    "Siphon.Subject.C148_utf8"
   ],
   "note": "Acceptance is exact for all texts. Violated (proved): text outside ASCII, which RFC 3261 allows, is refused."
  }
 ]
}