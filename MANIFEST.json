{
 "claims": [
  {
   "property": "C01",
   "status": "proved",
   "theorems": [
    "Verif.Protocol.C01_registration_gets_first_response_only",
    "Verif.Protocol.C01_at_most_one_response",
    "Verif.Protocol.C01_receivers_distinct"
   ],
   "note": "Full functional characterisation: what each receiver gets for every history before and after its registration. The spawned one-shot send is taken as done at the call."
  },
  {
   "property": "C02",
   "status": "proved",
   "theorems": [
    "Verif.Protocol.C02_foreign_transport_no_effect",
    "Verif.Protocol.C02_right_transport_still_delivered",
    "Verif.Protocol.C02_reports_true_iff"
   ],
   "note": "Wrong-transport calls leave every reachable state unchanged; the right one is still delivered afterwards."
  },
  {
   "property": "C03",
   "status": "proved",
   "theorems": [
    "Verif.Protocol.C03_pending_iff_outstanding",
    "Verif.Protocol.C03_status_independent_of_other_ids",
    "Verif.Protocol.C03_delivery_independent_of_other_ids",
    "Verif.Protocol.C03_cancelled_never_delivered"
   ],
   "note": "Pending status and delivery depend only on the calls about the same id; cancelled registrations get nothing."
  },
  {
   "property": "C04",
   "status": "partial",
   "theorems": [
    "Verif.Sse.C04_lines",
    "Verif.Sse.C04_chunks_iff",
    "Verif.Sse.C04_no_stray_partial",
    "Verif.Sse.C04_by_characters",
    "Verif.Sse.C04_chunking_partial",
    "Verif.Sse.C04_chunk_dependent",
    "Verif.Sse.C04_character_lost"
   ],
   "note": "Refuted (feed mixes byte offsets and character indices, losing a character depending on the chunks); the streams whose lines do not depend on the chunks are exactly those without a stray carriage return (C04_chunks_iff), and those give the same events and state."
  },
  {
   "property": "C05",
   "status": "partial",
   "theorems": [
    "Verif.Sse.C05_panics_iff",
    "Verif.Sse.C05_panics",
    "Verif.Sse.C05_no_panic_partial"
   ],
   "note": "Refuted: a four-character input makes feed slice inside a character. Holds for every input that is ASCII or free of carriage returns."
  },
  {
   "property": "C06",
   "status": "partial",
   "theorems": [
    "Verif.Sse.C06_stream_round_trip_partial",
    "Verif.Sse.C06_event_round_trip_partial",
    "Verif.Sse.C06_data_lost",
    "Verif.Sse.C06_stream_exact_partial",
    "Verif.Sse.C06_injection"
   ],
   "note": "Exact for every list of events without carriage returns (C06_stream_exact_partial): no line feed in id or name, no NUL in an id, data non-empty, neither beginning nor ending with a line feed. Refuted for the rest, including forged events (C06_injection)."
  },
  {
   "property": "C07",
   "status": "partial",
   "theorems": [
    "Verif.Sse.C07_chunks_exact",
    "Verif.Sse.C07_by_characters",
    "Verif.Sse.C07_fields_exact",
    "Verif.Sse.C07_fields_partial",
    "Verif.Sse.C07_empty_data_lost"
   ],
   "note": "Exact characterisation of every block for all line sequences; agrees with the event-stream rules iff the first data value of a block is not empty (leading empty values are dropped; refuted by example)."
  },
  {
   "property": "C08",
   "status": "proved",
   "theorems": [
    "Verif.Stdio.C08_framing",
    "Verif.Stdio.C08_then_end",
    "Verif.Stdio.C08_other_headers_ignored"
   ],
   "note": "Round trip through the byte stream for all payload sequences, including trailing bytes, end of stream and further header lines. Payload length at most isize::MAX (larger ones panic, see C79)."
  },
  {
   "property": "C09",
   "status": "proved",
   "theorems": [
    "Verif.Stdio.C09_parse_print",
    "Verif.Stdio.C09_parse_iff"
   ],
   "note": "Inverse of printing and an exact characterisation of every accepted line."
  },
  {
   "property": "C10",
   "status": "partial",
   "theorems": [
    "Verif.Stdio.C10_closes_iff",
    "Verif.Stdio.C10_closed_stays",
    "Verif.Stdio.C10_closed_refuses",
    "Verif.Stdio.C10_close_closes",
    "Verif.Stdio.C10_eof_closes_partial",
    "Verif.Stdio.C10_truncated_body_stays_open",
    "Verif.Stdio.C10_closes_on_next_receive"
   ],
   "note": "Closed is absorbing and refuses everything; end of input while waiting closes. Missing: end of input inside a body is reported as an I/O error without closing (witness), the next receive closes. Exactly when a receive closes: C10_closes_iff."
  },
  {
   "property": "C11",
   "status": "partial",
   "theorems": [
    "Verif.Session.C11_limit",
    "Verif.Session.C11_create_fails_iff",
    "Verif.Session.C11_create_succeeds",
    "Verif.Session.C11_concurrent_create_exceeds",
    "Verif.Session.C11_concurrent_partial",
    "Verif.Session.C11_concurrent_unbounded",
    "Verif.Session.C11_lookup_exceeds"
   ],
   "note": "Invariant over all sequential histories; the concurrent counterexample (check and insert are separate map operations) is recorded beside it."
  },
  {
   "property": "C12",
   "status": "proved",
   "theorems": [
    "Verif.Session.C12_validate_iff",
    "Verif.Session.C12_expired_removed",
    "Verif.Session.C12_other_untouched",
    "Verif.Session.C12_cleanup_exact",
    "Verif.Session.C12_stays_invalid",
    "Verif.Session.C12_lifetime"
   ],
   "note": "Decision logic of validate_session, exact sweep, permanence after expiry and the lifetime bound over whole histories. The HTTP middleware, which skips the expiry check, is C77."
  },
  {
   "property": "C13",
   "status": "partial",
   "theorems": [
    "Verif.Session.C13_again_iff",
    "Verif.Session.C13_any_number",
    "Verif.Session.C13_resurrected",
    "Verif.Session.C13_destroyed_stays_gone_partial",
    "Verif.Session.C13_sequential_partial"
   ],
   "note": "False for concurrent callers (witness): get_session writes back a clone. A destroyed session can come back exactly if a lookup of it straddles the destruction (C13_again_iff); holds for all sequential histories."
  },
  {
   "property": "C14",
   "status": "proved",
   "theorems": [
    "Verif.EventStore.C14_replay_exact",
    "Verif.EventStore.C14_replay_mem",
    "Verif.EventStore.C14_unknown_id",
    "Verif.EventStore.C14_latest"
   ],
   "note": "Exact replay for every interleaving of the critical sections, for retained and for evicted resumption points."
  },
  {
   "property": "C15",
   "status": "proved",
   "theorems": [
    "Verif.EventStore.C15_retained_is_suffix",
    "Verif.EventStore.C15_bounded",
    "Verif.EventStore.C15_bounded_always",
    "Verif.EventStore.C15_evicted_for_cause",
    "Verif.EventStore.C15_no_expired_kept",
    "Verif.EventStore.C15_clear_before"
   ],
   "note": "Suffix, bound, eviction only for cause and age eviction, for all histories."
  },
  {
   "property": "C16",
   "status": "partial",
   "theorems": [
    "Verif.EventStore.C16_increasing_iff",
    "Verif.EventStore.C16_duplicate_after_resume",
    "Verif.EventStore.C16_increasing_without_resume_partial",
    "Verif.EventStore.C16_increasing_across_fresh_resume_partial"
   ],
   "note": "False in the code: resuming resets the counter to the value at token creation (witness). Holds without resumption and across a resumption with nothing recorded since the token. C16_increasing_iff: numbers increase precisely if every resumption follows its token with nothing recorded since."
  },
  {
   "property": "C17",
   "status": "partial",
   "theorems": [
    "Verif.Reconnect.C17_attempts_bounded_partial",
    "Verif.Reconnect.C17_attempts_bounded_no_breaker",
    "Verif.Reconnect.C17_unbounded_with_breaker",
    "Verif.Reconnect.C17_reconnect_result",
    "Verif.Reconnect.C17_told"
   ],
   "note": "Attempts while down are at most max_retries plus the number of breaker timeouts, for every history; without circuit breaker at most max_retries (proved outright). Refuted with a breaker: for every n there is a history with n failed attempts although max_retries is 1."
  },
  {
   "property": "C18",
   "status": "partial",
   "theorems": [
    "Verif.Reconnect.C18_never_exceeds_max",
    "Verif.Reconnect.C18_monotone",
    "Verif.Reconnect.C18_formula_partial",
    "Verif.Reconnect.C18_zero_delay_jumps",
    "Verif.Reconnect.C18_jitter_bounds",
    "Verif.Reconnect.C18_jitter_exact",
    "Verif.Reconnect.C18_no_jitter",
    "Verif.Reconnect.C18_beyond"
   ],
   "note": "Bound and monotonicity proved for all durations and attempt numbers, including overflow to infinity; the closed formula holds except for a zero initial delay after overflow (0*inf), which is refuted by example. f64 rounding of finite values is not modelled."
  },
  {
   "property": "C19",
   "status": "partial",
   "theorems": [
    "Verif.Reconnect.C19_open_blocks_partial",
    "Verif.Reconnect.C19_closes_after_timeout",
    "Verif.Reconnect.C19_disconnect_bypasses",
    "Verif.Reconnect.C19_reopens_after_one_failure",
    "Verif.Reconnect.C19_should_exact"
   ],
   "note": "Holds for every continuation without a lost-connection report; refuted when on_disconnected is called while the circuit is open."
  },
  {
   "property": "C20",
   "status": "proved",
   "theorems": [
    "Verif.Subscriptions.C20_get_subscriptions",
    "Verif.Subscriptions.C20_get_subscribers",
    "Verif.Subscriptions.C20_has_subscribers",
    "Verif.Subscriptions.C20_stats",
    "Verif.Subscriptions.C20_average",
    "Verif.Subscriptions.C20_isolation",
    "Verif.Subscriptions.C20_subscribe_twice"
   ],
   "note": "Refinement to a set of pairs through every query, including statistics and the average per resource, as a rational number."
  },
  {
   "property": "C21",
   "status": "proved",
   "theorems": [
    "Verif.Subscriptions.C21_notify",
    "Verif.Subscriptions.C21_enumeration_exists"
   ],
   "note": "Exact count and exactly one notification, for every history."
  },
  {
   "property": "C22",
   "status": "proved",
   "theorems": [
    "Verif.Cancellation.C22_token_cancelled_iff",
    "Verif.Cancellation.C22_cancelled_forever",
    "Verif.Cancellation.C22_get_token_iff_registered",
    "Verif.Cancellation.C22_get_token_returns_created",
    "Verif.Cancellation.C22_cancel_notifies_once",
    "Verif.Cancellation.C22_only_cancel_notifies",
    "Verif.Cancellation.C22_second_cancel_noop",
    "Verif.Cancellation.C22_is_cancelled_false_after_cancel",
    "Verif.Cancellation.C22_is_cancelled_iff"
   ],
   "note": "Exact characterisation of which tokens are cancelled for every history (hypothesis Causal: a holder can only cancel a token that exists). Also records that is_cancelled answers false after cancel_request."
  },
  {
   "property": "C23",
   "status": "partial",
   "theorems": [
    "Verif.Ids.C23_key_collision_witness",
    "Verif.Ids.C23_keys_distinct_partial",
    "Verif.Ids.C23_fromU64_collisions"
   ],
   "note": "False in the code: numeric id and equal-looking string share a key (witness). The partial theorem gives exactly which ids collide."
  },
  {
   "property": "C24",
   "status": "proved",
   "theorems": [
    "Verif.Batch.C24_every_schedule",
    "Verif.Batch.C24_order_independent",
    "Verif.Batch.C24_batch_request"
   ],
   "note": "Proved for all batches, limits and schedules."
  },
  {
   "property": "C25",
   "status": "proved",
   "theorems": [
    "Verif.Batch.C25_bounded",
    "Verif.Batch.C25_default_bound",
    "Verif.Batch.C25_progress",
    "Verif.Batch.C25_terminates",
    "Verif.Batch.C25_zero_limit_stuck"
   ],
   "note": "Bound, progress and termination proved for all schedules; a limit of zero never starts anything (proved)."
  },
  {
   "property": "C26",
   "status": "partial",
   "theorems": [
    "Verif.Batch.C26_ids_partial",
    "Verif.Batch.C26_ids_with_timeouts",
    "Verif.Batch.C26_timeout_loses_id",
    "Verif.Batch.C26_server_handler"
   ],
   "note": "Proved when no request times out; the response of a timed-out request carries the string id null (refuted by example, and the exact set of wrong ids is characterised)."
  },
  {
   "property": "C27",
   "status": "proved",
   "theorems": [
    "Verif.Batch.C27_metrics_add_up",
    "Verif.Batch.C27_classification",
    "Verif.Batch.C27_own_timeouts"
   ],
   "note": "Proved for all histories of batches and resets."
  },
  {
   "property": "C28",
   "status": "partial",
   "theorems": [
    "Verif.Roots.C28_uri_counts",
    "Verif.Roots.C28_listing_exact_partial",
    "Verif.Roots.C28_rejection",
    "Verif.Roots.C28_has_roots",
    "Verif.Roots.C28_notified",
    "Verif.Roots.C28_wrong_root_removed"
   ],
   "note": "Per-uri counts, rejection and has_roots proved for all histories; the exact listing holds when no uri is registered twice at the same time, and is refuted otherwise (a handle removes the first root with the same uri)."
  },
  {
   "property": "C29",
   "status": "proved",
   "theorems": [
    "Verif.Batcher.C29_batches_in_order",
    "Verif.Batcher.C29_batches_zero",
    "Verif.Batcher.C29_tick_emits_everything",
    "Verif.Batcher.C29_nothing_lost_any_interleaving",
    "Verif.Batcher.C29_batch_sizes_any_interleaving",
    "Verif.Batcher.C29_order_refuted_concurrent"
   ],
   "note": "Order, conservation and bounds proved for all sequential histories; conservation and bounds also for every interleaving (order refuted there)."
  },
  {
   "property": "C30",
   "status": "partial",
   "theorems": [
    "Verif.Debouncer.C30_fate_iff",
    "Verif.Debouncer.C30_no_duplicates",
    "Verif.Debouncer.C30_latest_emitted_once_partial",
    "Verif.Debouncer.C30_latest_emitted_once_never_full",
    "Verif.Debouncer.C30_superseded_never_emitted",
    "Verif.Debouncer.C30_quiescence_reachable",
    "Verif.Debouncer.C30_refuted"
   ],
   "note": "No duplicates, superseded ones never emitted, and termination proved for every interleaving; the latest one is emitted exactly once unless a sending timer task is killed, which needs a full channel (refuted there; proved whenever the channel is never full). Exactly which notifications come out: C30_fate_iff."
  },
  {
   "property": "C31",
   "status": "partial",
   "theorems": [
    "Verif.NotifDebounce.C31_key_iff_subject_partial",
    "Verif.NotifDebounce.C31_kinds_refuted",
    "Verif.NotifDebounce.C31_no_duplicates_partial",
    "Verif.NotifDebounce.C31_exactly_once_merging_partial",
    "Verif.NotifDebounce.C31_latest_kept_no_merging_partial",
    "Verif.NotifDebounce.C31_flush_sends_twice",
    "Verif.NotifDebounce.C31_flush_refuted",
    "Verif.NotifDebounce.C31_overflow_refuted",
    "Verif.NotifDebounce.C31_default_partial",
    "Verif.NotifDebounce.C31_default_bound"
   ],
   "note": "Exactly once proved without flush and within max_batch_size; refuted for flush (everything is sent twice), for overflow (the newest is dropped) and for roots changes against log messages (shared key)."
  },
  {
   "property": "C32",
   "status": "partial",
   "theorems": [
    "Verif.HttpServer.C32_left_over",
    "Verif.HttpServer.C32_deleted_iff",
    "Verif.HttpServer.C32_sessions_are_live",
    "Verif.HttpServer.C32_missing_session_400",
    "Verif.HttpServer.C32_unknown_session_404",
    "Verif.HttpServer.C32_handled_was_live_partial",
    "Verif.HttpServer.C32_deleted_while_waiting"
   ],
   "note": "The session table equals the created-and-not-deleted history spec after every history; 400/404 rejections change nothing; everything handled was live when received. A request is handled after the deletion exactly if it waited for the server then (C32_deleted_iff)."
  },
  {
   "property": "C33",
   "status": "partial",
   "theorems": [
    "Verif.HttpServer.C33_session_usable_partial",
    "Verif.HttpServer.C33_unknown_session_accepted_then_404",
    "Verif.HttpServer.C33_iff"
   ],
   "note": "For generated ids and ids of existing sessions. False for a client supplied unknown id: accepted and echoed, then 404 (C33_unknown_session_accepted_then_404, for all later histories). Exact condition: C33_iff."
  },
  {
   "property": "C34",
   "status": "partial",
   "theorems": [
    "Verif.HttpServer.C34_version_checked_partial",
    "Verif.HttpServer.C34_negotiated_version_enforced",
    "Verif.HttpServer.C34_unreadable_version_accepted"
   ],
   "note": "Exact decision for readable version headers; a header with non-ASCII bytes counts as absent (C34_unreadable_version_accepted)."
  },
  {
   "property": "C35",
   "status": "partial",
   "theorems": [
    "Verif.HttpServer.C35_replay_exact",
    "Verif.HttpServer.C35_unknown_id_replays_everything",
    "Verif.HttpServer.C35_single_stream_partial",
    "Verif.HttpServer.C35_other_streams_leak",
    "Verif.HttpServer.C35_store_is_build",
    "Verif.HttpServer.C35_leak_and_duplicate"
   ],
   "note": "Exact content of every replay (all streams). Events of other streams leak (C35_other_streams_leak) and messages are stored twice (C35_leak_and_duplicate); as claimed only when no other stream stored events."
  },
  {
   "property": "C36",
   "status": "partial",
   "theorems": [
    "Verif.HttpServer.C36_conserved",
    "Verif.HttpServer.C36_second_iff",
    "Verif.HttpServer.C36_any_number",
    "Verif.HttpServer.C36_single_stream_partial",
    "Verif.HttpServer.C36_two_streams"
   ],
   "note": "Holds when check and insertion of a GET are not interrupted; a second stream is opened exactly if another GET has passed the check (C36_second_iff), so any number can be (C36_any_number)."
  },
  {
   "property": "C37",
   "status": "proved",
   "theorems": [
    "Verif.HttpServer.C37_post_passes_iff",
    "Verif.HttpServer.C37_post_content_type_415",
    "Verif.HttpServer.C37_post_accept_406",
    "Verif.HttpServer.C37_get_passes_iff"
   ],
   "note": "Exact decision for all header values with status codes."
  },
  {
   "property": "C38",
   "status": "partial",
   "theorems": [
    "Verif.Recovery.C38_closed",
    "Verif.Recovery.C38_open",
    "Verif.Recovery.C38_open_success",
    "Verif.Recovery.C38_halfOpen",
    "Verif.Recovery.C38_no_request_before_timeout_partial",
    "Verif.Recovery.C38_late_success",
    "Verif.Recovery.C38_closed_to_halfOpen",
    "Verif.Recovery.C38_uninterrupted",
    "Verif.Recovery.C38_uninterrupted_answers",
    "Verif.Recovery.C38_refusal_justified"
   ],
   "note": "Exact protocol for every history of non-overlapping calls; a late success closes an open circuit at once (C38_late_success) and overlapping calls can take a closed circuit to half-open (C38_closed_to_halfOpen)."
  },
  {
   "property": "C39",
   "status": "partial",
   "theorems": [
    "Verif.Recovery.C39_always_called",
    "Verif.Recovery.C39_no_second_call_partial",
    "Verif.Recovery.C39_failing_operation_runs_twice",
    "Verif.Recovery.C39_exact",
    "Verif.Recovery.C39_fallback",
    "Verif.Recovery.C39_recorded"
   ],
   "note": "False: the operation is called before the breaker is consulted, in every state (C39_always_called); only the second call is guarded."
  },
  {
   "property": "C40",
   "status": "proved",
   "theorems": [
    "Verif.Recovery.C40_with_retry_success",
    "Verif.Recovery.C40_with_retry_failure",
    "Verif.Recovery.C40_fixed",
    "Verif.Recovery.C40_exponential",
    "Verif.Recovery.C40_negative_multiplier_panics",
    "Verif.Recovery.C40_one_wait_per_retry",
    "Verif.Recovery.C40_with_retry_waits"
   ],
   "note": "Exact call counts and results for with_retry, fixed and (nonnegative multiplier) exponential retries; a negative multiplier panics."
  },
  {
   "property": "C41",
   "status": "proved",
   "theorems": [
    "Verif.OAuth.C41_code_single_use",
    "Verif.OAuth.C41_redeemed_at_most_once"
   ],
   "note": "All schedules in which a code is generated once; failed exchanges consume the code too."
  },
  {
   "property": "C42",
   "status": "proved",
   "theorems": [
    "Verif.OAuth.C42_exchange_authorized",
    "Verif.OAuth.C42_exchange_complete"
   ],
   "note": "Exact decision; sha is an arbitrary function (SHA-256 with base64url in the code)."
  },
  {
   "property": "C43",
   "status": "partial",
   "theorems": [
    "Verif.OAuth.C43_again_iff",
    "Verif.OAuth.C43_held",
    "Verif.OAuth.C43_any_number",
    "Verif.OAuth.C43_used_refresh_token_rejected_partial",
    "Verif.OAuth.C43_uninterrupted_refresh",
    "Verif.OAuth.C43_double_refresh",
    "Verif.OAuth.C43_revocation_during_refresh"
   ],
   "note": "A refresh succeeds again exactly if the removal by the first has not been executed yet (C43_again_iff); any number of refreshes can succeed with one token (C43_any_number)."
  },
  {
   "property": "C44",
   "status": "proved",
   "theorems": [
    "Verif.OAuth.C44_validate_iff"
   ],
   "note": "All interleavings with distinct generated tokens."
  },
  {
   "property": "C45",
   "status": "partial",
   "theorems": [
    "Verif.OAuth.Locks.C45_ordered_programs_complete",
    "Verif.OAuth.Locks.C45_no_deadlock_partial",
    "Verif.OAuth.Locks.C45_issue_revoke_deadlock",
    "Verif.OAuth.Locks.C45_refresh_refresh_deadlock",
    "Verif.OAuth.Locks.C45_deadlock_iff",
    "Verif.OAuth.Locks.C45_in_turn"
   ],
   "note": "Deadlock exists, exactly if one call makes a token and another one was given a known refresh token (C45_deadlock_iff); progress and termination for methods that respect one lock order. Waiting callers get their lock in turn (C45_in_turn)."
  },
  {
   "property": "C46",
   "status": "proved",
   "theorems": [
    "Verif.AuthMw.C46_scope_middleware",
    "Verif.AuthMw.C46_bearer_with_scopes"
   ],
   "note": "Exact for any inner middleware."
  },
  {
   "property": "C47",
   "status": "proved",
   "theorems": [
    "Verif.AuthMw.C47_composite",
    "Verif.AuthMw.C47_required_composite",
    "Verif.AuthMw.C47_invalid_token_anonymous"
   ],
   "note": "Exact for all lists, including the error returned; with require_any off an invalid token is accepted as anonymous (C47_invalid_token_anonymous)."
  },
  {
   "property": "C48",
   "status": "partial",
   "theorems": [
    "Verif.Wire.C48_request_round_trip_partial",
    "Verif.Wire.C48_client_request_round_trip",
    "Verif.Wire.C48_server_create_message_becomes_client",
    "Verif.Wire.C48_elicit_never_parses",
    "Verif.Wire.C48_id_kept"
   ],
   "note": "Exact condition (iff): representable client requests and roots/list survive; server CreateMessage comes back as the client's, ElicitInput never parses, Some(null) and non-finite floats are lost."
  },
  {
   "property": "C49",
   "status": "partial",
   "theorems": [
    "Verif.Wire.C49_notification_round_trip_partial",
    "Verif.Wire.C49_wrapped_progress",
    "Verif.Wire.C49_wrapped_cancelled",
    "Verif.Wire.C49_not_finite_refused"
   ],
   "note": "Exact condition (iff); wrapped progress/cancelled and the server's roots notification change kind, non-finite progress is refused."
  },
  {
   "property": "C50",
   "status": "partial",
   "theorems": [
    "Verif.Wire.C50_classified",
    "Verif.Wire.C50_result_accepted",
    "Verif.Wire.C50_raw_agrees_partial",
    "Verif.Wire.C50_raw_response_partial",
    "Verif.Wire.C50_raw_differs"
   ],
   "note": "parse_message: proved for all JSON values. RawMessage::message_type agrees only without null members and without mixed messages (C50_raw_differs)."
  },
  {
   "property": "C51",
   "status": "proved",
   "theorems": [
    "Verif.Context.C51_order",
    "Verif.Context.C51_stops",
    "Verif.Context.C51_cases",
    "Verif.Context.C51_log",
    "Verif.Context.C51_observe"
   ],
   "note": "All chains and all hook behaviours (hooks are arbitrary functions on message and world)."
  },
  {
   "property": "C52",
   "status": "partial",
   "theorems": [
    "Verif.Context.C52_child",
    "Verif.Context.C52_hop_partial",
    "Verif.Context.C52_send",
    "Verif.Context.C52_send_exact",
    "Verif.Context.C52_receive_exact",
    "Verif.Context.C52_send_panics",
    "Verif.Context.C52_headers",
    "Verif.Context.C52_parent_after_hop",
    "Verif.Context.C52_chain_partial",
    "Verif.Context.C52_string_id_lost"
   ],
   "note": "Exact conditions (iff) for one hop; chains of children and hops by induction. String request ids and undashed 32-character trace ids are changed, the parent span is truncated, short span ids panic."
  },
  {
   "property": "C53",
   "status": "partial",
   "theorems": [
    "Verif.Dynamic.C53_resolves",
    "Verif.Dynamic.C53_removed",
    "Verif.Dynamic.C53_never_added",
    "Verif.Dynamic.C53_available_partial",
    "Verif.Dynamic.C53_static_stays",
    "Verif.Dynamic.C53_remove",
    "Verif.Dynamic.C53_frame",
    "Verif.Dynamic.C53_prompts",
    "Verif.Dynamic.C53_prompt_available_partial",
    "Verif.Dynamic.C53_handlers",
    "Verif.Dynamic.C53_announced_partial",
    "Verif.Dynamic.C53_announce"
   ],
   "note": "Exact for tools and prompts added at runtime, for every history; a tool of the static server stays available after removal (C53_static_stays) and the clearing done by a reload is not announced."
  },
  {
   "property": "C54",
   "status": "partial",
   "theorems": [
    "Verif.Elicit.C54_loses_iff",
    "Verif.Elicit.C54_delivered",
    "Verif.Elicit.C54_received",
    "Verif.Elicit.C54_once",
    "Verif.Elicit.C54_source",
    "Verif.Elicit.C54_unknown",
    "Verif.Elicit.C54_second_refused",
    "Verif.Elicit.C54_cancel_all",
    "Verif.Elicit.C54_pending",
    "Verif.Elicit.C54_never_closed_partial",
    "Verif.Elicit.C54_reused_id",
    "Verif.Elicit.C54_timeout_removes_other",
    "Verif.Elicit.C54_accepted_and_lost",
    "Verif.Elicit.C54_abandoned_leak"
   ],
   "note": "All interleavings of callers, responses, timeouts, cancellations and dropped callers. With distinct ids no waiter loses its channel; refuted for reused ids (C54_reused_id, C54_timeout_removes_other). A response between timeout and clean-up is accepted and lost; abandoned calls leak. Exactly which step takes a waiter's channel: C54_loses_iff."
  },
  {
   "property": "C55",
   "status": "partial",
   "theorems": [
    "Verif.Watcher.C55_due",
    "Verif.Watcher.C55_reported",
    "Verif.Watcher.C55_sound",
    "Verif.Watcher.C55_sound_trace",
    "Verif.Watcher.C55_tracked",
    "Verif.Watcher.C55_progress",
    "Verif.Watcher.C55_burst_lost",
    "Verif.Watcher.C55_accepted_partial",
    "Verif.Watcher.C55_bounds",
    "Verif.Watcher.C55_limit_silent",
    "Verif.Watcher.C55_notified_after_stop"
   ],
   "note": "Exact set of due reports for every trace (C55_due); every accepted event is reported once its debounce time is over. Refuted: raw events are lost when 1000 wait (C55_burst_lost), the resource limit is silent, reports are sent after stop."
  },
  {
   "property": "C56",
   "status": "partial",
   "theorems": [
    "Verif.Simd.C56_whitespace_partial",
    "Verif.Simd.C56_escapes_partial",
    "Verif.Simd.C56_short",
    "Verif.Simd.C56_never_returns"
   ],
   "note": "Exact condition (iff): returns exactly if no matching byte is at a position 31 mod 32, and then the result is right; otherwise the scan never ends (arithmetic shift of a negative mask)."
  },
  {
   "property": "C57",
   "status": "partial",
   "theorems": [
    "Verif.Simd.C57_short_partial",
    "Verif.Simd.C57_wellformed_partial",
    "Verif.Simd.C57_ascii",
    "Verif.Simd.C57_straddle",
    "Verif.Simd.C57_all_high",
    "Verif.Simd.C57_high_not_utf8",
    "Verif.Simd.C57_overlong"
   ],
   "note": "Exact for inputs below 32 bytes (shape, not well-formedness) and for well-formed input of any length; overlong forms, surrogates and all-high vectors are accepted, characters across a vector boundary refused."
  },
  {
   "property": "C58",
   "status": "proved",
   "theorems": [
    "Verif.Simd.C58_round_trip",
    "Verif.Simd.C58_length",
    "Verif.Simd.C58_alphabet"
   ],
   "note": "All byte strings."
  },
  {
   "property": "C59",
   "status": "proved",
   "theorems": [
    "Verif.Simd.C59_bytewise",
    "Verif.Simd.C59_involution",
    "Verif.Simd.C59_length"
   ],
   "note": "All data and masks."
  },
  {
   "property": "C60",
   "status": "proved",
   "theorems": [
    "Verif.Simd.C60_lossless",
    "Verif.Simd.C60_counts",
    "Verif.Simd.C60_shortest"
   ],
   "note": "All byte strings; the encoding is also the shortest one."
  },
  {
   "property": "C61",
   "status": "partial",
   "theorems": [
    "Verif.Simd.C61_found",
    "Verif.Simd.C61_sound",
    "Verif.Simd.C61_absent_partial",
    "Verif.Simd.C61_never_returns"
   ],
   "note": "First occurrence always found and every answer right; for absent needles the exact condition for returning."
  },
  {
   "property": "C62",
   "status": "partial",
   "theorems": [
    "Verif.Simd.C62_exact_partial",
    "Verif.Simd.C62_agree_partial",
    "Verif.Simd.C62_position",
    "Verif.Simd.C62_large",
    "Verif.Simd.C62_checksum"
   ],
   "note": "Exact per position; the vector part compares strictly and as signed numbers. Checksums proved for all buffers."
  },
  {
   "property": "C63",
   "status": "partial",
   "theorems": [
    "Verif.Server.C63_loop_order",
    "Verif.Server.C63_loop_complete_partial",
    "Verif.Server.C63_loop_terminates",
    "Verif.Server.C63_id",
    "Verif.Server.C63_answered_partial",
    "Verif.Server.C63_panic",
    "Verif.Server.C63_unanswered_iff"
   ],
   "note": "Id and presence of the answer for all requests and non-panicking handlers; for the loop: in every schedule responses are an initial part of the requests in order, and all are answered when no task can step. A panicking handler gets no answer and ends the loop (C63_panic, C70_panic). C63_unanswered_iff: no answer precisely if the called handler panics."
  },
  {
   "property": "C64",
   "status": "partial",
   "theorems": [
    "Verif.Server.C64_to_wire",
    "Verif.Server.C64_received_partial",
    "Verif.Server.C64_received_range",
    "Verif.Server.C64_tool_error",
    "Verif.Server.C64_only_internal",
    "Verif.Server.C64_texts",
    "Verif.Server.C64_tool_code_partial"
   ],
   "note": "False on the server: every handler error becomes -32603 without data (C64_tool_error, exact iff C64_tool_code_partial). Received codes: exact condition (iff)."
  },
  {
   "property": "C65",
   "status": "partial",
   "theorems": [
    "Verif.Client.C65_in_order_partial",
    "Verif.Client.C65_in_order_own",
    "Verif.Client.C65_out_of_order",
    "Verif.Client.C65_exact_partial",
    "Verif.Client.C65_swapped",
    "Verif.Client.C65_sequential_partial",
    "Verif.Client.C65_shift",
    "Verif.Client.C65_stale"
   ],
   "note": "Exact for every schedule: the k-th receiving call gets the k-th arriving message, ids ignored (C65_exact_partial). False for concurrent calls (C65_swapped), after a notification, for ever (C65_shift), after a dropped call (C65_stale)."
  },
  {
   "property": "C66",
   "status": "partial",
   "theorems": [
    "Verif.Client.C66_state",
    "Verif.Client.C66_gated_partial",
    "Verif.Client.C66_sent_partial",
    "Verif.Client.C66_told",
    "Verif.Client.C66_version",
    "Verif.Client.C66_once",
    "Verif.Client.C66_note_before",
    "Verif.Client.C66_failed_yet",
    "Verif.Client.C66_sampling_refused",
    "Verif.Client.C66_roots_unannounced",
    "Verif.Client.C66_roots_exact",
    "Verif.Client.C66_notes_exact"
   ],
   "note": "For every history requests are sent only after an accepted answer with a supported version, and within its capabilities. Refuted: notifications before initialization, initialize failing while the client is initialized, create_message never sent."
  },
  {
   "property": "C67",
   "status": "partial",
   "theorems": [
    "Verif.JsonFast.C67_exact_partial",
    "Verif.JsonFast.C67_returns",
    "Verif.JsonFast.C67_valid_partial",
    "Verif.JsonFast.C67_short",
    "Verif.JsonFast.C67_joined",
    "Verif.JsonFast.C67_never_returns",
    "Verif.JsonFast.C67_refused"
   ],
   "note": "Exact description of parse_json_fast for every input and parser; returns iff the UTF-8 check fails or no whitespace at a position 31 mod 32. Witness families: '1 2' is parsed as 12, whitespace at byte 31 never returns, a character across byte 32 is refused. serde_json's grammar is a parameter on the token list."
  },
  {
   "property": "C68",
   "status": "partial",
   "theorems": [
    "Verif.UriTemplate.C68_rfc_partial",
    "Verif.UriTemplate.C68_reserved_raw",
    "Verif.UriTemplate.C68_fragment_encoded",
    "Verif.UriTemplate.C68_parameter_empty",
    "Verif.UriTemplate.C68_safe",
    "Verif.UriTemplate.C68_injective",
    "Verif.UriTemplate.C68_variables",
    "Verif.UriTemplate.C68_parse_roundtrip",
    "Verif.UriTemplate.C68_text_kept",
    "Verif.UriTemplate.C68_accepted_valid",
    "Verif.UriTemplate.C68_unclosed"
   ],
   "note": "Equal to RFC 6570 with the last binding, exact guard; parser inverts printing for all templates. Refuted for {+x} (raw), {#x} (encoded), {;x} empty, unclosed braces."
  },
  {
   "property": "C69",
   "status": "partial",
   "theorems": [
    "Verif.UriTemplate.C69_matches_iff",
    "Verif.UriTemplate.C69_values",
    "Verif.UriTemplate.C69_match_partial",
    "Verif.UriTemplate.C69_exact_partial",
    "Verif.UriTemplate.C69_undecoded",
    "Verif.UriTemplate.C69_multi",
    "Verif.UriTemplate.C69_adjacent",
    "Verif.UriTemplate.C69_ambiguous",
    "Verif.UriTemplate.C69_empty",
    "Verif.UriTemplate.C69_label_dot",
    "Verif.UriTemplate.C69_sound"
   ],
   "note": "Exactly which URIs match (C69_matches_iff); every variable is bound to the encoding of its value for separated templates; the value itself iff unreserved (exact). Refuted: undecoded values, several variables, adjacent expressions, empty values, dots in labels."
  },
  {
   "property": "C70",
   "status": "partial",
   "theorems": [
    "Verif.Server.C70_blocked",
    "Verif.Server.C70_never_written",
    "Verif.Server.C70_order",
    "Verif.Server.C70_delivered_partial",
    "Verif.Server.C70_next_written",
    "Verif.Server.C70_stopped",
    "Verif.Server.C70_malformed",
    "Verif.Server.C70_malformed_run",
    "Verif.Server.C70_panic"
   ],
   "note": "False: the reader holds the transport while waiting, so nothing is written while the client is silent (C70_blocked, all schedules); a malformed message ends serving (C70_malformed_run). Partial: order kept, delivered whenever the reader is not blocked, not overtaken by the response."
  },
  {
   "property": "C71",
   "status": "proved",
   "theorems": [
    "Verif.Completion.C71_static",
    "Verif.Completion.C71_narrowing",
    "Verif.Completion.C71_strings"
   ],
   "note": "All option lists and prefixes; longer prefixes narrow the result."
  },
  {
   "property": "C72",
   "status": "partial",
   "theorems": [
    "Verif.Connect.C72_success",
    "Verif.Connect.C72_failure",
    "Verif.Connect.C72_unlimited",
    "Verif.Connect.C72_deterministic",
    "Verif.Connect.C72_zero",
    "Verif.Connect.C72_panic",
    "Verif.Connect.C72_panic_iff",
    "Verif.Connect.C72_discover_first",
    "Verif.Connect.C72_discover_exhausted",
    "Verif.Connect.C72_discover_bounded"
   ],
   "note": "All outcome sequences. Guard: doubling the delay does not overflow Duration (C72_panic otherwise). A limit of 0 still makes one attempt; without a limit and without success it never ends. Exactly when it panics: C72_panic_iff."
  },
  {
   "property": "C73",
   "status": "partial",
   "theorems": [
    "Verif.StreamClient.C73_streamable_once",
    "Verif.StreamClient.C73_streamable_ok_iff",
    "Verif.StreamClient.C73_streamable_partial",
    "Verif.StreamClient.C73_resumption_lost",
    "Verif.StreamClient.C73_error_though_written",
    "Verif.Transports.Http.C73_http",
    "Verif.Transports.Ws.C73_websocket_never",
    "Verif.Transports.Ws.C73_websocket_ok_iff"
   ],
   "note": "Streamable HTTP: written exactly once unless a resumption token is given, then Ok without writing (C73_resumption_lost). HTTP: written exactly once. WebSocket client: Ok while connected but no message is ever written, in any run (C73_websocket_never)."
  },
  {
   "property": "C74",
   "status": "proved",
   "theorems": [
    "Verif.EventStore.C74_resume_replays_since_token",
    "Verif.EventStore.C74_unknown_token",
    "Verif.EventStore.C74_pending_are_outbound"
   ],
   "note": "Exact for every history before and after the token, ids distinct."
  },
  {
   "property": "C75",
   "status": "partial",
   "theorems": [
    "Verif.EventStore.C75_foreign_iff",
    "Verif.EventStore.C75_foreign_event_replayed",
    "Verif.EventStore.C75_replay_own_partial"
   ],
   "note": "False in the code: replay is not filtered by session (witness). Holds when no other session writes to the store. C75_foreign_iff: a replay contains a foreign event precisely if one was stored after the token was made and is still kept."
  },
  {
   "property": "C76",
   "status": "proved",
   "theorems": [
    "Verif.Session.C76_lifecycle"
   ],
   "note": "Balance invariant over all histories with fresh ids."
  },
  {
   "property": "C77",
   "status": "partial",
   "theorems": [
    "Verif.Session.C77_extract_from_cookies",
    "Verif.Session.C77_middleware_accepts_expired",
    "Verif.Session.C77_middleware_session_partial",
    "Verif.Session.C77_middleware_iff"
   ],
   "note": "Extraction proved for all cookie jars in RFC 6265 form; acceptance of expired sessions is a witness, the remaining part is proved. Exactly when the middleware admits: C77_middleware_iff."
  },
  {
   "property": "C78",
   "status": "partial",
   "theorems": [
    "Verif.Session.C78_lost_iff",
    "Verif.Session.C78_authentication_lost",
    "Verif.Session.C78_lookup_restores",
    "Verif.Session.C78_update_kept_partial",
    "Verif.Session.C78_reads_keep_partial",
    "Verif.Session.C78_authenticate",
    "Verif.Session.C78_answer"
   ],
   "note": "False for concurrent callers (witness, lost authentication). An update can be lost exactly if a lookup that read the session without it has not written yet (C78_lost_iff). The answer to the caller is exact (C78_answer); an expired session that is still kept is authenticated too."
  },
  {
   "property": "C79",
   "status": "partial",
   "theorems": [
    "Verif.Stdio.C79_huge_length_panics",
    "Verif.Stdio.C79_panics_only_on_huge_length_partial",
    "Verif.Stdio.C79_panic_iff",
    "Verif.Stdio.C79_after_panic"
   ],
   "note": "False in the code: an announced length above isize::MAX panics (witness). It is the only way to panic."
  },
  {
   "property": "C80",
   "status": "partial",
   "theorems": [
    "Verif.Batch.C80_shape_partial",
    "Verif.Batch.C80_array_iff",
    "Verif.Batch.C80_one_element_array"
   ],
   "note": "Proved except for arrays of exactly one request, which are answered with a bare response (refuted). C80_array_iff: the answer is an array precisely if the message was one not holding exactly one request."
  },
  {
   "property": "C81",
   "status": "partial",
   "theorems": [
    "Verif.Batch.C81_rate_exceeded",
    "Verif.Batch.C81_rate_bound_partial"
   ],
   "note": "Refuted: n*n requests per second are possible; n*n is proved as the actual bound."
  },
  {
   "property": "C82",
   "status": "partial",
   "theorems": [
    "Verif.Batch.C82_empty_batch_poisons_average",
    "Verif.Batch.C82_average_finite_partial",
    "Verif.Batch.C82_average_infinite"
   ],
   "note": "Refuted: an empty first batch makes the average NaN forever. One-step finiteness with the exact value proved for non-empty batches in range."
  },
  {
   "property": "C83",
   "status": "partial",
   "theorems": [
    "Verif.Batcher.C83_accepted_message_kept_partial",
    "Verif.Batcher.C83_conserved",
    "Verif.Batcher.C83_lost_iff",
    "Verif.Batcher.C83_refuted"
   ],
   "note": "Refuted: a caller abandoning add on a full channel takes other callers' messages with it. Proved when no awaiting call is dropped. C83_conserved, C83_lost_iff: a message is nowhere precisely if it was in the batch of a dropped caller."
  },
  {
   "property": "C84",
   "status": "partial",
   "theorems": [
    "Verif.NotifDebounce.C84_refuted",
    "Verif.NotifDebounce.C84_not_before_interval_partial",
    "Verif.NotifDebounce.C84_configured"
   ],
   "note": "Refuted: none of the default per-type intervals is ever used. Proved for intervals configured under the internal key."
  },
  {
   "property": "C85",
   "status": "proved",
   "theorems": [
    "Verif.NotifDebounce.C85_conservation",
    "Verif.NotifDebounce.C85_batches",
    "Verif.NotifDebounce.C85_timeout_running"
   ],
   "note": "Proved for all interleavings of the batcher steps."
  },
  {
   "property": "C86",
   "status": "proved",
   "theorems": [
    "Verif.NotifDebounce.C86_max_wait",
    "Verif.NotifDebounce.C86_interval",
    "Verif.NotifDebounce.C86_default"
   ],
   "note": "Proved for all histories with a non-decreasing clock before the submission."
  },
  {
   "property": "C87",
   "status": "partial",
   "theorems": [
    "Verif.HttpServer.C87_reopen_always_refused",
    "Verif.HttpServer.C87_first_stream_replays_partial"
   ],
   "note": "False: once a stream was opened every later GET for the session is refused (C87_reopen_always_refused, all histories). Only the first stream of a session replays."
  },
  {
   "property": "C88",
   "status": "partial",
   "theorems": [
    "Verif.HttpServer.C88_connected",
    "Verif.HttpServer.C88_response_delivered_partial",
    "Verif.HttpServer.C88_stream_fifo",
    "Verif.HttpServer.C88_senders_ok",
    "Verif.HttpServer.C88_response_lost",
    "Verif.HttpServer.C88_lost_iff"
   ],
   "note": "Response is in the HTTP response or appended to the stream when its client is connected; lost with status 202 when the client has disconnected (C88_response_lost). C88_lost_iff: lost precisely if not in JSON mode and the client of the session's stream has disconnected."
  },
  {
   "property": "C89",
   "status": "partial",
   "theorems": [
    "Verif.HttpServer.C89_requests_handled_once_partial",
    "Verif.HttpServer.C89_notifications_discarded",
    "Verif.HttpServer.C89_notification_accepted"
   ],
   "note": "Requests exactly once (counting over all histories); notifications and responses are answered 202 and dropped (C89_notifications_discarded)."
  },
  {
   "property": "C90",
   "status": "partial",
   "theorems": [
    "Verif.Recovery.C90_delays_partial",
    "Verif.Recovery.C90_later_delays_capped",
    "Verif.Recovery.C90_first_delay_not_capped",
    "Verif.Recovery.C90_capped_iff"
   ],
   "note": "Exact delays when initial <= max and multiplier >= 1; the first delay is not capped (C90_first_delay_not_capped). Rounding of f64 not modelled. C90_capped_iff: no delay exceeds the maximum precisely if the initial delay does not or no retry is configured."
  },
  {
   "property": "C91",
   "status": "partial",
   "theorems": [
    "Verif.OAuth.C91_secret_ignored",
    "Verif.OAuth.C91_client_id_checked_partial"
   ],
   "note": "The client secret is never read (C91_secret_ignored); the client id is checked."
  },
  {
   "property": "C92",
   "status": "proved",
   "theorems": [
    "Verif.OAuth.C92_no_escalation"
   ],
   "note": "All interleavings."
  },
  {
   "property": "C93",
   "status": "partial",
   "theorems": [
    "Verif.OAuth.C93_authorization_checked_partial",
    "Verif.OAuth.C93_client_scopes_ignored",
    "Verif.OAuth.C93_registration_overwritten"
   ],
   "note": "Exact decision; the registered scopes are ignored and registrations can be overwritten (witnesses)."
  },
  {
   "property": "C94",
   "status": "proved",
   "theorems": [
    "Verif.AuthMw.C94_identity_has_credential",
    "Verif.AuthMw.C94_strict_tree",
    "Verif.AuthMw.C94_bearer_over_provider"
   ],
   "note": "All trees; end-to-end statement over the in-memory provider in C94_bearer_over_provider."
  },
  {
   "property": "C95",
   "status": "partial",
   "theorems": [
    "Verif.AuthMw.C95_required_refuses_partial",
    "Verif.AuthMw.C95_required_but_anonymous",
    "Verif.AuthMw.C95_optional_but_refused",
    "Verif.AuthMw.C95_anonymous_iff"
   ],
   "note": "False for mixed composites and for scope checks (witnesses); proved for trees of required middlewares. C95_anonymous_iff: without authentication a request passes as anonymous precisely if the tree has an optional way through."
  },
  {
   "property": "C96",
   "status": "partial",
   "theorems": [
    "Verif.Wire.C96_message_round_trip_partial",
    "Verif.Wire.C96_kind_kept",
    "Verif.Wire.C96_result_kept"
   ],
   "note": "Exact condition (iff) for serialize_message/parse_message at the level of serde_json::Value; exceptions are those of C48, C49 and error data Some(null)."
  },
  {
   "property": "C97",
   "status": "partial",
   "theorems": [
    "Verif.Wire.C97_http_round_trip_partial",
    "Verif.Wire.C97_roots_notification"
   ],
   "note": "Exact condition (iff) for the derived TransportMessage."
  },
  {
   "property": "C98",
   "status": "partial",
   "theorems": [
    "Verif.Wire.C98_standard_request_refused",
    "Verif.Wire.C98_http_request_refused",
    "Verif.Wire.C98_responses_partial",
    "Verif.Wire.C98_notifications_partial"
   ],
   "note": "False for every request (C98_standard_request_refused); responses and notifications are understood."
  },
  {
   "property": "C99",
   "status": "partial",
   "theorems": [
    "Verif.Wire.C99_omitted_params_partial",
    "Verif.Wire.C99_list_needs_params",
    "Verif.Wire.C99_ping_refuses_params"
   ],
   "note": "Exact condition (iff): only ping and roots/list may omit params; the four list requests must carry {} and ping must not."
  },
  {
   "property": "C100",
   "status": "partial",
   "theorems": [
    "Verif.Wire.C100_results_partial",
    "Verif.Wire.C100_provider_key_lost",
    "Verif.Wire.C100_tools",
    "Verif.Wire.C100_call_result",
    "Verif.Wire.C100_iff"
   ],
   "note": "All results; completion settings with the key provider are lost. Exactly which results survive: C100_iff."
  },
  {
   "property": "C101",
   "status": "partial",
   "theorems": [
    "Verif.Wire.C101_order_iff",
    "Verif.Wire.C101_unknown_members_ignored",
    "Verif.Wire.C101_order_irrelevant_partial",
    "Verif.Wire.C101_order_matters",
    "Verif.Wire.C101_null_error_refused",
    "Verif.Wire.C101_null_id_refused"
   ],
   "note": "Unknown members ignored for all objects; order irrelevant unless both result and error are present. Exactly when the order matters: C101_order_iff."
  },
  {
   "property": "C102",
   "status": "partial",
   "theorems": [
    "Verif.Wire.C102_untyped_refused",
    "Verif.Wire.C102_schema_read_refused",
    "Verif.Wire.C102_known_types_partial"
   ],
   "note": "False for resource contents per the protocol schema; the accepted type names are exactly text, image, resource."
  },
  {
   "property": "C103",
   "status": "proved",
   "theorems": [
    "Verif.Simd.C103_copy"
   ],
   "note": "All lengths."
  },
  {
   "property": "C104",
   "status": "partial",
   "theorems": [
    "Verif.Dynamic.C104_says_partial",
    "Verif.Dynamic.C104_content_partial",
    "Verif.Dynamic.C104_forgets"
   ],
   "note": "Exact content of each announcement; it covers only the latest change over the static capabilities, so earlier changes are forgotten (C104_forgets)."
  },
  {
   "property": "C105",
   "status": "partial",
   "theorems": [
    "Verif.Dynamic.C105_not_callable",
    "Verif.Dynamic.C105_callable_partial"
   ],
   "note": "False: the request path never looks at the manager (C105_not_callable). Exact condition: callable iff static."
  },
  {
   "property": "C106",
   "status": "partial",
   "theorems": [
    "Verif.Server.C106_advertised_partial",
    "Verif.Server.C106_tool_not_advertised",
    "Verif.Server.C106_sampling",
    "Verif.Server.C106_sampling_overwritten"
   ],
   "note": "False except for sampling: exactly the last capabilities call counts (C106_advertised_partial)."
  },
  {
   "property": "C107",
   "status": "partial",
   "theorems": [
    "Verif.Server.C107_no_token",
    "Verif.Server.C107_id_partial"
   ],
   "note": "False in every history: the server never creates a token (C107_no_token)."
  },
  {
   "property": "C108",
   "status": "partial",
   "theorems": [
    "Verif.Server.C108_ignored",
    "Verif.Server.C108_requests_never_subscribe",
    "Verif.Server.C108_api_partial",
    "Verif.Server.C108_exact"
   ],
   "note": "False: the request changes nothing (C108_ignored); the API call works."
  },
  {
   "property": "C109",
   "status": "partial",
   "theorems": [
    "Verif.Server.C109_fixed",
    "Verif.Server.C109_requested_partial"
   ],
   "note": "False: always 2024-11-05; exact condition (iff)."
  },
  {
   "property": "C110",
   "status": "partial",
   "theorems": [
    "Verif.Server.C110_readable_partial",
    "Verif.Server.C110_complete",
    "Verif.Server.C110_prompt",
    "Verif.Server.C110_tool",
    "Verif.Server.C110_sample",
    "Verif.Server.C110_read"
   ],
   "note": "All requests except completion/complete, whose answer {} is never a completion (C110_complete)."
  },
  {
   "property": "C111",
   "status": "proved",
   "theorems": [
    "Verif.Server.C111_tools_listed",
    "Verif.Server.C111_prompts_listed",
    "Verif.Server.C111_call",
    "Verif.Server.C111_unknown",
    "Verif.Server.C111_resources"
   ],
   "note": "All sequences of builder calls."
  },
  {
   "property": "C112",
   "status": "partial",
   "theorems": [
    "Verif.Server.C112_ignored",
    "Verif.Server.C112_flag_partial",
    "Verif.Server.C112_history"
   ],
   "note": "False: neither answers nor effects depend on initialization (C112_ignored)."
  },
  {
   "property": "C113",
   "status": "partial",
   "theorems": [
    "Verif.Server.C113_dropped"
   ],
   "note": "False in every history: there is never a manager (C113_dropped)."
  },
  {
   "property": "C114",
   "status": "partial",
   "theorems": [
    "Verif.Server.C114_run_takes",
    "Verif.Server.C114_never_sent",
    "Verif.Server.C114_claims_notified"
   ],
   "note": "False in every history: before run there is no channel, and run takes the server away (C114_never_sent)."
  },
  {
   "property": "C115",
   "status": "partial",
   "theorems": [
    "Verif.Client.C115_active_partial",
    "Verif.Client.C115_leak"
   ],
   "note": "Exact: the table holds the calls that did not receive a message (iff); failed and dropped calls stay (C115_leak)."
  },
  {
   "property": "C116",
   "status": "partial",
   "theorems": [
    "Verif.Client.C116_connect",
    "Verif.Client.C116_call_tool_partial",
    "Verif.Client.C116_tool_error",
    "Verif.Client.C116_complete"
   ],
   "note": "initialize always succeeds; tools are usable exactly if advertised with capabilities; errors arrive as -32603; completion never readable."
  },
  {
   "property": "C117",
   "status": "partial",
   "theorems": [
    "Verif.JsonFast.C117_iff",
    "Verif.JsonFast.C117_tokens_partial",
    "Verif.JsonFast.C117_ascii",
    "Verif.JsonFast.C117_corrupted",
    "Verif.JsonFast.C117_never_returns",
    "Verif.JsonFast.C117_layout"
   ],
   "note": "Tokens of the printed text for every compact text: kept for ASCII, every byte above 127 becomes two bytes (witness: \u00e9 printed as \u00c3\u00a9); a quote at byte 31 never returns. Exactly which texts are printed as they are: C117_iff."
  },
  {
   "property": "C118",
   "status": "partial",
   "theorems": [
    "Verif.JsonFast.C118_serialize_partial",
    "Verif.JsonFast.C118_refused"
   ],
   "note": "serialize_json_fast returns to_vec's bytes or refuses; refused exactly when the C57 check refuses a well-formed text."
  },
  {
   "property": "C119",
   "status": "partial",
   "theorems": [
    "Verif.Completion.C119_sorted",
    "Verif.Completion.C119_labels",
    "Verif.Completion.C119_nothing_typed",
    "Verif.Completion.C119_single_dot",
    "Verif.Completion.C119_exact_partial",
    "Verif.Completion.C119_directory",
    "Verif.Completion.C119_dot",
    "Verif.Completion.C119_dotdot",
    "Verif.Completion.C119_bare",
    "Verif.Completion.C119_escapes"
   ],
   "note": "Sorted for every input; exact contents for directories and prefixes not ending in a dot component. Refuted: hidden files ('d/.'), 'd/..', bare names without base directory, absolute typed paths leave the base directory. Path semantics of std::path transcribed for Unix."
  },
  {
   "property": "C120",
   "status": "partial",
   "theorems": [
    "Verif.Connect.C120_delays_partial",
    "Verif.Connect.C120_first_uncapped"
   ],
   "note": "Exact delay sequence; every delay but the first is capped, the first is not (C120_first_uncapped)."
  },
  {
   "property": "C121",
   "status": "partial",
   "theorems": [
    "Verif.Connect.C121_status_final_partial",
    "Verif.Connect.C121_asked_again_iff",
    "Verif.Connect.C121_found_in_answer",
    "Verif.Connect.C121_retry_iff",
    "Verif.Connect.C121_timeouts",
    "Verif.Connect.C121_address",
    "Verif.Connect.C121_url",
    "Verif.Connect.C121_foreign_issuer"
   ],
   "note": "Exact substring condition (iff); 503/504 are not retried, an address containing a trigger word is retried, the issuer is not checked."
  },
  {
   "property": "C122",
   "status": "proved",
   "theorems": [
    "Verif.StreamClient.C122_headers",
    "Verif.StreamClient.C122_echo",
    "Verif.StreamClient.C122_stale_forever"
   ],
   "note": "Every history: headers are those of the latest answer. After a 404 the stale id stays for ever (C122_stale_forever), which the property does not forbid but MCP clients must avoid."
  },
  {
   "property": "C123",
   "status": "partial",
   "theorems": [
    "Verif.StreamClient.C123_stream_partial",
    "Verif.StreamClient.C123_round_trip_partial",
    "Verif.StreamClient.C123_not_before_end",
    "Verif.StreamClient.C123_broken_lost",
    "Verif.StreamClient.C123_reopened_lost"
   ],
   "note": "Exact for every interleaving: a stream's messages are delivered, in order, when it ends normally. Refuted: before the end, when it breaks, when the GET stream is opened again."
  },
  {
   "property": "C124",
   "status": "partial",
   "theorems": [
    "Verif.StreamClient.C124_never_opened"
   ],
   "note": "False in every history: the 202 branch is unreachable after the success check (C124_never_opened)."
  },
  {
   "property": "C125",
   "status": "proved",
   "theorems": [
    "Verif.StreamClient.C125_stream_ids",
    "Verif.StreamClient.C125_last_event"
   ],
   "note": "Every history of stream events."
  },
  {
   "property": "C126",
   "status": "partial",
   "theorems": [
    "Verif.Transports.Http.C126_accepted_is_error",
    "Verif.Transports.Http.C126_needs_answer_partial",
    "Verif.Transports.Http.C126_told",
    "Verif.Transports.Http.C126_headers_dropped"
   ],
   "note": "False: 202 and empty answers are errors although delivered, configured headers are never sent. Exact success condition (iff)."
  },
  {
   "property": "C127",
   "status": "partial",
   "theorems": [
    "Verif.Transports.Http.C127_waits_iff_partial",
    "Verif.Transports.Http.C127_hundred"
   ],
   "note": "Exact: waits iff a readable answer finds 100 unread ones; a program that only sends succeeds exactly 100 times."
  },
  {
   "property": "C128",
   "status": "partial",
   "theorems": [
    "Verif.Transports.Ws.C128_exact",
    "Verif.Transports.Ws.C128_stays_connected",
    "Verif.Transports.Ws.C128_connected_partial"
   ],
   "note": "Exact: the program's own connect and close calls decide (C128_exact). False in the sense claimed: nothing the peer does ends 'connected' (C128_stays_connected)."
  },
  {
   "property": "C129",
   "status": "proved",
   "theorems": [
    "Verif.Transports.Ws.C129_several",
    "Verif.Transports.Ws.C129_receive"
   ],
   "note": "Any number of connections, every interleaving with calls (C129_several); text frames that are no messages are skipped; frames after close are still delivered."
  },
  {
   "property": "C130",
   "status": "partial",
   "theorems": [
    "Verif.Transports.WsServer.C130_order_partial",
    "Verif.Transports.WsServer.C130_lost"
   ],
   "note": "Every schedule: the wire holds an initial part of the accepted messages; all of them while the writer lives. Refuted: messages accepted after the peer has gone are lost (C130_lost)."
  },
  {
   "property": "C131",
   "status": "partial",
   "theorems": [
    "Verif.Transports.WsServer.C131_ended",
    "Verif.Transports.WsServer.C131_receive_partial",
    "Verif.Transports.WsServer.C131_replaced_lost",
    "Verif.Transports.WsServer.C131_stays_connected"
   ],
   "note": "Every schedule: received ++ waiting = arrived while current; after the reader has ended (close frame, error, pong to a gone writer, replaced connection) nothing more arrives, no pong is sent and receive never waits (C131_ended). Refuted: accepting the next connection loses unread messages; is_connected stays true after the peer has gone."
  },
  {
   "property": "C132",
   "status": "partial",
   "theorems": [
    "Verif.HttpEvents.C132_replacement",
    "Verif.HttpEvents.C132_frames_partial",
    "Verif.HttpEvents.C132_cut"
   ],
   "note": "Frames cut between characters: messages of the whole body unless it has a stray carriage return (exact guard of C04). Refuted for every cut inside a character (C132_cut): the bytes become replacement characters, one for each maximal beginning of a character (C132_replacement)."
  },
  {
   "property": "C133",
   "status": "partial",
   "theorems": [
    "Verif.HttpEvents.C133_flag",
    "Verif.HttpEvents.C133_one_stream_partial",
    "Verif.HttpEvents.C133_two_streams",
    "Verif.HttpEvents.C133_close_ignored",
    "Verif.HttpEvents.C133_panic"
   ],
   "note": "Exact value of is_connected over every history (C133_flag). One stream without close: as claimed. Refuted: two streams, close stops nothing, a panic of the reader leaves connected true."
  },
  {
   "property": "C134",
   "status": "partial",
   "theorems": [
    "Verif.HttpEvents.C134_in_order_partial",
    "Verif.HttpEvents.C134_answers",
    "Verif.HttpEvents.C134_bound",
    "Verif.HttpEvents.C134_room"
   ],
   "note": "Every interleaving; answers and bound in full, order of a stream unless its task has panicked."
  },
  {
   "property": "C135",
   "status": "partial",
   "theorems": [
    "Verif.HttpServer.C135_initialized_once",
    "Verif.HttpServer.C135_stream_first"
   ],
   "note": "Exact for sessions created by initialize, every history. Refuted for sessions created by a GET: they can never be initialized (C135_stream_first)."
  },
  {
   "property": "C136",
   "status": "partial",
   "theorems": [
    "Verif.HttpServer.C136_version_partial",
    "Verif.HttpServer.C136_stateless",
    "Verif.HttpServer.C136_stateless_requests"
   ],
   "note": "Every history in which the session is neither deleted nor initialized again. Refuted without sessions: always the default version (C136_stateless, C136_stateless_requests)."
  },
  {
   "property": "C137",
   "status": "partial",
   "theorems": [
    "Verif.HttpServer.C137_stream_iff",
    "Verif.HttpServer.C137_delete",
    "Verif.HttpServer.C137_stream_ends",
    "Verif.HttpServer.C137_stream_after_delete"
   ],
   "note": "Exact for every history. Refuted: a stream is opened for the deleted session exactly if a GET of it was in progress (C137_stream_iff)."
  },
  {
   "property": "C138",
   "status": "partial",
   "theorems": [
    "Verif.HttpServer.C138_reports",
    "Verif.HttpServer.C138_twice_iff",
    "Verif.HttpServer.C138_any_number",
    "Verif.HttpServer.C138_balanced_partial",
    "Verif.HttpServer.C138_stateless",
    "Verif.HttpServer.C138_removed",
    "Verif.HttpServer.C138_closed_twice"
   ],
   "note": "Counting theorem over every history with fresh ids. Refuted: without sessions, and with overlapping DELETEs. C138_reports, C138_twice_iff, C138_any_number: how many reports overlapping DELETEs give, exactly."
  },
  {
   "property": "C139",
   "status": "proved",
   "theorems": [
    "Verif.NotifDebounce.C139_entry",
    "Verif.NotifDebounce.C139_stats"
   ],
   "note": "Exact description of every entry over all histories (C139_entry) and of the three numbers."
  },
  {
   "property": "C140",
   "status": "proved",
   "theorems": [
    "Verif.Batcher.C140_unread_bound",
    "Verif.Batcher.C140_blocks_iff"
   ],
   "note": "Bound over every interleaving; exact waiting condition for calls made one after another."
  },
  {
   "property": "C141",
   "status": "partial",
   "theorems": [
    "Verif.Reconnect.C141_stats",
    "Verif.Reconnect.C141_reset"
   ],
   "note": "Exact numbers over every history. Refuted for reset, which keeps the totals (C141_reset)."
  },
  {
   "property": "C142",
   "status": "partial",
   "theorems": [
    "Verif.Reconnect.C142_no_duplicate_partial",
    "Verif.Reconnect.C142_refuted",
    "Verif.Reconnect.C142_offered_iff"
   ],
   "note": "Holds when no report arrives while a newer connection is live. Refuted otherwise for every configuration (C142_refuted). C142_offered_iff: exactly when a reconnection is offered beside a live connection."
  },
  {
   "property": "C143",
   "status": "proved",
   "theorems": [
    "Verif.Recovery.C143_standard",
    "Verif.Recovery.C143_added",
    "Verif.Recovery.C143_added_runs"
   ],
   "note": "Every operation and error; errors without a code count as internal errors."
  },
  {
   "property": "C144",
   "status": "proved",
   "theorems": [
    "Verif.Sse.C144_reset",
    "Verif.Sse.C144_any_text",
    "Verif.Sse.C144_reset_ids",
    "Verif.Sse.C144_last_id"
   ],
   "note": "Every state and every text (C144_any_text), panics included; the ids of the lines spelled out for texts of lines that are ASCII or free of carriage returns, the guard of C05."
  },
  {
   "property": "C145",
   "status": "proved",
   "theorems": [
    "Verif.Transports.Http.C145_answers",
    "Verif.Transports.Http.C145_bound"
   ],
   "note": "Every program; an answer is counted for a send that returned Ok (a send that waits for room and is abandoned loses its answer)."
  },
  {
   "property": "C146",
   "status": "proved",
   "theorems": [
    "Verif.Transports.WsServer.C146_pongs",
    "Verif.Transports.WsServer.C146_written"
   ],
   "note": "Every schedule, any number of connections. Payloads are numbers standing for byte strings; the pong tungstenite itself may queue is not modelled."
  },
  {
   "property": "C147",
   "status": "proved",
   "theorems": [
    "Verif.Stdio.C147_recovers"
   ],
   "note": "Any list of good and bad blocks; the blocks covered are messages with any further headers, header blocks without length, lines that are not UTF-8."
  },
  {
   "property": "C148",
   "status": "partial",
   "theorems": [
    "Verif.Stdio.C148_iff",
    "Verif.Stdio.C148_idle_partial",
    "Verif.Stdio.C148_lost",
    "Verif.Stdio.C148_cut_header",
    "Verif.Stdio.C148_cut_body",
    "Verif.Stdio.C148_never_again"
   ],
   "note": "False: any cut inside the header loses the message (C148_cut_header, all messages and cuts); inside a body its rest is read as headers (C148_cut_body). Holds when nothing of the message has arrived. Exactly when nothing is lost: C148_iff."
  },
  {
   "property": "C149",
   "status": "proved",
   "theorems": [
    "Verif.StreamClient.C149_answer",
    "Verif.StreamClient.C149_only",
    "Verif.StreamClient.C149_broken_over"
   ],
   "note": "Exact for every state and answer."
  },
  {
   "property": "C150",
   "status": "partial",
   "theorems": [
    "Verif.Wire.C150_parse_message",
    "Verif.Wire.C150_http_partial",
    "Verif.Wire.C150_array_is_message",
    "Verif.Wire.C150_pairs",
    "Verif.Wire.C150_triples",
    "Verif.Wire.C150_batch_refused"
   ],
   "note": "Holds for parse_message. Streamable HTTP: exactly which arrays are read, as which notification (C150_pairs, C150_triples, C150_http_partial); batches are refused as a whole. Refuted: C150_array_is_message."
  },
  {
   "property": "C151",
   "status": "partial",
   "theorems": [
    "Verif.Wasm.C151_round_trip_partial",
    "Verif.Wasm.C151_bare_lost"
   ],
   "note": "Exact for every well-formed message. Refuted for bare progress and cancellation notifications (C151_bare_lost) and the exceptions of C97."
  },
  {
   "property": "C152",
   "status": "partial",
   "theorems": [
    "Verif.Wasm.C152_native_refuses",
    "Verif.Wasm.C152_responses_partial",
    "Verif.Wasm.C152_from_native_partial"
   ],
   "note": "Refuted: every request and notification of this transport is refused by the others (C152_native_refuses). Responses agree; the other direction exactly as stated (C152_from_native_partial)."
  },
  {
   "property": "C153",
   "status": "proved",
   "theorems": [
    "Verif.Wasm.C153_wait"
   ],
   "note": "Exact outcome for every history of ready states; 101 looks 100 ms apart."
  },
  {
   "property": "C154",
   "status": "partial",
   "theorems": [
    "Verif.Wasm.C154_order",
    "Verif.Wasm.C154_next",
    "Verif.Wasm.C154_never_ends",
    "Verif.Wasm.C154_send"
   ],
   "note": "Order and sending over every history. The end of the connection is never reported (C154_never_ends). Browser events are the steps; a closed socket delivers nothing."
  },
  {
   "property": "C155",
   "status": "partial",
   "theorems": [
    "Verif.Batch.C155_average",
    "Verif.Batch.C155_maximum",
    "Verif.Batch.C155_average_le_maximum",
    "Verif.Batch.C155_mean_partial"
   ],
   "note": "Exact value of the average (rational arithmetic, non-empty batches; empty ones are C82) and of the maximum; mean of the batches iff all are single or took no time."
  },
  {
   "property": "C156",
   "status": "partial",
   "theorems": [
    "Verif.Batch.C156_interval_partial",
    "Verif.Batch.C156_one_burst",
    "Verif.Batch.C156_answers"
   ],
   "note": "Exact condition of the panic. Refuted: handlers start in one burst after all waits; every answer is null. See C81 for the number of releases per second."
  },
  {
   "property": "C157",
   "status": "partial",
   "theorems": [
    "Verif.Elicit.Builder.C157_built",
    "Verif.Elicit.Builder.C157_wire_partial",
    "Verif.Elicit.Builder.C157_name_taken",
    "Verif.Elicit.Builder.C157_select",
    "Verif.Wire.C157_input_types"
   ],
   "note": "What is built: every chain of calls. On the wire: exact condition; refuted for metadata named like a field, null defaults and non-finite bounds."
  },
  {
   "property": "C158",
   "status": "partial",
   "theorems": [
    "Verif.Context.C158_requests",
    "Verif.Context.C158_responses",
    "Verif.Context.C158_no_token",
    "Verif.Context.C158_secret",
    "Verif.Context.C158_same",
    "Verif.Context.C158_private",
    "Verif.Context.C158_lines",
    "Verif.Context.C158_response_lines"
   ],
   "note": "Transparency, secrecy of the token and the lines of the log for every chain. Refuted: AuthMiddleware adds nothing (C158_no_token), RetryMiddleware repeats nothing (C158_requests)."
  },
  {
   "property": "C159",
   "status": "partial",
   "theorems": [
    "Verif.TokenClient.C159_form",
    "Verif.TokenClient.C159_exchange",
    "Verif.TokenClient.C159_refresh",
    "Verif.TokenClient.C159_provider",
    "Verif.TokenClient.C159_secret_only_in_header",
    "Verif.TokenClient.C159_refresh_secret",
    "Verif.TokenClient.C159_basic_partial",
    "Verif.TokenClient.C159_colon",
    "Verif.TokenClient.C159_form_decoded_partial",
    "Verif.TokenClient.C159_plain",
    "Verif.TokenClient.C159_headers",
    "Verif.TokenClient.C159_read"
   ],
   "note": "Request bodies: every input, also end to end with the provider. Header: exact condition (no colon in the client id); refuted for the rest (C159_colon), and for servers that form-decode it (C159_form_decoded_partial)."
  },
  {
   "property": "C160",
   "status": "partial",
   "theorems": [
    "Verif.TokenClient.C160_response_partial",
    "Verif.TokenClient.C160_issued",
    "Verif.TokenClient.C160_taken"
   ],
   "note": "Exact condition on the additional members; unconditional for what the library's provider issues (C160_issued). Refuted: C160_taken."
  },
  {
   "property": "C161",
   "status": "proved",
   "theorems": [
    "Verif.TokenClient.C161_readable",
    "Verif.TokenClient.C161_ok",
    "Verif.TokenClient.C161_error",
    "Verif.TokenClient.C161_refresh_error",
    "Verif.TokenClient.C161_parse_error"
   ],
   "note": "Exact outcome for every reply; reqwest follows redirects and reads the body, which is not modelled."
  },
  {
   "property": "C162",
   "status": "partial",
   "theorems": [
    "Verif.Sse.C162_stream_partial",
    "Verif.Sse.C162_no_comments"
   ],
   "note": "Exact for every chain of calls without carriage returns. Refuted for comments (C162_no_comments)."
  },
  {
   "property": "C163",
   "status": "proved",
   "theorems": [
    "Verif.Logging.C163_own_context",
    "Verif.Logging.C163_spawned",
    "Verif.Logging.C163_nothing_left"
   ],
   "note": "For all programs of tasks, threads and schedules."
  },
  {
   "property": "C164",
   "status": "partial",
   "theorems": [
    "Verif.Logging.C164_lost",
    "Verif.Logging.C164_handed_over_partial"
   ],
   "note": "Refuted (C164_lost) for tasks spawned inside run; holds for tasks spawned under the context itself."
  },
  {
   "property": "C165",
   "status": "partial",
   "theorems": [
    "Verif.Logging.C165_ids",
    "Verif.Logging.C165_fields",
    "Verif.Logging.C165_error",
    "Verif.Logging.C165_severity_partial",
    "Verif.Logging.C165_critical_dropped"
   ],
   "note": "Content exact; severities exact (C165_severity_partial); refuted for the level names of the protocol other than debug, info and error (C165_critical_dropped)."
  },
  {
   "property": "C166",
   "status": "partial",
   "theorems": [
    "Verif.Logging.C166_level",
    "Verif.Logging.C166_level_exact",
    "Verif.Logging.C166_never_json",
    "Verif.Logging.C166_ignored",
    "Verif.Logging.C166_twice",
    "Verif.Logging.C166_once_partial",
    "Verif.Logging.C166_levels",
    "Verif.Logging.C166_ansi"
   ],
   "note": "Level filter and location exact; refuted for format, timestamps, custom fields, correlation ids and the second call."
  },
  {
   "property": "C167",
   "status": "partial",
   "theorems": [
    "Verif.Logging.C167_fields",
    "Verif.Logging.C167_current",
    "Verif.Logging.C167_scope_partial",
    "Verif.Logging.C167_scope_lost"
   ],
   "note": "Exact: the ids are printed iff the configured level lets information through."
  },
  {
   "property": "C168",
   "status": "partial",
   "theorems": [
    "Verif.Runtime.C168_fifo",
    "Verif.Runtime.C168_unbounded",
    "Verif.Runtime.C168_recv_partial",
    "Verif.Runtime.C168_loop_partial",
    "Verif.Runtime.C168_loop_ends",
    "Verif.Runtime.C168_waker"
   ],
   "note": "Order and exactly-once hold for all histories; refuted for the buffer size and for waiting receivers."
  },
  {
   "property": "C169",
   "status": "partial",
   "theorems": [
    "Verif.Runtime.C169_sleep_partial",
    "Verif.Runtime.C169_not_longer",
    "Verif.Runtime.C169_no_wait",
    "Verif.Runtime.C169_millis"
   ],
   "note": "Exact set of durations slept in full."
  },
  {
   "property": "C170",
   "status": "proved",
   "theorems": [
    "Verif.Runtime.C170_once"
   ],
   "note": "For every function and number of polls."
  },
  {
   "property": "C171",
   "status": "partial",
   "theorems": [
    "Verif.Watcher.C171_built",
    "Verif.Watcher.C171_reported_partial",
    "Verif.Watcher.C171_pattern_ignored"
   ],
   "note": "Builder exact; the patterns given never narrow the paths reported (C171_reported_partial, C171_pattern_ignored)."
  },
  {
   "property": "C172",
   "status": "partial",
   "theorems": [
    "Verif.Transports.Limits.C172_built",
    "Verif.Transports.Limits.C172_taken",
    "Verif.Transports.Limits.C172_limits_partial",
    "Verif.Transports.Limits.C172_ignored"
   ],
   "note": "Exact: the configuration is honoured iff it equals the library's defaults (C172_limits_partial)."
  },
  {
   "property": "C173",
   "status": "partial",
   "theorems": [
    "Verif.Session.C173_removed_partial",
    "Verif.Session.C173_zero",
    "Verif.Session.C173_runs"
   ],
   "note": "Holds for every interval but zero (C173_runs), for which the task panics."
  },
  {
   "property": "C174",
   "status": "proved",
   "theorems": [
    "Verif.UriTemplate.C174_round_trip",
    "Verif.UriTemplate.C174_read",
    "Verif.UriTemplate.C174_equal",
    "Verif.UriTemplate.C174_canonical"
   ],
   "note": "Round trip, exact set of values read, equality."
  },
  {
   "property": "C175",
   "status": "partial",
   "theorems": [
    "Verif.OAuth.C175_endpoints",
    "Verif.OAuth.C175_scopes",
    "Verif.OAuth.C175_challenges",
    "Verif.OAuth.C175_grants",
    "Verif.OAuth.C175_response_types_partial",
    "Verif.OAuth.C175_implicit",
    "Verif.OAuth.C175_no_secret",
    "Verif.OAuth.C175_offered"
   ],
   "note": "Endpoints, scopes, challenge methods and grant types exact; refuted for response types and client authentication."
  },
  {
   "property": "C176",
   "status": "partial",
   "theorems": [
    "Verif.Roots.C176_registered",
    "Verif.Roots.C176_unregistered_partial",
    "Verif.Roots.C176_late_sender",
    "Verif.Roots.C176_server_silent",
    "Verif.Roots.C176_run"
   ],
   "note": "Exact sender told for all histories; refuted for senders set after the registration and for every server."
  },
  {
   "property": "C177",
   "status": "partial",
   "theorems": [
    "Verif.Macros.C177_distinct_partial",
    "Verif.Macros.C177_same",
    "Verif.Macros.C177_back",
    "Verif.Macros.C177_wrapper"
   ],
   "note": "Plain names (words of letters and digits, single underscores) get distinct handlers; exact round trip; refuted for other names (C177_same)."
  },
  {
   "property": "C178",
   "status": "partial",
   "theorems": [
    "Verif.Macros.C178_called_partial",
    "Verif.Macros.C178_refused",
    "Verif.Macros.C178_ignored",
    "Verif.Macros.C178_hidden",
    "Verif.Macros.C178_raw"
   ],
   "note": "Exact values and refusals unless a parameter before the last is called args; refuted: C178_ignored, C178_hidden, C178_raw."
  },
  {
   "property": "C179",
   "status": "partial",
   "theorems": [
    "Verif.Macros.C179_schema_partial",
    "Verif.Macros.C179_refused"
   ],
   "note": "Exact: {} meets every schema and is accepted iff no parameter is required."
  },
  {
   "property": "C180",
   "status": "partial",
   "theorems": [
    "Verif.Macros.C180_errors_partial",
    "Verif.Macros.C180_alias",
    "Verif.Macros.C180_handle",
    "Verif.Macros.C180_alias_ok"
   ],
   "note": "Exact: errors are answered as errors iff the return type is written with the name Result."
  },
  {
   "property": "C181",
   "status": "partial",
   "theorems": [
    "Verif.Macros.C181_description_partial",
    "Verif.Macros.C181_name_first",
    "Verif.Macros.C181_name_last",
    "Verif.Macros.C181_no_name",
    "Verif.Macros.C181_wrong"
   ],
   "note": "Exact: the description is right iff it has no escapes; both orders of name and description exact; refuted for the rest (C181_wrong)."
  },
  {
   "property": "C182",
   "status": "partial",
   "theorems": [
    "Verif.Macros.C182_routed",
    "Verif.Macros.C182_each_partial",
    "Verif.Macros.C182_hidden",
    "Verif.Macros.C182_visibility"
   ],
   "note": "Refusals exact; every method callable if names are distinct; refuted otherwise (C182_hidden)."
  },
  {
   "property": "C183",
   "status": "partial",
   "theorems": [
    "Verif.Conform.C183_client_requests_partial"
   ],
   "note": "Exact set of valid requests; the schema is transcribed by hand in Conform/Schema.lean."
  },
  {
   "property": "C184",
   "status": "partial",
   "theorems": [
    "Verif.Conform.C184_server_requests_partial",
    "Verif.Conform.C184_no_limit",
    "Verif.Conform.C184_context"
   ],
   "note": "Exact set; refuted for elicitation, context and sampling without a limit."
  },
  {
   "property": "C185",
   "status": "partial",
   "theorems": [
    "Verif.Conform.C185_client_notifications_partial",
    "Verif.Conform.C185_server_notifications_partial",
    "Verif.Conform.C185_shared_notifications_partial"
   ],
   "note": "Exact set for each side."
  },
  {
   "property": "C186",
   "status": "partial",
   "theorems": [
    "Verif.Conform.C186_http_requests",
    "Verif.Conform.C186_http_notifications",
    "Verif.Conform.C186_http_responses_partial"
   ],
   "note": "Refuted for every request and notification; responses exact."
  },
  {
   "property": "C187",
   "status": "partial",
   "theorems": [
    "Verif.Conform.C187_results_partial"
   ],
   "note": "Exact set per result type; refuted for every sampling result."
  },
  {
   "property": "C188",
   "status": "partial",
   "theorems": [
    "Verif.Conform.C188_answers_partial",
    "Verif.Conform.C188_tools",
    "Verif.Conform.C188_complete"
   ],
   "note": "Exact for every server, state and request; refuted for tools/list with tools and for completion/complete."
  },
  {
   "property": "C189",
   "status": "partial",
   "theorems": [
    "Verif.Conform.C189_initialize_iff",
    "Verif.Conform.C189_models",
    "Verif.Conform.C189_requests_partial",
    "Verif.Conform.C189_bare_list",
    "Verif.Conform.C189_initialize_partial",
    "Verif.Conform.C189_meaning"
   ],
   "note": "Exact for every request, initialize included; id, method and meaningful members kept."
  },
  {
   "property": "C190",
   "status": "partial",
   "theorems": [
    "Verif.Conform.C190_requests_partial",
    "Verif.Conform.C190_elicitation",
    "Verif.Conform.C190_meaning"
   ],
   "note": "Exact set understood, and what is read of it is what was sent (C190_meaning); refuted for every elicitation (C190_elicitation)."
  },
  {
   "property": "C191",
   "status": "partial",
   "theorems": [
    "Verif.Conform.C191_notifications_partial",
    "Verif.Conform.C191_log",
    "Verif.Conform.C191_meaning"
   ],
   "note": "Exact set understood, for both sides, and what is read of it is what was sent (C191_meaning); refuted for log messages of the schema (C191_log)."
  },
  {
   "property": "C192",
   "status": "partial",
   "theorems": [
    "Verif.Conform.C192_responses_partial",
    "Verif.Conform.C192_errors_partial"
   ],
   "note": "Exact: ids fit 64 bits and codes 32; contents kept."
  },
  {
   "property": "C193",
   "status": "partial",
   "theorems": [
    "Verif.Conform.C193_initialize_iff",
    "Verif.Conform.C193_prompts_iff",
    "Verif.Conform.C193_completion",
    "Verif.Conform.C193_lists",
    "Verif.Conform.C193_prompts_partial",
    "Verif.Conform.C193_call_partial",
    "Verif.Conform.C193_audio",
    "Verif.Conform.C193_embedded",
    "Verif.Conform.C193_getPrompt_partial",
    "Verif.Conform.C193_read_partial",
    "Verif.Conform.C193_complete_partial",
    "Verif.Conform.C193_sample_partial",
    "Verif.Conform.C193_initialize_partial"
   ],
   "note": "Exact for tool results, prompts got, completions, samples, resources read, lists of prompts and initialize; lists of tools and resources always."
  },
  {
   "property": "C194",
   "status": "partial",
   "theorems": [
    "Verif.Conform.C194_requests",
    "Verif.Conform.C194_notifications_partial",
    "Verif.Conform.C194_responses"
   ],
   "note": "Refuted for every request; exact for notifications; responses as by the other transports."
  },
  {
   "property": "C195",
   "status": "partial",
   "theorems": [
    "Verif.Conform.C195_connect_partial",
    "Verif.Conform.C195_session_partial",
    "Verif.Conform.C195_refused_partial",
    "Verif.Conform.C195_read_refuted"
   ],
   "note": "Exact: requests sent iff announced, results returned iff usable, error codes kept iff outside the reserved server range; refuted for resources read."
  },
  {
   "property": "C196",
   "status": "proved",
   "theorems": [
    "Verif.Protocol.C196_await"
   ],
   "note": "Exact for all histories."
  },
  {
   "property": "C197",
   "status": "partial",
   "theorems": [
    "Verif.Session.Races.C197_expiry_partial",
    "Verif.Session.Races.C197_renewed_removed",
    "Verif.Session.Races.C197_balance_partial",
    "Verif.Session.Races.C197_reported_twice",
    "Verif.Session.Races.C197_uninterrupted"
   ],
   "note": "Expiry proved for all schedules for sessions no updater rewrites; callbacks counted exactly with revivals; refuted otherwise by schedules."
  },
  {
   "property": "C198",
   "status": "partial",
   "theorems": [
    "Verif.EventStore.C198_accepted_partial",
    "Verif.EventStore.C198_never_expires",
    "Verif.EventStore.C198_issued"
   ],
   "note": "Exact condition of acceptance, which has no expiry; refuted for every token (C198_never_expires)."
  },
  {
   "property": "C199",
   "status": "partial",
   "theorems": [
    "Verif.EventStore.C199_unique_partial",
    "Verif.EventStore.C199_order_partial",
    "Verif.EventStore.C199_out_of_order",
    "Verif.EventStore.C199_duplicate_after_token"
   ],
   "note": "Uniqueness for all schedules without resumption; order if recordings do not overlap; refuted otherwise."
  },
  {
   "property": "C200",
   "status": "partial",
   "theorems": [
    "Verif.Reconnect.Races.C200_any_number",
    "Verif.Reconnect.Races.C200_limit_reached",
    "Verif.Reconnect.Races.C200_one_partial",
    "Verif.Reconnect.Races.C200_two_attempts",
    "Verif.Reconnect.Races.C200_refused_connected",
    "Verif.Reconnect.Races.C200_limit_partial",
    "Verif.Reconnect.Races.C200_limit_exceeded"
   ],
   "note": "Proved for schedules in which an attempt follows its check at once; the limit up to the number of concurrent calls; refuted otherwise by schedules. C200_any_number, C200_limit_reached: the bound holds for any number of calls and is reached."
  },
  {
   "property": "C201",
   "status": "partial",
   "theorems": [
    "Verif.Client.C201_exact_partial",
    "Verif.Client.C201_agree_partial",
    "Verif.Client.C201_cloned_before"
   ],
   "note": "Exact lineage of every clone; agreement for clones made after initialization; refuted for earlier clones."
  },
  {
   "property": "C202",
   "status": "partial",
   "theorems": [
    "Verif.Client.C202_kept",
    "Verif.Client.C202_always_strict",
    "Verif.Client.C202_not_debounced",
    "Verif.Client.C202_introduces"
   ],
   "note": "The options are kept but the behaviour does not depend on them; refuted for all options."
  },
  {
   "property": "C203",
   "status": "partial",
   "theorems": [
    "Verif.HttpServer.Locks.C203_no_deadlock_partial",
    "Verif.HttpServer.Locks.C203_sessions",
    "Verif.HttpServer.Locks.C203_resume_deadlock",
    "Verif.HttpServer.Locks.C203_server_stuck",
    "Verif.HttpServer.Locks.C203_deadlock_iff"
   ],
   "note": "Proved for all mixes of requests in which none replays or none stores events, and for no others (C203_deadlock_iff): a schedule after which no request needing the server is answered."
  },
  {
   "property": "C204",
   "status": "proved",
   "theorems": [
    "Verif.Recovery.Locks.C204_no_deadlock"
   ],
   "note": "Proved for all mixes of calls and all schedules."
  },
  {
   "property": "C205",
   "status": "partial",
   "theorems": [
    "Verif.Recovery.Fine.C205_uninterrupted",
    "Verif.Recovery.Fine.C205_open_bypassed",
    "Verif.Recovery.Fine.C205_stays_open_partial",
    "Verif.Recovery.Fine.C205_opens",
    "Verif.Recovery.Fine.C205_counts_kept",
    "Verif.Recovery.Fine.C205_closed_allows"
   ],
   "note": "Threshold and refusal proved for all schedules once the time is written; refuted for the moment between the two writes."
  },
  {
   "property": "C206",
   "status": "partial",
   "theorems": [
    "Verif.NotifDebounce.Blocking.C206_plain_consumer_partial",
    "Verif.NotifDebounce.Blocking.C206_calling_consumer_partial",
    "Verif.NotifDebounce.Blocking.C206_flush_never_returns"
   ],
   "note": "Proved if the receiver only receives; with a receiver that calls back, exact condition for the deadlock."
  },
  {
   "property": "C207",
   "status": "partial",
   "theorems": [
    "Verif.Wire.C207_requests",
    "Verif.Wire.C207_responses",
    "Verif.Wire.C207_understood_partial",
    "Verif.Wire.C207_broken_refused",
    "Verif.Wire.C207_notification_refused",
    "Verif.Wire.C207_array_single",
    "Verif.Wire.C207_shape"
   ],
   "note": "Round trip for all batches; exact set of arrays of objects understood; refuted for batches with a notification or a broken member."
  },
  {
   "property": "C208",
   "status": "partial",
   "theorems": [
    "Verif.Wire.C208_round_trip_partial",
    "Verif.Wire.C208_constructed",
    "Verif.Wire.C208_param_wins",
    "Verif.Wire.C208_oauth2_name",
    "Verif.Wire.C208_header",
    "Verif.Wire.C208_required",
    "Verif.Wire.C208_made",
    "Verif.Wire.C208_oauth_array"
   ],
   "note": "Exact condition of the round trip; refuted for parameters named like a field."
  },
  {
   "property": "C209",
   "status": "partial",
   "theorems": [
    "Verif.Client.C209_succeeds",
    "Verif.Client.C209_fails",
    "Verif.Client.C209_no_effect",
    "Verif.Client.C209_any_token"
   ],
   "note": "Exact result of the call; refuted for all programs: leaving the call out changes nothing."
  },
  {
   "property": "C210",
   "status": "partial",
   "theorems": [
    "Verif.Client.C210_refines",
    "Verif.Client.C210_nothing_written",
    "Verif.Client.C210_cancelled_too_late",
    "Verif.Client.C210_wait_for_each_other",
    "Verif.Client.C210_goes_on_partial",
    "Verif.Client.C210_bounded",
    "Verif.Client.C210_notes",
    "Verif.Client.C210_notes_failing"
   ],
   "note": "Refuted for all schedules while a call waits; exact condition under which the client stands still; bounded number of steps otherwise."
  },
  {
   "property": "C211",
   "status": "partial",
   "theorems": [
    "Verif.Dynamic.C211_built",
    "Verif.Dynamic.C211_reloaded_partial",
    "Verif.Dynamic.C211_handler_stays",
    "Verif.Dynamic.C211_gap",
    "Verif.Dynamic.C211_mixed",
    "Verif.Dynamic.C211_only_new"
   ],
   "note": "Tools and prompts exactly those of the new configuration; the handlers for resources and sampling stay when it has none; gap and mixture while reloading."
  },
  {
   "property": "C212",
   "status": "partial",
   "theorems": [
    "Verif.Batcher.C212_age_partial",
    "Verif.Batcher.C212_zero",
    "Verif.Batcher.C212_blocked",
    "Verif.Batcher.C212_ends_iff",
    "Verif.Batcher.C212_same",
    "Verif.Batcher.C212_rounds"
   ],
   "note": "Bound for every timed execution while the timer is not blocked; refuted for wait time zero and for a full channel; exact condition under which the timer task of a dropped batcher ends."
  },
  {
   "property": "C213",
   "status": "partial",
   "theorems": [
    "Verif.Debouncer.C213_not_late",
    "Verif.Debouncer.C213_on_time_partial",
    "Verif.Debouncer.C213_early_boundary",
    "Verif.Debouncer.C213_early_overlap",
    "Verif.Debouncer.C213_blocked"
   ],
   "note": "Never late in any timed execution; exactly on time if every add begins when nothing else happens with its key; two refutations otherwise."
  },
  {
   "property": "C214",
   "status": "partial",
   "theorems": [
    "Verif.NotifDebounce.Life.C214_stopped_partial",
    "Verif.NotifDebounce.Life.C214_no_duplicates_partial",
    "Verif.NotifDebounce.Life.C214_exactly_once_partial",
    "Verif.NotifDebounce.Life.C214_final_flush",
    "Verif.NotifDebounce.Life.C214_stop_returns_first",
    "Verif.NotifDebounce.Life.C214_restart",
    "Verif.NotifDebounce.Life.C214_second_start",
    "Verif.NotifDebounce.Life.C214_silent"
   ],
   "note": "Exactly once and silence after the end for one start without flush; refuted for a second start, a restart and submissions after stop."
  },
  {
   "property": "C215",
   "status": "partial",
   "theorems": [
    "Verif.Wire.C215_argument_partial",
    "Verif.Wire.C215_item_partial",
    "Verif.Wire.C215_response_partial",
    "Verif.Wire.C215_request",
    "Verif.Wire.C215_metadata_wins",
    "Verif.Wire.C215_built",
    "Verif.Wire.C215_builder",
    "Verif.Wire.C215_defaults",
    "Verif.Wire.C215_arrays"
   ],
   "note": "Exact condition of each round trip; refuted for additional data named like a field; builder exact."
  },
  {
   "property": "C216",
   "status": "partial",
   "theorems": [
    "Verif.HttpServer.C216_doubles",
    "Verif.HttpServer.C216_never_removed",
    "Verif.HttpServer.C216_bounded_partial",
    "Verif.HttpServer.C216_bound"
   ],
   "note": "Bound of two events per handled request for all histories without Last-Event-ID; refuted otherwise: the store doubles with every GET. A bound for every history: C216_bound."
  },
  {
   "property": "C217",
   "status": "partial",
   "theorems": [
    "Verif.HttpServer.C217_answered_partial",
    "Verif.HttpServer.C217_bad_id",
    "Verif.HttpServer.C217_sent_back",
    "Verif.HttpServer.C217_usable_iff",
    "Verif.HttpServer.C217_uuid",
    "Verif.HttpServer.C217_versions",
    "Verif.HttpServer.C217_header_chars",
    "Verif.HttpServer.C217_usable_chars",
    "Verif.HttpServer.C217_stream_answered"
   ],
   "note": "No panic for all histories if generated ids are header values; exact condition for an id to be sent and to come back; default generator proved fine."
  },
  {
   "property": "C218",
   "status": "partial",
   "theorems": [
    "Verif.OAuth.C218_refresh_iff",
    "Verif.OAuth.C218_revoked_together",
    "Verif.OAuth.C218_expired_kept",
    "Verif.OAuth.C218_expired_witness",
    "Verif.OAuth.C218_refresh_kept",
    "Verif.OAuth.C218_code_kept"
   ],
   "note": "First half exact for all schedules with distinct tokens; second half refuted: dead entries stay until a call names them."
  },
  {
   "property": "C219",
   "status": "partial",
   "theorems": [
    "Verif.HttpPair.C219_lost_session",
    "Verif.HttpPair.C219_stream_silent",
    "Verif.HttpPair.C219_stream_opens",
    "Verif.HttpPair.C219_closed_lost",
    "Verif.HttpPair.C219_stream_ends_partial",
    "Verif.HttpPair.C219_second_stream",
    "Verif.HttpPair.C219_close",
    "Verif.HttpPair.C219_begin_again_partial",
    "Verif.HttpPair.C219_others_go_on",
    "Verif.HttpPair.C219_headers_pass",
    "Verif.HttpPair.C219_served_partial"
   ],
   "note": "Served part for all schedules without a stream, nobody else using the session; the rest refuted: lost sessions, and streams (read only at their end) are proved silent."
  },
  {
   "property": "C220",
   "status": "partial",
   "theorems": [
    "Verif.Watcher.Again.C220_due",
    "Verif.Watcher.Again.C220_processors_stay",
    "Verif.Watcher.Again.C220_restart_loses",
    "Verif.Watcher.Again.C220_reported_partial",
    "Verif.Watcher.Again.C220_once_step",
    "Verif.Watcher.Again.C220_once",
    "Verif.Watcher.Again.C220_one_at_a_time",
    "Verif.Watcher.Again.C220_forwarders_end"
   ],
   "note": "Each change is reported once, exactly when due, by one processor; refuted: starting again loses what no processor has taken, and processors never end."
  },
  {
   "property": "C221",
   "status": "partial",
   "theorems": [
    "Verif.Watcher.Blocking.C221_in_order",
    "Verif.Watcher.Blocking.C221_tracked",
    "Verif.Watcher.Blocking.C221_readers",
    "Verif.Watcher.Blocking.C221_full_channel",
    "Verif.Watcher.Blocking.C221_receiver_calls",
    "Verif.Watcher.Blocking.C221_one_notification_partial",
    "Verif.Watcher.Blocking.C221_returns_partial"
   ],
   "note": "Order of effect, tracked at the moment of sending and a bound of one notification hold; refuted: a full channel stops all calls, for ever if the receiver makes one."
  },
  {
   "property": "C222",
   "status": "partial",
   "theorems": [
    "Verif.Errors.C222_same_strategy",
    "Verif.Errors.C222_meets_partial",
    "Verif.Errors.C222_added_partial",
    "Verif.Errors.C222_timeouts_not_heard",
    "Verif.Errors.C222_received_partial",
    "Verif.Errors.C222_from_tools",
    "Verif.Errors.C222_default_retries",
    "Verif.Errors.C222_standard"
   ],
   "note": "Exact conditions for local and received errors; refuted: time-outs, missing capabilities and failed authentication, codes of the server range, and all errors of tools meet the strategy of internal errors."
  },
  {
   "property": "C223",
   "status": "partial",
   "theorems": [
    "Verif.Errors.C223_kinds_partial",
    "Verif.Errors.C223_codes",
    "Verif.Errors.C223_doubled",
    "Verif.Errors.C223_timeout_text",
    "Verif.Errors.C223_round_trip_partial",
    "Verif.Errors.C223_hops",
    "Verif.Errors.C223_fallback",
    "Verif.Errors.C223_fallback_never_same",
    "Verif.Errors.C223_words",
    "Verif.Errors.C223_text_tells_partial",
    "Verif.Errors.C223_other_says_anything",
    "Verif.Errors.C223_transport_tells",
    "Verif.Errors.C223_made_texts"
   ],
   "note": "Exact conditions; refuted: Error::cancelled, hops through servers and fallbacks change kind, code, data or text."
  },
  {
   "property": "C224",
   "status": "partial",
   "theorems": [
    "Verif.Recovery.C224_history",
    "Verif.Recovery.C224_closes_partial",
    "Verif.Recovery.C224_other_errors",
    "Verif.Recovery.C224_always_failing",
    "Verif.Recovery.C224_one_success_closes"
   ],
   "note": "Every breaker is the one of its own operation's history; refuted: one success closes an open breaker, and an open breaker does not keep the operation from being called."
  },
  {
   "property": "C225",
   "status": "partial",
   "theorems": [
    "Verif.Batch.Stateful.C225_one_lock_partial",
    "Verif.Batch.Stateful.C225_counter",
    "Verif.Batch.Stateful.C225_limit",
    "Verif.Batch.Stateful.C225_one_at_a_time_partial",
    "Verif.Batch.Stateful.C225_lost_update",
    "Verif.Batch.Stateful.C225_half_done"
   ],
   "note": "Proved for handlers that take the lock once (any limit and time-outs) and for any handlers with a limit of one and no time-out; refuted otherwise by a lost update and by a request timed out half way."
  },
  {
   "property": "C226",
   "status": "partial",
   "theorems": [
    "Verif.Batch.Stateful.C226_ignored",
    "Verif.Batch.Stateful.C226_all_handled"
   ],
   "note": "Refuted: fail_fast is never read; every request of a batch is handled."
  },
  {
   "property": "C227",
   "status": "partial",
   "theorems": [
    "Verif.Server.C227_forgotten",
    "Verif.Server.C227_levels_do_nothing",
    "Verif.Server.C227_no_log_messages"
   ],
   "note": "Refuted: the level is accepted and forgotten, and log messages of no level reach the client."
  },
  {
   "property": "C228",
   "status": "partial",
   "theorems": [
    "Verif.Server.C228_in_turn",
    "Verif.Server.C228_at_rest",
    "Verif.Server.C228_notifications_do_nothing",
    "Verif.Server.C228_same_session",
    "Verif.Server.C228_unread"
   ],
   "note": "The order and content of the answers are proved for every schedule; that a cancellation stops its request is refuted: notifications of the client change no answer and no state."
  },
  {
   "property": "C229",
   "status": "partial",
   "theorems": [
    "Verif.Server.C229_never_returns",
    "Verif.Server.C229_sleeps_on"
   ],
   "note": "Refuted: run never returns, whatever has become of its tasks."
  },
  {
   "property": "C230",
   "status": "partial",
   "theorems": [
    "Verif.Wire.C230_version_needed",
    "Verif.Wire.C230_any_version",
    "Verif.Wire.C230_refused_partial",
    "Verif.Wire.C230_validate_unused",
    "Verif.Wire.C230_http_ignored"
   ],
   "note": "Refuted: the version is not looked at; the exact condition is that of the same message with version 2.0."
  },
  {
   "property": "C231",
   "status": "partial",
   "theorems": [
    "Verif.NotifDebounce.C231_at_most",
    "Verif.NotifDebounce.C231_never_full",
    "Verif.NotifDebounce.C231_kept_iff_partial",
    "Verif.NotifDebounce.C231_early"
   ],
   "note": "The upper bound is proved; that a batch is kept its time holds exactly if no earlier timeout task of its key is left."
  },
  {
   "property": "C232",
   "status": "partial",
   "theorems": [
    "Verif.Elicit.C232_in_time_partial",
    "Verif.Elicit.C232_after_send",
    "Verif.Elicit.C232_stuck",
    "Verif.Elicit.C232_channel",
    "Verif.Elicit.C232_closed",
    "Verif.Elicit.C232_closed_refused",
    "Verif.Elicit.C232_any_time"
   ],
   "note": "Proved from the moment the request is in the channel; refuted while the channel is full: nothing bounds the send."
  },
  {
   "property": "C233",
   "status": "partial",
   "theorems": [
    "Verif.Pipe.C233_stuck_iff",
    "Verif.Pipe.C233_bounded",
    "Verif.Pipe.C233_one_partial",
    "Verif.Pipe.C233_few_partial",
    "Verif.Pipe.C233_for_ever",
    "Verif.Pipe.C233_two_calls",
    "Verif.Pipe.C233_given_up",
    "Verif.Pipe.C233_may_give_up"
   ],
   "note": "Proved for one call at a time, and for several if the pipe has room for all responses but one; refuted beyond: both sides write into full pipes for ever."
  },
  {
   "property": "C234",
   "status": "partial",
   "theorems": [
    "Verif.Stdio.C234_cut_header",
    "Verif.Stdio.C234_cut_blank_partial",
    "Verif.Stdio.C234_cut_body",
    "Verif.Stdio.C234_harmless_partial",
    "Verif.Stdio.C234_never_again",
    "Verif.Stdio.C234_aligned",
    "Verif.Stdio.C234_server_iff"
   ],
   "note": "Proved for cuts at which nothing is written or the blank line is incomplete; refuted for all others, with the exact condition under which later messages are still received."
  },
  {
   "property": "C235",
   "status": "partial",
   "theorems": [
    "Verif.Transports.Timed.C235_head_partial",
    "Verif.Transports.Timed.C235_total_partial",
    "Verif.Transports.Timed.C235_body_waits",
    "Verif.Transports.Timed.C235_no_limit",
    "Verif.Transports.Timed.C235_in_time_iff",
    "Verif.Transports.Timed.C235_reported"
   ],
   "note": "Proved for the head of an answer over HTTP; refuted for its body, event streams and WebSocket."
  },
  {
   "property": "C236",
   "status": "proved",
   "theorems": [
    "Verif.Pipe.C236_own",
    "Verif.Pipe.C236_ends",
    "Verif.Pipe.C236_stops"
   ],
   "note": ""
  },
  {
   "property": "C237",
   "status": "partial",
   "theorems": [
    "Verif.HttpServer.C237_told_partial",
    "Verif.HttpServer.C237_whose",
    "Verif.HttpServer.C237_kept",
    "Verif.HttpServer.C237_abandoned",
    "Verif.HttpServer.C237_unbounded",
    "Verif.HttpServer.C237_answered",
    "Verif.HttpServer.C237_stream",
    "Verif.HttpServer.C237_no_store"
   ],
   "note": "Proved as long as no client goes away before its answer; refuted otherwise: the session of an abandoned initialization stays for ever and nobody knows its id."
  },
  {
   "property": "C238",
   "status": "partial",
   "theorems": [
    "Verif.Sse.C238_kept",
    "Verif.Sse.C238_between",
    "Verif.Sse.C238_line_unbounded",
    "Verif.Sse.C238_event_unbounded"
   ],
   "note": "Proved: what is kept is the unfinished line and event; refuted: the configured maximum is not applied."
  },
  {
   "property": "C239",
   "status": "partial",
   "theorems": [
    "Verif.Conform.C239_exact",
    "Verif.Conform.C239_served_partial",
    "Verif.Conform.C239_bare_list"
   ],
   "note": "Proved with the exact set of answered requests; refuted for valid messages the crate does not read, list requests without params among them."
  },
  {
   "property": "C240",
   "status": "partial",
   "theorems": [
    "Verif.HttpPair.C240_client",
    "Verif.HttpPair.C240_apart_partial",
    "Verif.HttpPair.C240_same",
    "Verif.HttpPair.C240_stream",
    "Verif.HttpPair.C240_no_message",
    "Verif.HttpServer.C240_post",
    "Verif.HttpServer.C240_get",
    "Verif.HttpServer.C240_check",
    "Verif.HttpServer.C240_delete",
    "Verif.HttpServer.C240_told",
    "Verif.HttpServer.C240_iff",
    "Verif.HttpServer.C240_sent_but_required",
    "Verif.HttpServer.C240_required_partial",
    "Verif.HttpServer.C240_message"
   ],
   "note": "Proved on the wire: the reason told is so, and a request is refused exactly if one is; refuted for callers of the crate's client, who get the status only."
  },
  {
   "property": "C241",
   "status": "partial",
   "theorems": [
    "Verif.Stdio.C241_split",
    "Verif.Stdio.C241_cause",
    "Verif.Stdio.C241_missing_iff",
    "Verif.Stdio.C241_missing_but_there",
    "Verif.Stdio.C241_missing_partial",
    "Verif.Stdio.C241_two_ends"
   ],
   "note": "Proved: the outcome of a receive for every input, exactly; refuted: a length header that cannot be read is said to be missing, and the end of the input is told in two ways."
  },
  {
   "property": "C242",
   "status": "partial",
   "theorems": [
    "Verif.WsPair.C242_nothing_arrives",
    "Verif.WsPair.C242_ok_iff",
    "Verif.WsPair.C242_down_partial",
    "Verif.WsPair.C242_delivered",
    "Verif.WsPair.C242_one_partial",
    "Verif.WsPair.C242_silent",
    "Verif.WsPair.C242_after_close"
   ],
   "note": "Proved from the server to the client, exactly, with delivery while the connection lives; refuted from the client to the server: nothing is ever written, so no request is ever answered."
  },
  {
   "property": "C243",
   "status": "partial",
   "theorems": [
    "Verif.Sse.C243_ascii_partial",
    "Verif.Sse.C243_kept",
    "Verif.Sse.C243_lines_iff",
    "Verif.Sse.C243_at_once",
    "Verif.Sse.C243_cr_in_data"
   ],
   "note": "Proved for ASCII text; refuted otherwise: a line that is not pure ASCII keeps its carriage return, with the exact condition for events fed at once and for streams fed by characters."
  },
  {
   "property": "C244",
   "status": "partial",
   "theorems": [
    "Verif.Subscriptions.C244_announced",
    "Verif.Subscriptions.C244_silent",
    "Verif.Subscriptions.C244_after_unsubscribe",
    "Verif.Subscriptions.C244_exclusive_partial"
   ],
   "note": "Refuted for the manager: the decision is made when the subscribers are counted (exact theorem), so an update can be announced after the last unsubscribe has returned; proved when nothing comes in between, as under the lock the server holds."
  },
  {
   "property": "C245",
   "status": "partial",
   "theorems": [
    "Verif.Cancellation.C245_sequential",
    "Verif.Cancellation.C245_cancelled_iff",
    "Verif.Cancellation.C245_returned_too_early",
    "Verif.Cancellation.C245_next_of_that_name",
    "Verif.Cancellation.C245_told_once"
   ],
   "note": "Refuted: a second call returns while the first has taken the token and not cancelled it; exactly then the token is not cancelled. Told once per token found, possibly under an id that has been given to a new request."
  },
  {
   "property": "C246",
   "status": "partial",
   "theorems": [
    "Verif.Roots.C246_as_if_atomic",
    "Verif.Roots.C246_listed_iff",
    "Verif.Roots.C246_still_listed",
    "Verif.Roots.C246_listener",
    "Verif.Roots.C246_one_each"
   ],
   "note": "Refuted: the root is listed until the spawned task runs, exactly. Proved: one notification per change, listeners end up with the list as it is."
  },
  {
   "property": "C247",
   "status": "partial",
   "theorems": [
    "Verif.Session.Locks.C247_complete_partial",
    "Verif.Session.Locks.C247_callbacks_partial",
    "Verif.Session.Locks.C247_alone_iff",
    "Verif.Session.Locks.C247_updater_stuck",
    "Verif.Session.Locks.C247_crossed",
    "Verif.Session.Locks.C247_for_ever"
   ],
   "note": "Refuted for updaters, exactly for a task alone (C247_alone_iff); proved for callbacks, and for updaters that use later shards only. Locks of DashMap as documented."
  },
  {
   "property": "C248",
   "status": "partial",
   "theorems": [
    "Verif.Completion.C248_confined_partial",
    "Verif.Completion.C248_iff",
    "Verif.Completion.C248_parent",
    "Verif.Completion.C248_absolute"
   ],
   "note": "Refuted: '../' and absolute texts leave the base directory. Exactly the texts that are confined for every base directory: C248_iff. Places are found from the text of a path; links in the file system are not modelled."
  },
  {
   "property": "C249",
   "status": "partial",
   "theorems": [
    "Verif.Wire.C249_requests_partial",
    "Verif.Wire.C249_notifications_partial",
    "Verif.Wire.C249_http_partial",
    "Verif.Wire.C249_all_given",
    "Verif.Wire.C249_refused",
    "Verif.Wire.C249_cursor",
    "Verif.Wire.C249_nested_partial",
    "Verif.Wire.C249_kinds_partial",
    "Verif.Wire.C249_results_partial",
    "Verif.Wire.C249_envelopes_partial"
   ],
   "note": "Exact for every method and array: understood as by name iff the method is one of the thirteen (four for notifications) and all parameters without #[serde(default)] are given. Refuted for the rest (C249_refused, C249_cursor). How serde's derived readers treat arrays is part of the trusted base."
  },
  {
   "property": "C250",
   "status": "partial",
   "theorems": [
    "Verif.Client.C250_resources_same",
    "Verif.Client.C250_resources_follow",
    "Verif.Client.C250_resources",
    "Verif.Client.C250_tools",
    "Verif.Client.C250_prompts",
    "Verif.Client.C250_any_cursor",
    "Verif.Client.C250_templates",
    "Verif.Client.C250_not_advertised"
   ],
   "note": "Proved for resources (any handler, any pages), tools and prompts of servers that advertise them. Refuted for resource templates, which no server can list (C250_templates), for cursors never given out (C250_any_cursor) and for servers that do not advertise (C250_not_advertised)."
  },
  {
   "property": "C251",
   "status": "partial",
   "theorems": [
    "Verif.Client.C251_never_answers",
    "Verif.Client.C251_taken_for_answer",
    "Verif.Client.C251_announced"
   ],
   "note": "Refuted for every program: the client never writes a response (C251_never_answers), and a request of the server makes the call that receives it fail (C251_taken_for_answer)."
  },
  {
   "property": "C252",
   "status": "partial",
   "theorems": [
    "Verif.Client.C252_methods",
    "Verif.Client.C252_provides",
    "Verif.Client.C252_known",
    "Verif.Client.C252_client",
    "Verif.Client.C252_subscribe"
   ],
   "note": "Exact for every request and every ready-made set (C252_methods), for servers built with it (C252_known). Refuted for the subscriptions resources_only announces (C252_subscribe)."
  },
  {
   "property": "C253",
   "status": "partial",
   "theorems": [
    "Verif.Wire.C253_distinct",
    "Verif.Wire.C253_overridden",
    "Verif.Wire.C253_http_refuses",
    "Verif.Wire.C253_response_partial",
    "Verif.Wire.C253_results_differ",
    "Verif.Wire.C253_first_name",
    "Verif.Wire.C253_method_twice",
    "Verif.Wire.C253_http_others"
   ],
   "note": "Exact for responses without a method (C253_response_partial); stdio and WebSocket take the last value (C253_overridden), streamable HTTP refuses repeated fields (C253_http_refuses). Refuted for all pairs of results (C253_results_differ). Members repeated inside values are not modelled."
  },
  {
   "property": "C254",
   "status": "partial",
   "theorems": [
    "Verif.Wire.C254_level_partial",
    "Verif.Wire.C254_level_same",
    "Verif.Wire.C254_values_partial",
    "Verif.Wire.C254_open_partial",
    "Verif.Wire.C254_reference",
    "Verif.Wire.C254_method",
    "Verif.Wire.C254_http_notification",
    "Verif.Wire.C254_http_request",
    "Verif.Wire.C254_transports_differ"
   ],
   "note": "Exact sets of accepted values for levels, roles, included contexts, ways to authenticate, sources of completions and methods of PKCE; types of references are strings (C254_reference); stdio and WebSocket refuse every method that is no string (C254_method). Refuted: an object with the name and null is taken as the name (C254_level_same), for methods over streamable HTTP only (C254_http_notification, C254_http_request, C254_transports_differ)."
  },
  {
   "property": "C255",
   "status": "partial",
   "theorems": [
    "Verif.Wire.C255_id",
    "Verif.Wire.C255_id_partial",
    "Verif.Wire.C255_http",
    "Verif.Wire.C255_members",
    "Verif.Wire.C255_floats"
   ],
   "note": "Exact for the id of a request (C255_id_partial); holds for fields that are floats (C255_floats). Refuted for every field that is an integer, for all messages and numbers (C255_id, C255_http, C255_members). Rounding of large floats is not modelled."
  }
 ]
}