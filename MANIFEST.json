{
 "claims": [
  {
   "property": "C01",
   "status": "proved",
   "theorems": [
    "Tower.Built.contract",
    "Tower.C01_never_misuses_inner",
    "Tower.C01_background",
    "Tower.Demo.C01_closed_semaphore_violates",
    "Tower.C01_buffer",
    "Tower.C01_buffer_strict"
   ],
   "note": ""
  },
  {
   "property": "C02",
   "status": "proved",
   "theorems": [
    "Tower.C02_sticky",
    "Tower.Demo.C02_reconnect_violates",
    "Tower.Demo.C02_balance_violates",
    "Tower.C02_buffer"
   ],
   "note": ""
  },
  {
   "property": "C03",
   "status": "proved",
   "theorems": [
    "Tower.C03_clones",
    "Tower.Demo.C03_steer_clone_violates"
   ],
   "note": ""
  },
  {
   "property": "C04",
   "status": "proved",
   "theorems": [
    "Tower.C04_bound",
    "Tower.C04_no_permit_no_call",
    "Tower.C04_ready_has_permit"
   ],
   "note": ""
  },
  {
   "property": "C05",
   "status": "proved",
   "theorems": [
    "Tower.C05_conserved",
    "Tower.C05_all_dropped"
   ],
   "note": ""
  },
  {
   "property": "C06",
   "status": "proved",
   "theorems": [
    "Tower.C06_fifo",
    "Tower.C06_no_overtaking",
    "Tower.C06_work_conserving",
    "Tower.C06_same_acquire"
   ],
   "note": ""
  },
  {
   "property": "C07",
   "status": "proved",
   "theorems": [
    "Tower.C07_window",
    "Tower.C07_tight"
   ],
   "note": ""
  },
  {
   "property": "C08",
   "status": "proved",
   "theorems": [
    "Tower.C08_periods",
    "Tower.C08_refusal",
    "Tower.C08_refresh",
    "Tower.C08_available"
   ],
   "note": ""
  },
  {
   "property": "C09",
   "status": "proved",
   "theorems": [
    "Tower.C09_never_pending",
    "Tower.C09_error",
    "Tower.C09_forward",
    "Tower.C09_shed"
   ],
   "note": ""
  },
  {
   "property": "C10",
   "status": "proved",
   "theorems": [
    "Tower.C10_completes",
    "Tower.C10_pending",
    "Tower.C10_call",
    "Tower.C10_never_early"
   ],
   "note": ""
  },
  {
   "property": "C11",
   "status": "proved",
   "theorems": [
    "Tower.C11_run",
    "Tower.C11_run_complete",
    "Tower.C11_call",
    "Tower.C11_attempts"
   ],
   "note": ""
  },
  {
   "property": "C12",
   "status": "proved",
   "theorems": [
    "Tower.C12_uncloned",
    "Tower.C12_readiness",
    "Tower.C11_run_complete"
   ],
   "note": ""
  },
  {
   "property": "C13",
   "status": "proved",
   "theorems": [
    "Tower.C13_ledger",
    "Tower.C13_wraps"
   ],
   "note": ""
  },
  {
   "property": "C14",
   "status": "proved",
   "theorems": [
    "Tower.C14_lifetime",
    "Tower.Demo13.C14_forgets_early"
   ],
   "note": ""
  },
  {
   "property": "C15",
   "status": "proved",
   "theorems": [
    "Tower.C15_storm",
    "Tower.C15_ratio",
    "Tower.C15_retries",
    "Tower.C15_accepts",
    "Tower.C15_grants",
    "Tower.C15_tiny_percent",
    "Tower.Demo13.C15_half_is_all"
   ],
   "note": ""
  },
  {
   "property": "C16",
   "status": "proved",
   "theorems": [
    "Tower.C16_overdraft",
    "Tower.C16_answers",
    "Tower.C16_expire_alone",
    "Tower.C16_withdraw_alone",
    "Tower.C16_deposit_alone",
    "Tower.C16_conserved",
    "Tower.C16_recorded",
    "Tower.C16_ledger",
    "Tower.C16_balance",
    "Tower.C16_expiry_violates"
   ],
   "note": ""
  },
  {
   "property": "C17",
   "status": "proved",
   "theorems": [
    "Tower.C17_base",
    "Tower.C17_saturates",
    "Tower.C17_monotone",
    "Tower.C17_session",
    "Tower.C17_no_panic",
    "Tower.C17_jitter_at_most",
    "Tower.C17_whole_seconds",
    "Tower.C17_one_second_no_jitter",
    "Tower.C17_can_panic",
    "Tower.C17_units"
   ],
   "note": ""
  },
  {
   "property": "C18",
   "status": "proved",
   "theorems": [
    "Tower.C18_accepts_iff",
    "Tower.C18_stores",
    "Tower.C18_reports"
   ],
   "note": ""
  },
  {
   "property": "C19",
   "status": "proved",
   "theorems": [
    "Tower.C19_bound",
    "Tower.C19_conserved",
    "Tower.C19_backlog",
    "Tower.C19_available"
   ],
   "note": ""
  },
  {
   "property": "C20",
   "status": "proved",
   "theorems": [
    "Tower.C20_order",
    "Tower.C20_once",
    "Tower.C20_skip"
   ],
   "note": ""
  },
  {
   "property": "C21",
   "status": "proved",
   "theorems": [
    "Tower.C21_ok",
    "Tower.C21_err",
    "Tower.C21_unique",
    "Tower.C21_once"
   ],
   "note": ""
  },
  {
   "property": "C22",
   "status": "proved",
   "theorems": [
    "Tower.C22_no_more",
    "Tower.C22_unique",
    "Tower.C22_resolved",
    "Tower.C22_drains",
    "Tower.C22_handles",
    "Tower.C22_justified",
    "Tower.C22_expect",
    "Tower.C22_refused"
   ],
   "note": "handles which reserved a slot before the failure still report ready (they own the slot); what they send is answered with the error"
  },
  {
   "property": "C23",
   "status": "proved",
   "theorems": [
    "Tower.C23_cancel",
    "Tower.C23_parked",
    "Tower.C23_slots"
   ],
   "note": ""
  },
  {
   "property": "C24",
   "status": "proved",
   "theorems": [
    "Tower.C24_done",
    "Tower.C24_only",
    "Tower.C24_idle",
    "Tower.C24_poll_terminates",
    "Tower.C24_drains",
    "Tower.C24_all_dispatched"
   ],
   "note": ""
  },
  {
   "property": "C25",
   "status": "proved",
   "theorems": [
    "Tower.C25_resolved",
    "Tower.C25_handles",
    "Tower.C25_dies",
    "Tower.C25_hang_violates",
    "Tower.C25_hang_reachable"
   ],
   "note": "the property includes its exception; both are proved"
  },
  {
   "property": "C26",
   "status": "proved",
   "theorems": [
    "Tower.C26_keys",
    "Tower.C26_no_assert_fails",
    "Tower.C26_poll_returns",
    "Tower.C26_refines"
   ],
   "note": ""
  },
  {
   "property": "C27",
   "status": "proved",
   "theorems": [
    "Tower.C27_evict",
    "Tower.C27_never_again"
   ],
   "note": ""
  },
  {
   "property": "C28",
   "status": "proved",
   "theorems": [
    "Tower.C28_push",
    "Tower.C28_older_cancelled",
    "Tower.C28_only_newest",
    "Tower.C28_promotion",
    "Tower.C28_replaced_gone",
    "Tower.C28_old_ready_used_once"
   ],
   "note": "an older ready service outlives a newer one that fails (Demo)"
  },
  {
   "property": "C29",
   "status": "proved",
   "theorems": [
    "Tower.C29_call_index",
    "Tower.C29_call_key",
    "Tower.C29_check_index",
    "Tower.C29_absent",
    "Tower.C29_poll"
   ],
   "note": ""
  },
  {
   "property": "C30",
   "status": "proved",
   "theorems": [
    "Tower.C30_dispatch",
    "Tower.C30_no_panic",
    "Tower.C30_call_panics"
   ],
   "note": "Any discovery, endpoints, load function (with effects), random source and polling order."
  },
  {
   "property": "C31",
   "status": "proved",
   "theorems": [
    "Tower.C31_pending",
    "Tower.C31_pending_all_polled"
   ],
   "note": "The second theorem assumes that all waiting endpoints are polled; the first holds for any order of polls."
  },
  {
   "property": "C32",
   "status": "proved",
   "theorems": [
    "Tower.C32_dispatch",
    "Tower.C32_current",
    "Tower.C32_replaced",
    "Tower.C32_len",
    "Tower.C32_len_exact"
   ],
   "note": "len also counts cancelled futures until they are polled (C32_len); after a poll of all of them it is exact."
  },
  {
   "property": "C33",
   "status": "proved",
   "theorems": [
    "Tower.C33_p2c",
    "Tower.C33_not_the_most_loaded",
    "Tower.C33_ready",
    "Tower.C33_poll_draws",
    "Tower.C33_call_draws",
    "Tower.C33_history_draws",
    "Tower.BalanceDemo.C33_stale_index"
   ],
   "note": "C33_stale_index: eviction moves another endpoint to the index kept from an earlier poll_ready; it can be the most loaded one."
  },
  {
   "property": "C34",
   "status": "proved",
   "theorems": [
    "Tower.C34_only_discovery_fails",
    "Tower.C34_failed_dropped",
    "Tower.C34_returns",
    "Tower.C34_update_returns"
   ],
   "note": ""
  },
  {
   "property": "C35",
   "status": "proved",
   "theorems": [
    "Tower.C35_distinct",
    "Tower.C35_draws",
    "Tower.C35_bijection"
   ],
   "note": ""
  },
  {
   "property": "C36",
   "status": "proved",
   "theorems": [
    "Tower.C36_range",
    "Tower.C36_bias",
    "Tower.C36_f64",
    "Tower.C36_f64_zero",
    "Tower.C36_counter"
   ],
   "note": ""
  },
  {
   "property": "C37",
   "status": "proved",
   "theorems": [
    "Tower.C37_load",
    "Tower.C37_once",
    "Tower.C37_steps",
    "Tower.C37_no_panic",
    "Tower.C37_on_response"
   ],
   "note": ""
  },
  {
   "property": "C38",
   "status": "proved",
   "theorems": [
    "Tower.C38_bounds",
    "Tower.C38_load",
    "Tower.C38_end",
    "Tower.C38_decay",
    "Tower.C38_decay_to",
    "Tower.C38_reads",
    "Tower.C38_overflow"
   ],
   "note": "f64 is idealised as the reals. With 2^32-1 calls in flight reading the load panics (C38_overflow); C38_load assumes fewer."
  },
  {
   "property": "C39",
   "status": "proved",
   "theorems": [
    "Tower.C39_hedge_attempt",
    "Tower.C39_call",
    "Tower.C39_ready",
    "Tower.C39_at_most_two",
    "Tower.C39_when"
   ],
   "note": ""
  },
  {
   "property": "C40",
   "status": "proved",
   "theorems": [
    "Tower.C40_alone",
    "Tower.C40_race",
    "Tower.C40_latency",
    "Tower.C40_suppressed",
    "Tower.C40_suppressed_outcome",
    "Tower.Demo39.C40_unsent_hedge_fails_request"
   ],
   "note": ""
  },
  {
   "property": "C41",
   "status": "proved",
   "theorems": [
    "Tower.C41_window",
    "Tower.C41_mock",
    "Tower.C41_age",
    "Tower.C41_enough",
    "Tower.C41_millis",
    "Tower.C41_truncation_violates",
    "Tower.C41_zero_period_panics"
   ],
   "note": ""
  },
  {
   "property": "C42",
   "status": "proved",
   "theorems": [
    "Tower.C42_lifecycle"
   ],
   "note": ""
  },
  {
   "property": "C43",
   "status": "proved",
   "theorems": [
    "Tower.C43_at_most_once",
    "Tower.C43_exactly_once",
    "Tower.C43_report",
    "Tower.Demo42.C43_stale_error_violates",
    "Tower.Demo42.C43_lost_error_violates"
   ],
   "note": ""
  },
  {
   "property": "C44",
   "status": "proved",
   "theorems": [
    "Tower.C44_ready",
    "Tower.C44_error",
    "Tower.C44_call",
    "Tower.C44_background",
    "Tower.C44_failure_final"
   ],
   "note": ""
  },
  {
   "property": "C45",
   "status": "proved",
   "theorems": [
    "Tower.C45_waits_for_all",
    "Tower.C45_routes",
    "Tower.C45_call_unready",
    "Tower.C45_call_all_ready",
    "Tower.C45_error"
   ],
   "note": ""
  },
  {
   "property": "C46",
   "status": "proved",
   "theorems": [
    "Tower.C46_ready",
    "Tower.C46_accept",
    "Tower.C46_reject"
   ],
   "note": ""
  },
  {
   "property": "C47",
   "status": "proved",
   "theorems": [
    "Tower.C47_call",
    "Tower.C47_outcome"
   ],
   "note": ""
  },
  {
   "property": "C48",
   "status": "proved",
   "theorems": [
    "Tower.C48_legal",
    "Tower.C48_requests",
    "Tower.C48_ordered",
    "Tower.C48_ordered_no_failure",
    "Tower.C48_end",
    "Tower.C48_pending",
    "Tower.C48_returns",
    "Tower.C48_unordered_new",
    "Tower.C48_unordered_panics",
    "Tower.C48_taken",
    "Tower.C48_lives",
    "Tower.C48_take",
    "Tower.CallAllDemo.C48_failure_overtakes"
   ],
   "note": "any stream, any service, any order of polls; FuturesOrdered is modelled, assumptions in Model/CallAll.lean"
  },
  {
   "property": "C49",
   "status": "proved",
   "theorems": [
    "Tower.C49_legal",
    "Tower.C49_requests",
    "Tower.C49_unordered",
    "Tower.C49_end",
    "Tower.C49_pending",
    "Tower.C49_taken",
    "Tower.C49_lives",
    "Tower.C49_take",
    "Tower.C48_returns",
    "Tower.CallAllDemo.C49_unordered_loses"
   ],
   "note": "C49_unordered_loses is a finding: unordered() after a poll that took a request does not panic and loses that request"
  },
  {
   "property": "C50",
   "status": "proved",
   "theorems": [
    "Tower.C50_oneshot",
    "Tower.C50_ready_oneshot",
    "Tower.C50_ready_oneshot_again",
    "Tower.C50_called_once",
    "Tower.C50_never_twice"
   ],
   "note": ""
  },
  {
   "property": "C51",
   "status": "proved",
   "theorems": [
    "Tower.C51_builder",
    "Tower.C51_tuple",
    "Tower.C51_stack",
    "Tower.C51_assoc",
    "Tower.C51_identity",
    "Tower.C51_compose",
    "Tower.C51_option",
    "Tower.C51_order"
   ],
   "note": ""
  },
  {
   "property": "C52",
   "status": "proved",
   "theorems": [
    "Tower.C52_map_request",
    "Tower.C52_map_response",
    "Tower.C52_map_err",
    "Tower.C52_map_result",
    "Tower.C52_map_again",
    "Tower.C52_map_future",
    "Tower.C52_then",
    "Tower.C52_and_then",
    "Tower.C52_over",
    "Tower.C52_service_fn"
   ],
   "note": ""
  },
  {
   "property": "C53",
   "status": "proved",
   "theorems": [
    "Tower.C53_ready",
    "Tower.C53_then_is_service",
    "Tower.C53_call_early",
    "Tower.C53_error"
   ],
   "note": ""
  },
  {
   "property": "C54",
   "status": "proved",
   "theorems": [
    "Tower.C54_inserts"
   ],
   "note": ""
  },
  {
   "property": "C55",
   "status": "proved",
   "theorems": [
    "Tower.C55_allowed",
    "Tower.C55_poll_ready",
    "Tower.C55_call",
    "Tower.C55_fifo",
    "Tower.C55_waits",
    "Tower.C55_allow_most",
    "Tower.C55_allow_single",
    "Tower.C55_allow_zero",
    "Tower.C55_poisoned",
    "Tower.MockDemo.C55_clones_exceed"
   ],
   "note": "every history with any number of clones; C55_call settles the TODO in mod.rs:181 (the closed channel cannot be reached)"
  },
  {
   "property": "C56",
   "status": "proved",
   "theorems": [
    "Tower.C56_either_left",
    "Tower.C56_either_right",
    "Tower.C56_optional_some",
    "Tower.C56_optional_none",
    "Tower.C56_boxed",
    "Tower.C56_transparent"
   ],
   "note": ""
  },
  {
   "property": "C57",
   "status": "proved",
   "theorems": [
    "Tower.C57_shared",
    "Tower.C57_into",
    "Tower.C57_makeBalance"
   ],
   "note": ""
  },
  {
   "property": "C58",
   "status": "proved",
   "theorems": [
    "Tower.C58_constant",
    "Tower.C58_constant_load",
    "Tower.C58_discover"
   ],
   "note": ""
  },
  {
   "property": "C59",
   "status": "proved",
   "theorems": [
    "Tower.C59_stack",
    "Tower.C59_oneshot",
    "Tower.C59_load",
    "Tower.C59_balance",
    "Tower.C59_balance_stuck",
    "Tower.C59_call_all"
   ],
   "note": "C59_balance_stuck is a finding: an empty balancer whose discovery has ended is Pending with no waker registered"
  },
  {
   "property": "C60",
   "status": "proved",
   "theorems": [
    "Tower.C60_attempts",
    "Tower.C60_used",
    "Tower.C60_storm",
    "Tower.C60_transparent"
   ],
   "note": "clock assumed monotone and sums within isize in C60_storm"
  },
  {
   "property": "C61",
   "status": "proved",
   "theorems": [
    "Tower.C61_transparent",
    "Tower.C61_recorded",
    "Tower.C61_call",
    "Tower.C61_calls"
   ],
   "note": "clock assumed not to go back; less than 2^32 periods and 584 years since creation in C61_call"
  },
  {
   "property": "C62",
   "status": "proved",
   "theorems": [
    "Tower.C62_handle",
    "Tower.C62_future",
    "Tower.C62_worker",
    "Tower.C62_idle",
    "Tower.C62_settles",
    "Tower.C62_goes",
    "Tower.C62_rest",
    "Tower.C62_reserved"
   ],
   "note": "tokio's channels are assumed to wake as documented in Model/BufferWake.lean; C62_goes and C62_rest assume that the inner service's methods return or panic"
  },
  {
   "property": "C63",
   "status": "proved",
   "theorems": [
    "Tower.C63_bound",
    "Tower.C63_exact",
    "Tower.C63_inner_pending",
    "Tower.C63_single",
    "Tower.C63_no_panic",
    "Tower.C63_kept"
   ],
   "note": "tokio's semaphore as in Model/Semaphore.lean"
  },
  {
   "property": "C64",
   "status": "proved",
   "theorems": [
    "Tower.C64_single_user",
    "Tower.C64_contract",
    "Tower.C64_rate"
   ],
   "note": "executor, channel and oneshot as in Model/Buffer.lean"
  },
  {
   "property": "C65",
   "status": "proved",
   "theorems": [
    "Tower.C65_own",
    "Tower.C65_independent",
    "Tower.C65_global",
    "Tower.C65_global_refused"
   ],
   "note": "the semaphore is the tokio model of C04-C06; the heap of semaphores is explicit"
  },
  {
   "property": "C66",
   "status": "proved",
   "theorems": [
    "Tower.C66_chain",
    "Tower.C66_service_fn",
    "Tower.C66_boxed_clone_sync",
    "Tower.C66_contract",
    "Tower.C66_predicate",
    "Tower.C66_async_predicate"
   ],
   "note": "The worker of a buffer made by the chain is part of the world; that its replies come from a lawful use of its service (ChanHeap.Lawful) is what C64 and C85_worlds prove of the worker. Clones of closures, predicates and policies behave as given by their clone. Found while modelling: AsyncFilter::layer (filter/mod.rs:134) returns a FilterLayer, which makes a Filter, not an AsyncFilter; AsyncFilterLayer has to be named directly or used through ServiceBuilder::filter_async, which is right."
  },
  {
   "property": "C67",
   "status": "proved",
   "theorems": [
    "Tower.C67_endpoints",
    "Tower.C67_dispatch",
    "Tower.C67_load",
    "Tower.C67_choice",
    "Tower.C67_not_most_loaded",
    "Tower.C67_ewma_load",
    "Tower.C67_ewma_choice"
   ],
   "note": "The shared states of the endpoints (Arcs) are a list in the world; f64 is modelled by reals; for PeakEwma below 2^32-1 requests in flight."
  },
  {
   "property": "C68",
   "status": "proved",
   "theorems": [
    "Tower.C68_session",
    "Tower.C68_jitter",
    "Tower.C68_sessions_repeat",
    "Tower.C68_clone",
    "Tower.C68_panics_iff",
    "Tower.C68_default",
    "Tower.Demo68.C68_clone_not_reset"
   ],
   "note": "Debug build (debug_assert on the random number); the iteration counter wraps as in a release build. The products in f64 are an arbitrary function in C68_session, exact in C68_jitter and C68_panics_iff."
  },
  {
   "property": "C69",
   "status": "proved",
   "theorems": [
    "Tower.C69_bound",
    "Tower.C69_waiting_holds_nothing",
    "Tower.C69_blocked",
    "Tower.C69_progress",
    "Tower.C69_release_before_wait",
    "Tower.C69_all_dropped",
    "Tower.Demo69.C69_idle_handle_blocks"
   ],
   "note": "Semaphore as in C04\u2013C06 (FIFO, a released permit is assigned to the first waiter). Drops of the attempt future and of the clone in the response future are steps of the model."
  },
  {
   "property": "C70",
   "status": "proved",
   "theorems": [
    "Tower.C70_bound",
    "Tower.C70_one_place",
    "Tower.C70_tasks",
    "Tower.C70_ready",
    "Tower.C70_background",
    "Tower.C70_taken_back",
    "Tower.C70_blocked",
    "Tower.C70_progress",
    "Tower.C70_reap",
    "Tower.C70_all_dropped",
    "Tower.Demo70.C70_unpolled_holds"
   ],
   "note": "tokio tasks: an aborted task is not polled again and its future is dropped at some later step; a finished task's output is dropped with its JoinHandle. A panic of the inner poll_ready in the handle itself ends the history."
  },
  {
   "property": "C71",
   "status": "proved",
   "theorems": [
    "Tower.C71_exact",
    "Tower.C71_bounds",
    "Tower.C71_end",
    "Tower.C71_reads",
    "Tower.C71_load",
    "Tower.C71_balancer_load",
    "Tower.C71_balancer_choice",
    "Tower.C71_ideal",
    "Tower.C71_ieee",
    "Tower.C71_ties_even"
   ],
   "note": "What is assumed of f64 is the structure IsF64, which C71_ieee proves of double precision with any rounding to nearest and correctly rounded exp. The exponent is not bounded above (the values met are far below the overflow of f64; -elapsed/decay may overflow for a decay below 1e-288 ns, to -inf, whose exp is 0)."
  },
  {
   "property": "C72",
   "status": "proved",
   "theorems": [
    "Tower.C72_accepts",
    "Tower.C72_retries",
    "Tower.C72_grants",
    "Tower.C72_cost",
    "Tower.C72_casts",
    "Tower.C72_default",
    "Tower.C72_jitter",
    "Tower.C72_panics_iff",
    "Tower.C71_rounding"
   ],
   "note": "Assumed of the arithmetic: IsRounding, which C71_rounding proves of IEEE 754 with any rounding to the nearest. An overflow of 1/retry_percent to infinity saturates like the cast does."
  },
  {
   "property": "C73",
   "status": "proved",
   "theorems": [
    "Tower.C73_woken",
    "Tower.C73_not_in_vain",
    "Tower.C73_rest",
    "Tower.C73_no_starvation",
    "Tower.LimWake.hist",
    "Tower.LimWake.of_hist"
   ],
   "note": "the histories are those of C04-C06 (LimWake.hist, LimWake.of_hist) with wake-ups added; tokio's semaphore is assumed to wake the waiter to which it assigns a permit"
  },
  {
   "property": "C74",
   "status": "proved",
   "theorems": [
    "Tower.C74_both",
    "Tower.C74_in_flight",
    "Tower.C74_outstanding",
    "Tower.C74_waits",
    "Tower.C74_conserved",
    "Tower.C74_returned",
    "Tower.C74_total"
   ],
   "note": "histories of the stack project to histories of the buffer (C19-C25, C64 apply) and of the limit (C04-C06, C73 apply); C74_total shows that no step of the code is missing. Inner response futures that panic when polled are not modelled in the buffer."
  },
  {
   "property": "C75",
   "status": "proved",
   "theorems": [
    "Tower.C75_conserved",
    "Tower.C75_limit",
    "Tower.C75_pending",
    "Tower.C75_full",
    "Tower.C75_no_deadlock",
    "Tower.C75_returned",
    "Tower.Demo75.kept_back",
    "Tower.Demo75.C75_failure_keeps_permit"
   ],
   "note": "futures_util is assumed to drop a future in the poll in which it is ready; panics of the inner service inside poll_next end the run (other users may panic, as in C04-C06). Demo75.C75_failure_keeps_permit is a finding: after a readiness failure an ended CallAll keeps a permit until it is dropped"
  },
  {
   "property": "C76",
   "status": "proved",
   "theorems": [
    "Tower.C76_conserved",
    "Tower.C76_limit",
    "Tower.C76_one_permit",
    "Tower.C76_pending",
    "Tower.C76_returned",
    "Tower.C76_rejected_keeps_permit",
    "Tower.Demo76.C76_rejected_blocks"
   ],
   "note": "C76_rejected_keeps_permit and Demo76.C76_rejected_blocks are findings: with limit 2, one request in flight whose hedge was rejected blocks the next request. Panics of the inner service inside the stack end the run (other users may panic, as in C04-C06)"
  },
  {
   "property": "C77",
   "status": "proved",
   "theorems": [
    "Tower.C77_cache",
    "Tower.C77_cache_once",
    "Tower.C77_cache_dropped",
    "Tower.C77_evict",
    "Tower.C77_none_pending",
    "Tower.C77_balance",
    "Tower.C77_same_code_cache",
    "Tower.C77_same_discovery",
    "Tower.C77_same_code_balance"
   ],
   "note": "The operations are given once more with the drops made explicit (Model/CacheDrop.lean); C77_same_code_* show that without destructor effects they are those of C26-C34. Services carry a name and the world a ledger (Model/Named.lean). Histories end at a panic of a service."
  },
  {
   "property": "C78",
   "status": "proved",
   "theorems": [
    "Tower.C78_conserved",
    "Tower.C78_limit",
    "Tower.C78_ready_holds",
    "Tower.C78_ready_bound",
    "Tower.C78_removed",
    "Tower.C78_same_discovery",
    "Tower.C78_returned",
    "Tower.Demo78.C78_idle_balancer_blocks"
   ],
   "note": "Endpoints are wrapped as discovery hands them out; endpoints under other limits or none are the inner services (arbitrary). Steps in which an endpoint of a balancer panics are left out."
  },
  {
   "property": "C79",
   "status": "proved",
   "theorems": [
    "Tower.C79_estimate",
    "Tower.C79_no_panic",
    "Tower.C79_loaded",
    "Tower.C79_observed",
    "Tower.C79_bounds",
    "Tower.C79_at_rest",
    "Tower.C79_load_steps"
   ],
   "note": "f64 is idealised as the reals (C71 has the floating point side). The clock is monotonic. The decay bound is stated below the 2^64 ns saturation, counting below 2^32-1 handles."
  },
  {
   "property": "C80",
   "status": "proved",
   "theorems": [
    "Tower.C80_refines",
    "Tower.C80_conserved",
    "Tower.C80_all_dropped",
    "Tower.C80_call",
    "Tower.C80_ready",
    "Tower.C80_map_frees",
    "Tower.C80_timeout_holds"
   ],
   "note": "Closures, clocks and services beside the limit leave its semaphore alone (no other code has it). Middleware whose future owns a service (retry, hedge, AsyncFilter, SpawnReady, buffer, balance) is in C69, C70, C74-C78."
  },
  {
   "property": "C81",
   "status": "proved",
   "theorems": [
    "Tower.C81_stack",
    "Tower.C81_retry",
    "Tower.C81_reconnect",
    "Tower.C81_spawn_ready",
    "Tower.C81_limit_stays_ready",
    "Tower.C81_oneshot_loop",
    "Tower.C81_future_service_loop",
    "Tower.C81_async_filter_loop",
    "Tower.C81_delay_loop",
    "Tower.DemoRet.C81_reconnect_spins",
    "Tower.DemoRet.C81_spawn_ready_spins",
    "Tower.DemoRet.C81_call_all_spins"
   ],
   "note": "For CallAll see C48_returns. Buffer's worker: C62."
  },
  {
   "property": "C82",
   "status": "proved",
   "theorems": [
    "Tower.C82_stack",
    "Tower.C82_transparent",
    "Tower.C82_oneshot",
    "Tower.C82_buffer",
    "Tower.Demo82.C82_sloppy_violates"
   ],
   "note": "Response futures are those of calls in any state of the service, reachable or not, so nothing is assumed about who else uses it. CallAll: C48, C49."
  },
  {
   "property": "C83",
   "status": "proved",
   "theorems": [
    "Tower.C83_stack",
    "Tower.C83_rate",
    "Tower.C83_rate_buffer",
    "Tower.Demo83.C83_unlimited_violates"
   ],
   "note": "Watched S P is S with an alarm that panics when P fails of its state and its requests; the theorem says that no stack over it ever panics, given P under lawful users. SpawnReadyLoud is SpawnReady with a runtime that does not hide panics of the background task (C01_background: no other difference). The wrapped service of the rate limit logs the times of its calls (Logged); histories in which the clock runs backwards are left out."
  },
  {
   "property": "C84",
   "status": "proved",
   "theorems": [
    "Tower.C84_stack",
    "Tower.C84_history",
    "Tower.C84_copies",
    "Tower.C84_calls",
    "Tower.C84_oneshot",
    "Tower.Demo84.C84_twice_violates"
   ],
   "note": "Services at the bottom keep a record of their calls in the world. User code does not call them on its own. map_future is not in the stacks (its closure takes the inner future out); a Buffer sends each accepted request at most once by C20. C84_twice_violates shows that a middleware that calls twice breaks the bound."
  },
  {
   "property": "C85",
   "status": "proved",
   "theorems": [
    "Tower.C85_contract",
    "Tower.C85_handle",
    "Tower.C85_worlds",
    "Tower.C85_wakeful",
    "Tower.C85_prompt",
    "Tower.C85_stays_ready",
    "Tower.C85_sends",
    "Tower.C85_replies",
    "Tower.C85_same_ready",
    "Tower.C85_same_call",
    "Tower.C85_same_clone",
    "Tower.C85_same_poll",
    "Tower.Demo85.C85_forgetful_violates"
   ],
   "note": "Model/BufferSvc.lean is the Service impl of Buffer over a view of the channel; C85_same_ready, C85_same_call and C85_same_poll show that over the channel of a Buf it does exactly the steps of Model/Buffer.lean. C85_worlds: the states reached by a buffer over a lawful service are among those C85_handle ranges over. C85_wakeful and C85_replies assume that waiting in the channel registers the waker and that the worker replies with a future for the request; both are proved of the buffer in C62 and C82_buffer. tokio's channels are assumed as in Model/Buffer.lean."
  },
  {
   "property": "C86",
   "status": "proved",
   "theorems": [
    "Tower.C86_is_woken",
    "Tower.C86_no_lost_wakeup",
    "Tower.C86_wakers_held",
    "Tower.C86_clone",
    "Tower.C86_clears",
    "Tower.C86_same",
    "Tower.C86_is_mock"
   ],
   "note": "tokio-test's task is modelled as a flag that enter clears and a waker sets (assumed). get_mut / into_inner are left out."
  },
  {
   "property": "C87",
   "status": "proved",
   "theorems": [
    "Tower.C87_layer",
    "Tower.C87_chain",
    "Tower.C87_hedge",
    "Tower.C87_either",
    "Tower.C87_oneshot",
    "Tower.C87_reconnect_maker",
    "Tower.C87_reconnect",
    "Tower.C87_future_service",
    "Tower.C87_steer",
    "Tower.C87_call_all",
    "Tower.C87_load",
    "Tower.C87_balance",
    "Tower.C87_contract"
   ],
   "note": "buffer is left out because it moves the service into a task, so the two worlds differ by it. The closures of map_future and layer_fn, which are given futures or services themselves, must treat same ones alike. C87_balance is for endpoints with a load of their own (Constant). C87_steer is for services that are not cloned and pickers that do not look into the services. For services that are not Clone the model's clone is the identity."
  },
  {
   "property": "C88",
   "status": "proved",
   "theorems": [
    "Tower.C88_boxed",
    "Tower.C88_option_none",
    "Tower.C88_option_some",
    "Tower.C88_map_request",
    "Tower.C88_map_response",
    "Tower.C88_map_err",
    "Tower.C88_then",
    "Tower.C88_filter",
    "Tower.C88_retry",
    "Tower.C88_load_shed",
    "Tower.C88_order_timeout",
    "Tower.C88_order_limit",
    "Tower.C88_order_map",
    "Tower.C88_anywhere"
   ],
   "note": "Equality of results, effects and panics as in C87. Demo88.order_matters shows a pair of layers that do not commute (map_request and load_shed)."
  },
  {
   "property": "C89",
   "status": "proved",
   "theorems": [
    "Tower.C89_layer",
    "Tower.C89_chain",
    "Tower.C89_hedge",
    "Tower.C89_either",
    "Tower.C89_oneshot",
    "Tower.C89_timeout",
    "Tower.C89_reconnect",
    "Tower.C89_future_service"
   ],
   "note": "Panics count as not hanging (their absence is C01); a poll that loops forever counts as hanging. Demo89 has a fair environment (time goes beyond every bound), a service that is slow to become ready and to answer, a five-layer stack around it that meets all requirements, requirements of buffer and spawn_ready met, a service that is found to hang, and a Timeout that rescues it. Steer and the balancer are not layers of this kind; their progress is in C30, C45 and C59."
  },
  {
   "property": "C90",
   "status": "proved",
   "theorems": [
    "Tower.C90_ordered",
    "Tower.C90_unordered",
    "Tower.C90_chain"
   ],
   "note": "The executor is asked for (Sched.Wakes) to poll the oldest future of the queue again and again, at fair times; that what the task does itself does not spoil the fairness of the environment is Fairness.Undisturbed. fuel is an artefact of the model: the loop is passed at most N + 2 times in one poll. Demo90 has a slow service, requests that come at certain times, the youngest future polled first, all hypotheses proved; and an executor that wakes nothing, with which it does not end (asleep_forever). What the items are is C48 and C49."
  },
  {
   "property": "C91",
   "status": "proved",
   "theorems": [
    "Tower.C91_kept",
    "Tower.C91_starves",
    "Tower.C91_ends",
    "Tower.C91_never_hangs"
   ],
   "note": "For (2) and (3) what is ready must stay ready until it is called (StaysReady; C81 and C85 prove this of some layers): an endpoint that is ready in poll_pending and pending when the balancer checks it would be put back each time. That polls of endpoints, loads and discovery return is asked for in (3) (Prompt, C81). Demo91 has an endpoint that is ready only late, one that is removed, a replacement, the oldest endpoint polled last, with all hypotheses proved; an empty balancer waits forever (empty_hangs), which shows that the good endpoint is needed."
  },
  {
   "property": "C92",
   "status": "proved",
   "theorems": [
    "Tower.C92_answered",
    "Tower.C92_response",
    "Tower.C92_dispatched",
    "Tower.C92_ends"
   ],
   "note": "An execution is an infinite sequence of states (BufLife: every step is a step of the model, a sleeping worker is polled only if woken); BufFair is what is asked of executor and service; NeverHangs as in C89. Not claimed: that a handle waiting for a slot gets one (other handles may sit on reserved slots for ever, see C62). A request accepted after the worker was dropped (through a slot reserved before) can wait as long as handles exist: excluded by hypothesis, as in C62."
  },
  {
   "property": "C93",
   "status": "proved",
   "theorems": [
    "Tower.C93_slot",
    "Tower.C93_granted"
   ],
   "note": "The semaphore of the channel is first come, first served (tokio's documented behaviour, part of the model). The demo has two handles of a buffer for one request; a second one shows that the waiter waits for ever if a handle keeps its slot and does not call."
  },
  {
   "property": "C94",
   "status": "proved",
   "theorems": [
    "Tower.C94_admitted"
   ],
   "note": "The semaphore (tokio) is part of the model: first come, first served. A handle whose inner service is not ready keeps its permit; that it is called some day is an assumption about the inner service and the user."
  },
  {
   "property": "C95",
   "status": "proved",
   "theorems": [
    "Tower.C95_client",
    "Tower.C95_no_failure",
    "Tower.C95_balanced"
   ],
   "note": "The assumptions on the executor and the users are those of C92 and C93; on the balancer those of C91. In Demo95 they are all met by one run in which the endpoint is discovered, and gets ready, after the request was accepted. A dropped worker task (runtime shutdown) is excluded; C23 says what clients see then."
  },
  {
   "property": "C96",
   "status": "proved",
   "theorems": [
    "Tower.C96_bound",
    "Tower.C96_no_panic",
    "Tower.C96_exact",
    "Tower.C96_forward",
    "Tower.C96_excess"
   ],
   "note": "The period is the one of C08: it starts with the first call after the last one ended (or when poll_ready notices that it has ended)."
  },
  {
   "property": "C97",
   "status": "proved",
   "theorems": [
    "Tower.C97_exact",
    "Tower.C97_single",
    "Tower.C97_closed",
    "Tower.C97_no_panic",
    "Tower.Demo97.idle_clone_blocks"
   ],
   "note": "Finding: a clone that was shed once and is then kept without being used comes to hold a slot; with bound 1 every request of the other handles is then shed although the buffer is empty (Demo97.idle_clone_blocks). The same as for concurrency_limit (C63)."
  },
  {
   "property": "C98",
   "status": "proved",
   "theorems": [
    "Tower.C98_timeout",
    "Tower.C98_load_shed",
    "Tower.C98_concurrency_limit",
    "Tower.C98_rate_limit",
    "Tower.C98_either",
    "Tower.C98_optional",
    "Tower.C98_constant",
    "Tower.C98_steer"
   ],
   "note": "Equality of results, effects and panics as in C87 (Site.SameAs; for the rate limit, look for the sequences of operations in question; neither RateLimit nor, here, the service under Steer is cloned). Demo98 has a service that meets the hypotheses, a user that does not notice a limit of three and notices one of two, and a timeout that fires."
  }
 ]
}