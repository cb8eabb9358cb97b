{
 "claims": [
  {
   "property": "C01",
   "status": "proved",
   "theorems": [
    "MCap.C01_level_builder_last_settings",
    "MCap.C01_factor_zero_refused",
    "MCap.C01_built_level_positive"
   ],
   "note": ""
  },
  {
   "property": "C02",
   "status": "proved",
   "theorems": [
    "MCap.C02_duplicates_refused",
    "MCap.C02_refusal_changes_nothing"
   ],
   "note": ""
  },
  {
   "property": "C03",
   "status": "proved",
   "theorems": [
    "MCap.C03_build_outcome",
    "MCap.C03_build_succeeds_iff"
   ],
   "note": ""
  },
  {
   "property": "C04",
   "status": "proved",
   "theorems": [
    "MCap.C04_built_shape"
   ],
   "note": ""
  },
  {
   "property": "C05",
   "status": "proved",
   "theorems": [
    "MCap.C05_accepted_decide",
    "MCap.C05_order_irrelevant",
    "MCap.C05_builds_between",
    "MCap.C05_build_repeatable"
   ],
   "note": "C05_accepted_decide: same accepted levels, same outcome; C05_order_irrelevant is the case of distinct thresholds; C05_builds_between: build calls in between change nothing"
  },
  {
   "property": "C06",
   "status": "proved",
   "theorems": [
    "MCap.C06_walk_clamped",
    "MCap.C06_moves_monotone"
   ],
   "note": ""
  },
  {
   "property": "C07",
   "status": "partial",
   "theorems": [
    "MCap.C07_visitor_threshold_refuted",
    "MCap.C07_visitor_threshold_partial"
   ],
   "note": "False of the code: Defense::visitor_threshold returns the difficulty factor of the current level. Refutation plus what does hold."
  },
  {
   "property": "C08",
   "status": "proved",
   "theorems": [
    "MCap.C08_mcaptcha_builder_outcome"
   ],
   "note": ""
  },
  {
   "property": "C09",
   "status": "proved",
   "theorems": [
    "MCap.C09_visitor_count_exact",
    "MCap.C09_decrement_truncates"
   ],
   "note": ""
  },
  {
   "property": "C10",
   "status": "proved",
   "theorems": [
    "MCap.C10_states_valid",
    "MCap.C10_overflow_boundary"
   ],
   "note": ""
  },
  {
   "property": "C11",
   "status": "proved",
   "theorems": [
    "MCap.C11_visit_moves_one_level",
    "MCap.C11_departures_keep_level"
   ],
   "note": ""
  },
  {
   "property": "C12",
   "status": "proved",
   "theorems": [
    "MCap.C12_never_more_than_one_below",
    "MCap.C12_quote_is_level_in_force",
    "MCap.C12_rising_load"
   ],
   "note": ""
  },
  {
   "property": "C13",
   "status": "partial",
   "theorems": [
    "MCap.C13_stable_in_band_refuted",
    "MCap.C13_oscillation_in_band",
    "MCap.C13_stable_in_band_partial",
    "MCap.C13_stable_iff_partial"
   ],
   "note": "False of the code: refutation, general oscillation law, and what holds: a visit leaves the level alone exactly at the ends of the ladder, so the price too if difficulties strictly ascend."
  },
  {
   "property": "C14",
   "status": "partial",
   "theorems": [
    "MCap.C14_relaxes_at_once_refuted",
    "MCap.C14_relaxes_gradually_partial",
    "MCap.C14_follows_load_partial"
   ],
   "note": "False of the code: refutation, and what holds: one level per visit, and a level that after as many visits as there are levels is within one of what the load calls for."
  },
  {
   "property": "C15",
   "status": "proved",
   "theorems": [
    "MCap.C15_difficulty_configured"
   ],
   "note": ""
  },
  {
   "property": "C16",
   "status": "proved",
   "theorems": [
    "MCap.C16_create_payload"
   ],
   "note": ""
  },
  {
   "property": "C17",
   "status": "proved",
   "theorems": [
    "MCap.C17_no_visitor_forgotten"
   ],
   "note": ""
  },
  {
   "property": "C18",
   "status": "proved",
   "theorems": [
    "MCap.C18_sliding_window"
   ],
   "note": ""
  },
  {
   "property": "C19",
   "status": "proved",
   "theorems": [
    "MCap.C19_count_bounded_by_scheduled",
    "MCap.C19_load_drains"
   ],
   "note": ""
  },
  {
   "property": "C20",
   "status": "proved",
   "theorems": [
    "MCap.C20_snapshot_restore"
   ],
   "note": ""
  },
  {
   "property": "C21",
   "status": "partial",
   "theorems": [
    "MCap.C21_restored_stay_counted_refuted",
    "MCap.C21_restored_stay_counted_partial"
   ],
   "note": "False of the code when timers are pending at the restore: refutation, and the exact loss bound that holds."
  },
  {
   "property": "C22",
   "status": "proved",
   "theorems": [
    "MCap.C22_stop_stops",
    "MCap.C22_stopped_is_inert"
   ],
   "note": ""
  },
  {
   "property": "C23",
   "status": "proved",
   "theorems": [
    "MCap.C23_visit_answer"
   ],
   "note": ""
  },
  {
   "property": "C24",
   "status": "proved",
   "theorems": [
    "MCap.C24_registry_is_a_map",
    "MCap.C24_map_is_observable",
    "MCap.C24_no_shared_counter"
   ],
   "note": "Registry equals an abstract map for the messages the master handled, in every world and under every interleaving (messages sent by garbage collection and restores included); no two ids share a counter."
  },
  {
   "property": "C25",
   "status": "proved",
   "theorems": [
    "MCap.C25_sites_isolated",
    "MCap.C25_tasks_isolated",
    "MCap.C25_visit_elsewhere"
   ],
   "note": "Any step that does not name the site or act on its counter leaves registration, mark and counter alone; messages naming other sites never spawn a task acting on it."
  },
  {
   "property": "C26",
   "status": "proved",
   "theorems": [
    "MCap.C26_unknown_site",
    "MCap.C26_known_site",
    "MCap.C26_stopped_counter"
   ],
   "note": ""
  },
  {
   "property": "C27",
   "status": "proved",
   "theorems": [
    "MCap.C27_rename_moves_counter",
    "MCap.C27_rename_unknown"
   ],
   "note": ""
  },
  {
   "property": "C28",
   "status": "proved",
   "theorems": [
    "MCap.C28_remove_unregisters",
    "MCap.C28_removed_counter_stops",
    "MCap.C28_remove_answers",
    "MCap.C28_remove_unknown"
   ],
   "note": ""
  },
  {
   "property": "C29",
   "status": "proved",
   "theorems": [
    "MCap.C29_gc_removes_exactly_idle",
    "MCap.C29_visited_is_history"
   ],
   "note": ""
  },
  {
   "property": "C30",
   "status": "partial",
   "theorems": [
    "MCap.C30_unvisited_survive_refuted",
    "MCap.C30_unvisited_survive_partial",
    "MCap.C30_fresh_registration_partial"
   ],
   "note": "Refuted: a RemoveCaptcha sent by garbage collection for an old registration removes a fresh one. Partial: ids never looked up in the whole history are never touched by any task; and, whatever the history of the name, a fresh registration is safe from all collections if at that moment no collection under way has a looked-up registration of that name on its list and no restore is about to register it."
  },
  {
   "property": "C31",
   "status": "partial",
   "theorems": [
    "MCap.C31_discarded_bounded_partial",
    "MCap.C31_no_visitors_discarded_refuted",
    "MCap.C31_no_visitors_discarded_partial"
   ],
   "note": "Refuted: visitors counted between poll and Stop are discarded. Partial: holds if no visit/restore reaches the counter between poll and Stop; and in any case (C31_discarded_bounded_partial) at most the visitors added in between are discarded."
  },
  {
   "property": "C32",
   "status": "partial",
   "theorems": [
    "MCap.C32_gc_never_crashes_refuted",
    "MCap.C32_rename_race_refuted",
    "MCap.C32_gc_never_crashes_partial"
   ],
   "note": "Refuted: RemoveCaptcha (or Rename) racing with a pass makes the unwrap fail. Partial: never crashes when there is no RemoveCaptcha, Rename, direct Stop or extra CleanUp, for all interleavings and sizes."
  },
  {
   "property": "C33",
   "status": "proved",
   "theorems": [
    "MCap.C33_backup_exact",
    "MCap.C33_restore_exact"
   ],
   "note": ""
  },
  {
   "property": "C34",
   "status": "partial",
   "theorems": [
    "MCap.C34_restored_visitors_expire_refuted",
    "MCap.C34_restored_visitors_expire_partial"
   ],
   "note": "Refuted: counters created by a restore have no expiry scheduled, the visitors stay forever. Partial: known sites do get an expiry."
  },
  {
   "property": "C35",
   "status": "proved",
   "theorems": [
    "MCap.C35_cache_returns_stored"
   ],
   "note": ""
  },
  {
   "property": "C36",
   "status": "proved",
   "theorems": [
    "MCap.C36_challenge_once",
    "MCap.C36_retrieved_until_recached"
   ],
   "note": ""
  },
  {
   "property": "C37",
   "status": "proved",
   "theorems": [
    "MCap.C37_token_once",
    "MCap.C37_presented_until_reissued"
   ],
   "note": ""
  },
  {
   "property": "C38",
   "status": "proved",
   "theorems": [
    "MCap.C38_token_bound_to_site"
   ],
   "note": ""
  },
  {
   "property": "C39",
   "status": "partial",
   "theorems": [
    "MCap.C39_wrong_key_harmless_refuted",
    "MCap.C39_wrong_key_burns_refuted",
    "MCap.C39_wrong_key_harmless_partial"
   ],
   "note": "Refuted: HashCache removes the token before comparing keys, so presenting it under a wrong key consumes it (in every state). Proved part: nothing else is affected."
  },
  {
   "property": "C40",
   "status": "proved",
   "theorems": [
    "MCap.C40_challenge_lifetime",
    "MCap.C40_token_lifetime"
   ],
   "note": ""
  },
  {
   "property": "C41",
   "status": "partial",
   "theorems": [
    "MCap.C41_recached_full_lifetime_refuted",
    "MCap.C41_recached_full_lifetime_partial",
    "MCap.C41_one_expiry_per_issue",
    "MCap.C41_recached_after_expiry_partial"
   ],
   "note": "Refuted: the deletion timer of an earlier life of the same string is not cancelled and removes the new entry. Proved part: full lifetime when no earlier timer is pending."
  },
  {
   "property": "C42",
   "status": "proved",
   "theorems": [
    "MCap.C42_stores_separate",
    "MCap.C42_no_mixing",
    "MCap.C42_tokens_independent"
   ],
   "note": ""
  },
  {
   "property": "C43",
   "status": "proved",
   "theorems": [
    "MCap.C43_verdict_exact",
    "MCap.C43_verdict_arrives"
   ],
   "note": ""
  },
  {
   "property": "C44",
   "status": "proved",
   "theorems": [
    "MCap.C44_worker_finishes",
    "MCap.C44_blocked_only_by_unread"
   ],
   "note": ""
  },
  {
   "property": "C45",
   "status": "proved",
   "theorems": [
    "MCap.C45_target",
    "MCap.C45_accepted_share",
    "MCap.C45_zero_unreachable"
   ],
   "note": ""
  },
  {
   "property": "C46",
   "status": "proved",
   "theorems": [
    "MCap.C46_random_shape",
    "MCap.C46_random_complete",
    "MCap.C46_challenge_and_token"
   ],
   "note": ""
  },
  {
   "property": "C47",
   "status": "proved",
   "theorems": [
    "MCap.C47_one_place",
    "MCap.C47_counted"
   ],
   "note": ""
  },
  {
   "property": "C48",
   "status": "proved",
   "theorems": [
    "MCap.C48_submission_order",
    "MCap.C48_worker_order"
   ],
   "note": ""
  },
  {
   "property": "C49",
   "status": "proved",
   "theorems": [
    "MCap.C49_round_robin"
   ],
   "note": ""
  },
  {
   "property": "C50",
   "status": "proved",
   "theorems": [
    "MCap.C50_admission",
    "MCap.C50_answered"
   ],
   "note": ""
  },
  {
   "property": "C51",
   "status": "partial",
   "theorems": [
    "MCap.C51_full_queue_recovers_refuted",
    "MCap.C51_drained_but_full_refuted",
    "MCap.C51_full_queue_recovers_partial"
   ],
   "note": "Refuted: addresses are never forgotten, so a full queue refuses new clients forever, even when drained. Partial: while fewer distinct clients than queue_length were ever accepted, submissions are accepted."
  },
  {
   "property": "C52",
   "status": "partial",
   "theorems": [
    "MCap.C52_every_job_run_refuted",
    "MCap.C52_every_job_run_partial",
    "MCap.C52_waits_bounded_turns_partial",
    "MCap.C52_turns_exact_partial"
   ],
   "note": "Refuted: dispatch happens only on submissions and completions and skips empty queues, so an accepted job can be stranded with all workers idle. Partial: with a single client every job is handed over; with more, after at most clients*k turns."
  },
  {
   "property": "C53",
   "status": "proved",
   "theorems": [
    "MCap.C53_manager_never_panics"
   ],
   "note": ""
  },
  {
   "property": "C54",
   "status": "partial",
   "theorems": [
    "MCap.C54_crash_contained_refuted",
    "MCap.C54_crash_contained_partial",
    "MCap.C54_manager_stays_partial",
    "MCap.C54_orphans_end_partial"
   ],
   "note": "Refuted: a panicking job kills its worker thread, the next dispatch to it panics while holding the manager and aborts the process. Partial: the panic itself touches only that worker; the manager thread never ends alone before it is told to (it goes on or the process is gone); workers left behind by a shutdown that panicked end."
  },
  {
   "property": "C55",
   "status": "proved",
   "theorems": [
    "MCap.C55_dispatched_run_waiting_dropped",
    "MCap.C55_afterwards_nothing",
    "MCap.C55_shutdown_completes",
    "MCap.C55_answered_before_stop",
    "MCap.C55_shutdown_inevitable"
   ],
   "note": ""
  },
  {
   "property": "C56",
   "status": "proved",
   "theorems": [
    "MCap.C56_no_token_without_work"
   ],
   "note": ""
  },
  {
   "property": "C57",
   "status": "proved",
   "theorems": [
    "MCap.C57_one_token_per_challenge",
    "MCap.C57_one_acceptance_per_token"
   ],
   "note": ""
  },
  {
   "property": "C58",
   "status": "proved",
   "theorems": [
    "MCap.C58_difficulty_enforced_is_quoted",
    "MCap.C58_rejected_at_quoted"
   ],
   "note": ""
  },
  {
   "property": "C59",
   "status": "proved",
   "theorems": [
    "MCap.C59_challenge_used_up",
    "MCap.C59_later_attempts_fail"
   ],
   "note": ""
  },
  {
   "property": "C60",
   "status": "partial",
   "theorems": [
    "MCap.C60_honest_client_succeeds_refuted",
    "MCap.C60_solution_gets_token_partial",
    "MCap.C60_token_arrives_partial",
    "MCap.C60_token_validates",
    "MCap.C60_challenge_in_time",
    "MCap.C60_token_in_time",
    "MCap.C60_validation_arrives"
   ],
   "note": "refuted as stated: a right solution, accepted by the queue, whose job is stranded (C63) never gets a token (C60_honest_client_succeeds_refuted). Partial, for every interleaving with other calls: a right solution whose challenge is untouched in the cache gets a token (if no job crashes, the queue does not refuse and the cache actor lives), and the answer arrives unless the job waits in the queue of its client; 'in time' is C60_challenge_in_time and C60_token_in_time; validation is C60_token_validates and C60_validation_arrives"
  },
  {
   "property": "C61",
   "status": "proved",
   "theorems": [
    "MCap.C61_get_pow_outcome",
    "MCap.C61_master_decides"
   ],
   "note": ""
  },
  {
   "property": "C62",
   "status": "proved",
   "theorems": [
    "MCap.C62_lookup",
    "MCap.C62_error_classification",
    "MCap.C62_own_address"
   ],
   "note": ""
  },
  {
   "property": "C63",
   "status": "partial",
   "theorems": [
    "MCap.C63_finitely_many_steps_partial",
    "MCap.C63_calls_begin",
    "MCap.C63_settles_partial",
    "MCap.C63_answered_unless_waiting_partial",
    "MCap.C63_answered_with_enough_workers_partial",
    "MCap.C63_despite_crashes_partial",
    "MCap.C63_always_answers_refuted"
   ],
   "note": "refuted as stated: a job whose client's queue loses its turn stays queued for ever and verify_pow polls for ever (C63_always_answers_refuted). Partial: finitely many steps change anything, every system settles, and then every call is answered unless its job is stranded; with at least as many workers as client addresses none is; jobs may panic too (C63_despite_crashes_partial): as long as the process is not aborted, no call waits for a job or a thread that is gone"
  },
  {
   "property": "C64",
   "status": "proved",
   "theorems": [
    "MCap.C64_builder_needs_all"
   ],
   "note": ""
  },
  {
   "property": "C65",
   "status": "partial",
   "theorems": [
    "MCap.C65_keys_unambiguous_refuted",
    "MCap.C65_token_crosses_sites_refuted",
    "MCap.C65_site_keys_partial",
    "MCap.C65_tokens_partial",
    "MCap.C65_prefix"
   ],
   "note": "Refuted: a colon in the site key moves the boundary, and a token crosses sites. Partial: unambiguous when site keys, or tokens, have no colon (the library's tokens never have)."
  },
  {
   "property": "C66",
   "status": "proved",
   "theorems": [
    "MCap.C66_verdict",
    "MCap.C66_bound_to_site",
    "MCap.C66_single_use",
    "MCap.C66_stored"
   ],
   "note": ""
  },
  {
   "property": "C67",
   "status": "partial",
   "theorems": [
    "MCap.C67_same_answers_refuted",
    "MCap.C67_same_answers_partial",
    "MCap.C67_same_answers_in_time_partial",
    "MCap.C67_last_second_refuted"
   ],
   "note": "Refuted: a question under the wrong site key uses the token up in memory but not in Redis; and in the very second a token ends the in-memory cache may have deleted what Redis still accepts. Partial: same verdicts when every token goes with one site key without colon and the server accepts the lifetimes; with passing time and the cache's own deletions, when in addition every token is stored once, no deletion is overdue at a check, and no check falls in the last second."
  },
  {
   "property": "C68",
   "status": "proved",
   "theorems": [
    "MCap.C68_no_overlap",
    "MCap.C68_no_borrow_panic",
    "MCap.C68_in_order",
    "MCap.C68_all_answered",
    "MCap.C68_answers_genuine"
   ],
   "note": ""
  },
  {
   "property": "C69",
   "status": "partial",
   "theorems": [
    "MCap.C69_module_accepted_refuted",
    "MCap.C69_module_accepted_partial",
    "MCap.C69_opens_partial",
    "MCap.C69_opens_iff_partial"
   ],
   "note": "Refuted: only the first module of MODULE LIST is looked at. Partial: C69_opens_iff_partial says exactly which servers are accepted."
  },
  {
   "property": "C70",
   "status": "partial",
   "theorems": [
    "MCap.C70_captcha_exists",
    "MCap.C70_get_token_refuted",
    "MCap.C70_get_token_partial",
    "MCap.C70_get_token_any_partial",
    "MCap.C70_get_visitors_any_partial",
    "MCap.C70_errors",
    "MCap.C70_no_panic",
    "MCap.C70_get_visitors_refuted",
    "MCap.C70_get_visitors_partial",
    "MCap.C70_captcha_exists_text",
    "MCap.C70_get_token_text"
   ],
   "note": "check_captcha_exists proved for all 64-bit replies and all texts; get_token refuted for integers beyond 32 bits (read as i32), proved for the rest; get_visitors refuted for negative integers (returned as huge counts), proved for the rest; errors passed on; no reply makes them panic. C70_get_token_any_partial and C70_get_visitors_any_partial say what every integer of 64 bits is taken for."
  },
  {
   "property": "C71",
   "status": "proved",
   "theorems": [
    "MCap.C71_challenge_text",
    "MCap.C71_challenge_round_trip",
    "MCap.C71_captcha_round_trip",
    "MCap.C71_challenge_injective"
   ],
   "note": ""
  },
  {
   "property": "C72",
   "status": "partial",
   "theorems": [
    "MCap.C72_client_bounded_refuted",
    "MCap.C72_client_queue_bounded_refuted",
    "MCap.C72_client_bounded_partial"
   ],
   "note": "Refuted twice: workers' inboxes and a client's own queue grow without bound. Partial: only the number of client queues is bounded."
  },
  {
   "property": "C73",
   "status": "partial",
   "theorems": [
    "MCap.C73_backlog_delays_others_refuted",
    "MCap.C73_backlog_delays_others_partial"
   ],
   "note": "Refuted for every number of workers and every backlog. Partial: handing over is fair in turns."
  },
  {
   "property": "C74",
   "status": "partial",
   "theorems": [
    "MCap.C74_no_idle_worker_refuted",
    "MCap.C74_no_idle_worker_partial"
   ],
   "note": "Refuted for every number of workers. Partial: a worker with work can always move."
  },
  {
   "property": "C75",
   "status": "proved",
   "theorems": [
    "MCap.C75_returns_once",
    "MCap.C75_no_panic",
    "MCap.C75_nothing_after_cancel"
   ],
   "note": ""
  },
  {
   "property": "C76",
   "status": "proved",
   "theorems": [
    "MCap.C76_lacking_refused",
    "MCap.C76_commands_used",
    "MCap.C76_names_command",
    "MCap.C76_opens"
   ],
   "note": ""
  },
  {
   "property": "C77",
   "status": "partial",
   "theorems": [
    "MCap.C77_add_token_refuted",
    "MCap.C77_zero_duration_refuted",
    "MCap.C77_new_refuted",
    "MCap.C77_add_visitor_refuted",
    "MCap.C77_get_challenge_refuted",
    "MCap.C77_errors_reported_partial",
    "MCap.C77_json_read_partial",
    "MCap.C77_crashes_partial",
    "MCap.C77_bad_replies_partial"
   ],
   "note": "Refuted: add_token panics on every error (a lifetime of zero among them), opening panics when MODULE LIST or COMMAND INFO fails, malformed JSON panics. Partial: the rest return RedisError; exact list of reasons and replies for which an actor panics, and exactly which reply texts are read and as what."
  },
  {
   "property": "C78",
   "status": "partial",
   "theorems": [
    "MCap.C78_clones_refuted",
    "MCap.C78_clones_partial"
   ],
   "note": "Refuted: clones share a RefCell. Partial: the borrow panics only while another actor with the same connection has a command under way."
  },
  {
   "property": "C79",
   "status": "partial",
   "theorems": [
    "MCap.C79_giving_up_refuted",
    "MCap.C79_giving_up_kills",
    "MCap.C79_giving_up_partial"
   ],
   "note": "Refuted for the cache (tx.send(..).unwrap()): every request to it that is given up kills it. Partial: for requests to the master, giving up changes nothing at all."
  },
  {
   "property": "C80",
   "status": "partial",
   "theorems": [
    "MCap.C80_lookup_partial",
    "MCap.C80_not_found_refuted"
   ],
   "note": "Refuted with Redis: Ok(None) is never answered and the key is copied from the question. Partial: the answer is an error of Redis or exactly the numbers in the reply delivered."
  },
  {
   "property": "C81",
   "status": "proved",
   "theorems": [
    "MCap.C81_mcaptcha_round_trip"
   ],
   "note": ""
  },
  {
   "property": "C82",
   "status": "partial",
   "theorems": [
    "MCap.C82_read_valid_refuted",
    "MCap.C82_read_coherent_refuted",
    "MCap.C82_read_in_range_partial",
    "MCap.C82_read_exact_partial"
   ],
   "note": "Refuted: Deserialize checks only the shape; empty levels make every visit panic. Partial: all numbers are in range; the texts read are exactly the JSON texts of the captcha."
  },
  {
   "property": "C83",
   "status": "partial",
   "theorems": [
    "MCap.C83_internal_data_refuted",
    "MCap.C83_served_partial"
   ],
   "note": "Refuted: both handlers are todo!() and kill the master. Partial: every other request is served."
  },
  {
   "property": "C84",
   "status": "partial",
   "theorems": [
    "MCap.C84_thread_hangs_refuted",
    "MCap.C84_bad_proof_hangs_refuted",
    "MCap.C84_leaves_loop_partial"
   ],
   "note": "Refuted twice: a job stranded in the queue is polled for ever by a loop without await; a proof with two flaws blocks its worker on the third send while another call on the same thread spins, so the receiver is never dropped. Partial: with at least as many workers as clients, no crash and no proof with two flaws, the loop is left after finitely many changes."
  },
  {
   "property": "C85",
   "status": "proved",
   "theorems": [
    "MCap.C85_pow_config_round_trip",
    "MCap.C85_work_round_trip",
    "MCap.C85_work_any_order",
    "MCap.C85_work_read",
    "MCap.C85_cache_pow_round_trip",
    "MCap.C85_cached_config_round_trip",
    "MCap.C85_cache_result_round_trip",
    "MCap.C85_verify_round_trip",
    "MCap.C85_rename_round_trip",
    "MCap.C85_add_site_round_trip",
    "MCap.C85_internal_data_round_trip",
    "MCap.C85_newtype_round_trip",
    "MCap.C85_visitor_round_trip",
    "MCap.C85_level_round_trip",
    "MCap.C85_defense_round_trip",
    "MCap.C85_create_round_trip"
   ],
   "note": ""
  },
  {
   "property": "C86",
   "status": "partial",
   "theorems": [
    "MCap.C86_texts_differ_refuted",
    "MCap.C86_texts_differ_partial",
    "MCap.C86_same_text_iff_partial"
   ],
   "note": "Refuted: CaptchaDurationZero is displayed as 'difficulty factor must be greater than zero', the text of DifficultyFactorZero. Partial: apart from it and from RedisError, whose text a server chooses, the texts determine the error with its payload. C86_same_text_iff_partial lists all pairs of errors with one text."
  },
  {
   "property": "C87",
   "status": "proved",
   "theorems": [
    "MCap.C87_collectors_never_end",
    "MCap.C87_collection_needs_no_client"
   ],
   "note": ""
  },
  {
   "property": "C88",
   "status": "proved",
   "theorems": [
    "MCap.C88_restore_in_place"
   ],
   "note": ""
  },
  {
   "property": "C89",
   "status": "proved",
   "theorems": [
    "MCap.C89_crash_is_final",
    "MCap.C89_counters_survive"
   ],
   "note": ""
  },
  {
   "property": "C90",
   "status": "partial",
   "theorems": [
    "MCap.C90_no_module_refused_refuted",
    "MCap.C90_no_list_refused_refuted",
    "MCap.C90_no_module_refused_partial",
    "MCap.C90_no_modules_partial",
    "MCap.C90_opens_partial",
    "MCap.C90_refusals_partial"
   ],
   "note": "Refuted: the check is a substring match on the debug text of the first entry only, so a module named mcaptcha_cache_legacy passes, and a reply that is no array passes. Partial: if no text in the first entry contains the name, or there is no entry, the server is refused. C90_refusals_partial says exactly when each error is returned."
  },
  {
   "property": "C91",
   "status": "proved",
   "theorems": [
    "MCap.C91_commands",
    "MCap.C91_numbers",
    "MCap.C91_answers",
    "MCap.C91_ping"
   ],
   "note": "Proved against an explicit table of commands (Spec.Wire). Payloads are compared by the JSON value they denote. The exception in the answers is the panic of C77."
  },
  {
   "property": "C92",
   "status": "proved",
   "theorems": [
    "MCap.C92_single_use",
    "MCap.C92_bound_and_fresh",
    "MCap.C92_server_exact"
   ],
   "note": "Model of several actors and one server with commands and replies in flight. Site binding assumes site keys without colons (C65). Assumes that the redis crate matches replies with requests and does not repeat commands."
  },
  {
   "property": "C93",
   "status": "partial",
   "theorems": [
    "MCap.C93_repeat_refuted",
    "MCap.C93_repeat_partial"
   ],
   "note": "Refuted: get_token deletes the key before the reply is known to arrive, so a lost reply uses the token up and the repeated request is told it is invalid. Partial: whoever is told 'invalid' is told so by the server, where the token was not there at that moment."
  },
  {
   "property": "C94",
   "status": "proved",
   "theorems": [
    "MCap.C94_pow_config",
    "MCap.C94_work",
    "MCap.C94_cache_pow",
    "MCap.C94_cached_config",
    "MCap.C94_cache_result",
    "MCap.C94_verify",
    "MCap.C94_rename",
    "MCap.C94_add_challenge",
    "MCap.C94_add_site",
    "MCap.C94_internal_data",
    "MCap.C94_create_mcaptcha",
    "MCap.C94_visitor",
    "MCap.C94_level",
    "MCap.C94_defense",
    "MCap.C94_newtype"
   ],
   "note": ""
  },
  {
   "property": "C95",
   "status": "proved",
   "theorems": [
    "MCap.C95_challenge_is_charged",
    "MCap.C95_counted_at_most_once",
    "MCap.C95_right_counter",
    "MCap.C95_no_challenge"
   ],
   "note": "Model/Service: the system of Model/System with the master and the counters of Model/Master, other clients using both."
  },
  {
   "property": "C96",
   "status": "proved",
   "theorems": [
    "MCap.C96_tokens_cost_configured_work"
   ],
   "note": "A captcha counts as configured if it was registered for this counter or restored into it (SetInternalData). Levels of restored captchas may be anything (C82)."
  },
  {
   "property": "C97",
   "status": "proved",
   "theorems": [
    "MCap.C97_load_raises_the_price"
   ],
   "note": "Restored counters are excluded: a restored captcha may have any level in force."
  },
  {
   "property": "C98",
   "status": "proved",
   "theorems": [
    "MCap.C98_get_pow_is_answered",
    "MCap.C98_finitely_many_steps",
    "MCap.C98_calls_begin",
    "MCap.C98_settles"
   ],
   "note": ""
  },
  {
   "property": "C99",
   "status": "proved",
   "theorems": [
    "MCap.C99_verify_outcome",
    "MCap.C99_validate_outcome",
    "MCap.C99_get_outcome",
    "MCap.C99_returns_once",
    "MCap.C99_counts"
   ],
   "note": "Model/OpenSystem: the calls, queue and workers of Model/System; the answers of cache and master are part of the schedule."
  },
  {
   "property": "C100",
   "status": "proved",
   "theorems": [
    "MCap.C100_verify_on_redis",
    "MCap.C100_get_on_redis",
    "MCap.C100_validate_exact",
    "MCap.C100_token_costs_work"
   ],
   "note": "Model/RedisService: calls, queue and workers of Model/OpenSystem on the actors, connections and server of Model/RedisNet; other clients of the server included."
  },
  {
   "property": "C101",
   "status": "proved",
   "theorems": [
    "MCap.C101_single_use"
   ],
   "note": ""
  },
  {
   "property": "C102",
   "status": "partial",
   "theorems": [
    "MCap.C102_giving_up_refuted",
    "MCap.C102_giving_up_partial"
   ],
   "note": "Refuted: a validation cancelled while the cache waits for the server kills the cache actor (tx.send(..).unwrap()), the next call gets MailboxError. Partial: if nobody gives up between a request to the cache and its answer, no actor dies and no call fails for want of one."
  },
  {
   "property": "C103",
   "status": "partial",
   "theorems": [
    "MCap.C103_failures_refuted",
    "MCap.C103_failures_partial"
   ],
   "note": "Refuted: get_pow discards an error of the master (`_ => Ok(None)`), so a broken connection looks like an unknown site. Partial: None only if the server replied to this call's request with an error or no text, or the master's connection failed."
  },
  {
   "property": "C104",
   "status": "proved",
   "theorems": [
    "MCap.C104_verify_errors",
    "MCap.C104_validate_errors",
    "MCap.C104_get_errors"
   ],
   "note": "A crash of an actor is C77, C78, C79 or C83."
  },
  {
   "property": "C105",
   "status": "partial",
   "theorems": [
    "MCap.C105_drop_is_clean_refuted",
    "MCap.C105_drop_is_clean_partial"
   ],
   "note": "Refuted, with any number of workers: after one job panicked, the drop panics and the other workers (those that come after the dead one in the order of the map) spin for ever. Partial: without panicking jobs the drop never panics, only boundedly many steps change anything after it, at rest it has returned, and then every worker thread has ended."
  },
  {
   "property": "C106",
   "status": "partial",
   "theorems": [
    "MCap.C106_opening_reports_refuted",
    "MCap.C106_opening_reports_partial"
   ],
   "note": "refuted: RedisConfig::connect and is_module_loaded unwrap (src/redis/mod.rs:44-50, mcaptcha_redis.rs:72, 100). The partial theorem says exactly when opening panics; an unreachable cluster is reported."
  },
  {
   "property": "C107",
   "status": "proved",
   "theorems": [
    "MCap.C107_opening_only_asks"
   ],
   "note": "the answers of the redis crate about addresses and connections, and all replies, are arbitrary."
  },
  {
   "property": "C108",
   "status": "proved",
   "theorems": [
    "MCap.C108_price_needs_load",
    "MCap.C108_window_explains_price",
    "MCap.C108_quiet_site_stays_cheap"
   ],
   "note": "Lower bounds are C12, C18 and C97. A captcha whose defense was moved before it was built in (StartM) may start at a higher level."
  },
  {
   "property": "C109",
   "status": "proved",
   "theorems": [
    "MCap.C109_visit_panics_iff",
    "MCap.C109_quote_panics_iff",
    "MCap.C109_in_range_is_kept",
    "MCap.C109_moves"
   ],
   "note": "Which texts give such captchas is C94 and C82."
  },
  {
   "property": "C110",
   "status": "proved",
   "theorems": [
    "MCap.C110_builder_read_exact",
    "MCap.C110_builder_round_trip"
   ],
   "note": "Numbers that fit their types: visitor count below 2^32, duration and position below 2^64."
  },
  {
   "property": "C111",
   "status": "partial",
   "theorems": [
    "MCap.C111_visitors_leave_refuted",
    "MCap.C111_visits_leave_partial"
   ],
   "note": "Refuted: a Counter read from JSON keeps its visitors and has no timers, so they are never subtracted. Partial: visits counted since it was started leave; at every moment the count is what it started with plus exactly the visits still scheduled to leave, each due duration seconds after its visit."
  },
  {
   "property": "C112",
   "status": "proved",
   "theorems": [
    "MCap.C112_burst_costs"
   ],
   "note": "The bound is on quoted difficulties; that answers must meet the quoted difficulty is C1 and C96. burstCost is computed from the configured levels alone."
  },
  {
   "property": "C113",
   "status": "proved",
   "theorems": [
    "MCap.C113_cache_memory",
    "MCap.C113_cache_empties"
   ],
   "note": "An overwritten or early removed entry leaves its task behind until it is due, which the bound on tasks covers."
  },
  {
   "property": "C114",
   "status": "proved",
   "theorems": [
    "MCap.C114_backup_through_text"
   ],
   "note": "Numbers fit their types, as they always do in Rust. As time passes the restored service differs: visitors restored into a fresh master never expire (C34)."
  },
  {
   "property": "C115",
   "status": "proved",
   "theorems": [
    "MCap.C115_paid_separately",
    "MCap.C115_burst_of_tokens"
   ],
   "note": "Strengthens C56/C96 (each token was paid for) and C57 (counts per string) to an injective assignment, also when random strings repeat. Difficulties are those quoted; the arithmetic of the proof of work is a parameter."
  },
  {
   "property": "C116",
   "status": "proved",
   "theorems": [
    "MCap.C116_paid",
    "MCap.C116_separately",
    "MCap.C116_count"
   ],
   "note": "The Redis counterpart of C115. What the server answers to the request for a challenge is not constrained (another client may have stored it), so the payment is the work for the challenge the server told. With colons in site keys the stored token may have been for another site and string with the same Redis key (C65)."
  },
  {
   "property": "C117",
   "status": "proved",
   "theorems": [
    "MCap.C117_finitely_many_steps",
    "MCap.C117_calls_begin",
    "MCap.C117_settles",
    "MCap.C117_answered",
    "MCap.C117_answered_with_enough_workers"
   ],
   "note": "The Redis counterpart of C63 and C98. At rest means: no step of the calls, the manager, the workers, the actors, the server or the replies changes anything. The server is assumed to answer in the end; a connection that breaks is an answer."
  },
  {
   "property": "C118",
   "status": "proved",
   "theorems": [
    "MCap.C118_mailbox_error",
    "MCap.C118_recv_error",
    "MCap.C118_validate_undone"
   ],
   "note": "C118_validate_undone speaks of every request that the validation sent (C119: there is one at most). exLostToken is a token that was stored although verify_pow told RecvError."
  },
  {
   "property": "C119",
   "status": "proved",
   "theorems": [
    "MCap.C119_each_request_once",
    "MCap.C119_own_requests",
    "MCap.C119_no_request_after"
   ],
   "note": "Kinds of requests are the constructors of RMsg (SameKind); what a function may send is SendsTo in Spec/RedisLost. exAsks repeats every step that could send again."
  },
  {
   "property": "C120",
   "status": "proved",
   "theorems": [
    "MCap.C120_drop_goes_ahead",
    "MCap.C120_drop_ends",
    "MCap.C120_drop_is_clean",
    "MCap.C120_open_goes_ahead",
    "MCap.C120_open_drop_ends"
   ],
   "note": "System owns its Manager, so dropping it runs Drop for Manager. The bound on steps is proved for the in-memory cache (C120_drop_ends); with other back ends the theorem says what holds when the threads have come to rest, and C99's open system has the same queue. Without its manager thread, which only a panic ends, dropping panics at once (C105)."
  },
  {
   "property": "C121",
   "status": "proved",
   "theorems": [
    "MCap.C121_no_borrow_panic",
    "MCap.C121_uninterrupted",
    "MCap.C121_as_single",
    "MCap.C121_clone_answers",
    "MCap.C121_serial_same"
   ],
   "note": ""
  },
  {
   "property": "C122",
   "status": "partial",
   "theorems": [
    "MCap.C122_thread_waits",
    "MCap.C122_other_threads_partial",
    "MCap.C122_others_go_on_refuted",
    "MCap.C122_others_go_on_partial"
   ],
   "note": "Refuted: on a cluster exec calls the blocking query, so the thread with all its actors stands still until the reply is there (C122_thread_waits). Partial: single servers; on a cluster, actors on threads that wait for nothing."
  },
  {
   "property": "C123",
   "status": "partial",
   "theorems": [
    "MCap.C123_any_cache_partial",
    "MCap.C123_any_cache_locked_out_refuted",
    "MCap.C123_redis_locked_out_refuted",
    "MCap.C123_cluster_locked_out_refuted",
    "MCap.C123_full_iff_partial",
    "MCap.C123_locked_out_refuted",
    "MCap.C123_few_calls_refuted"
   ],
   "note": "Refuted: the queue never forgets an address, so once as many different addresses as the queue length have had a job accepted every later verify_pow fails, for everybody and for good; one get_pow and one made-up proof per place are enough. Partial: QueueFull is returned iff the number of different addresses accepted before equals the queue length, so never while fewer addresses have called. The same for any cache and master (any_cache), for Redis and for a Redis cluster, where only the refusal is exact: another cache may itself answer QueueFull. C51 is the same seen from the queue."
  },
  {
   "property": "C124",
   "status": "proved",
   "theorems": [
    "MCap.C124_none_explained"
   ],
   "note": "Model/Service. Strengthens C95_no_challenge: a counter that is gone was stopped, and the stop is traced back to garbage collection or a removal."
  },
  {
   "property": "C125",
   "status": "partial",
   "theorems": [
    "MCap.C125_acknowledged_in_effect_refuted",
    "MCap.C125_registration_replaced_refuted",
    "MCap.C125_acknowledged_in_effect_partial"
   ],
   "note": "Refuted, of every master and captcha: SetInternalData spawns the restoring future and answers before it has run; a visit handled next finds no site, and a registration made meanwhile is replaced. Partial: at every later moment each captcha has been put in place, or a task does so in its next action, or the master crashed."
  },
  {
   "property": "C126",
   "status": "partial",
   "theorems": [
    "MCap.C126_backup_is_a_snapshot_refuted",
    "MCap.C126_backup_moments_partial"
   ],
   "note": "Refuted: counters are polled one after the other, a visit to an already polled site followed by one to a site not yet polled is half in the backup. Partial: every captcha is the state of its counter at some moment between request and answer, no name twice, a site is missing only if its counter was stopped."
  },
  {
   "property": "C127",
   "status": "proved",
   "theorems": [
    "MCap.C127_panics_iff",
    "MCap.C127_told_iff",
    "MCap.C127_all_told",
    "MCap.C127_order_irrelevant",
    "MCap.C127_told_ends",
    "MCap.C127_untold_spins"
   ],
   "note": "Model/QueueDrop: the stop loop with the order given. C127_order_irrelevant shows that Queue.manage, which lets the dead worker come first, is exact as long as no job panics; C127_told_iff says what other orders change."
  },
  {
   "property": "C128",
   "status": "proved",
   "theorems": [
    "MCap.C128_one_step",
    "MCap.C128_runs_before_answer",
    "MCap.C128_never_panics",
    "MCap.C128_orders",
    "MCap.C128_no_fewer",
    "MCap.C128_drop_panics"
   ],
   "note": "Model/QueueFine: every send of the manager thread is a step. C128_one_step and C128_no_fewer show that the model with one step per message (Model/Queue), on which the other claims about the queue rest, reaches the same states with the same log up to the interleaving of manager thread, clients and workers."
  },
  {
   "property": "C129",
   "status": "proved",
   "theorems": [
    "MCap.C129_commands",
    "MCap.C129_checked",
    "MCap.C129_distinct",
    "MCap.C129_panics_iff",
    "MCap.C129_errors",
    "MCap.C129_answers"
   ],
   "note": "Model/RedisDirect. What is read from the replies is C70, which replies panic in the actors C77."
  },
  {
   "property": "C130",
   "status": "proved",
   "theorems": [
    "MCap.C130_as_single",
    "MCap.C130_single_use",
    "MCap.C130_paid",
    "MCap.C130_no_borrow_panic",
    "MCap.C130_uninterrupted",
    "MCap.C130_settles",
    "MCap.C130_answered",
    "MCap.C130_recv_error",
    "MCap.C130_validate_no_recv_error"
   ],
   "note": "Model/ClusterService: the service of Model/RedisService in which an actor takes a message only while no actor of its thread waits for the cluster. Which thread runs which actor is arbitrary; the calls may run on any thread."
  },
  {
   "property": "C131",
   "status": "proved",
   "theorems": [
    "MCap.C131_gets_challenge",
    "MCap.C131_gets_token",
    "MCap.C131_token_arrives",
    "MCap.C131_token_validates",
    "MCap.C131_keeps_up",
    "MCap.C131_cluster_gets_challenge",
    "MCap.C131_cluster_token_arrives",
    "MCap.C131_cluster_token_validates",
    "MCap.C131_cluster_keeps_up"
   ],
   "note": "The converse of C100 and C116. Replies of the module are arbitrary, so the claims start from what the server did."
  },
  {
   "property": "C132",
   "status": "proved",
   "theorems": [
    "MCap.C132_paid",
    "MCap.C132_separately",
    "MCap.C132_embedded_keeps"
   ],
   "note": "Model/OpenSystem: the contract is a condition on the log (Spec/Contract). A request to store counts as asked when the call is told that it was done or failed. C132_embedded_keeps holds for every run of the embedded system, cancelled calls and timers included."
  },
  {
   "property": "C133",
   "status": "proved",
   "theorems": [
    "MCap.C133_finitely_many_steps",
    "MCap.C133_settles",
    "MCap.C133_answered",
    "MCap.C133_answered_with_enough_workers",
    "MCap.C133_gets_challenge",
    "MCap.C133_gets_token",
    "MCap.C133_token_arrives",
    "MCap.C133_validation",
    "MCap.C133_calls_begin"
   ],
   "note": "Model/OpenSystem. The jobs that wait in the queue of their client for ever are the refutation of C63."
  }
 ]
}