# Formal model of mCaptcha/libmcaptcha in Lean 4

## Layout

* `lean/Verif/Model/*.lean`  – executable model, one file per source file; every definition cites `/repo` lines.
* `lean/Verif/Spec/*.lean`   – small specifications, written without the model's helpers.
* `lean/Verif/Proofs/*.lean` – lemmas and invariants.
* `lean/Verif/Props/*.lean`  – the property theorems (`Cnn_…`), with concrete non-vacuity `example`s beside them.
* `lean/Verif/Tests/Repo.lean` – the repository's own tests and documentation example replayed on the model. Tests of the model, no proofs.
* `properties.jsonl`, `MANIFEST.json`, `seeded/LOG.jsonl` – property list, claim status, mutation log.

## Modelling conventions

* `&mut self` methods become functions returning the new value. `Result`/`Option` stay data.
* A panic (failed `unwrap`, index out of range, checked overflow) is an explicit value `Exec.panic`, or, for an actor or a
  thread, the state in which it is gone.
* `u32`, `u64`, `usize` are `Nat`. The only arithmetic that can leave the range (`visitor_threshold += 1`,
  `len() - 1`) is modelled with the real width and a build profile (overflow checks on/off).
* `HashMap` is an association list with replace-on-insert. Where its iteration order matters, the order is not fixed.
* Actor messages: a request is one atomic step at the moment the recipient handles it, preceded and followed
  by arbitrary delay. This allows at least every schedule the real mailbox (FIFO) allows, so theorems "for every
  schedule" cover the real ones. Refutation witnesses use only schedules that respect FIFO order.
* Timers: a `sleep(d)` started at time `t` becomes a pending timer due at `t + d`; it may be delivered at any time
  not before it is due. "Prompt" schedules deliver every due timer before the clock moves on.
* Randomness and PoW arithmetic (`mcaptcha_pow_sha256`) are parameters; theorems quantify over all of them.

## What is modelled

| source | model | modelled | not modelled |
|---|---|---|---|
| `src/errors.rs` | `Model/Core`, `Model/Wire` | `CaptchaError`, its `Display` | `Error::source`, `From` (inlined where used) |
| `src/defense.rs` | `Model/Defense` | `Level`, `LevelBuilder`, `DefenseBuilder`, `Defense` | `Clone`, `Debug` |
| `src/mcaptcha.rs` | `Model/MCaptcha`, `Model/BuilderJson` | `MCaptchaBuilder`, `MCaptcha`, conversion to `CreateMCaptcha` | – |
| `src/master/embedded/counter.rs` | `Model/Counter` | all handlers and their timers | – |
| `src/master/embedded/master.rs` | `Model/Master` | registry, all handlers, tasks they spawn (garbage collection, removal, dump, restore) in small steps | log output |
| `src/master/mod.rs`, `src/cache/mod.rs` | `Model/MCaptcha`, `Model/Cache`, `Model/Wire`, `Model/Json` | messages, their JSON form | trait declarations |
| `src/cache/hashcache.rs` | `Model/Cache` | both maps, all handlers, expiry timers | – |
| `src/utils.rs`, `src/pow.rs` | `Model/Pow` | `get_random` over an arbitrary generator, `PoWConfig`, `Work`, `QueuedWork::validate` as a party of the bounded channel | the arithmetic of `mcaptcha_pow_sha256` (parameter) |
| `src/queue.rs` | `Model/Queue`, `Model/QueueDrop`, `Model/QueueFine` | manager thread, workers, rotation, `add`, `Drop` of both | scheduling of the operating system (any order) |
| `src/system.rs` | `Model/System`, `Model/OpenSystem`, `Model/Service`, `Model/RedisService` | builder; the three calls, any number in flight, cancellable, with cache, queue, workers and channels; the master's answers are arbitrary in `Model/System`, those of the embedded master in `Model/Service`; answers and failures of any cache and master in `Model/OpenSystem`; the Redis back ends in `Model/RedisService` | – |
| `src/redis/*.rs`, `src/cache/redis.rs`, `src/master/redis/master.rs` | `Model/Redis`, `Model/RedisNet`, `Model/RedisCluster`, `Model/ClusterService`, `Model/RedisOpen`, `Model/RedisDirect` | opening a back end (what the `redis` crate says about an address, a connection or a question is arbitrary), commands sent, treatment of every reply, actors, shared connection (single server and cluster), `SET … EX` and `DEL` of a server, commands and replies in flight | the mCaptcha Redis module (replies are arbitrary) |
| serde derives | `Model/Json`, `Model/Wire`, `Model/BuilderJson` | writer and reader of JSON, every derived struct of the library | values of numbers that are not natural (no field takes them) |

Tests, examples, `Cargo.toml` and feature flags are not modelled; everything is under the feature `full`.

Simplifications to keep in mind, each stated at its definition:

* In `Model/Queue` handling one message of the manager is one step. `Model/QueueFine` has one step per send; C128 proves that between
  messages it reaches the same states, with logs that differ in the interleaving only (so an answer may come after the job was run). When the
  manager stops while a worker is dead, no `Stop` is sent to the others: the real order is that of a `HashMap`, and a panic
  occurs at the dead one, so some may get it. `Model/QueueDrop` has the order, and C127 says what it changes.
* Durations are unbounded. tokio cuts a `sleep` that would leave the range of its clock to about thirty years; here it lasts as long as told.
* In `Model/System` pending messages of the cache are handled in any order, jobs are identified with the calls that made them.
* The server in `Model/Redis` knows `SET key value EX secs` and `DEL key` only; other commands get an error there. Replies to the
  commands of the module are arbitrary.
* In `Model/Redis` replies are those of protocol version 2; integers are converted with `as` casts as the `redis` crate does.

## Properties that the code violates

Where the unchanged code violates the property a user would want, the property keeps its full statement, a theorem
`Cnn_…_refuted` proves the negation from a concrete reachable state, and `Cnn_…_partial` proves what does hold. Their status in
`MANIFEST.json` is `partial`. The notes there give the reason in one sentence each. In short:

| property | behaviour of the code |
|---|---|
| C07 | `Defense::visitor_threshold` returns the difficulty factor |
| C13, C14 | the level in force oscillates at a boundary, and relaxes by at most one level per visit |
| C21, C34 | expiries pending at a restore eat restored visitors; visitors of sites created by a restore never expire |
| C30, C31, C32 | garbage collection can remove a fresh registration, discard visitors, or crash the master when racing with other requests |
| C125 | `SetInternalData` is answered before anything is restored; the restore may even replace a registration made after the answer |
| C126 | a backup taken under load mixes states of different moments |
| C39, C67 | presenting a token under a wrong key uses it up in memory but not in Redis; in the very second a token ends the two may differ |
| C41 | the deletion timer of an earlier entry removes a later one of the same string |
| C51, C72 | the queue never forgets addresses, while queues of one address and inboxes of workers are unbounded |
| C52, C60, C63, C84 | an accepted job can be stranded with all workers idle; the caller then polls for ever without yielding |
| C54 | a panicking job takes its worker and then the manager with it |
| C74 | jobs are handed to workers without regard to their backlog, so one idles while another has jobs waiting |
| C65 | a colon in a site key lets a token cross sites in Redis |
| C69 | a Redis server with another module listed first is refused |
| C70, C77 | replies beyond 32 bits are misread; some errors of Redis panic |
| C73 | a job of another client can complete after the whole backlog submitted before it |
| C78 | clones of a Redis master share a `RefCell` and panic when used at once |
| C79 | a caller giving up kills the Redis cache actor |
| C80 | the Redis cache never answers "unknown challenge" and never detects a wrong site |
| C82 | captchas read from JSON are not checked; some panic on the first visit |
| C83 | the Redis master panics on dump and restore |
| C86 | a zero duration is reported as a zero difficulty factor |
| C93 | a lost reply to a validation uses the token up; asking again says it is invalid |
| C102 | through C79: a call cancelled at the wrong moment makes every later call fail with `MailboxError` |
| C103 | `get_pow` answers `Ok(None)` when the connection to Redis fails |
| C105 | after a job panicked, dropping the queue panics and leaves worker threads spinning |
| C106 | opening a Redis back end panics on a malformed address, an unreachable server and refused questions |
| C111 | a `Counter` read from JSON never forgets the visitors it came with |
| C122 | on a Redis cluster the query blocks the thread with all its actors |
| C123 | C51 seen from the API: once as many addresses as the queue length were accepted, `verify_pow` fails for everybody and for good; also for any cache and master, and with Redis |
| C90 | a server without the module passes if the first module listed merely contains the name, or if the reply is no array |

## Plan per property

| id | model | proof |
|----|-------|-------|
| C01–C02 | `Model/Defense` builders | induction over call sequence |
| C03–C05 | `DefenseBuilder.build` (merge sort) | sortedness/permutation of merge sort, pairwise characterisation |
| C06–C07 | `Defense` | clamped-walk refinement |
| C08–C10 | `Model/MCaptcha` with build profile | induction over histories; exact overflow boundary |
| C11–C15 | `MCaptcha.addVisitor` | one-step characterisation; invariant "index within one of number of exceeded thresholds" |
| C16 | conversion | invariant: histories never change levels/duration |
| C17–C23 | `Model/Counter`, timed actor | invariants over event lists |
| C24–C28 | `Model/Master` | refinement to an abstract map |
| C29–C32 | `Model/Master` with in-flight tasks (small step) | sequential pass by induction on the snapshot; interleavings; invariants |
| C33–C34 | backup/restore | round trip of the registry |
| C35–C42 | `Model/Cache`, timed | history-based refinement |
| C43–C44 | `Model/Pow` two-party channel | invariant over interleavings |
| C45–C46 | `Model/Pow` | arithmetic; list facts |
| C47–C55, C72–C74 | `Model/Queue` | conservation/FIFO invariants over histories; rotation arithmetic |
| C56–C63 | `Model/System`: cache + queue + workers + calls in flight | global invariant over interleavings with a ghost log; termination measure |
| C64 | `SystemBuilder` | induction over calls |
| C65–C70, C75–C80, C83 | `Model/Redis` | string lemmas, history invariants, case analysis of replies |
| C71, C81, C82 | `Model/Json` | grammar as a relation; writer is sound, reader is sound and complete for it |
| C84 | `Model/System`, one thread | invariant of the jammed state; measure of the settled one |
| C85, C86 | `Model/Wire` | round trips; first characters of the texts |
| C87–C89 | `Model/Master` with in-flight tasks | invariants over tasks; a restore run task by task; the crashed state is absorbing |
| C90 | `is_module_loaded` on the debug text of a reply | substrings of escaped texts are substrings of the strings |
| C92, C93 | `Model/RedisNet` | projections to runs of the actors and to histories of tokens; counting invariant |
| C91 | `Model/Redis` actors | provenance invariant against a table of commands; table of answers |
| C94 | `Model/Wire`, `Model/Json` | the reader is equivalent to a relation on JSON values (`Spec/Wire`) |
| C95-C98 | `Model/Service` | a run projects to runs of system and master; the log explains every answer; every counter lives a life of Model/Counter |
| C99 | `Model/OpenSystem` | each step is one of `Model/System` with some cache, failures seen as closed mailboxes; its invariants that do not mention the cache carry over |
| C100–C104 | `Model/RedisService` | a run projects to runs of `Model/OpenSystem` and of `Model/RedisNet`; the log explains every answer of the cache and the master by the server's |
| C105 | `Model/Queue` after the drop | measure that every effective step lowers; invariants |
| C106, C107 | `Model/RedisOpen` | case analysis of outcomes, induction over the questions |
| C108 | `Model/MCaptcha`, `Model/Counter`, `Model/Service` | the level in force is reached only from a count above the one below it; counts are bounded by recent visits |
| C109 | `Model/MCaptcha`, `Model/Defense` | case analysis, induction over histories |
| C110, C111 | `Model/BuilderJson` | the reader is equivalent to a relation on JSON values; run of a counter without timers |
| C112 | `Model/Service` | C97 for every visit of the selection, by induction on its length |
| C113 | `Model/Cache` | every entry has a task that ends it when due; tasks are bounded by what was stored lately |
| C114 | `Model/Master`, `Model/Wire` | C33 (backup and restore are exact) composed with C94 (messages are read from exactly their texts); counters with the same captcha answer alike |
| C115 | `Model/System`, `Model/Service` | every call stores at most one thing, so the places of two payments coincide or are disjoint; then C112 for the visits that paid |
| C116 | `Model/RedisService` | a run of the server between storing and taking a token leaves it untouched; requests of one call differ in kind, so payments are separate |
| C117 | `Model/RedisService` | a measure that every step lowers while nobody sends anything new; a state at rest has no waiting call |
| C118, C119 | `Model/RedisService` | how far a call has come determines which requests it has sent; a request whose actor died before it began never leaves a trace |
| C120 | `Model/System`, `Model/OpenSystem` | after `Stop` the measure of C63 bounds every schedule; at rest every worker has left its loop |
| C67 (in time) | `Model/Cache` beside `RedisDb` | relation between the two stores, kept by every step of the clock, the deletions and the requests |
| C127 | `Model/QueueDrop`, the stop loop of `Drop for InnerManager` in a given order | induction over the order; a told worker keeps `Stop` in its inbox until it ends |
| C128 | `Model/QueueFine`, one step per send of the manager thread | a send commutes with any effective step of others before it; the invariant writes every state amid a message as: part of the message, then steps of others |
| C129 | `Model/RedisDirect`, the methods of `MCaptchaRedisConnection` used directly | case analysis; JSON and digits are injective because they are read back |
| C130 | `Model/ClusterService`, the service of `Model/RedisService` with threads that wait for the cluster | a run is a run of `Model/RedisService` with fewer steps; invariant on what each thread has under way; the measure of C117 |
| C131 | `Model/RedisService`, `Model/ClusterService` | C100, C103, C104 and C117; the server replies once to each request of a call |
| C132 | `Model/OpenSystem` with a condition on the log | each call has at most one store request answered; why it was sent (`Masked`, `Pending` of C99); the embedded cache by the invariant of C115 |
| C133 | `Model/OpenSystem` | the measure of C63 for the steps of the open system, the invariants of C99 at rest; each question of a call is answered once |
| C121, C122 | `Model/RedisCluster` | while a command is under way no other step is possible; a run without these steps is one of `Model/Redis` |
| C123 | `Model/System`, `Model/OpenSystem`, `Model/RedisService` | the run of the queue inside the system (C50); a schedule that takes up one place after the other, by induction; for other caches: a job is accepted after its call, which is made once, in every prefix of the log |
| C124 | `Model/Service` | two invariants over the log: a counter that is gone was stopped; a task that stops a counter was spawned for an idle or a removed site |
| C125, C126 | `Model/Master` | an invariant for a tagged task: the restoring task stays in the list until it acts; the collecting task holds what it has polled at some earlier moment and what it has still to poll |

## Tests with wrong programs

`seeded/LOG.jsonl` has one line per edit of the model that was tried in a scratch copy: the edited definition, the edit, the claim it
breaks, the theorems that failed, the theorems that were tightened. A theorem is listed as failed if the negation of its statement was
proved on the edited model from a concrete witness, not merely if its old proof broke. Every theorem named in `MANIFEST.json`, the
refutations excepted, is listed as failed at least once. The scripts are not part of the build.

## Trusted base

* Lean 4.33.0 kernel. No axioms are added; no `sorry`, `native_decide` or `bv_decide`.
* Faithfulness of the model to the Rust text, checked by reading only (the code is never run).
* External crates (actix, tokio, crossbeam, serde_json, redis, mcaptcha_pow_sha256, rand) behave as described in the
  comments of the definitions that model them.

## Axioms of each property theorem

As printed by `#print axioms`. Only the three standard axioms of Lean occur.

No axioms (1):
`C77_add_token_refuted`.

`propext` (11):
`C01_factor_zero_refused`, `C01_level_builder_last_settings`, `C07_visitor_threshold_partial`, `C20_snapshot_restore`, `C22_stop_stops`, `C39_wrong_key_harmless_refuted`, `C42_stores_separate`, `C64_builder_needs_all`, `C65_keys_unambiguous_refuted`, `C86_texts_differ_refuted`, `C91_ping`.

`Quot.sound`, `propext` (34):
`C01_built_level_positive`, `C02_refusal_changes_nothing`, `C05_build_repeatable`, `C08_mcaptcha_builder_outcome`, `C09_decrement_truncates`, `C105_drop_is_clean_refuted`, `C109_in_range_is_kept`, `C109_moves`, `C109_quote_panics_iff`, `C109_visit_panics_iff`, `C10_overflow_boundary`, `C111_visits_leave_partial`, `C11_departures_keep_level`, `C11_visit_moves_one_level`, `C17_no_visitor_forgotten`, `C18_sliding_window`, `C19_count_bounded_by_scheduled`, `C21_restored_stay_counted_partial`, `C22_stopped_is_inert`, `C23_visit_answer`, `C39_wrong_key_harmless_partial`, `C41_recached_full_lifetime_refuted`, `C43_verdict_arrives`, `C43_verdict_exact`, `C44_blocked_only_by_unread`, `C44_worker_finishes`, `C45_accepted_share`, `C45_target`, `C51_drained_but_full_refuted`, `C52_every_job_run_refuted`, `C54_crash_contained_partial`, `C54_crash_contained_refuted`, `C72_client_bounded_refuted`, `C74_no_idle_worker_refuted`.

`Classical.choice`, `Quot.sound`, `propext` (360):
`C02_duplicates_refused`, `C03_build_outcome`, `C03_build_succeeds_iff`, `C04_built_shape`, `C05_accepted_decide`, `C05_builds_between`, `C05_order_irrelevant`, `C06_moves_monotone`, `C06_walk_clamped`, `C07_visitor_threshold_refuted`, `C09_visitor_count_exact`, `C100_get_on_redis`, `C100_token_costs_work`, `C100_validate_exact`, `C100_verify_on_redis`, `C101_single_use`, `C102_giving_up_partial`, `C102_giving_up_refuted`, `C103_failures_partial`, `C103_failures_refuted`, `C104_get_errors`, `C104_validate_errors`, `C104_verify_errors`, `C105_drop_is_clean_partial`, `C106_opening_reports_partial`, `C106_opening_reports_refuted`, `C107_opening_only_asks`, `C108_price_needs_load`, `C108_quiet_site_stays_cheap`, `C108_window_explains_price`, `C10_states_valid`, `C110_builder_read_exact`, `C110_builder_round_trip`, `C111_visitors_leave_refuted`, `C112_burst_costs`, `C113_cache_empties`, `C113_cache_memory`, `C114_backup_through_text`, `C115_burst_of_tokens`, `C115_paid_separately`, `C116_count`, `C116_paid`, `C116_separately`, `C117_answered`, `C117_answered_with_enough_workers`, `C117_calls_begin`, `C117_finitely_many_steps`, `C117_settles`, `C118_mailbox_error`, `C118_recv_error`, `C118_validate_undone`, `C119_each_request_once`, `C119_no_request_after`, `C119_own_requests`, `C120_drop_ends`, `C120_drop_goes_ahead`, `C120_drop_is_clean`, `C120_open_drop_ends`, `C120_open_goes_ahead`, `C121_as_single`, `C121_clone_answers`, `C121_no_borrow_panic`, `C121_serial_same`, `C121_uninterrupted`, `C122_other_threads_partial`, `C122_others_go_on_partial`, `C122_others_go_on_refuted`, `C122_thread_waits`, `C123_few_calls_refuted`, `C123_full_iff_partial`, `C123_locked_out_refuted`, `C124_none_explained`, `C125_acknowledged_in_effect_partial`, `C125_acknowledged_in_effect_refuted`, `C125_registration_replaced_refuted`, `C126_backup_is_a_snapshot_refuted`, `C126_backup_moments_partial`, `C127_order_irrelevant`, `C127_panics_iff`, `C127_told_ends`, `C127_told_iff`, `C127_untold_spins`, `C128_drop_panics`, `C128_never_panics`, `C128_no_fewer`, `C128_one_step`, `C128_orders`, `C128_runs_before_answer`, `C129_answers`, `C129_checked`, `C129_commands`, `C129_distinct`, `C129_errors`, `C129_panics_iff`, `C12_never_more_than_one_below`, `C12_quote_is_level_in_force`, `C12_rising_load`, `C130_answered`, `C130_as_single`, `C130_no_borrow_panic`, `C130_paid`, `C130_recv_error`, `C130_settles`, `C130_single_use`, `C130_uninterrupted`, `C130_validate_no_recv_error`, `C131_cluster_gets_challenge`, `C131_cluster_keeps_up`, `C131_cluster_token_arrives`, `C131_cluster_token_validates`, `C131_gets_challenge`, `C131_gets_token`, `C131_keeps_up`, `C131_token_arrives`, `C131_token_validates`, `C13_oscillation_in_band`, `C13_stable_iff_partial`, `C13_stable_in_band_partial`, `C13_stable_in_band_refuted`, `C14_follows_load_partial`, `C14_relaxes_at_once_refuted`, `C14_relaxes_gradually_partial`, `C15_difficulty_configured`, `C16_create_payload`, `C19_load_drains`, `C21_restored_stay_counted_refuted`, `C24_map_is_observable`, `C24_no_shared_counter`, `C24_registry_is_a_map`, `C25_sites_isolated`, `C25_tasks_isolated`, `C25_visit_elsewhere`, `C26_known_site`, `C26_stopped_counter`, `C26_unknown_site`, `C27_rename_moves_counter`, `C27_rename_unknown`, `C28_remove_answers`, `C28_remove_unknown`, `C28_remove_unregisters`, `C28_removed_counter_stops`, `C29_gc_removes_exactly_idle`, `C29_visited_is_history`, `C30_fresh_registration_partial`, `C30_unvisited_survive_partial`, `C30_unvisited_survive_refuted`, `C31_discarded_bounded_partial`, `C31_no_visitors_discarded_partial`, `C31_no_visitors_discarded_refuted`, `C32_gc_never_crashes_partial`, `C32_gc_never_crashes_refuted`, `C32_rename_race_refuted`, `C33_backup_exact`, `C33_restore_exact`, `C34_restored_visitors_expire_partial`, `C34_restored_visitors_expire_refuted`, `C35_cache_returns_stored`, `C36_challenge_once`, `C36_retrieved_until_recached`, `C37_presented_until_reissued`, `C37_token_once`, `C38_token_bound_to_site`, `C39_wrong_key_burns_refuted`, `C40_challenge_lifetime`, `C40_token_lifetime`, `C41_one_expiry_per_issue`, `C41_recached_after_expiry_partial`, `C41_recached_full_lifetime_partial`, `C42_no_mixing`, `C42_tokens_independent`, `C45_zero_unreachable`, `C46_challenge_and_token`, `C46_random_complete`, `C46_random_shape`, `C47_counted`, `C47_one_place`, `C48_submission_order`, `C48_worker_order`, `C49_round_robin`, `C50_admission`, `C50_answered`, `C51_full_queue_recovers_partial`, `C51_full_queue_recovers_refuted`, `C52_every_job_run_partial`, `C52_turns_exact_partial`, `C52_waits_bounded_turns_partial`, `C53_manager_never_panics`, `C54_manager_stays_partial`, `C54_orphans_end_partial`, `C55_afterwards_nothing`, `C55_answered_before_stop`, `C55_dispatched_run_waiting_dropped`, `C55_shutdown_completes`, `C55_shutdown_inevitable`, `C56_no_token_without_work`, `C57_one_acceptance_per_token`, `C57_one_token_per_challenge`, `C58_difficulty_enforced_is_quoted`, `C58_rejected_at_quoted`, `C59_challenge_used_up`, `C59_later_attempts_fail`, `C60_challenge_in_time`, `C60_honest_client_succeeds_refuted`, `C60_solution_gets_token_partial`, `C60_token_arrives_partial`, `C60_token_in_time`, `C60_token_validates`, `C60_validation_arrives`, `C61_get_pow_outcome`, `C61_master_decides`, `C62_error_classification`, `C62_lookup`, `C62_own_address`, `C63_always_answers_refuted`, `C63_answered_unless_waiting_partial`, `C63_answered_with_enough_workers_partial`, `C63_calls_begin`, `C63_despite_crashes_partial`, `C63_finitely_many_steps_partial`, `C63_settles_partial`, `C65_prefix`, `C65_site_keys_partial`, `C65_token_crosses_sites_refuted`, `C65_tokens_partial`, `C66_bound_to_site`, `C66_single_use`, `C66_stored`, `C66_verdict`, `C67_last_second_refuted`, `C67_same_answers_in_time_partial`, `C67_same_answers_partial`, `C67_same_answers_refuted`, `C68_all_answered`, `C68_answers_genuine`, `C68_in_order`, `C68_no_borrow_panic`, `C68_no_overlap`, `C69_module_accepted_partial`, `C69_module_accepted_refuted`, `C69_opens_iff_partial`, `C69_opens_partial`, `C70_captcha_exists`, `C70_captcha_exists_text`, `C70_errors`, `C70_get_token_any_partial`, `C70_get_token_partial`, `C70_get_token_refuted`, `C70_get_token_text`, `C70_get_visitors_any_partial`, `C70_get_visitors_partial`, `C70_get_visitors_refuted`, `C70_no_panic`, `C71_captcha_round_trip`, `C71_challenge_injective`, `C71_challenge_round_trip`, `C71_challenge_text`, `C72_client_bounded_partial`, `C72_client_queue_bounded_refuted`, `C73_backlog_delays_others_partial`, `C73_backlog_delays_others_refuted`, `C74_no_idle_worker_partial`, `C75_no_panic`, `C75_nothing_after_cancel`, `C75_returns_once`, `C76_commands_used`, `C76_lacking_refused`, `C76_names_command`, `C76_opens`, `C77_add_visitor_refuted`, `C77_bad_replies_partial`, `C77_crashes_partial`, `C77_errors_reported_partial`, `C77_get_challenge_refuted`, `C77_json_read_partial`, `C77_new_refuted`, `C77_zero_duration_refuted`, `C78_clones_partial`, `C78_clones_refuted`, `C79_giving_up_kills`, `C79_giving_up_partial`, `C79_giving_up_refuted`, `C80_lookup_partial`, `C80_not_found_refuted`, `C81_mcaptcha_round_trip`, `C82_read_coherent_refuted`, `C82_read_exact_partial`, `C82_read_in_range_partial`, `C82_read_valid_refuted`, `C83_internal_data_refuted`, `C83_served_partial`, `C84_bad_proof_hangs_refuted`, `C84_leaves_loop_partial`, `C84_thread_hangs_refuted`, `C85_add_site_round_trip`, `C85_cache_pow_round_trip`, `C85_cache_result_round_trip`, `C85_cached_config_round_trip`, `C85_create_round_trip`, `C85_defense_round_trip`, `C85_internal_data_round_trip`, `C85_level_round_trip`, `C85_newtype_round_trip`, `C85_pow_config_round_trip`, `C85_rename_round_trip`, `C85_verify_round_trip`, `C85_visitor_round_trip`, `C85_work_any_order`, `C85_work_read`, `C85_work_round_trip`, `C86_same_text_iff_partial`, `C86_texts_differ_partial`, `C87_collection_needs_no_client`, `C87_collectors_never_end`, `C88_restore_in_place`, `C89_counters_survive`, `C89_crash_is_final`, `C90_no_list_refused_refuted`, `C90_no_module_refused_partial`, `C90_no_module_refused_refuted`, `C90_no_modules_partial`, `C90_opens_partial`, `C90_refusals_partial`, `C91_answers`, `C91_commands`, `C91_numbers`, `C92_bound_and_fresh`, `C92_server_exact`, `C92_single_use`, `C93_repeat_partial`, `C93_repeat_refuted`, `C94_add_challenge`, `C94_add_site`, `C94_cache_pow`, `C94_cache_result`, `C94_cached_config`, `C94_create_mcaptcha`, `C94_defense`, `C94_internal_data`, `C94_level`, `C94_newtype`, `C94_pow_config`, `C94_rename`, `C94_verify`, `C94_visitor`, `C94_work`, `C95_challenge_is_charged`, `C95_counted_at_most_once`, `C95_no_challenge`, `C95_right_counter`, `C96_tokens_cost_configured_work`, `C97_load_raises_the_price`, `C98_calls_begin`, `C98_finitely_many_steps`, `C98_get_pow_is_answered`, `C98_settles`, `C99_counts`, `C99_get_outcome`, `C99_returns_once`, `C99_validate_outcome`, `C99_verify_outcome`.
