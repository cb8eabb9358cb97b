{"id": "C01", "title": "LevelBuilder yields exactly the last accepted settings", "statement": "After any sequence of visitor_threshold/difficulty_factor calls, LevelBuilder::build returns the level made of the last threshold set and the last non-zero difficulty factor set; it fails with SetVisitorThreshold if no threshold was set, else with SetDifficultyFactor if no non-zero factor was set. difficulty_factor(0) always fails with DifficultyFactorZero and changes nothing, so a built Level never has factor 0.", "quantifier": "every finite sequence of builder calls with every u32 argument", "why_tests_cant": "call sequences are unbounded; tests try three of them", "anchors": ["src/defense.rs: LevelBuilder::visitor_threshold, difficulty_factor, build"]}
{"id": "C02", "title": "Duplicate thresholds are refused without side effects", "statement": "DefenseBuilder::add_level fails with DuplicateVisitorCount exactly when a previously accepted level has the same visitor threshold, and a refused call leaves the builder unchanged; so after any sequence of calls the accepted levels have pairwise distinct thresholds and are the first submission of each threshold.", "quantifier": "every finite sequence of add_level calls", "why_tests_cant": "unbounded sequences of levels", "anchors": ["src/defense.rs: DefenseBuilder::add_level"]}
{"id": "C03", "title": "Defense build accepts exactly the coherent configurations", "statement": "DefenseBuilder::build succeeds iff at least one level was added, no level has difficulty 0, and a higher visitor threshold never carries a lower difficulty. Otherwise it fails with LevelEmpty, DifficultyFactorZero or DecreaseingDifficultyFactor, tested in that order.", "quantifier": "every finite set of levels in every insertion order", "why_tests_cant": "configuration space is unbounded", "anchors": ["src/defense.rs: DefenseBuilder::build"]}
{"id": "C04", "title": "A built Defense is sorted, complete and starts at the lowest level", "statement": "A successfully built Defense holds exactly the levels that were added, in strictly ascending threshold order with non-decreasing difficulty, and its current level is the one with the smallest threshold.", "quantifier": "every successful build after any sequence of add_level calls", "why_tests_cant": "sortedness and completeness over all inputs", "anchors": ["src/defense.rs: DefenseBuilder::build, Defense"]}
{"id": "C05", "title": "Level insertion order is irrelevant and build is repeatable", "statement": "Adding the same levels with distinct thresholds in any order gives the same build outcome (same Defense or same error); with repeated thresholds, where only the first level of each threshold is accepted, the outcome depends on the accepted levels only, not on their order; calling build twice on a builder gives the same outcome twice.", "quantifier": "every pair of level lists whose accepted levels are the same", "why_tests_cant": "factorially many orders", "anchors": ["src/defense.rs: DefenseBuilder::add_level, build"]}
{"id": "C06", "title": "Walking the defense levels never leaves the configured range", "statement": "From a built Defense, after any sequence of tighten_up, loosen_up, max_defense, min_defense no call panics; the position is the one an integer walk clamped to [lowest, highest] would have; tighten_up never lowers and loosen_up never raises the difficulty; at the top tighten_up and at the bottom loosen_up change nothing.", "quantifier": "every built Defense and every call sequence, in builds with and without overflow checks", "why_tests_cant": "unbounded call sequences", "anchors": ["src/defense.rs: Defense::tighten_up, loosen_up, max_defense, min_defense, get_difficulty, current_level"]}
{"id": "C07", "title": "Defense::visitor_threshold reports the current level's visitor threshold", "statement": "Defense::visitor_threshold returns the visitor threshold of the current level.", "quantifier": "every Defense value", "why_tests_cant": "equality over all configurations", "anchors": ["src/defense.rs: Defense::visitor_threshold"]}
{"id": "C08", "title": "MCaptchaBuilder outcome is determined by its last settings", "statement": "MCaptchaBuilder::build fails with PleaseSetValue(duration) if no duration was set, else PleaseSetValue(defense) if no defense was set, else CaptchaDurationZero if the last duration is 0, else returns an mCaptcha with the last duration, the last defense and zero visitors.", "quantifier": "every finite sequence of builder calls", "why_tests_cant": "unbounded sequences", "anchors": ["src/mcaptcha.rs: MCaptchaBuilder::defense, duration, build"]}
{"id": "C09", "title": "Visitor count is exact and never underflows", "statement": "For every history of add_visitor and decrement_visitor_by, get_visitors equals the fold of +1 and truncated subtraction, as long as it stays below 2^32; decrementing by more than the count gives 0.", "quantifier": "every history of visits and decrements", "why_tests_cant": "unbounded histories", "anchors": ["src/mcaptcha.rs: MCaptcha::add_visitor, decrement_visitor_by, get_visitors"]}
{"id": "C10", "title": "Visitor count overflow boundary", "statement": "add_visitor panics (overflow-checked builds) or wraps to 0 (unchecked builds) exactly when the count is 2^32-1; in every other valid state it never panics.", "quantifier": "every mCaptcha state reachable from built parts (moved levels and any traffic included), both build profiles", "why_tests_cant": "needs 2^32 calls to reach", "anchors": ["src/mcaptcha.rs: MCaptcha::add_visitor"]}
{"id": "C11", "title": "A visit moves the defense by at most one level, in the direction of the load", "statement": "On each add_visitor the level goes up by one iff the new visitor count exceeds the current level's threshold and a higher level exists, goes down by one iff it does not exceed it and a lower level exists, and otherwise stays; decrement_visitor_by never changes the level or the difficulty.", "quantifier": "every valid mCaptcha state", "why_tests_cant": "all states", "anchors": ["src/mcaptcha.rs: MCaptcha::add_visitor, decrement_visitor_by"]}
{"id": "C12", "title": "Difficulty tracks rising load", "statement": "Starting from a freshly built mCaptcha, after any number of visits with no departures the quoted difficulty belongs to the level just reached or the one immediately below it, where the reached level is the number of thresholds the count exceeds; once the count exceeds every threshold the highest difficulty is quoted, and while it exceeds none the lowest. In every history, departures included, the level in force is never more than one below the number of thresholds the count exceeds.", "quantifier": "every built defense and every number of visits", "why_tests_cant": "every configuration and every count", "anchors": ["src/mcaptcha.rs: MCaptcha::add_visitor, get_difficulty"]}
{"id": "C13", "title": "At an unchanged load band the quoted difficulty is stable", "statement": "Two consecutive visitors whose counts lie strictly between the same two adjacent thresholds are quoted the same difficulty.", "quantifier": "every built defense and load band", "why_tests_cant": "all configurations and phases", "anchors": ["src/mcaptcha.rs: MCaptcha::add_visitor"]}
{"id": "C14", "title": "Difficulty relaxes once load is gone", "statement": "When the visitor count has dropped back to or below the lowest threshold, the next visitor is quoted the lowest difficulty.", "quantifier": "every reachable mCaptcha state", "why_tests_cant": "needs deep histories to expose", "anchors": ["src/mcaptcha.rs: MCaptcha::add_visitor, decrement_visitor_by"]}
{"id": "C15", "title": "Quoted difficulty is always one the operator configured", "statement": "In every history of visits, departures and level moves from a built mCaptcha, get_difficulty does not panic and returns the difficulty of one of the configured levels; it is never 0 and lies between the lowest and highest configured difficulty.", "quantifier": "every history", "why_tests_cant": "unbounded histories", "anchors": ["src/mcaptcha.rs: MCaptcha::get_difficulty", "src/defense.rs: Defense::get_difficulty"]}
{"id": "C16", "title": "Redis registration payload carries the operator's configuration", "statement": "Converting an mCaptcha to CreateMCaptcha keeps exactly its levels (in order) and its duration, whatever its history of visits.", "quantifier": "every history", "why_tests_cant": "all histories", "anchors": ["src/mcaptcha.rs: impl From<MCaptcha> for CreateMCaptcha", "src/defense.rs: impl From<Defense> for Vec<Level>"]}
{"id": "C17", "title": "A live visitor is never forgotten early", "statement": "Without SetInternalData, for every schedule of visits, clock advances and arbitrarily late timer deliveries, the visitor count equals initial count + visits - expiries delivered, and is therefore at least the number of visits made less than `duration` ago.", "quantifier": "every interleaving of visits, clock advances and timer deliveries on a running counter with fewer than 2^32 visitors", "why_tests_cant": "unbounded schedules and timer delays", "anchors": ["src/master/embedded/counter.rs: Handler<AddVisitor>, Handler<DeleteVisitor>, GetCurrentVisitorCount"]}
{"id": "C18", "title": "With timely timers the count is exactly the sliding-window load", "statement": "If expiry messages are delivered as soon as due, then at every moment the visitor count equals the number of AddVisitor messages handled in the last `duration` seconds.", "quantifier": "every schedule with prompt timers on a running counter with fewer than 2^32 visitors", "why_tests_cant": "unbounded schedules", "anchors": ["src/master/embedded/counter.rs: Handler<AddVisitor>, Handler<DeleteVisitor>"]}
{"id": "C19", "title": "Load always drains to zero", "statement": "In every history, including SetInternalData restores, starting from an idle counter, once every scheduled expiry has been delivered the visitor count is 0; the count never exceeds the decrements still scheduled.", "quantifier": "every history and delivery order", "why_tests_cant": "unbounded histories", "anchors": ["src/master/embedded/counter.rs: Handler<SetInternalData>, Handler<BulkDecrement>, Handler<DeleteVisitor>"]}
{"id": "C20", "title": "Counter snapshot and restore are exact", "statement": "GetInternalData returns precisely the current state and changes nothing; after SetInternalData(m) the next GetInternalData returns m.", "quantifier": "every counter state", "why_tests_cant": "all states", "anchors": ["src/master/embedded/counter.rs: Handler<GetInternalData>, Handler<SetInternalData>"]}
{"id": "C21", "title": "Restored visitors stay counted for their full duration", "statement": "After SetInternalData(m) on a running counter, m's visitors remain counted until the restored duration has elapsed.", "quantifier": "every counter state and schedule", "why_tests_cant": "depends on the timers pending at restore", "anchors": ["src/master/embedded/counter.rs: Handler<SetInternalData>"]}
{"id": "C22", "title": "A stopped counter is inert", "statement": "After Stop every further request to the counter fails with a mailbox error and no timer changes anything.", "quantifier": "every state and every subsequent history", "why_tests_cant": "unbounded histories after stop", "anchors": ["src/master/embedded/counter.rs: Handler<Stop>"]}
{"id": "C23", "title": "AddVisitor answers with the configured duration and the updated difficulty", "statement": "The reply to AddVisitor carries the site's configured duration and the difficulty of the level reached after counting that visitor; exactly one expiry is scheduled, `duration` seconds ahead.", "quantifier": "every valid state of a running counter below 2^32-1 visitors", "why_tests_cant": "all states", "anchors": ["src/master/embedded/counter.rs: Handler<AddVisitor>", "src/master/mod.rs: AddVisitorResult::new"]}
{"id": "C24", "title": "The site registry behaves like a map", "statement": "For every sequence of AddSite, RemoveCaptcha, Rename, AddVisitor and GetSite messages handled to completion, which site ids are known and which counter each id denotes is what an abstract map with insert, delete and move would give.", "quantifier": "every operation sequence", "why_tests_cant": "unbounded sequences", "anchors": ["src/master/embedded/master.rs: add_site, get_site, rm_site, rename"]}
{"id": "C25", "title": "Sites are isolated", "statement": "An operation on one site never changes the visitor count, difficulty, configuration or registration of a site with another id.", "quantifier": "every registry state, operation and other id", "why_tests_cant": "all pairs of ids and states", "anchors": ["src/master/embedded/master.rs: Handler<AddVisitor>, Handler<RemoveCaptcha>, Handler<AddSite>"]}
{"id": "C26", "title": "Visits to unknown sites are reported as absent", "statement": "AddVisitor for an unregistered id yields Ok(None) and changes nothing; for a registered id with a live counter it yields that counter's reply.", "quantifier": "every registry state and id; counters in a valid state below 2^32-1 visitors", "why_tests_cant": "all states", "anchors": ["src/master/embedded/master.rs: Handler<AddVisitor>"]}
{"id": "C27", "title": "Rename keeps the visitors", "statement": "Rename moves the running counter, with its count, level and pending expiries, to the new id; the old id becomes unknown; renaming an unknown id changes nothing; a previous holder of the new id is dropped from the registry.", "quantifier": "every registry state and pair of ids", "why_tests_cant": "all states, including equal ids", "anchors": ["src/master/embedded/master.rs: rename, Handler<Rename>"]}
{"id": "C28", "title": "Removed sites are gone and stopped", "statement": "After RemoveCaptcha(id) is handled, id is unknown and, once its stop message is handled, its counter is stopped; removing an unknown id succeeds and changes nothing.", "quantifier": "every registry state", "why_tests_cant": "all states", "anchors": ["src/master/embedded/master.rs: Handler<RemoveCaptcha>, rm_site"]}
{"id": "C29", "title": "A garbage collection pass removes exactly the idle visited sites", "statement": "A CleanUp pass that runs without interference removes exactly those sites that were looked up at least once since registration or rename and whose visitor count is zero; every other site keeps its counter untouched.", "quantifier": "every registry of any size whose counters are all alive", "why_tests_cant": "any number of sites and states", "anchors": ["src/master/embedded/master.rs: Handler<CleanUp>"]}
{"id": "C30", "title": "Garbage collection never removes a registration that was never visited", "statement": "Under every interleaving, a site registered by AddSite that has not been looked up since is not removed by garbage collection.", "quantifier": "every interleaving of CleanUp with other messages", "why_tests_cant": "needs an exact interleaving", "anchors": ["src/master/embedded/master.rs: Handler<CleanUp>, Handler<AddSite>, Handler<RemoveCaptcha>"]}
{"id": "C31", "title": "Garbage collection never discards counted visitors", "statement": "Under every interleaving, garbage collection only stops counters that have no visitors at that moment.", "quantifier": "every interleaving of CleanUp with AddVisitor", "why_tests_cant": "needs an exact interleaving", "anchors": ["src/master/embedded/master.rs: Handler<CleanUp>"]}
{"id": "C32", "title": "Garbage collection never crashes the service", "statement": "Under every interleaving of the master's messages, the CleanUp task never hits a failing unwrap.", "quantifier": "every interleaving", "why_tests_cant": "needs an exact interleaving", "anchors": ["src/master/embedded/master.rs: Handler<CleanUp>"]}
{"id": "C33", "title": "Backup and restore through the master reproduce every site", "statement": "GetInternalData on a quiescent master returns exactly the state of every registered site, and SetInternalData of that map into a fresh master registers exactly those sites with exactly that state.", "quantifier": "every registry of any size whose counters are all alive", "why_tests_cant": "any number of sites", "anchors": ["src/master/embedded/master.rs: Handler<GetInternalData>, Handler<SetInternalData>"]}
{"id": "C34", "title": "Visitors restored into a fresh master eventually expire", "statement": "After SetInternalData into a master that does not know the site, the restored visitors stop being counted after the site's duration.", "quantifier": "every restored state and schedule", "why_tests_cant": "needs waiting for ever", "anchors": ["src/master/embedded/master.rs: Handler<SetInternalData>, Handler<AddSite>", "src/master/embedded/counter.rs: Handler<SetInternalData>"]}
{"id": "C35", "title": "The in-memory cache returns exactly what was stored", "statement": "RetrivePoW returns the key, difficulty factor and duration of the latest CachePoW for that string if it has neither been retrieved nor expired since, and None otherwise.", "quantifier": "every history of cache messages and timer deliveries", "why_tests_cant": "unbounded histories", "anchors": ["src/cache/hashcache.rs: save_pow_config, retrive_pow_config, Handler<CachePoW>, Handler<RetrivePoW>, Handler<DeletePoW>"]}
{"id": "C36", "title": "A challenge can be retrieved at most once per issue", "statement": "In every history the number of successful RetrivePoW for a string never exceeds the number of CachePoW for it; a successful retrieval is followed by None until it is cached again.", "quantifier": "every history", "why_tests_cant": "replay over unbounded histories", "anchors": ["src/cache/hashcache.rs: retrive_pow_config"]}
{"id": "C37", "title": "A token validates at most once per issue", "statement": "In every history the number of VerifyCaptchaResult answered true for a token never exceeds the number of CacheResult for that token.", "quantifier": "every history", "why_tests_cant": "replay over unbounded histories", "anchors": ["src/cache/hashcache.rs: verify_captcha_result"]}
{"id": "C38", "title": "A token validates only for the site it was issued to", "statement": "VerifyCaptchaResult answers true only if the latest CacheResult for the token carried the same key and the token was neither presented nor expired since.", "quantifier": "every history, token and key", "why_tests_cant": "all histories", "anchors": ["src/cache/hashcache.rs: verify_captcha_result"]}
{"id": "C39", "title": "A failed validation does not consume someone else's token", "statement": "Presenting a token under the wrong key leaves the token valid for its owner.", "quantifier": "every cache state, token and pair of keys", "why_tests_cant": "all states", "anchors": ["src/cache/hashcache.rs: verify_captcha_result"]}
{"id": "C40", "title": "Challenges and tokens expire on time", "statement": "With timely timers and strings never reused, a stored challenge (token) that has not been consumed can be retrieved (validated) exactly until `duration` seconds after it was stored.", "quantifier": "every schedule with prompt timers and distinct strings", "why_tests_cant": "unbounded schedules", "anchors": ["src/cache/hashcache.rs: Handler<CachePoW>, Handler<CacheResult>"]}
{"id": "C41", "title": "A re-cached challenge gets a full lifetime", "statement": "If a string is cached again, the new entry lives for its own full duration.", "quantifier": "every schedule", "why_tests_cant": "depends on pending timers", "anchors": ["src/cache/hashcache.rs: Handler<CachePoW>"]}
{"id": "C42", "title": "Challenges and tokens do not mix", "statement": "A string that was only cached as a challenge never validates as a token, and a token is never retrievable as a challenge; operations on one store never affect the other.", "quantifier": "every history", "why_tests_cant": "all histories", "anchors": ["src/cache/hashcache.rs: difficulty_map, result_map"]}
{"id": "C43", "title": "Proof verdict is exact under every interleaving", "statement": "Whatever the interleaving of the worker's sends and the verifier's polling, the verdict read by verify_pow is true iff the proof has sufficient difficulty and is valid for the challenge string.", "quantifier": "every interleaving, every proof", "why_tests_cant": "interleavings of two threads over a bounded channel", "anchors": ["src/pow.rs: QueuedWork::validate, QueuedWork::new", "src/system.rs: verify_pow loop"]}
{"id": "C44", "title": "A worker is never stuck on a verdict nobody reads", "statement": "Once the verifier has read a verdict or gone away, the worker that runs the proof can always finish, whatever the proof.", "quantifier": "every interleaving and every proof", "why_tests_cant": "needs the channel to fill", "anchors": ["src/pow.rs: QueuedWork::validate"]}
{"id": "C45", "title": "Difficulty target is well defined and monotone", "statement": "For factors in 1..2^32-1 the documented target u128::MAX - u128::MAX/factor is below 2^128, never decreases with the factor, and factor 1 accepts every result; factor 0 is a division by zero, which builders make unreachable.", "quantifier": "every factor", "why_tests_cant": "2^32 factors", "anchors": ["src/defense.rs: LevelBuilder::difficulty_factor docs"]}
{"id": "C46", "title": "Challenge and token strings have the requested shape", "statement": "get_random(len) returns exactly len characters, all alphanumeric ASCII, for any outcome of the generator; challenge and token strings have 32.", "quantifier": "every length and every generator output", "why_tests_cant": "all generator outputs", "anchors": ["src/utils.rs: get_random", "src/pow.rs: PoWConfig::new", "src/cache/mod.rs: From<CachedPoWConfig> for CacheResult"]}
{"id": "C47", "title": "The queue neither loses nor duplicates accepted jobs", "statement": "In every history of submissions and worker completions each accepted job is, at every moment, in exactly one place: waiting in its client's queue or handed to exactly one worker; refused jobs are nowhere.", "quantifier": "every history and number of workers", "why_tests_cant": "unbounded histories", "anchors": ["src/queue.rs: InnerManager::schedule, dispatch, dispatch_to"]}
{"id": "C48", "title": "Jobs of one client start in submission order", "statement": "For every client address, jobs are handed to workers in the order they were accepted.", "quantifier": "every history", "why_tests_cant": "unbounded histories", "anchors": ["src/queue.rs: schedule, dispatch_to"]}
{"id": "C49", "title": "Round-robin fairness between clients", "statement": "Among any n consecutive dispatches with n known clients and no new client, every client's queue is served exactly once.", "quantifier": "every queue state and rotation position", "why_tests_cant": "all states", "anchors": ["src/queue.rs: dispatch_to"]}
{"id": "C50", "title": "Admission depends only on the number of distinct clients", "statement": "A submission is refused with QueueFull exactly when the number of distinct client addresses accepted so far equals queue_length; the number of distinct clients never exceeds queue_length.", "quantifier": "every history", "why_tests_cant": "unbounded histories", "anchors": ["src/queue.rs: schedule"]}
{"id": "C51", "title": "A full queue recovers once its jobs are done", "statement": "After QueueFull, once all accepted jobs have completed, new submissions are accepted again.", "quantifier": "every history", "why_tests_cant": "needs filling and draining the queue", "anchors": ["src/queue.rs: schedule"]}
{"id": "C52", "title": "Every accepted job is eventually run", "statement": "If workers keep completing jobs, every accepted job is handed to a worker without needing further submissions.", "quantifier": "every history and number of workers", "why_tests_cant": "liveness over schedules", "anchors": ["src/queue.rs: schedule, dispatch, dispatch_to"]}
{"id": "C53", "title": "The queue manager never panics while its workers live", "statement": "In every history with any number of live workers, no dispatch hits an out-of-range index, a missing queue or an arithmetic underflow.", "quantifier": "every history, both build profiles", "why_tests_cant": "unbounded histories", "anchors": ["src/queue.rs: dispatch_to, dispatch, schedule"]}
{"id": "C54", "title": "A crashing job does not take the service down", "statement": "If one job panics on its worker, later submissions are still served.", "quantifier": "every history", "why_tests_cant": "needs a crash at a specific point", "anchors": ["src/queue.rs: RunnerThread::run, dispatch_to, Manager::add"]}
{"id": "C55", "title": "Shutdown runs what was dispatched and drops what was not", "statement": "When the manager is dropped, every job already handed to a worker that does not crash is run before that worker exits and jobs still waiting in client queues are never run; afterwards nothing runs. Unless a job panics the shutdown comes to its end, whatever the schedule.", "quantifier": "every state at shutdown", "why_tests_cant": "all states", "anchors": ["src/queue.rs: Drop for Manager, Drop for InnerManager, RunnerThread::run"]}
{"id": "C56", "title": "No token without solved work", "statement": "Under every interleaving of any number of concurrent calls, timer deliveries and cancellations, validate_verification_tokens(token,key) answers true only if an earlier verify_pow call returned (or was about to return) that token for a challenge issued by get_pow for that same key, with a proof both sufficient at the difficulty quoted for that challenge and valid for its string.", "quantifier": "every interleaving, every client behaviour, every random outcome", "why_tests_cant": "unbounded concurrent histories", "anchors": ["src/system.rs: get_pow, verify_pow, validate_verification_tokens", "src/cache/hashcache.rs: HashCache"]}
{"id": "C57", "title": "One challenge buys at most one token, one token at most one acceptance", "statement": "Under every interleaving the number of successful verify_pow for a challenge string never exceeds the number of times it was issued, and validations answering true never exceed tokens issued; concurrent replays included.", "quantifier": "every interleaving", "why_tests_cant": "race over unbounded histories", "anchors": ["src/system.rs: verify_pow, validate_verification_tokens"]}
{"id": "C58", "title": "The difficulty enforced is the difficulty quoted", "statement": "The difficulty factor against which a proof is checked, and which verify_pow returns, is the one quoted by get_pow for that challenge, however the site's level moved in between.", "quantifier": "every interleaving", "why_tests_cant": "all histories", "anchors": ["src/system.rs: get_pow, verify_pow"]}
{"id": "C59", "title": "A failed attempt uses up the challenge", "statement": "Every verify_pow that finds the challenge, whatever its outcome (wrong key, bad proof, queue full, cancelled), makes the challenge unusable for later attempts.", "quantifier": "every interleaving and failure point", "why_tests_cant": "all failure points", "anchors": ["src/system.rs: verify_pow", "src/cache/hashcache.rs: retrive_pow_config"]}
{"id": "C60", "title": "Honest clients succeed", "statement": "A client that obtains a challenge, solves it and submits it in time for the right key receives a token together with the quoted difficulty, and validating that token in time for that key answers true.", "quantifier": "every configuration, every client string and every interleaving", "why_tests_cant": "all configurations", "anchors": ["src/system.rs: get_pow, verify_pow, validate_verification_tokens"]}
{"id": "C61", "title": "get_pow outcome", "statement": "get_pow returns a challenge with the master's difficulty and the configured salt when the master counts the visitor, stores it before returning, and returns None when the master does not know the site or reports an error (errors are not distinguished from unknown sites).", "quantifier": "every master reply", "why_tests_cant": "all replies", "anchors": ["src/system.rs: get_pow"]}
{"id": "C62", "title": "verify_pow error classification", "statement": "verify_pow reports StringNotFound iff no live challenge has that string, MCaptchaKeyValidationFail iff it was issued for another key, QueueFull iff refused by the queue; a bad proof is always InsuffiencientDifficulty and InvalidPoW is never reported.", "quantifier": "every cache state, every work", "why_tests_cant": "all states", "anchors": ["src/system.rs: verify_pow"]}
{"id": "C63", "title": "verify_pow always answers", "statement": "Every verify_pow call returns after finitely many steps of the queue, worker and cache, without needing further client traffic.", "quantifier": "every reachable system state", "why_tests_cant": "liveness over schedules", "anchors": ["src/system.rs: verify_pow", "src/queue.rs: schedule, dispatch_to"]}
{"id": "C64", "title": "SystemBuilder needs every part", "statement": "SystemBuilder::build succeeds iff master, cache, pow, runners and queue_length were all set, using the last value of each, and panics otherwise.", "quantifier": "every call sequence", "why_tests_cant": "unbounded sequences", "anchors": ["src/system.rs: SystemBuilder"]}
{"id": "C65", "title": "Redis token keys are unambiguous", "statement": "Two different (site key, token) pairs never share a Redis key.", "quantifier": "every pair of strings", "why_tests_cant": "all strings", "anchors": ["src/redis/mcaptcha_redis.rs: add_token, get_token"]}
{"id": "C66", "title": "Redis tokens are single use and bound to their site", "statement": "With the Redis cache, a (key, token) pair validates true at most once per add_token, never after expiry, and never without an add_token for a pair with the same Redis key.", "quantifier": "every history", "why_tests_cant": "unbounded histories", "anchors": ["src/redis/mcaptcha_redis.rs: add_token, get_token, delete_token", "src/cache/redis.rs: Handler<CacheResult>, Handler<VerifyCaptchaResult>"]}
{"id": "C67", "title": "Both cache back ends give the same answers", "statement": "For every history the Redis and in-memory caches answer token validations identically.", "quantifier": "every history", "why_tests_cant": "unbounded histories", "anchors": ["src/cache/hashcache.rs: verify_captcha_result", "src/redis/mcaptcha_redis.rs: get_token"]}
{"id": "C68", "title": "Redis commands of one actor never overlap", "statement": "Under every interleaving at most one command borrows the connection of an actor (not shared with a clone, see C78) at a time, so the RefCell borrow never panics, and replies come in the order requests were accepted.", "quantifier": "every interleaving", "why_tests_cant": "interleavings", "anchors": ["src/cache/redis.rs: ctx.wait", "src/redis/mod.rs: RedisConnection::exec", "src/master/redis/master.rs: ctx.wait"]}
{"id": "C69", "title": "A Redis server with the module loaded is accepted", "statement": "MCaptchaRedis::new succeeds whenever the server lists the mcaptcha_cache module and knows every required command.", "quantifier": "every MODULE LIST and COMMAND INFO reply", "why_tests_cant": "all replies", "anchors": ["src/redis/mcaptcha_redis.rs: is_module_loaded"]}
{"id": "C70", "title": "Redis replies are mapped faithfully", "statement": "check_captcha_exists maps 0 to true, 1 to false and anything else to MCaptchaRedisModuleError; get_token maps 1 to true, 0 to false and anything else to that error; get_visitors returns the count replied; replies that are no numbers and Redis errors are reported as RedisError.", "quantifier": "every reply", "why_tests_cant": "all integers and texts", "anchors": ["src/redis/mcaptcha_redis.rs: check_captcha_exists, get_token, get_visitors"]}
{"id": "C71", "title": "Payloads sent to Redis decode to what was sent", "statement": "The JSON text sent for a challenge or a captcha registration decodes to the same challenge string, difficulty, duration and levels, for every string content.", "quantifier": "every string and number", "why_tests_cant": "all strings, including quotes, control and non-ASCII characters", "anchors": ["src/redis/mcaptcha_redis.rs: add_challenge, add_mcaptcha", "src/cache/mod.rs: AddChallenge", "src/master/mod.rs: CreateMCaptcha"]}
{"id": "C72", "title": "A single client cannot grow the queue without bound", "statement": "The number of jobs waiting for one client address is bounded by queue_length.", "quantifier": "every history", "why_tests_cant": "needs long histories", "anchors": ["src/queue.rs: schedule"]}
{"id": "C73", "title": "A client's backlog does not delay other clients", "statement": "A job submitted by a client with no other jobs completes before all earlier jobs of a client with a large backlog have completed.", "quantifier": "every backlog, every number of workers", "why_tests_cant": "needs particular backlogs", "anchors": ["src/queue.rs: dispatch, dispatch_to, RunnerThread::run"]}
{"id": "C74", "title": "No worker idles while another has a backlog", "statement": "While an accepted job waits to be run, no worker is idle.", "quantifier": "every history and number of workers", "why_tests_cant": "all histories", "anchors": ["src/queue.rs: dispatch, dispatch_to, RunnerThread::run"]}
{"id": "C75", "title": "Every call returns at most once, and none panics", "statement": "Each API call returns at most once and never after it was cancelled; no call panics and no verify_pow reports a lost answer (RecvError), even if jobs panic on their workers.", "quantifier": "every interleaving", "why_tests_cant": "interleavings", "anchors": ["src/system.rs: get_pow, verify_pow, validate_verification_tokens", "src/queue.rs: Manager::add"]}
{"id": "C76", "title": "A Redis server lacking a required command is refused", "statement": "MCaptchaRedis::new never succeeds on a server which does not know one of the commands the library sends, and the error names the missing command if it is the only one missing and the module is listed.", "quantifier": "every MODULE LIST and COMMAND INFO reply", "why_tests_cant": "all replies", "anchors": ["src/redis/mcaptcha_redis.rs: is_module_loaded, MCaptchaRedis::new"]}
{"id": "C77", "title": "Failures of Redis are reported as errors, not panics", "statement": "Whatever a Redis server replies, requests return a result; an error of Redis is returned as RedisError.", "quantifier": "every reply", "why_tests_cant": "all replies", "anchors": ["src/redis/mcaptcha_redis.rs: add_token, add_visitor, get_challenge, is_module_loaded"]}
{"id": "C78", "title": "Clones of a Redis master work side by side", "statement": "Clones of a Redis master can be used at the same time without panics.", "quantifier": "every interleaving", "why_tests_cant": "interleavings", "anchors": ["src/redis/mod.rs: RedisConnection::get_client, exec", "src/master/redis/master.rs: Master"]}
{"id": "C79", "title": "A caller who gives up does not harm the actor", "statement": "If a caller drops the receiver before the answer arrives, the actors go on as if it had not.", "quantifier": "every interleaving", "why_tests_cant": "needs a caller cancelled at the right moment", "anchors": ["src/cache/redis.rs: tx.send(..).unwrap()", "src/master/redis/master.rs: let _ = tx.send(res)"]}
{"id": "C80", "title": "Unknown challenges are reported the same way with Redis", "statement": "With the Redis cache, looking up an unknown challenge answers None, so that verify_pow reports StringNotFound, and a challenge of another site is reported as such.", "quantifier": "every reply", "why_tests_cant": "all replies", "anchors": ["src/cache/redis.rs: Handler<RetrivePoW>", "src/system.rs: verify_pow"]}
{"id": "C81", "title": "Dumping a captcha to JSON and reading it back is the identity", "statement": "Serializing an MCaptcha and deserializing the text gives the same captcha, with visitors, levels, level in force and duration.", "quantifier": "every captcha", "why_tests_cant": "all values", "anchors": ["src/mcaptcha.rs: MCaptcha: Serialize, Deserialize", "src/defense.rs: Defense, Level: Serialize, Deserialize"]}
{"id": "C82", "title": "Captchas read from JSON are valid", "statement": "Every MCaptcha obtained from a JSON text is one a builder could have made: it has levels, its level in force exists, its duration is positive.", "quantifier": "every text", "why_tests_cant": "all texts", "anchors": ["src/mcaptcha.rs: MCaptcha: Deserialize", "src/defense.rs: Defense: Deserialize"]}
{"id": "C83", "title": "A Redis master answers every request", "statement": "Every request of the Master trait is answered by the Redis master.", "quantifier": "every request", "why_tests_cant": "kinds of requests never exercised", "anchors": ["src/master/redis/master.rs: Handler<GetInternalData>, Handler<SetInternalData>"]}
{"id": "C84", "title": "verify_pow does not block its thread", "statement": "On a single-threaded runtime every verify_pow whose job was accepted leaves its polling loop, so that other calls and actors on the thread go on.", "quantifier": "every interleaving of one thread with workers and manager", "why_tests_cant": "needs a stranded job or a blocked worker", "anchors": ["src/system.rs: verify_pow, loop with try_recv", "src/queue.rs: InnerManager::schedule, dispatch_to", "src/pow.rs: QueuedWork::validate"]}
{"id": "C85", "title": "Messages survive JSON", "statement": "Every serializable message (PoWConfig, Work, CachePoW, CachedPoWConfig, CacheResult, VerifyCaptchaResult, AddSite, Rename, AddVisitor, RemoveCaptcha, InternalData, AddVisitorResult, CreateMCaptcha, Level, Defense) is written as an object with the documented member names (AddVisitor and RemoveCaptcha: as the bare id string) and read back as the same message; a Work may have its members in any order and further ones, and is read as exactly what they say.", "quantifier": "every value of each type, every JSON text of it", "why_tests_cant": "all values and texts", "anchors": ["src/pow.rs: PoWConfig, Work: Serialize, Deserialize", "src/cache/mod.rs: messages", "src/master/mod.rs: messages"]}
{"id": "C86", "title": "The texts of errors tell them apart", "statement": "Two errors with the same Display text are the same error.", "quantifier": "every pair of errors", "why_tests_cant": "pairs and payloads", "anchors": ["src/errors.rs: CaptchaError, Display"]}
{"id": "C87", "title": "Garbage collection goes on by itself", "statement": "A running master always has exactly one collector of its own, plus one more for every CleanUp a client ever sent: none of them ever ends. A collector that sleeps needs no client: once it is due it removes exactly the idle sites and sleeps for another gc seconds.", "quantifier": "every history and interleaving; for the pass, every reachable state whose counters are all alive", "why_tests_cant": "the collectors pile up over a history of any length", "anchors": ["src/master/embedded/master.rs: Actor for Master: started, Handler<CleanUp>"]}
{"id": "C88", "title": "Restoring into a running master works in place", "statement": "After SetInternalData on a quiescent running master: sites that are not in the map keep everything; unknown sites get a new counter with exactly the restored state; known sites keep their counter and address, and if it is alive its state is exactly the restored one and an expiry of the restored visitors is scheduled next to those already pending; a stopped counter is left as it is.", "quantifier": "every reachable registry and every map", "why_tests_cant": "any mixture of known, unknown and stopped sites", "anchors": ["src/master/embedded/master.rs: Handler<SetInternalData>, Handler<AddSite>", "src/master/embedded/counter.rs: Handler<SetInternalData>"]}
{"id": "C89", "title": "A crash of the master is final", "statement": "Once a collector has crashed the master, every later request is answered with a mailbox error, no task runs and the registry never changes, whatever happens; counters whose address a client holds still answer.", "quantifier": "every reachable crashed state and everything that can follow", "why_tests_cant": "unbounded continuations", "anchors": ["src/master/embedded/master.rs: Handler<CleanUp>"]}
{"id": "C90", "title": "A server without the module is refused", "statement": "Opening a Redis back end succeeds only if the server lists a module named mcaptcha_cache; otherwise it reports MCaptchaRedisModuleIsNotLoaded.", "quantifier": "every reply to MODULE LIST and COMMAND INFO", "why_tests_cant": "all replies", "anchors": ["src/redis/mcaptcha_redis.rs: is_module_loaded", "src/redis/mcaptcha_redis.rs: MCaptchaRedis::new"]}
{"id": "C91", "title": "Requests reach Redis as the command they stand for", "statement": "Every command an actor sends belongs to one request sent to it and has the name and arguments of that request: site, token, key, new name, lifetime and a JSON payload denoting its fields. Every error of Redis except one to storing a token is handed to the caller as such and every success as success; difficulty and duration handed out are those in the reply, and a connection is reported alive exactly on the status PONG.", "quantifier": "every interleaving, request and reply", "why_tests_cant": "unbounded interleavings, all strings", "anchors": ["src/redis/mcaptcha_redis.rs: add_mcaptcha, add_visitor, delete_captcha, rename_captcha, add_challenge, get_challenge, add_token, get_token", "src/cache/redis.rs: Handler<CachePow>", "src/redis/mod.rs: ping"]}
{"id": "C92", "title": "Tokens are single-use across processes sharing Redis", "statement": "With any number of actors, threads and processes on one Redis server, callers are told that a token is valid at most as often as it was asked to be stored, only for the site it was stored for, and only if the server looked it up within its lifetime; connections may fail at any moment and commands may be carried out after their caller gave up.", "quantifier": "every interleaving of actors, server, lost replies and time", "why_tests_cant": "unbounded interleavings of several processes", "anchors": ["src/redis/mcaptcha_redis.rs: add_token, get_token", "src/cache/redis.rs: Handler<CacheResult>, Handler<VerifyCaptchaResult>", "src/redis/mod.rs: RedisConnection::exec"]}
{"id": "C93", "title": "A validation that failed can be repeated", "statement": "If validating a token against Redis returns an error because the connection failed, asking again within the lifetime tells whether the token is valid: an unused token is never reported invalid.", "quantifier": "every interleaving and failure", "why_tests_cant": "failures at any moment", "anchors": ["src/redis/mcaptcha_redis.rs: get_token", "src/redis/mod.rs: RedisConnection::exec"]}
{"id": "C94", "title": "A message is read from exactly its texts", "statement": "A JSON text is read as a given message (PoWConfig, Work, CachePoW, CachedPoWConfig, CacheResult, VerifyCaptchaResult, AddSite, Rename, InternalData, AddChallenge, CreateMCaptcha) if and only if it denotes an object in which each documented field occurs exactly once with the value of the message, in any order and among any others, or the array of these values in order, and every number fits its type; AddVisitor and RemoveCaptcha are read from exactly the texts of their string.", "quantifier": "every text and every message", "why_tests_cant": "all texts", "anchors": ["src/pow.rs: PoWConfig, Work: Deserialize", "src/cache/mod.rs: messages", "src/master/mod.rs: messages"]}
{"id": "C95", "title": "A challenge is charged as one visit of the right site", "statement": "When get_pow(id) returns a challenge, exactly one visit was counted for this call, by the counter which the registrations, removals and renames handled so far gave to id when the master looked it up, and the challenge has the difficulty this counter quoted. No call is ever counted twice. get_pow returns None only if id had no counter or its counter was gone.", "quantifier": "every interleaving of API calls with registrations, renames, removals, garbage collections, restores, direct use of counters and time", "why_tests_cant": "interleavings of several actors", "anchors": ["src/system.rs: get_pow", "src/master/embedded/master.rs: Handler<AddVisitor>", "src/master/embedded/counter.rs: Handler<AddVisitor>"]}
{"id": "C96", "title": "An accepted token costs configured work", "statement": "When validate_verification_tokens answers true for a site, some visitor had been counted by that site's counter, had been quoted the difficulty of one of the levels configured for it, and had presented work solving its challenge at this difficulty.", "quantifier": "every interleaving of all actors", "why_tests_cant": "interleavings of several actors, end to end", "anchors": ["src/system.rs: get_pow, verify_pow, validate_verification_tokens", "src/master/embedded/master.rs: Handler<AddVisitor>, Handler<SetInternalData>", "src/master/embedded/counter.rs: Handler<AddVisitor>, Handler<SetInternalData>"]}
{"id": "C97", "title": "Load raises the price of a challenge", "statement": "In a running service, whenever the counter of a registered captcha counts a visit, it quotes at least the difficulty of every level whose visitor threshold is exceeded by the visits it counted in the last duration seconds (this one included), however late timers are delivered; the quoted duration is the configured one.", "quantifier": "every interleaving, every captcha made by the builders, counters without restored state, fewer than 2^32 visits", "why_tests_cant": "interleavings of several actors, unbounded histories", "anchors": ["src/system.rs: get_pow", "src/master/embedded/master.rs: Handler<AddVisitor>", "src/master/embedded/counter.rs: Handler<AddVisitor>, Handler<DeleteVisitor>", "src/mcaptcha.rs: MCaptcha::add_visitor"]}
{"id": "C98", "title": "get_pow is always answered", "statement": "From every state the service comes to rest: whatever the schedule, without new calls only boundedly many steps do anything for the calls, and when it is at rest and the process was not aborted every get_pow has returned or was cancelled: also if its site was unknown, removed or collected meanwhile, its counter stopped, or the master gone.", "quantifier": "every interleaving of all actors, crashes of the master included", "why_tests_cant": "liveness over interleavings", "anchors": ["src/system.rs: get_pow", "src/master/embedded/master.rs: Handler<AddVisitor>, Handler<CleanUp>"]}
{"id": "C99", "title": "The guarantees of the API hold whatever back ends are plugged in", "statement": "With any cache and any master the types allow, however they answer or fail: verify_pow returns a token only after the cache handed out the challenge of the work under its key, the work solves it at the difficulty handed out, and the cache confirmed that it stored the token for this site and the time handed out; get_pow returns a challenge only with the difficulty the master told and after the cache confirmed to have stored it; a validation returns the cache's answer to exactly this question. Every error says why; an error of the cache or a lost back end is passed on. Each call returns at most once. Successes are at most the tokens stored, tokens at most the challenges handed out, true validations at most the cache's confirmations.", "quantifier": "every interleaving, every answer and failure of cache and master", "why_tests_cant": "arbitrary back ends", "anchors": ["src/system.rs: System<T, X>, get_pow, verify_pow, validate_verification_tokens"]}
{"id": "C100", "title": "With Redis, what the API hands out is backed by what the server did", "statement": "With the Redis back ends: get_pow returns a challenge only if the server counted a visit of this site for this call and told this difficulty, and then stored the challenge with this difficulty and the time told; verify_pow returns a token only if the server handed out the challenge of the work to this call, the work solves it at the difficulty told, and the server then stored the token for this site and the time told; validate_verification_tokens says true exactly if the token was stored, not taken and not expired when the server handled the request, and (site keys without colons) every accepted token this service stored cost work at the difficulty told.", "quantifier": "every interleaving of calls, queue, workers, actors, server, other clients of the server, failures and time", "why_tests_cant": "interleavings of several processes, end to end", "anchors": ["src/system.rs: get_pow, verify_pow, validate_verification_tokens", "src/cache/redis.rs: Handler<CachePow>, Handler<RetrivePoW>, Handler<CacheResult>, Handler<VerifyCaptchaResult>", "src/master/redis/master.rs: Handler<AddVisitor>"]}
{"id": "C101", "title": "With Redis, a token is validated at most once through the API", "statement": "However many calls of validate_verification_tokens ask for it, a token is validated at most as often as an actor was told so by the server, and that at most as often as it was asked to be stored.", "quantifier": "every interleaving, failures and other clients of the server included", "why_tests_cant": "interleavings of several processes", "anchors": ["src/system.rs: validate_verification_tokens", "src/redis/mcaptcha_redis.rs: get_token"]}
{"id": "C102", "title": "Giving up a call does not harm later calls on Redis", "statement": "If the server carries out every command and every reply arrives, no call fails with MailboxError or RecvError because another one was cancelled.", "quantifier": "every interleaving, every moment of giving up", "why_tests_cant": "needs a call cancelled at the right moment", "anchors": ["src/cache/redis.rs: tx.send(..).unwrap()", "src/system.rs: get_pow, verify_pow, validate_verification_tokens"]}
{"id": "C103", "title": "get_pow on Redis returns None only if the server was asked", "statement": "get_pow returns Ok(None) only after the server answered a request to count a visit of this site.", "quantifier": "every interleaving and failure", "why_tests_cant": "failures at any moment", "anchors": ["src/system.rs: get_pow", "src/master/redis/master.rs: Handler<AddVisitor>", "src/redis/mcaptcha_redis.rs: add_visitor"]}
{"id": "C104", "title": "With Redis, every error of the API can be traced", "statement": "QueueFull and InsuffiencientDifficulty are returned only after the server handed the challenge to this call, and the queue refused the job, respectively the work does not solve the challenge at the difficulty told (or a job panicked); RedisError only with the error the server gave to a request of this call, or with which the connection of the cache failed; MailboxError and RecvError only after an actor crashed; validate_verification_tokens returns no other error than these last two.", "quantifier": "every interleaving, failure and reply", "why_tests_cant": "interleavings and failures", "anchors": ["src/system.rs: get_pow, verify_pow, validate_verification_tokens", "src/cache/redis.rs: all handlers", "src/redis/mcaptcha_redis.rs: add_challenge, get_challenge, add_token, get_token"]}
{"id": "C105", "title": "Dropping the queue is clean", "statement": "Dropping the Manager does not panic, comes to its end whatever the schedule, and leaves no worker thread behind.", "quantifier": "every history before and after the drop", "why_tests_cant": "needs a job that panicked before", "anchors": ["src/queue.rs: Drop for Manager, Drop for InnerManager, RunnerThread::run"]}
{"id": "C106", "title": "Opening a Redis back end ends in a client or an error", "statement": "Master::new and RedisCache::new on Redis return an error, and never panic, if the address is malformed, if the server or cluster cannot be reached, and if the server answers a question with an error; they succeed only on a connection.", "quantifier": "every address, every outcome of connecting, every reply", "why_tests_cant": "needs unreachable servers and servers refusing single commands", "anchors": ["src/redis/mod.rs: RedisConfig::connect, Redis::new, Redis::connect", "src/redis/mcaptcha_redis.rs: MCaptchaRedis::new, is_module_loaded", "src/master/redis/master.rs: Master::new", "src/cache/redis.rs: RedisCache::new"]}
{"id": "C107", "title": "Opening a Redis back end changes nothing on the server", "statement": "Opening a back end sends only MODULE LIST and COMMAND INFO for commands of the module, each at most once and only on a connection; if it succeeds it has asked about the modules and every module command the library uses.", "quantifier": "every address, every outcome of connecting, every reply", "why_tests_cant": "all replies", "anchors": ["src/redis/mcaptcha_redis.rs: MCaptchaRedis::new, is_module_loaded", "src/redis/mod.rs: Redis::new"]}
{"id": "C108", "title": "The price is never higher than the load explains", "statement": "A captcha quotes more than the difficulty of one of its levels only if at some moment before it counted more visitors than that level's threshold. A counter whose timers are less than late seconds overdue whenever it serves a visit does so only if at this or an earlier visit more visits than the threshold were less than duration + late old (late = 0: the sliding window of C18); in a running service a site with at most as many counted visits as a level's threshold is never quoted more than that level's difficulty, whatever happens to other sites.", "quantifier": "every history of visits and departures (counts that wrap around included), every schedule of a counter and its timers, every interleaving of the service, captchas made by the builders, counters without restored state", "why_tests_cant": "unbounded histories, late timers, interleavings", "anchors": ["src/mcaptcha.rs: MCaptcha::add_visitor, decrement_visitor_by", "src/defense.rs: Defense::tighten_up, loosen_up", "src/master/embedded/counter.rs: Handler<AddVisitor>, Handler<DeleteVisitor>"]}
{"id": "C109", "title": "Captchas of any shape panic exactly where their position is out of range", "statement": "Whatever levels and position a captcha has (it may come from JSON): a visit panics exactly if its position is beyond its levels, or the visitor count overflows in a build that checks this; asking for difficulty, level or threshold panics exactly in the first case. If the position is among the levels, no history below the overflow panics, it counts right, the levels stay, and the difficulty of one of them is always quoted. Moving a defense up panics exactly if it has no levels and the build checks for overflow, moving it down never does.", "quantifier": "every captcha and defense of any shape, every history, both builds", "why_tests_cant": "all shapes, including those no builder makes", "anchors": ["src/mcaptcha.rs: MCaptcha::add_visitor, get_difficulty", "src/defense.rs: Defense::tighten_up, loosen_up, max_defense, min_defense, current_level"]}
{"id": "C110", "title": "Builders survive JSON", "statement": "A builder for captchas is written as JSON that denotes it, set or unset values included, and read back as the same builder; and it is read from exactly the texts that denote an object with the count once, and each of the other two values at most once (absent or null if unset), or the array of the three.", "quantifier": "every builder, every text", "why_tests_cant": "all texts", "anchors": ["src/mcaptcha.rs: MCaptchaBuilder: Serialize, Deserialize"]}
{"id": "C111", "title": "Every counted visitor is forgotten", "statement": "A visitor which a counter has counted is subtracted again once the duration has passed, also if the counter was written as JSON and read back in between.", "quantifier": "every history of a counter, every moment of saving it", "why_tests_cant": "needs a counter saved between a visit and its end", "anchors": ["src/master/embedded/counter.rs: Counter: Serialize, Deserialize, Handler<AddVisitor>, Handler<DeleteVisitor>"]}
{"id": "C112", "title": "A burst of visits costs at least the configured prices", "statement": "Whoever lets a counter count n visits within duration seconds is quoted, all together, at least what the levels configure: the k-th of them at least the difficulty of every level whose threshold is below k, and of the lowest. So the total work asked of a burst is at least the sum of these prices, whatever other visits fall in between and however late timers are delivered.", "quantifier": "every schedule of the service, every selection of visits within one window, every captcha made by the builders, counters without restored state, fewer than 2^32 visits", "why_tests_cant": "unbounded histories and selections", "anchors": ["src/system.rs: get_pow", "src/master/embedded/counter.rs: Handler<AddVisitor>, Handler<DeleteVisitor>", "src/mcaptcha.rs: MCaptcha::add_visitor", "src/defense.rs: Defense::tighten_up"]}
{"id": "C113", "title": "The in-memory cache forgets", "statement": "While no task of the cache is late seconds overdue, there are never more retrievable challenges and never more tokens that validate than were stored and ended less than late seconds ago, and the maps hold no more entries and the cache no more tasks. From every state, once time has passed and the tasks are delivered, the cache is empty and knows no challenge and no token.", "quantifier": "every history of requests, passing time and deliveries", "why_tests_cant": "unbounded histories", "anchors": ["src/cache/hashcache.rs: Handler<CachePow>, Handler<DeletePoW>, Handler<CacheResult>, Handler<DeleteCaptchaResult>, Handler<RetrivePoW>, Handler<VerifyCaptchaResult>"]}
{"id": "C114", "title": "A backup kept as text restores the service", "statement": "From every state in which the registered counters run, the answer to GetInternalData, written as JSON site by site (InternalData) in any order and with any layout, can be read back, and SetInternalData of it into a fresh master registers exactly the same sites, each with the same captcha, so that any messages sent to its counter one after the other are answered as the original counter would answer them.", "quantifier": "every state, every order and text of the backup, every sequence of messages", "why_tests_cant": "all states and texts, end to end", "anchors": ["src/master/embedded/master.rs: Handler<GetInternalData>, Handler<SetInternalData>", "src/master/mod.rs: InternalData: Serialize, Deserialize", "src/master/embedded/counter.rs: Handler<GetInternalData>"]}
{"id": "C115", "title": "Every accepted token was paid for separately", "statement": "To different validations answered true belong different get_pow calls and different verify_pow calls: each get_pow call issued one challenge for that site, at the difficulty the master told, and the verify_pow call took it out, handed in work that solves it at this difficulty, and stored the token, which nothing touched until it was validated. So n accepted tokens whose visitors were counted by one counter within duration seconds were solved at difficulties which add up to at least what the configured levels ask for n visits in a row.", "quantifier": "every interleaving of the system, every set of accepted tokens; for the sum: every schedule of the service, captchas made by the builders, counters without restored state, fewer than 2^32 visits", "why_tests_cant": "unbounded numbers of calls and interleavings, end to end", "anchors": ["src/system.rs: get_pow, verify_pow, validate_verification_tokens", "src/cache/hashcache.rs: Handler<CachePow>, Handler<RetrivePoW>, Handler<CacheResult>, Handler<VerifyCaptchaResult>", "src/master/embedded/counter.rs: Handler<AddVisitor>"]}
{"id": "C116", "title": "With Redis, every accepted token was paid for separately", "statement": "To different validations answered true belong different requests that stored the token on the server, each with the token untouched in between and in time; the requests of this service come from different verify_pow calls, which had taken out their challenges with different requests, each with work that solves its challenge at the difficulty the server told. If only this service has tokens stored, it never accepts more tokens than challenges were taken from the server.", "quantifier": "every interleaving of calls, queue, workers, actors, server, other clients of the server, failures, time and repeating random strings", "why_tests_cant": "interleavings of several processes, unbounded numbers of calls", "anchors": ["src/system.rs: verify_pow, validate_verification_tokens", "src/cache/redis.rs: Handler<RetrivePoW>, Handler<CacheResult>, Handler<VerifyCaptchaResult>"]}
{"id": "C117", "title": "With Redis, every call is answered", "statement": "Left alone, the service on Redis does only finitely many things more, whatever the order and whatever fails, is cancelled, panics or is shut down meanwhile. Once it is at rest and the process was not aborted, every get_pow and every validate_verification_tokens has returned or was cancelled, whatever has failed, crashed or panicked before, and so has every verify_pow but those whose job waits in the queue of its client (C63); if no job panicked and there are at least as many workers as clients, all of them have.", "quantifier": "every interleaving of calls, queue, workers, actors, server and replies; every failure before", "why_tests_cant": "liveness over interleavings and failures", "anchors": ["src/system.rs: get_pow, verify_pow, validate_verification_tokens", "src/cache/redis.rs: all handlers", "src/master/redis/master.rs: Handler<AddVisitor>"]}
{"id": "C118", "title": "With Redis, a MailboxError says that nothing was done", "statement": "If a call fails with MailboxError, one of its requests was not taken by the actor, or the actor died before its handler ran; nothing is ever done for any request of that kind that the call sent, and no command goes to the server. If a call fails with RecvError, its request is never answered, and either the connection was in use and nothing is ever done for the request, or the server carried it out and replied what the client cannot bear (a text that is no such JSON, or an error when a token is stored), or the connection failed while a token was stored. A validation that fails with either error has not spent its token.", "quantifier": "every interleaving of calls, queue, workers, actors, server and failures", "why_tests_cant": "needs crashes at every point of a request", "anchors": ["src/system.rs: get_pow, verify_pow, validate_verification_tokens", "src/cache/redis.rs: all handlers", "src/master/redis/master.rs: Handler<AddVisitor>", "src/redis/mod.rs: RedisConnection::exec"]}
{"id": "C119", "title": "With Redis, each call sends each of its requests at most once", "statement": "A call of get_pow sends at most one request to count the visit and one to store the challenge; verify_pow at most one to fetch the challenge and one to store the token; validate_verification_tokens at most one to spend the token. A call sends no other requests, none to another actor, and none after it has returned or has been cancelled.", "quantifier": "every interleaving of calls, queue, workers, actors, server and failures, repeated polls included", "why_tests_cant": "needs every way a request can be lost or late; a retry after an error would go unnoticed", "anchors": ["src/system.rs: get_pow, verify_pow, validate_verification_tokens"]}
{"id": "C120", "title": "Dropping the System comes to its end", "statement": "Once every call has returned, was cancelled or panicked, the System can be dropped while its manager thread is there. Whatever the schedule, after that only boundedly many steps change anything, and when its threads have nothing left to do the drop has returned or panicked, unless the process was aborted; if no job panicked it has returned and no thread is left. This holds with any cache and master.", "quantifier": "every history of calls before the drop, cancelled calls with jobs waiting or at work included, every schedule after it, every back end", "why_tests_cant": "liveness over interleavings", "anchors": ["src/system.rs: System, verify_pow", "src/queue.rs: Drop for Manager, Drop for InnerManager, InnerManager::run, RunnerThread::run"]}
{"id": "C121", "title": "On a Redis cluster, clones work side by side", "statement": "With RedisConfig::Cluster no request ever panics because the shared connection is in use, however many actors share it: once a command was sent, the next thing any actor of the thread does is to answer its request or to panic over its reply, and whenever no command is under way, an actor takes its next request, sends the command and answers with the reply. Everything that can be observed could also have been observed on a single server.", "quantifier": "every number of actors and sharing of connections, every interleaving of requests, replies and callers who give up", "why_tests_cant": "interleavings; needs a cluster", "anchors": ["src/redis/mod.rs: RedisConnection::exec, get_client", "src/master/redis/master.rs: Master"]}
{"id": "C122", "title": "A slow server holds up only the actor that waits for it", "statement": "While an actor waits for the reply to its command, every other actor with a connection of its own takes its next request.", "quantifier": "every interleaving, single server and cluster", "why_tests_cant": "needs a server that is slow at the right moment", "anchors": ["src/redis/mod.rs: RedisConnection::exec"]}
{"id": "C123", "title": "verify_pow goes on working however many visitors have come", "statement": "A visitor with a right solution of a fresh challenge is not turned away because of visitors who came earlier and whose jobs are done: QueueFull is returned only while as many clients as the queue length are waiting.", "quantifier": "every history of calls, every queue length, every later history; the embedded cache, any other cache and master, Redis and a Redis cluster", "why_tests_cant": "needs as many different addresses as the queue length, and a look at what comes after", "anchors": ["src/system.rs: verify_pow", "src/queue.rs: InnerManager::schedule, Manager::add"]}
{"id": "C124", "title": "A visitor of a registered site gets a challenge unless the site was removed or idle", "statement": "When get_pow(id) answers that there is no such site, then either no site was registered under that id when the master handled the request, or the counter of the site had handled a Stop before this visitor reached it, and that had a reason: garbage collection had seen it without visitors, or a removal of the site that had this counter had been handled. Nothing else, no visit, no restore, no rename, no expiry, makes a site unreachable.", "quantifier": "every service and interleaving of clients, tasks, timers and garbage collection in which only the master stops counters, counters given usable captchas and visits that fit a u32", "why_tests_cant": "the counter of a site can be stopped between any two of the steps of a call", "anchors": ["src/system.rs: get_pow", "src/master/embedded/master.rs: Handler<AddVisitor>, Handler<CleanUp>, Handler<RemoveCaptcha>", "src/master/embedded/counter.rs: Handler<AddVisitor>, Handler<Stop>"]}
{"id": "C125", "title": "A restore that was acknowledged is in effect", "statement": "When a SetInternalData request has been answered, the captchas in it are in place: a site that was unknown is registered with its captcha, a known one has it in its counter, and a registration made after the answer is not undone by the restore.", "quantifier": "every state of the master, every set of captchas, every later interleaving of requests and the tasks of the master", "why_tests_cant": "the answer and the restoring tasks are in a race; a test that waits a little never sees it", "anchors": ["src/master/embedded/master.rs: Handler<SetInternalData>, Handler<AddVisitor>"]}
{"id": "C126", "title": "A backup under load is a snapshot", "statement": "The captchas a GetInternalData request answers with are the states of the sites registered then, all at one moment between the request and the answer; no site registered then is missing unless its counter was stopped, and no site occurs twice.", "quantifier": "every history before, every interleaving of visits, timers, restores, removals and collections meanwhile", "why_tests_cant": "needs visits that arrive between the polls of two counters", "anchors": ["src/master/embedded/master.rs: Handler<GetInternalData>"]}
{"id": "C127", "title": "Dropping the queue, whatever the order of the workers", "statement": "When the manager thread drops its workers it sends Stop to them in the arbitrary order of a hash map. If every worker is still there all are told and the order makes no difference. Otherwise the drop panics in every order: exactly the workers before the first one that is gone are told and end after their jobs, and an idle worker after it never ends.", "quantifier": "every state of the queue, every order of the workers, every schedule afterwards", "why_tests_cant": "the order of the map changes from run to run", "anchors": ["src/queue.rs: Drop for InnerManager", "src/queue.rs: InnerManager::run"]}
{"id": "C128", "title": "Interrupting the manager thread between two sends makes no difference", "statement": "Between any two sends of the thread that runs the queue, workers may run jobs and ask for more, clients may submit, jobs may panic and the Manager may be dropped. Whenever the thread is between two messages and has not panicked, the queue is in a state it could have reached with every message handled at once, by a run in which the thread hands out the same jobs, the clients get the same answers and each worker does the same, each in the same order; and the other way round. Without panicking jobs the thread never panics, jobs of a client are handed out in the order of submission, and workers run them in the order handed out. A job may be done before its submission is answered. If a worker is gone when the thread receives Stop, the thread panics and never comes to join the workers, whatever the order of the map.", "quantifier": "every schedule of the single sends, workers, clients and owner; every order of the map", "why_tests_cant": "needs a worker that is quicker than a loop of a few sends", "anchors": ["src/queue.rs: InnerManager::dispatch_to, dispatch, schedule, run", "src/queue.rs: Drop for InnerManager", "src/queue.rs: RunnerThread::run"]}
{"id": "C129", "title": "The methods of a Redis connection send what they are meant to", "statement": "Each method of MCaptchaRedisConnection sends one command: the one of its name, with its arguments in place and payloads in JSON. Every such command is one that all servers have or that was not found missing when the connection was opened. Different calls send different commands, except those that take out tokens of the same Redis key and those that register the same levels and duration under the same name. A reply that fits the call is returned as what it stands for. A method panics exactly if a token could not be stored or the answer to a visit or a question for a challenge is a text which is no such JSON; other errors of the server are returned as RedisError, by ping as false.", "quantifier": "every method, all arguments, every reply of the server", "why_tests_cant": "all arguments and replies; the methods that no actor uses are hardly tested", "anchors": ["src/redis/mcaptcha_redis.rs: MCaptchaRedisConnection", "src/redis/mod.rs: RedisConnection::ping"]}
{"id": "C130", "title": "A whole service works on a Redis cluster", "statement": "With RedisConfig::Cluster a thread waits for the reply to a command before any of its actors goes on: between a command and the end of its request no actor of that thread does anything. So the cache and the master may share a connection: no borrow panics, and a validation never fails with RecvError; another call does so only if the server replied what the client cannot bear, or the connection failed while a token was stored. Waiting threads never block each other for good: from every state the service can come to rest, and then every get_pow and every validation has returned or was cancelled, and so has every verify_pow but those whose job waits in the queue of its client. Whatever happens could have happened on a single server: tokens are accepted at most once and only if paid for.", "quantifier": "every interleaving of calls, queue, workers, actors, server, failures and callers who give up; every distribution of the actors over threads in which those that share a connection share the thread", "why_tests_cant": "interleavings; needs a cluster", "anchors": ["src/redis/mod.rs: RedisConnection::exec", "src/system.rs: get_pow, verify_pow, validate_verification_tokens", "src/cache/redis.rs: all handlers"]}
{"id": "C131", "title": "With Redis, honest clients succeed", "statement": "On a single server and on a cluster, while the connection of the cache (for get_pow also that of the master) does not fail and the actor does not panic: a get_pow whose visit the server has counted returns a challenge at the difficulty the server told, stored for the duration it told, unless the server refuses to store it. A verify_pow whose challenge the server handed out returns a token at that difficulty if the work solves it, the queue takes the job and no job panics; the token is stored for the duration told, and at rest the call has returned, unless it was cancelled or its job waits in the queue of its client. A stored token which nothing touched validates until its time has run out. The actors do not panic if connections do not fail and are not shared (or shared on one thread, with a cluster), nobody gives up on the cache, and the replies are as expected.", "quantifier": "every interleaving of calls, queue, workers, actors, server and other clients; every reply", "why_tests_cant": "needs every order of two actors, a queue and a server; wrong refusals show only in some", "anchors": ["src/system.rs: get_pow, verify_pow, validate_verification_tokens", "src/cache/redis.rs: all handlers", "src/master/redis/master.rs: Handler<AddVisitor>", "src/redis/mod.rs: RedisConnection::exec"]}
{"id": "C132", "title": "Any cache that keeps a short contract makes every accepted token paid for separately", "statement": "Let a cache confirm a token for a site only if it was asked to store this token for this site and has not confirmed it since, and hand out a challenge only if it was asked to store it, with this site, difficulty and duration, and has not handed it out since. Then, whatever else it does (forget, fail, answer late) and whatever master is plugged in: every token validate_verification_tokens accepts was stored by a verify_pow call which before had taken out the challenge of a get_pow call for the same site, at the difficulty the master told that call, and whose work solves it; and to different validations belong different verify_pow calls and different get_pow calls. The embedded cache keeps this contract.", "quantifier": "every cache that keeps the contract, every master, every interleaving of calls, queue, workers and callers who give up; repeating random strings included", "why_tests_cant": "quantifies over implementations of a trait", "anchors": ["src/system.rs: System<T, X>, get_pow, verify_pow, validate_verification_tokens", "src/cache/mod.rs: Save", "src/cache/hashcache.rs: Handler<CachePow>, Handler<RetrivePoW>, Handler<CacheResult>, Handler<VerifyCaptchaResult>"]}
{"id": "C133", "title": "Whatever back ends are plugged in, calls are answered and honest clients succeed", "statement": "With any cache and any master: without new calls only boundedly many steps of any schedule change anything, and the system can always come to rest. Once it is at rest (which includes that the cache and the master have answered all questions, be it with errors) and the process was not aborted, every get_pow and every validation has returned or was cancelled, and so has every verify_pow but those whose job waits in the queue of its client (C63); if no job panicked and there are at least as many workers as clients, all of them have. If the cache fails no request of the call: a get_pow to which the master told a difficulty returns a challenge of this difficulty, stored for this site and the time told; a verify_pow to which the cache handed out the challenge of its work for its site returns a token and this difficulty, if the work solves it, the queue does not refuse the job and no job panics, and the token is stored for this site and the time handed out; a validation returns what the cache said.", "quantifier": "every cache and master, every answer and failure, every interleaving", "why_tests_cant": "liveness over interleavings, for all implementations of two traits", "anchors": ["src/system.rs: System<T, X>, get_pow, verify_pow, validate_verification_tokens", "src/queue.rs: InnerManager::run, RunnerThread::run"]}
