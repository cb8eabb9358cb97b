import Verif.Spec.Counter
import Verif.Model.Service
import Verif.Model.Redis

/-!
# The tests of the repository, replayed on the model

Every test of the repository that the model can express, with its numbers and texts, run on the model. These are tests of the model,
not proofs of properties: they show that the model gives the answers the authors of the library expect from it. Where a test sleeps,
the clock advances and the expiry tasks that are due run.

Left out: the parts of the Redis tests that depend on what the Redis module answers, and `abuse_manager` (src/queue.rs:292-325), which
checks nothing after it has submitted its jobs (`jobs.drain(..0)` is empty).
-/

namespace MCap.RepoTests

open MCap.Spec

/-- Tests are built in debug mode. -/
def dbg : Profile := ⟨true⟩

/-- `LevelBuilder::default().visitor_threshold(t).difficulty_factor(d).unwrap().build().unwrap()`. -/
def level (t d : Nat) : Option Level :=
  match (LevelBuilder.default.setVisitorThreshold t).setDifficultyFactor d with
  | (.ok _, b) => match b.build with | .ok l => some l | .error _ => none
  | _ => none

/-- `DefenseBuilder::default().add_level(..).unwrap()...`. -/
def addAll (b : DefenseBuilder) : List (Nat × Nat) → Option DefenseBuilder
  | [] => some b
  | (t, d) :: r =>
    match level t d with
    | none => none
    | some l => match b.addLevel l with | (.ok _, b') => addAll b' r | _ => none

/-- `...build()`. -/
def defenseOf (ls : List (Nat × Nat)) : Option (CaptchaResult Defense) := (addAll DefenseBuilder.default ls).map fun b => b.build.1

/-! ## src/defense.rs -/

/- `level_builder_works`, src/defense.rs:229-257 -/
example : (LevelBuilder.default.setDifficultyFactor 1).1 = .ok () ∧
    ((LevelBuilder.default.setDifficultyFactor 1).2.setVisitorThreshold 0).build = .ok { visitorThreshold := 0, difficultyFactor := 1 } ∧
    (LevelBuilder.default.setDifficultyFactor 0).1 = .error .difficultyFactorZero ∧
    (LevelBuilder.default.setDifficultyFactor 1).2.build = .error .setVisitorThreshold ∧
    (LevelBuilder.default.setVisitorThreshold 10).build = .error .setDifficultyFactor := by decide

/- `defense_builder_duplicate_visitor_threshold`, src/defense.rs:259-281 -/
example : ((addAll DefenseBuilder.default [(50, 50)]).map fun b => (b.addLevel ⟨50, 50⟩).1) = some (.error .duplicateVisitorCount) := by
  decide

/- `defense_builder_decreasing_difficulty_factor`, src/defense.rs:283-307 -/
example : defenseOf [(50, 50), (500, 10)] = some (.error .decreaseingDifficultyFactor) := by
  simp [defenseOf, addAll, level, LevelBuilder.default, LevelBuilder.setVisitorThreshold, LevelBuilder.setDifficultyFactor, LevelBuilder.build,
    DefenseBuilder.addLevel, DefenseBuilder.default, DefenseBuilder.build, DefenseBuilder.hasDecrease, List.mergeSort,
    List.MergeSort.Internal.splitInTwo]

/-- Repeated `tighten_up`. -/
def tightenTimes (d : Defense) : Nat → Exec Defense
  | 0 => .ret d
  | n + 1 => (d.tightenUp dbg).bind fun d' => tightenTimes d' n

/- `checking_for_integer_overflow`, src/defense.rs:309-361: with as many rounds as one likes -/
example : defenseOf [(5, 5), (10, 50), (20, 60), (30, 65)] = some (.ok ⟨[⟨5, 5⟩, ⟨10, 50⟩, ⟨20, 60⟩, ⟨30, 65⟩], 0⟩) := by
  simp [defenseOf, addAll, level, LevelBuilder.default, LevelBuilder.setVisitorThreshold, LevelBuilder.setDifficultyFactor, LevelBuilder.build,
    DefenseBuilder.addLevel, DefenseBuilder.default, DefenseBuilder.build, DefenseBuilder.hasDecrease, List.mergeSort,
    List.MergeSort.Internal.splitInTwo]

theorem tightenTimes_top (n : Nat) :
    tightenTimes ⟨[⟨5, 5⟩, ⟨10, 50⟩, ⟨20, 60⟩, ⟨30, 65⟩], 3⟩ n = .ret ⟨[⟨5, 5⟩, ⟨10, 50⟩, ⟨20, 60⟩, ⟨30, 65⟩], 3⟩ := by
  induction n with
  | zero => rfl
  | succ n ih => exact ih

example (n : Nat) : ((tightenTimes ⟨[⟨5, 5⟩, ⟨10, 50⟩, ⟨20, 60⟩, ⟨30, 65⟩], 0⟩ (n + 3)).bind Defense.getDifficulty) = .ret 65 := by
  have h : tightenTimes ⟨[⟨5, 5⟩, ⟨10, 50⟩, ⟨20, 60⟩, ⟨30, 65⟩], 0⟩ (n + 3) =
      tightenTimes ⟨[⟨5, 5⟩, ⟨10, 50⟩, ⟨20, 60⟩, ⟨30, 65⟩], 3⟩ n := rfl
  rw [h, tightenTimes_top]; rfl

/-- `get_defense`, src/defense.rs:363-412. -/
def fiveLevels : Defense := ⟨[⟨50, 50⟩, ⟨500, 5000⟩, ⟨5000, 50000⟩, ⟨50000, 500000⟩, ⟨500000, 5000000⟩], 0⟩

/- `defense_builder_works`, src/defense.rs:413-422 -/
example : defenseOf [(50, 50), (500, 5000), (5000, 50000), (50000, 500000), (500000, 5000000)] = some (.ok fiveLevels) := by
  simp [defenseOf, addAll, level, LevelBuilder.default, LevelBuilder.setVisitorThreshold, LevelBuilder.setDifficultyFactor, LevelBuilder.build,
    DefenseBuilder.addLevel, DefenseBuilder.default, DefenseBuilder.build, DefenseBuilder.hasDecrease, List.mergeSort,
    List.MergeSort.Internal.splitInTwo, fiveLevels]

/- `tighten_up_works`, src/defense.rs:424-444 -/
example : (List.range 6).map (fun n => (tightenTimes fiveLevels n).bind Defense.getDifficulty) =
    [.ret 50, .ret 5000, .ret 50000, .ret 500000, .ret 5000000, .ret 5000000] := by decide

/- `max_defense_works` and `minimum_defense_works`, src/defense.rs:446-458 -/
example : (fiveLevels.maxDefense dbg).bind Defense.getDifficulty = .ret 5000000 ∧ fiveLevels.minDefense.getDifficulty = .ret 50 := by
  decide

/-- Repeated `loosen_up`. -/
def loosenTimes (d : Defense) : Nat → Defense
  | 0 => d
  | n + 1 => loosenTimes d.loosenUp n

/- `loosen_up_works`, src/defense.rs:460-481 -/
example : (List.range 6).map (fun n => (fiveLevels.maxDefense dbg).bind fun d => (loosenTimes d n).getDifficulty) =
    [.ret 5000000, .ret 500000, .ret 50000, .ret 5000, .ret 50, .ret 50] := by decide

/-! ## src/master/embedded/counter.rs -/

/-- `get_defense`, src/master/embedded/counter.rs:237-259. -/
def twoLevels : Defense := ⟨[⟨50, 50⟩, ⟨500, 500⟩], 0⟩

example : defenseOf [(50, 50), (500, 500)] = some (.ok twoLevels) := by
  simp [defenseOf, addAll, level, LevelBuilder.default, LevelBuilder.setVisitorThreshold, LevelBuilder.setDifficultyFactor, LevelBuilder.build,
    DefenseBuilder.addLevel, DefenseBuilder.default, DefenseBuilder.build, DefenseBuilder.hasDecrease, List.mergeSort,
    List.MergeSort.Internal.splitInTwo, twoLevels]

/-- `get_mcaptcha`, src/master/embedded/counter.rs:271-277. -/
def mcaptcha : MCaptcha := ⟨0, twoLevels, 5⟩

example : ((MCaptchaBuilder.default.setDefense twoLevels).setDuration 5).build = .ok mcaptcha := by decide

/-- Repeated `add_visitor`. -/
def visitTimes (m : MCaptcha) : Nat → Exec MCaptcha
  | 0 => .ret m
  | n + 1 => (m.addVisitor dbg).bind fun m' => visitTimes m' n

/- `mcaptcha_decrement_by_works`, src/master/embedded/counter.rs:279-289 -/
example : (visitTimes mcaptcha 100).map (fun m => ((m.decrementVisitorBy 50).getVisitors,
    ((m.decrementVisitorBy 50).decrementVisitorBy 500).getVisitors)) = .ret (50, 0) := by decide +kernel

/-- The answer to the last request. -/
def lastReply (r : Exec (Nat × Counter × List CObs)) : Option CObs :=
  match r with
  | .ret (_, _, os) => os.getLast?
  | .panic _ => none

/-- A visit. -/
def visit : CStep := .req .addVisitor

/- `counter_defense_tightenup_works`, src/master/embedded/counter.rs:291-301 -/
example : lastReply (crun dbg 0 (Counter.start mcaptcha) [visit]) = some (.reply (.visitor ⟨5, 50⟩)) ∧
    lastReply (crun dbg 0 (Counter.start mcaptcha) (visit :: List.replicate 499 visit ++ [visit])) =
      some (.reply (.visitor ⟨5, 500⟩)) := by decide +kernel

set_option maxRecDepth 100000 in
/- `counter_defense_loosenup_works`, src/master/embedded/counter.rs:303-320 -/
example : lastReply (crun dbg 0 (Counter.start mcaptcha) (List.replicate 499 visit ++ List.replicate 499 visit ++ [visit])) =
      some (.reply (.visitor ⟨5, 500⟩)) ∧
    lastReply (crun dbg 0 (Counter.start mcaptcha)
      (List.replicate 499 visit ++ List.replicate 499 visit ++ [visit] ++ [.tick 5] ++ List.replicate 999 (.fire 0) ++ [visit])) =
      some (.reply (.visitor ⟨5, 50⟩)) := by decide +kernel

/- `test_mcatcptha_builder`, src/master/embedded/counter.rs:322-343 -/
example : ((MCaptchaBuilder.default.setDuration 0).setDefense twoLevels).build = .error .captchaDurationZero ∧
    (MCaptchaBuilder.default.setDuration 30).build = .error (.pleaseSetValue "defense") ∧
    (MCaptchaBuilder.default.setDefense twoLevels).build = .error (.pleaseSetValue "duration") := by decide

/- `get_current_visitor_count_works`, src/master/embedded/counter.rs:345-356 -/
example : lastReply (crun dbg 0 (Counter.start mcaptcha) [visit, visit, visit, visit, .req .getCurrentVisitorCount]) =
    some (.reply (.count 4)) := by decide

/- `stop_works`, src/master/embedded/counter.rs:358-364: the `unwrap` of the second answer panics -/
example : lastReply (crun dbg 0 (Counter.start mcaptcha) [.req .stop, visit]) = some (.reply .mailboxError) := by decide

/- `get_set_internal_data_works`, src/master/embedded/counter.rs:366-380 -/
example : lastReply (crun dbg 0 (Counter.start mcaptcha) [.req .getInternalData]) = some (.reply (.data mcaptcha)) ∧
    (visitTimes mcaptcha 1).bind (fun m => .ret
      (lastReply (crun dbg 0 (Counter.start mcaptcha) [.req .getInternalData, .req (.setInternalData m), .req .getInternalData]) =
          some (.reply (.data m)),
       lastReply (crun dbg 0 (Counter.start mcaptcha)
          [.req .getInternalData, .req (.setInternalData m), .tick 8, .fire 0, .req .getCurrentVisitorCount]) =
          some (.reply (.count 0)))) = .ret (True, True) := by
  refine ⟨by decide, ?_⟩
  show Exec.ret _ = _
  congr 2 <;> simp only [eq_iff_iff, iff_true] <;> decide

/- `bulk_delete_works`, src/master/embedded/counter.rs:382-390 -/
example : lastReply (crun dbg 0 (Counter.start mcaptcha) [visit, visit, .req .getCurrentVisitorCount]) = some (.reply (.count 2)) ∧
    (visitTimes mcaptcha 2).map (fun m => ((Counter.start m).handleDecrement 3).handleGetCurrentVisitorCount) = .ret 0 := by decide

/-! ## src/master/embedded/master.rs -/

/-- The answer with a given tag. -/
def answerTo (w : World) (tag : Nat) : Option Answer := (w.answers.find? fun e => e.1 == tag).map (·.2)

/-- `master_actor_works`, src/master/embedded/master.rs:302-361, up to the rename: the first garbage collection finds nothing and waits
for a second. The task runs are those that are possible. -/
def masterTest : List WStep :=
  [.run 0, .run 0,
   .req 1 (.addSite "yo" mcaptcha), .req 2 (.getSite "yo"), .req 3 .getInternalData, .run 1, .run 0,
   .req 4 (.setInternalData [("yo", ⟨3, twoLevels, 5⟩)]), .run 1, .req 5 .getInternalData, .run 1, .run 0,
   .req 6 (.rename "yo" "yoyo"), .req 7 (.getSite "yoyo"), .req 8 (.getSite "a")]

/-- The rest of it, lines 363-373: ten seconds pass; the visits of the restored state expire, the garbage collection comes again. -/
def masterTest' : List WStep :=
  [.tick 10, .fire 0 0, .run 0, .run 0, .run 0, .run 0, .run 1, .run 0, .req 9 (.getSite "yoyo"), .req 10 (.removeCaptcha "yoyo")]

example : (visitTimes mcaptcha 3) = .ret ⟨3, twoLevels, 5⟩ := by decide

example : (let w := wrun dbg (World.init 0 1) (masterTest ++ masterTest')
    [2, 3, 5, 7, 8, 9, 10].map (answerTo w)) =
    [some (.site (some 0)), some (.data [("yo", mcaptcha)]), some (.data [("yo", ⟨3, twoLevels, 5⟩)]), some (.site (some 0)),
     some (.site none), some (.site none), some .unit] := by decide +kernel

/-! ## src/cache/hashcache.rs -/

/- `hashcache_pow_cache_works`, src/cache/hashcache.rs:209-260; any string -/
example (s : String) : (cacheRun (CacheWorld.init 0)
    [.req (.cachePow ⟨s, 54, 5, "mcaptchakey"⟩), .req (.retrivePow ⟨s, "mcaptchakey"⟩), .tick 10, .fire 0,
     .req (.retrivePow ⟨s, "mcaptchakey"⟩)]).2.map (·.2) =
    [.done, .config (some ⟨"mcaptchakey", 54, 5⟩), .done, .config none] := by
  simp [cacheRun, cacheStep, CacheWorld.init, CacheWorld.handle, HashCache.default, HashCache.savePowConfig, HashCache.retrivePowConfig,
    HashCache.removePowConfig, AMap.insert, AMap.get, AMap.erase]

/- `hashcache_result_cache_works`, src/cache/hashcache.rs:262-311 -/
example : (cacheRun (CacheWorld.init 0)
    [.req (.cacheResult ⟨"b", "a", 5⟩), .req (.verify ⟨"b", "a"⟩), .req (.verify ⟨"b", "a"⟩), .req (.verify ⟨"b", "cz"⟩), .tick 10, .fire 0,
     .req (.verify ⟨"b", "a"⟩)]).2.map (·.2) =
    [.done, .verdict true, .verdict false, .verdict false, .done, .verdict false] := by decide

/-! ## src/queue.rs -/

/- `manager_works`, src/queue.rs:283-289: three workers, two jobs of one address; both run, then the manager is dropped and every thread
returns -/
example : (qRun dbg (Queue.new 3 10)
    [.submit "foo bar" 1, .manage, .submit "foo bar" 2, .manage, .take 0, .finish 0, .take 0, .finish 0, .close,
     .manage, .manage, .manage, .take 0, .take 1, .take 2, .joined]).2.filter (fun e => match e with | .served _ => false | _ => true) =
    [.accepted "foo bar" 1, .handed 0 "foo bar" 1, .accepted "foo bar" 2, .handed 0 "foo bar" 2, .started 0 1, .ran 0 1, .started 0 2,
     .ran 0 2] ∧
  (qRun dbg (Queue.new 3 10)
    [.submit "foo bar" 1, .manage, .submit "foo bar" 2, .manage, .take 0, .finish 0, .take 0, .finish 0, .close,
     .manage, .manage, .manage, .take 0, .take 1, .take 2, .joined]).1.status = .stopped := by decide +kernel

/-! ## src/system.rs -/

/-- A proof-of-work library for the tests: a nonce as large as the difficulty is sufficient, and the result of the work is the string. -/
def lib : PowLib :=
  { salt := "myrandomsaltisnotlongenoug", isSufficientDifficulty := fun w d => decide (d ≤ w.nonce),
    isValidProof := fun w s => decide (w.result = s) }

/-- `config.prove_work(string, difficulty_factor)`, as a payload for a site. -/
def solve (string : String) (d : Nat) (key : String) : Work := { string := string, result := string, nonce := d, key := key }

/-- Random draws, always the same. -/
def always (k : Fin 62) : Rng := fun _ => k

/-- `boostrap_system`, src/system.rs:216-237. -/
def bootstrap : List VStep := [.world (.req 0 (.addSite "batsense.net" mcaptcha))]

/-- A `get_pow` call, number `i`, for the site of the tests. -/
def getPow (i : Nat) (k : Fin 62) : List VStep :=
  [.sys (.call (.get "batsense.net")), .ask i, .world (.run 1), .hear i (always k), .sys (.cache i), .sys (.resume i)]

/-- A `verify_pow` call up to the look-up of the challenge. -/
def verifyStart (i : Nat) (w : Work) : List VStep := [.sys (.call (.verify w "1")), .sys (.cache i), .sys (.resume i)]

/-- The job of call `i` is run by worker 0 in `n` steps, and the call reads the verdict. -/
def verifyRun (i n : Nat) (k : Fin 62) : List VStep :=
  [.sys (.queue .manage), .sys (.resume i), .sys (.queue (.take 0))] ++ List.replicate n (.sys (.work 0)) ++ [.sys (.queue (.finish 0)),
   .sys (.queue .manage), .sys (.poll i (always k))]

/-- The token is stored and the call returns. -/
def verifyEnd (i : Nat) : List VStep := [.sys (.cache i), .sys (.resume i)]

/-- A `validate_verification_tokens` call. -/
def validate (i : Nat) (v : VerifyCaptchaResult) : List VStep := [.sys (.call (.validate v)), .sys (.cache i), .sys (.resume i)]

/-- What the calls returned, in order. -/
def returned (evs : List VEvent) : List (Nat × Ret) :=
  evs.filterMap fun e => match e with | .api (.ret i _ r) => some (i, r) | _ => none

/- `get_pow_works`, src/system.rs:246-251 -/
example : returned (vRun lib dbg (Service.new 2 2000 10 0) (bootstrap ++ getPow 0 0)).2 =
    [(0, .get (.ok (some ⟨getRandom 32 (always 0), 50, "myrandomsaltisnotlongenoug"⟩)))] := by decide +kernel

/-- `verify_pow_works`, src/system.rs:253-331. -/
def verifyTest : List VStep :=
  bootstrap ++ getPow 0 0 ++
  (verifyStart 1 (solve (getRandom 32 (always 0)) 50 "batsense.net") ++ verifyRun 1 4 1 ++ verifyEnd 1) ++
  validate 2 ⟨getRandom 32 (always 1), "batsense.net"⟩ ++
  validate 3 ⟨"batsense.net", "batsense.net"⟩ ++
  verifyStart 4 { solve (getRandom 32 (always 0)) 50 "batsense.net" with string := "wrongstring" } ++
  getPow 5 2 ++
  (verifyStart 6 (solve (getRandom 32 (always 2)) 1 "batsense.net") ++ verifyRun 6 5 3) ++
  getPow 7 4 ++
  verifyStart 8 (solve (getRandom 32 (always 4)) 50 "example.com")

example : returned (vRun lib dbg (Service.new 2 2000 10 0) verifyTest).2 =
    [(0, .get (.ok (some ⟨getRandom 32 (always 0), 50, "myrandomsaltisnotlongenoug"⟩))),
     (1, .verify (.ok (getRandom 32 (always 1), 50))),
     (2, .validate (.ok true)),
     (3, .validate (.ok false)),
     (4, .verify (.error .stringNotFound)),
     (5, .get (.ok (some ⟨getRandom 32 (always 2), 50, "myrandomsaltisnotlongenoug"⟩))),
     (6, .verify (.error .insuffiencientDifficulty)),
     (7, .get (.ok (some ⟨getRandom 32 (always 4), 50, "myrandomsaltisnotlongenoug"⟩))),
     (8, .verify (.error .mCaptchaKeyValidationFail))] := by decide +kernel

/-! ## The example of src/lib.rs, lines 47-186 -/

example : defenseOf [(50, 500), (5000, 50000)] = some (.ok ⟨[⟨50, 500⟩, ⟨5000, 50000⟩], 0⟩) := by
  simp [defenseOf, addAll, level, LevelBuilder.default, LevelBuilder.setVisitorThreshold, LevelBuilder.setDifficultyFactor, LevelBuilder.build,
    DefenseBuilder.addLevel, DefenseBuilder.default, DefenseBuilder.build, DefenseBuilder.hasDecrease, List.mergeSort,
    List.MergeSort.Internal.splitInTwo]

example : ((MCaptchaBuilder.default.setDefense ⟨[⟨50, 500⟩, ⟨5000, 50000⟩], 0⟩).setDuration 30).build =
    .ok ⟨0, ⟨[⟨50, 500⟩, ⟨5000, 50000⟩], 0⟩, 30⟩ := by decide

example : returned (vRun lib dbg (Service.new 4 2000 5 0)
      ([.world (.req 0 (.addSite "batsense.net" ⟨0, ⟨[⟨50, 500⟩, ⟨5000, 50000⟩], 0⟩, 30⟩))] ++ getPow 0 0 ++
       (verifyStart 1 (solve (getRandom 32 (always 0)) 500 "batsense.net") ++ verifyRun 1 4 1 ++ verifyEnd 1) ++
       validate 2 ⟨getRandom 32 (always 1), "batsense.net"⟩)).2 =
    [(0, .get (.ok (some ⟨getRandom 32 (always 0), 500, "myrandomsaltisnotlongenoug"⟩))),
     (1, .verify (.ok (getRandom 32 (always 1), 500))),
     (2, .validate (.ok true))] := by decide +kernel

/-! ## src/redis/mcaptcha_redis.rs and src/cache/redis.rs

What does not depend on the Redis module: tokens, and the readings of plausible answers. -/

/- the tokens of `redis_master_works`, src/redis/mcaptcha_redis.rs:333-353 -/
example : (tokenRun (RedisDb.init 0)
    [.add ⟨"randomchallengestring", "REDIS_CAPTCHA_TEST", 10⟩, .get ⟨"REDIS_CAPTCHA_TEST", "REDIS_CAPTCHA_TEST"⟩,
     .get ⟨"randomchallengestring", "REDIS_CAPTCHA_TEST"⟩, .add ⟨"randomchallengestring", "REDIS_CAPTCHA_TEST", 10⟩,
     .delete ⟨"randomchallengestring", "REDIS_CAPTCHA_TEST"⟩]).2 =
    [.added ⟨"randomchallengestring", "REDIS_CAPTCHA_TEST", 10⟩ 0, .answered ⟨"REDIS_CAPTCHA_TEST", "REDIS_CAPTCHA_TEST"⟩ (.ok false) 0,
     .answered ⟨"randomchallengestring", "REDIS_CAPTCHA_TEST"⟩ (.ok true) 0, .added ⟨"randomchallengestring", "REDIS_CAPTCHA_TEST", 10⟩ 0,
     .deleted ⟨"randomchallengestring", "REDIS_CAPTCHA_TEST"⟩] := by decide +kernel

/- the reply of a running server to `PING`, src/redis/mod.rs:149-154 -/
example : RedisClient.ping (.ok (.simple "PONG")) = true := by decide

/- `redishashcache_result_cache_works`, src/cache/redis.rs:225-282 -/
example : (tokenRun (RedisDb.init 0)
    [.add ⟨"b", "a", 5⟩, .get ⟨"b", "a"⟩, .get ⟨"b", "a"⟩, .get ⟨"b", "cz"⟩, .tick 10000, .get ⟨"b", "a"⟩]).2 =
    [.added ⟨"b", "a", 5⟩ 0, .answered ⟨"b", "a"⟩ (.ok true) 0, .answered ⟨"b", "a"⟩ (.ok false) 0, .answered ⟨"b", "cz"⟩ (.ok false) 0,
     .answered ⟨"b", "a"⟩ (.ok false) 10000] := by decide +kernel

end MCap.RepoTests
