import Verif.Spec.Redis
import Verif.Spec.Cache

/-!
# The two caches side by side, with time
-/

namespace MCap.Spec

/-- The same history on a Redis server: it expires tokens itself. -/
def onRedis : CacheStep → List TokenStep
  | .req (.cacheResult m) => [.add m]
  | .req (.verify v) => [.get v]
  | .tick d => [.tick (1000 * d)]
  | _ => []

/-- The verdicts of the in-memory cache in a history with passing time and deliveries of its tasks. -/
def hashVerdictsIn (now : Nat) (steps : List CacheStep) : List (CaptchaResult Bool) :=
  (cacheRun (CacheWorld.init now) steps).2.filterMap fun e => match e with | (_, .verdict b) => some (.ok b) | _ => none

/-- The verdicts with Redis. -/
def redisVerdictsIn (now : Nat) (steps : List CacheStep) : List (CaptchaResult Bool) :=
  (tokenRun (RedisDb.init (1000 * now)) (steps.flatMap onRedis)).2.filterMap fun e => match e with | .answered _ r _ => some r | _ => none

/-- After `steps`, token `t` was stored for site `key`, to end at `due`. -/
def StoredUntil (now : Nat) (steps : List CacheStep) (t key : String) (due : Nat) : Prop :=
  ∃ a m b, steps = a ++ .req (.cacheResult m) :: b ∧ m.token = t ∧ m.key = key ∧ due = cacheClock now a + m.duration

/-- Every token belongs to one site, named without a colon, is stored once, for a time the server takes, and is not removed by hand. -/
structure TokensOnce (keyOf : String → String) (now : Nat) (steps : List CacheStep) : Prop where
  store : ∀ a m b, steps = a ++ .req (.cacheResult m) :: b → m.key = keyOf m.token ∧ ':' ∉ m.key.toList ∧ 0 < m.duration ∧
    1000 * (cacheClock now a + m.duration) ≤ 2 ^ 63 - 1 ∧ ∀ m', .req (.cacheResult m') ∈ a → m'.token ≠ m.token
  check : ∀ v, .req (.verify v) ∈ steps → v.key = keyOf v.token ∧ ':' ∉ v.key.toList
  kept : ∀ t, .req (.deleteResult t) ∉ steps

/-- Whenever a token is checked, no task of the cache is overdue, and it is not the very second in which the token ends. -/
def ChecksOnTime (now : Nat) (steps : List CacheStep) : Prop :=
  ∀ a v b, steps = a ++ .req (.verify v) :: b →
    CacheOnTime (cacheRun (CacheWorld.init now) a).1 ∧ ∀ key due, StoredUntil now a v.token key due → cacheClock now a ≠ due

end MCap.Spec
