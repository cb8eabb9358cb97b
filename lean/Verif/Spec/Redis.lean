import Verif.Model.Redis
import Verif.Spec.Json

/-!
# Specification of the Redis back end
-/

namespace MCap.Spec

/-! ### Tokens -/

/-- The event concerns the pair of site key and token stored under the Redis key `κ`. -/
def Concerns (κ : String) : TokenEvent → Prop
  | .added m _ => tokenKey m.key m.token = κ
  | .failed _ => False
  | .answered v _ _ => tokenKey v.key v.token = κ
  | .deleted v => tokenKey v.key v.token = κ

/-- After `log`, at time `now`, the token is there: it was added, nothing happened to it since, and its time has not run out. -/
def TokenThere (log : List TokenEvent) (κ : String) (now : Nat) : Prop :=
  ∃ a m t b, log = a ++ .added m t :: b ∧ tokenKey m.key m.token = κ ∧ (∀ e ∈ b, ¬ Concerns κ e) ∧ now ≤ t + 1000 * m.duration

/-- How often the pair was accepted. -/
def acceptances (κ : String) (log : List TokenEvent) : Nat :=
  (log.filter fun e => match e with | .answered v (.ok true) _ => tokenKey v.key v.token == κ | _ => false).length

/-- How often the pair was stored. -/
def additions (κ : String) (log : List TokenEvent) : Nat :=
  (log.filter fun e => match e with | .added m _ => tokenKey m.key m.token == κ | _ => false).length

/-! ### Two back ends -/

/-- What is asked of a cache about tokens. -/
inductive TokenMsg where
  | store (m : CacheResult)
  | check (v : VerifyCaptchaResult)

/-- The verdicts of the in-memory cache. -/
def hashVerdicts (now : Nat) (msgs : List TokenMsg) : List (CaptchaResult Bool) :=
  (cacheRun (CacheWorld.init now) (msgs.map fun | .store m => .req (.cacheResult m) | .check v => .req (.verify v))).2.filterMap
    fun e => match e with | (_, .verdict b) => some (.ok b) | _ => none

/-- The verdicts with Redis. -/
def redisVerdicts (now : Nat) (msgs : List TokenMsg) : List (CaptchaResult Bool) :=
  (tokenRun (RedisDb.init now) (msgs.map fun | .store m => .add m | .check v => .get v)).2.filterMap
    fun e => match e with | .answered _ r _ => some r | _ => none

/-! ### Numeric replies -/

/-- Decimal digits meaning `n`; leading zeros are allowed. -/
def DigitsText (t : List Char) (n : Nat) : Prop := t ≠ [] ∧ (∀ c ∈ t, c.isDigit = true) ∧ Nat.ofDigitChars 10 t 0 = n

/-- The text of a natural number, possibly with a plus sign. -/
def UnsignedText (s : String) (n : Nat) : Prop := DigitsText s.toList n ∨ ∃ t, s.toList = '+' :: t ∧ DigitsText t n

/-- The text of an integer. -/
def SignedText (s : String) (i : Int) : Prop :=
  (∃ n : Nat, UnsignedText s n ∧ i = n) ∨ ∃ t n, s.toList = '-' :: t ∧ DigitsText t n ∧ i = -(n : Int)

/-- The reply is a count: a natural number of 64 bits, sent as an integer or as a text. -/
def SaysCount (v : RValue) (n : Nat) : Prop :=
  n < 2 ^ 64 ∧ (v = .int n ∨ ∃ s, (v = .bulk s ∨ v = .simple s) ∧ UnsignedText s n)

/-- The reply is an integer of 32 bits, sent as an integer or as a text. -/
def SaysInt (v : RValue) (i : Int) : Prop :=
  -(2 ^ 31) ≤ i ∧ i < 2 ^ 31 ∧ (v = .int i ∨ ∃ s, (v = .bulk s ∨ v = .simple s) ∧ SignedText s i)

/-! ### The module -/

/-- The server lists a module called `name`: an entry with a field of that name. -/
def ListsModule (modules : RResult) (name : String) : Prop :=
  ∃ es fs, modules = .ok (.array es) ∧ .array fs ∈ es ∧ .bulk name ∈ fs

/-- A text inside the value contains `name`. -/
inductive Mentions (name : String) : RValue → Prop
  | bulk (a b : String) : Mentions name (.bulk (a ++ name ++ b))
  | simple (a b : String) : Mentions name (.simple (a ++ name ++ b))
  | inside (vs : List RValue) (v : RValue) (hm : v ∈ vs) (h : Mentions name v) : Mentions name (.array vs)

/-- The server knows the command: `COMMAND INFO` has one answer, which is not nil. -/
def KnowsCommand (info : String → RResult) (cmd : String) : Prop :=
  ∃ v, info cmd = .ok (.array [v]) ∧ v ≠ .nil

/-- The server does not know the command: the one answer is nil. -/
def LacksCommand (info : String → RResult) (cmd : String) : Prop := info cmd = .ok (.array [.nil])

/-- The commands of the module the library uses, src/redis/mcaptcha_redis.rs:38-46. -/
def moduleCommands : List String :=
  ["MCAPTCHA_CACHE.GET", "MCAPTCHA_CACHE.ADD_VISITOR", "MCAPTCHA_CACHE.DELETE_CAPTCHA", "MCAPTCHA_CACHE.ADD_CAPTCHA",
   "MCAPTCHA_CACHE.CAPTCHA_EXISTS", "MCAPTCHA_CACHE.RENAME_CAPTCHA", "MCAPTCHA_CACHE.ADD_CHALLENGE", "MCAPTCHA_CACHE.GET_CHALLENGE",
   "MCAPTCHA_CACHE.DELETE_CHALLENGE"]

/-! ### Actors -/

/-- The commands to be sent for a message: their name and arguments. -/
inductive Wire : RMsg → RCommand → Prop
  | cachePow (c : CachePoW) (p : String) (hp : Denotes p.toList (.obj [(some "difficulty".toList, .num c.difficultyFactor),
      (some "duration".toList, .num c.duration), (some "challenge".toList, .str c.string.toList)])) :
      Wire (.cachePow c) ["MCAPTCHA_CACHE.ADD_CHALLENGE", c.key, p]
  | retrivePow (v : VerifyCaptchaResult) : Wire (.retrivePow v) ["MCAPTCHA_CACHE.GET_CHALLENGE", v.key, v.token]
  | cacheResult (r : CacheResult) (n : String) (hn : NumberText n.toList r.duration) :
      Wire (.cacheResult r) ["SET", "mcaptcha:token:" ++ r.key ++ ":" ++ r.token, r.key, "EX", n]
  | verify (v : VerifyCaptchaResult) : Wire (.verify v) ["DEL", "mcaptcha:token:" ++ v.key ++ ":" ++ v.token]
  | addVisitor (id : String) : Wire (.addVisitor id) ["MCAPTCHA_CACHE.ADD_VISITOR", id]
  | addSite (id : String) (m : MCaptcha) (p : String) (hp : Denotes p.toList (.obj [(some "levels".toList, .arr (m.defense.levels.map fun l =>
        .obj [(some "visitor_threshold".toList, .num l.visitorThreshold), (some "difficulty_factor".toList, .num l.difficultyFactor)])),
      (some "duration".toList, .num m.duration)])) : Wire (.addSite id m) ["MCAPTCHA_CACHE.ADD_CAPTCHA", id, p]
  | rename (name renameTo : String) : Wire (.rename name renameTo) ["MCAPTCHA_CACHE.RENAME_CAPTCHA", name, renameTo]
  | removeCaptcha (id : String) : Wire (.removeCaptcha id) ["MCAPTCHA_CACHE.DELETE_CAPTCHA", id]

/-- The requests to a cache that need Redis, src/cache/redis.rs. -/
inductive ToCache : RMsg → Prop
  | cachePow (c : CachePoW) : ToCache (.cachePow c)
  | retrivePow (v : VerifyCaptchaResult) : ToCache (.retrivePow v)
  | cacheResult (r : CacheResult) : ToCache (.cacheResult r)
  | verify (v : VerifyCaptchaResult) : ToCache (.verify v)

/-- The messages accepted by actor `a`, in order. -/
def sentTo (a : Nat) (log : List REvent) : List Nat :=
  log.filterMap fun e => match e with | .sent b i _ => if b = a then some i else none | _ => none

/-- The messages answered by actor `a`, in order. -/
def answeredBy (a : Nat) (log : List REvent) : List Nat :=
  log.filterMap fun e => match e with | .answered b i _ _ => if b = a then some i else none | _ => none

end MCap.Spec
