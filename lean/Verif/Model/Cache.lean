import Verif.Model.Core
import Verif.Model.Pow

/-!
# Model of src/cache/mod.rs and src/cache/hashcache.rs

The in-memory cache actor with the expiry tasks it spawned.

Simplifications:
* Time is a natural number of seconds. `sleep(d)` started at `now` is due at `now + d`; the `addr.send(..)` that follows
  and the handling of that message are one step, possible at any moment from the due time on.
* Replies through a `oneshot` channel are results of the step; the receiver is assumed to exist, so `tx.send(..).unwrap()`
  succeeds (the receiver is returned by the same handler).
-/

namespace MCap

/-- `CachePoW`, src/cache/mod.rs:58-69. -/
structure CachePoW where
  string : String
  difficultyFactor : Nat
  duration : Nat
  key : String
deriving DecidableEq, Repr

/-- `CachedPoWConfig`, src/cache/mod.rs:77-83. -/
structure CachedPoWConfig where
  key : String
  difficultyFactor : Nat
  duration : Nat
deriving DecidableEq, Repr

/-- `CacheResult`, src/cache/mod.rs:93-100. -/
structure CacheResult where
  token : String
  key : String
  duration : Nat
deriving DecidableEq, Repr

/-- `VerifyCaptchaResult`, src/cache/mod.rs:117-122. -/
structure VerifyCaptchaResult where
  token : String
  key : String
deriving DecidableEq, Repr

/-- `impl From<CachedPoWConfig> for CacheResult`, src/cache/mod.rs:102-113. All fields are set, so
`build().unwrap()` succeeds. -/
def CacheResult.ofConfig (c : CachedPoWConfig) (g : Rng) : CacheResult :=
  { token := getRandom 32 g, key := c.key, duration := c.duration }

/-- `HashCache`, src/cache/hashcache.rs:28-33. -/
structure HashCache where
  difficultyMap : AMap String CachedPoWConfig
  resultMap : AMap String String
deriving DecidableEq, Repr

namespace HashCache

/-- `HashCache::default`, src/cache/hashcache.rs:28. -/
def default : HashCache := { difficultyMap := [], resultMap := [] }

/-- `save_pow_config`, src/cache/hashcache.rs:37-47. -/
def savePowConfig (h : HashCache) (config : CachePoW) : HashCache :=
  let saved : CachedPoWConfig :=
    { key := config.key, difficultyFactor := config.difficultyFactor, duration := config.duration }
  { h with difficultyMap := h.difficultyMap.insert config.string saved }

/-- `remove_pow_config`, src/cache/hashcache.rs:62-64. -/
def removePowConfig (h : HashCache) (string : String) : HashCache × Option CachedPoWConfig :=
  ({ h with difficultyMap := h.difficultyMap.erase string }, h.difficultyMap.get string)

/-- `retrive_pow_config`, src/cache/hashcache.rs:50-59. The key of the message is ignored. -/
def retrivePowConfig (h : HashCache) (msg : VerifyCaptchaResult) : HashCache × Option CachedPoWConfig :=
  match h.removePowConfig msg.token with
  | (h', some c) => (h', some c)
  | (h', none) => (h', none)

/-- `save_captcha_result`, src/cache/hashcache.rs:67-70. -/
def saveCaptchaResult (h : HashCache) (res : CacheResult) : HashCache :=
  { h with resultMap := h.resultMap.insert res.token res.key }

/-- `remove_cache_result`, src/cache/hashcache.rs:86-88. -/
def removeCacheResult (h : HashCache) (string : String) : HashCache × Option String :=
  ({ h with resultMap := h.resultMap.erase string }, h.resultMap.get string)

/-- `verify_captcha_result`, src/cache/hashcache.rs:73-83. -/
def verifyCaptchaResult (h : HashCache) (challenge : VerifyCaptchaResult) : HashCache × Bool :=
  match h.removeCacheResult challenge.token with
  | (h', some captchaId) => if captchaId = challenge.key then (h', true) else (h', false)
  | (h', none) => (h', false)

end HashCache

/-- Messages handled by a cache, src/cache/mod.rs:57-129. -/
inductive CacheMsg where
  | cachePow (c : CachePoW)
  | deletePow (string : String)
  | retrivePow (v : VerifyCaptchaResult)
  | cacheResult (r : CacheResult)
  | deleteResult (token : String)
  | verify (v : VerifyCaptchaResult)
deriving DecidableEq, Repr

/-- Replies. -/
inductive CacheReply where
  | done
  | config (c : Option CachedPoWConfig)
  | verdict (b : Bool)
deriving DecidableEq, Repr

/-- A task spawned on the cache's context: sends `msg` once `due` has passed. -/
structure CacheTimer where
  due : Nat
  msg : CacheMsg
deriving DecidableEq, Repr

/-- The cache actor with its spawned tasks and the clock. -/
structure CacheWorld where
  now : Nat
  cache : HashCache
  timers : List CacheTimer
deriving DecidableEq, Repr

namespace CacheWorld

/-- `HashCache::default().start()`. -/
def init (now : Nat) : CacheWorld := { now := now, cache := HashCache.default, timers := [] }

/-- The handlers, src/cache/hashcache.rs:98-188. -/
def handle (w : CacheWorld) : CacheMsg → CacheWorld × CacheReply
  /- lines 98-121 -/
  | .cachePow c =>
    ({ w with cache := w.cache.savePowConfig c,
              timers := w.timers ++ [{ due := w.now + c.duration, msg := .deletePow c.string }] }, .done)
  /- lines 124-130 -/
  | .deletePow s => ({ w with cache := (w.cache.removePowConfig s).1 }, .done)
  /- lines 133-140 -/
  | .retrivePow v =>
    let (h, r) := w.cache.retrivePowConfig v
    ({ w with cache := h }, .config r)
  /- lines 143-168 -/
  | .cacheResult r =>
    ({ w with cache := w.cache.saveCaptchaResult r,
              timers := w.timers ++ [{ due := w.now + r.duration, msg := .deleteResult r.token }] }, .done)
  /- lines 171-177 -/
  | .deleteResult t => ({ w with cache := (w.cache.removeCacheResult t).1 }, .done)
  /- lines 180-188 -/
  | .verify v =>
    let (h, b) := w.cache.verifyCaptchaResult v
    ({ w with cache := h }, .verdict b)

end CacheWorld

/-- One step: a message is handled, the clock advances, or the `i`-th pending task delivers its message if it is due
(src/cache/hashcache.rs:109-114 and 156-161). -/
inductive CacheStep where
  | req (msg : CacheMsg)
  | tick (d : Nat)
  | fire (i : Nat)
deriving DecidableEq, Repr

/-- Execute one step. Result: the world and the message handled with its reply, if any. -/
def cacheStep (w : CacheWorld) : CacheStep → CacheWorld × List (CacheMsg × CacheReply)
  | .req msg => ((w.handle msg).1, [(msg, (w.handle msg).2)])
  | .tick d => ({ w with now := w.now + d }, [])
  | .fire i =>
    match w.timers[i]? with
    | some t =>
      if t.due ≤ w.now then
        let (w', r) := ({ w with timers := w.timers.eraseIdx i } : CacheWorld).handle t.msg
        (w', [(t.msg, r)])
      else (w, [])
    | none => (w, [])

/-- Execute a schedule; the trace lists the messages handled, with replies, in order. -/
def cacheRun : CacheWorld → List CacheStep → CacheWorld × List (CacheMsg × CacheReply)
  | w, [] => (w, [])
  | w, s :: r =>
    let (w', t) := cacheStep w s
    let (w'', t') := cacheRun w' r
    (w'', t ++ t')

end MCap
