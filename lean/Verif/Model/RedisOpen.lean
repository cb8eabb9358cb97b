import Verif.Model.Redis

/-!
# Model of opening a Redis back end

`RedisConfig::connect`, `Redis::new` (src/redis/mod.rs), `MCaptchaRedis::new` (src/redis/mcaptcha_redis.rs), `Master::new`
(src/master/redis/master.rs) and `RedisCache::new` (src/cache/redis.rs).
-/

namespace MCap

/-- `RedisConfig`, src/redis/mod.rs:32-37. -/
inductive RedisConfig where
  | single (url : String)
  | cluster (nodes : List String)
deriving DecidableEq, Repr

/-- What the library meets when it opens a back end: whether an address is well-formed and whether the server can be reached, both as
the `redis` crate finds, and the replies of the server. Every command is sent at most once, so that a reply depends on nothing else. -/
structure RedisWorld where
  /-- `Client::open` -/
  parseUrl : String → Except String Unit
  /-- `ConnectionManager::new` -/
  reach : String → Except String Unit
  /-- `ClusterClient::new` -/
  parseNodes : List String → Except String Unit
  /-- `ClusterClient::get_connection` -/
  reachNodes : List String → Except String Unit
  /-- `exec::<Value>` on the connection -/
  reply : RCommand → RResult

namespace RedisWorld

/-- `RedisConfig::connect`, src/redis/mod.rs:41-54. For a single server it connects; for a cluster it only reads the addresses. -/
def connect (w : RedisWorld) : RedisConfig → Exec Unit
  | .single url =>
    match w.parseUrl url with
    | .error _ => .panic .unwrapErr
    | .ok () =>
      match w.reach url with
      | .error _ => .panic .unwrapErr
      | .ok () => .ret ()
  | .cluster nodes =>
    match w.parseNodes nodes with
    | .error _ => .panic .unwrapErr
    | .ok () => .ret ()

/-- `Redis::new`, `Redis::connect`, src/redis/mod.rs:108-134. A single connection is cloned; for a cluster the connection is made here,
with `?` on failure. -/
def redisNew (w : RedisWorld) (cfg : RedisConfig) : Exec (CaptchaResult Unit) :=
  (w.connect cfg).bind fun () =>
    match cfg with
    | .single _ => .ret (.ok ())
    | .cluster nodes =>
      match w.reachNodes nodes with
      | .error e => .ret (.error (.redisError e))
      | .ok () => .ret (.ok ())

/-- The loop of `is_module_loaded`, src/redis/mcaptcha_redis.rs:95-108, with the commands it sends. -/
def askCommands (w : RedisWorld) : List String → List RCommand × Exec (CaptchaResult Unit)
  | [] => ([], .ret (.ok ()))
  | cmd :: r =>
    match w.reply ["COMMAND", "INFO", cmd] with
    | .error _ => ([["COMMAND", "INFO", cmd]], .panic .unwrapErr)
    | .ok v =>
      match RedisClient.commandCheck cmd v with
      | .error e => ([["COMMAND", "INFO", cmd]], .ret (.error e))
      | .ok () => (["COMMAND", "INFO", cmd] :: (w.askCommands r).1, (w.askCommands r).2)

/-- `is_module_loaded`, src/redis/mcaptcha_redis.rs:71-110, with the commands it sends. -/
def askModule (w : RedisWorld) (printable : Char → Bool) : List RCommand × Exec (CaptchaResult Unit) :=
  match w.reply ["MODULE", "LIST"] with
  | .error _ => ([["MODULE", "LIST"]], .panic .unwrapErr)
  | .ok v =>
    match RedisClient.moduleCheck printable v with
    | .error e => ([["MODULE", "LIST"]], .ret (.error e))
    | .ok () => (["MODULE", "LIST"] :: (w.askCommands RedisClient.requiredCommands).1, (w.askCommands RedisClient.requiredCommands).2)

/-- `MCaptchaRedis::new`, src/redis/mcaptcha_redis.rs:55-60. `Master::new` (src/master/redis/master.rs:35-39) and `RedisCache::new`
(src/cache/redis.rs:32-36) wrap what it returns. The commands sent, and the outcome. -/
def openBackend (w : RedisWorld) (printable : Char → Bool) (cfg : RedisConfig) : List RCommand × Exec (CaptchaResult Unit) :=
  match w.redisNew cfg with
  | .panic why => ([], .panic why)
  | .ret (.error e) => ([], .ret (.error e))
  | .ret (.ok ()) => w.askModule printable

end RedisWorld

end MCap
