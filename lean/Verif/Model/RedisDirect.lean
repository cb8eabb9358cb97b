import Verif.Model.Redis

/-!
# `MCaptchaRedisConnection`, used directly

The actors use eight of its methods; the others are there for users of the library.
-/

namespace MCap

/-- A call of a method of `MCaptchaRedisConnection` that sends one command, src/redis/mcaptcha_redis.rs:112-248. -/
inductive ConnCall where
  | ping
  | addVisitor (id : String)
  | addMcaptcha (id : String) (m : MCaptcha)
  | checkCaptchaExists (captcha : String)
  | deleteCaptcha (captcha : String)
  | renameCaptcha (name renameTo : String)
  | addChallenge (captcha : String) (c : AddChallenge)
  | getChallenge (v : VerifyCaptchaResult)
  | deleteChallenge (v : VerifyCaptchaResult)
  | getVisitors (captcha : String)
  | addToken (r : CacheResult)
  | getToken (v : VerifyCaptchaResult)
  | deleteToken (v : VerifyCaptchaResult)
deriving DecidableEq, Repr

/-- What a method returns. -/
inductive ConnAnswer where
  | flag (b : Bool)
  | unit (r : CaptchaResult Unit)
  | bool (r : CaptchaResult Bool)
  | count (r : CaptchaResult Int)
  | visitor (r : CaptchaResult (Option AddVisitorResult))
  | challenge (r : CaptchaResult AddVisitorResult)
deriving DecidableEq, Repr

namespace RedisClient

/-- `RedisConnection::ping`, src/redis/mod.rs:83. -/
def pingCmd : RCommand := ["PING"]

/-- `delete_challenge`, src/redis/mcaptcha_redis.rs:197. -/
def deleteChallengeCmd (v : VerifyCaptchaResult) : RCommand := ["MCAPTCHA_CACHE.DELETE_CHALLENGE", v.key, v.token]

/-- `get_visitors`, src/redis/mcaptcha_redis.rs:204. -/
def getVisitorsCmd (captcha : String) : RCommand := ["MCAPTCHA_CACHE.GET", captcha]

end RedisClient

namespace ConnCall

/-- The command the method sends. -/
def command : ConnCall → RCommand
  | .ping => RedisClient.pingCmd
  | .addVisitor id => RedisClient.addVisitorCmd id
  | .addMcaptcha id m => RedisClient.addMcaptchaCmd id m
  | .checkCaptchaExists captcha => RedisClient.existsCmd captcha
  | .deleteCaptcha captcha => RedisClient.deleteCaptchaCmd captcha
  | .renameCaptcha name renameTo => RedisClient.renameCmd name renameTo
  | .addChallenge captcha c => RedisClient.addChallengeCmd captcha c
  | .getChallenge v => RedisClient.getChallengeCmd v
  | .deleteChallenge v => RedisClient.deleteChallengeCmd v
  | .getVisitors captcha => RedisClient.getVisitorsCmd captcha
  | .addToken r => RedisClient.addTokenCmd r
  | .getToken v => RedisClient.getTokenCmd v
  | .deleteToken v => RedisClient.deleteTokenCmd v

/-- What the method makes of the reply. -/
def finish (c : ConnCall) (r : RResult) : Exec ConnAnswer :=
  match c with
  | .ping => .ret (.flag (RedisClient.ping r))
  | .addVisitor _ => (RedisClient.addVisitor r).map .visitor
  | .addMcaptcha _ _ => (RedisClient.unitReply r).map .unit
  | .checkCaptchaExists _ => (RedisClient.captchaExists r).map .bool
  | .deleteCaptcha _ => (RedisClient.unitReply r).map .unit
  | .renameCaptcha _ _ => (RedisClient.unitReply r).map .unit
  | .addChallenge _ _ => (RedisClient.unitReply r).map .unit
  | .getChallenge _ => (RedisClient.getChallenge r).map .challenge
  | .deleteChallenge _ => (RedisClient.unitReply r).map .unit
  | .getVisitors _ => (RedisClient.getVisitors r).map .count
  | .addToken _ => (RedisClient.addToken r).map .unit
  | .getToken _ => (RedisClient.getToken r).map .bool
  | .deleteToken _ => (RedisClient.unitReply r).map .unit

end ConnCall

end MCap
