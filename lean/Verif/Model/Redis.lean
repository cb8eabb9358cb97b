import Verif.Model.Json

/-!
# Model of src/redis/mod.rs, src/redis/mcaptcha_redis.rs, src/cache/redis.rs and src/master/redis/master.rs

What the library sends to a Redis server, what it makes of the replies, and the actors that do so.

Simplifications:
* Replies are those of protocol version 2 (the default of the `redis` crate). Texts are Unicode; a bulk string that is not UTF-8 is
  `RValue.binary`. Errors are kept as texts.
* `FromRedisValue` for integers converts `Value::Int` with an `as` cast, as the `redis` crate does.
* `usize` has 64 bits.
* The mCaptcha Redis module is not part of the repository: its commands may reply anything. Of the server itself, `SET key value EX s`
  and `DEL key` are modelled (`RedisDb`), as documented by Redis.
-/

namespace MCap

/-- `redis::Value`, restricted to protocol version 2. -/
inductive RValue where
  | nil
  | int (i : Int)
  | bulk (s : String)
  | binary
  | array (vs : List RValue)
  | simple (s : String)
  | okay

/-- The outcome of `RedisConnection::exec::<Value>`, src/redis/mod.rs:73-80. -/
abbrev RResult := Except String RValue

/-! ## Reading replies (`FromRedisValue`) -/

/-- `i as i32`. -/
def wrapI32 (i : Int) : Int := (i + 2 ^ 31) % 2 ^ 32 - 2 ^ 31

/-- `i as usize`. -/
def wrapUsize (i : Int) : Int := i % 2 ^ 64

/-- Decimal digits, at least one. -/
def parseDigits (cs : List Char) : Option Nat :=
  if cs ≠ [] ∧ cs.all Char.isDigit then some (Nat.ofDigitChars 10 cs 0) else none

/-- `str::parse::<i32>`. -/
def parseI32 (s : String) : Option Int :=
  let v : Option Int :=
    match s.toList with
    | '-' :: r => (parseDigits r).map fun (n : Nat) => -(n : Int)
    | '+' :: r => (parseDigits r).map fun (n : Nat) => (n : Int)
    | r => (parseDigits r).map fun (n : Nat) => (n : Int)
  v.filter fun i => -(2 ^ 31) ≤ i ∧ i < 2 ^ 31

/-- `str::parse::<usize>`. -/
def parseUsize (s : String) : Option Int :=
  let v : Option Int :=
    match s.toList with
    | '+' :: r => (parseDigits r).map fun (n : Nat) => (n : Int)
    | r => (parseDigits r).map fun (n : Nat) => (n : Int)
  v.filter fun i => i < 2 ^ 64

/-- An `i32`. -/
def RValue.readI32 : RValue → Except String Int
  | .int i => .ok (wrapI32 i)
  | .simple s => match parseI32 s with | some i => .ok i | none => .error "Could not convert from string."
  | .bulk s => match parseI32 s with | some i => .ok i | none => .error "Could not convert from string."
  | _ => .error "Response type not convertible to numeric."

/-- A `usize`. -/
def RValue.readUsize : RValue → Except String Int
  | .int i => .ok (wrapUsize i)
  | .simple s => match parseUsize s with | some i => .ok i | none => .error "Could not convert from string."
  | .bulk s => match parseUsize s with | some i => .ok i | none => .error "Could not convert from string."
  | _ => .error "Response type not convertible to numeric."

/-- A `String`. -/
def RValue.readString : RValue → Except String String
  | .bulk s => .ok s
  | .simple s => .ok s
  | .okay => .ok "OK"
  | .int i => .ok (toString i)
  | _ => .error "Response type not string compatible."

/-! ## The commands, src/redis/mcaptcha_redis.rs -/

/-- A command with its arguments. -/
abbrev RCommand := List String

/-- The key of a token, src/redis/mcaptcha_redis.rs:212, 232, 245. -/
def tokenKey (key token : String) : String := "mcaptcha:token:" ++ key ++ ":" ++ token

/-- `serde_json::to_string`. -/
def toStr (j : Json) : String := String.ofList j.text

/-- `serde_json::from_str::<AddVisitorResult>(..).unwrap()`, lines 120 and 191. -/
def readVisitor (s : String) : Exec AddVisitorResult :=
  match (jsonParse s.toList).bind AddVisitorResult.ofJson with
  | some v => .ret v
  | none => .panic .unwrapErr

namespace RedisClient

/-- `add_visitor`, line 119. -/
def addVisitorCmd (id : String) : RCommand := ["MCAPTCHA_CACHE.ADD_VISITOR", id]

/-- `add_visitor`, lines 118-122. -/
def addVisitor (r : RResult) : Exec (CaptchaResult (Option AddVisitorResult)) :=
  match r.bind RValue.readString with
  | .error e => .ret (.error (.redisError e))
  | .ok s => (readVisitor s).map fun v => .ok (some v)

/-- `add_mcaptcha`, lines 126-130. -/
def addMcaptchaCmd (id : String) (m : MCaptcha) : RCommand := ["MCAPTCHA_CACHE.ADD_CAPTCHA", id, toStr m.toCreate.toJson]

/-- The commands whose reply is ignored (`exec::<()>`): `add_mcaptcha`, `delete_captcha`, `rename_captcha`, `add_challenge`,
`delete_challenge`, `delete_token`, lines 125-133, 156-180, 195-200, 242-248. -/
def unitReply (r : RResult) : Exec (CaptchaResult Unit) :=
  match r with
  | .error e => .ret (.error (.redisError e))
  | .ok _ => .ret (.ok ())

/-- `check_captcha_exists`, line 139. -/
def existsCmd (id : String) : RCommand := ["MCAPTCHA_CACHE.CAPTCHA_EXISTS", id]

/-- `check_captcha_exists`, lines 136-153. -/
def captchaExists (r : RResult) : Exec (CaptchaResult Bool) :=
  match r.bind RValue.readUsize with
  | .error e => .ret (.error (.redisError e))
  | .ok i => .ret (if i = 1 then .ok false else if i = 0 then .ok true else .error .mCaptchaRedisModuleError)

/-- `delete_captcha`, line 157. -/
def deleteCaptchaCmd (id : String) : RCommand := ["MCAPTCHA_CACHE.DELETE_CAPTCHA", id]

/-- `rename_captcha`, line 164. -/
def renameCmd (name renameTo : String) : RCommand := ["MCAPTCHA_CACHE.RENAME_CAPTCHA", name, renameTo]

/-- `add_challenge`, lines 175-177. -/
def addChallengeCmd (captcha : String) (c : AddChallenge) : RCommand := ["MCAPTCHA_CACHE.ADD_CHALLENGE", captcha, toStr c.toJson]

/-- `get_challenge`, line 189. -/
def getChallengeCmd (v : VerifyCaptchaResult) : RCommand := ["MCAPTCHA_CACHE.GET_CHALLENGE", v.key, v.token]

/-- `get_challenge`, lines 183-192. -/
def getChallenge (r : RResult) : Exec (CaptchaResult AddVisitorResult) :=
  match r.bind RValue.readString with
  | .error e => .ret (.error (.redisError e))
  | .ok s => (readVisitor s).map .ok

/-- `get_visitors`, lines 203-206. -/
def getVisitors (r : RResult) : Exec (CaptchaResult Int) :=
  match r.bind RValue.readUsize with
  | .error e => .ret (.error (.redisError e))
  | .ok i => .ret (.ok i)

/-- `add_token`, lines 212-220. -/
def addTokenCmd (m : CacheResult) : RCommand := ["SET", tokenKey m.key m.token, m.key, "EX", toString m.duration]

/-- `add_token`, lines 222-225. -/
def addToken (r : RResult) : Exec (CaptchaResult Unit) :=
  match r with
  | .error _ => .panic .explicit
  | .ok _ => .ret (.ok ())

/-- `get_token`, lines 232-233. -/
def getTokenCmd (v : VerifyCaptchaResult) : RCommand := ["DEL", tokenKey v.key v.token]

/-- `get_token`, lines 229-239. The type of `res` is not given, so it is `i32`. -/
def getToken (r : RResult) : Exec (CaptchaResult Bool) :=
  match r.bind RValue.readI32 with
  | .error e => .ret (.error (.redisError e))
  | .ok i => .ret (if i = 1 then .ok true else if i = 0 then .ok false else .error .mCaptchaRedisModuleError)

/-- `delete_token`, lines 245-246. -/
def deleteTokenCmd (v : VerifyCaptchaResult) : RCommand := ["DEL", tokenKey v.key v.token]

/-- `RedisConnection::ping`, src/redis/mod.rs:82-88. -/
def ping (r : RResult) : Bool :=
  match r with
  | .ok (.simple s) => s == "PONG"
  | _ => false

/-! ## Looking for the module, lines 71-110 -/

/-- `escape_debug` of a character inside a `str`. `printable` is the table of printable characters beyond ASCII. -/
def escapeDebug (printable : Char → Bool) (c : Char) : List Char :=
  if c = '\t' then ['\\', 't']
  else if c = '\r' then ['\\', 'r']
  else if c = '\n' then ['\\', 'n']
  else if c = Char.ofNat 0 then ['\\', '0']
  else if c = '"' then ['\\', '"']
  else if c = '\\' then ['\\', '\\']
  else if (0x20 ≤ c.toNat ∧ c.toNat < 0x7f) ∨ printable c then [c]
  else ['\\', 'u', '{'] ++ Nat.toDigits 16 c.toNat ++ ['}']

/-- `{:?}` of a `str`. -/
def debugStr (printable : Char → Bool) (s : String) : List Char := '"' :: (s.toList.flatMap (escapeDebug printable) ++ ['"'])

mutual
/-- `{:?}` of a `Value`. The bytes of a `binary` value are printed as numbers; which ones is left open. -/
def debugText (printable : Char → Bool) : RValue → List Char
  | .nil => "nil".toList
  | .int i => "int(".toList ++ (toString i).toList ++ ")".toList
  | .bulk s => "bulk-string('".toList ++ debugStr printable s ++ "')".toList
  | .binary => "binary-data([])".toList
  | .array vs => "array([".toList ++ debugTexts printable vs ++ "])".toList
  | .simple s => "simple-string(".toList ++ debugStr printable s ++ ")".toList
  | .okay => "ok".toList

/-- `{:?}` of the elements of a `Vec<Value>`, separated by commas. -/
def debugTexts (printable : Char → Bool) : List RValue → List Char
  | [] => []
  | v :: r => debugText printable v ++ (match r with | [] => [] | w :: r => ", ".toList ++ debugTexts printable (w :: r))
end

/-- `str::contains`. -/
def containsStr (pat : List Char) : List Char → Bool
  | [] => pat.isEmpty
  | c :: r => pat.isPrefixOf (c :: r) || containsStr pat r

/-- `MODULE_NAME`, line 48. -/
def moduleName : String := "mcaptcha_cache"

/-- The commands asked for, lines 38-46 and 83-93. -/
def requiredCommands : List String :=
  ["MCAPTCHA_CACHE.ADD_VISITOR", "MCAPTCHA_CACHE.ADD_CAPTCHA", "MCAPTCHA_CACHE.DELETE_CAPTCHA", "MCAPTCHA_CACHE.CAPTCHA_EXISTS",
   "MCAPTCHA_CACHE.GET", "MCAPTCHA_CACHE.ADD_CHALLENGE", "MCAPTCHA_CACHE.GET_CHALLENGE", "MCAPTCHA_CACHE.DELETE_CHALLENGE",
   "MCAPTCHA_CACHE.RENAME_CAPTCHA"]

/-- The answer to `MODULE LIST`, lines 72-81: the first entry must be an array and mention the module name; an answer which is no
array passes. -/
def moduleCheck (printable : Char → Bool) (v : RValue) : CaptchaResult Unit :=
  match v with
  | .array s =>
    match s.head? with
    | some (.array s) =>
      if s.any (fun i => containsStr moduleName.toList (debugText printable i)) then .ok () else .error .mCaptchaRedisModuleIsNotLoaded
    | _ => .error .mCaptchaRedisModuleIsNotLoaded
  | _ => .ok ()

/-- The answer to `COMMAND INFO cmd`, lines 96-107: the command is unknown if the last element is nil. -/
def commandCheck (cmd : String) (v : RValue) : CaptchaResult Unit :=
  match v with
  | .array val =>
    match val.getLast? with
    | some .nil => .error (.mCaptchaRediSModuleCommandNotFound cmd)
    | _ => .ok ()
  | _ => .ok ()

/-- The loop at lines 95-108; `info` are the answers of the server. -/
def commandsCheck (info : String → RResult) : List String → Exec (CaptchaResult Unit)
  | [] => .ret (.ok ())
  | cmd :: r =>
    match info cmd with
    | .error _ => .panic .unwrapErr
    | .ok v =>
      match commandCheck cmd v with
      | .error e => .ret (.error e)
      | .ok () => commandsCheck info r

/-- `is_module_loaded`, lines 71-110, and with it `MCaptchaRedis::new`, lines 55-60. -/
def isModuleLoaded (printable : Char → Bool) (modules : RResult) (info : String → RResult) : Exec (CaptchaResult Unit) :=
  match modules with
  | .error _ => .panic .unwrapErr
  | .ok v =>
    match moduleCheck printable v with
    | .error e => .ret (.error e)
    | .ok () => commandsCheck info requiredCommands

end RedisClient

/-! ## The server: keys with a time to live -/

/-- The keys set with `EX`, each with its value and the time (in milliseconds) until which it is there. -/
structure RedisDb where
  now : Nat
  keys : AMap String (String × Nat)
deriving DecidableEq, Repr

namespace RedisDb

/-- An empty server. -/
def init (now : Nat) : RedisDb := { now := now, keys := [] }

/-- The key is there: set and not expired. -/
def has (db : RedisDb) (key : String) : Bool :=
  match db.keys.get key with
  | some (_, due) => decide (db.now ≤ due)
  | none => false

/-- The largest time, in milliseconds, a Redis server can represent. -/
def maxTime : Nat := 2 ^ 63 - 1

/-- `SET key value EX secs`: an expire time of zero or one that does not fit 64 bits is refused. -/
def setEx (db : RedisDb) (key value : String) (secs : Nat) : RedisDb × RResult :=
  if 0 < secs ∧ db.now + 1000 * secs ≤ maxTime then
    ({ db with keys := db.keys.insert key (value, db.now + 1000 * secs) }, .ok .okay)
  else (db, .error "invalid expire time in 'set' command")

/-- `DEL key`: the number of keys removed. -/
def del (db : RedisDb) (key : String) : RedisDb × RResult :=
  ({ db with keys := db.keys.erase key }, .ok (.int (if db.has key then 1 else 0)))

/-- What the server does with a command. Only `SET key value EX secs` and `DEL key` are modelled, all others are refused: the library
sends no others that touch these keys. -/
def exec (db : RedisDb) (cmd : RCommand) : RedisDb × RResult :=
  match cmd with
  | [set, key, value, ex, secs] =>
    if set = "SET" ∧ ex = "EX" then
      match parseDigits secs.toList with
      | some n => db.setEx key value n
      | none => (db, .error "value is not an integer or out of range")
    else (db, .error "unknown command")
  | [del, key] => if del = "DEL" then db.del key else (db, .error "unknown command")
  | _ => (db, .error "unknown command")

end RedisDb

/-- What is done with tokens: the three methods of `MCaptchaRedisConnection`, lines 209-248, and the passing of time. -/
inductive TokenStep where
  | add (m : CacheResult)
  | get (v : VerifyCaptchaResult)
  | delete (v : VerifyCaptchaResult)
  | tick (ms : Nat)
deriving DecidableEq, Repr

/-- What comes of it. -/
inductive TokenEvent where
  /-- `add_token` at time `at_` returned -/
  | added (m : CacheResult) (at_ : Nat)
  /-- `add_token` panicked -/
  | failed (m : CacheResult)
  | answered (v : VerifyCaptchaResult) (r : CaptchaResult Bool) (at_ : Nat)
  | deleted (v : VerifyCaptchaResult)
deriving DecidableEq, Repr

/-- One step: the command is sent, the server carries it out, the method reads the reply. `delete_token` ignores it. -/
def tokenStep (db : RedisDb) : TokenStep → RedisDb × List TokenEvent
  | .add m =>
    ((db.exec (RedisClient.addTokenCmd m)).1,
      match RedisClient.addToken (db.exec (RedisClient.addTokenCmd m)).2 with
      | .ret _ => [.added m db.now]
      | .panic _ => [.failed m])
  | .get v =>
    ((db.exec (RedisClient.getTokenCmd v)).1,
      match RedisClient.getToken (db.exec (RedisClient.getTokenCmd v)).2 with
      | .ret r => [.answered v r db.now]
      | .panic _ => [])
  | .delete v => ((db.exec (RedisClient.deleteTokenCmd v)).1, [.deleted v])
  | .tick ms => ({ db with now := db.now + ms }, [])

/-- A history; the clients may be many, the server handles one command at a time. -/
def tokenRun : RedisDb → List TokenStep → RedisDb × List TokenEvent
  | db, [] => (db, [])
  | db, s :: r => ((tokenRun (tokenStep db s).1 r).1, (tokenStep db s).2 ++ (tokenRun (tokenStep db s).1 r).2)

/-! ## The actors, src/cache/redis.rs and src/master/redis/master.rs -/

/-- The messages. -/
inductive RMsg where
  | cachePow (c : CachePoW)
  | retrivePow (v : VerifyCaptchaResult)
  | cacheResult (r : CacheResult)
  | verify (v : VerifyCaptchaResult)
  | deletePow (string : String)
  | deleteResult (token : String)
  | addVisitor (id : String)
  | addSite (id : String) (m : MCaptcha)
  | rename (name renameTo : String)
  | removeCaptcha (id : String)
  | getInternalData
  | setInternalData (m : AMap String MCaptcha)
deriving DecidableEq, Repr

/-- What goes back through the `oneshot` channel. -/
inductive RAnswer where
  | unit (r : CaptchaResult Unit)
  | config (r : CaptchaResult (Option CachedPoWConfig))
  | verdict (r : CaptchaResult Bool)
  | visitor (r : CaptchaResult (Option AddVisitorResult))
deriving DecidableEq, Repr

namespace RMsg

/-- The command sent for a message: src/cache/redis.rs:53-59, 77, 105, 122 and src/master/redis/master.rs:56, 72, 89, 106. -/
def command : RMsg → RCommand
  | .cachePow c => RedisClient.addChallengeCmd c.key { challenge := c.string, difficulty := c.difficultyFactor, duration := c.duration }
  | .retrivePow v => RedisClient.getChallengeCmd v
  | .cacheResult r => RedisClient.addTokenCmd r
  | .verify v => RedisClient.getTokenCmd v
  | .addVisitor id => RedisClient.addVisitorCmd id
  | .addSite id m => RedisClient.addMcaptchaCmd id m
  | .rename name renameTo => RedisClient.renameCmd name renameTo
  | .removeCaptcha id => RedisClient.deleteCaptchaCmd id
  | _ => []

/-- Messages answered on the spot, src/cache/redis.rs:133-147: nothing is done. -/
def immediate : RMsg → Bool
  | .deletePow _ => true
  | .deleteResult _ => true
  | _ => false

/-- Messages whose handler is `todo!()`, src/master/redis/master.rs:115-129. -/
def todo : RMsg → Bool
  | .getInternalData => true
  | .setInternalData _ => true
  | _ => false

/-- What the handler makes of the reply of the server. -/
def answer (m : RMsg) (r : RResult) : Exec RAnswer :=
  match m with
  | .cachePow _ => (RedisClient.unitReply r).map .unit
  /- src/cache/redis.rs:77-87 -/
  | .retrivePow v => (RedisClient.getChallenge r).map fun res =>
      .config (res.map fun val => some { duration := val.duration, difficultyFactor := val.difficultyFactor, key := v.key })
  | .cacheResult _ => (RedisClient.addToken r).map .unit
  | .verify _ => (RedisClient.getToken r).map .verdict
  | .addVisitor _ => (RedisClient.addVisitor r).map .visitor
  | .addSite _ _ => (RedisClient.unitReply r).map .unit
  | .rename _ _ => (RedisClient.unitReply r).map .unit
  | .removeCaptcha _ => (RedisClient.unitReply r).map .unit
  | .deletePow _ => .ret (.unit (.ok ()))
  | .deleteResult _ => .ret (.unit (.ok ()))
  | .getInternalData => .panic .explicit
  | .setInternalData _ => .panic .explicit

/-- The handlers of the cache end with `tx.send(res).unwrap()` (src/cache/redis.rs:60, 89, 106, 123), those of the master with
`let _ = tx.send(res)`: the first panic if the caller has dropped the receiver. -/
def needsReceiver : RMsg → Bool
  | .cachePow _ => true
  | .retrivePow _ => true
  | .cacheResult _ => true
  | .verify _ => true
  | _ => false

end RMsg

/-- An actor: `RedisCache` or `Master`. `conn` is the `Rc<RefCell<ConnectionManager>>` it holds; clones of a `Master` share it.
While a future given to `ctx.wait` runs, `busy`, the actor takes no further message. A panic kills the actor. -/
structure RActor where
  alive : Bool
  conn : Nat
  inbox : List (Nat × RMsg)
  busy : Option (Nat × RMsg)
deriving DecidableEq, Repr

/-- The actors of a thread, the connections borrowed mutably (src/redis/mod.rs:77: the borrow lives as long as the query), the
callers that have dropped their receiver, and the number of messages sent. -/
structure RSys where
  actors : List RActor
  borrowed : List Nat
  gone : List Nat
  next : Nat
deriving DecidableEq, Repr

/-- What can be observed. -/
inductive REvent where
  | sent (actor : Nat) (id : Nat) (m : RMsg)
  /-- the actor is dead: `MailboxError` -/
  | refused (actor : Nat) (m : RMsg)
  /-- the command goes to the server -/
  | started (actor : Nat) (id : Nat) (cmd : RCommand)
  | answered (actor : Nat) (id : Nat) (m : RMsg) (a : RAnswer)
  /-- the actor panicked -/
  | crashed (actor : Nat) (id : Nat) (why : Panic)
deriving DecidableEq, Repr

/-- Steps. -/
inductive RStep where
  | send (actor : Nat) (m : RMsg)
  /-- the actor takes the next message -/
  | take (actor : Nat)
  /-- the reply to the running command arrives, whatever it is -/
  | reply (actor : Nat) (r : RResult)
  /-- the caller drops the receiver -/
  | drop (id : Nat)

namespace RSys

/-- Actors with the given connections. -/
def new (conns : List Nat) : RSys :=
  { actors := conns.map fun c => { alive := true, conn := c, inbox := [], busy := none }, borrowed := [], gone := [], next := 0 }

/-- Replace an actor. -/
def setActor (s : RSys) (a : Nat) (x : RActor) : RSys := { s with actors := s.actors.set a x }

/-- A panic drops the actor with its mailbox and its running future. -/
def RActor.dead (x : RActor) : RActor := { x with alive := false, inbox := [], busy := none }

/-- The actor takes a message: an immediate answer, a panic, or a command on its way. The borrow at src/redis/mod.rs:77 panics if the
connection is in use. -/
def onTake (s : RSys) (a : Nat) (x : RActor) (i : Nat) (m : RMsg) (rest : List (Nat × RMsg)) : RSys × List REvent :=
  if m.todo then (s.setActor a (RActor.dead x), [.crashed a i .explicit])
  else if m.immediate then (s.setActor a { x with inbox := rest }, [.answered a i m (.unit (.ok ()))])
  else if x.conn ∈ s.borrowed then (s.setActor a (RActor.dead x), [.crashed a i .alreadyBorrowed])
  else
    (({ s with borrowed := x.conn :: s.borrowed } : RSys).setActor a { x with inbox := rest, busy := some (i, m) }, [.started a i m.command])

/-- The reply arrives: the borrow ends, the answer goes to the caller. -/
def onReply (s : RSys) (a : Nat) (x : RActor) (i : Nat) (m : RMsg) (r : RResult) : RSys × List REvent :=
  match m.answer r with
  | .panic w => (({ s with borrowed := s.borrowed.erase x.conn } : RSys).setActor a (RActor.dead x), [.crashed a i w])
  | .ret ans =>
    if m.needsReceiver = true ∧ i ∈ s.gone then
      (({ s with borrowed := s.borrowed.erase x.conn } : RSys).setActor a (RActor.dead x), [.crashed a i .unwrapErr])
    else
      (({ s with borrowed := s.borrowed.erase x.conn } : RSys).setActor a { x with busy := none }, [.answered a i m ans])

end RSys

/-- One step. -/
def rStep (s : RSys) : RStep → RSys × List REvent
  | .send a m =>
    match s.actors[a]? with
    | none => (s, [])
    | some x =>
      if x.alive then (({ s with next := s.next + 1 } : RSys).setActor a { x with inbox := x.inbox ++ [(s.next, m)] }, [.sent a s.next m])
      else (s, [.refused a m])
  | .take a =>
    match s.actors[a]? with
    | none => (s, [])
    | some x =>
      match x.busy, x.inbox with
      | none, (i, m) :: rest => s.onTake a x i m rest
      | _, _ => (s, [])
  | .reply a r =>
    match s.actors[a]? with
    | none => (s, [])
    | some x =>
      match x.busy with
      | some (i, m) => s.onReply a x i m r
      | none => (s, [])
  | .drop i => ({ s with gone := i :: s.gone }, [])

/-- A schedule. -/
def rRun : RSys → List RStep → RSys × List REvent
  | s, [] => (s, [])
  | s, x :: r => ((rRun (rStep s x).1 r).1, (rStep s x).2 ++ (rRun (rStep s x).1 r).2)

end MCap
