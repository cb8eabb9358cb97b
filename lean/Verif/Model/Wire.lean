import Verif.Model.Json
import Verif.Model.Pow
import Verif.Model.Cache

/-!
# Model of the derived `Serialize` and `Deserialize` implementations of messages, and of the texts of errors

JSON as in Model/Json. The structs of src/pow.rs are what clients and servers send each other; the messages of src/cache/mod.rs and
src/master/mod.rs are what programs store and send.
-/

namespace MCap

/-- Derived `Serialize` of `PoWConfig`, src/pow.rs:31-36. -/
def PoWConfig.toJson (c : PoWConfig) : Json :=
  .obj [(some "string".toList, .str c.string.toList), (some "difficulty_factor".toList, .num c.difficultyFactor), (some "salt".toList, .str c.salt.toList)]

/-- Derived `Deserialize` of `PoWConfig`. -/
def PoWConfig.ofJson : Json → Option PoWConfig
  | .obj ms => do
    let s ← (jsonField "string" ms).bind jsonStr
    let d ← (jsonField "difficulty_factor" ms).bind (jsonUint u32Size)
    let t ← (jsonField "salt" ms).bind jsonStr
    some { string := s, difficultyFactor := d, salt := t }
  | .arr [a, b, c] => do
    let s ← jsonStr a
    let d ← jsonUint u32Size b
    let t ← jsonStr c
    some { string := s, difficultyFactor := d, salt := t }
  | _ => none

/-- Derived `Serialize` of `Work`, src/pow.rs:51-57. -/
def Work.toJson (w : Work) : Json :=
  .obj [(some "string".toList, .str w.string.toList), (some "result".toList, .str w.result.toList), (some "nonce".toList, .num w.nonce),
    (some "key".toList, .str w.key.toList)]

/-- Derived `Deserialize` of `Work`. -/
def Work.ofJson : Json → Option Work
  | .obj ms => do
    let s ← (jsonField "string" ms).bind jsonStr
    let r ← (jsonField "result" ms).bind jsonStr
    let n ← (jsonField "nonce" ms).bind (jsonUint u64Size)
    let k ← (jsonField "key" ms).bind jsonStr
    some { string := s, result := r, nonce := n, key := k }
  | .arr [a, b, c, d] => do
    let s ← jsonStr a
    let r ← jsonStr b
    let n ← jsonUint u64Size c
    let k ← jsonStr d
    some { string := s, result := r, nonce := n, key := k }
  | _ => none

/-- Derived `Serialize` of `CachePoW`, src/cache/mod.rs:58-69. -/
def CachePoW.toJson (c : CachePoW) : Json :=
  .obj [(some "string".toList, .str c.string.toList), (some "difficulty_factor".toList, .num c.difficultyFactor), (some "duration".toList, .num c.duration),
    (some "key".toList, .str c.key.toList)]

/-- Derived `Deserialize` of `CachePoW`. -/
def CachePoW.ofJson : Json → Option CachePoW
  | .obj ms => do
    let s ← (jsonField "string" ms).bind jsonStr
    let d ← (jsonField "difficulty_factor" ms).bind (jsonUint u32Size)
    let t ← (jsonField "duration" ms).bind (jsonUint u64Size)
    let k ← (jsonField "key" ms).bind jsonStr
    some { string := s, difficultyFactor := d, duration := t, key := k }
  | .arr [a, b, c, d] => do
    let s ← jsonStr a
    let d' ← jsonUint u32Size b
    let t ← jsonUint u64Size c
    let k ← jsonStr d
    some { string := s, difficultyFactor := d', duration := t, key := k }
  | _ => none

/-- Derived `Serialize` of `CachedPoWConfig`, src/cache/mod.rs:77-83. -/
def CachedPoWConfig.toJson (c : CachedPoWConfig) : Json :=
  .obj [(some "key".toList, .str c.key.toList), (some "difficulty_factor".toList, .num c.difficultyFactor), (some "duration".toList, .num c.duration)]

/-- Derived `Deserialize` of `CachedPoWConfig`. -/
def CachedPoWConfig.ofJson : Json → Option CachedPoWConfig
  | .obj ms => do
    let k ← (jsonField "key" ms).bind jsonStr
    let d ← (jsonField "difficulty_factor" ms).bind (jsonUint u32Size)
    let t ← (jsonField "duration" ms).bind (jsonUint u64Size)
    some { key := k, difficultyFactor := d, duration := t }
  | .arr [a, b, c] => do
    let k ← jsonStr a
    let d ← jsonUint u32Size b
    let t ← jsonUint u64Size c
    some { key := k, difficultyFactor := d, duration := t }
  | _ => none

/-- Derived `Serialize` of `CacheResult`, src/cache/mod.rs:93-100. -/
def CacheResult.toJson (c : CacheResult) : Json :=
  .obj [(some "token".toList, .str c.token.toList), (some "key".toList, .str c.key.toList), (some "duration".toList, .num c.duration)]

/-- Derived `Deserialize` of `CacheResult`. -/
def CacheResult.ofJson : Json → Option CacheResult
  | .obj ms => do
    let t ← (jsonField "token" ms).bind jsonStr
    let k ← (jsonField "key" ms).bind jsonStr
    let d ← (jsonField "duration" ms).bind (jsonUint u64Size)
    some { token := t, key := k, duration := d }
  | .arr [a, b, c] => do
    let t ← jsonStr a
    let k ← jsonStr b
    let d ← jsonUint u64Size c
    some { token := t, key := k, duration := d }
  | _ => none

/-- Derived `Serialize` of `VerifyCaptchaResult`, src/cache/mod.rs:117-122. -/
def VerifyCaptchaResult.toJson (v : VerifyCaptchaResult) : Json :=
  .obj [(some "token".toList, .str v.token.toList), (some "key".toList, .str v.key.toList)]

/-- Derived `Deserialize` of `VerifyCaptchaResult`. -/
def VerifyCaptchaResult.ofJson : Json → Option VerifyCaptchaResult
  | .obj ms => do
    let t ← (jsonField "token" ms).bind jsonStr
    let k ← (jsonField "key" ms).bind jsonStr
    some { token := t, key := k }
  | .arr [a, b] => do
    let t ← jsonStr a
    let k ← jsonStr b
    some { token := t, key := k }
  | _ => none

/-- `AddSite`, src/master/mod.rs:89-94. -/
structure AddSite where
  id : String
  mcaptcha : MCaptcha
deriving DecidableEq, Repr

/-- Derived `Serialize` of `AddSite`. -/
def AddSite.toJson (a : AddSite) : Json := .obj [(some "id".toList, .str a.id.toList), (some "mcaptcha".toList, a.mcaptcha.toJson)]

/-- Derived `Deserialize` of `AddSite`. -/
def AddSite.ofJson : Json → Option AddSite
  | .obj ms => do
    let i ← (jsonField "id" ms).bind jsonStr
    let m ← (jsonField "mcaptcha" ms).bind MCaptcha.ofJson
    some { id := i, mcaptcha := m }
  | .arr [a, b] => do
    let i ← jsonStr a
    let m ← MCaptcha.ofJson b
    some { id := i, mcaptcha := m }
  | _ => none

/-- `Rename`, src/master/mod.rs:97-102. -/
structure RenameMsg where
  name : String
  renameTo : String
deriving DecidableEq, Repr

/-- Derived `Serialize` of `Rename`. -/
def RenameMsg.toJson (r : RenameMsg) : Json := .obj [(some "name".toList, .str r.name.toList), (some "rename_to".toList, .str r.renameTo.toList)]

/-- Derived `Deserialize` of `Rename`. -/
def RenameMsg.ofJson : Json → Option RenameMsg
  | .obj ms => do
    let n ← (jsonField "name" ms).bind jsonStr
    let t ← (jsonField "rename_to" ms).bind jsonStr
    some { name := n, renameTo := t }
  | .arr [a, b] => do
    let n ← jsonStr a
    let t ← jsonStr b
    some { name := n, renameTo := t }
  | _ => none

/-- `InternalData`, src/master/mod.rs:109-113. -/
structure InternalData where
  name : String
  mcaptcha : MCaptcha
deriving DecidableEq, Repr

/-- Derived `Serialize` of `InternalData`. -/
def InternalData.toJson (a : InternalData) : Json := .obj [(some "name".toList, .str a.name.toList), (some "mcaptcha".toList, a.mcaptcha.toJson)]

/-- Derived `Deserialize` of `InternalData`. -/
def InternalData.ofJson : Json → Option InternalData
  | .obj ms => do
    let i ← (jsonField "name" ms).bind jsonStr
    let m ← (jsonField "mcaptcha" ms).bind MCaptcha.ofJson
    some { name := i, mcaptcha := m }
  | .arr [a, b] => do
    let i ← jsonStr a
    let m ← MCaptcha.ofJson b
    some { name := i, mcaptcha := m }
  | _ => none

/-- Derived `Serialize` of `AddVisitor` and `RemoveCaptcha`, src/master/mod.rs:84-86, 105-107: a newtype is written as what it holds. -/
def newtypeToJson (s : String) : Json := .str s.toList

/-- Derived `Deserialize` of `AddVisitor` and `RemoveCaptcha`: a newtype is read as what it holds (`visit_newtype_struct`), by
`serde_json` always. -/
def newtypeOfJson (j : Json) : Option String := jsonStr j

/-! ## Texts of errors -/

/-- Derived `Display` of `CaptchaError`, src/errors.rs:27-115. The text of a `RedisError` is arbitrary, and is its payload here; that of
`RecvError` is the one of the tokio crate. -/
def CaptchaError.display : CaptchaError → String
  | .levelEmpty => "LevelBuilder should have atleaset one level configured"
  | .difficultyFactorZero => "difficulty factor must be greater than zero"
  | .captchaDurationZero => "difficulty factor must be greater than zero"
  | .setDifficultyFactor => "Set difficulty factor"
  | .setVisitorThreshold => "Set visitor threshold"
  | .duplicateVisitorCount => "Duplicate visitor count"
  | .decreaseingDifficultyFactor => "Difficulty factor should increase with level"
  | .mailboxError => "Actor mailbox error"
  | .insuffiencientDifficulty => "Insuffiencient Difficulty"
  | .stringNotFound => "String now found"
  | .mCaptchaKeyValidationFail => "PoW computed over configuration not intended for target sitekey"
  | .invalidPoW => "Invalid PoW"
  | .pleaseSetValue what => "Please set value: " ++ what
  | .redisError what => what
  | .recvError => "channel closed"
  | .mCaptchaRedisModuleError => "Something weird happening with mCaptcha redis module. Please file bug report"
  | .mCaptchaRedisModuleIsNotLoaded => "You are trying to connect to a Redis instance that doesn't have mCaptcha redis module loaded.\n        Please see https://github.com/mCaptcha/cache for details on how to install mCaptcha redis module moudle"
  | .mCaptchaRediSModuleCommandNotFound cmd => "The Redis instance that libmcaptcha is trying to connect to has mCaptcha Redis module loaded,\n        but it's probably outdated and as a result, we are not able to find all required commands to operate mCaptcha\n        Command " ++ cmd ++ " is not found"
  | .queueFull => "IP Queue is full"

end MCap
