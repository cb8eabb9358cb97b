import Verif.Model.RedisDirect
import Verif.Spec.Redis

/-!
# What the methods of a connection are to send
-/

namespace MCap.Spec

/-- The commands to be sent for a call. -/
inductive Carries : ConnCall → RCommand → Prop
  | ping : Carries .ping ["PING"]
  | addVisitor (id : String) : Carries (.addVisitor id) ["MCAPTCHA_CACHE.ADD_VISITOR", id]
  | addMcaptcha (id : String) (m : MCaptcha) (p : String) (hp : Denotes p.toList (.obj [(some "levels".toList, .arr (m.defense.levels.map fun l =>
        .obj [(some "visitor_threshold".toList, .num l.visitorThreshold), (some "difficulty_factor".toList, .num l.difficultyFactor)])),
      (some "duration".toList, .num m.duration)])) : Carries (.addMcaptcha id m) ["MCAPTCHA_CACHE.ADD_CAPTCHA", id, p]
  | checkCaptchaExists (id : String) : Carries (.checkCaptchaExists id) ["MCAPTCHA_CACHE.CAPTCHA_EXISTS", id]
  | deleteCaptcha (id : String) : Carries (.deleteCaptcha id) ["MCAPTCHA_CACHE.DELETE_CAPTCHA", id]
  | renameCaptcha (name renameTo : String) : Carries (.renameCaptcha name renameTo) ["MCAPTCHA_CACHE.RENAME_CAPTCHA", name, renameTo]
  | addChallenge (id : String) (c : AddChallenge) (p : String) (hp : Denotes p.toList (.obj [(some "difficulty".toList, .num c.difficulty),
      (some "duration".toList, .num c.duration), (some "challenge".toList, .str c.challenge.toList)])) :
      Carries (.addChallenge id c) ["MCAPTCHA_CACHE.ADD_CHALLENGE", id, p]
  | getChallenge (v : VerifyCaptchaResult) : Carries (.getChallenge v) ["MCAPTCHA_CACHE.GET_CHALLENGE", v.key, v.token]
  | deleteChallenge (v : VerifyCaptchaResult) : Carries (.deleteChallenge v) ["MCAPTCHA_CACHE.DELETE_CHALLENGE", v.key, v.token]
  | getVisitors (id : String) : Carries (.getVisitors id) ["MCAPTCHA_CACHE.GET", id]
  | addToken (r : CacheResult) (n : String) (hn : NumberText n.toList r.duration) :
      Carries (.addToken r) ["SET", "mcaptcha:token:" ++ r.key ++ ":" ++ r.token, r.key, "EX", n]
  | getToken (v : VerifyCaptchaResult) : Carries (.getToken v) ["DEL", "mcaptcha:token:" ++ v.key ++ ":" ++ v.token]
  | deleteToken (v : VerifyCaptchaResult) : Carries (.deleteToken v) ["DEL", "mcaptcha:token:" ++ v.key ++ ":" ++ v.token]

/-- Commands every Redis server has. -/
def coreCommands : List String := ["PING", "SET", "DEL"]

/-- The call takes a token out. -/
def TakesToken (c : ConnCall) (v : VerifyCaptchaResult) : Prop := c = .getToken v ∨ c = .deleteToken v

/-- The reply can be read as this text. -/
def ReadsAs (r : RResult) (s : String) : Prop :=
  r = .ok (.bulk s) ∨ r = .ok (.simple s) ∨ (r = .ok .okay ∧ s = "OK") ∨ ∃ i : Int, r = .ok (.int i) ∧ s = toString i

/-- What a call is to return for a reply that fits it. The server answers 1 to "is there this captcha?" if there is not. -/
inductive AnswersWith : ConnCall → RResult → ConnAnswer → Prop
  | pong : AnswersWith .ping (.ok (.simple "PONG")) (.flag true)
  | noPong (r : RResult) (h : r ≠ .ok (.simple "PONG")) : AnswersWith .ping r (.flag false)
  | addVisitor (id : String) (r : RResult) (s : String) (x : AddVisitorResult) (hr : ReadsAs r s) (hx : VisitorText s x) :
      AnswersWith (.addVisitor id) r (.visitor (.ok (some x)))
  | getChallenge (v : VerifyCaptchaResult) (r : RResult) (s : String) (x : AddVisitorResult) (hr : ReadsAs r s) (hx : VisitorText s x) :
      AnswersWith (.getChallenge v) r (.challenge (.ok x))
  | isThere (id : String) : AnswersWith (.checkCaptchaExists id) (.ok (.int 0)) (.bool (.ok true))
  | isNotThere (id : String) : AnswersWith (.checkCaptchaExists id) (.ok (.int 1)) (.bool (.ok false))
  | oddExists (id : String) (i : Int) (h : 1 < i ∧ i < 2 ^ 63) :
      AnswersWith (.checkCaptchaExists id) (.ok (.int i)) (.bool (.error .mCaptchaRedisModuleError))
  | getVisitors (id : String) (i : Int) (h : 0 ≤ i ∧ i < 2 ^ 63) : AnswersWith (.getVisitors id) (.ok (.int i)) (.count (.ok i))
  | tokenTaken (v : VerifyCaptchaResult) : AnswersWith (.getToken v) (.ok (.int 1)) (.bool (.ok true))
  | noToken (v : VerifyCaptchaResult) : AnswersWith (.getToken v) (.ok (.int 0)) (.bool (.ok false))
  | addMcaptcha (id : String) (m : MCaptcha) (v : RValue) : AnswersWith (.addMcaptcha id m) (.ok v) (.unit (.ok ()))
  | deleteCaptcha (id : String) (v : RValue) : AnswersWith (.deleteCaptcha id) (.ok v) (.unit (.ok ()))
  | renameCaptcha (name renameTo : String) (v : RValue) : AnswersWith (.renameCaptcha name renameTo) (.ok v) (.unit (.ok ()))
  | addChallenge (id : String) (c : AddChallenge) (v : RValue) : AnswersWith (.addChallenge id c) (.ok v) (.unit (.ok ()))
  | deleteChallenge (w : VerifyCaptchaResult) (v : RValue) : AnswersWith (.deleteChallenge w) (.ok v) (.unit (.ok ()))
  | addToken (c : CacheResult) (v : RValue) : AnswersWith (.addToken c) (.ok v) (.unit (.ok ()))
  | deleteToken (w : VerifyCaptchaResult) (v : RValue) : AnswersWith (.deleteToken w) (.ok v) (.unit (.ok ()))

/-- The call returned this error. -/
def FailsWith (e : CaptchaError) : ConnAnswer → Prop
  | .flag _ => False
  | .unit r => r = .error e
  | .bool r => r = .error e
  | .count r => r = .error e
  | .visitor r => r = .error e
  | .challenge r => r = .error e

end MCap.Spec
