import Verif.Spec.RedisService

/-!
# Specification: what was paid for a token accepted by a service on Redis
-/

namespace MCap.Spec

/-- What was paid for a token: the request with which it was stored, and the request with which the challenge was taken out. -/
structure RedisPayment where
  store : Nat
  taken : Nat

/-- The validation of a token by call `v` was answered `true`. -/
def AcceptedOnRedis (log : List ZEvent) (v : Nat) (msg : VerifyCaptchaResult) : Prop :=
  .sys (.api (.ret v (.validate msg) (.validate (.ok true)))) ∈ log

/-- The server stored the token under the Redis key `κ`, or was asked to take it. -/
def touchesToken (κ : String) : ZEvent → Prop
  | .net (.served _ (.cacheResult m) (.ok _) _) => tokenKey m.key m.token = κ
  | .net (.served _ (.verify v) _ _) => tokenKey v.key v.token = κ
  | _ => False

/-- What call `v` accepted was paid for by `pay`: the server stored the token on the request `pay.store`, nobody touched it until it was taken on
a request of call `v`, in time; and if the request to store it came from a call of this service, it was a `verify_pow` call that had taken
out the challenge before, with the request `pay.taken`, for the same site, and its work solves it at the difficulty the server told. -/
def PaidOnRedis (lib : PowLib) (log : List ZEvent) (v : Nat) (msg : VerifyCaptchaResult) (pay : RedisPayment) : Prop :=
  ∃ m y t a b c check T,
    log = a ++ .net (.served pay.store (.cacheResult m) (.ok y) t) :: (b ++ .net (.served check (.verify msg) (.ok (.int 1)) T) :: c) ∧
    .asked v check ∈ log ∧ tokenKey m.key m.token = tokenKey msg.key msg.token ∧ T ≤ t + 1000 * m.duration ∧
    (∀ e ∈ b, ¬ touchesToken (tokenKey msg.key msg.token) e) ∧
    ∀ k, .asked k pay.store ∈ log → ∃ work ip r t' x, .sys (.api (.call k (.verify work ip))) ∈ a ∧ .asked k pay.taken ∈ a ∧
      .net (.served pay.taken (.retrivePow { token := work.string, key := work.key }) r t') ∈ a ∧ ReplyText r x ∧
      Solves lib work x.difficultyFactor ∧ work.key = m.key ∧ m.duration = x.duration

/-- Number of validations accepted. -/
def acceptedOnRedis (log : List ZEvent) : Nat :=
  log.countP fun e => match e with | .sys (.api (.ret _ (.validate _) (.validate (.ok true)))) => true | _ => false

/-- Number of times the server was asked for a challenge. -/
def challengesTaken (log : List ZEvent) : Nat :=
  log.countP fun e => match e with | .net (.served _ (.retrivePow _) _ _) => true | _ => false

end MCap.Spec
