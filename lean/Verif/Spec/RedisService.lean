import Verif.Model.RedisService
import Verif.Spec.OpenSystem
import Verif.Spec.RedisNet
import Verif.Spec.Json
import Verif.Spec.RedisText

/-!
# Specification vocabulary for a whole service on Redis
-/

namespace MCap.Spec

/-- What happens at the calls. -/
def atCalls (log : List ZEvent) : List OEvent := log.filterMap fun | .sys e => some e | _ => none

/-- What happens at the actors and at the server. -/
def atRedis (log : List ZEvent) : List NEvent := log.filterMap fun | .net e => some e | _ => none

/-- How often `validate_verification_tokens` returned `Ok(true)` for a site and token with the Redis key `κ`. -/
def validated (κ : String) (log : List ZEvent) : Nat :=
  log.countP fun e => match e with
    | .sys (.api (.ret _ (.validate msg) (.validate (.ok true)))) => tokenKey msg.key msg.token == κ
    | _ => false

/-- The reply holds the numbers `x`, written as JSON. -/
def ReplyText (r : RResult) (x : AddVisitorResult) : Prop := ∃ s, GaveText r s ∧ VisitorText s x

/-- Nobody gives up between sending a request to the cache and the answer: whenever a call is cancelled or someone else drops a receiver, the
requests concerned that went to a cache have been answered. -/
def GivesUpLate (lib : PowLib) (p : Profile) (v : RService) (steps : List ZStep) : Prop :=
  ∀ s1 x s2, steps = s1 ++ x :: s2 → ∀ id, (x = .net (.drop id) ∨ ∃ i, x = .cancel i ∧ .asked i id ∈ (zRun lib p v s1).2) →
    ∀ a m, .net (.actor (.sent a id m)) ∈ (zRun lib p v s1).2 → ToCache m → ∃ ans, .net (.actor (.answered a id m ans)) ∈ (zRun lib p v s1).2

/-- The server's replies are as the clients expect them: tokens are stored without an error, and texts for challenges and visits are the JSON
texts they should be. -/
def GoodReply (m : RMsg) (r : RResult) : Prop :=
  (∀ c, m = .cacheResult c → ∃ x, r = .ok x) ∧
  ((∃ v, m = .retrivePow v) ∨ (∃ id, m = .addVisitor id) → ∀ s, GaveText r s → ∃ x, VisitorText s x)

end MCap.Spec
