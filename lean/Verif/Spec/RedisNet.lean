import Verif.Model.RedisNet
import Verif.Spec.Redis

/-!
# Specification of several actors sharing a Redis server
-/

namespace MCap.Spec

/-- What is seen at the actors. -/
def atActors (log : List NEvent) : List REvent := log.filterMap fun e => match e with | .actor e => some e | _ => none

/-- What a served command means for the tokens. -/
def tokenEvents : NEvent → List TokenEvent
  | .served _ (.cacheResult m) (.ok _) t => [.added m t]
  | .served _ (.cacheResult m) (.error _) _ => [.failed m]
  | .served _ (.verify v) (.ok (.int n)) t => if n = 1 then [.answered v (.ok true) t] else [.answered v (.ok false) t]
  | _ => []

/-- The history of the tokens as the server saw it. -/
def serverLog (log : List NEvent) : List TokenEvent := log.flatMap tokenEvents

/-- How often callers, anywhere, were told that the token under the Redis key `κ` is valid. -/
def toldValid (κ : String) (log : List NEvent) : Nat :=
  log.countP fun e => match e with | .actor (.answered _ _ (.verify v) (.verdict (.ok true))) => tokenKey v.key v.token == κ | _ => false

/-- How often callers, anywhere, asked to store the token under the Redis key `κ`. -/
def askedToStore (κ : String) (log : List NEvent) : Nat :=
  log.countP fun e => match e with | .actor (.sent _ _ (.cacheResult m)) => tokenKey m.key m.token == κ | _ => false

end MCap.Spec
