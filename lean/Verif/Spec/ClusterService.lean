import Verif.Model.ClusterService
import Verif.Spec.RedisCluster
import Verif.Spec.RedisNet
import Verif.Spec.RedisLive

/-!
# What C130 means
-/

namespace MCap.Spec

/-- Actors that share a connection run on one thread: a connection is behind an `Rc` (src/redis/mod.rs:59-61). -/
def SharedOnThread (thread : Nat → Nat) (conns : List Nat) : Prop :=
  ∀ (a b c : Nat), conns[a]? = some c → conns[b]? = some c → thread a = thread b

/-- The actor an event is about. -/
def actorOf : REvent → Nat
  | .sent a _ _ => a
  | .refused a _ => a
  | .started a _ _ => a
  | .answered a _ _ _ => a
  | .crashed a _ _ => a

/-- What the actors of a thread do. -/
def onThread (thread : Nat → Nat) (t : Nat) (log : List ZEvent) : List REvent :=
  (atActors (atRedis log)).filter fun e => byActor e && thread (actorOf e) == t

/-- Nothing goes on by itself any more. -/
def QuiescentC (lib : PowLib) (p : Profile) (thread : Nat → Nat) (v : RService) : Prop :=
  ∀ st, goesOnZ st = true → (cStep lib p thread v st).1 = v

end MCap.Spec
