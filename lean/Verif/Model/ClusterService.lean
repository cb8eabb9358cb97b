import Verif.Model.RedisService

/-!
# A whole service on a Redis cluster

The service of Model/RedisService, with connections of the variant `Cluster`: src/redis/mod.rs:78 calls the blocking `query`, so that a
thread does not run any of its actors until the reply is there.

Simplifications:
* Which thread runs which actor is given by `thread`; the calls may run anywhere.
* That the nodes of a cluster are several is not modelled; they are one server, as in Model/RedisNet.
-/

namespace MCap

namespace RService

/-- No actor on the thread of actor `a` is inside `query`. -/
def threadFree (thread : Nat → Nat) (v : RService) (a : Nat) : Bool :=
  (List.range v.net.sys.actors.length).all fun b =>
    match v.net.sys.actors[b]? with
    | some x => thread b != thread a || x.busy.isNone
    | none => true

/-- What the threads allow: an actor takes a message only if no other actor keeps its thread. -/
def threadMay (thread : Nat → Nat) (v : RService) : ZStep → Bool
  | .net (.take a) => v.threadFree thread a
  | _ => true

end RService

/-- One step, src/redis/mod.rs:78. -/
def cStep (lib : PowLib) (p : Profile) (thread : Nat → Nat) (v : RService) (st : ZStep) : RService × List ZEvent :=
  if v.threadMay thread st then zStep lib p v st else (v, [])

/-- A schedule. -/
def cRun (lib : PowLib) (p : Profile) (thread : Nat → Nat) : RService → List ZStep → RService × List ZEvent
  | v, [] => (v, [])
  | v, st :: r => ((cRun lib p thread (cStep lib p thread v st).1 r).1, (cStep lib p thread v st).2 ++ (cRun lib p thread (cStep lib p thread v st).1 r).2)

end MCap
