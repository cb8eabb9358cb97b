import Verif.Model.Redis

/-!
# Actors on a Redis cluster

src/redis/mod.rs:75-80: on a single server `exec` awaits the reply, and the thread goes on with other actors; on a cluster it calls the
blocking `query` (line 78), so that the thread of the actors does nothing else until the reply is there.
-/

namespace MCap

/-- The actors of a thread, and the one inside `query`, if any. -/
structure KSys where
  sys : RSys
  blocked : Option Nat
deriving DecidableEq, Repr

namespace KSys

/-- Actors with the given connections. -/
def new (conns : List Nat) : KSys := { sys := RSys.new conns, blocked := none }

/-- The actor has a command under way. -/
def isBusy (s : RSys) (a : Nat) : Bool :=
  match s.actors[a]? with
  | some x => x.busy.isSome
  | none => false

/-- What can happen: other threads send messages and drop receivers at any time; an actor takes a message unless the thread is inside
`query`; the reply comes to the actor inside `query`. -/
def may (s : KSys) : RStep → Bool
  | .send _ _ => true
  | .drop _ => true
  | .take _ => s.blocked.isNone
  | .reply a _ => s.blocked == some a

end KSys

/-- One step: src/redis/mod.rs:78, and the handlers as in `rStep`. The future given to `ctx.wait` has no await that is pending, so it
ends in the poll in which the query is made. -/
def kStep (s : KSys) (st : RStep) : KSys × List REvent :=
  if s.may st then
    ({ sys := (rStep s.sys st).1
       blocked := match st with
         | .take a => if KSys.isBusy (rStep s.sys st).1 a then some a else none
         | .reply _ _ => none
         | _ => s.blocked }, (rStep s.sys st).2)
  else (s, [])

/-- A schedule. -/
def kRun : KSys → List RStep → KSys × List REvent
  | s, [] => (s, [])
  | s, x :: r => ((kRun (kStep s x).1 r).1, (kStep s x).2 ++ (kRun (kStep s x).1 r).2)

end MCap
