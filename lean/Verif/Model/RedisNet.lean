import Verif.Model.Redis

/-!
# Several actors and one Redis server

The actors of src/cache/redis.rs and src/master/redis/master.rs, in any number of threads and processes, with the commands on their way
to the server and the replies on their way back. Actors with different `conn` share nothing but the server.

Simplifications:
* The server carries out `SET` and `DEL`, the commands for tokens; the mCaptcha module is not modelled, its replies are arbitrary and
  its commands leave the tokens alone.
* Commands reach the server in any order. The `redis` crate matches replies with requests, and it does not repeat commands.
-/

namespace MCap

/-- Actors, server, commands on their way (each with the number of its request; on the wire is `m.command`), replies on their way. -/
structure RNet where
  sys : RSys
  db : RedisDb
  wire : List (Nat × RMsg)
  replies : List (Nat × RMsg × RResult)

/-- What happens, to be observed at the actors or at the server. -/
inductive NEvent where
  | actor (e : REvent)
  /-- the server carried out the command of request `id` at time `at_` -/
  | served (id : Nat) (m : RMsg) (r : RResult) (at_ : Nat)

/-- Steps. -/
inductive NStep where
  | send (actor : Nat) (m : RMsg)
  | take (actor : Nat)
  | drop (id : Nat)
  /-- the server carries out the `k`-th command on its way; `r` is the reply if it is one of the module -/
  | serve (k : Nat) (r : RResult)
  /-- the `k`-th reply arrives at the actor waiting for it -/
  | deliver (actor : Nat) (k : Nat)
  /-- the connection fails: the running request gets an error, whether or not the server carries out the command -/
  | fail (actor : Nat) (e : String)
  | tick (ms : Nat)

/-- The commands carried out by the server itself: those of src/redis/mcaptcha_redis.rs:209-248. -/
def tokenCommand : RCommand → Bool
  | name :: _ => name = "SET" || name = "DEL"
  | [] => false

namespace RNet

/-- At the start. -/
def new (conns : List Nat) (now : Nat) : RNet := { sys := RSys.new conns, db := RedisDb.init now, wire := [], replies := [] }

/-- A step of the actors. -/
def onActors (s : RNet) (x : RStep) : RNet × List NEvent := ({ s with sys := (rStep s.sys x).1 }, (rStep s.sys x).2.map .actor)

/-- The command the actor has just sent, if any. -/
def newCommand (s : RSys) (a : Nat) (ev : List REvent) : List (Nat × RMsg) :=
  match ev, s.actors[a]? with
  | [.started _ _ _], some x => x.busy.toList
  | _, _ => []

/-- What the server does with a command. -/
def onServe (db : RedisDb) (m : RMsg) (r : RResult) : RedisDb × RResult :=
  if tokenCommand m.command then db.exec m.command else (db, r)

end RNet

/-- One step. -/
def nStep (s : RNet) : NStep → RNet × List NEvent
  | .send a m => s.onActors (.send a m)
  | .drop i => s.onActors (.drop i)
  | .take a =>
    ({ s with sys := (rStep s.sys (.take a)).1,
              wire := s.wire ++ RNet.newCommand (rStep s.sys (.take a)).1 a (rStep s.sys (.take a)).2 },
      (rStep s.sys (.take a)).2.map .actor)
  | .serve k r =>
    match s.wire[k]? with
    | none => (s, [])
    | some (i, m) =>
      ({ s with db := (RNet.onServe s.db m r).1, wire := s.wire.eraseIdx k, replies := s.replies ++ [(i, m, (RNet.onServe s.db m r).2)] },
        [.served i m (RNet.onServe s.db m r).2 s.db.now])
  | .deliver a k =>
    match s.replies[k]?, s.sys.actors[a]? with
    | some (i, _, r), some x =>
      if x.busy.map Prod.fst = some i then ({ s with replies := s.replies.eraseIdx k } : RNet).onActors (.reply a r) else (s, [])
    | _, _ => (s, [])
  | .fail a e => s.onActors (.reply a (.error e))
  | .tick ms => ({ s with db := { s.db with now := s.db.now + ms } }, [])

/-- A history. -/
def nRun : RNet → List NStep → RNet × List NEvent
  | s, [] => (s, [])
  | s, x :: r => ((nRun (nStep s x).1 r).1, (nStep s x).2 ++ (nRun (nStep s x).1 r).2)

end MCap
