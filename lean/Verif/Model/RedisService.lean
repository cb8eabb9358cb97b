import Verif.Model.OpenSystem
import Verif.Model.RedisNet

/-!
# A whole service on Redis: src/system.rs with src/cache/redis.rs and src/master/redis/master.rs

The calls of Model/OpenSystem send their requests to the actors of Model/RedisNet: actor 0 is the `RedisCache`, actor 1 the Redis
`Master`. Others may use the same actors (their addresses can be cloned), and other actors, in other processes, the same server.

Simplifications:
* A call sends a request once and then waits. It gets what the `oneshot` channel holds; if the actor has died without an answer, it gets
  a `RecvError` if the handler had already run (it holds the receiver then) and a `MailboxError` otherwise.
* A call that is cancelled drops its receiver; if the request is still in the mailbox, `actix` drops the receiver as soon as the handler
  has returned it, which comes to the same.
* When the process of the service aborts nothing happens any more.
-/

namespace MCap

/-- The calls with queue and workers, the actors with the server, the request each call waits for, what the `oneshot` channels hold, and
the requests whose handler has run. -/
structure RService where
  sys : Sys
  net : RNet
  waiting : AMap Nat Nat
  answers : List (Nat × RMsg × RAnswer)
  begun : List Nat

/-- What happens. -/
inductive ZEvent where
  | sys (e : OEvent)
  | net (e : NEvent)
  /-- call `i` sent request `id` -/
  | asked (i : Nat) (id : Nat)

/-- Steps. -/
inductive ZStep where
  /-- a step of the calls, the manager thread or the workers -/
  | sys (st : SStep)
  /-- a step of the actors, of the server, or of others who use them -/
  | net (st : NStep)
  /-- call `i` sends its request: src/system.rs:109, 121, 139, 190, 199 -/
  | ask (i : Nat)
  /-- call `i` goes on with what it got; `g` are the random draws for a challenge -/
  | hear (i : Nat) (g : Rng)
  /-- call `i` is cancelled -/
  | cancel (i : Nat)

/-- The message for the `RedisCache`. -/
def CacheMsg.toRedis : CacheMsg → RMsg
  | .cachePow c => .cachePow c
  | .deletePow s => .deletePow s
  | .retrivePow v => .retrivePow v
  | .cacheResult r => .cacheResult r
  | .deleteResult t => .deleteResult t
  | .verify v => .verify v

/-- What an answer of the `RedisCache` is to a call. -/
def RAnswer.toCache : RAnswer → Option (CaptchaResult CacheReply)
  | .unit r => some (r.map fun _ => .done)
  | .config r => some (r.map .config)
  | .verdict r => some (r.map .verdict)
  | .visitor _ => none

/-- What an answer of the Redis `Master` to `AddVisitor` is to a call. -/
def RAnswer.toMaster : RAnswer → Option MasterAnswer
  | .visitor r => some (.reply r)
  | _ => none

namespace RService

/-- A started service; `conns` are the connections of the actors. -/
def new (workers queueLength now : Nat) (conns : List Nat) : RService :=
  { sys := Sys.new workers queueLength now, net := RNet.new conns now, waiting := [], answers := [], begun := [] }

/-- The request a call is about to send: to which actor, and which. -/
def request (c : Call) : Option (Nat × RMsg) :=
  match c.api, c.pc, c.live with
  | .get id, .awaitMaster, true => some (1, .addVisitor id)
  | _, .awaitCache m _, true => some (0, m.toRedis)
  | _, _, _ => none

/-- Answers end up in the `oneshot` channels; `started` tells that a handler has run. -/
def absorb (v : RService) (net : RNet) (ev : List NEvent) : RService :=
  { v with
    net := net
    answers := v.answers ++ ev.filterMap fun e => match e with | .actor (.answered _ id m a) => some (id, m, a) | _ => none
    begun := v.begun ++ ev.filterMap fun e => match e with
      | .actor (.started _ id _) => some id
      | .actor (.crashed _ id .alreadyBorrowed) => some id
      | _ => none }

/-- What others, the actors and the server may do: everything but dropping a receiver that belongs to a call, or that of a request not
sent yet. -/
def othersMay (v : RService) : NStep → Bool
  | .drop id => decide (id < v.net.sys.next) && !v.waiting.any fun e => e.2 == id
  | _ => true

/-- The error of a call whose actor has died. -/
def lost (v : RService) (id : Nat) : CaptchaError := if id ∈ v.begun then .recvError else .mailboxError

/-- The same for a request to the master. -/
def lostMaster (v : RService) (id : Nat) : MasterAnswer := if id ∈ v.begun then .recvError else .mailboxError

/-- The actor has died. -/
def dead (v : RService) (a : Nat) : Bool :=
  match v.net.sys.actors[a]? with
  | some x => !x.alive
  | none => false

/-- What the call waiting for request `id` of actor `a` gets, if anything yet: the step of Model/OpenSystem. -/
def heard (v : RService) (i a id : Nat) (g : Rng) : Option OStep :=
  match v.answers.find? (fun e => e.1 == id) with
  | some (_, _, ans) => if a = 0 then ans.toCache.map (.cache i) else ans.toMaster.map fun r => .sys (.master i r g)
  | none =>
    if v.dead a then some (if a = 0 then .cache i (.error (v.lost id)) else .sys (.master i (v.lostMaster id) g))
    else none

/-- The steps of Model/System taken as they are. -/
def direct : SStep → Bool
  | .master _ _ _ => false
  | .cancel _ => false
  | st => st.noCache

/-- A step of Model/OpenSystem. -/
def onSys (lib : PowLib) (p : Profile) (v : RService) (st : OStep) : RService × List ZEvent :=
  ({ v with sys := (openStep lib p v.sys st).1 }, (openStep lib p v.sys st).2.map .sys)

end RService

/-- One step. -/
def zStep (lib : PowLib) (p : Profile) (v : RService) (st : ZStep) : RService × List ZEvent :=
  if v.sys.queue.status = .aborted then (v, [])
  else
    match st with
    | .sys s => if RService.direct s then v.onSys lib p (.sys s) else (v, [])
    | .net s => if v.othersMay s then (v.absorb (nStep v.net s).1 (nStep v.net s).2, (nStep v.net s).2.map .net) else (v, [])
    | .ask i =>
      match v.sys.calls[i]?, v.waiting.get i with
      | some c, none =>
        match RService.request c with
        | some (a, m) =>
          match (nStep v.net (.send a m)).2 with
          | [.actor (.sent _ id _)] =>
            ({ v with net := (nStep v.net (.send a m)).1, waiting := v.waiting.insert i id },
              (nStep v.net (.send a m)).2.map .net ++ [.asked i id])
          | [.actor (.refused _ _)] =>
            ((v.onSys lib p (if a = 0 then .cache i (.error .mailboxError) else .sys (.master i .mailboxError fun _ => 0))).1,
              (nStep v.net (.send a m)).2.map .net ++
              (v.onSys lib p (if a = 0 then .cache i (.error .mailboxError) else .sys (.master i .mailboxError fun _ => 0))).2)
          | _ => (v, [])
        | none => (v, [])
      | _, _ => (v, [])
    | .hear i g =>
      match v.sys.calls[i]?, v.waiting.get i with
      | some c, some id =>
        match RService.request c with
        | some (a, _) =>
          match v.heard i a id g with
          | some st =>
            (({ v with waiting := v.waiting.erase i, answers := v.answers.filter fun e => e.1 != id } : RService).onSys lib p st)
          | none => (v, [])
        | none => (v, [])
      | _, _ => (v, [])
    | .cancel i =>
      match v.sys.calls[i]? with
      | some c =>
        if c.live ∧ c.pc ≠ .done then
          match v.waiting.get i with
          | some id =>
            (({ v with net := (nStep v.net (.drop id)).1, waiting := v.waiting.erase i } : RService).onSys lib p (.sys (.cancel i)))
          | none => v.onSys lib p (.sys (.cancel i))
        else (v, [])
      | none => (v, [])

/-- A schedule. -/
def zRun (lib : PowLib) (p : Profile) : RService → List ZStep → RService × List ZEvent
  | v, [] => (v, [])
  | v, st :: r => ((zRun lib p (zStep lib p v st).1 r).1, (zStep lib p v st).2 ++ (zRun lib p (zStep lib p v st).1 r).2)

end MCap
