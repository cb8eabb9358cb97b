import Verif.Model.System
import Verif.Model.Master

/-!
# A whole service: src/system.rs with the embedded master of src/master/embedded

Model/System leaves the answers of the master open. Here `get_pow` (src/system.rs:108-126) talks to the master and the counters of
Model/Master, which other clients use at the same time (registering, renaming and removing sites, dumps and restores, direct use of a
counter's address).

Simplifications:
* Requests carry tags: call `i` of the API has tag `2 * i`, the `t`-th client request of another kind `2 * t + 1`.
* The master stays when the `System` is dropped: somebody else holds its address.
* When the process aborts nothing happens any more.
-/

namespace MCap

/-- The system, its master, and the calls whose `AddVisitor` the master has handled. -/
structure Service where
  sys : Sys
  world : World
  asked : List Nat

/-- What happens. -/
inductive VEvent where
  /-- seen by users of the API, or in the cache or in the queue -/
  | api (e : SEvent)
  /-- the master handled the `AddVisitor` of call `i` for site `id`: it found this counter -/
  | asked (i : Nat) (id : SiteId) (a : Option Addr)
  /-- the master handled another message, from a client, from its garbage collection or from a restore -/
  | master (msg : MasterMsg)
  /-- counter `a` was sent a message, on behalf of a call of the API or of others -/
  | counter (who : Option Nat) (a : Addr) (at_ : Nat) (msg : CounterMsg) (r : CounterReply)
deriving DecidableEq

/-- Steps. -/
inductive VStep where
  /-- a step of Model/System; the master's answers and the clock are not among them -/
  | sys (st : SStep)
  /-- a step of Model/Master -/
  | world (st : WStep)
  /-- the master handles the `AddVisitor` of call `i`, src/system.rs:109 -/
  | ask (i : Nat)
  /-- call `i` gets the answer -/
  | hear (i : Nat) (g : Rng)
  | tick (d : Nat)

namespace Service

/-- A started service. -/
def new (workers queueLength gc now : Nat) : Service :=
  { sys := Sys.new workers queueLength now, world := World.init now gc, asked := [] }

/-- The call of the API a tag belongs to. -/
def caller (tag : Nat) : Option Nat := if tag % 2 = 0 then some (tag / 2) else none

/-- The message a step of the master or of a client sends to a counter. -/
def toCounter (w : World) : WStep → Option (Option Nat × Addr × CounterMsg)
  | .direct _ a msg => some (none, a, msg)
  | .run i =>
    match w.tasks[i]? with
    | some (.gcPoll ((_, (_, a)) :: _)) => some (none, a, .getCurrentVisitorCount)
    | some (.gcStop _ a _) => some (none, a, .stop)
    | some (.forward tag a) => some (caller tag, a, .addVisitor)
    | some (.stop _ a) => some (none, a, .stop)
    | some (.collect _ ((_, (_, a)) :: _) _) => some (none, a, .getInternalData)
    | some (.restoreOld a m) => some (none, a, .setInternalData m)
    | _ => none
  | _ => none

/-- The message the master handles in a step. -/
def toMaster (w : World) : WStep → Option MasterMsg
  | .req _ msg => if w.crashed then none else some msg
  | .run i =>
    match w.tasks[i]? with
    | some (.gcWait due) => if due ≤ w.now then some .cleanUp else none
    | some (.gcRemove id _) => some (.removeCaptcha id)
    | some (.restoreNew id m) => some (.addSite id m)
    | _ => none
  | _ => none

/-- What happens in a step of Model/Master. -/
def worldEvents (p : Profile) (w : World) (st : WStep) : List VEvent :=
  (match toCounter w st with
    | some (who, a, msg) => [.counter who a w.now msg (w.sendCounter p a msg).2]
    | none => []) ++
  (toMaster w st).toList.map .master

/-- Steps of Model/Master that other clients and the actors take, with the tags of other clients. -/
def others : WStep → Option WStep
  | .req t m => some (.req (2 * t + 1) m)
  | .direct t a m => some (.direct (2 * t + 1) a m)
  | .run i => some (.run i)
  | .fire a i => some (.fire a i)
  | .tick _ => none

/-- The answer call `i` gets at src/system.rs:109: the first `?` fails if the master was gone, the second if it is gone by now. -/
def heard (v : Service) (i : Nat) : Option MasterAnswer :=
  match v.world.answers.find? (fun e => e.1 == 2 * i) with
  | some (_, .visitor r) => some (.reply (.ok r))
  | some (_, .error e) => some (.reply (.error e))
  | some (_, .mailboxError) => some .mailboxError
  | some _ => none
  | none => if i ∈ v.asked ∧ v.world.crashed = true then some .recvError else none

/-- The steps of Model/System taken as they are. -/
def direct : SStep → Bool
  | .master _ _ _ => false
  | .tick _ => false
  | _ => true

end Service

/-- One step. -/
def vStep (lib : PowLib) (p : Profile) (v : Service) (st : VStep) : Service × List VEvent :=
  if v.sys.queue.status = .aborted then (v, [])
  else
    match st with
    | .sys s =>
      if Service.direct s then ({ v with sys := (sysStep lib p v.sys s).1 }, (sysStep lib p v.sys s).2.map .api) else (v, [])
    | .world s =>
      match Service.others s with
      | some s => ({ v with world := wstep p v.world s }, Service.worldEvents p v.world s)
      | none => (v, [])
    | .ask i =>
      match v.sys.calls[i]? with
      | some c =>
        match c.api, c.pc with
        | .get id, .awaitMaster =>
          if i ∈ v.asked then (v, [])
          else
            ({ v with world := wstep p v.world (.req (2 * i) (.addVisitor id)), asked := i :: v.asked },
              if v.world.crashed then [] else [.asked i id (v.world.master.getSite id).2])
        | _, _ => (v, [])
      | none => (v, [])
    | .hear i g =>
      match v.heard i with
      | some a => ({ v with sys := (sysStep lib p v.sys (.master i a g)).1 }, (sysStep lib p v.sys (.master i a g)).2.map .api)
      | none => (v, [])
    | .tick d => ({ v with sys := (sysStep lib p v.sys (.tick d)).1, world := wstep p v.world (.tick d) }, [])

/-- A schedule. -/
def vRun (lib : PowLib) (p : Profile) : Service → List VStep → Service × List VEvent
  | v, [] => (v, [])
  | v, st :: r => ((vRun lib p (vStep lib p v st).1 r).1, (vStep lib p v st).2 ++ (vRun lib p (vStep lib p v st).1 r).2)

end MCap
