import Verif.Model.Cache
import Verif.Model.Queue
import Verif.Model.MCaptcha

/-!
# Model of src/system.rs

The three calls of the API, any number of them in flight at once, together with the cache actor of Model/Cache, the queue and the
workers of Model/Queue and the verdict channels of Model/Pow. Every step below is what one thread does between two points where
another one could observe it.

Simplifications:
* The master is not part of this model: its answers are part of the schedule, so everything proved holds for every master (embedded
  or Redis), and so do statements about it.
* Pending messages of the cache's mailbox are handled in any order.
* Calls are numbered in the order in which they begin. The job a `verify_pow` call puts into the queue has the number of the call.
* A call may be cancelled (its future dropped) at any moment. A message it has sent may still be handled afterwards, or never.
* A `Box` or a channel end is dropped as soon as nothing in the model holds it any more.
-/

namespace MCap

/-- A call of the API, src/system.rs:108, 129, 195. -/
inductive Api where
  | get (id : String)
  | verify (work : Work) (ip : String)
  | validate (msg : VerifyCaptchaResult)
deriving DecidableEq, Repr

/-- What a call returns. -/
inductive Ret where
  | get (r : CaptchaResult (Option PoWConfig))
  | verify (r : CaptchaResult (String × Nat))
  | validate (r : CaptchaResult Bool)
deriving DecidableEq, Repr

/-- Which request to the cache a call is waiting for. -/
inductive Stage where
  /-- src/system.rs:121 -/
  | storePow (cfg : PoWConfig)
  /-- src/system.rs:139 -/
  | retrieve
  /-- src/system.rs:190 -/
  | storeResult (token : String) (difficultyFactor : Nat)
  /-- src/system.rs:199 -/
  | check
deriving DecidableEq, Repr

/-- The answer of `Manager::add`, src/system.rs:161. -/
inductive AddAnswer where
  | accepted
  | refused
  /-- the manager thread dropped the answering end -/
  | lost
deriving DecidableEq, Repr

/-- Where a call is. -/
inductive Pc where
  /-- src/system.rs:109 -/
  | awaitMaster
  | awaitCache (m : CacheMsg) (k : Stage)
  | replied (r : CacheReply) (k : Stage)
  /-- src/system.rs:161 -/
  | awaitAdd (c : CachedPoWConfig)
  | answered (c : CachedPoWConfig) (a : AddAnswer)
  /-- src/system.rs:162-175 -/
  | polling (c : CachedPoWConfig)
  | done
deriving DecidableEq, Repr

/-- A call in flight, or over. `job` is the job it made, with the channel between the two. -/
structure Call where
  api : Api
  pc : Pc
  live : Bool
  job : Option (QueuedWork × VerdictChannel)

/-- The answer of the master to `AddVisitor`, src/system.rs:109. -/
inductive MasterAnswer where
  /-- the first `?` -/
  | mailboxError
  /-- the second `?` -/
  | recvError
  | reply (r : CaptchaResult (Option AddVisitorResult))
deriving DecidableEq, Repr

/-- `System` with the actors and threads it uses, src/system.rs:90-95. -/
structure Sys where
  cache : CacheWorld
  queue : Queue
  calls : List Call

/-- What happens, seen from outside. -/
inductive SEvent where
  | call (i : Nat) (a : Api)
  | ret (i : Nat) (a : Api) (r : Ret)
  | panicked (i : Nat)
  | cancelled (i : Nat)
  /-- the master answered call `i` -/
  | master (i : Nat) (a : MasterAnswer)
  /-- the cache handled a message, sent by call number and arguments `sender`, or by an expiry task -/
  | cache (sender : Option (Nat × Api)) (m : CacheMsg) (r : CacheReply)
  | queue (e : QEvent)
deriving DecidableEq, Repr

/-- One step. -/
inductive SStep where
  | call (a : Api)
  | master (i : Nat) (a : MasterAnswer) (g : Rng)
  /-- the cache handles the message call `i` has sent -/
  | cache (i : Nat)
  /-- the cache is gone: the request of call `i` fails -/
  | cacheGone (i : Nat)
  /-- call `i` goes on after an answer -/
  | resume (i : Nat)
  /-- one iteration of the loop of call `i`; `g` are the random draws for the token, if one is made -/
  | poll (i : Nat) (g : Rng)
  /-- the manager thread or a worker thread takes a step -/
  | queue (s : QStep)
  /-- worker `w` takes a step inside the job it is running -/
  | work (w : Nat)
  /-- expiry task `k` of the cache -/
  | fire (k : Nat)
  | tick (d : Nat)
  | cancel (i : Nat)
  /-- the `System` is dropped; impossible while a call borrows it -/
  | shutdown

namespace Sys

/-- A started system. -/
def new (workers queueLength now : Nat) : Sys :=
  { cache := CacheWorld.init now, queue := Queue.new workers queueLength, calls := [] }

/-- Replace call `i`. -/
def setCall (s : Sys) (i : Nat) (c : Call) : Sys := { s with calls := s.calls.set i c }

end Sys

namespace Call

/-- First await of a call: src/system.rs:109, 132-139, 199. -/
def start (a : Api) : Call :=
  { api := a, live := true, job := none,
    pc := match a with
      | .get _ => .awaitMaster
      | .verify work _ => .awaitCache (.retrivePow { token := work.string, key := work.key }) .retrieve
      | .validate msg => .awaitCache (.verify msg) .check }

/-- The receiving end of the verdict channel is dropped. -/
def dropRx (c : Call) : Call := { c with job := c.job.map fun (q, ch) => (q, ch.dropRx) }

/-- The call is over; its locals are dropped. -/
def over (c : Call) : Call := { c.dropRx with pc := .done }

/-- The job is dropped, and with it the sending end of the channel; it has run if `validate` had returned. -/
def release (c : Call) : Call :=
  { c with job := c.job.map fun (q, ch) =>
      (q, match ch.pc with
          | .dropped _ => ch
          | .finished => { ch with pc := .dropped true }
          | _ => { ch with pc := .dropped false }) }

end Call

/-- A message to the manager thread, or the manager's own queues, or a worker thread hold job `j`. -/
def Queue.holds (q : Queue) (j : Nat) : Bool :=
  (q.listening &&
    (q.mailbox.any (fun m => match m with | .schedule _ j' => j' == j | _ => false) || q.inner.queues.any (fun e => e.2.contains j))) ||
  q.inner.runners.any (fun r => r.status = .alive && (r.running == some j || r.inbox.contains (.prove j)))

/-- Effect on call `i` of what the manager and the workers did: the answer of `add` arrives, and the job is dropped if nobody holds
it any more. -/
def Call.settle (q : Queue) (ev : List QEvent) (i : Nat) (c : Call) : Call :=
  let pc := match c.pc with
    | .awaitAdd cfg =>
      if ev.any (fun e => match e with | .accepted _ j => j == i | _ => false) then .answered cfg .accepted
      else if ev.any (fun e => match e with | .refused _ j => j == i | _ => false) then .answered cfg .refused
      else if q.holds i then .awaitAdd cfg
      else .answered cfg .lost
    | pc => pc
  let c := { c with pc := pc }
  if q.holds i then c else c.release

namespace Sys

/-- Call `i`, in state `c`, returns `r`. -/
def returns (s : Sys) (i : Nat) (c : Call) (r : Ret) : Sys × List SEvent :=
  (s.setCall i c.over, [.ret i c.api r])

/-- `get_pow` after the master's answer, src/system.rs:109-121 and 124: every answer but `Ok(Some)` gives `Ok(None)`, errors of the
master included. -/
def onMaster (lib : PowLib) (s : Sys) (i : Nat) (c : Call) (id : String) (g : Rng) : MasterAnswer → Sys × List SEvent
  | .mailboxError => s.returns i c (.get (.error .mailboxError))
  | .recvError => s.returns i c (.get (.error .recvError))
  | .reply (.ok (some r)) =>
    let cfg := PoWConfig.new r.difficultyFactor lib.salt g
    let msg : CachePoW :=
      { string := cfg.string, difficultyFactor := r.difficultyFactor, duration := r.duration, key := id }
    (s.setCall i { c with pc := .awaitCache (.cachePow msg) (.storePow cfg) }, [])
  | .reply _ => s.returns i c (.get (.ok none))

/-- `verify_pow` after the challenge was looked up, src/system.rs:141-161. Sending to a manager thread that is gone is a panic
(src/queue.rs:232-234). -/
def onRetrieved (lib : PowLib) (p : Profile) (s : Sys) (i : Nat) (c : Call) (work : Work) (ip : String) :
    Option CachedPoWConfig → Sys × List SEvent
  | none => s.returns i c (.verify (.error .stringNotFound))
  | some cfg =>
    if work.key ≠ cfg.key then s.returns i c (.verify (.error .mCaptchaKeyValidationFail))
    else
      let job : QueuedWork :=
        { pow := lib, work := work.toProof, string := work.string, difficultyFactor := cfg.difficultyFactor }
      if s.queue.listening then
        let (q, ev) := qStep p s.queue (.submit ip i)
        (({ s with queue := q } : Sys).setCall i { c with pc := .awaitAdd cfg, job := some (job, VerdictChannel.new) }, ev.map .queue)
      else (s.setCall i c.over, [.panicked i])

/-- A call goes on after an answer of the cache or of the queue. -/
def onResume (lib : PowLib) (p : Profile) (s : Sys) (i : Nat) (c : Call) : Sys × List SEvent :=
  match c.pc, c.api with
  /- src/system.rs:122 -/
  | .replied _ (.storePow cfg), _ => s.returns i c (.get (.ok (some cfg)))
  | .replied (.config r) .retrieve, .verify work ip => s.onRetrieved lib p i c work ip r
  /- src/system.rs:191 -/
  | .replied _ (.storeResult token d), _ => s.returns i c (.verify (.ok (token, d)))
  /- src/system.rs:199 -/
  | .replied (.verdict b) .check, _ => s.returns i c (.validate (.ok b))
  /- src/system.rs:161 -/
  | .answered cfg .accepted, _ => (s.setCall i { c with pc := .polling cfg }, [])
  | .answered _ .refused, _ => s.returns i c (.verify (.error .queueFull))
  | .answered _ .lost, _ => s.returns i c (.verify (.error .recvError))
  | _, _ => (s, [])

/-- One iteration of the loop, src/system.rs:162-175, and lines 188-190 when it ends with `true`. -/
def onPoll (s : Sys) (i : Nat) (c : Call) (g : Rng) : Sys × List SEvent :=
  match c.pc, c.job with
  | .polling cfg, some (job, ch) =>
    let ch' := ch.poll
    match ch'.reading with
    | .none => (s.setCall i { c with job := some (job, ch') }, [])
    | .disconnected => s.returns i { c with job := some (job, ch') } (.verify (.error .insuffiencientDifficulty))
    | .verdict false => s.returns i { c with job := some (job, ch') } (.verify (.error .insuffiencientDifficulty))
    | .verdict true =>
      let msg := CacheResult.ofConfig cfg g
      (s.setCall i { c with job := some (job, ch'),
                            pc := .awaitCache (.cacheResult msg) (.storeResult msg.token cfg.difficultyFactor) }, [])
  | _, _ => (s, [])

/-- The request of a call to the cache fails (`?` on the mailbox, src/system.rs:121, 139, 190, 199). -/
def onCacheGone (s : Sys) (i : Nat) (c : Call) : Sys × List SEvent :=
  match c.pc, c.api with
  | .awaitCache _ _, .get _ => s.returns i c (.get (.error .mailboxError))
  | .awaitCache _ _, .verify _ _ => s.returns i c (.verify (.error .mailboxError))
  | .awaitCache _ _, .validate _ => s.returns i c (.validate (.error .mailboxError))
  | _, _ => (s, [])

/-- The manager thread and the worker threads. A job returns only when `validate` has returned. -/
def mayStep (s : Sys) : QStep → Bool
  | .manage => true
  | .take _ => true
  | .joined => true
  | .crash _ => true
  | .finish w =>
    match s.queue.inner.runners[w]? with
    | some { running := some j, .. } =>
      match s.calls[j]? with
      | some { job := some (_, ch), .. } => ch.pc = .finished
      | _ => false
    | _ => false
  | .submit _ _ => false
  | .close => false

/-- Worker `w` takes a step of the job it is running, src/pow.rs:98-118; nothing happens when it is blocked. -/
def onWork (s : Sys) (w : Nat) : Sys :=
  match s.queue.inner.runners[w]? with
  | some { running := some j, .. } =>
    match s.calls[j]? with
    | some c =>
      match c.job with
      | some (job, ch) =>
        if ch.pc = .finished then s
        else s.setCall j { c with job := some (job, (ch.workerStep job).getD ch) }
      | none => s
    | none => s
  | _ => s

end Sys

/-- Execute one step; nothing happens in an aborted process. -/
def sysStep (lib : PowLib) (p : Profile) (s : Sys) (st : SStep) : Sys × List SEvent :=
  if s.queue.status = .aborted then (s, [])
  else
    match st with
    | .call a =>
      if s.queue.closed then (s, [])
      else ({ s with calls := s.calls ++ [Call.start a] }, [.call s.calls.length a])
    | .master i a g =>
      match s.calls[i]? with
      | some c =>
        match c.api, c.pc, c.live with
        | .get id, .awaitMaster, true =>
          let (s', ev) := s.onMaster lib i c id g a
          (s', .master i a :: ev)
        | _, _, _ => (s, [])
      | none => (s, [])
    | .cache i =>
      match s.calls[i]? with
      | some c =>
        match c.pc with
        | .awaitCache m k =>
          let (w, r) := s.cache.handle m
          (({ s with cache := w } : Sys).setCall i { c with pc := .replied r k }, [.cache (some (i, c.api)) m r])
        | _ => (s, [])
      | none => (s, [])
    | .cacheGone i =>
      match s.calls[i]? with
      | some c => if c.live then s.onCacheGone i c else (s, [])
      | none => (s, [])
    | .resume i =>
      match s.calls[i]? with
      | some c => if c.live then s.onResume lib p i c else (s, [])
      | none => (s, [])
    | .poll i g =>
      match s.calls[i]? with
      | some c => if c.live then s.onPoll i c g else (s, [])
      | none => (s, [])
    | .queue qs =>
      if s.mayStep qs then
        let (q, ev) := qStep p s.queue qs
        ({ s with queue := q, calls := s.calls.mapIdx (Call.settle q ev) }, ev.map .queue)
      else (s, [])
    | .work w => (s.onWork w, [])
    | .fire k =>
      let (w, ev) := cacheStep s.cache (.fire k)
      ({ s with cache := w }, ev.map fun (m, r) => .cache none m r)
    | .tick d => ({ s with cache := (cacheStep s.cache (.tick d)).1 }, [])
    | .cancel i =>
      match s.calls[i]? with
      | some c => if c.live ∧ c.pc ≠ .done then (s.setCall i { c.dropRx with live := false }, [.cancelled i]) else (s, [])
      | none => (s, [])
    | .shutdown =>
      if s.calls.all fun c => !c.live || c.pc = .done then
        let (q, ev) := qStep p s.queue .close
        ({ s with queue := q, calls := s.calls.mapIdx (Call.settle q ev) }, ev.map .queue)
      else (s, [])

/-- Execute a schedule. -/
def sysRun (lib : PowLib) (p : Profile) : Sys → List SStep → Sys × List SEvent
  | s, [] => (s, [])
  | s, st :: r =>
    let (s', ev) := sysStep lib p s st
    let (s'', ev') := sysRun lib p s' r
    (s'', ev ++ ev')

/-! ## SystemBuilder -/

/-- `SystemBuilder`, src/system.rs:32-38. Addresses of actors are numbers. -/
structure SystemBuilder where
  master : Option Nat
  cache : Option Nat
  pow : Option PowLib
  runners : Option Nat
  queueLength : Option Nat

/-- A setter call, src/system.rs:53-76. -/
inductive BuilderOp where
  | master (a : Nat)
  | cache (a : Nat)
  | pow (p : PowLib)
  | runners (n : Nat)
  | queueLength (n : Nat)

namespace SystemBuilder

/-- `default`, src/system.rs:40-50. -/
def default : SystemBuilder := { master := none, cache := none, pow := none, runners := none, queueLength := none }

/-- The setters, src/system.rs:53-76. -/
def apply (b : SystemBuilder) : BuilderOp → SystemBuilder
  | .master m => { b with master := some m }
  | .cache c => { b with cache := some c }
  | .pow p => { b with pow := some p }
  | .runners n => { b with runners := some n }
  | .queueLength n => { b with queueLength := some n }

end SystemBuilder

/-- The parts of `System`, src/system.rs:90-95. -/
structure BuiltSystem where
  master : Nat
  pow : PowLib
  cache : Nat
  queue : Queue

/-- `Option::unwrap`. -/
def unwrap {α : Type} : Option α → Exec α
  | some a => .ret a
  | none => .panic .unwrapNone

/-- `build`, src/system.rs:78-86. -/
def SystemBuilder.build (b : SystemBuilder) : Exec BuiltSystem :=
  (unwrap b.runners).bind fun runners =>
  (unwrap b.queueLength).bind fun queueLength =>
  (unwrap b.master).bind fun master =>
  (unwrap b.pow).bind fun pow =>
  (unwrap b.cache).bind fun cache =>
    .ret { master := master, pow := pow, cache := cache, queue := Queue.new runners queueLength }

end MCap
