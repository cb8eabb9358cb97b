import Verif.Model.Core

/-!
# Model of src/queue.rs

The queue manager thread with its mailbox, and the worker threads with theirs.

Simplifications:
* A job (`Box<dyn Runnable>`) is a number. How long it runs is up to the schedule, and it may panic.
* Channels are FIFO lists; a send is one step with the action that performs it.
* `runners: HashMap<usize, RunnerThread>` has the keys `0..workers` forever (src/queue.rs:146-149), so it is a list.
* Handling one message of the manager's mailbox is one step. Between its sends workers may act in the code; they only read
  their own inboxes and append to the mailbox, which that step neither reads nor writes, so the actions commute. `Model/QueueFine` has
  one step per send, and C128 proves that this makes no difference between messages.
-/

namespace MCap

/-- `Message`, src/queue.rs:30-33. -/
inductive WorkerMsg where
  | stop
  | prove (job : Nat)
deriving DecidableEq, Repr

/-- State of a worker thread. -/
inductive WorkerStatus where
  | alive
  /-- returned from `run` -/
  | exited
  /-- a job panicked on it; the receiving end of its inbox is gone -/
  | crashed
deriving DecidableEq, Repr

/-- `RunnerThread` with its thread, src/queue.rs:35-71. -/
structure Worker where
  inbox : List WorkerMsg
  running : Option Nat
  status : WorkerStatus
deriving DecidableEq, Repr

/-- `RunnerThread::spawn`, src/queue.rs:45-50. -/
def Worker.spawn : Worker := { inbox := [], running := none, status := .alive }

/-- `InnerManagerMessage`, src/queue.rs:86-90. -/
inductive InnerMsg where
  | stop
  | dispatch (name : Nat)
  | schedule (ip : String) (job : Nat)
deriving DecidableEq, Repr

/-- What an observer can see happening. -/
inductive QEvent where
  /-- `schedule` answered `Ok(())` -/
  | accepted (ip : String) (job : Nat)
  /-- `schedule` answered `Err(QueueFull)` -/
  | refused (ip : String) (job : Nat)
  /-- the queue of `ip` had its turn, src/queue.rs:127-129 -/
  | served (ip : String)
  /-- a job of `ip` was sent to a worker -/
  | handed (worker : Nat) (ip : String) (job : Nat)
  | started (worker : Nat) (job : Nat)
  | ran (worker : Nat) (job : Nat)
  | crashedOn (worker : Nat) (job : Nat)
deriving DecidableEq, Repr

/-- `InnerManager`, src/queue.rs:95-101. -/
structure Inner where
  queues : AMap String (List Nat)
  runners : List Worker
  ips : List String
  cur : Nat
  queueLength : Nat
deriving DecidableEq, Repr

namespace Inner

/-- `InnerManager::new`, src/queue.rs:145-159. -/
def new (workers queueLength : Nat) : Inner :=
  { queues := [], runners := List.replicate workers Worker.spawn, ips := [], cur := 0, queueLength := queueLength }

/-- Advance the rotation, src/queue.rs:119-125. -/
def advance (p : Profile) (im : Inner) : Exec Nat :=
  (usizeSub p im.ips.length 1).bind fun last => .ret (if im.cur < last then im.cur + 1 else 0)

/-- Take the next job of the queue whose turn it is and send it, src/queue.rs:127-131. -/
def serve (im : Inner) (name : Nat) (r : Worker) (cur : Nat) : Exec (Inner × List QEvent) :=
  match im.ips[cur]? with
  | none => .panic .unwrapNone
  | some ip =>
    match im.queues.get ip with
    | none => .panic .unwrapNone
    | some [] => .ret ({ im with cur := cur }, [.served ip])
    | some (job :: rest) =>
      if r.status = .alive then
        .ret ({ im with cur := cur, queues := im.queues.insert ip rest,
                        runners := im.runners.set name { r with inbox := r.inbox ++ [.prove job] } },
              [.served ip, .handed name ip job])
      else .panic .unwrapErr

/-- `dispatch_to`, src/queue.rs:117-133. -/
def dispatchTo (p : Profile) (im : Inner) (name : Nat) : Exec (Inner × List QEvent) :=
  match im.runners[name]? with
  | none => .ret (im, [])
  | some r => (im.advance p).bind fun cur => im.serve name r cur

/-- Body of the loop of `dispatch`, src/queue.rs:136-142, for a list of names. -/
def dispatchAll (p : Profile) (im : Inner) : List Nat → Exec (Inner × List QEvent)
  | [] => .ret (im, [])
  | name :: rest =>
    match im.runners[name]? with
    | none => .panic .explicit
    | some _ =>
      (im.dispatchTo p name).bind fun (im', ev) =>
        (im'.dispatchAll p rest).bind fun (im'', ev') => .ret (im'', ev ++ ev')

/-- `dispatch`, src/queue.rs:135-143. -/
def dispatch (p : Profile) (im : Inner) : Exec (Inner × List QEvent) :=
  im.dispatchAll p (List.range im.runners.length)

/-- `schedule`, src/queue.rs:161-178; the answer is part of the events. -/
def schedule (p : Profile) (im : Inner) (ip : String) (job : Nat) : Exec (Inner × List QEvent) :=
  if im.queues.length = im.queueLength then .ret (im, [.refused ip job])
  else
    match im.queues.get ip with
    | some queue =>
      (({ im with queues := im.queues.insert ip (queue ++ [job]) } : Inner).dispatch p).bind fun (im', ev) =>
        .ret (im', .accepted ip job :: ev)
    | none =>
      (({ im with queues := im.queues.insert ip [job], ips := im.ips ++ [ip] } : Inner).dispatch p).bind fun (im', ev) =>
        .ret (im', .accepted ip job :: ev)

end Inner

/-- State of the manager thread. -/
inductive ManagerStatus where
  | running
  /-- in `drop(im)`, joining the workers, src/queue.rs:103-114 -/
  | stopping
  /-- returned from `run` -/
  | stopped
  /-- its thread panicked -/
  | panicked
  /-- panicked again while unwinding: the process is gone -/
  | aborted
deriving DecidableEq, Repr

/-- `Manager` (src/queue.rs:199-202) with the thread it started. -/
structure Queue where
  inner : Inner
  mailbox : List InnerMsg
  status : ManagerStatus
  /-- the `Manager` was dropped -/
  closed : Bool
deriving DecidableEq, Repr

/-- One step. -/
inductive QStep where
  /-- `Manager::add` sends its message -/
  | submit (ip : String) (job : Nat)
  /-- the manager thread handles one message -/
  | manage
  /-- worker takes a message from its inbox -/
  | take (w : Nat)
  /-- the job on the worker returns -/
  | finish (w : Nat)
  /-- the job on the worker panics -/
  | crash (w : Nat)
  /-- the `Manager` is dropped -/
  | close
  /-- the manager thread is done joining the workers -/
  | joined
deriving DecidableEq, Repr

namespace Queue

/-- `Manager::new`, src/queue.rs:213-228. -/
def new (workers queueLength : Nat) : Queue :=
  { inner := Inner.new workers queueLength, mailbox := [], status := .running, closed := false }

/-- Some worker's inbox can no longer be sent to. -/
def someGone (q : Queue) : Bool := q.inner.runners.any fun r => r.status != .alive

/-- The manager thread panicked outside `Drop`: unwinding drops the inner manager, whose `Drop` (src/queue.rs:103-107) unwraps a
send to every worker; if one is gone this panics while unwinding, which aborts the process. -/
def managerPanics (q : Queue) : Queue :=
  { q with status := if q.someGone then .aborted else .panicked }

/-- One message of `InnerManager::run`, src/queue.rs:180-196. `Stop` drops the inner manager: `Stop` is sent to every worker
(src/queue.rs:105-107), a panic if one is gone. Simplification: in this last case the workers that come before the one that is gone,
in the arbitrary order of the map, get their `Stop` too; here none does, as if the one that is gone came first. The others lose the
sending end of their inbox and never return (they spin, src/queue.rs:54-55); here they stay idle. Neither shows in any event. -/
def manage (p : Profile) (q : Queue) : Queue × List QEvent :=
  if q.status = .running then
    match q.mailbox with
    | [] => (q, [])
    | .stop :: rest =>
      if q.someGone then ({ q with mailbox := rest, status := .panicked }, [])
      else
        ({ q with mailbox := rest, status := .stopping,
                  inner := { q.inner with
                    runners := q.inner.runners.map fun r => { r with inbox := r.inbox ++ [.stop] } } }, [])
    | .dispatch name :: rest =>
      match q.inner.dispatchTo p name with
      | .ret (im, ev) => ({ q with mailbox := rest, inner := im }, ev)
      | .panic _ => (({ q with mailbox := rest } : Queue).managerPanics, [])
    | .schedule ip job :: rest =>
      match q.inner.schedule p ip job with
      | .ret (im, ev) => ({ q with mailbox := rest, inner := im }, ev)
      | .panic _ => (({ q with mailbox := rest } : Queue).managerPanics, [])
  else (q, [])

/-- Replace worker `w`. -/
def setWorker (q : Queue) (w : Nat) (r : Worker) : Queue :=
  { q with inner := { q.inner with runners := q.inner.runners.set w r } }

/-- The receiving end of the manager's mailbox exists. -/
def listening (q : Queue) : Bool := q.status = .running || q.status = .stopping

/-- Worker `w` takes a message, src/queue.rs:54-58. -/
def take (q : Queue) (w : Nat) : Queue × List QEvent :=
  match q.inner.runners[w]? with
  | none => (q, [])
  | some r =>
    if r.status = .alive ∧ r.running = none then
      match r.inbox with
      | [] => (q, [])
      | .stop :: rest => (q.setWorker w { r with inbox := rest, status := .exited }, [])
      | .prove job :: rest => (q.setWorker w { r with inbox := rest, running := some job }, [.started w job])
    else (q, [])

/-- The job on worker `w` returns; the worker asks for more, or exits if the manager is gone, src/queue.rs:58-66. -/
def finish (q : Queue) (w : Nat) : Queue × List QEvent :=
  match q.inner.runners[w]? with
  | none => (q, [])
  | some r =>
    match r.running with
    | none => (q, [])
    | some job =>
      if q.listening then
        ({ q.setWorker w { r with running := none } with mailbox := q.mailbox ++ [.dispatch w] }, [.ran w job])
      else (q.setWorker w { r with running := none, status := .exited }, [.ran w job])

/-- The job on worker `w` panics: the thread ends, its inbox and what is in it are dropped. -/
def crash (q : Queue) (w : Nat) : Queue × List QEvent :=
  match q.inner.runners[w]? with
  | none => (q, [])
  | some r =>
    match r.running with
    | none => (q, [])
    | some job => (q.setWorker w { inbox := [], running := none, status := .crashed }, [.crashedOn w job])

end Queue

/-- Execute one step; nothing happens in an aborted process. -/
def qStep (p : Profile) (q : Queue) (s : QStep) : Queue × List QEvent :=
  if q.status = .aborted then (q, [])
  else
    match s with
    /- src/queue.rs:230-234: needs the `Manager`; if the manager thread is gone the send is unwrapped: the caller panics and
       nothing changes -/
    | .submit ip job =>
      if q.closed = false ∧ q.listening then ({ q with mailbox := q.mailbox ++ [.schedule ip job] }, []) else (q, [])
    | .manage => q.manage p
    | .take w => q.take w
    | .finish w => q.finish w
    | .crash w => q.crash w
    /- src/queue.rs:204-206 -/
    | .close =>
      if q.closed = false ∧ q.listening then ({ q with mailbox := q.mailbox ++ [.stop], closed := true }, []) else (q, [])
    /- src/queue.rs:108-112, 186: the workers are joined one after the other in the arbitrary order of the map; joining one that
       panicked panics, whether or not others are still at work; otherwise the thread returns once all have returned -/
    | .joined =>
      if q.status = .stopping then
        if q.inner.runners.any fun r => r.status = .crashed then ({ q with status := .panicked }, [])
        else if q.inner.runners.all fun r => r.status != .alive then ({ q with status := .stopped }, [])
        else (q, [])
      else (q, [])

/-- Execute a schedule of steps. -/
def qRun (p : Profile) : Queue → List QStep → Queue × List QEvent
  | q, [] => (q, [])
  | q, s :: r =>
    let (q', ev) := qStep p q s
    let (q'', ev') := qRun p q' r
    (q'', ev ++ ev')

end MCap
