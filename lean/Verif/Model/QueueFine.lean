import Verif.Model.QueueDrop

/-!
# The queue manager, one send at a time

`Queue.manage` handles one message of the manager's mailbox in one step. Here each of its sends is a step of its own, and workers, clients
and the owner of the `Manager` act in between.
-/

namespace MCap

/-- What the manager thread is in the middle of. -/
inductive Doing where
  /-- in `dispatch_to` or in the loop of `dispatch` (src/queue.rs:136-142), with these workers still to come; `reply` is what to answer
  afterwards (src/queue.rs:189-192) -/
  | dispatching (names : List Nat) (reply : Option (String × Nat))
  /-- in the first loop of `drop(im)` (src/queue.rs:105-107), with these workers still to come -/
  | stopping (names : List Nat)
deriving DecidableEq, Repr

/-- The queue, and what its manager thread is in the middle of. -/
structure FQueue where
  q : Queue
  doing : Option Doing
deriving DecidableEq, Repr

/-- One step. -/
inductive FStep where
  /-- the manager thread takes a message from its mailbox; should it be `Stop`, the map yields the workers in the given order -/
  | receive (order : List Nat)
  /-- the manager thread goes on with the message it took -/
  | go
  /-- anything else, as in `qStep` -/
  | other (s : QStep)
deriving DecidableEq, Repr

/-- `schedule` up to its call of `dispatch`, src/queue.rs:165-175, for a queue that is not full. -/
def Inner.push (im : Inner) (ip : String) (job : Nat) : Inner :=
  match im.queues.get ip with
  | some queue => { im with queues := im.queues.insert ip (queue ++ [job]) }
  | none => { im with queues := im.queues.insert ip [job], ips := im.ips ++ [ip] }

namespace FQueue

/-- `Manager::new`, src/queue.rs:213-228. -/
def new (workers queueLength : Nat) : FQueue := { q := Queue.new workers queueLength, doing := none }

/-- A message is received, src/queue.rs:182-192; `schedule` refuses at once if there are as many queues as allowed, src/queue.rs:162-164. -/
def receive (order : List Nat) (f : FQueue) : FQueue × List QEvent :=
  if f.doing = none ∧ f.q.status = .running then
    match f.q.mailbox with
    | [] => (f, [])
    | .stop :: rest => ({ q := { f.q with mailbox := rest }, doing := some (.stopping order) }, [])
    | .dispatch name :: rest => ({ q := { f.q with mailbox := rest }, doing := some (.dispatching [name] none) }, [])
    | .schedule ip job :: rest =>
      if f.q.inner.queues.length = f.q.inner.queueLength then ({ f with q := { f.q with mailbox := rest } }, [.refused ip job])
      else
        ({ q := { f.q with mailbox := rest, inner := f.q.inner.push ip job },
           doing := some (.dispatching (List.range f.q.inner.runners.length) (some (ip, job))) }, [])
  else (f, [])

/-- The next worker in a loop, or the end of the loop. The lookup that panics in the loop of `dispatch` (src/queue.rs:137-139) never fails:
the loop goes over the workers there are. -/
def go (p : Profile) (f : FQueue) : FQueue × List QEvent :=
  match f.doing with
  | none => (f, [])
  /- src/queue.rs:117-133 -/
  | some (.dispatching (name :: names) reply) =>
    match f.q.inner.dispatchTo p name with
    | .ret (im, ev) => ({ q := { f.q with inner := im }, doing := some (.dispatching names reply) }, ev)
    | .panic _ => ({ q := f.q.managerPanics, doing := none }, [])
  | some (.dispatching [] none) => ({ f with doing := none }, [])
  | some (.dispatching [] (some (ip, job))) => ({ f with doing := none }, [.accepted ip job])
  /- src/queue.rs:105-107 -/
  | some (.stopping (w :: ws)) =>
    match f.q.inner.runners[w]? with
    | none => ({ f with doing := some (.stopping ws) }, [])
    | some r =>
      if r.status = .alive then
        ({ q := f.q.setWorker w { r with inbox := r.inbox ++ [.stop] }, doing := some (.stopping ws) }, [])
      else ({ q := { f.q with status := .panicked }, doing := none }, [])
  /- the second loop of `drop` starts, src/queue.rs:108 -/
  | some (.stopping []) => ({ q := { f.q with status := .stopping }, doing := none }, [])

end FQueue

/-- Execute one step. -/
def fStep (p : Profile) (f : FQueue) : FStep → FQueue × List QEvent
  | .receive order => f.receive order
  | .go => f.go p
  | .other .manage => (f, [])
  | .other s => ({ f with q := (qStep p f.q s).1 }, (qStep p f.q s).2)

/-- Execute a schedule of steps. -/
def fRun (p : Profile) : FQueue → List FStep → FQueue × List QEvent
  | f, [] => (f, [])
  | f, s :: r =>
    let (f', ev) := fStep p f s
    let (f'', ev') := fRun p f' r
    (f'', ev ++ ev')

end MCap
