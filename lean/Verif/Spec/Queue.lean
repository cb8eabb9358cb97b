import Verif.Model.Queue

/-!
# Specification vocabulary for the queue: what can be read off a trace of events
-/

namespace MCap.Spec

/-- Jobs of client `ip` accepted, in order. -/
def acceptedOf (ip : String) (tr : List QEvent) : List Nat :=
  tr.filterMap fun | .accepted i j => if i = ip then some j else none | _ => none

/-- Jobs of client `ip` handed to workers, in order. -/
def handedOf (ip : String) (tr : List QEvent) : List Nat :=
  tr.filterMap fun | .handed _ i j => if i = ip then some j else none | _ => none

/-- Jobs handed to worker `w`, in order. -/
def handedTo (w : Nat) (tr : List QEvent) : List Nat :=
  tr.filterMap fun | .handed w' _ j => if w' = w then some j else none | _ => none

/-- Jobs worker `w` completed, in order. -/
def ranBy (w : Nat) (tr : List QEvent) : List Nat :=
  tr.filterMap fun | .ran w' j => if w' = w then some j else none | _ => none

/-- All jobs accepted. -/
def acceptedJobs (tr : List QEvent) : List Nat :=
  tr.filterMap fun | .accepted _ j => some j | _ => none

/-- Addresses of accepted submissions, in order, with repetitions. -/
def acceptedIps (tr : List QEvent) : List String :=
  tr.filterMap fun | .accepted i _ => some i | _ => none

/-- Number of distinct clients accepted so far. -/
def distinctClients (tr : List QEvent) : Nat := (acceptedIps tr).eraseDups.length

/-- Clients whose queue had its turn, in order. -/
def turns (tr : List QEvent) : List String :=
  tr.filterMap fun | .served i => some i | _ => none

/-- All jobs handed to workers. -/
def handedJobs (tr : List QEvent) : List Nat :=
  tr.filterMap fun | .handed _ _ j => some j | _ => none

/-- Jobs worker `w` started, in order. -/
def startedBy (w : Nat) (tr : List QEvent) : List Nat :=
  tr.filterMap fun | .started w' j => if w' = w then some j else none | _ => none

/-- All jobs waiting in some client's queue. -/
def waitingJobs (q : Queue) : List Nat := q.inner.queues.flatMap (·.2)

/-- Jobs waiting in the queue of client `ip`. -/
def waitingOf (q : Queue) (ip : String) : List Nat := (q.inner.queues.get ip).getD []

/-- Jobs among messages. -/
def jobsIn (l : List WorkerMsg) : List Nat := l.filterMap fun | .prove j => some j | .stop => none

/-- Jobs on worker `w`: the running one and those in its inbox. -/
def onWorker (q : Queue) (w : Nat) : List Nat :=
  match q.inner.runners[w]? with
  | some r => r.running.toList ++ jobsIn r.inbox
  | none => []

/-- No job panics in the schedule. -/
def noCrash (steps : List QStep) : Prop := ∀ w, QStep.crash w ∉ steps

/-- The manager thread has not panicked. -/
def Healthy (q : Queue) : Prop := q.status ≠ .panicked ∧ q.status ≠ .aborted

/-- Worker `w` did not die of a panicking job. -/
def notCrashed (q : Queue) (w : Nat) : Prop := ∀ r, q.inner.runners[w]? = some r → r.status ≠ .crashed

/-- The event is the acceptance of a submission or the handing over of a job. -/
def isHandover : QEvent → Bool
  | .accepted .. => true
  | .handed .. => true
  | _ => false

/-- Number of jobs completed, on whatever worker. -/
def completions (tr : List QEvent) : Nat := (tr.filter fun | .ran .. => true | _ => false).length

/-- Number of answers to submissions of `job` by `ip`. -/
def answersTo (ip : String) (job : Nat) (tr : List QEvent) : Nat := tr.count (.accepted ip job) + tr.count (.refused ip job)

/-- The step is one of the manager or of a worker: no submission, crash or closing. -/
def internal (s : QStep) : Bool :=
  match s with
  | .submit .. => false
  | .crash _ => false
  | .close => false
  | _ => true

/-- Manager and workers have nothing left to do. -/
def QueueAtRest (p : Profile) (q : Queue) : Prop := ∀ s, internal s = true → (qStep p q s).1 = q

/-- Number of steps of a schedule that changed anything. -/
def queueChanges (p : Profile) : Queue → List QStep → Nat
  | _, [] => 0
  | q, s :: r => (if (qStep p q s).1 = q then 0 else 1) + queueChanges p (qStep p q s).1 r

/-- Dropping the `Manager` (src/queue.rs:204-210) returned. -/
def DropReturned (q : Queue) : Prop := q.closed = true ∧ q.status = .stopped

/-- Dropping the `Manager` panicked: the thread it joins has panicked. -/
def DropPanicked (q : Queue) : Prop := q.closed = true ∧ q.status = .panicked

/-- The thread of worker `w` has not ended. -/
def ThreadLives (q : Queue) (w : Nat) : Prop := ∃ r, q.inner.runners[w]? = some r ∧ r.status = .alive

/-- Requests for another turn that the manager has not handled yet. -/
def requests (q : Queue) : Nat := (q.mailbox.filter fun | .dispatch _ => true | _ => false).length

end MCap.Spec
