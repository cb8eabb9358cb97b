import Verif.Model.QueueDrop
import Verif.Spec.Queue

/-!
# Dropping the queue
-/

namespace MCap.Spec

/-- The manager thread is about to handle the `Stop` that dropping the `Manager` sends. -/
def AboutToStop (q : Queue) : Prop := q.status = .running ∧ ∃ rest, q.mailbox = .stop :: rest

/-- The map yields each of the workers once. -/
def IsOrder (order : List Nat) (q : Queue) : Prop := order.Perm (List.range q.inner.runners.length)

/-- The thread of worker `w` is between jobs, with none waiting. -/
def IdleWorker (q : Queue) (w : Nat) : Prop := ∃ r, q.inner.runners[w]? = some r ∧ r.status = .alive ∧ r.running = none ∧ r.inbox = []

end MCap.Spec
