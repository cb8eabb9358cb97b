import Verif.Model.Queue

/-!
# `Drop for InnerManager`, in any order of the workers

`Queue.manage` lets the worker that is gone come first. Here the order in which the map yields the workers is given.
-/

namespace MCap

/-- The first loop of `drop`, src/queue.rs:105-107: every worker is sent `Stop`, until a send fails. Returns the workers and whether all sends
succeeded. -/
def sendStops : List Nat → List Worker → List Worker × Bool
  | [], rs => (rs, true)
  | w :: ws, rs =>
    match rs[w]? with
    | none => sendStops ws rs
    | some r => if r.status = .alive then sendStops ws (rs.set w { r with inbox := r.inbox ++ [.stop] }) else (rs, false)

/-- The manager thread receives `Stop` and drops the inner manager, src/queue.rs:103-107, 184-187, where the map yields the workers in the
given order. The second loop is as in `qStep`. -/
def Queue.stopIn (order : List Nat) (q : Queue) : Queue :=
  { q with mailbox := q.mailbox.tail
           status := if (sendStops order q.inner.runners).2 then .stopping else .panicked
           inner := { q.inner with runners := (sendStops order q.inner.runners).1 } }

end MCap
