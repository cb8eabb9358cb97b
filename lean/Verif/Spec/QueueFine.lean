import Verif.Model.QueueFine
import Verif.Spec.QueueDrop

/-!
# Comparing runs of the queue
-/

namespace MCap.Spec

/-- The event is a turn of a client's queue, or the handing over of a job. -/
def isTurn : QEvent → Bool
  | .served .. => true
  | .handed .. => true
  | _ => false

/-- The event is an answer to a submission. -/
def isAnswer : QEvent → Bool
  | .accepted .. => true
  | .refused .. => true
  | _ => false

/-- The event happens on worker `w`. -/
def isOn (w : Nat) : QEvent → Bool
  | .started v _ => v = w
  | .ran v _ => v = w
  | .crashedOn v _ => v = w
  | _ => false

/-- The two logs agree on what the manager thread hands out, on what the clients are answered, and on what each of the workers does, each
in order. -/
def SameParts (a b : List QEvent) : Prop :=
  a.filter isTurn = b.filter isTurn ∧ a.filter isAnswer = b.filter isAnswer ∧ ∀ w, a.filter (isOn w) = b.filter (isOn w)

/-- The manager thread is between two messages. -/
def BetweenMessages (f : FQueue) : Prop := f.doing = none

/-- In the schedule, whenever the map is gone through, it yields each of the `n` workers once. -/
def OrdersOf (n : Nat) (steps : List FStep) : Prop := ∀ order, .receive order ∈ steps → order.Perm (List.range n)

/-- No job panics in the schedule. -/
def noCrashFine (steps : List FStep) : Prop := ∀ w, FStep.other (.crash w) ∉ steps

end MCap.Spec
