import Verif.Spec.RedisPayment

/-!
# What C131 means
-/

namespace MCap.Spec

/-- The connection of actor `a` never fails, and the actor never crashes. -/
def KeepsUp (steps : List ZStep) (log : List ZEvent) (a : Nat) : Prop :=
  (∀ e, .net (.fail a e) ∉ steps) ∧ ∀ j w, .net (.actor (.crashed a j w)) ∉ log

end MCap.Spec
