import Verif.Spec.System

/-!
# Specification vocabulary for the queue of the system being full
-/

namespace MCap.Spec

/-- The calls made in a schedule. -/
def callsIn (steps : List SStep) : List Api :=
  steps.filterMap fun | .call a => some a | _ => none

/-- Number of different addresses whose jobs the queue accepted. -/
def placesTaken (log : List SEvent) : Nat :=
  (log.filterMap fun | .queue (.accepted ip _) => some ip | _ => none).eraseDups.length

end MCap.Spec
