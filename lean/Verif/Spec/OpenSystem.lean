import Verif.Model.OpenSystem
import Verif.Spec.System

/-!
# Specification vocabulary for a system with any cache and any master
-/

namespace MCap.Spec

/-- What users of the API see, what the cache and the master answered and what the queue did, failures of the cache excepted. -/
def apiPart (log : List OEvent) : List SEvent := log.filterMap fun | .api e => some e | _ => none

/-- Call `i` returned or panicked. -/
def ends (i : Nat) : OEvent → Bool
  | .api (.ret j _ _) => j == i
  | .api (.panicked j) => j == i
  | _ => false

end MCap.Spec
