import Verif.Model.OpenSystem
import Verif.Spec.OpenSystem
import Verif.Spec.System

/-!
# Specification: rest, with any cache and master
-/

namespace MCap.Spec

/-- What goes on without further calls: the cache and the master answer what they were asked, calls go on, and the threads of the queue work. -/
def goesOnO : OStep → Bool
  | .cache _ _ => true
  | .sys (.master _ _ _) => true
  | .sys (.resume _) => true
  | .sys (.poll _ _) => true
  | .sys (.queue .manage) => true
  | .sys (.queue (.take _)) => true
  | .sys (.queue (.finish _)) => true
  | .sys (.work _) => true
  | _ => false

/-- At rest: nothing of this changes anything, so no question to the cache or the master is left without answer. -/
def QuiescentO (lib : PowLib) (p : Profile) (s : Sys) : Prop := ∀ st, goesOnO st = true → (openStep lib p s st).1 = s

open Classical in
/-- Number of steps of a schedule that changed anything. -/
noncomputable def changesO (lib : PowLib) (p : Profile) : Sys → List OStep → Nat
  | _, [] => 0
  | s, st :: r => (if (openStep lib p s st).1 = s then 0 else 1) + changesO lib p (openStep lib p s st).1 r

/-- The addresses `verify_pow` was called with. -/
def addressesO (log : List OEvent) : List String :=
  (log.filterMap fun | .api (.call _ (.verify _ ip)) => some ip | _ => none).eraseDups

/-- Some job has panicked. -/
def SomeCrashO (log : List OEvent) : Prop := ∃ w j, .api (.queue (.crashedOn w j)) ∈ log

end MCap.Spec
