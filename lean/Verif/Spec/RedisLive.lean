import Verif.Spec.RedisService

/-!
# What C117 means
-/

namespace MCap.Spec

/-- What goes on by itself when no new call comes, none is cancelled, nothing fails and no time passes: calls send their requests and go on
with the answers, the manager thread and the workers work, the actors take messages, the server carries out commands (with any reply), and
replies arrive. -/
def goesOnZ : ZStep → Bool
  | .sys (.resume _) => true
  | .sys (.poll _ _) => true
  | .sys (.queue .manage) => true
  | .sys (.queue (.take _)) => true
  | .sys (.queue (.finish _)) => true
  | .sys (.work _) => true
  | .ask _ => true
  | .hear _ _ => true
  | .net (.take _) => true
  | .net (.serve _ _) => true
  | .net (.deliver _ _) => true
  | _ => false

/-- Nothing goes on by itself any more. -/
def QuiescentZ (lib : PowLib) (p : Profile) (v : RService) : Prop := ∀ st, goesOnZ st = true → (zStep lib p v st).1 = v

/-- The service is left alone: no new call, and nobody else sends requests to the actors, drops a receiver, or lets time pass. Calls may be
cancelled, connections fail, jobs panic, and the service may be shut down. -/
def alone : ZStep → Bool
  | .sys (.call _) => false
  | .net (.send _ _) => false
  | .net (.drop _) => false
  | .net (.tick _) => false
  | _ => true

open Classical in
/-- Number of steps of a schedule that changed anything. -/
noncomputable def changesZ (lib : PowLib) (p : Profile) : RService → List ZStep → Nat
  | _, [] => 0
  | v, st :: r => (if (zStep lib p v st).1 = v then 0 else 1) + changesZ lib p (zStep lib p v st).1 r

/-- The addresses `verify_pow` was called with. -/
def addressesZ (log : List ZEvent) : List String :=
  (log.filterMap fun | .sys (.api (.call _ (.verify _ ip))) => some ip | _ => none).eraseDups

/-- Some job has panicked. -/
def SomeCrashZ (log : List ZEvent) : Prop := ∃ w j, .sys (.api (.queue (.crashedOn w j))) ∈ log

end MCap.Spec
