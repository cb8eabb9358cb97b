import Verif.Spec.System
import Verif.Spec.Queue
import Verif.Model.OpenSystem

/-!
# What C120 means
-/

namespace MCap.Spec

/-- Every call made has returned, was cancelled, or panicked: nobody uses the `System`. -/
def Unused (log : List SEvent) : Prop := ∀ i a, .call i a ∈ log → (∃ r, .ret i a r ∈ log) ∨ .cancelled i ∈ log ∨ .panicked i ∈ log

/-- The same with an arbitrary back end. -/
def UnusedO (log : List OEvent) : Prop :=
  ∀ i a, .api (.call i a) ∈ log → (∃ r, .api (.ret i a r) ∈ log) ∨ .api (.cancelled i) ∈ log ∨ .api (.panicked i) ∈ log

/-- Steps of the manager thread and of the worker threads. -/
def windsUp : SStep → Bool
  | .queue .manage => true
  | .queue (.take _) => true
  | .queue (.finish _) => true
  | .queue .joined => true
  | .work _ => true
  | _ => false

/-- The threads of the `System` have nothing left to do. -/
def WoundUp (lib : PowLib) (p : Profile) (s : Sys) : Prop := ∀ st, windsUp st = true → (sysStep lib p s st).1 = s

end MCap.Spec
