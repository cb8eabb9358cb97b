import Verif.Model.Service
import Verif.Spec.System
import Verif.Spec.Master

/-!
# Specification vocabulary for a service with its embedded master: what can be read off a log of events
-/

namespace MCap.Spec

/-- What users of the API, the cache and the queue see. -/
def apiLog (log : List VEvent) : List SEvent := log.filterMap fun | .api e => some e | _ => none

/-- The messages the master handled, in order. -/
def masterMsgs (log : List VEvent) : List MasterMsg :=
  log.filterMap fun | .master m => some m | .asked _ id _ => some (.addVisitor id) | _ => none

/-- The captchas registered, in order: the `a`-th one has counter `a`. -/
def registrations (log : List VEvent) : List (SiteId × MCaptcha) :=
  (masterMsgs log).filterMap fun | .addSite id m => some (id, m) | _ => none

/-- The times at which counter `a` counted a visit. -/
def countedAt (a : Addr) (log : List VEvent) : List Nat :=
  log.filterMap fun | .counter _ b t .addVisitor (.visitor _) => if b = a then some t else none | _ => none

/-- The number of messages counters got on behalf of call `i`. -/
def countedFor (i : Nat) (log : List VEvent) : Nat :=
  log.countP fun | .counter (some j) _ _ _ _ => j == i | _ => false

/-- No state was restored into counter `a`. -/
def NeverRestored (a : Addr) (log : List VEvent) : Prop := ∀ who t m r, .counter who a t (.setInternalData m) r ∉ log

/-- Counter `a` was given captcha `m`, when it was registered or by a restore. -/
def Configured (log : List VEvent) (a : Addr) (m : MCaptcha) : Prop :=
  (∃ id, (registrations log)[a]? = some (id, m)) ∨ ∃ who t, .counter who a t (.setInternalData m) .done ∈ log

/-- Steps that go on by themselves: of the calls in flight, the cache, the threads, the master and its tasks. -/
def vGoesOn : VStep → Bool
  | .sys s => goesOn s
  | .ask _ => true
  | .hear _ _ => true
  | .world (.run _) => true
  | _ => false

/-- Nothing is left to be done for the calls of the API: nothing goes on by itself in the system, the master has handled every request of
a call, no request is on its way to a counter, and no call has an answer it has not heard. -/
def Settled (lib : PowLib) (p : Profile) (v : Service) : Prop :=
  Quiescent lib p v.sys ∧ (∀ i, (vStep lib p v (.ask i)).1 = v) ∧ (∀ i g, (vStep lib p v (.hear i g)).1 = v) ∧
  ∀ tag a, .forward tag a ∉ v.world.tasks

/-- The requests of calls of the API that are on their way to a counter. -/
def onTheWay (v : Service) : List Task := v.world.tasks.filter fun | .forward tag _ => tag % 2 == 0 | _ => false

open Classical in
/-- Number of steps of a schedule, passing time aside, that did anything to the system, asked the master for a call, or brought a request
of a call to a counter. -/
noncomputable def vChanges (lib : PowLib) (p : Profile) : Service → List VStep → Nat
  | _, [] => 0
  | v, st :: r =>
    (if ((vStep lib p v st).1.sys = v.sys ∧ (vStep lib p v st).1.asked = v.asked ∧ onTheWay (vStep lib p v st).1 = onTheWay v) ∨
        ∃ d, st = .tick d then 0 else 1) + vChanges lib p (vStep lib p v st).1 r

end MCap.Spec
