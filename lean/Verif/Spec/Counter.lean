import Verif.Spec.MCaptcha
import Verif.Model.Counter

/-!
# Specification vocabulary for the counter actor: schedules and what they should lead to
-/

namespace MCap.Spec

/-- One step of a counter's schedule: a client's request is handled, the clock advances, or a due timer (the
`i`-th pending one) is delivered. -/
inductive CStep where
  | req (msg : CounterMsg)
  | tick (d : Nat)
  | fire (i : Nat)
deriving DecidableEq, Repr

/-- What is observed at a step. -/
inductive CObs where
  | reply (r : CounterReply)
  | clock
  | expired (did : Bool)
deriving DecidableEq, Repr

/-- Execute one step at clock `now`. -/
def cstep (p : Profile) (now : Nat) (c : Counter) : CStep → Exec (Nat × Counter × CObs)
  | .req msg => (c.send p now msg).map fun (c', r) => (now, c', .reply r)
  | .tick d => .ret (now + d, c, .clock)
  | .fire i => .ret (now, (c.fire now i).1, .expired (c.fire now i).2)

/-- Execute a schedule, collecting observations. -/
def crun (p : Profile) : Nat → Counter → List CStep → Exec (Nat × Counter × List CObs)
  | now, c, [] => .ret (now, c, [])
  | now, c, s :: r =>
    (cstep p now c s).bind fun (now', c', o) =>
      (crun p now' c' r).map fun (n, c'', os) => (n, c'', o :: os)

/-- The schedule only has visits, queries, clock ticks and timer deliveries: no restore, no stop. -/
def plain (s : CStep) : Bool :=
  match s with
  | .req (.setInternalData _) => false
  | .req .stop => false
  | _ => true

/-- Clock after a schedule, read off the schedule. -/
def clockAfter : Nat → List CStep → Nat
  | now, [] => now
  | now, .tick d :: r => clockAfter (now + d) r
  | now, _ :: r => clockAfter now r

/-- Times of the visits of a schedule, read off the schedule. -/
def visitTimes : Nat → List CStep → List Nat
  | _, [] => []
  | now, .tick d :: r => visitTimes (now + d) r
  | now, .req .addVisitor :: r => now :: visitTimes now r
  | now, _ :: r => visitTimes now r

/-- Number of visits less than `dur` seconds old at time `now`. -/
def recent (dur now : Nat) (times : List Nat) : Nat :=
  (times.filter fun t => decide (now < t + dur)).length

/-- Number of timer deliveries observed. -/
def expiries (os : List CObs) : Nat := (os.filter fun o => o == CObs.expired true).length

/-- Number of visits that got an answer. -/
def visitsAnswered (os : List CObs) : Nat :=
  (os.filter fun | .reply (.visitor _) => true | _ => false).length

/-- Decrements still scheduled. -/
def scheduled (c : Counter) : Nat := (c.timers.map (·.dec)).sum

/-- No timer is overdue. -/
def OnTime (now : Nat) (c : Counter) : Prop := ∀ t ∈ c.timers, now < t.due

end MCap.Spec
