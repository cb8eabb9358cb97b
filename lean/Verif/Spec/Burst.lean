import Verif.Spec.Service

/-!
# Specification: what a burst of visits costs
-/

namespace MCap.Spec

/-- A visit counted by a counter: on behalf of which call of the API, when, and the difficulty quoted. -/
structure Quote where
  who : Option Nat
  at_ : Nat
  difficulty : Nat
deriving DecidableEq, Repr

/-- The visits counter `a` counted, in order. -/
def quotesOf (a : Addr) (log : List VEvent) : List Quote :=
  log.filterMap fun
    | .counter who b t .addVisitor (.visitor r) => if b = a then some ⟨who, t, r.difficultyFactor⟩ else none
    | _ => none

/-- What the `k`-th of several visits must be charged at least: the difficulty of the lowest level, and of every level with a threshold below `k`. -/
def priceAt (levels : List Level) (k : Nat) : Nat :=
  ((levels.take 1 ++ levels.filter fun l => l.visitorThreshold < k).map (·.difficultyFactor)).foldl max 0

/-- What `n` visits cost at least. -/
def burstCost (levels : List Level) : Nat → Nat
  | 0 => 0
  | n + 1 => burstCost levels n + priceAt levels (n + 1)

end MCap.Spec
