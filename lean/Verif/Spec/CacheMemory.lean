import Verif.Spec.Cache

/-!
# Specification: what a cache may still hold
-/

namespace MCap.Spec

/-- When the challenges stored by a schedule expire, read off the schedule. -/
def challengeEnds : Nat → List CacheStep → List Nat
  | _, [] => []
  | now, .tick d :: r => challengeEnds (now + d) r
  | now, .req (.cachePow c) :: r => (now + c.duration) :: challengeEnds now r
  | now, _ :: r => challengeEnds now r

/-- When the tokens stored by a schedule expire. -/
def tokenEnds : Nat → List CacheStep → List Nat
  | _, [] => []
  | now, .tick d :: r => tokenEnds (now + d) r
  | now, .req (.cacheResult c) :: r => (now + c.duration) :: tokenEnds now r
  | now, _ :: r => tokenEnds now r

/-- How many of these ends are not yet `late` seconds ago. -/
def stillAround (late now : Nat) (ends : List Nat) : Nat := (ends.filter fun e => decide (now < e + late)).length

end MCap.Spec
