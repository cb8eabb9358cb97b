/-!
# Shared vocabulary of the model

Errors, panics, machine integers and finite maps.
-/

namespace MCap

/-- `CaptchaError`, src/errors.rs:29-115.
Simplification: the payload of `RedisError` is kept as a string, `RecvError` carries no payload. -/
inductive CaptchaError where
  | levelEmpty
  | difficultyFactorZero
  | captchaDurationZero
  | setDifficultyFactor
  | setVisitorThreshold
  | duplicateVisitorCount
  | decreaseingDifficultyFactor
  | mailboxError
  | insuffiencientDifficulty
  | stringNotFound
  | mCaptchaKeyValidationFail
  | invalidPoW
  | pleaseSetValue (what : String)
  | redisError (what : String)
  | recvError
  | mCaptchaRedisModuleError
  | mCaptchaRedisModuleIsNotLoaded
  | mCaptchaRediSModuleCommandNotFound (cmd : String)
  | queueFull
deriving DecidableEq, Repr

/-- `CaptchaResult<V>`, src/errors.rs:142-143. -/
abbrev CaptchaResult (α : Type) := Except CaptchaError α

instance {ε α : Type} [DecidableEq ε] [DecidableEq α] : DecidableEq (Except ε α)
  | .ok a, .ok b => if h : a = b then isTrue (by rw [h]) else isFalse (by intro e; injection e; contradiction)
  | .error a, .error b => if h : a = b then isTrue (by rw [h]) else isFalse (by intro e; injection e; contradiction)
  | .ok _, .error _ => isFalse (by intro e; cases e)
  | .error _, .ok _ => isFalse (by intro e; cases e)

/-- Reasons for which the modelled code can panic. -/
inductive Panic where
  | indexOutOfRange
  | arithmeticOverflow
  | unwrapNone
  | unwrapErr
  | explicit
  | divisionByZero
  | alreadyBorrowed
deriving DecidableEq, Repr

/-- Outcome of running Rust code that may panic. -/
inductive Exec (α : Type) where
  | ret (a : α)
  | panic (why : Panic)
deriving DecidableEq, Repr

namespace Exec

/-- Sequencing: a panic aborts the rest. -/
@[simp] def bind {α β : Type} : Exec α → (α → Exec β) → Exec β
  | .ret a, f => f a
  | .panic w, _ => .panic w

/-- Apply a function to a normal result. -/
@[simp] def map {α β : Type} (f : α → β) : Exec α → Exec β
  | .ret a => .ret (f a)
  | .panic w => .panic w

end Exec

/-- Rust build profile: `overflow-checks` on (debug) or off (release). -/
structure Profile where
  overflowChecks : Bool
deriving DecidableEq, Repr

/-- Number of `u32` values. -/
def u32Size : Nat := 2 ^ 32

/-- Number of `usize` values on a 64-bit target. -/
def usizeSize : Nat := 2 ^ 64

/-- `x + 1` on `u32`: panics with overflow checks, wraps without. -/
def u32Succ (p : Profile) (x : Nat) : Exec Nat :=
  if x + 1 < u32Size then .ret (x + 1)
  else if p.overflowChecks then .panic .arithmeticOverflow
  else .ret 0

/-- `a - b` on `usize`: panics with overflow checks, wraps without. -/
def usizeSub (p : Profile) (a b : Nat) : Exec Nat :=
  if b ≤ a then .ret (a - b)
  else if p.overflowChecks then .panic .arithmeticOverflow
  else .ret (a + usizeSize - b)

/-- `v[i]` on a `Vec`: panics when out of range. -/
def vecIndex {α : Type} (v : List α) (i : Nat) : Exec α :=
  match v[i]? with
  | some a => .ret a
  | none => .panic .indexOutOfRange

/-! ## Finite maps

`std::collections::HashMap` and `BTreeMap`, as association lists. -/

/-- Association list map. -/
abbrev AMap (κ ν : Type) := List (κ × ν)

namespace AMap

variable {κ ν : Type} [DecidableEq κ]

/-- `get`: value of the first pair with that key. -/
def get (m : AMap κ ν) (k : κ) : Option ν :=
  match m with
  | [] => none
  | (k', v) :: r => if k' = k then some v else get r k

/-- `remove`: drop the key. -/
def erase (m : AMap κ ν) (k : κ) : AMap κ ν :=
  m.filter (fun e => e.1 ≠ k)

/-- `insert`: replace in place, else add at the end. -/
def insert (m : AMap κ ν) (k : κ) (v : ν) : AMap κ ν :=
  match m with
  | [] => [(k, v)]
  | (k', v') :: r => if k' = k then (k, v) :: r else (k', v') :: insert r k v

/-- keys, in iteration order. -/
def keys (m : AMap κ ν) : List κ := m.map (·.1)

end AMap

end MCap
