import Verif.Spec.Defense
import Verif.Model.MCaptcha

/-!
# Specification vocabulary for src/mcaptcha.rs
-/

namespace MCap.Spec

/-- A call on an `MCaptchaBuilder`. -/
inductive MBuilderCall where
  | defense (d : Defense)
  | duration (n : Nat)
deriving DecidableEq, Repr

/-- Make one builder call. -/
def MBuilderCall.apply (b : MCaptchaBuilder) : MBuilderCall → MCaptchaBuilder
  | .defense d => b.setDefense d
  | .duration n => b.setDuration n

/-- A fresh builder after a sequence of calls. -/
def mBuilderAfter (calls : List MBuilderCall) : MCaptchaBuilder :=
  calls.foldl MBuilderCall.apply MCaptchaBuilder.default

/-- Defenses passed, in order. -/
def defensesSet (calls : List MBuilderCall) : List Defense :=
  calls.filterMap fun | .defense d => some d | .duration _ => none

/-- Durations passed, in order. -/
def durationsSet (calls : List MBuilderCall) : List Nat :=
  calls.filterMap fun | .defense _ => none | .duration n => some n

/-- `m` comes from the public builders: any builder calls that succeed, every defense passed being itself built. -/
def FreshM (m : MCaptcha) : Prop :=
  ∃ calls, (∀ d ∈ defensesSet calls, Built d) ∧ (mBuilderAfter calls).build = .ok m

/-- Like `FreshM`, but levels of the defenses passed may have been moved before. -/
def StartM (m : MCaptcha) : Prop :=
  ∃ calls, (∀ d ∈ defensesSet calls, ∃ p d₀ mvs, Built d₀ ∧ walk p d₀ mvs = .ret d) ∧ (mBuilderAfter calls).build = .ok m

/-- What happens to an `MCaptcha`: a visit, or the departure of `n` visitors. -/
inductive Traffic where
  | visit
  | leave (n : Nat)
deriving DecidableEq, Repr

/-- Run a traffic history. -/
def traffic (p : Profile) : MCaptcha → List Traffic → Exec MCaptcha
  | m, [] => .ret m
  | m, .visit :: r => (m.addVisitor p).bind fun m' => traffic p m' r
  | m, .leave n :: r => traffic p (m.decrementVisitorBy n) r

/-- Reference visitor count: `+1` per visit, truncated subtraction per departure. -/
def countAfter : Nat → List Traffic → Nat
  | c, [] => c
  | c, .visit :: r => countAfter (c + 1) r
  | c, .leave n :: r => countAfter (c - n) r

/-- The count stays representable in a `u32` throughout the history. -/
def Fits (c : Nat) (h : List Traffic) : Prop := ∀ k, countAfter c (h.take k) < 2 ^ 32

/-- Number of visits in a history. -/
def visitsIn : List Traffic → Nat
  | [] => 0
  | .visit :: r => visitsIn r + 1
  | .leave _ :: r => visitsIn r

/-- Number of levels whose threshold a count exceeds. -/
def exceeded (levels : List Level) (count : Nat) : Nat :=
  (levels.filter fun l => decide (l.visitorThreshold < count)).length

/-- Whenever a visitor comes in a history that begins with `c` visitors, the count they bring about exceeds at least `lo` and at most `hi` of
the thresholds. -/
def LoadBetween (levels : List Level) (c lo hi : Nat) (h : List Traffic) : Prop :=
  ∀ pre, pre ++ [.visit] <+: h →
    lo ≤ exceeded levels (countAfter c (pre ++ [.visit])) ∧ exceeded levels (countAfter c (pre ++ [.visit])) ≤ hi

/-- Usable mCaptchas: usable defense, count that fits a `u32`, positive duration. Everything the builders produce is,
and stays so under every history (`traffic_valid`). -/
structure MValid (m : MCaptcha) : Prop where
  defense : Valid m.defense
  count : m.visitors < u32Size
  duration : 0 < m.duration

end MCap.Spec
