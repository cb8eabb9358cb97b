import Verif.Model.Defense

/-!
# Specification vocabulary for src/defense.rs

Drivers (sequences of API calls) and what is expected of them, stated without the model's helpers.
-/

namespace MCap.Spec

/-- A call on a `LevelBuilder`. -/
inductive LevelCall where
  | threshold (t : Nat)
  | factor (d : Nat)
deriving DecidableEq, Repr

/-- Make one call (the `Result` of `difficulty_factor` is dropped by the caller). -/
def LevelCall.apply (b : LevelBuilder) : LevelCall → LevelBuilder
  | .threshold t => b.setVisitorThreshold t
  | .factor d => (b.setDifficultyFactor d).2

/-- A fresh builder after a sequence of calls. -/
def levelBuilderAfter (calls : List LevelCall) : LevelBuilder :=
  calls.foldl LevelCall.apply LevelBuilder.default

/-- Thresholds passed, in order. -/
def thresholdsSet (calls : List LevelCall) : List Nat :=
  calls.filterMap fun | .threshold t => some t | .factor _ => none

/-- Non-zero factors passed, in order. -/
def factorsSet (calls : List LevelCall) : List Nat :=
  calls.filterMap fun | .threshold _ => none | .factor d => if d = 0 then none else some d

/-- Submit levels one after the other to a fresh `DefenseBuilder`; results and final builder. -/
def submit (ls : List Level) : List (CaptchaResult Unit) × DefenseBuilder :=
  ls.foldl (fun (acc : List (CaptchaResult Unit) × DefenseBuilder) l =>
    let r := acc.2.addLevel l
    (acc.1 ++ [r.1], r.2)) ([], DefenseBuilder.default)

/-- The levels that should be accepted: those whose threshold does not occur earlier in the submission. -/
def firsts (ls : List Level) : List Level :=
  (List.range ls.length).filterMap fun i =>
    match ls[i]? with
    | some l => if (ls.take i).all (fun e => e.visitorThreshold ≠ l.visitorThreshold) then some l else none
    | none => none

/-- Outcome of submitting levels and building. -/
def buildFrom (ls : List Level) : CaptchaResult Defense := (submit ls).2.build.1

/-- A call on a `DefenseBuilder`. -/
inductive DefenseCall where
  | add (l : Level)
  | build
deriving DecidableEq, Repr

/-- Make one call; what it returns is dropped. -/
def DefenseCall.apply (b : DefenseBuilder) : DefenseCall → DefenseBuilder
  | .add l => (b.addLevel l).2
  | .build => b.build.2

/-- A fresh builder after a sequence of calls. -/
def defenseBuilderAfter (calls : List DefenseCall) : DefenseBuilder := calls.foldl DefenseCall.apply DefenseBuilder.default

/-- The levels submitted, in order. -/
def levelsAdded (calls : List DefenseCall) : List Level := calls.filterMap fun | .add l => some l | .build => none

/-- `d` can be obtained from the public builder. -/
def Built (d : Defense) : Prop := ∃ ls, buildFrom ls = .ok d

/-- A coherent configuration: higher threshold, no lower difficulty. -/
def Coherent (ls : List Level) : Prop :=
  ∀ a ∈ ls, ∀ b ∈ ls, a.visitorThreshold < b.visitorThreshold → a.difficultyFactor ≤ b.difficultyFactor

/-- Invariant of usable defenses: levels in strictly ascending threshold order, non-decreasing positive
difficulties, position in range. -/
structure Valid (d : Defense) : Prop where
  inRange : d.cur < d.levels.length
  ascending : d.levels.Pairwise fun a b => a.visitorThreshold < b.visitorThreshold
  coherent : d.levels.Pairwise fun a b => a.difficultyFactor ≤ b.difficultyFactor
  positive : ∀ l ∈ d.levels, 0 < l.difficultyFactor

/-- Moves on a `Defense`. -/
inductive Move where
  | tighten | loosen | max | min
deriving DecidableEq, Repr

/-- Perform one move. -/
def Move.apply (p : Profile) (d : Defense) : Move → Exec Defense
  | .tighten => d.tightenUp p
  | .loosen => .ret d.loosenUp
  | .max => d.maxDefense p
  | .min => .ret d.minDefense

/-- Perform a sequence of moves, stopping at the first panic. -/
def walk (p : Profile) : Defense → List Move → Exec Defense
  | d, [] => .ret d
  | d, mv :: r => (Move.apply p d mv).bind fun d' => walk p d' r

/-- Reference: an integer walk clamped to `[0, top]`. -/
def clampWalk (top : Int) : Int → List Move → Int
  | i, [] => i
  | i, .tighten :: r => clampWalk top (min (i + 1) top) r
  | i, .loosen :: r => clampWalk top (Max.max (i - 1) 0) r
  | _, .max :: r => clampWalk top top r
  | _, .min :: r => clampWalk top 0 r

end MCap.Spec
