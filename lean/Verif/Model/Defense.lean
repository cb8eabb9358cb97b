import Verif.Model.Core

/-!
# Model of src/defense.rs
-/

namespace MCap

/-- `Level`, src/defense.rs:48-53. -/
structure Level where
  visitorThreshold : Nat
  difficultyFactor : Nat
deriving DecidableEq, Repr

/-- `LevelBuilder`, src/defense.rs:55-60. -/
structure LevelBuilder where
  visitorThreshold : Option Nat
  difficultyFactor : Option Nat
deriving DecidableEq, Repr

namespace LevelBuilder

/-- `LevelBuilder::default`, src/defense.rs:62-69. -/
def default : LevelBuilder := { visitorThreshold := none, difficultyFactor := none }

/-- `LevelBuilder::visitor_threshold`, src/defense.rs:72-76. -/
def setVisitorThreshold (b : LevelBuilder) (t : Nat) : LevelBuilder :=
  { b with visitorThreshold := some t }

/-- `LevelBuilder::difficulty_factor`, src/defense.rs:85-92. The builder after the call is returned
together with the `Result`. -/
def setDifficultyFactor (b : LevelBuilder) (d : Nat) : CaptchaResult Unit × LevelBuilder :=
  if d > 0 then (.ok (), { b with difficultyFactor := some d })
  else (.error .difficultyFactorZero, b)

/-- `LevelBuilder::build`, src/defense.rs:94-106. -/
def build (b : LevelBuilder) : CaptchaResult Level :=
  match b.visitorThreshold with
  | none => .error .setVisitorThreshold
  | some t =>
    match b.difficultyFactor with
    | none => .error .setDifficultyFactor
    | some d => .ok { difficultyFactor := d, visitorThreshold := t }

end LevelBuilder

/-- `DefenseBuilder`, src/defense.rs:109-113. -/
structure DefenseBuilder where
  levels : List Level
deriving DecidableEq, Repr

/-- `Defense`, src/defense.rs:163-169; `cur` is `current_visitor_threshold`. -/
structure Defense where
  levels : List Level
  cur : Nat
deriving DecidableEq, Repr

namespace DefenseBuilder

/-- `DefenseBuilder::default`, src/defense.rs:115-119. -/
def default : DefenseBuilder := { levels := [] }

/-- `DefenseBuilder::add_level`, src/defense.rs:122-131: the loop at 124-128 returns early on an equal
threshold, otherwise the level is pushed. -/
def addLevel (b : DefenseBuilder) (l : Level) : CaptchaResult Unit × DefenseBuilder :=
  if b.levels.any (fun i => i.visitorThreshold == l.visitorThreshold) then
    (.error .duplicateVisitorCount, b)
  else
    (.ok (), { levels := b.levels ++ [l] })

/-- The loop at src/defense.rs:147-151: some level is followed by one of smaller difficulty. -/
def hasDecrease : List Level → Bool
  | [] => false
  | [_] => false
  | a :: b :: r => a.difficultyFactor > b.difficultyFactor || hasDecrease (b :: r)

/-- `DefenseBuilder::build`, src/defense.rs:133-160. `sort_by_key` (line 137) is a stable sort and is
modelled by the stable `List.mergeSort`; it is applied in place, so the returned builder holds the sorted levels,
also when an error is returned. -/
def build (b : DefenseBuilder) : CaptchaResult Defense × DefenseBuilder :=
  if b.levels.isEmpty then (.error .levelEmpty, b)
  else
    let sorted := b.levels.mergeSort (fun x y => decide (x.visitorThreshold ≤ y.visitorThreshold))
    let b' : DefenseBuilder := { levels := sorted }
    if sorted.any (fun l => l.difficultyFactor == 0) then (.error .difficultyFactorZero, b')
    else if hasDecrease sorted then (.error .decreaseingDifficultyFactor, b')
    else (.ok { levels := sorted, cur := 0 }, b')

end DefenseBuilder

namespace Defense

/-- `Defense::get_difficulty`, src/defense.rs:184-187. -/
def getDifficulty (d : Defense) : Exec Nat :=
  (vecIndex d.levels d.cur).map (·.difficultyFactor)

/-- `Defense::tighten_up`, src/defense.rs:189-195. -/
def tightenUp (p : Profile) (d : Defense) : Exec Defense :=
  (usizeSub p d.levels.length 1).bind fun top =>
    if d.cur < top then .ret { d with cur := d.cur + 1 } else .ret d

/-- `Defense::loosen_up`, src/defense.rs:196-202. -/
def loosenUp (d : Defense) : Defense :=
  if d.cur > 0 then { d with cur := d.cur - 1 } else d

/-- `Defense::max_defense`, src/defense.rs:204-207. -/
def maxDefense (p : Profile) (d : Defense) : Exec Defense :=
  (usizeSub p d.levels.length 1).map fun top => { d with cur := top }

/-- `Defense::min_defense`, src/defense.rs:209-212. -/
def minDefense (d : Defense) : Defense := { d with cur := 0 }

/-- `Defense::current_level`, src/defense.rs:214-217. -/
def currentLevel (d : Defense) : Exec Level := vecIndex d.levels d.cur

/-- `Defense::visitor_threshold`, src/defense.rs:219-222 (the code returns `difficulty_factor`). -/
def visitorThreshold (d : Defense) : Exec Nat :=
  (vecIndex d.levels d.cur).map (·.difficultyFactor)

/-- `impl From<Defense> for Vec<Level>`, src/defense.rs:171-175. -/
def toLevels (d : Defense) : List Level := d.levels

end Defense

end MCap
