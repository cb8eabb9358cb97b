import Verif.Model.Defense

/-!
# Model of src/mcaptcha.rs and of the data types of src/master/mod.rs
-/

namespace MCap

/-- `MCaptcha`, src/mcaptcha.rs:74-79; `visitors` is the field `visitor_threshold`. -/
structure MCaptcha where
  visitors : Nat
  defense : Defense
  duration : Nat
deriving DecidableEq, Repr

/-- `MCaptchaBuilder`, src/mcaptcha.rs:24-30. -/
structure MCaptchaBuilder where
  visitors : Nat
  defense : Option Defense
  duration : Option Nat
deriving DecidableEq, Repr

namespace MCaptchaBuilder

/-- `MCaptchaBuilder::default`, src/mcaptcha.rs:32-40. -/
def default : MCaptchaBuilder := { visitors := 0, defense := none, duration := none }

/-- `MCaptchaBuilder::defense`, src/mcaptcha.rs:43-47. -/
def setDefense (b : MCaptchaBuilder) (d : Defense) : MCaptchaBuilder := { b with defense := some d }

/-- `MCaptchaBuilder::duration`, src/mcaptcha.rs:49-53. -/
def setDuration (b : MCaptchaBuilder) (d : Nat) : MCaptchaBuilder := { b with duration := some d }

/-- `MCaptchaBuilder::build`, src/mcaptcha.rs:55-71. `self.duration <= Some(0)` (line 61) is the derived order of
`Option<u64>`; the `None` case was excluded before, so it means `duration = 0`. -/
def build (b : MCaptchaBuilder) : CaptchaResult MCaptcha :=
  match b.duration with
  | none => .error (.pleaseSetValue "duration")
  | some dur =>
    match b.defense with
    | none => .error (.pleaseSetValue "defense")
    | some d =>
      if dur ≤ 0 then .error .captchaDurationZero
      else .ok { duration := dur, defense := d, visitors := b.visitors }

end MCaptchaBuilder

/-- `CreateMCaptcha`, src/master/mod.rs:42-48. -/
structure CreateMCaptcha where
  levels : List Level
  duration : Nat
deriving DecidableEq, Repr

/-- `AddVisitorResult`, src/master/mod.rs:50-57. -/
structure AddVisitorResult where
  duration : Nat
  difficultyFactor : Nat
deriving DecidableEq, Repr

namespace MCaptcha

/-- `impl From<MCaptcha> for CreateMCaptcha`, src/mcaptcha.rs:81-88. -/
def toCreate (m : MCaptcha) : CreateMCaptcha :=
  { levels := m.defense.toLevels, duration := m.duration }

/-- `MCaptcha::add_visitor`, src/mcaptcha.rs:91-101. -/
def addVisitor (p : Profile) (m : MCaptcha) : Exec MCaptcha :=
  (u32Succ p m.visitors).bind fun v =>
  m.defense.currentLevel.bind fun lvl =>
    if v > lvl.visitorThreshold then
      (m.defense.tightenUp p).bind fun d => .ret { m with visitors := v, defense := d }
    else
      .ret { m with visitors := v, defense := m.defense.loosenUp }

/-- `MCaptcha::decrement_visitor_by`, src/mcaptcha.rs:103-113. -/
def decrementVisitorBy (m : MCaptcha) (count : Nat) : MCaptcha :=
  if m.visitors > 0 then
    if m.visitors ≥ count then { m with visitors := m.visitors - count }
    else { m with visitors := 0 }
  else m

/-- `MCaptcha::get_difficulty`, src/mcaptcha.rs:115-119. -/
def getDifficulty (m : MCaptcha) : Exec Nat := m.defense.getDifficulty

/-- `MCaptcha::get_duration`, src/mcaptcha.rs:121-125. -/
def getDuration (m : MCaptcha) : Nat := m.duration

/-- `MCaptcha::get_visitors`, src/mcaptcha.rs:127-131. -/
def getVisitors (m : MCaptcha) : Nat := m.visitors

/-- `MCaptcha::get_defense`, src/mcaptcha.rs:133-137. -/
def getDefense (m : MCaptcha) : Defense := m.defense

end MCaptcha

/-- `AddVisitorResult::new`, src/master/mod.rs:59-67. -/
def AddVisitorResult.new (m : MCaptcha) : Exec AddVisitorResult :=
  m.getDifficulty.map fun d => { duration := m.getDuration, difficultyFactor := d }

end MCap
