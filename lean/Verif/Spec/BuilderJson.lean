import Verif.Spec.Json
import Verif.Model.BuilderJson

/-!
# Specification of the JSON values for a captcha builder
-/

namespace MCap.Spec

/-- The object has no member of this name; all names are strings. -/
def NoMember (name : String) (ms : List (Option (List Char) × Json)) : Prop := ∀ m ∈ ms, ∃ k, m.1 = some k ∧ k ≠ name.toList

/-- The JSON values for something optional: `null` for nothing. -/
def OptValue {α : Type} (P : α → Json → Prop) : Option α → Json → Prop
  | none, j => j = .null
  | some a, j => P a j

/-- An optional member: one of this name, which may be missing if there is nothing. -/
def OptMember {α : Type} (P : α → Json → Prop) (o : Option α) (name : String) (ms : List (Option (List Char) × Json)) : Prop :=
  (∃ j, OneMember name j ms ∧ OptValue P o j) ∨ (o = none ∧ NoMember name ms)

/-- The JSON values for a duration. -/
def DurationJson (t : Nat) (j : Json) : Prop := j = .num t ∧ t < 2 ^ 64

/-- The JSON values for an `MCaptchaBuilder`. -/
def BuilderJson (b : MCaptchaBuilder) (j : Json) : Prop :=
  b.visitors < 2 ^ 32 ∧
    ((∃ ms, j = .obj ms ∧ OneMember "visitor_threshold" (.num b.visitors) ms ∧ OptMember DefenseJson b.defense "defense" ms ∧
        OptMember DurationJson b.duration "duration" ms) ∨
      ∃ d t, j = .arr [.num b.visitors, d, t] ∧ OptValue DefenseJson b.defense d ∧ OptValue DurationJson b.duration t)

end MCap.Spec
