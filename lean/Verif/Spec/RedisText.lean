import Verif.Model.Redis

/-!
# Specification vocabulary for replies of a Redis server that are read as texts
-/

namespace MCap.Spec

/-- The text a value stands for: a string itself, `OK`, the decimal digits of a number; arrays, nothing at all and strings that are no text
stand for none. -/
inductive SaysText : RValue → String → Prop
  | bulk (s : String) : SaysText (.bulk s) s
  | simple (s : String) : SaysText (.simple s) s
  | okay : SaysText .okay "OK"
  | int (i : Int) : SaysText (.int i) (toString i)

/-- The server replied with a text. -/
def GaveText (r : RResult) (s : String) : Prop := ∃ v, r = .ok v ∧ SaysText v s

/-- The server replied with an error, or with a value that stands for no text. -/
def GaveError (r : RResult) (e : String) : Prop :=
  r = .error e ∨ ((∃ v, r = .ok v ∧ ∀ s, ¬ SaysText v s) ∧ e = "Response type not string compatible.")

end MCap.Spec
