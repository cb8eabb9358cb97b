import Verif.Model.Counter
import Verif.Model.Json

/-!
# Model of the derived JSON forms of `MCaptchaBuilder` and `Counter`
-/

namespace MCap

/-- An `Option<T>`: `null` is `None`, anything else is read as a `T`. -/
def jsonOpt {α : Type} (f : Json → Option α) : Json → Option (Option α)
  | .null => some none
  | j => (f j).map some

/-- An `Option` field of a derived `Deserialize`: it may be missing, but not come twice; every name must be a string. -/
def jsonOptField {α : Type} (f : Json → Option α) (name : String) (ms : List (Option (List Char) × Json)) : Option (Option α) :=
  match ms.filter (fun m => m.1 = some name.toList || m.1 = none) with
  | [] => some none
  | [(some _, v)] => jsonOpt f v
  | _ => none

/-- Derived `Serialize` of `MCaptchaBuilder`, src/mcaptcha.rs:25-30. -/
def MCaptchaBuilder.toJson (b : MCaptchaBuilder) : Json :=
  .obj [(some "visitor_threshold".toList, .num b.visitors),
    (some "defense".toList, match b.defense with | some d => d.toJson | none => .null),
    (some "duration".toList, match b.duration with | some t => .num t | none => .null)]

/-- Derived `Deserialize` of `MCaptchaBuilder`. In a sequence no element may be missing. -/
def MCaptchaBuilder.ofJson : Json → Option MCaptchaBuilder
  | .obj ms => do
    let v ← (jsonField "visitor_threshold" ms).bind (jsonUint u32Size)
    let d ← jsonOptField Defense.ofJson "defense" ms
    let t ← jsonOptField (jsonUint u64Size) "duration" ms
    some { visitors := v, defense := d, duration := t }
  | .arr [a, b, c] => do
    let v ← jsonUint u32Size a
    let d ← jsonOpt Defense.ofJson b
    let t ← jsonOpt (jsonUint u64Size) c
    some { visitors := v, defense := d, duration := t }
  | _ => none

/-- Derived `Serialize` of the newtype `Counter(MCaptcha)`, src/master/embedded/counter.rs:94-95: its captcha. Tasks on the actor's context are
no part of it. -/
def Counter.toJson (c : Counter) : Json := c.m.toJson

/-- Derived `Deserialize` of `Counter`, then `.start()`. -/
def Counter.ofJson (j : Json) : Option Counter := (MCaptcha.ofJson j).map Counter.start

end MCap
