import Verif.Model.MCaptcha
import Verif.Model.Cache

/-!
# Model of the JSON texts the library writes and reads

`serde_json::to_string` and `serde_json::from_str` as used in src/redis/mcaptcha_redis.rs:120, 128, 175, 191, with the derived
`Serialize` and `Deserialize` implementations of the structs involved. A text is the list of its characters (Unicode scalar values).

The model first reads a text as a value and then the value as a struct; `from_str` reads the struct at once. The value therefore keeps
what matters for that:
* A number which is not natural is well-formed, and stands in values that are ignored, but no field can be read from it: all fields
  here are unsigned, and `-0`, `1.0` and `1e2` are read as floating-point numbers, which integers refuse.
* A string with a `\u` escape of an unpaired surrogate is well-formed in ignored values, where escapes are not evaluated, also as the
  name of a member, but can be read neither as a string nor as the name of a member of a struct.

`from_str` refuses texts nested deeper than 128, but not in ignored values, which it skips without recursion; and the structs here are
nested at most five deep.
-/

namespace MCap

/-- A JSON value. -/
inductive Json where
  | null
  | bool (b : Bool)
  | num (n : Nat)
  /-- a number which is not a plain natural number -/
  | real
  | str (s : List Char)
  /-- a string with an escape for an unpaired surrogate -/
  | badStr
  | arr (vs : List Json)
  /-- `none` is a name with an escape for an unpaired surrogate -/
  | obj (ms : List (Option (List Char) × Json))

/-! ## Writing -/

/-- `serde_json` string escapes (its table `ESCAPE`): quote, backslash and the control characters below 0x20; everything else is copied. -/
def jsonEscape (c : Char) : List Char :=
  if c = '"' then ['\\', '"']
  else if c = '\\' then ['\\', '\\']
  else if c.toNat < 0x20 then
    if c.toNat = 8 then ['\\', 'b']
    else if c.toNat = 9 then ['\\', 't']
    else if c.toNat = 10 then ['\\', 'n']
    else if c.toNat = 12 then ['\\', 'f']
    else if c.toNat = 13 then ['\\', 'r']
    else ['\\', 'u', '0', '0', Nat.digitChar (c.toNat / 16), Nat.digitChar (c.toNat % 16)]
  else [c]

/-- A string, in quotes. -/
def jsonString (s : List Char) : List Char := '"' :: (s.flatMap jsonEscape ++ ['"'])

/-- A string which is none: an unpaired surrogate. -/
def jsonBadString : List Char := ['"', '\\', 'u', 'd', '8', '0', '0', '"']

/-- The name of a member. -/
def jsonName : Option (List Char) → List Char
  | some k => jsonString k
  | none => jsonBadString

mutual
/-- `serde_json::to_string`: the compact form. The library never writes a `real`, a `badStr` or a name `none`; the model gives each of
them one of its texts. -/
def Json.text : Json → List Char
  | .null => ['n', 'u', 'l', 'l']
  | .bool true => ['t', 'r', 'u', 'e']
  | .bool false => ['f', 'a', 'l', 's', 'e']
  | .num n => Nat.toDigits 10 n
  | .real => ['-', '1']
  | .str s => jsonString s
  | .badStr => jsonBadString
  | .arr vs => '[' :: (Json.texts vs ++ [']'])
  | .obj ms => '{' :: (Json.members ms ++ ['}'])

/-- The elements of an array, separated by commas. -/
def Json.texts : List Json → List Char
  | [] => []
  | [v] => Json.text v
  | v :: w :: r => Json.text v ++ ',' :: Json.texts (w :: r)

/-- The members of an object, separated by commas. -/
def Json.members : List (Option (List Char) × Json) → List Char
  | [] => []
  | [(k, v)] => jsonName k ++ ':' :: Json.text v
  | (k, v) :: m :: r => jsonName k ++ ':' :: (Json.text v ++ ',' :: Json.members (m :: r))
end

/-! ## Reading -/

/-- JSON white space. -/
def jsonWs (c : Char) : Bool := c = ' ' || c = '\n' || c = '\r' || c = '\t'

/-- Skip white space. -/
def skipWs : List Char → List Char
  | [] => []
  | c :: r => if jsonWs c then skipWs r else c :: r

/-- The value of a hexadecimal digit. -/
def hexVal (c : Char) : Option Nat :=
  if '0'.toNat ≤ c.toNat ∧ c.toNat ≤ '9'.toNat then some (c.toNat - '0'.toNat)
  else if 'a'.toNat ≤ c.toNat ∧ c.toNat ≤ 'f'.toNat then some (c.toNat - 'a'.toNat + 10)
  else if 'A'.toNat ≤ c.toNat ∧ c.toNat ≤ 'F'.toNat then some (c.toNat - 'A'.toNat + 10)
  else none

/-- Four hexadecimal digits. -/
def hex4 : List Char → Option (Nat × List Char)
  | a :: b :: c :: d :: r =>
    match hexVal a, hexVal b, hexVal c, hexVal d with
    | some a, some b, some c, some d => some (a * 4096 + b * 256 + c * 16 + d, r)
    | _, _, _, _ => none
  | _ => none

/-- What follows a backslash in a string; `\u` escapes above the basic plane come as surrogate pairs. -/
def jsonUnescape : List Char → Option (Char × List Char)
  | [] => none
  | e :: r =>
    if e = '"' then some ('"', r)
    else if e = '\\' then some ('\\', r)
    else if e = '/' then some ('/', r)
    else if e = 'b' then some (Char.ofNat 8, r)
    else if e = 'f' then some (Char.ofNat 12, r)
    else if e = 'n' then some (Char.ofNat 10, r)
    else if e = 'r' then some (Char.ofNat 13, r)
    else if e = 't' then some (Char.ofNat 9, r)
    else if e = 'u' then
      match hex4 r with
      | none => none
      | some (x, r) =>
        if x < 0xD800 ∨ 0xE000 ≤ x then some (Char.ofNat x, r)
        else if 0xDC00 ≤ x then none
        else
          match r with
          | b :: u :: r =>
            if b = '\\' ∧ u = 'u' then
              match hex4 r with
              | some (y, r) =>
                if 0xDC00 ≤ y ∧ y < 0xE000 then some (Char.ofNat (0x10000 + (x - 0xD800) * 1024 + (y - 0xDC00)), r) else none
              | none => none
            else none
          | _ => none
    else none

/-- One character of a string, possibly escaped. -/
def jsonChar : List Char → Option (Char × List Char)
  | [] => none
  | c :: r => if c = '\\' then jsonUnescape r else if c.toNat < 0x20 then none else some (c, r)

/-- The rest of a string after the opening quote. The fuel is an upper bound for the number of characters. -/
def jsonChars : Nat → List Char → Option (List Char × List Char)
  | 0, _ => none
  | _ + 1, [] => none
  | n + 1, c :: r =>
    if c = '"' then some ([], r)
    else
      match jsonChar (c :: r) with
      | none => none
      | some (x, r) =>
        match jsonChars n r with
        | none => none
        | some (xs, r) => some (x :: xs, r)

/-- `ignore_str` of `serde_json`: the rest of a string after the opening quote, without evaluating the escapes. -/
def skipChars : Nat → List Char → Option (List Char)
  | 0, _ => none
  | _ + 1, [] => none
  | n + 1, c :: r =>
    if c = '"' then some r
    else if c = '\\' then
      match r with
      | [] => none
      | e :: r =>
        if e = '"' ∨ e = '\\' ∨ e = '/' ∨ e = 'b' ∨ e = 'f' ∨ e = 'n' ∨ e = 'r' ∨ e = 't' then skipChars n r
        else if e = 'u' then
          match hex4 r with
          | some (_, r) => skipChars n r
          | none => none
        else none
    else if c.toNat < 0x20 then none
    else skipChars n r

/-- The rest of a string after the opening quote; `none` if there are unpaired surrogates in it. -/
def jsonStrRest (cs : List Char) : Option (Option (List Char) × List Char) :=
  match jsonChars (cs.length + 1) cs with
  | some (s, r) => some (some s, r)
  | none => (skipChars (cs.length + 1) cs).map fun r => (none, r)

/-- The sign of a number: whether there is one, and the rest. -/
def jsonMinus : List Char → Bool × List Char
  | c :: r => if c = '-' then (true, r) else (false, c :: r)
  | [] => (false, [])

/-- The fraction of a number: whether there is one, and the rest. -/
def jsonFrac : List Char → Option (Bool × List Char)
  | c :: r =>
    if c = '.' then if r.takeWhile Char.isDigit = [] then none else some (true, r.dropWhile Char.isDigit)
    else some (false, c :: r)
  | [] => some (false, [])

/-- The sign of an exponent. -/
def jsonExpSign : List Char → List Char
  | c :: r => if c = '+' ∨ c = '-' then r else c :: r
  | [] => []

/-- The exponent of a number: whether there is one, and the rest. -/
def jsonExp : List Char → Option (Bool × List Char)
  | c :: r =>
    if c = 'e' ∨ c = 'E' then
      if (jsonExpSign r).takeWhile Char.isDigit = [] then none else some (true, (jsonExpSign r).dropWhile Char.isDigit)
    else some (false, c :: r)
  | [] => some (false, [])

/-- A number: perhaps a sign, digits with no superfluous zero in front, perhaps a fraction and an exponent. -/
def jsonNum (cs : List Char) : Option (Json × List Char) :=
  let m := jsonMinus cs
  let ds := m.2.takeWhile Char.isDigit
  if ds = [] then none
  else if ds.head? = some '0' ∧ ds ≠ ['0'] then none
  else
    match jsonFrac (m.2.dropWhile Char.isDigit) with
    | none => none
    | some (f, r) =>
      match jsonExp r with
      | none => none
      | some (e, r) => some (if m.1 || f || e then .real else .num (Nat.ofDigitChars 10 ds 0), r)

mutual
/-- A value, after white space. The fuel bounds the nesting and the number of elements. -/
def jsonValue : Nat → List Char → Option (Json × List Char)
  | 0, _ => none
  | n + 1, cs =>
    match skipWs cs with
    | [] => none
    | c :: r =>
      if c = '"' then
        match jsonStrRest r with
        | some (some s, r) => some (.str s, r)
        | some (none, r) => some (.badStr, r)
        | none => none
      else if c = '[' then
        match skipWs r with
        | [] => none
        | d :: r' =>
          if d = ']' then some (.arr [], r')
          else
            match jsonElems n (d :: r') with
            | some (vs, r) => some (.arr vs, r)
            | none => none
      else if c = '{' then
        match skipWs r with
        | [] => none
        | d :: r' =>
          if d = '}' then some (.obj [], r')
          else
            match jsonMembers n (d :: r') with
            | some (ms, r) => some (.obj ms, r)
            | none => none
      else if c = 'n' then if r.take 3 = ['u', 'l', 'l'] then some (.null, r.drop 3) else none
      else if c = 't' then if r.take 3 = ['r', 'u', 'e'] then some (.bool true, r.drop 3) else none
      else if c = 'f' then if r.take 4 = ['a', 'l', 's', 'e'] then some (.bool false, r.drop 4) else none
      else jsonNum (c :: r)

/-- The elements of an array up to the closing bracket. -/
def jsonElems : Nat → List Char → Option (List Json × List Char)
  | 0, _ => none
  | n + 1, cs =>
    match jsonValue n cs with
    | none => none
    | some (v, r) =>
      match skipWs r with
      | [] => none
      | c :: r =>
        if c = ']' then some ([v], r)
        else if c = ',' then
          match jsonElems n r with
          | some (vs, r) => some (v :: vs, r)
          | none => none
        else none

/-- The members of an object up to the closing brace. -/
def jsonMembers : Nat → List Char → Option (List (Option (List Char) × Json) × List Char)
  | 0, _ => none
  | n + 1, cs =>
    match skipWs cs with
    | [] => none
    | q :: r =>
      if q = '"' then
        match jsonStrRest r with
        | none => none
        | some (k, r) =>
          match skipWs r with
          | [] => none
          | c :: r =>
            if c = ':' then
              match jsonValue n r with
              | none => none
              | some (v, r) =>
                match skipWs r with
                | [] => none
                | c :: r =>
                  if c = '}' then some ([(k, v)], r)
                  else if c = ',' then
                    match jsonMembers n r with
                    | some (ms, r) => some ((k, v) :: ms, r)
                    | none => none
                  else none
            else none
      else none
end

/-- `serde_json::from_str` into a value: a value with nothing but white space around it. -/
def jsonParse (cs : List Char) : Option Json :=
  match jsonValue (cs.length + 1) cs with
  | some (v, r) => if skipWs r = [] then some v else none
  | none => none

/-! ## The structs -/

/-- A field of a derived `Deserialize`: unknown fields are ignored, a known one must come exactly once, and every name must be a string. -/
def jsonField (name : String) (ms : List (Option (List Char) × Json)) : Option Json :=
  match ms.filter (fun m => m.1 = some name.toList || m.1 = none) with
  | [(some _, v)] => some v
  | _ => none

/-- An unsigned integer below `bound`. -/
def jsonUint (bound : Nat) : Json → Option Nat
  | .num n => if n < bound then some n else none
  | _ => none

/-- Number of `u64` values. -/
def u64Size : Nat := 2 ^ 64

/-- A string. -/
def jsonStr : Json → Option String
  | .str s => some (String.ofList s)
  | _ => none

/-- `AddChallenge`, src/cache/mod.rs:27-32. -/
structure AddChallenge where
  difficulty : Nat
  duration : Nat
  challenge : String
deriving DecidableEq, Repr

/-- Derived `Serialize` of `AddChallenge`: the fields in the order of the declaration. -/
def AddChallenge.toJson (a : AddChallenge) : Json :=
  .obj [(some "difficulty".toList, .num a.difficulty), (some "duration".toList, .num a.duration), (some "challenge".toList, .str a.challenge.toList)]

/-- Derived `Deserialize` of `AddChallenge`, from an object or from the sequence of its fields. -/
def AddChallenge.ofJson : Json → Option AddChallenge
  | .obj ms => do
    let d ← (jsonField "difficulty" ms).bind (jsonUint u32Size)
    let t ← (jsonField "duration" ms).bind (jsonUint u64Size)
    let c ← (jsonField "challenge" ms).bind jsonStr
    some { difficulty := d, duration := t, challenge := c }
  | .arr [a, b, c] => do
    let d ← jsonUint u32Size a
    let t ← jsonUint u64Size b
    let c ← jsonStr c
    some { difficulty := d, duration := t, challenge := c }
  | _ => none

/-- Derived `Serialize` of `Level`, src/defense.rs:49-53. -/
def Level.toJson (l : Level) : Json :=
  .obj [(some "visitor_threshold".toList, .num l.visitorThreshold), (some "difficulty_factor".toList, .num l.difficultyFactor)]

/-- Derived `Deserialize` of `Level`. -/
def Level.ofJson : Json → Option Level
  | .obj ms => do
    let t ← (jsonField "visitor_threshold" ms).bind (jsonUint u32Size)
    let d ← (jsonField "difficulty_factor" ms).bind (jsonUint u32Size)
    some { visitorThreshold := t, difficultyFactor := d }
  | .arr [a, b] => do
    let t ← jsonUint u32Size a
    let d ← jsonUint u32Size b
    some { visitorThreshold := t, difficultyFactor := d }
  | _ => none

/-- A `Vec<Level>`. -/
def jsonLevels : Json → Option (List Level)
  | .arr vs => vs.mapM Level.ofJson
  | _ => none

/-- Derived `Serialize` of `CreateMCaptcha`, src/master/mod.rs:42-48. -/
def CreateMCaptcha.toJson (c : CreateMCaptcha) : Json :=
  .obj [(some "levels".toList, .arr (c.levels.map Level.toJson)), (some "duration".toList, .num c.duration)]

/-- Derived `Deserialize` of `CreateMCaptcha`. -/
def CreateMCaptcha.ofJson : Json → Option CreateMCaptcha
  | .obj ms => do
    let l ← (jsonField "levels" ms).bind jsonLevels
    let t ← (jsonField "duration" ms).bind (jsonUint u64Size)
    some { levels := l, duration := t }
  | .arr [a, b] => do
    let l ← jsonLevels a
    let t ← jsonUint u64Size b
    some { levels := l, duration := t }
  | _ => none

/-- Derived `Serialize` of `AddVisitorResult`, src/master/mod.rs:53-57. -/
def AddVisitorResult.toJson (r : AddVisitorResult) : Json :=
  .obj [(some "duration".toList, .num r.duration), (some "difficulty_factor".toList, .num r.difficultyFactor)]

/-- Derived `Deserialize` of `AddVisitorResult`. -/
def AddVisitorResult.ofJson : Json → Option AddVisitorResult
  | .obj ms => do
    let t ← (jsonField "duration" ms).bind (jsonUint u64Size)
    let d ← (jsonField "difficulty_factor" ms).bind (jsonUint u32Size)
    some { duration := t, difficultyFactor := d }
  | .arr [a, b] => do
    let t ← jsonUint u64Size a
    let d ← jsonUint u32Size b
    some { duration := t, difficultyFactor := d }
  | _ => none

/-- Derived `Serialize` of `Defense`, src/defense.rs:164-169. -/
def Defense.toJson (d : Defense) : Json :=
  .obj [(some "levels".toList, .arr (d.levels.map Level.toJson)), (some "current_visitor_threshold".toList, .num d.cur)]

/-- Derived `Deserialize` of `Defense`: nothing is checked but the shape. -/
def Defense.ofJson : Json → Option Defense
  | .obj ms => do
    let l ← (jsonField "levels" ms).bind jsonLevels
    let c ← (jsonField "current_visitor_threshold" ms).bind (jsonUint usizeSize)
    some { levels := l, cur := c }
  | .arr [a, b] => do
    let l ← jsonLevels a
    let c ← jsonUint usizeSize b
    some { levels := l, cur := c }
  | _ => none

/-- Derived `Serialize` of `MCaptcha`, src/mcaptcha.rs:74-79. -/
def MCaptcha.toJson (m : MCaptcha) : Json :=
  .obj [(some "visitor_threshold".toList, .num m.visitors), (some "defense".toList, m.defense.toJson), (some "duration".toList, .num m.duration)]

/-- Derived `Deserialize` of `MCaptcha`: nothing is checked but the shape. -/
def MCaptcha.ofJson : Json → Option MCaptcha
  | .obj ms => do
    let v ← (jsonField "visitor_threshold" ms).bind (jsonUint u32Size)
    let d ← (jsonField "defense" ms).bind Defense.ofJson
    let t ← (jsonField "duration" ms).bind (jsonUint u64Size)
    some { visitors := v, defense := d, duration := t }
  | .arr [a, b, c] => do
    let v ← jsonUint u32Size a
    let d ← Defense.ofJson b
    let t ← jsonUint u64Size c
    some { visitors := v, defense := d, duration := t }
  | _ => none

end MCap
