import Verif.Model.Json

/-!
# Specification of JSON texts

The grammar of RFC 8259, as a relation between texts and the values they denote. It allows white space, every number and
every escape, and is written without the writer and the reader of the model. Numbers which are not natural all denote the same value, and
so do strings with escapes for unpaired surrogates, which the grammar has, but which are no strings of characters.
-/

namespace MCap.Spec

/-- White space. -/
def Ws (w : List Char) : Prop := ∀ c ∈ w, c = ' ' ∨ c = '\n' ∨ c = '\r' ∨ c = '\t'

/-- `c` is the hexadecimal digit for `v`. -/
def HexDigit (c : Char) (v : Nat) : Prop :=
  "0123456789abcdef".toList[v]? = some c ∨ "0123456789ABCDEF".toList[v]? = some c

/-- A text for one character of a string. -/
inductive CharText : List Char → Char → Prop
  | raw (c : Char) (h : 0x20 ≤ c.toNat) (hq : c ≠ '"') (hb : c ≠ '\\') : CharText [c] c
  | quote : CharText ['\\', '"'] '"'
  | backslash : CharText ['\\', '\\'] '\\'
  | slash : CharText ['\\', '/'] '/'
  | backspace : CharText ['\\', 'b'] (Char.ofNat 0x08)
  | formFeed : CharText ['\\', 'f'] (Char.ofNat 0x0C)
  | lineFeed : CharText ['\\', 'n'] (Char.ofNat 0x0A)
  | carriageReturn : CharText ['\\', 'r'] (Char.ofNat 0x0D)
  | tab : CharText ['\\', 't'] (Char.ofNat 0x09)
  | unicode (a b c d : Char) (w x y z : Nat) (ha : HexDigit a w) (hb : HexDigit b x) (hc : HexDigit c y) (hd : HexDigit d z)
      (code : Char) (hcode : code.toNat = w * 4096 + x * 256 + y * 16 + z) : CharText ['\\', 'u', a, b, c, d] code
  /-- a surrogate pair -/
  | pair (a b c d e f g h : Char) (w x y z w' x' y' z' : Nat) (ha : HexDigit a w) (hb : HexDigit b x) (hc : HexDigit c y)
      (hd : HexDigit d z) (he : HexDigit e w') (hf : HexDigit f x') (hg : HexDigit g y') (hh : HexDigit h z') (code : Char)
      (hi : 0xD800 ≤ w * 4096 + x * 256 + y * 16 + z) (hi' : w * 4096 + x * 256 + y * 16 + z < 0xDC00)
      (lo : 0xDC00 ≤ w' * 4096 + x' * 256 + y' * 16 + z') (lo' : w' * 4096 + x' * 256 + y' * 16 + z' < 0xE000)
      (hcode : code.toNat =
        0x10000 + ((w * 4096 + x * 256 + y * 16 + z) - 0xD800) * 0x400 + ((w' * 4096 + x' * 256 + y' * 16 + z') - 0xDC00)) :
      CharText ['\\', 'u', a, b, c, d, '\\', 'u', e, f, g, h] code

/-- A text for the characters of a string. -/
inductive CharsText : List Char → List Char → Prop
  | nil : CharsText [] []
  | cons (t c ts cs) (h : CharText t c) (r : CharsText ts cs) : CharsText (t ++ ts) (c :: cs)

/-- A text for a string. -/
def StringText (t : List Char) (s : List Char) : Prop := ∃ b, t = '"' :: (b ++ ['"']) ∧ CharsText b s

/-- A text for a natural number: digits without superfluous zeros. -/
def NumberText (t : List Char) (n : Nat) : Prop :=
  t ≠ [] ∧ (∀ c ∈ t, c.isDigit = true) ∧ (t.head? = some '0' → t = ['0']) ∧ Nat.ofDigitChars 10 t 0 = n

/-- One character of a string as the grammar has it: any escape of four digits. -/
inductive RawChar : List Char → Prop
  | raw (c : Char) (h : 0x20 ≤ c.toNat) (hq : c ≠ '"') (hb : c ≠ '\\') : RawChar [c]
  | simple (e : Char) (h : e ∈ "\"\\/bfnrt".toList) : RawChar ['\\', e]
  | unicode (a b c d : Char) (w x y z : Nat) (ha : HexDigit a w) (hb : HexDigit b x) (hc : HexDigit c y) (hd : HexDigit d z) :
      RawChar ['\\', 'u', a, b, c, d]

/-- The characters of a string as the grammar has it. -/
inductive RawChars : List Char → Prop
  | nil : RawChars []
  | cons (t ts) (h : RawChar t) (r : RawChars ts) : RawChars (t ++ ts)

/-- A text with the form of a string, for no string: some escapes are for unpaired surrogates. -/
def BadStringText (t : List Char) : Prop := ∃ b, t = '"' :: (b ++ ['"']) ∧ RawChars b ∧ ¬ ∃ s, CharsText b s

/-- A text for the name of a member. -/
def NameText (t : List Char) : Option (List Char) → Prop
  | some k => StringText t k
  | none => BadStringText t

/-- Digits. -/
def Digits (t : List Char) : Prop := t ≠ [] ∧ ∀ c ∈ t, c.isDigit = true

/-- A number with a minus sign, a fraction or an exponent, or several of them. -/
def RealText (t : List Char) : Prop :=
  ∃ m i f e, t = m ++ (i ++ (f ++ e)) ∧ (m = [] ∨ m = ['-']) ∧ (∃ n, NumberText i n) ∧ (f = [] ∨ ∃ d, f = '.' :: d ∧ Digits d) ∧
    (e = [] ∨ ∃ x s d, e = x :: (s ++ d) ∧ (x = 'e' ∨ x = 'E') ∧ (s = [] ∨ s = ['+'] ∨ s = ['-']) ∧ Digits d) ∧
    ¬ (m = [] ∧ f = [] ∧ e = [])

mutual
/-- The texts for a value, without white space around them. -/
def ValueText : Json → List Char → Prop
  | .null, t => t = "null".toList
  | .bool b, t => t = (if b then "true".toList else "false".toList)
  | .num n, t => NumberText t n
  | .real, t => RealText t
  | .str s, t => StringText t s
  | .badStr, t => BadStringText t
  | .arr vs, t => ∃ e, t = '[' :: (e ++ [']']) ∧ ElementsText vs e
  | .obj ms, t => ∃ e, t = '{' :: (e ++ ['}']) ∧ MembersText ms e

/-- What stands between the brackets of an array. -/
def ElementsText : List Json → List Char → Prop
  | [], t => Ws t
  | v :: r, t => ∃ a x b u, t = a ++ (x ++ (b ++ u)) ∧ Ws a ∧ Ws b ∧ ValueText v x ∧ MoreElements r u

/-- The further elements of an array. -/
def MoreElements : List Json → List Char → Prop
  | [], t => t = []
  | v :: r, t => ∃ a x b u, t = ',' :: (a ++ (x ++ (b ++ u))) ∧ Ws a ∧ Ws b ∧ ValueText v x ∧ MoreElements r u

/-- What stands between the braces of an object. -/
def MembersText : List (Option (List Char) × Json) → List Char → Prop
  | [], t => Ws t
  | (k, v) :: r, t => ∃ a y b c x d u, t = a ++ (y ++ (b ++ ':' :: (c ++ (x ++ (d ++ u))))) ∧ Ws a ∧ Ws b ∧ Ws c ∧ Ws d ∧
      NameText y k ∧ ValueText v x ∧ MoreMembers r u

/-- The further members of an object. -/
def MoreMembers : List (Option (List Char) × Json) → List Char → Prop
  | [], t => t = []
  | (k, v) :: r, t => ∃ a y b c x d u, t = ',' :: (a ++ (y ++ (b ++ ':' :: (c ++ (x ++ (d ++ u)))))) ∧ Ws a ∧ Ws b ∧ Ws c ∧ Ws d ∧
      NameText y k ∧ ValueText v x ∧ MoreMembers r u
end

/-- The text denotes the value: there may be white space around. -/
def Denotes (t : List Char) (v : Json) : Prop := ∃ a x b, t = a ++ (x ++ b) ∧ Ws a ∧ Ws b ∧ ValueText v x

/-! ### Structs -/

/-- The object has exactly one member of this name, with this value; whatever others it has, with names which are strings. -/
def OneMember (name : String) (v : Json) (ms : List (Option (List Char) × Json)) : Prop :=
  ∃ a b, ms = a ++ (some name.toList, v) :: b ∧ ∀ m ∈ a ++ b, ∃ k, m.1 = some k ∧ k ≠ name.toList

/-- The JSON values for a `Level`: an object with the two numbers, each within its type, or the array of the two. -/
def LevelJson (l : Level) (j : Json) : Prop :=
  l.visitorThreshold < 2 ^ 32 ∧ l.difficultyFactor < 2 ^ 32 ∧
    ((∃ ms, j = .obj ms ∧ OneMember "visitor_threshold" (.num l.visitorThreshold) ms ∧ OneMember "difficulty_factor" (.num l.difficultyFactor) ms) ∨
      j = .arr [.num l.visitorThreshold, .num l.difficultyFactor])

/-- The JSON values for a list of levels: the array of values for each, in order. -/
inductive LevelsJson : List Level → List Json → Prop
  | nil : LevelsJson [] []
  | cons (l j ls js) (h : LevelJson l j) (r : LevelsJson ls js) : LevelsJson (l :: ls) (j :: js)

/-- The JSON values for a `Defense`. -/
def DefenseJson (d : Defense) (j : Json) : Prop :=
  d.cur < 2 ^ 64 ∧ ∃ js, LevelsJson d.levels js ∧
    ((∃ ms, j = .obj ms ∧ OneMember "levels" (.arr js) ms ∧ OneMember "current_visitor_threshold" (.num d.cur) ms) ∨
      j = .arr [.arr js, .num d.cur])

/-- The JSON values for an `MCaptcha`. -/
def CaptchaJson (m : MCaptcha) (j : Json) : Prop :=
  m.visitors < 2 ^ 32 ∧ m.duration < 2 ^ 64 ∧ ∃ d, DefenseJson m.defense d ∧
    ((∃ ms, j = .obj ms ∧ OneMember "visitor_threshold" (.num m.visitors) ms ∧ OneMember "defense" d ms ∧
        OneMember "duration" (.num m.duration) ms) ∨
      j = .arr [.num m.visitors, d, .num m.duration])

/-- The JSON values for an `AddVisitorResult`. -/
def VisitorJson (v : AddVisitorResult) (j : Json) : Prop :=
  v.duration < 2 ^ 64 ∧ v.difficultyFactor < 2 ^ 32 ∧
    ((∃ ms, j = .obj ms ∧ OneMember "duration" (.num v.duration) ms ∧ OneMember "difficulty_factor" (.num v.difficultyFactor) ms) ∨
      j = .arr [.num v.duration, .num v.difficultyFactor])

/-- The text of an `AddVisitorResult`. -/
def VisitorText (s : String) (v : AddVisitorResult) : Prop := ∃ j, Denotes s.toList j ∧ VisitorJson v j

end MCap.Spec
