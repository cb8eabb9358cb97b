import Verif.Spec.Master
import Verif.Spec.Json
import Verif.Model.Wire

/-!
# Specification of a backup kept as text
-/

namespace MCap.Spec

/-- The numbers of a captcha fit their types (`u32` and `u64`), as they always do in the program. -/
structure FitsTypes (m : MCaptcha) : Prop where
  visitors : m.getVisitors < 2 ^ 32
  levels : ∀ l ∈ m.getDefense.levels, l.visitorThreshold < 2 ^ 32 ∧ l.difficultyFactor < 2 ^ 32
  position : m.getDefense.cur < 2 ^ 64
  duration : m.getDuration < 2 ^ 64

/-- The texts of a backup, one for each site, in some order: each denotes the value with which the site is written. -/
inductive SavedAs : List (List Char) → List (SiteId × MCaptcha) → Prop
  | nil : SavedAs [] []
  | cons (t : List Char) (ts : List (List Char)) (e : SiteId × MCaptcha) (es : List (SiteId × MCaptcha))
      (h : Denotes t (InternalData.toJson ⟨e.1, e.2⟩)) (r : SavedAs ts es) : SavedAs (t :: ts) (e :: es)

/-- Read a backup: every text as an `InternalData`. -/
def readBackup (texts : List (List Char)) : Option (List (SiteId × MCaptcha)) :=
  texts.mapM fun t => ((jsonParse t).bind InternalData.ofJson).map fun d => (d.name, d.mcaptcha)

/-- The answers of a counter to messages served one after the other. -/
def masterSays (p : Profile) (now : Nat) : Counter → List CounterMsg → Exec (List CounterReply)
  | _, [] => .ret []
  | c, m :: r => (c.send p now m).bind fun (c', a) => (masterSays p now c' r).map (a :: ·)

end MCap.Spec
