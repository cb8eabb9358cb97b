import Verif.Spec.Master

/-!
# Specification vocabulary for backups, restores and collections in between other requests
-/

namespace MCap.Spec

/-- A client uses the tag in the step. -/
def usesTag (T : Nat) : WStep → Bool
  | .req t _ => t == T
  | .direct t _ _ => t == T
  | _ => false

/-- At some moment of the run of `steps` from `w`, its beginning and its end included, `P` holds of the counter at `a`. -/
def AtSomeMoment (p : Profile) (w : World) (steps : List WStep) (a : Addr) (P : Counter → Prop) : Prop :=
  ∃ x y c, steps = x ++ y ∧ (wrun p w x).counters[a]? = some c ∧ P c

/-- The next action of task `i` puts the captcha `m` in place: under the name `id` if the site had no counter (`none`), else in the
counter it had, provided that one still runs. -/
def PutsInPlace (p : Profile) (had : Option Addr) (id : SiteId) (m : MCaptcha) (v : World) (i : Nat) : Prop :=
  match had with
  | none => siteCounter (wstep p v (.run i)) id = some (Counter.start m)
  | some a => ∃ c, v.counters[a]? = some c ∧ (wstep p v (.run i)).counters[a]? = some (if c.alive then
      { c with m := m, timers := c.timers ++ [{ due := v.now + m.getDuration, dec := m.getVisitors }] } else c)

/-- How many visitors the next action of a task adds to counter `a`. -/
def taskFeeds (a : Addr) : Task → Nat
  | .forward _ b => if b = a then 1 else 0
  | .restoreOld b m => if b = a then m.visitors else 0
  | _ => 0

/-- How many visitors the step adds to counter `a`: one by a visit, those of the captcha by a restore. -/
def fedBy (w : World) (a : Addr) : WStep → Nat
  | .run i =>
    match w.tasks[i]? with
    | some t => taskFeeds a t
    | none => 0
  | .direct _ b .addVisitor => if b = a then 1 else 0
  | .direct _ b (.setInternalData m) => if b = a then m.visitors else 0
  | _ => 0

/-- How many visitors the run adds to counter `a`. -/
def fedIn (p : Profile) (a : Addr) : World → List WStep → Nat
  | _, [] => 0
  | w, s :: r => fedBy w a s + fedIn p a (wstep p w s) r

end MCap.Spec
