import Verif.Spec.Counter
import Verif.Model.Master

/-!
# Specification vocabulary for the master actor
-/

namespace MCap.Spec

/-- An abstract registry: which counter a site id denotes. -/
abbrev Reg := SiteId → Option Addr

/-- Bind an id. -/
def Reg.put (f : Reg) (id : SiteId) (a : Addr) : Reg := fun k => if k = id then some a else f k

/-- Forget an id. -/
def Reg.del (f : Reg) (id : SiteId) : Reg := fun k => if k = id then none else f k

/-- Move the counter of `a` to `b`; nothing happens if `a` is unknown. -/
def Reg.mv (f : Reg) (a b : SiteId) : Reg :=
  match f a with
  | none => f
  | some x => fun k => if k = b then some x else if k = a then none else f k

/-- The registry of a world. -/
def lookup (w : World) : Reg := fun id => (w.master.sites.get id).map (·.2)

/-- The message the master handles in a step, whoever sent it: a client, garbage collection (`CleanUp`, `RemoveCaptcha`)
or a restore (`AddSite`). -/
def handled (w : World) : WStep → List MasterMsg
  | .req _ msg => if w.crashed then [] else [msg]
  | .run i =>
    match w.tasks[i]? with
    | some (.gcRemove id _) => [.removeCaptcha id]
    | some (.restoreNew id m) => [.addSite id m]
    | some (.gcWait due) => if due ≤ w.now then [.cleanUp] else []
    | _ => []
  | _ => []

/-- The messages the master handles in a schedule, in order. -/
def handledAll (p : Profile) : World → List WStep → List MasterMsg
  | _, [] => []
  | w, s :: r => handled w s ++ handledAll p (wstep p w s) r

/-- Abstract registry after a list of messages: the `n`-th `AddSite` starts counter `n`. -/
def regAfter : Reg → Nat → List MasterMsg → Reg
  | f, _, [] => f
  | f, n, .addSite id _ :: r => regAfter (f.put id n) (n + 1) r
  | f, n, .removeCaptcha id :: r => regAfter (f.del id) n r
  | f, n, .rename a b :: r => regAfter (f.mv a b) n r
  | f, n, _ :: r => regAfter f n r

/-- The counter a site id denotes, if any. -/
def siteCounter (w : World) (id : SiteId) : Option Counter := (lookup w id).bind fun a => w.counters[a]?

/-- Was the site looked up since it was registered? -/
def visited (w : World) (id : SiteId) : Bool :=
  match w.master.sites.get id with
  | some (r, _) => r
  | none => false

/-- Which ids are known, and which of them were looked up since they were registered or renamed. -/
abbrev Marks := SiteId → Option Bool

/-- Look up an id: marks it if it is known. -/
def Marks.look (f : Marks) (id : SiteId) : Marks := fun k => if k = id then (f k).map fun _ => true else f k

/-- Register an id, or move one here: not looked up yet. -/
def Marks.fresh (f : Marks) (id : SiteId) : Marks := fun k => if k = id then some false else f k

/-- Forget an id. -/
def Marks.drop (f : Marks) (id : SiteId) : Marks := fun k => if k = id then none else f k

/-- The marks after a list of messages. -/
def marksAfter : Marks → List MasterMsg → Marks
  | f, [] => f
  | f, .addSite id _ :: r => marksAfter (f.fresh id) r
  | f, .removeCaptcha id :: r => marksAfter (f.drop id) r
  | f, .rename a b :: r => marksAfter (if (f a).isSome then (f.drop a).fresh b else f) r
  | f, .addVisitor id :: r => marksAfter (f.look id) r
  | f, .getSite id :: r => marksAfter (f.look id) r
  | f, .setInternalData data :: r => marksAfter (data.foldl (fun f e => f.look e.1) f) r
  | f, .cleanUp :: r => marksAfter f r
  | f, .getInternalData :: r => marksAfter f r

/-- Is the task a garbage collection that is under way or asleep until the next pass? -/
def collector : Task → Bool
  | .gcWait _ => true
  | .gcPoll _ => true
  | .gcStop _ _ _ => true
  | .gcRemove _ _ => true
  | _ => false

/-- The step is a client's `CleanUp`. -/
def asksCleanUp : WStep → Bool
  | .req _ .cleanUp => true
  | _ => false

/-- The message names the site. -/
def namesSite (id : SiteId) : MasterMsg → Bool
  | .addVisitor i => i == id
  | .addSite i _ => i == id
  | .rename a b => a == id || b == id
  | .removeCaptcha i => i == id
  | .getSite i => i == id
  | .cleanUp => false
  | .getInternalData => false
  | .setInternalData data => data.any fun e => e.1 == id

/-- The next action of the task changes the site's entry or its counter. -/
def actsOn (id : SiteId) (a : Addr) : Task → Bool
  | .gcWait _ => false
  | .gcPoll _ => false
  | .gcStop _ b _ => b == a
  | .gcRemove i _ => i == id
  | .forward _ b => b == a
  | .stop _ b => b == a
  | .collect _ _ _ => false
  | .restoreNew i _ => i == id
  | .restoreOld b _ => b == a

/-- The step is about other sites than `id`, whose counter is `a`. -/
def concernsOthers (w : World) (id : SiteId) (a : Addr) : WStep → Prop
  | .req _ msg => namesSite id msg = false
  | .run i => ∀ t, w.tasks[i]? = some t → actsOn id a t = false
  | .direct _ b _ => b ≠ a
  | .tick _ => True
  | .fire b _ => b ≠ a

/-- A site that garbage collection should remove: looked up since it was registered, and nobody counted. -/
def idle (w : World) (id : SiteId) : Prop :=
  visited w id = true ∧ ∃ c, siteCounter w id = some c ∧ c.m.getVisitors = 0

/-- The step looks the site up (`get_site`), which marks it as visited. -/
def looksUp (id : SiteId) : WStep → Bool
  | .req _ (.addVisitor i) => i == id
  | .req _ (.getSite i) => i == id
  | .req _ (.setInternalData data) => data.any fun e => e.1 == id
  | _ => false

/-- The task is a collection under way that has an earlier, looked-up registration of `id` on its list (or is about to stop or
remove it), or a restore that is about to register `id`. -/
def aimsAt (id : SiteId) : Task → Bool
  | .gcPoll rest => rest.any fun e => e.1 == id && e.2.1
  | .gcStop i _ rest => i == id || rest.any fun e => e.1 == id && e.2.1
  | .gcRemove i rest => i == id || rest.any fun e => e.1 == id && e.2.1
  | .restoreNew i _ => i == id
  | _ => false

/-- Clients neither name `id` in the step nor talk to counter `a` directly. Whatever the master's tasks, the clock and timers do is
allowed. -/
def leavesAlone (id : SiteId) (a : Addr) : WStep → Bool
  | .req _ msg => !namesSite id msg
  | .direct _ b _ => b != a
  | _ => true

/-- The step makes counter `a` count somebody: a visit or a restore reaches it. -/
def feeds (w : World) (a : Addr) : WStep → Bool
  | .run i =>
    match w.tasks[i]? with
    | some (.forward _ b) => b == a
    | some (.restoreOld b _) => b == a
    | _ => false
  | .direct _ b .addVisitor => b == a
  | .direct _ b (.setInternalData _) => b == a
  | _ => false

/-- No step of the run feeds counter `a`. -/
def neverFed (p : Profile) (a : Addr) : World → List WStep → Prop
  | _, [] => True
  | w, s :: r => feeds w a s = false ∧ neverFed p a (wstep p w s) r

/-- Steps of a service that never removes or renames sites, stops counters or asks for extra collections, and only
handles usable mCaptchas with at most `k` visitors. -/
def calm (k : Nat) : WStep → Prop
  | .req _ (.addSite _ m) => MValid m ∧ m.visitors ≤ k
  | .req _ (.setInternalData data) => ∀ e ∈ data, MValid e.2 ∧ e.2.visitors ≤ k
  | .req _ (.rename _ _) => False
  | .req _ (.removeCaptcha _) => False
  | .req _ .cleanUp => False
  | .direct _ _ .stop => False
  | .direct _ _ (.setInternalData m) => MValid m ∧ m.visitors ≤ k
  | _ => True

/-- Reachable from a master that has just been started. -/
def Reachable (p : Profile) (w : World) : Prop := ∃ now gc steps, w = wrun p (World.init now gc) steps

end MCap.Spec
