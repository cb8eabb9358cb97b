import Verif.Model.Counter

/-!
# Model of src/master/embedded/master.rs

The `Master` actor, the `Counter` actors it started and the asynchronous tasks it spawned. One step is: the master
handles one message, one task performs its next action (one `send(..).await` to another actor, together with the
handling of that message), a client that holds a counter's address talks to it, time passes, or a counter's timer is
delivered. Any step may come at any moment, so every order in which actix can deliver messages is covered (actix
delivers messages of one sender to one actor in order; the model also allows other orders).

Simplifications:
* An address is the index of a counter in the list of all counters ever started; counters are never reused.
* A panic in a handler or task kills the actor whose context ran it (the tokio task of that context is dropped), which
  closes its mailbox and drops its tasks.
* Answers that go to a `oneshot` receiver are logged with the tag of the request.
* Printing and logging are left out.
-/

namespace MCap

/-- Site id (`String` in the code). -/
abbrev SiteId := String

/-- `Addr<Counter>`: index into the list of counters ever started. -/
abbrev Addr := Nat

/-- `Master`, src/master/embedded/master.rs:41-45. In a site's entry the flag is `Some(()) / None` of the code: whether the
site was looked up since it was registered. -/
structure Master where
  sites : AMap SiteId (Bool × Addr)
  gc : Nat
deriving DecidableEq, Repr

namespace Master

/-- `Master::new`, src/master/embedded/master.rs:57-62. -/
def new (gc : Nat) : Master := { sites := [], gc := gc }

/-- `Master::add_site`, src/master/embedded/master.rs:51-53. -/
def addSite (s : Master) (addr : Addr) (id : SiteId) : Master :=
  { s with sites := s.sites.insert id (false, addr) }

/-- `Master::get_site`, src/master/embedded/master.rs:65-72. -/
def getSite (s : Master) (id : SiteId) : Master × Option Addr :=
  match s.sites.get id with
  | some (_, addr) => ({ s with sites := s.sites.insert id (true, addr) }, some addr)
  | none => (s, none)

/-- `Master::rm_site`, src/master/embedded/master.rs:75-77. -/
def rmSite (s : Master) (id : SiteId) : Master × Option (Bool × Addr) :=
  ({ s with sites := s.sites.erase id }, s.sites.get id)

/-- `Master::rename`, src/master/embedded/master.rs:80-86. -/
def rename (s : Master) (name renameTo : SiteId) : Master :=
  match s.sites.get name with
  | some (_, counter) => { s with sites := s.sites.erase name }.addSite counter renameTo
  | none => { s with sites := s.sites.erase name }

end Master

/-- Insert into a list sorted by key. -/
def insertByKey {ν : Type} (e : SiteId × ν) : List (SiteId × ν) → List (SiteId × ν)
  | [] => [e]
  | x :: r => if e.1 ≤ x.1 then e :: x :: r else x :: insertByKey e r

/-- Iteration order of a `BTreeMap`: ascending keys. -/
def iterByKey {ν : Type} : List (SiteId × ν) → List (SiteId × ν)
  | [] => []
  | x :: r => insertByKey x (iterByKey r)

/-- Messages to the master, src/master/mod.rs:86-123 and src/master/embedded/master.rs:143-162. -/
inductive MasterMsg where
  | addVisitor (id : SiteId)
  | addSite (id : SiteId) (m : MCaptcha)
  | rename (name renameTo : SiteId)
  | removeCaptcha (id : SiteId)
  | getSite (id : SiteId)
  | cleanUp
  | getInternalData
  | setInternalData (data : List (SiteId × MCaptcha))
deriving DecidableEq, Repr

/-- What a client finally receives. `mailboxError` means the master itself is gone. -/
inductive Answer where
  | visitor (r : Option AddVisitorResult)
  | unit
  | site (a : Option Addr)
  | data (d : AMap SiteId MCaptcha)
  | error (e : CaptchaError)
  | counter (r : CounterReply)
  | mailboxError
deriving DecidableEq, Repr

/-- Tasks spawned on the master's context, by what they do next. -/
inductive Task where
  /-- sleeping until `due`, then sending `CleanUp` to the master: src/master/embedded/master.rs:94-96 and 183-186 -/
  | gcWait (due : Nat)
  /-- about to poll the visitor count of the first remaining site: lines 173-174 -/
  | gcPoll (rest : List (SiteId × (Bool × Addr)))
  /-- about to stop the counter of an idle site: line 177 -/
  | gcStop (id : SiteId) (addr : Addr) (rest : List (SiteId × (Bool × Addr)))
  /-- about to send `RemoveCaptcha` for it: line 178 -/
  | gcRemove (id : SiteId) (rest : List (SiteId × (Bool × Addr)))
  /-- about to forward `AddVisitor`: lines 112-124 -/
  | forward (tag : Nat) (addr : Addr)
  /-- about to stop a removed counter: lines 199-203 -/
  | stop (tag : Option Nat) (addr : Addr)
  /-- about to read the state of the first remaining site: lines 234-256 -/
  | collect (tag : Nat) (rest : List (SiteId × (Bool × Addr))) (acc : AMap SiteId MCaptcha)
  /-- about to send `AddSite` for a restored unknown site: line 275 -/
  | restoreNew (id : SiteId) (m : MCaptcha)
  /-- about to send the restored state to a known counter: line 278 -/
  | restoreOld (addr : Addr) (m : MCaptcha)
deriving DecidableEq, Repr

/-- The master, its counters, its tasks, the clock and the answers sent so far. -/
structure World where
  now : Nat
  counters : List Counter
  master : Master
  tasks : List Task
  crashed : Bool
  answers : List (Nat × Answer)
deriving DecidableEq, Repr

namespace World

/-- `Master::new(gc).start()`: `started` spawns the first `CleanUp`, src/master/embedded/master.rs:92-99. -/
def init (now gc : Nat) : World :=
  { now := now, counters := [], master := Master.new gc, tasks := [.gcWait now], crashed := false, answers := [] }

/-- Log an answer. -/
def answer (w : World) (tag : Nat) (a : Answer) : World := { w with answers := w.answers ++ [(tag, a)] }

/-- Spawn a task on the master's context. -/
def spawn (w : World) (t : Task) : World := { w with tasks := w.tasks ++ [t] }

/-- `addr.send(msg).await` to a counter. -/
def sendCounter (p : Profile) (w : World) (a : Addr) (msg : CounterMsg) : World × CounterReply :=
  match w.counters[a]? with
  | none => (w, .mailboxError)
  | some c =>
    match c.send p w.now msg with
    | .ret (c', r) => ({ w with counters := w.counters.set a c' }, r)
    | .panic _ => ({ w with counters := w.counters.set a { c with alive := false, timers := [] } }, .mailboxError)

/-- `Handler<AddVisitor>`, src/master/embedded/master.rs:102-129. -/
def handleAddVisitor (w : World) (tag : Nat) (id : SiteId) : World :=
  let (s, addr) := w.master.getSite id
  match addr with
  | none => { w with master := s }.answer tag (.visitor none)
  | some addr => { w with master := s }.spawn (.forward tag addr)

/-- `Handler<Rename>`, src/master/embedded/master.rs:131-140. -/
def handleRename (w : World) (tag : Nat) (name renameTo : SiteId) : World :=
  { w with master := w.master.rename name renameTo }.answer tag .unit

/-- `Handler<GetSite>`, src/master/embedded/master.rs:147-158. -/
def handleGetSite (w : World) (tag : Nat) (id : SiteId) : World :=
  let (s, addr) := w.master.getSite id
  { w with master := s }.answer tag (.site addr)

/-- `Handler<CleanUp>`, src/master/embedded/master.rs:164-191: snapshot of the registry, work done by a task. -/
def handleCleanUp (w : World) : World :=
  w.spawn (.gcPoll (iterByKey w.master.sites))

/-- `Handler<RemoveCaptcha>`, src/master/embedded/master.rs:193-211. `tag = none`: the sender dropped the receiver. -/
def handleRemoveCaptcha (w : World) (tag : Option Nat) (id : SiteId) : World :=
  match w.master.rmSite id with
  | (s, some (_, addr)) => { w with master := s }.spawn (.stop tag addr)
  | (s, none) =>
    match tag with
    | some t => { w with master := s }.answer t .unit
    | none => { w with master := s }

/-- `Handler<AddSite>`, src/master/embedded/master.rs:213-224, without the answer. -/
def handleAddSite (w : World) (id : SiteId) (m : MCaptcha) : World :=
  { w with counters := w.counters ++ [Counter.start m], master := w.master.addSite w.counters.length id }

/-- `Handler<GetInternalData>`, src/master/embedded/master.rs:226-262. -/
def handleGetInternalData (w : World) (tag : Nat) : World :=
  w.spawn (.collect tag (iterByKey w.master.sites) [])

/-- The loop of `Handler<SetInternalData>`, src/master/embedded/master.rs:269-287, in the given order (the drain order of
a `HashMap` is unspecified). -/
def restoreLoop (w : World) : List (SiteId × MCaptcha) → World
  | [] => w
  | (name, m) :: r =>
    match w.master.getSite name with
    | (s, none) => restoreLoop ({ w with master := s }.spawn (.restoreNew name m)) r
    | (s, some addr) => restoreLoop ({ w with master := s }.spawn (.restoreOld addr m)) r

/-- `Handler<SetInternalData>`, src/master/embedded/master.rs:264-292. -/
def handleSetInternalData (w : World) (tag : Nat) (data : List (SiteId × MCaptcha)) : World :=
  (w.restoreLoop data).answer tag .unit

/-- The master handles one message. -/
def handle (w : World) (tag : Nat) : MasterMsg → World
  | .addVisitor id => w.handleAddVisitor tag id
  | .addSite id m => (w.handleAddSite id m).answer tag .unit
  | .rename name renameTo => w.handleRename tag name renameTo
  | .removeCaptcha id => w.handleRemoveCaptcha (some tag) id
  | .getSite id => w.handleGetSite tag id
  | .cleanUp => w.handleCleanUp.answer tag .unit
  | .getInternalData => w.handleGetInternalData tag
  | .setInternalData data => w.handleSetInternalData tag data

/-- A panicking task: the master actor is gone with all its tasks. -/
def crash (w : World) : World := { w with crashed := true, tasks := [] }

/-- Next action of a task that is no longer in the task list. Result: the world and what the task does next, if
anything. Lines as in `Task`. -/
def runTask (p : Profile) (w : World) : Task → World × Option Task
  | .gcWait due => if due ≤ w.now then (w.handleCleanUp, none) else (w, some (.gcWait due))
  | .gcPoll [] => (w, some (.gcWait (w.now + w.master.gc)))
  | .gcPoll ((id, (read, addr)) :: rest) =>
    match w.sendCounter p addr .getCurrentVisitorCount with
    | (w', .count n) => if n == 0 && read then (w', some (.gcStop id addr rest)) else (w', some (.gcPoll rest))
    | (w', _) => (w'.crash, none)
  | .gcStop id addr rest =>
    match w.sendCounter p addr .stop with
    | (w', .done) => (w', some (.gcRemove id rest))
    | (w', _) => (w'.crash, none)
  | .gcRemove id rest => (w.handleRemoveCaptcha none id, some (.gcPoll rest))
  | .forward tag addr =>
    match w.sendCounter p addr .addVisitor with
    | (w', .visitor r) => (w'.answer tag (.visitor (some r)), none)
    | (w', _) => (w'.answer tag (.error .mailboxError), none)
  | .stop tag addr =>
    match w.sendCounter p addr .stop, tag with
    | (w', .done), some t => (w'.answer t .unit, none)
    | (w', _), some t => (w'.answer t (.error .mailboxError), none)
    | (w', _), none => (w', none)
  | .collect tag [] acc => (w.answer tag (.data acc), none)
  | .collect tag ((name, (_, addr)) :: rest) acc =>
    match w.sendCounter p addr .getInternalData with
    | (w', .data m) => (w', some (.collect tag rest (acc.insert name m)))
    | (w', _) => (w', some (.collect tag rest acc))
  | .restoreNew id m => (w.handleAddSite id m, none)
  | .restoreOld addr m => ((w.sendCounter p addr (.setInternalData m)).1, none)

/-- Run the `i`-th task, if there is one. -/
def runAt (p : Profile) (w : World) (i : Nat) : World :=
  match w.tasks[i]? with
  | none => w
  | some t =>
    match ({ w with tasks := w.tasks.eraseIdx i } : World).runTask p t with
    | (w', none) => w'
    | (w', some t') => { w' with tasks := t' :: w'.tasks }

end World

/-- One step of the whole system. -/
inductive WStep where
  /-- the master handles a client's message -/
  | req (tag : Nat) (msg : MasterMsg)
  /-- the `i`-th task of the master does its next action -/
  | run (i : Nat)
  /-- a client that holds the address of a counter sends to it directly -/
  | direct (tag : Nat) (a : Addr) (msg : CounterMsg)
  /-- the clock advances -/
  | tick (d : Nat)
  /-- timer `i` of counter `a` is delivered -/
  | fire (a : Addr) (i : Nat)
deriving DecidableEq, Repr

/-- Execute one step. -/
def wstep (p : Profile) (w : World) : WStep → World
  | .req tag msg => if w.crashed then w.answer tag .mailboxError else w.handle tag msg
  | .run i => w.runAt p i
  | .direct tag a msg => let (w', r) := w.sendCounter p a msg; w'.answer tag (.counter r)
  | .tick d => { w with now := w.now + d }
  | .fire a i =>
    match w.counters[a]? with
    | none => w
    | some c => { w with counters := w.counters.set a (c.fire w.now i).1 }

/-- Execute a schedule. -/
def wrun (p : Profile) : World → List WStep → World
  | w, [] => w
  | w, s :: r => wrun p (wstep p w s) r

end MCap
