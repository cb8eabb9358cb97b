import Verif.Model.MCaptcha

/-!
# Model of src/master/embedded/counter.rs

A `Counter` actor owns one `MCaptcha` and the timers it spawned. Handlers run one at a time (actix runs an actor's
handlers on one thread without interleaving).

Simplifications:
* Time is a natural number of seconds; `sleep(d)` started at `now` is due at `now + d`. The `addr.send(..)` that follows
  the sleep and the handling of that message are one step, which may happen at any moment from the due time on.
* A panic inside a handler is `Exec.panic`; what actix does with the rest of the thread is not modelled.
-/

namespace MCap

/-- A task spawned on the counter: sleeping until `due`, then sending `DeleteVisitor` (`dec = 1`,
src/master/embedded/counter.rs:131-137) or `BulkDecrement(dec)` (lines 208-214). `DeleteVisitor` is
`decrement_visitor_by(1)`, so both are the decrement they carry. -/
structure Timer where
  due : Nat
  dec : Nat
deriving DecidableEq, Repr

/-- `Counter`, src/master/embedded/counter.rs:90-103, with its actor context: `alive` is false once `ctx.stop()` ran,
`timers` are the tasks spawned on the context. -/
structure Counter where
  m : MCaptcha
  alive : Bool
  timers : List Timer
deriving DecidableEq, Repr

namespace Counter

/-- `Counter::from(mcaptcha).start()`, src/master/embedded/counter.rs:95-103. -/
def start (m : MCaptcha) : Counter := { m := m, alive := true, timers := [] }

/-- `Handler<DeleteVisitor>` (src/master/embedded/counter.rs:111-116, `n = 1`) and `Handler<BulkDecrement>`
(lines 189-194). -/
def handleDecrement (c : Counter) (n : Nat) : Counter := { c with m := c.m.decrementVisitorBy n }

/-- `Handler<AddVisitor>`, src/master/embedded/counter.rs:124-143. -/
def handleAddVisitor (p : Profile) (now : Nat) (c : Counter) : Exec (Counter × AddVisitorResult) :=
  let t : Timer := { due := now + c.m.getDuration, dec := 1 }
  (c.m.addVisitor p).bind fun m' =>
  (AddVisitorResult.new m').bind fun r =>
    .ret ({ c with m := m', timers := c.timers ++ [t] }, r)

/-- `Handler<GetCurrentVisitorCount>`, src/master/embedded/counter.rs:150-156. -/
def handleGetCurrentVisitorCount (c : Counter) : Nat := c.m.getVisitors

/-- `Handler<Stop>`, src/master/embedded/counter.rs:163-169. Stopping the context drops the spawned tasks. -/
def handleStop (c : Counter) : Counter := { c with alive := false, timers := [] }

/-- `Handler<GetInternalData>`, src/master/embedded/counter.rs:176-182. -/
def handleGetInternalData (c : Counter) : MCaptcha := c.m

/-- `Handler<SetInternalData>`, src/master/embedded/counter.rs:201-220. Tasks spawned earlier stay pending. -/
def handleSetInternalData (now : Nat) (c : Counter) (d : MCaptcha) : Counter :=
  let t : Timer := { due := now + d.getDuration, dec := d.getVisitors }
  { c with m := d, timers := c.timers ++ [t] }

end Counter

/-- Messages a client can send to a `Counter`. -/
inductive CounterMsg where
  | addVisitor
  | getCurrentVisitorCount
  | getInternalData
  | setInternalData (m : MCaptcha)
  | stop
deriving DecidableEq, Repr

/-- What a client gets back from `addr.send(..).await`. -/
inductive CounterReply where
  | visitor (r : AddVisitorResult)
  | count (n : Nat)
  | data (m : MCaptcha)
  | done
  | mailboxError
deriving DecidableEq, Repr

/-- `addr.send(msg).await`: a stopped actor's mailbox is closed, otherwise the handler runs. -/
def Counter.send (p : Profile) (now : Nat) (c : Counter) (msg : CounterMsg) : Exec (Counter × CounterReply) :=
  if c.alive then
    match msg with
    | .addVisitor => (c.handleAddVisitor p now).map fun (c', r) => (c', .visitor r)
    | .getCurrentVisitorCount => .ret (c, .count c.handleGetCurrentVisitorCount)
    | .getInternalData => .ret (c, .data c.handleGetInternalData)
    | .setInternalData m => .ret (c.handleSetInternalData now m, .done)
    | .stop => .ret (c.handleStop, .done)
  else .ret (c, .mailboxError)

/-- Delivery of the `i`-th pending timer, if there is one and it is due (src/master/embedded/counter.rs:132-135 and
209-212). Result: the counter and whether something was delivered. -/
def Counter.fire (now : Nat) (c : Counter) (i : Nat) : Counter × Bool :=
  if c.alive then
    match c.timers[i]? with
    | some t =>
      if t.due ≤ now then (({ c with timers := c.timers.eraseIdx i } : Counter).handleDecrement t.dec, true)
      else (c, false)
    | none => (c, false)
  else (c, false)

end MCap
