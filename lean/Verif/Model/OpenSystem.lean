import Verif.Model.System

/-!
# src/system.rs with any cache and any master

`System<T, X>` takes any actor that implements `Save` as cache and any that implements `Master` as master (src/system.rs:97-106). Here the
answers of both are part of the schedule: whatever the types allow. The calls, the queue and the workers are those of Model/System.

Simplifications:
* Of the state of Model/System the cache is not used.
* What an answer does to the state of the cache or of the master is their own affair: a request of a call that was cancelled has no
  effect here.
-/

namespace MCap

/-- What users of the API see, and what the cache and the master answered. -/
inductive OEvent where
  /-- as in Model/System; `.cache` is an answer of the cache -/
  | api (e : SEvent)
  /-- the request `m` of call `i` to the cache failed: its mailbox is closed, it dropped the answer, or it answered with an error -/
  | failed (i : Nat) (m : CacheMsg) (e : CaptchaError)
deriving DecidableEq, Repr

/-- Steps. -/
inductive OStep where
  /-- a step of Model/System; those of its cache are not among them -/
  | sys (st : SStep)
  /-- the cache answers the request of call `i` -/
  | cache (i : Nat) (a : CaptchaResult CacheReply)

/-- The answers the types allow, src/cache/mod.rs: `CachePoW` and `CacheResult` are answered with `()`, `RetrivePoW` with
`Option<CachedPoWConfig>`, `VerifyCaptchaResult` with `bool`. -/
def CacheMsg.allows : CacheMsg → CacheReply → Bool
  | .cachePow _, .done => true
  | .cacheResult _, .done => true
  | .retrivePow _, .config _ => true
  | .verify _, .verdict _ => true
  | _, _ => false

/-- What a call returns if a request to the cache fails: the error, by `?` (src/system.rs:121, 139, 190) or as it is (199). -/
def Api.fails : Api → CaptchaError → Ret
  | .get _, e => .get (.error e)
  | .verify _ _, e => .verify (.error e)
  | .validate _, e => .validate (.error e)

/-- The steps of Model/System in which its cache has no part. -/
def SStep.noCache : SStep → Bool
  | .cache _ => false
  | .cacheGone _ => false
  | .fire _ => false
  | .tick _ => false
  | _ => true

/-- Call `i` gets the answer of the cache. -/
def Sys.onCacheAnswer (s : Sys) (i : Nat) (c : Call) (m : CacheMsg) (k : Stage) : CaptchaResult CacheReply → Sys × List OEvent
  | .ok r => if m.allows r then (s.setCall i { c with pc := .replied r k }, [.api (.cache (some (i, c.api)) m r)]) else (s, [])
  | .error e => (s.setCall i c.over, [.failed i m e, .api (.ret i c.api (c.api.fails e))])

/-- One step. -/
def openStep (lib : PowLib) (p : Profile) (s : Sys) : OStep → Sys × List OEvent
  | .sys st => if st.noCache then ((sysStep lib p s st).1, (sysStep lib p s st).2.map .api) else (s, [])
  | .cache i a =>
    if s.queue.status = .aborted then (s, [])
    else
      match s.calls[i]? with
      | some c =>
        match c.pc, c.live with
        | .awaitCache m k, true => s.onCacheAnswer i c m k a
        | _, _ => (s, [])
      | none => (s, [])

/-- A schedule. -/
def openRun (lib : PowLib) (p : Profile) : Sys → List OStep → Sys × List OEvent
  | s, [] => (s, [])
  | s, st :: r => ((openRun lib p (openStep lib p s st).1 r).1, (openStep lib p s st).2 ++ (openRun lib p (openStep lib p s st).1 r).2)

end MCap
