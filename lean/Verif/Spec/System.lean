import Verif.Model.System
import Verif.Spec.Cache
import Verif.Spec.Queue

/-!
# Specification vocabulary for the whole system: what can be read off a log of events
-/

namespace MCap.Spec

/-- The work solves its challenge at difficulty factor `d`. -/
def Solves (lib : PowLib) (work : Work) (d : Nat) : Prop :=
  lib.isSufficientDifficulty { result := work.result, nonce := work.nonce } d = true ∧
  lib.isValidProof { result := work.result, nonce := work.nonce } work.string = true

/-- What the cache did. -/
def cacheTrace (log : List SEvent) : List (CacheMsg × CacheReply) :=
  log.filterMap fun | .cache _ m r => some (m, r) | _ => none

/-- What the queue did. -/
def queueTrace (log : List SEvent) : List QEvent :=
  log.filterMap fun | .queue e => some e | _ => none

/-- `get_pow(id)`, call `i`, issued challenge `cfg` (put it into the cache) for `id`. -/
def Issued (log : List SEvent) (i : Nat) (id : String) (cfg : PoWConfig) : Prop :=
  ∃ duration, .cache (some (i, .get id))
    (.cachePow { string := cfg.string, difficultyFactor := cfg.difficultyFactor, duration := duration, key := id }) .done ∈ log

/-- `verify_pow(work, ip)`, call `i`, found the challenge of `work` in the cache. -/
def Found (log : List SEvent) (i : Nat) (work : Work) (ip : String) (cfg : CachedPoWConfig) : Prop :=
  .cache (some (i, .verify work ip)) (.retrivePow { token := work.string, key := work.key }) (.config (some cfg)) ∈ log

/-- `verify_pow(work, ip)`, call `i`, put `token` into the cache for site `key`. -/
def Minted (log : List SEvent) (i : Nat) (work : Work) (ip : String) (token key : String) : Prop :=
  ∃ duration, .cache (some (i, .verify work ip)) (.cacheResult { token := token, key := key, duration := duration }) .done ∈ log

/-- Some job panicked on its worker. -/
def SomeCrash (log : List SEvent) : Prop := ∃ w j, .queue (.crashedOn w j) ∈ log

/-- Number of successful `verify_pow` for challenge `s`. -/
def successes (s : String) (log : List SEvent) : Nat :=
  log.countP fun | .ret _ (.verify work _) (.verify (.ok _)) => work.string == s | _ => false

/-- Number of tokens put into the cache by `verify_pow` for challenge `s`. -/
def tokensFor (s : String) (log : List SEvent) : Nat :=
  log.countP fun | .cache (some (_, .verify work _)) (.cacheResult _) _ => work.string == s | _ => false

/-- Number of times `get_pow` issued challenge `s`. -/
def issues (s : String) (log : List SEvent) : Nat :=
  log.countP fun | .cache (some (_, .get _)) (.cachePow c) _ => c.string == s | _ => false

/-- Number of times `token` was put into the cache. -/
def mints (token : String) (log : List SEvent) : Nat :=
  log.countP fun | .cache (some (_, .verify _ _)) (.cacheResult r) _ => r.token == token | _ => false

/-- Number of validations of `token` answered `true`. -/
def validations (token : String) (log : List SEvent) : Nat :=
  log.countP fun | .ret _ (.validate msg) (.validate (.ok true)) => msg.token == token | _ => false

/-- No message about challenge `s` was handled. -/
def untouched (s : String) (log : List SEvent) : Prop :=
  ∀ sender m r, .cache sender m r ∈ log → challengeOf m ≠ some s

/-- No message about token `t` was handled. -/
def untouchedToken (t : String) (log : List SEvent) : Prop :=
  ∀ sender m r, .cache sender m r ∈ log → tokenOf m ≠ some t

/-- In `log`, call `g`, a `get_pow` for the site of `work`, issued the challenge of `work` at difficulty `d`, as told by the master;
then, with no other message about this challenge in between, call `i`, `verify_pow(work, ip)`, took it out of the cache. -/
def TookOut (log : List SEvent) (g i : Nat) (work : Work) (ip : String) (d duration : Nat) : Prop :=
  ∃ a b c, log = a ++ .cache (some (g, .get work.key))
        (.cachePow { string := work.string, difficultyFactor := d, duration := duration, key := work.key }) .done ::
      (b ++ .cache (some (i, .verify work ip)) (.retrivePow { token := work.string, key := work.key })
        (.config (some { key := work.key, difficultyFactor := d, duration := duration })) :: c) ∧
    untouched work.string b ∧ .call g (.get work.key) ∈ a ∧ .call i (.verify work ip) ∈ a ++ b ∧
    .master g (.reply (.ok (some { duration := duration, difficultyFactor := d }))) ∈ a

/-- Steps of the calls in flight, of the cache's mailbox and of the manager and worker threads: what goes on by itself when no new call
comes, none is cancelled, nothing fails and no time passes. -/
def goesOn : SStep → Bool
  | .cache _ => true
  | .resume _ => true
  | .poll _ _ => true
  | .queue .manage => true
  | .queue (.take _) => true
  | .queue (.finish _) => true
  | .work _ => true
  | _ => false

/-- Nothing goes on by itself any more. -/
def Quiescent (lib : PowLib) (p : Profile) (s : Sys) : Prop := ∀ st, goesOn st = true → (sysStep lib p s st).1 = s

open Classical in
/-- Number of steps of a schedule that changed anything but the time. -/
noncomputable def changes (lib : PowLib) (p : Profile) : Sys → List SStep → Nat
  | _, [] => 0
  | s, st :: r => (if (sysStep lib p s st).1 = s ∨ ∃ d, st = .tick d then 0 else 1) + changes lib p (sysStep lib p s st).1 r

/-- The addresses `verify_pow` was called with. -/
def addresses (log : List SEvent) : List String :=
  (log.filterMap fun | .call _ (.verify _ ip) => some ip | _ => none).eraseDups

/-- Call `i` is in the loop of src/system.rs:162-175. The loop does not await anything: the thread running it runs nothing else. -/
def Spins (s : Sys) (i : Nat) : Prop := ∃ c cfg, s.calls[i]? = some c ∧ c.live = true ∧ c.pc = .polling cfg

/-- Steps of the manager thread and of the worker threads, and passing time. -/
def elsewhere : SStep → Bool
  | .queue _ => true
  | .work _ => true
  | .tick _ => true
  | _ => false

/-- A schedule where the calls and the actors share one thread, as on a single-threaded runtime: while a call is in its loop, that thread
does nothing but its iterations. -/
def OneThread (lib : PowLib) (p : Profile) : Sys → List SStep → Prop
  | _, [] => True
  | s, st :: r => (∀ i, Spins s i → elsewhere st = true ∨ ∃ g, st = .poll i g) ∧ OneThread lib p (sysStep lib p s st).1 r

/-- What goes on by itself while call `i` is in its loop and shares its thread with all else: its own iterations, the manager, the workers. -/
def aroundLoop (i : Nat) : SStep → Bool
  | .poll j _ => j == i
  | .queue .manage => true
  | .queue (.take _) => true
  | .queue (.finish _) => true
  | .work _ => true
  | _ => false

/-- Every proof submitted had at most one flaw: it was sufficient for the difficulty quoted, or a valid proof. -/
def AtMostOneFlaw (lib : PowLib) (log : List SEvent) : Prop :=
  ∀ i work ip cfg, Found log i work ip cfg →
    lib.isSufficientDifficulty { result := work.result, nonce := work.nonce } cfg.difficultyFactor = true ∨
    lib.isValidProof { result := work.result, nonce := work.nonce } work.string = true

end MCap.Spec
