import Verif.Spec.RedisService

/-!
# What C118 means
-/

namespace MCap.Spec

/-- The requests a function of the API sends: to the cache (actor 0) or the master (actor 1). -/
def SendsTo : Api → Nat → RMsg → Prop
  | .get site, a, m => (a = 1 ∧ m = .addVisitor site) ∨ (a = 0 ∧ ∃ c : CachePoW, c.key = site ∧ m = .cachePow c)
  | .verify work _, a, m => a = 0 ∧ (m = .retrivePow { token := work.string, key := work.key } ∨ ∃ c : CacheResult, c.key = work.key ∧ m = .cacheResult c)
  | .validate msg, a, m => a = 0 ∧ m = .verify msg

/-- Requests of the same kind. -/
def SameKind : RMsg → RMsg → Prop
  | .addVisitor _, .addVisitor _ => True
  | .cachePow _, .cachePow _ => True
  | .retrivePow _, .retrivePow _ => True
  | .cacheResult _, .cacheResult _ => True
  | .verify _, .verify _ => True
  | _, _ => False

/-- Call `i` hears, at once, that actor `a` does not take its request `m`. -/
def TurnedAway (log : List ZEvent) (i a : Nat) (m : RMsg) : Prop :=
  ∃ x y e, log = x ++ .net (.actor (.refused a m)) :: .sys e :: y ∧
    (e = .api (.master i .mailboxError) ∨ ∃ cm : CacheMsg, cm.toRedis = m ∧ e = .failed i cm .mailboxError)

/-- Nothing is done for request `id`: it does not go to the server, which does not carry it out, and it gets no answer. -/
def NothingDone (log : List ZEvent) (id : Nat) : Prop :=
  (∀ a c, .net (.actor (.started a id c)) ∉ log) ∧ (∀ m r t, .net (.served id m r t) ∉ log) ∧ ∀ a m ans, .net (.actor (.answered a id m ans)) ∉ log

/-- Of the requests of this kind, nothing is done for call `i`. -/
def Undone (log : List ZEvent) (i : Nat) (m : RMsg) : Prop :=
  ∀ id b m', .asked i id ∈ log → .net (.actor (.sent b id m')) ∈ log → SameKind m m' → NothingDone log id

/-- The client cannot bear the reply `r` to the request `m`: a text that is no JSON object as it should be, or an error when a token is stored. -/
def Unbearable : RMsg → RResult → Prop
  | .retrivePow _, r => ∃ s, GaveText r s ∧ ¬ ∃ x, VisitorText s x
  | .addVisitor _, r => ∃ s, GaveText r s ∧ ¬ ∃ x, VisitorText s x
  | .cacheResult _, r => ∃ e, r = .error e
  | _, _ => False

end MCap.Spec
