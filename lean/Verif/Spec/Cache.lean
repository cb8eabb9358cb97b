import Verif.Model.Cache

/-!
# Specification vocabulary for the cache: what a history of messages should lead to

Histories are lists of messages, oldest first. The functions below look at the *latest* message about a string.
-/

namespace MCap.Spec

/-- The challenge string a message is about. -/
def challengeOf : CacheMsg → Option String
  | .cachePow c => some c.string
  | .deletePow s => some s
  | .retrivePow v => some v.token
  | _ => none

/-- The token a message is about. -/
def tokenOf : CacheMsg → Option String
  | .cacheResult r => some r.token
  | .deleteResult t => some t
  | .verify v => some v.token
  | _ => none

/-- The latest message about challenge `s`. -/
def lastAboutChallenge (h : List CacheMsg) (s : String) : Option CacheMsg :=
  (h.filter fun m => challengeOf m == some s).getLast?

/-- The latest message about token `t`. -/
def lastAboutToken (h : List CacheMsg) (t : String) : Option CacheMsg :=
  (h.filter fun m => tokenOf m == some t).getLast?

/-- The challenge data that should be stored: that of the latest message about `s`, if it stored something. -/
def storedChallenge (h : List CacheMsg) (s : String) : Option CachedPoWConfig :=
  match lastAboutChallenge h s with
  | some (.cachePow c) => some { key := c.key, difficultyFactor := c.difficultyFactor, duration := c.duration }
  | _ => none

/-- The key a token should be stored under. -/
def storedToken (h : List CacheMsg) (t : String) : Option String :=
  match lastAboutToken h t with
  | some (.cacheResult r) => some r.key
  | _ => none

/-- Messages of a trace. -/
def msgs (tr : List (CacheMsg × CacheReply)) : List CacheMsg := tr.map (·.1)

/-- Number of times challenge `s` was issued. -/
def issued (s : String) (tr : List (CacheMsg × CacheReply)) : Nat :=
  (tr.filter fun e => match e.1 with | .cachePow c => c.string == s | _ => false).length

/-- Number of times challenge `s` was handed out. -/
def handedOut (s : String) (tr : List (CacheMsg × CacheReply)) : Nat :=
  (tr.filter fun e => match e with | (.retrivePow v, .config (some _)) => v.token == s | _ => false).length

/-- Number of times token `t` was issued. -/
def tokensIssued (t : String) (tr : List (CacheMsg × CacheReply)) : Nat :=
  (tr.filter fun e => match e.1 with | .cacheResult r => r.token == t | _ => false).length

/-- Number of times token `t` was accepted. -/
def accepted (t : String) (tr : List (CacheMsg × CacheReply)) : Nat :=
  (tr.filter fun e => match e with | (.verify v, .verdict true) => v.token == t | _ => false).length

/-- Number of times challenge `s` was deleted. -/
def deletions (s : String) (tr : List (CacheMsg × CacheReply)) : Nat :=
  (tr.filter fun e => match e.1 with | .deletePow x => x == s | _ => false).length

/-- Number of times token `t` was deleted. -/
def tokenDeletions (t : String) (tr : List (CacheMsg × CacheReply)) : Nat :=
  (tr.filter fun e => match e.1 with | .deleteResult x => x == t | _ => false).length

/-- No timer is overdue. -/
def CacheOnTime (w : CacheWorld) : Prop := ∀ t ∈ w.timers, w.now < t.due

/-- Clock after a schedule, read off the schedule. -/
def cacheClock : Nat → List CacheStep → Nat
  | now, [] => now
  | now, .tick d :: r => cacheClock (now + d) r
  | now, _ :: r => cacheClock now r

/-- The step is not a client message about challenge `s`. -/
def leavesChallenge (s : String) : CacheStep → Bool
  | .req m => challengeOf m != some s
  | _ => true

/-- The step is not a client message about token `t`. -/
def leavesToken (t : String) : CacheStep → Bool
  | .req m => tokenOf m != some t
  | _ => true

end MCap.Spec
