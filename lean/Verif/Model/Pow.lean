import Verif.Model.Core

/-!
# Model of src/utils.rs and src/pow.rs

Not modelled: the proof-of-work crate `mcaptcha_pow_sha256`, an external dependency. Its two predicates appear as arbitrary
functions (`PowLib`). The random generator of the `rand` crate appears as an arbitrary stream of draws from the 62
alphanumeric characters.
-/

namespace MCap

/-- A stream of draws from the generator. -/
abbrev Rng := Nat → Fin 62

/-- One draw as a character, `rng.sample(Alphanumeric) as char`, src/utils.rs:30. The characters of
`rand::distr::Alphanumeric` are A-Z, a-z, 0-9 in this order. -/
def sampleChar (d : Fin 62) : Char :=
  if d.val < 26 then Char.ofNat (65 + d.val)
  else if d.val < 52 then Char.ofNat (97 + (d.val - 26))
  else Char.ofNat (48 + (d.val - 52))

/-- `get_random`, src/utils.rs:21-33: `repeat(()).map(sample).take(len).collect()`. -/
def getRandom (len : Nat) (g : Rng) : String :=
  String.ofList ((List.range len).map fun i => sampleChar (g i))

/-- `PoWConfig`, src/pow.rs:31-36. -/
structure PoWConfig where
  string : String
  difficultyFactor : Nat
  salt : String
deriving DecidableEq, Repr

/-- `PoWConfig::new`, src/pow.rs:39-47. -/
def PoWConfig.new (difficultyFactor : Nat) (salt : String) (g : Rng) : PoWConfig :=
  { string := getRandom 32 g, difficultyFactor := difficultyFactor, salt := salt }

/-- `Work`, src/pow.rs:51-57. -/
structure Work where
  string : String
  result : String
  nonce : Nat
  key : String
deriving DecidableEq, Repr

/-- `PoW<String>` of the proof-of-work crate. -/
structure Proof where
  result : String
  nonce : Nat
deriving DecidableEq, Repr

/-- `From<Work> for PoW<String>`, src/pow.rs:59-68. Both builder fields are set, so `unwrap` succeeds. -/
def Work.toProof (w : Work) : Proof := { result := w.result, nonce := w.nonce }

/-- `mcaptcha_pow_sha256::Config`: the salt and the two predicates used here, arbitrary. -/
structure PowLib where
  salt : String
  isSufficientDifficulty : Proof → Nat → Bool
  isValidProof : Proof → String → Bool

/-- `QueuedWork` without its sender, src/pow.rs:70-77. -/
structure QueuedWork where
  pow : PowLib
  work : Proof
  string : String
  difficultyFactor : Nat

/-- Where the worker is in `validate`, src/pow.rs:98-118. -/
inductive WorkerPc where
  /-- not started: the job waits in a queue -/
  | start
  /-- line 102: about to send the first `false` -/
  | sendInsufficient
  /-- line 108 -/
  | checkValid
  /-- line 109: about to send the second `false` -/
  | sendInvalid
  /-- line 114: about to send `true` -/
  | sendTrue
  /-- `validate` returned -/
  | finished
  /-- the job, and with it the sender, has been dropped; `ran` tells whether it was run before -/
  | dropped (ran : Bool)
deriving DecidableEq, Repr

/-- What the verifier, src/system.rs:162-175, has read from the channel. -/
inductive Reading where
  /-- still polling -/
  | none
  /-- `Ok(b)` -/
  | verdict (b : Bool)
  /-- `Err(Disconnected)` -/
  | disconnected
deriving DecidableEq, Repr

/-- The bounded(2) channel of src/pow.rs:86 with the worker at one end and the verifier at the other. -/
structure VerdictChannel where
  pc : WorkerPc
  buf : List Bool
  rxAlive : Bool
  reading : Reading
deriving DecidableEq, Repr

namespace VerdictChannel

/-- Capacity, src/pow.rs:86. -/
def capacity : Nat := 2

/-- `QueuedWork::new`, src/pow.rs:80-97. -/
def new : VerdictChannel := { pc := .start, buf := [], rxAlive := true, reading := .none }

/-- `Sender::send` followed by going to `next`: fails (and the error is logged, src/pow.rs:103,109,114) when the receiver is
gone, blocks when the channel is full, enqueues otherwise. -/
def send (c : VerdictChannel) (b : Bool) (next : WorkerPc) : Option VerdictChannel :=
  if c.rxAlive = false then some { c with pc := next }
  else if c.buf.length < capacity then some { c with buf := c.buf ++ [b], pc := next }
  else none

/-- One step of the worker running `validate`, src/pow.rs:98-118; `none` when blocked or when there is nothing to do. After
`validate` returns, the box is dropped (src/queue.rs:57-67), which drops the sender. -/
def workerStep (q : QueuedWork) (c : VerdictChannel) : Option VerdictChannel :=
  match c.pc with
  | .start =>
    if q.pow.isSufficientDifficulty q.work q.difficultyFactor = false then some { c with pc := .sendInsufficient }
    else some { c with pc := .checkValid }
  | .sendInsufficient => c.send false .checkValid
  | .checkValid =>
    if q.pow.isValidProof q.work q.string = false then some { c with pc := .sendInvalid }
    else some { c with pc := .sendTrue }
  | .sendInvalid => c.send false .sendTrue
  | .sendTrue => c.send true .finished
  | .finished => some { c with pc := .dropped true }
  | .dropped _ => none

/-- One iteration of the verifier's loop, src/system.rs:162-175: `try_recv`. -/
def poll (c : VerdictChannel) : VerdictChannel :=
  if c.reading = .none ∧ c.rxAlive = true then
    match c.buf with
    | b :: r => { c with buf := r, reading := .verdict b }
    | [] =>
      match c.pc with
      | .dropped _ => { c with reading := .disconnected }
      | _ => c
  else c

/-- The verifier returns or is cancelled: the receiver is dropped, with what it holds. -/
def dropRx (c : VerdictChannel) : VerdictChannel := { c with rxAlive := false, buf := [] }

/-- The queue is destroyed with the job still in it (src/queue.rs:184-187): the sender is dropped unused. -/
def dropJob (c : VerdictChannel) : VerdictChannel :=
  if c.pc = .start then { c with pc := .dropped false } else c

end VerdictChannel

/-- A step of either side. -/
inductive ChannelStep where
  | work
  | poll
  | dropRx
  | dropJob
deriving DecidableEq, Repr

/-- Execute one step; a blocked worker stays where it is. -/
def channelStep (q : QueuedWork) (c : VerdictChannel) : ChannelStep → VerdictChannel
  | .work => (c.workerStep q).getD c
  | .poll => c.poll
  | .dropRx => c.dropRx
  | .dropJob => c.dropJob

/-- Execute a schedule. -/
def channelRun (q : QueuedWork) (c : VerdictChannel) (steps : List ChannelStep) : VerdictChannel :=
  steps.foldl (channelStep q) c

/-- `u128::MAX`. -/
def u128Max : Nat := 2 ^ 128 - 1

/-- The documented difficulty target, src/defense.rs:82: `u128::max_value() - u128::max_value() / difficulty_factor`. -/
def difficultyTarget (factor : Nat) : Exec Nat :=
  if factor = 0 then .panic .divisionByZero else .ret (u128Max - u128Max / factor)

end MCap
