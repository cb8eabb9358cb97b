import Verif.Model.Pow

/-!
# Specification vocabulary for proofs of work and random strings
-/

namespace MCap.Spec

/-- ASCII letter or digit, by code point. -/
def isAlnum (c : Char) : Bool :=
  (65 ≤ c.toNat && c.toNat ≤ 90) || (97 ≤ c.toNat && c.toNat ≤ 122) || (48 ≤ c.toNat && c.toNat ≤ 57)

/-- What a proof must satisfy. -/
def GoodProof (q : QueuedWork) : Prop :=
  q.pow.isSufficientDifficulty q.work q.difficultyFactor = true ∧ q.pow.isValidProof q.work q.string = true

/-- The verifier wants no more messages: it has read one, or it is gone. -/
def VerifierDone (c : VerdictChannel) : Prop := c.reading ≠ .none ∨ c.rxAlive = false

/-- The worker has returned from `run`. -/
def WorkerDone (c : VerdictChannel) : Prop := c.pc = .finished ∨ ∃ ran, c.pc = .dropped ran

/-- `k` consecutive steps of the worker. -/
def works (k : Nat) : List ChannelStep := List.replicate k .work

/-- Results (128-bit numbers) accepted at a factor: those that reach the target. -/
def acceptedAt (factor result : Nat) : Prop := ∃ t, difficultyTarget factor = .ret t ∧ t ≤ result

end MCap.Spec
