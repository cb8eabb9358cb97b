import Verif.Spec.Burst

/-!
# Specification: what was paid for an accepted token
-/

namespace MCap.Spec

/-- What was paid for a token: the `get_pow` call that issued the challenge, the `verify_pow` call that solved it, the work handed in, and
the difficulty and duration the master quoted. -/
structure Payment where
  get : Nat
  verify : Nat
  work : Work
  difficulty : Nat
  duration : Nat

/-- The validation of a token by call `v` was answered `true`. -/
def Accepted (log : List SEvent) (v : Nat) (msg : VerifyCaptchaResult) : Prop := .ret v (.validate msg) (.validate (.ok true)) ∈ log

/-- What call `v` accepted was paid for by `pay`: its `verify_pow` call stored this very token for this very site, the token was not
touched until call `v` consumed it, and before that this `verify_pow` call had taken out the challenge of its `get_pow` call, for the same
site and at the difficulty quoted, and its work solves it. -/
def PaidBy (lib : PowLib) (log : List SEvent) (v : Nat) (msg : VerifyCaptchaResult) (pay : Payment) : Prop :=
  ∃ ip a b c, log = a ++
      .cache (some (pay.verify, .verify pay.work ip)) (.cacheResult { token := msg.token, key := msg.key, duration := pay.duration }) .done ::
      (b ++ .cache (some (v, .validate msg)) (.verify msg) (.verdict true) :: c) ∧
    untouchedToken msg.token b ∧ pay.work.key = msg.key ∧ TookOut a pay.get pay.verify pay.work ip pay.difficulty pay.duration ∧
    Solves lib pay.work pay.difficulty

end MCap.Spec
