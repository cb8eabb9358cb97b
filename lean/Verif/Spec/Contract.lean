import Verif.Spec.Payment
import Verif.Model.OpenSystem

/-!
# Specification: what a cache has to keep to, and what follows
-/

namespace MCap.Spec

/-- Call `g` asked the cache to store challenge `c`, and was told that it was done or that it failed. -/
def StoresPow (g : Nat) (c : CachePoW) (e : OEvent) : Prop :=
  (∃ api, e = .api (.cache (some (g, api)) (.cachePow c) .done)) ∨ ∃ err, e = .failed g (.cachePow c) err

/-- Call `i` asked the cache to store token `c`, and was told that it was done or that it failed. -/
def StoresToken (i : Nat) (c : CacheResult) (e : OEvent) : Prop :=
  (∃ api, e = .api (.cache (some (i, api)) (.cacheResult c) .done)) ∨ ∃ err, e = .failed i (.cacheResult c) err

/-- The cache confirmed token `t`. -/
def Confirms (t : String) (e : OEvent) : Prop := ∃ o msg, msg.token = t ∧ e = .api (.cache o (.verify msg) (.verdict true))

/-- The cache handed out challenge `s`. -/
def HandsOut (s : String) (e : OEvent) : Prop := ∃ o msg cfg, msg.token = s ∧ e = .api (.cache o (.retrivePow msg) (.config (some cfg)))

/-- What a cache has to keep to. It confirms a token for a site only if it was asked to store this token for this site and did not confirm it
since. It hands out a challenge only if it was asked to store it, with this site, difficulty and duration, and did not hand it out since. It
need not remember anything. -/
structure KeepsContract (log : List OEvent) : Prop where
  token : ∀ pre post o msg, log = pre ++ .api (.cache o (.verify msg) (.verdict true)) :: post →
    ∃ a e b i duration, pre = a ++ e :: b ∧ StoresToken i { token := msg.token, key := msg.key, duration := duration } e ∧ ∀ x ∈ b, ¬ Confirms msg.token x
  challenge : ∀ pre post o msg cfg, log = pre ++ .api (.cache o (.retrivePow msg) (.config (some cfg))) :: post →
    ∃ a e b g, pre = a ++ e :: b ∧
      StoresPow g { string := msg.token, difficultyFactor := cfg.difficultyFactor, duration := cfg.duration, key := cfg.key } e ∧
      ∀ x ∈ b, ¬ HandsOut msg.token x

/-- In `log`, call `g`, a `get_pow` for the site of `work`, had the challenge of `work` stored at difficulty `d`, as told by the master; then,
not handed out in between, it went to call `i`, `verify_pow(work, ip)`. -/
def TookOutOf (log : List OEvent) (g i : Nat) (work : Work) (ip : String) (d duration : Nat) : Prop :=
  ∃ a e b c, log = a ++ e :: (b ++ .api (.cache (some (i, .verify work ip)) (.retrivePow { token := work.string, key := work.key })
        (.config (some { key := work.key, difficultyFactor := d, duration := duration }))) :: c) ∧
    StoresPow g { string := work.string, difficultyFactor := d, duration := duration, key := work.key } e ∧ (∀ x ∈ b, ¬ HandsOut work.string x) ∧
    .api (.call g (.get work.key)) ∈ a ∧ .api (.master g (.reply (.ok (some { duration := duration, difficultyFactor := d })))) ∈ a

/-- What call `v` accepted was paid for by `pay`: its `verify_pow` call had this very token stored for this very site, the token was not
confirmed before call `v` asked, and before that this `verify_pow` call had taken out the challenge of its `get_pow` call, for the same site and
at the difficulty quoted, and its work solves it. -/
def PaidWith (lib : PowLib) (log : List OEvent) (v : Nat) (msg : VerifyCaptchaResult) (pay : Payment) : Prop :=
  ∃ ip a e b c, log = a ++ e :: (b ++ .api (.cache (some (v, .validate msg)) (.verify msg) (.verdict true)) :: c) ∧
    StoresToken pay.verify { token := msg.token, key := msg.key, duration := pay.duration } e ∧ (∀ x ∈ b, ¬ Confirms msg.token x) ∧
    pay.work.key = msg.key ∧ .api (.call pay.verify (.verify pay.work ip)) ∈ a ∧ TookOutOf a pay.get pay.verify pay.work ip pay.difficulty pay.duration ∧
    Solves lib pay.work pay.difficulty

end MCap.Spec
