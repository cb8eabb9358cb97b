import Verif.Proofs.SystemBack
import Verif.Proofs.SystemAbort
import Verif.Props.Cache

/-!
# C56-C64, C75: the calls of the API under every interleaving

`sysRun lib p (Sys.new n ql now) steps` is an arbitrary execution of a system with `n` workers and queue length `ql`: `lib` is an
arbitrary proof-of-work library, `steps` an arbitrary schedule of calls, answers of an arbitrary master, deliveries, thread steps,
expiries, cancellations, job crashes and random draws.
-/

namespace MCap
open Spec

/-- The log of an execution. -/
abbrev logOf (lib : PowLib) (p : Profile) (n ql now : Nat) (steps : List SStep) : List SEvent :=
  (sysRun lib p (Sys.new n ql now) steps).2

/-! ### Examples used below -/

/-- A toy library: a proof is sufficient if its nonce reaches the difficulty, and valid if it repeats the string. -/
def sysLib : PowLib :=
  { salt := "salt", isSufficientDifficulty := fun w d => decide (d ≤ w.nonce), isValidProof := fun w s => w.result == s }

/-- The string the example generator draws. -/
def exDrawn : String := getRandom 32 (fun _ => 0)
def exDrawn2 : String := getRandom 32 (fun _ => 1)

def exWork : Work := { string := exDrawn, result := exDrawn, nonce := 50, key := "site" }

/-- A visitor gets a challenge, solves it, gets a token and the site validates it. -/
def exHonest : List SStep :=
  [.call (.get "site"), .master 0 (.reply (.ok (some ⟨30, 50⟩))) (fun _ => 0), .cache 0, .resume 0,
   .call (.verify exWork "ip"), .cache 1, .resume 1, .queue .manage, .resume 1, .poll 1 (fun _ => 1),
   .queue (.take 0), .work 0, .work 0, .work 0, .poll 1 (fun _ => 1), .work 0, .queue (.finish 0), .cache 1, .resume 1,
   .call (.validate ⟨exDrawn2, "site"⟩), .cache 2, .resume 2]

example : logOf sysLib ⟨true⟩ 1 5 0 exHonest =
    [.call 0 (.get "site"), .master 0 (.reply (.ok (some ⟨30, 50⟩))),
     .cache (some (0, .get "site")) (.cachePow ⟨exDrawn, 50, 30, "site"⟩) .done,
     .ret 0 (.get "site") (.get (.ok (some ⟨exDrawn, 50, "salt"⟩))),
     .call 1 (.verify exWork "ip"),
     .cache (some (1, .verify exWork "ip")) (.retrivePow ⟨exDrawn, "site"⟩) (.config (some ⟨"site", 50, 30⟩)),
     .queue (.accepted "ip" 1), .queue (.served "ip"), .queue (.handed 0 "ip" 1), .queue (.started 0 1), .queue (.ran 0 1),
     .cache (some (1, .verify exWork "ip")) (.cacheResult ⟨exDrawn2, "site", 30⟩) .done,
     .ret 1 (.verify exWork "ip") (.verify (.ok (exDrawn2, 50))),
     .call 2 (.validate ⟨exDrawn2, "site"⟩), .cache (some (2, .validate ⟨exDrawn2, "site"⟩)) (.verify ⟨exDrawn2, "site"⟩) (.verdict true),
     .ret 2 (.validate ⟨exDrawn2, "site"⟩) (.validate (.ok true))] := by decide

/-! ### C56 -/

/-- C56. When a validation of a token for a site returns `true`, then before it a `verify_pow` call put exactly this token into the
cache for exactly this site; the token was not touched from then until this validation looked it up; and before minting it, that call
had taken out of the cache a challenge issued by a `get_pow` call for the same site, at the difficulty the master had told, and its
work solves this challenge at this difficulty. -/
theorem C56_no_token_without_work (lib : PowLib) (p : Profile) (n ql now : Nat) (steps : List SStep) (v : Nat) (msg : VerifyCaptchaResult)
    (pre post : List SEvent) (hlog : logOf lib p n ql now steps = pre ++ .ret v (.validate msg) (.validate (.ok true)) :: post) :
    ∃ g i work ip d duration a b c, pre = a ++
        .cache (some (i, .verify work ip)) (.cacheResult { token := msg.token, key := msg.key, duration := duration }) .done ::
        (b ++ .cache (some (v, .validate msg)) (.verify msg) (.verdict true) :: c) ∧
      untouchedToken msg.token b ∧ work.key = msg.key ∧ TookOut a g i work ip d duration ∧ Solves lib work d := by
  have hs := (facts lib p n ql now steps).si
  obtain ⟨-, hv⟩ := hs.why pre _ post hlog
  obtain ⟨x, c, hx⟩ := List.append_of_mem hv
  have hw := hs.why x _ (c ++ .ret v (.validate msg) (.validate (.ok true)) :: post) (by rw [show (sysRun lib p (Sys.new n ql now) steps).2 = _ from hlog, hx]; simp; rfl)
  obtain ⟨-, -, e⟩ := hw
  simp at e
  obtain ⟨a, sender, r, b, duration, h1, h2⟩ := storedToken_split e
  have hlog' : (sysRun lib p (Sys.new n ql now) steps).2 = a ++ .cache sender (.cacheResult { token := msg.token, key := msg.key, duration := duration }) r ::
      (b ++ .cache (some (v, .validate msg)) (.verify msg) (.verdict true) :: (c ++ .ret v (.validate msg) (.validate (.ok true)) :: post)) := by
    rw [show (sysRun lib p (Sys.new n ql now) steps).2 = _ from hlog, hx, h1]; simp
  have hw2 := hs.why a _ _ hlog'
  cases sender with
  | none => obtain ⟨-, ⟨s, e⟩ | ⟨t, e⟩⟩ := hw2 <;> cases e
  | some q =>
    obtain ⟨i, api⟩ := q
    cases api with
    | get id => obtain ⟨-, -, cfg, res, -, -, -, -, e⟩ := hw2; cases e
    | validate msg' => obtain ⟨-, e, -⟩ := hw2; cases e
    | verify work ip =>
      obtain ⟨-, ⟨e, -⟩ | ⟨hr, t, cfg, hf, hk, hsol, -, e⟩⟩ := hw2
      · cases e
      · injection e with e
        injection e with e1 e2 e3
        have hex : Explained lib a := explained_left (b := _ :: _) (by rw [← hlog']; exact hs.why)
        obtain ⟨g, ht⟩ := tookOut hex hf hk
        refine ⟨g, i, work, ip, cfg.difficultyFactor, duration, a, b, c, ?_, h2, ?_, ?_, hsol⟩
        · rw [hx, h1, hr]; simp
        · rw [← hk, ← e2]
        · rw [e3]; exact ht

/-- The honest run meets the hypothesis. -/
example : ∃ pre post, logOf sysLib ⟨true⟩ 1 5 0 exHonest = pre ++ .ret 2 (.validate ⟨exDrawn2, "site"⟩) (.validate (.ok true)) :: post :=
  List.append_of_mem (by decide)

/-! ### C57 -/

/-- C57. For every challenge string: the successful `verify_pow` calls are at most the tokens minted for it, which are at most the
times it was issued by `get_pow`. -/
theorem C57_one_token_per_challenge (lib : PowLib) (p : Profile) (n ql now : Nat) (steps : List SStep) (s : String) :
    successes s (logOf lib p n ql now steps) ≤ tokensFor s (logOf lib p n ql now steps) ∧
    tokensFor s (logOf lib p n ql now steps) ≤ issues s (logOf lib p n ql now steps) := by
  have h := (facts lib p n ql now steps).si
  have hc := cinv_new lib p n ql now steps
  obtain ⟨cs, hcs⟩ := cache_run lib p (Sys.new n ql now) steps
  have h36 := C36_challenge_once now cs s
  rw [show CacheWorld.init now = (Sys.new n ql now).cache from rfl, hcs] at h36
  simp only at h36
  rw [issued_eq h s] at h36
  have ha := hc.a s
  have hb := hc.b s
  unfold logOf
  omega

/-- C57. For every token: validations answered `true` are at most the times it was minted. -/
theorem C57_one_acceptance_per_token (lib : PowLib) (p : Profile) (n ql now : Nat) (steps : List SStep) (t : String) :
    validations t (logOf lib p n ql now steps) ≤ mints t (logOf lib p n ql now steps) := by
  have h := (facts lib p n ql now steps).si
  have hc := cinv_new lib p n ql now steps
  obtain ⟨cs, hcs⟩ := cache_run lib p (Sys.new n ql now) steps
  have h37 := C37_token_once now cs t
  rw [show CacheWorld.init now = (Sys.new n ql now).cache from rfl, hcs] at h37
  simp only at h37
  rw [tokensIssued_eq h t] at h37
  have ha := hc.c t
  unfold logOf
  omega

/-- The honest visitor sends its work twice at once and the token is validated twice: one success, one acceptance. -/
def exReplay : List SStep :=
  [.call (.get "site"), .master 0 (.reply (.ok (some ⟨30, 50⟩))) (fun _ => 0), .cache 0, .resume 0,
   .call (.verify exWork "ip"), .call (.verify exWork "ip2"), .cache 2, .cache 1, .resume 1, .resume 2, .queue .manage, .resume 2,
   .queue (.take 0), .work 0, .work 0, .work 0, .poll 2 (fun _ => 1), .queue (.finish 0), .cache 2,
   .call (.validate ⟨exDrawn2, "site"⟩), .call (.validate ⟨exDrawn2, "site"⟩), .cache 4, .cache 3, .resume 3, .resume 4, .resume 2]

example : let log := logOf sysLib ⟨true⟩ 1 5 0 exReplay
    issues exDrawn log = 1 ∧ successes exDrawn log = 1 ∧ mints exDrawn2 log = 1 ∧ validations exDrawn2 log = 1 ∧
    .ret 1 (.verify exWork "ip") (.verify (.error .stringNotFound)) ∈ log ∧
    .ret 3 (.validate ⟨exDrawn2, "site"⟩) (.validate (.ok false)) ∈ log := by decide

/-! ### C58 -/

/-- What `get_pow` returned is what it issued. -/
theorem quoted {lib : PowLib} {s : Sys} {log : List SEvent} (h : Facts lib s log) {pre post : List SEvent} (hlog : log = pre ++ post)
    {g i : Nat} {work : Work} {ip : String} {d dur : Nat} (ht : TookOut pre g i work ip d dur) (id : String) (cfg : PoWConfig)
    (hr : .ret g (.get id) (.get (.ok (some cfg))) ∈ log) :
    id = work.key ∧ cfg.string = work.string ∧ cfg.difficultyFactor = d := by
  obtain ⟨a, b, c, h1, -⟩ := ht
  obtain ⟨x, y, hx, hw⟩ := explained_mem h.si.why hr
  obtain ⟨-, ⟨duration, hiss⟩, -⟩ := hw
  have e := asked_once h.ai (i := g) (k := .pow)
    (x := .cache (some (g, .get work.key)) (.cachePow { string := work.string, difficultyFactor := d, duration := dur, key := work.key }) .done)
    (y := .cache (some (g, .get id)) (.cachePow { string := cfg.string, difficultyFactor := cfg.difficultyFactor, duration := duration, key := id }) .done)
    (by rw [hlog, h1]; simp) (by rw [hx]; exact List.mem_append_left _ hiss) rfl rfl
  simp at e
  exact ⟨e.1.symm, e.2.1.symm, e.2.2.1.symm⟩

/-- C58. A successful `verify_pow` returns the difficulty its challenge was issued at; its proof was sufficient at this difficulty;
and the `get_pow` call which issued the challenge, if it returns, quotes this difficulty for this string and site. -/
theorem C58_difficulty_enforced_is_quoted (lib : PowLib) (p : Profile) (n ql now : Nat) (steps : List SStep) (i : Nat) (work : Work)
    (ip t : String) (d : Nat) (pre post : List SEvent)
    (hlog : logOf lib p n ql now steps = pre ++ .ret i (.verify work ip) (.verify (.ok (t, d))) :: post) :
    ∃ g duration, TookOut pre g i work ip d duration ∧ Solves lib work d ∧
      ∀ id cfg, .ret g (.get id) (.get (.ok (some cfg))) ∈ logOf lib p n ql now steps →
        id = work.key ∧ cfg.string = work.string ∧ cfg.difficultyFactor = d := by
  have h := facts lib p n ql now steps
  obtain ⟨-, -, ⟨cfg, hf, hk, hd⟩, hsol⟩ := h.si.why pre _ post hlog
  have hex : Explained lib pre := explained_left (b := _ :: _) (by rw [← hlog]; exact h.si.why)
  obtain ⟨g, ht⟩ := tookOut hex hf hk
  rw [hd] at ht
  exact ⟨g, cfg.duration, ht, hsol, fun id cfg' hr => quoted h hlog ht id cfg' hr⟩

/-- C58. A proof rejected as insufficient, in a run without crashing jobs, indeed does not solve its challenge at the difficulty it was
issued at and quoted for. -/
theorem C58_rejected_at_quoted (lib : PowLib) (p : Profile) (n ql now : Nat) (steps : List SStep) (i : Nat) (work : Work) (ip : String)
    (pre post : List SEvent)
    (hlog : logOf lib p n ql now steps = pre ++ .ret i (.verify work ip) (.verify (.error .insuffiencientDifficulty)) :: post)
    (hc : ¬ SomeCrash pre) :
    ∃ g d duration, TookOut pre g i work ip d duration ∧ ¬ Solves lib work d ∧
      ∀ id cfg, .ret g (.get id) (.get (.ok (some cfg))) ∈ logOf lib p n ql now steps →
        id = work.key ∧ cfg.string = work.string ∧ cfg.difficultyFactor = d := by
  have h := facts lib p n ql now steps
  rcases h.ji.why pre _ post hlog with hx | ⟨cfg, hf, hk, hsol⟩
  · exact absurd hx hc
  have hex : Explained lib pre := explained_left (b := _ :: _) (by rw [← hlog]; exact h.si.why)
  obtain ⟨g, ht⟩ := tookOut hex hf hk
  exact ⟨g, cfg.difficultyFactor, cfg.duration, ht, hsol, fun id cfg' hr => quoted h hlog ht id cfg' hr⟩

/-- The level of the site moved from 50 to 90 before the work was sent: it is still checked at 50. -/
def exMoved : List SStep :=
  [.call (.get "site"), .master 0 (.reply (.ok (some ⟨30, 50⟩))) (fun _ => 0), .cache 0, .resume 0,
   .call (.get "site"), .master 1 (.reply (.ok (some ⟨30, 90⟩))) (fun _ => 1), .cache 1, .resume 1,
   .call (.verify exWork "ip"), .cache 2, .resume 2, .queue .manage, .resume 2,
   .queue (.take 0), .work 0, .work 0, .work 0, .poll 2 (fun _ => 2), .queue (.finish 0), .cache 2, .resume 2,
   .call (.verify { exWork with string := exDrawn2, result := exDrawn2 } "ip2"), .cache 3, .resume 3, .queue .manage, .queue .manage, .resume 3,
   .queue (.take 0), .work 0, .work 0, .work 0, .work 0, .poll 3 (fun _ => 3)]

example : let log := logOf sysLib ⟨true⟩ 1 5 0 exMoved
    .ret 2 (.verify exWork "ip") (.verify (.ok (getRandom 32 (fun _ => 2), 50))) ∈ log ∧
    .ret 1 (.get "site") (.get (.ok (some ⟨exDrawn2, 90, "salt"⟩))) ∈ log ∧
    .ret 3 (.verify { exWork with string := exDrawn2, result := exDrawn2 } "ip2") (.verify (.error .insuffiencientDifficulty)) ∈ log := by
  decide

/-! ### C59 -/

/-- C59. Call `i`, a `verify_pow`, finds its challenge. Then, whatever becomes of call `i`, every later lookup of this string by any
`verify_pow` finds nothing, until the string is issued again. -/
theorem C59_challenge_used_up (lib : PowLib) (p : Profile) (n ql now : Nat) (steps : List SStep) (i j : Nat) (work work' : Work)
    (ip ip' : String) (cfg : CachedPoWConfig) (r : CacheReply) (a b c : List SEvent) (hw : work'.string = work.string)
    (hlog : logOf lib p n ql now steps = a ++
      .cache (some (i, .verify work ip)) (.retrivePow { token := work.string, key := work.key }) (.config (some cfg)) :: (b ++
      .cache (some (j, .verify work' ip')) (.retrivePow { token := work'.string, key := work'.key }) r :: c))
    (hn : ∀ sender m r', .cache sender (.cachePow m) r' ∈ b → m.string ≠ work.string) : r = .config none :=
  lookup_again (facts lib p n ql now steps).si.why hlog hw.symm (by rw [hw]; exact hn)

/-- C59. Any other `verify_pow` call for the same string which had not looked it up by then can only return `StringNotFound` (or a
mailbox error when the cache is gone), until the string is issued again. -/
theorem C59_later_attempts_fail (lib : PowLib) (p : Profile) (n ql now : Nat) (steps : List SStep) (i j : Nat) (work work' : Work)
    (ip ip' : String) (cfg : CachedPoWConfig) (r : Ret) (a b : List SEvent) (hw : work'.string = work.string) (hij : j ≠ i)
    (hlog : logOf lib p n ql now steps = a ++
      .cache (some (i, .verify work ip)) (.retrivePow { token := work.string, key := work.key }) (.config (some cfg)) :: b)
    (hj : ∀ api v r', .cache (some (j, api)) (.retrivePow v) r' ∉ a)
    (hn : ∀ sender m r', .cache sender (.cachePow m) r' ∈ b → m.string ≠ work.string)
    (hr : .ret j (.verify work' ip') r ∈ b) :
    r = .verify (.error .stringNotFound) ∨ r = .verify (.error .mailboxError) := by
  have h := facts lib p n ql now steps
  obtain ⟨x, y, hxy⟩ := List.append_of_mem hr
  have hlog' : logOf lib p n ql now steps = (a ++
      .cache (some (i, .verify work ip)) (.retrivePow { token := work.string, key := work.key }) (.config (some cfg)) :: x) ++
      .ret j (.verify work' ip') r :: y := by rw [hlog, hxy]; simp
  have hnot : ∀ cfg', ¬ Found (a ++
      .cache (some (i, .verify work ip)) (.retrivePow { token := work.string, key := work.key }) (.config (some cfg)) :: x) j work' ip' cfg' := by
    intro cfg' hf
    rcases List.mem_append.1 hf with hf | hf
    · exact hj _ _ _ hf
    · rcases List.mem_cons.1 hf with e | hf
      · simp at e; exact hij e.1.1
      · obtain ⟨x1, x2, hx⟩ := List.append_of_mem hf
        have := C59_challenge_used_up lib p n ql now steps i j work work' ip ip' cfg (.config (some cfg')) a x1 (x2 ++ .ret j (.verify work' ip') r :: y) hw
          (by rw [hlog, hxy, hx]; simp) (fun sender m r' hm => hn sender m r' (by rw [hxy, hx]; simp [hm]))
        cases this
  have hw1 := h.si.why _ _ y hlog'
  have hw2 := h.ui.why _ _ y hlog'
  cases r with
  | get _ => exact absurd hw1 id
  | validate _ => exact absurd hw1 id
  | verify r =>
    cases r with
    | ok td => obtain ⟨-, -, -, cfg', hf⟩ := hw2; exact absurd hf (hnot cfg')
    | error e =>
      obtain ⟨-, hw1⟩ := hw1
      obtain ⟨-, hw2⟩ := hw2
      rcases hw1 with ⟨rfl, -⟩ | ⟨rfl, cfg', hf, -⟩ | ⟨rfl, -⟩ | ⟨rfl, -, cfg', hf, -⟩ | rfl | rfl
      · exact .inl rfl
      · exact absurd hf (hnot cfg')
      · rcases hw2 with ⟨e, -⟩ | ⟨e, -⟩ | ⟨-, -, -, cfg', hf, -⟩ | ⟨e, -⟩ | ⟨e, -⟩ | ⟨e, -⟩ <;> first | (exact absurd hf (hnot cfg')) | cases e
      · exact absurd hf (hnot cfg')
      · rcases hw2 with ⟨e, -⟩ | ⟨e, -⟩ | ⟨e, -⟩ | ⟨e, -⟩ | ⟨-, -, -, cfg', hf, -⟩ | ⟨e, -⟩ <;> first | (exact absurd hf (hnot cfg')) | cases e
      · exact .inr rfl

/-- A first attempt with the wrong key uses the challenge up: the right key comes too late. -/
def exBurnt : List SStep :=
  [.call (.get "site"), .master 0 (.reply (.ok (some ⟨30, 50⟩))) (fun _ => 0), .cache 0, .resume 0,
   .call (.verify { exWork with key := "evil" } "ip"), .cache 1, .cancel 1, .call (.verify exWork "ip"), .cache 2, .resume 2]

example : logOf sysLib ⟨true⟩ 1 5 0 exBurnt =
    [.call 0 (.get "site"), .master 0 (.reply (.ok (some ⟨30, 50⟩))),
     .cache (some (0, .get "site")) (.cachePow ⟨exDrawn, 50, 30, "site"⟩) .done,
     .ret 0 (.get "site") (.get (.ok (some ⟨exDrawn, 50, "salt"⟩))),
     .call 1 (.verify { exWork with key := "evil" } "ip"),
     .cache (some (1, .verify { exWork with key := "evil" } "ip")) (.retrivePow ⟨exDrawn, "evil"⟩) (.config (some ⟨"site", 50, 30⟩)),
     .cancelled 1, .call 2 (.verify exWork "ip"),
     .cache (some (2, .verify exWork "ip")) (.retrivePow ⟨exDrawn, "site"⟩) (.config none),
     .ret 2 (.verify exWork "ip") (.verify (.error .stringNotFound))] := by decide

/-! ### C61 -/

/-- C61. What `get_pow(id)` returns, for every answer of the master: a challenge only if the master answered with a difficulty; then
the challenge has this difficulty, the configured salt and a 32 character random string, and it was put into the cache for `id`, with
the master's duration, before the call returned. `None` if the master answered `None` or an error. Errors only when the master or the
cache could not be reached. -/
theorem C61_get_pow_outcome (lib : PowLib) (p : Profile) (n ql now : Nat) (steps : List SStep) (i : Nat) (id : String) (r : Ret)
    (pre post : List SEvent) (hlog : logOf lib p n ql now steps = pre ++ .ret i (.get id) r :: post) :
    match r with
    | .get (.ok (some cfg)) => cfg.salt = lib.salt ∧ (∃ g, cfg.string = getRandom 32 g) ∧ ∃ res : AddVisitorResult,
        .master i (.reply (.ok (some res))) ∈ pre ∧ cfg.difficultyFactor = res.difficultyFactor ∧
        .cache (some (i, .get id))
          (.cachePow { string := cfg.string, difficultyFactor := res.difficultyFactor, duration := res.duration, key := id }) .done ∈ pre
    | .get (.ok none) => .master i (.reply (.ok none)) ∈ pre ∨ ∃ e, .master i (.reply (.error e)) ∈ pre
    | .get (.error .mailboxError) => .master i .mailboxError ∈ pre ∨ ∃ res, .master i (.reply (.ok (some res))) ∈ pre
    | .get (.error .recvError) => .master i .recvError ∈ pre
    | _ => False := by
  have h := facts lib p n ql now steps
  have hw := h.si.why pre _ post hlog
  cases r with
  | verify _ => exact hw
  | validate _ => exact hw
  | get r =>
    cases r with
    | error e =>
      obtain ⟨-, ⟨rfl, hm⟩ | ⟨rfl, hm⟩⟩ := hw
      · exact hm
      · exact hm
    | ok o =>
      cases o with
      | none => exact hw.2
      | some cfg =>
        obtain ⟨-, ⟨dur, hc⟩, hs, res, hm, hd⟩ := hw
        have hex : Explained lib pre := explained_left (b := _ :: _) (by rw [← hlog]; exact h.si.why)
        obtain ⟨x, y, hx, -, -, cfg', res', hm', -, hd', hg, e⟩ := explained_mem hex hc
        injection e with e
        injection e with e1 e2 e3 e4
        have := asked_once h.ai (i := i) (k := .master) (x := .master i (.reply (.ok (some res)))) (y := .master i (.reply (.ok (some res'))))
          (by rw [show (sysRun lib p (Sys.new n ql now) steps).2 = _ from hlog]; simp [hm])
          (by rw [show (sysRun lib p (Sys.new n ql now) steps).2 = _ from hlog, hx]; simp [hm']) rfl rfl
        simp at this
        subst this
        refine ⟨hs, ?_, res, hm, hd, ?_⟩
        · rw [e1]; exact hg
        · rw [← hd, ← e3]; exact hc

/-- C61, the other way round: once the master has counted the visitor, `get_pow` returns a challenge, unless the cache is gone; once the
master has answered `None` or an error, it returns `None`. -/
theorem C61_master_decides (lib : PowLib) (p : Profile) (n ql now : Nat) (steps : List SStep) (i : Nat) (id : String) (r : Ret)
    (m : MasterAnswer) (pre post : List SEvent) (hlog : logOf lib p n ql now steps = pre ++ .ret i (.get id) r :: post) :
    .master i m ∈ pre →
    match m with
    | .reply (.ok (some res)) => r = .get (.error .mailboxError) ∨ ∃ cfg, r = .get (.ok (some cfg)) ∧ cfg.difficultyFactor = res.difficultyFactor
    | .reply (.ok none) => r = .get (.ok none)
    | .reply (.error _) => r = .get (.ok none)
    | .recvError => r = .get (.error .recvError)
    | .mailboxError => r = .get (.error .mailboxError) := by
  intro hm
  have h := facts lib p n ql now steps
  have hw := C61_get_pow_outcome lib p n ql now steps i id r pre post hlog
  have one : ∀ m', .master i m' ∈ pre → m' = m := by
    intro m' hm'
    have := asked_once h.ai (i := i) (k := .master) (x := .master i m') (y := .master i m)
      (by rw [show (sysRun lib p (Sys.new n ql now) steps).2 = _ from hlog]; simp [hm'])
      (by rw [show (sysRun lib p (Sys.new n ql now) steps).2 = _ from hlog]; simp [hm]) rfl rfl
    simpa using this
  clear hm
  cases r with
  | verify _ => exact hw.elim
  | validate _ => exact hw.elim
  | get r =>
    cases r with
    | error e =>
      cases e with
      | mailboxError =>
        rcases hw with hw | ⟨res, hw⟩
        · rw [← one _ hw]
        · rw [← one _ hw]; exact .inl rfl
      | recvError => rw [← one _ hw]
      | _ => exact hw.elim
    | ok o =>
      cases o with
      | none =>
        rcases hw with hw | ⟨e, hw⟩
        · rw [← one _ hw]
        · rw [← one _ hw]
      | some cfg =>
        obtain ⟨-, -, res, hm', hd, -⟩ := hw
        rw [← one _ hm']
        exact .inr ⟨cfg, rfl, hd⟩

def exGets : List SStep :=
  [.call (.get "site"), .call (.get "nobody"), .call (.get "broken"), .master 1 (.reply (.ok none)) (fun _ => 0),
   .master 2 (.reply (.error .mailboxError)) (fun _ => 0), .master 0 (.reply (.ok (some ⟨30, 50⟩))) (fun _ => 0), .cache 0, .resume 0]

example : let log := logOf sysLib ⟨true⟩ 1 5 0 exGets
    .ret 1 (.get "nobody") (.get (.ok none)) ∈ log ∧ .ret 2 (.get "broken") (.get (.ok none)) ∈ log ∧
    .ret 0 (.get "site") (.get (.ok (some ⟨exDrawn, 50, "salt"⟩))) ∈ log := by decide

/-! ### C62 -/

/-- C62. `verify_pow` looks its challenge up once, and finds what the latest message about this string left there. -/
theorem C62_lookup (lib : PowLib) (p : Profile) (n ql now : Nat) (steps : List SStep) (i : Nat) (work : Work) (ip : String)
    (v : VerifyCaptchaResult) (r : CacheReply) (pre post : List SEvent)
    (hlog : logOf lib p n ql now steps = pre ++ .cache (some (i, .verify work ip)) (.retrivePow v) r :: post) :
    v = { token := work.string, key := work.key } ∧ r = .config (storedChallenge (msgs (cacheTrace pre)) work.string) ∧
    ∀ api v' r', .cache (some (i, api)) (.retrivePow v') r' ∉ pre ++ post := by
  have h := facts lib p n ql now steps
  obtain ⟨-, ⟨e, hr⟩ | ⟨-, t, cfg, -, -, -, -, e⟩⟩ := h.si.why pre _ post hlog
  · refine ⟨by simpa using e, hr, ?_⟩
    intro api v' r' hm
    have hle : retrievals i (logOf lib p n ql now steps) ≤ 1 := by
      cases hc : (sysRun lib p (Sys.new n ql now) steps).1.calls[i]? with
      | some c => exact (h.ui.calls i c hc).look.1
      | none => rw [(h.ui.fresh i (List.getElem?_eq_none_iff.1 hc)).2.2.2.1]; exact Nat.zero_le _
    rw [hlog, retrievals, List.countP_append, List.countP_cons_of_pos (by simp)] at hle
    have : 0 < retrievals i (pre ++ post) := by
      unfold retrievals
      exact List.countP_pos_iff.2 ⟨_, hm, by simp⟩
    rw [retrievals, List.countP_append] at this
    omega
  · cases e

/-- C62. `StringNotFound` iff the challenge was not in the cache; `MCaptchaKeyValidationFail` iff it was there, issued for another
site; `QueueFull` iff the queue refused the job; a bad proof the queue accepted gives `InsuffiencientDifficulty`; success only with a
good proof; `InvalidPoW` never. -/
theorem C62_error_classification (lib : PowLib) (p : Profile) (n ql now : Nat) (steps : List SStep) (i : Nat) (work : Work) (ip : String)
    (r : CaptchaResult (String × Nat)) (pre post : List SEvent)
    (hlog : logOf lib p n ql now steps = pre ++ .ret i (.verify work ip) (.verify r) :: post) :
    (r = .error .stringNotFound ↔
      .cache (some (i, .verify work ip)) (.retrivePow { token := work.string, key := work.key }) (.config none) ∈ pre) ∧
    (r = .error .mCaptchaKeyValidationFail ↔ ∃ cfg, Found pre i work ip cfg ∧ cfg.key ≠ work.key) ∧
    (r = .error .queueFull ↔ ∃ ip', .queue (.refused ip' i) ∈ pre) ∧
    (∀ cfg ip', Found pre i work ip cfg → .queue (.accepted ip' i) ∈ pre → ¬ Solves lib work cfg.difficultyFactor →
      r = .error .insuffiencientDifficulty) ∧
    (∀ t d, r = .ok (t, d) → Solves lib work d) ∧
    r ≠ .error .invalidPoW := by
  have h := facts lib p n ql now steps
  have hw1 := h.si.why pre _ post hlog
  have hw2 := h.ui.why pre _ post hlog
  have hin : ∀ e, e ∈ pre → e ∈ (sysRun lib p (Sys.new n ql now) steps).2 := by
    intro e he
    rw [show (sysRun lib p (Sys.new n ql now) steps).2 = _ from hlog]
    exact List.mem_append_left _ he
  have one : ∀ {r1 r2 : CacheReply}, .cache (some (i, .verify work ip)) (.retrivePow { token := work.string, key := work.key }) r1 ∈ pre →
      .cache (some (i, .verify work ip)) (.retrivePow { token := work.string, key := work.key }) r2 ∈ pre → r1 = r2 :=
    fun a b => (looked_once h.ui (hin _ a) (hin _ b)).2.2
  have onef : ∀ {c1 c2 : CachedPoWConfig}, Found pre i work ip c1 → Found pre i work ip c2 → c1 = c2 := by
    intro c1 c2 a b
    have := one a b
    simpa using this
  have hnone : ∀ {c1 : CachedPoWConfig}, Found pre i work ip c1 →
      .cache (some (i, .verify work ip)) (.retrivePow { token := work.string, key := work.key }) (.config none) ∉ pre := by
    intro c1 a b
    have := one a b
    simp at this
  have hacc : accN i pre = 0 → ∀ ip', .queue (.accepted ip' i) ∉ pre := by
    intro h0 ip' hm
    have := List.countP_eq_zero.1 h0 _ hm
    simp at this
  have href : refN i pre = 0 → ∀ ip', .queue (.refused ip' i) ∉ pre := by
    intro h0 ip' hm
    have := List.countP_eq_zero.1 h0 _ hm
    simp at this
  cases r with
  | ok td =>
    obtain ⟨t, d⟩ := td
    obtain ⟨-, -, ⟨cfg, hf, hk, hd⟩, hsol⟩ := hw1
    obtain ⟨-, ha, hr, -⟩ := hw2
    refine ⟨⟨by simp, fun hm => absurd hm (hnone hf)⟩, ⟨by simp, ?_⟩, ⟨by simp, ?_⟩, ?_, ?_, by simp⟩
    · rintro ⟨c', hf', hk'⟩; rw [onef hf' hf] at hk'; exact absurd hk hk'
    · rintro ⟨ip', hm⟩; exact absurd hm (href hr ip')
    · intro c' ip' hf' _ hs; rw [onef hf' hf, hd] at hs; exact absurd hsol hs
    · intro t' d' e; simp at e; rw [← e.2]; exact hsol
  | error e =>
    obtain ⟨-, hw1⟩ := hw1
    obtain ⟨-, hw2⟩ := hw2
    rcases hw2 with ⟨rfl, ha, hr⟩ | ⟨rfl, ha, hr⟩ | ⟨rfl, ha, hr, cfg, hf, hk⟩ | ⟨rfl, ha, hr⟩ | ⟨rfl, ha, hr, cfg, hf, hk⟩ | ⟨rfl, hm⟩
    · have hm : .cache (some (i, .verify work ip)) (.retrivePow { token := work.string, key := work.key }) (.config none) ∈ pre := by
        rcases hw1 with ⟨-, hm⟩ | ⟨e, -⟩ | ⟨e, -⟩ | ⟨e, -⟩ | e | e <;> first | exact hm | cases e
      refine ⟨⟨fun _ => hm, fun _ => rfl⟩, ⟨by simp, ?_⟩, ⟨by simp, ?_⟩, ?_, by simp, by simp⟩
      · rintro ⟨c', hf', -⟩; exact absurd hm (hnone hf')
      · rintro ⟨ip', hm⟩; exact absurd hm (href hr ip')
      · intro c' ip' hf' _ _; exact absurd hm (hnone hf')
    · have hm : ∃ cfg, Found pre i work ip cfg ∧ cfg.key ≠ work.key := by
        rcases hw1 with ⟨e, -⟩ | ⟨-, hm⟩ | ⟨e, -⟩ | ⟨e, -⟩ | e | e <;> first | exact hm | cases e
      obtain ⟨cfg, hf, hk⟩ := hm
      refine ⟨⟨by simp, fun hm => absurd hm (hnone hf)⟩, ⟨fun _ => ⟨cfg, hf, hk⟩, fun _ => rfl⟩, ⟨by simp, ?_⟩, ?_, by simp, by simp⟩
      · rintro ⟨ip', hm⟩; exact absurd hm (href hr ip')
      · intro c' ip' hf' hm _; exact absurd hm (hacc ha ip')
    · have hm : ∃ ip', .queue (.refused ip' i) ∈ pre := by
        rcases hw1 with ⟨e, -⟩ | ⟨e, -⟩ | ⟨-, hm⟩ | ⟨e, -⟩ | e | e <;> first | exact hm | cases e
      refine ⟨⟨by simp, fun hm => absurd hm (hnone hf)⟩, ⟨by simp, ?_⟩, ⟨fun _ => hm, fun _ => rfl⟩, ?_, by simp, by simp⟩
      · rintro ⟨c', hf', hk'⟩; rw [onef hf' hf] at hk'; exact absurd hk hk'
      · intro c' ip' hf' hm _; exact absurd hm (hacc ha ip')
    · have hm : ∃ cfg, Found pre i work ip cfg ∧ cfg.key = work.key := by
        rcases hw1 with ⟨e, -⟩ | ⟨e, -⟩ | ⟨e, -⟩ | ⟨-, -, hm⟩ | e | e <;> first | exact hm | cases e
      obtain ⟨cfg, hf, hk⟩ := hm
      refine ⟨⟨by simp, fun hm => absurd hm (hnone hf)⟩, ⟨by simp, ?_⟩, ⟨by simp, ?_⟩, fun _ _ _ _ _ => rfl, by simp, by simp⟩
      · rintro ⟨c', hf', hk'⟩; rw [onef hf' hf] at hk'; exact absurd hk hk'
      · rintro ⟨ip', hm⟩; exact absurd hm (href hr ip')
    · refine ⟨⟨by simp, fun hm => absurd hm (hnone hf)⟩, ⟨by simp, ?_⟩, ⟨by simp, ?_⟩, ?_, by simp, by simp⟩
      · rintro ⟨c', hf', hk'⟩; rw [onef hf' hf] at hk'; exact absurd hk hk'
      · rintro ⟨ip', hm⟩; exact absurd hm (href hr ip')
      · intro c' ip' hf' hm _; exact absurd hm (hacc ha ip')
    · rcases hm with ⟨h0, ha, hr⟩ | ⟨ha, hr, cfg, hf, hk, hsol⟩
      · have hno : ∀ r, .cache (some (i, .verify work ip)) (.retrivePow { token := work.string, key := work.key }) r ∉ pre := by
          intro r hm
          have := List.countP_eq_zero.1 h0 _ hm
          simp at this
        refine ⟨⟨by simp, fun hm => absurd hm (hno _)⟩, ⟨by simp, ?_⟩, ⟨by simp, ?_⟩, ?_, by simp, by simp⟩
        · rintro ⟨c', hf', hk'⟩; exact absurd hf' (hno _)
        · rintro ⟨ip', hm⟩; exact absurd hm (href hr ip')
        · intro c' ip' hf' hm _; exact absurd hm (hacc ha ip')
      · refine ⟨⟨by simp, fun hm => absurd hm (hnone hf)⟩, ⟨by simp, ?_⟩, ⟨by simp, ?_⟩, ?_, by simp, by simp⟩
        · rintro ⟨c', hf', hk'⟩; rw [onef hf' hf] at hk'; exact absurd hk hk'
        · rintro ⟨ip', hm⟩; exact absurd hm (href hr ip')
        · intro c' ip' hf' hm hs; rw [onef hf' hf] at hs; exact absurd hsol hs

/-- All five outcomes in one run: queue length 1, so that the second client is refused. -/
def exOutcomes : List SStep :=
  [.call (.get "site"), .master 0 (.reply (.ok (some ⟨30, 50⟩))) (fun _ => 0), .cache 0, .resume 0,
   .call (.get "site"), .master 1 (.reply (.ok (some ⟨30, 50⟩))) (fun _ => 1), .cache 1, .resume 1,
   .call (.get "site"), .master 2 (.reply (.ok (some ⟨30, 50⟩))) (fun _ => 2), .cache 2, .resume 2,
   .call (.verify { exWork with result := "wrong" } "A"), .cache 3, .resume 3, .queue .manage, .resume 3,
   .queue (.take 0), .work 0, .work 0, .work 0, .poll 3 (fun _ => 0),
   .call (.verify { exWork with string := exDrawn2 } "B"), .cache 4, .resume 4, .queue .manage, .resume 4,
   .call (.verify { exWork with string := getRandom 32 (fun _ => 2), key := "other" } "C"), .cache 5, .resume 5,
   .call (.verify exWork "D"), .cache 6, .resume 6]

example : let log := logOf sysLib ⟨true⟩ 1 1 0 exOutcomes
    .ret 3 (.verify { exWork with result := "wrong" } "A") (.verify (.error .insuffiencientDifficulty)) ∈ log ∧
    .ret 4 (.verify { exWork with string := exDrawn2 } "B") (.verify (.error .queueFull)) ∈ log ∧
    .ret 5 (.verify { exWork with string := getRandom 32 (fun _ => 2), key := "other" } "C") (.verify (.error .mCaptchaKeyValidationFail)) ∈ log ∧
    .ret 6 (.verify exWork "D") (.verify (.error .stringNotFound)) ∈ log := by decide

/-! ### C64 -/

/-- The value a list of setter calls leaves. -/
def lastSet {α : Type} (f : BuilderOp → Option α) (ops : List BuilderOp) : Option α := (ops.filterMap f).getLast?

theorem foldl_last {α : Type} (f : BuilderOp → Option α) (get : SystemBuilder → Option α)
    (h : ∀ b op, get (b.apply op) = (f op).or (get b)) (ops : List BuilderOp) (b : SystemBuilder) :
    get (ops.foldl SystemBuilder.apply b) = (lastSet f ops).or (get b) := by
  induction ops generalizing b with
  | nil => simp [lastSet]
  | cons op r ih =>
    rw [List.foldl_cons, ih, h]
    unfold lastSet
    cases hf : f op with
    | none => simp [hf]
    | some x =>
      rw [List.filterMap_cons_some hf, List.getLast?_cons]
      cases (r.filterMap f).getLast? <;> rfl

/-- C64. After any sequence of setter calls, `build` returns a system made of the last values set if master, cache, pow, runners and
queue length were all set at least once, and panics otherwise. -/
theorem C64_builder_needs_all (ops : List BuilderOp) :
    (ops.foldl SystemBuilder.apply SystemBuilder.default).build =
      match lastSet (fun | .master m => some m | _ => none) ops, lastSet (fun | .cache m => some m | _ => none) ops,
        lastSet (fun | .pow m => some m | _ => none) ops, lastSet (fun | .runners m => some m | _ => none) ops,
        lastSet (fun | .queueLength m => some m | _ => none) ops with
      | some m, some c, some l, some n, some q => .ret { master := m, pow := l, cache := c, queue := Queue.new n q }
      | _, _, _, _, _ => .panic .unwrapNone := by
  have h1 := foldl_last (fun | .master m => some m | _ => none) SystemBuilder.master (by intro b op; cases op <;> rfl) ops SystemBuilder.default
  have h2 := foldl_last (fun | .cache m => some m | _ => none) SystemBuilder.cache (by intro b op; cases op <;> rfl) ops SystemBuilder.default
  have h3 := foldl_last (fun | .pow m => some m | _ => none) SystemBuilder.pow (by intro b op; cases op <;> rfl) ops SystemBuilder.default
  have h4 := foldl_last (fun | .runners m => some m | _ => none) SystemBuilder.runners (by intro b op; cases op <;> rfl) ops SystemBuilder.default
  have h5 := foldl_last (fun | .queueLength m => some m | _ => none) SystemBuilder.queueLength (by intro b op; cases op <;> rfl) ops SystemBuilder.default
  simp only [SystemBuilder.default, Option.or_none] at h1 h2 h3 h4 h5
  unfold SystemBuilder.build
  simp only [SystemBuilder.default]
  rw [h1, h2, h3, h4, h5]
  generalize lastSet (fun | .master m => some m | _ => none) ops = a
  generalize lastSet (fun | .cache m => some m | _ => none) ops = b
  generalize lastSet (fun | .pow m => some m | _ => none) ops = c
  generalize lastSet (fun | .runners m => some m | _ => none) ops = d
  generalize lastSet (fun | .queueLength m => some m | _ => none) ops = e
  cases a <;> cases b <;> cases c <;> cases d <;> cases e <;> rfl

/-- Set in any order, runners twice: the last value counts. Without a cache: a panic. -/
example : ([BuilderOp.queueLength 9, .runners 2, .pow sysLib, .cache 1, .runners 4, .master 0].foldl SystemBuilder.apply SystemBuilder.default).build =
      .ret { master := 0, pow := sysLib, cache := 1, queue := Queue.new 4 9 } ∧
    ([BuilderOp.queueLength 9, .runners 2, .pow sysLib, .runners 4, .master 0].foldl SystemBuilder.apply SystemBuilder.default).build =
      .panic .unwrapNone := by
  constructor <;> rfl

/-! ### C75 -/

/-- C75. A call returns at most once, and panics or returns, not both. -/
theorem C75_returns_once (lib : PowLib) (p : Profile) (n ql now : Nat) (steps : List SStep) (i : Nat) :
    ((logOf lib p n ql now steps).filter fun e => match e with | .ret j _ _ => j == i | .panicked j => j == i | _ => false).length ≤ 1 := by
  have h := facts lib p n ql now steps
  rw [← List.countP_eq_length_filter]
  have e : (logOf lib p n ql now steps).countP (fun e => match e with | .ret j _ _ => j == i | .panicked j => j == i | _ => false) =
      retN i (logOf lib p n ql now steps) := rfl
  rw [e]
  cases hc : (sysRun lib p (Sys.new n ql now) steps).1.calls[i]? with
  | some c => exact (h.ui.calls i c hc).once.1
  | none => rw [(h.ui.fresh i (List.getElem?_eq_none_iff.1 hc)).2.2.2.2]; exact Nat.zero_le _

/-- C75. No call panics and no call loses the answer of the queue, even if jobs panic on their workers: while there are calls the manager
thread goes on, or the whole process ends. -/
theorem C75_no_panic (lib : PowLib) (p : Profile) (n ql now : Nat) (steps : List SStep) (i : Nat) :
    .panicked i ∉ logOf lib p n ql now steps ∧
    ∀ work ip, .ret i (.verify work ip) (.verify (.error .recvError)) ∉ logOf lib p n ql now steps := by
  have h := (ginv_new lib p n ql now steps).log
  constructor
  · intro hm; cases h _ hm
  · intro work ip hm; cases h _ hm

/-- With a crash, even a good proof is answered with an error: the only worker crashes while it runs job 3. -/
def exCrash : List SStep :=
  [.call (.get "site"), .master 0 (.reply (.ok (some ⟨30, 50⟩))) (fun _ => 0), .cache 0, .resume 0,
   .call (.get "site"), .master 1 (.reply (.ok (some ⟨30, 50⟩))) (fun _ => 1), .cache 1, .resume 1,
   .call (.get "site"), .master 2 (.reply (.ok (some ⟨30, 50⟩))) (fun _ => 2), .cache 2, .resume 2,
   .call (.verify exWork "A"), .cache 3, .resume 3, .queue .manage, .queue (.take 0), .queue (.crash 0), .resume 3, .poll 3 (fun _ => 0)]

example : let log := logOf sysLib ⟨true⟩ 1 9 0 exCrash
    .ret 3 (.verify exWork "A") (.verify (.error .insuffiencientDifficulty)) ∈ log ∧ .queue (.crashedOn 0 3) ∈ log := by decide

end MCap
