import Verif.Proofs.OpenSystem
import Verif.Props.System

/-!
# C99: the calls of the API with any cache and any master

`openRun lib p (Sys.new n ql now) steps` is an arbitrary execution of a system whose cache and whose master give any answers the types
allow, or fail, at any time.
-/

namespace MCap
open Spec

/-- The log of an execution. -/
abbrev openLog (lib : PowLib) (p : Profile) (n ql now : Nat) (steps : List OStep) : List OEvent :=
  (openRun lib p (Sys.new n ql now) steps).2

/-- A cache that forgets, makes things up and fails. Call 0 gets a challenge that is then handed out twice (calls 1 and 2); storing the
token of call 1 fails; call 3 is told that the site has no challenge; an unknown token is confirmed to call 4; calls 5 and 6 fail. -/
def exOpen : List OStep :=
  [.sys (.call (.get "site")), .sys (.master 0 (.reply (.ok (some ⟨30, 50⟩))) (fun _ => 0)), .cache 0 (.ok .done), .sys (.resume 0),
   .sys (.call (.verify exWork "ip")), .cache 1 (.ok (.config (some ⟨"site", 50, 30⟩))), .sys (.resume 1), .sys (.queue .manage), .sys (.resume 1),
   .sys (.call (.verify exWork "ip2")), .cache 2 (.ok (.config (some ⟨"site", 20, 9⟩))), .sys (.resume 2),
   .sys (.queue (.take 0)), .sys (.work 0), .sys (.work 0), .sys (.work 0), .sys (.poll 1 (fun _ => 1)), .sys (.work 0), .sys (.queue (.finish 0)),
   .cache 1 (.error .mailboxError), .sys (.queue .manage), .sys (.queue .manage), .sys (.resume 2),
   .sys (.queue (.take 0)), .sys (.work 0), .sys (.work 0), .sys (.work 0), .sys (.poll 2 (fun _ => 1)), .cache 2 (.ok .done), .sys (.resume 2),
   .sys (.call (.verify exWork "ip")), .cache 3 (.ok .done), .cache 3 (.ok (.config none)), .sys (.resume 3),
   .sys (.call (.validate ⟨"never", "site"⟩)), .cache 4 (.ok (.verdict true)), .sys (.resume 4),
   .sys (.call (.validate ⟨"x", "site"⟩)), .cache 5 (.error (.redisError "x")), .sys (.call (.get "site")), .sys (.master 6 .mailboxError (fun _ => 0))]

example : openLog sysLib ⟨true⟩ 1 5 0 exOpen =
    [.api (.call 0 (.get "site")), .api (.master 0 (.reply (.ok (some ⟨30, 50⟩)))),
     .api (.cache (some (0, .get "site")) (.cachePow ⟨exDrawn, 50, 30, "site"⟩) .done),
     .api (.ret 0 (.get "site") (.get (.ok (some ⟨exDrawn, 50, "salt"⟩)))),
     .api (.call 1 (.verify exWork "ip")),
     .api (.cache (some (1, .verify exWork "ip")) (.retrivePow ⟨exDrawn, "site"⟩) (.config (some ⟨"site", 50, 30⟩))),
     .api (.queue (.accepted "ip" 1)), .api (.queue (.served "ip")), .api (.queue (.handed 0 "ip" 1)),
     .api (.call 2 (.verify exWork "ip2")),
     .api (.cache (some (2, .verify exWork "ip2")) (.retrivePow ⟨exDrawn, "site"⟩) (.config (some ⟨"site", 20, 9⟩))),
     .api (.queue (.started 0 1)), .api (.queue (.ran 0 1)),
     .failed 1 (.cacheResult ⟨exDrawn2, "site", 30⟩) .mailboxError, .api (.ret 1 (.verify exWork "ip") (.verify (.error .mailboxError))),
     .api (.queue (.accepted "ip2" 2)), .api (.queue (.served "ip2")), .api (.queue (.handed 0 "ip2" 2)), .api (.queue (.served "ip")), .api (.queue (.started 0 2)),
     .api (.cache (some (2, .verify exWork "ip2")) (.cacheResult ⟨exDrawn2, "site", 9⟩) .done),
     .api (.ret 2 (.verify exWork "ip2") (.verify (.ok (exDrawn2, 20)))),
     .api (.call 3 (.verify exWork "ip")), .api (.cache (some (3, .verify exWork "ip")) (.retrivePow ⟨exDrawn, "site"⟩) (.config none)),
     .api (.ret 3 (.verify exWork "ip") (.verify (.error .stringNotFound))),
     .api (.call 4 (.validate ⟨"never", "site"⟩)), .api (.cache (some (4, .validate ⟨"never", "site"⟩)) (.verify ⟨"never", "site"⟩) (.verdict true)),
     .api (.ret 4 (.validate ⟨"never", "site"⟩) (.validate (.ok true))),
     .api (.call 5 (.validate ⟨"x", "site"⟩)), .failed 5 (.verify ⟨"x", "site"⟩) (.redisError "x"),
     .api (.ret 5 (.validate ⟨"x", "site"⟩) (.validate (.error (.redisError "x")))),
     .api (.call 6 (.get "site")), .api (.master 6 .mailboxError), .api (.ret 6 (.get "site") (.get (.error .mailboxError)))] := by decide +kernel

/-- C99. What `verify_pow` returns, for every cache. A token only if, in this order, the cache handed out the challenge of the work, under the
key of the work and with the difficulty returned, and confirmed that it stored the token for this key and for the time it had handed out;
the work solves the challenge at this difficulty and the token is a fresh random string. `StringNotFound` and
`MCaptchaKeyValidationFail` only if the cache handed out no challenge or one of another site, `QueueFull` only if the queue refused the
job, `InsuffiencientDifficulty` only if the work does not solve the challenge handed out, or some job panicked. Every other error is the
one with which a request of this call to the cache failed. -/
theorem C99_verify_outcome (lib : PowLib) (p : Profile) (n ql now : Nat) (steps : List OStep) (i : Nat) (work : Work) (ip : String) (r : Ret)
    (pre post : List OEvent) (hlog : openLog lib p n ql now steps = pre ++ .api (.ret i (.verify work ip) r) :: post) :
    match r with
    | .verify (.ok (t, d)) => ∃ cfg a b c, pre = a ++
          .api (.cache (some (i, .verify work ip)) (.retrivePow { token := work.string, key := work.key }) (.config (some cfg))) :: (b ++
          .api (.cache (some (i, .verify work ip)) (.cacheResult { token := t, key := work.key, duration := cfg.duration }) .done) :: c) ∧
        cfg.key = work.key ∧ cfg.difficultyFactor = d ∧ Solves lib work d ∧ ∃ g, t = getRandom 32 g
    | .verify (.error e) =>
        (e = .stringNotFound ∧
          .api (.cache (some (i, .verify work ip)) (.retrivePow { token := work.string, key := work.key }) (.config none)) ∈ pre) ∨
        (∃ cfg, Found (apiPart pre) i work ip cfg ∧
          ((e = .mCaptchaKeyValidationFail ∧ cfg.key ≠ work.key) ∨
           (e = .queueFull ∧ cfg.key = work.key ∧ ∃ ip', .api (.queue (.refused ip' i)) ∈ pre) ∨
           (e = .insuffiencientDifficulty ∧ cfg.key = work.key ∧ (¬ Solves lib work cfg.difficultyFactor ∨ SomeCrash (apiPart pre))))) ∨
        .failed i (.retrivePow { token := work.string, key := work.key }) e ∈ pre ∨
        ∃ t cfg, .failed i (.cacheResult { token := t, key := work.key, duration := cfg.duration }) e ∈ pre ∧ Found (apiPart pre) i work ip cfg ∧
          cfg.key = work.key ∧ Solves lib work cfg.difficultyFactor
    | _ => False := by
  obtain ⟨m, hm, hi⟩ := oinv_run lib p n ql now steps
  have hfound : ∀ {pre : List OEvent} {mpre : List SEvent}, Masked lib pre mpre → ∀ {cfg : CachedPoWConfig}, Found mpre i work ip cfg →
      Found (apiPart pre) i work ip cfg := by
    intro pre mpre hx cfg hf
    exact mem_apiPart.2 ((masked_mem hx (by simp)).1 hf)
  rcases masked_split hm hlog with ⟨j, a, msg, k, err, pre', m', he, rfl, hm', -, hp, -⟩ | ⟨⟨mpre, mpost, hml, hmp⟩, hcl⟩
  · cases he
    simp only [Api.fails]
    cases k with
    | storePow cfg => obtain ⟨id, _, e, -⟩ := hp; cases e
    | check => obtain ⟨msg', e, -⟩ := hp; cases e
    | retrieve =>
      obtain ⟨w', ip', e, rfl⟩ := hp
      cases e
      exact .inr (.inr (.inl (by simp)))
    | storeResult t d =>
      obtain ⟨w', ip', cfg, e, hf, hk, hd, rfl, hs, -⟩ := hp
      cases e
      refine .inr (.inr (.inr ⟨t, cfg, by rw [← hk]; simp, ?_, hk, ?_⟩))
      · rw [apiPart_append]; exact List.mem_append_left _ (hfound hm' hf)
      · rw [hd]; exact hs
  · have hw := hi.why mpre _ mpost hml
    have hw2 := hi.ui.why mpre _ mpost hml
    have hw3 := hi.ji.why mpre _ mpost hml
    have hg := hi.gi.log (.ret i (.verify work ip) r) (by rw [hml]; simp)
    cases r with
    | get _ => exact hw
    | validate _ => exact hw
    | verify r =>
      cases r with
      | ok td =>
        obtain ⟨t, d⟩ := td
        obtain ⟨-, ⟨dur, hmint⟩, ⟨cfg', hf', -, hd'⟩, -⟩ := hw
        obtain ⟨x, y, hxy⟩ := List.append_of_mem hmint
        obtain ⟨pa, pb, h1, h2⟩ := masked_split_rev hmp (by simp) hxy
        obtain ⟨-, -, k, hp⟩ := hi.why x _ (y ++ .ret i (.verify work ip) (.verify (.ok (t, d))) :: mpost) (by rw [hml, hxy]; simp; rfl)
        cases k with
        | storePow cfg => obtain ⟨id, _, e, -⟩ := hp; cases e
        | check => obtain ⟨msg', e, -⟩ := hp; cases e
        | retrieve => obtain ⟨_, _, _, e⟩ := hp; cases e
        | storeResult t' d2 =>
          obtain ⟨w', ip', cfg, e, hf, hk, hd, e', hs, hg'⟩ := hp
          cases e
          injection e' with e'
          injection e' with e1 e2 e3
          have hle : retrievals i m ≤ 1 := by
            cases hc : (openRun lib p (Sys.new n ql now) steps).1.calls[i]? with
            | some c => exact (hi.ui.calls i c hc).look.1
            | none => rw [(hi.ui.fresh i (List.getElem?_eq_none_iff.1 hc)).2.2.2.1]; exact Nat.zero_le _
          have hsame := two_countP _ m hle (x := SEvent.cache (some (i, .verify work ip)) (.retrivePow { token := work.string, key := work.key }) (.config (some cfg)))
            (y := SEvent.cache (some (i, .verify work ip)) (.retrivePow { token := work.string, key := work.key }) (.config (some cfg')))
            (by rw [hml, hxy]; simp [show _ ∈ x from hf]) (by rw [hml]; simp [show _ ∈ mpre from hf']) (by simp) (by simp)
          simp at hsame
          subst hsame
          obtain ⟨xa, xb, hx⟩ := List.append_of_mem hf
          obtain ⟨a, b, h3, -⟩ := masked_split_rev h2 (by simp) hx
          refine ⟨cfg, a, b, pb, ?_, hk, hd', ?_, ?_⟩
          · rw [h1, h3, e3]; simp
          · rw [← hd', hd]; exact hs
          · rw [e1]; exact hg'
      | error e =>
        obtain ⟨-, hw⟩ := hw
        rcases hw with ⟨rfl, hc⟩ | ⟨rfl, cfg, hf, hk⟩ | ⟨rfl, ip', hq⟩ | ⟨rfl, -, cfg, hf, hk⟩ | rfl | rfl
        · exact .inl ⟨rfl, (masked_mem hmp (by simp)).1 hc⟩
        · exact .inr (.inl ⟨cfg, hfound hmp hf, .inl ⟨rfl, hk⟩⟩)
        · obtain ⟨-, ⟨e, -⟩ | ⟨e, -⟩ | ⟨-, -, -, cfg, hf, hk⟩ | ⟨e, -⟩ | ⟨e, -⟩ | ⟨e, -⟩⟩ := hw2 <;> try (cases e; done)
          exact .inr (.inl ⟨cfg, hfound hmp hf, .inr (.inl ⟨rfl, hk, ip', (masked_mem hmp (by simp)).1 hq⟩)⟩)
        · rcases hw3 with ⟨w, j, hx⟩ | ⟨cfg', hf', hk', hs⟩
          · exact .inr (.inl ⟨cfg, hfound hmp hf, .inr (.inr ⟨rfl, hk, .inr ⟨w, j, mem_apiPart.2 ((masked_mem hmp (by simp)).1 hx)⟩⟩)⟩)
          · exact .inr (.inl ⟨cfg', hfound hmp hf', .inr (.inr ⟨rfl, hk', .inl hs⟩)⟩)
        · cases hg
        · obtain ⟨id, e, -⟩ := hcl i (.verify work ip) rfl
          cases e

/-- The example meets the hypothesis with a token, with `StringNotFound` and with a failed store. -/
example : (∃ pre post, openLog sysLib ⟨true⟩ 1 5 0 exOpen = pre ++ .api (.ret 2 (.verify exWork "ip2") (.verify (.ok (exDrawn2, 20)))) :: post) ∧
    (∃ pre post, openLog sysLib ⟨true⟩ 1 5 0 exOpen = pre ++ .api (.ret 3 (.verify exWork "ip") (.verify (.error .stringNotFound))) :: post) ∧
    ∃ pre post, openLog sysLib ⟨true⟩ 1 5 0 exOpen = pre ++ .api (.ret 1 (.verify exWork "ip") (.verify (.error .mailboxError))) :: post :=
  ⟨List.append_of_mem (by decide +kernel), List.append_of_mem (by decide +kernel), List.append_of_mem (by decide +kernel)⟩

/-- C99. What `validate_verification_tokens` returns, for every cache: the cache's answer to exactly this question, or the error with which
exactly this question failed. -/
theorem C99_validate_outcome (lib : PowLib) (p : Profile) (n ql now : Nat) (steps : List OStep) (i : Nat) (msg : VerifyCaptchaResult) (r : Ret)
    (pre post : List OEvent) (hlog : openLog lib p n ql now steps = pre ++ .api (.ret i (.validate msg) r) :: post) :
    match r with
    | .validate (.ok b) => .api (.cache (some (i, .validate msg)) (.verify msg) (.verdict b)) ∈ pre
    | .validate (.error e) => .failed i (.verify msg) e ∈ pre
    | _ => False := by
  obtain ⟨m, hm, hi⟩ := oinv_run lib p n ql now steps
  rcases masked_split hm hlog with ⟨j, a, msg', k, err, pre', m', he, rfl, hm', -, hp, -⟩ | ⟨⟨mpre, mpost, hml, hmp⟩, hcl⟩
  · cases he
    simp only [Api.fails]
    cases k with
    | storePow cfg => obtain ⟨id, _, e, -⟩ := hp; cases e
    | retrieve => obtain ⟨_, _, e, -⟩ := hp; cases e
    | storeResult t d => obtain ⟨_, _, _, e, -⟩ := hp; cases e
    | check => obtain ⟨_, e, rfl⟩ := hp; cases e; simp
  · have hw := hi.why mpre _ mpost hml
    cases r with
    | get _ => exact hw
    | verify _ => exact hw
    | validate r =>
      cases r with
      | ok b => exact (masked_mem hmp (by simp)).1 hw.2
      | error e =>
        obtain ⟨-, rfl⟩ := hw
        obtain ⟨id, e, -⟩ := hcl i (.validate msg) rfl
        cases e

/-- The example meets the hypothesis with a verdict and with an error. -/
example : (∃ pre post, openLog sysLib ⟨true⟩ 1 5 0 exOpen = pre ++ .api (.ret 4 (.validate ⟨"never", "site"⟩) (.validate (.ok true))) :: post) ∧
    ∃ pre post, openLog sysLib ⟨true⟩ 1 5 0 exOpen = pre ++ .api (.ret 5 (.validate ⟨"x", "site"⟩) (.validate (.error (.redisError "x")))) :: post :=
  ⟨List.append_of_mem (by decide +kernel), List.append_of_mem (by decide +kernel)⟩

/-- C99. What `get_pow` returns, for every cache and every master: a challenge only if the master answered with a difficulty and the cache
confirmed that it stored this challenge for this site at this difficulty and for the time the master told; the challenge has the configured
salt and a random string. `None` only if the master answered `None` or an error. Errors only when the master could not be reached or did
not answer, or a store of a challenge of this site failed with this error. -/
theorem C99_get_outcome (lib : PowLib) (p : Profile) (n ql now : Nat) (steps : List OStep) (i : Nat) (id : String) (r : Ret)
    (pre post : List OEvent) (hlog : openLog lib p n ql now steps = pre ++ .api (.ret i (.get id) r) :: post) :
    match r with
    | .get (.ok (some cfg)) => cfg.salt = lib.salt ∧ (∃ g, cfg.string = getRandom 32 g) ∧ ∃ res : AddVisitorResult,
        .api (.master i (.reply (.ok (some res)))) ∈ pre ∧ cfg.difficultyFactor = res.difficultyFactor ∧
        .api (.cache (some (i, .get id))
          (.cachePow { string := cfg.string, difficultyFactor := res.difficultyFactor, duration := res.duration, key := id }) .done) ∈ pre
    | .get (.ok none) => .api (.master i (.reply (.ok none))) ∈ pre ∨ ∃ e, .api (.master i (.reply (.error e))) ∈ pre
    | .get (.error e) => (e = .mailboxError ∧ .api (.master i .mailboxError) ∈ pre) ∨ (e = .recvError ∧ .api (.master i .recvError) ∈ pre) ∨
        ∃ string, ∃ res : AddVisitorResult, .api (.master i (.reply (.ok (some res)))) ∈ pre ∧
          .failed i (.cachePow { string := string, difficultyFactor := res.difficultyFactor, duration := res.duration, key := id }) e ∈ pre
    | _ => False := by
  obtain ⟨m, hm, hi⟩ := oinv_run lib p n ql now steps
  rcases masked_split hm hlog with ⟨j, a, msg', k, err, pre', m', he, rfl, hm', -, hp, -⟩ | ⟨⟨mpre, mpost, hml, hmp⟩, hcl⟩
  · cases he
    simp only [Api.fails]
    cases k with
    | check => obtain ⟨_, e, -⟩ := hp; cases e
    | retrieve => obtain ⟨_, _, e, -⟩ := hp; cases e
    | storeResult t d => obtain ⟨_, _, _, e, -⟩ := hp; cases e
    | storePow cfg =>
      obtain ⟨_, res, e, -, hd, -, hres, rfl⟩ := hp
      cases e
      refine .inr (.inr ⟨cfg.string, res, List.mem_append_left _ ((masked_mem hm' (by simp)).1 hres), ?_⟩)
      rw [← hd]; simp
  · have hw := hi.why mpre _ mpost hml
    cases r with
    | verify _ => exact hw
    | validate _ => exact hw
    | get r =>
      cases r with
      | error e =>
        obtain ⟨-, ⟨rfl, hx⟩ | ⟨rfl, hx⟩⟩ := hw
        · obtain ⟨_, -, hx⟩ := hcl i (.get id) rfl
          exact .inl ⟨rfl, hx⟩
        · exact .inr (.inl ⟨rfl, (masked_mem hmp (by simp)).1 hx⟩)
      | ok o =>
        cases o with
        | none =>
          rcases hw.2 with hx | ⟨e, hx⟩
          · exact .inl ((masked_mem hmp (by simp)).1 hx)
          · exact .inr ⟨e, (masked_mem hmp (by simp)).1 hx⟩
        | some cfg =>
          obtain ⟨-, ⟨dur, hc⟩, hs, -⟩ := hw
          obtain ⟨x, y, hxy⟩ := List.append_of_mem hc
          obtain ⟨-, -, k, hp⟩ := hi.why x _ (y ++ .ret i (.get id) (.get (.ok (some cfg))) :: mpost) (by rw [hml, hxy]; simp; rfl)
          cases k with
          | check => obtain ⟨_, e, -⟩ := hp; cases e
          | retrieve => obtain ⟨_, _, e, -⟩ := hp; cases e
          | storeResult t d => obtain ⟨_, _, _, e, -⟩ := hp; cases e
          | storePow cfg' =>
            obtain ⟨_, res, e, -, hd, hg, hres, e'⟩ := hp
            cases e
            injection e' with e'
            injection e' with e1 e2 e3 e4
            refine ⟨hs, by rw [e1]; exact hg, res, ?_, by rw [e2, hd], ?_⟩
            · exact (masked_mem hmp (by simp)).1 (by rw [hxy]; exact List.mem_append_left _ hres)
            · rw [← hd, ← e2, ← e3]
              exact (masked_mem hmp (by simp)).1 hc

/-- The example meets the hypothesis with a challenge and with an error. -/
example : (∃ pre post, openLog sysLib ⟨true⟩ 1 5 0 exOpen = pre ++ .api (.ret 0 (.get "site") (.get (.ok (some ⟨exDrawn, 50, "salt"⟩)))) :: post) ∧
    ∃ pre post, openLog sysLib ⟨true⟩ 1 5 0 exOpen = pre ++ .api (.ret 6 (.get "site") (.get (.error .mailboxError))) :: post :=
  ⟨List.append_of_mem (by decide +kernel), List.append_of_mem (by decide +kernel)⟩

/-- C99. Every call returns at most once, and none panics. -/
theorem C99_returns_once (lib : PowLib) (p : Profile) (n ql now : Nat) (steps : List OStep) (i : Nat) :
    (openLog lib p n ql now steps).countP (ends i) ≤ 1 ∧ .api (.panicked i) ∉ openLog lib p n ql now steps := by
  obtain ⟨m, hm, hi⟩ := oinv_run lib p n ql now steps
  refine ⟨?_, ?_⟩
  · rw [masked_ends hm i]
    cases hc : (openRun lib p (Sys.new n ql now) steps).1.calls[i]? with
    | some c => exact (hi.ui.calls i c hc).once.1
    | none => rw [(hi.ui.fresh i (List.getElem?_eq_none_iff.1 hc)).2.2.2.2]; exact Nat.zero_le _
  · intro h
    exact absurd (hi.gi.log _ ((masked_mem hm (by simp)).2 h)) (by simp [tellsGone])

example : (openLog sysLib ⟨true⟩ 1 5 0 exOpen).countP (ends 1) = 1 := by decide +kernel

/-- C99. For every cache: the successful `verify_pow` calls for a challenge are at most the tokens they asked the cache to store, which are at
most the times the cache handed the challenge out; the validations of a token that return `true` are at most the times the cache said so. -/
theorem C99_counts (lib : PowLib) (p : Profile) (n ql now : Nat) (steps : List OStep) (x : String) :
    let log := apiPart (openLog lib p n ql now steps)
    successes x log ≤ tokensFor x log ∧ tokensFor x log ≤ handedOut x (cacheTrace log) ∧ validations x log ≤ accepted x (cacheTrace log) := by
  obtain ⟨m, hm, hi⟩ := oinv_run lib p n ql now steps
  have h1 : successes x m = successes x (apiPart (openLog lib p n ql now steps)) := masked_count hm _ (by intro i a e; cases a <;> rfl)
  have h2 : tokensFor x m = tokensFor x (apiPart (openLog lib p n ql now steps)) := masked_count hm _ (by intro i a e; cases a <;> rfl)
  have h3 : validations x m = validations x (apiPart (openLog lib p n ql now steps)) := masked_count hm _ (by intro i a e; cases a <;> rfl)
  have ha := hi.ci.a x
  have hb := hi.ci.b x
  have hc := hi.ci.c x
  rw [masked_cache hm] at ha hc
  rw [h1, h2] at hb
  rw [h2] at ha
  rw [h3] at hc
  simp only [openLog] at h1 h2 h3 ha hb hc ⊢
  exact ⟨by omega, by omega, by omega⟩

example : let log := apiPart (openLog sysLib ⟨true⟩ 1 5 0 exOpen)
    successes exDrawn log = 1 ∧ tokensFor exDrawn log = 1 ∧ handedOut exDrawn (cacheTrace log) = 2 ∧
    validations "never" log = 1 ∧ accepted "never" (cacheTrace log) = 1 := by decide +kernel

end MCap
