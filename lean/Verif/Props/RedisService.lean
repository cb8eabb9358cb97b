import Verif.Proofs.RedisCalm
import Verif.Props.OpenSystem

/-!
# C100 to C104: a whole service on Redis

`zLog lib p n ql now conns steps` is the log of an arbitrary execution of the service of Model/RedisService: actor 0 is its cache, actor 1
its master, any number of other actors and clients use the same server.
-/

namespace MCap
open Spec

/-- The numbers of a challenge as the server sends them. -/
def exReply : RResult := .ok (.bulk "{\"duration\":30,\"difficulty_factor\":50}")

/-- A visitor gets a challenge, solves it, gets a token; the site validates it, once with success. -/
def exRedis : List ZStep :=
  [.sys (.call (.get "site")), .ask 0, .net (.take 1), .net (.serve 0 exReply), .net (.deliver 1 0), .hear 0 (fun _ => 0),
   .ask 0, .net (.take 0), .net (.serve 0 (.ok .okay)), .net (.deliver 0 0), .hear 0 (fun _ => 0), .sys (.resume 0),
   .sys (.call (.verify exWork "ip")), .ask 1, .net (.take 0), .net (.serve 0 exReply), .net (.deliver 0 0), .hear 1 (fun _ => 0), .sys (.resume 1),
   .sys (.queue .manage), .sys (.resume 1), .sys (.queue (.take 0)), .sys (.work 0), .sys (.work 0), .sys (.work 0), .sys (.poll 1 (fun _ => 1)),
   .sys (.work 0), .sys (.queue (.finish 0)), .ask 1, .net (.take 0), .net (.serve 0 (.ok .nil)), .net (.deliver 0 0), .hear 1 (fun _ => 0), .sys (.resume 1),
   .sys (.call (.validate ⟨exDrawn2, "site"⟩)), .ask 2, .net (.take 0), .net (.serve 0 (.ok .nil)), .net (.deliver 0 0), .hear 2 (fun _ => 0), .sys (.resume 2),
   .sys (.call (.validate ⟨exDrawn2, "site"⟩)), .ask 3, .net (.take 0), .net (.serve 0 (.ok .nil)), .net (.deliver 0 0), .hear 3 (fun _ => 0), .sys (.resume 3),
   .sys (.call (.get "site")), .ask 4, .net (.take 1), .net (.fail 1 "broken pipe"), .hear 4 (fun _ => 0),
   .sys (.call (.validate ⟨exDrawn2, "site"⟩)), .ask 5, .net (.take 0), .net (.fail 0 "broken pipe"), .hear 5 (fun _ => 0)]

/-- What the callers are told. -/
example : (atCalls (zLog sysLib ⟨true⟩ 1 5 0 [0, 1] exRedis)).filter (fun e => match e with | .api (.ret _ _ _) => true | _ => false) =
    [.api (.ret 0 (.get "site") (.get (.ok (some ⟨exDrawn, 50, "salt"⟩)))), .api (.ret 1 (.verify exWork "ip") (.verify (.ok (exDrawn2, 50)))),
     .api (.ret 2 (.validate ⟨exDrawn2, "site"⟩) (.validate (.ok true))), .api (.ret 3 (.validate ⟨exDrawn2, "site"⟩) (.validate (.ok false))),
     .api (.ret 4 (.get "site") (.get (.ok none))), .api (.ret 5 (.validate ⟨exDrawn2, "site"⟩) (.validate (.error (.redisError "broken pipe"))))] := by
  decide +kernel

/-! ## C100 An accepted token costs the work the server asked for -/

/-- The configuration a call got from the cache is what the server replied to a request of this very call. -/
theorem found_served {lib : PowLib} {p : Profile} {n ql now : Nat} {conns : List Nat} {steps : List ZStep} {pre post : List ZEvent}
    (hlog : zLog lib p n ql now conns steps = pre ++ post) {i : Nat} {api : Api} {v : VerifyCaptchaResult} {o : Option CachedPoWConfig}
    (h : .api (.cache (some (i, api)) (.retrivePow v) (.config o)) ∈ atCalls pre) :
    ∃ id r t x, .asked i id ∈ pre ∧ .net (.served id (.retrivePow v) r t) ∈ pre ∧ ReplyText r x ∧
      o = some { key := v.key, difficultyFactor := x.difficultyFactor, duration := x.duration } := by
  obtain ⟨i', api', id, ans, e, hask, hans, htc⟩ := zlog_why hlog h
  cases e
  rcases zlog_answer hlog hans with ⟨h1, -⟩ | ⟨r, t, hs, ha⟩ | ⟨e, -, ha⟩
  · cases h1
  · rcases answer_config ha with ⟨x, hx, rfl⟩ | ⟨e, -, rfl⟩
    · simp only [RAnswer.toCache, Except.map, Option.some.injEq, Except.ok.injEq, CacheReply.config.injEq] at htc
      exact ⟨id, r, t, x, hask, hs, hx, htc.symm⟩
    · simp [RAnswer.toCache, Except.map] at htc
  · rcases answer_config ha with ⟨x, ⟨s, hx, -⟩, -⟩ | ⟨e, -, rfl⟩
    · cases gaveText_iff.1 hx
    · simp [RAnswer.toCache, Except.map] at htc

/-- A token confirmed to a call was stored by the server. -/
theorem stored_served {lib : PowLib} {p : Profile} {n ql now : Nat} {conns : List Nat} {steps : List ZStep} {pre post : List ZEvent}
    (hlog : zLog lib p n ql now conns steps = pre ++ post) {i : Nat} {api : Api} {m : CacheResult} {o : CacheReply}
    (h : .api (.cache (some (i, api)) (.cacheResult m) o) ∈ atCalls pre) :
    ∃ id x t, .asked i id ∈ pre ∧ .net (.served id (.cacheResult m) (.ok x) t) ∈ pre := by
  obtain ⟨i', api', id, ans, e, hask, hans, htc⟩ := zlog_why hlog h
  cases e
  rcases zlog_answer hlog hans with ⟨h1, -⟩ | ⟨r, t, hs, ha⟩ | ⟨e, -, ha⟩
  · cases h1
  · obtain ⟨x, rfl, -⟩ := answer_cacheResult ha
    exact ⟨id, x, t, hask, hs⟩
  · obtain ⟨x, hx, -⟩ := answer_cacheResult ha
    cases hx

/-- C100. `verify_pow` returns a token only if the server handed out, to this call, the challenge of the work with the difficulty that is
returned, the work solves it at this difficulty, and the server then stored the token for the site of the work and for the time it had
told. -/
theorem C100_verify_on_redis (lib : PowLib) (p : Profile) (n ql now : Nat) (conns : List Nat) (steps : List ZStep) (i : Nat) (work : Work) (ip : String)
    (tok : String) (d : Nat) (pre post : List ZEvent)
    (hlog : zLog lib p n ql now conns steps = pre ++ .sys (.api (.ret i (.verify work ip) (.verify (.ok (tok, d))))) :: post) :
    ∃ id r t x, .asked i id ∈ pre ∧ .net (.served id (.retrivePow { token := work.string, key := work.key }) r t) ∈ pre ∧ ReplyText r x ∧
      x.difficultyFactor = d ∧ Solves lib work d ∧
      ∃ id' y t', .asked i id' ∈ pre ∧ .net (.served id' (.cacheResult { token := tok, key := work.key, duration := x.duration }) (.ok y) t') ∈ pre := by
  obtain ⟨os, ho⟩ := zlog_open hlog
  obtain ⟨cfg, a, b, c, hpre, hk, hd, hs, -⟩ := C99_verify_outcome lib p n ql now os i work ip _ _ _ ho
  obtain ⟨id, r, t, x, h1, h2, h3, h4⟩ := found_served hlog (i := i) (api := .verify work ip) (v := { token := work.string, key := work.key }) (o := some cfg) (by rw [hpre]; simp)
  obtain ⟨id', y, t', h5, h6⟩ := stored_served hlog (i := i) (api := .verify work ip) (m := { token := tok, key := work.key, duration := cfg.duration }) (o := .done) (by rw [hpre]; simp)
  cases h4
  exact ⟨id, r, t, x, h1, h2, h3, hd, hs, id', y, t', h5, h6⟩

example : ∃ pre post, zLog sysLib ⟨true⟩ 1 5 0 [0, 1] exRedis = pre ++ .sys (.api (.ret 1 (.verify exWork "ip") (.verify (.ok (exDrawn2, 50))))) :: post :=
  List.append_of_mem (mem_atCalls.1 (by decide +kernel))

/-- C100. `get_pow` hands out a challenge only if the server counted this visit of this site and told this difficulty, and then stored the
challenge for this site, at this difficulty and for the time it had told. -/
theorem C100_get_on_redis (lib : PowLib) (p : Profile) (n ql now : Nat) (conns : List Nat) (steps : List ZStep) (i : Nat) (site : String)
    (cfg : PoWConfig) (pre post : List ZEvent)
    (hlog : zLog lib p n ql now conns steps = pre ++ .sys (.api (.ret i (.get site) (.get (.ok (some cfg))))) :: post) :
    ∃ id r t x, .asked i id ∈ pre ∧ .net (.served id (.addVisitor site) r t) ∈ pre ∧ ReplyText r x ∧ x.difficultyFactor = cfg.difficultyFactor ∧
      ∃ id' y t', .asked i id' ∈ pre ∧
        .net (.served id' (.cachePow { string := cfg.string, difficultyFactor := x.difficultyFactor, duration := x.duration, key := site }) (.ok y) t') ∈ pre := by
  obtain ⟨os, ho⟩ := zlog_open hlog
  obtain ⟨-, -, res, hres, hd, hst⟩ := C99_get_outcome lib p n ql now os i site _ _ _ ho
  obtain ⟨site', hcall, ⟨id, x, e, hask, hans⟩ | ⟨e, -⟩⟩ := zlog_why hlog hres
  · have hsite : Api.get site' = Api.get site := zlog_call (i := i) (by rw [hlog]; exact List.mem_append_left _ hcall) (.inr ⟨.get (.ok (some cfg)), by rw [hlog]; simp⟩)
    cases hsite
    cases e
    rcases zlog_answer hlog hans with ⟨h1, -⟩ | ⟨r, t, hs, ha⟩ | ⟨e, -, ha⟩
    · cases h1
    · rcases answer_visitor ha with ⟨y, hy, e⟩ | ⟨_, -, e⟩
      · cases e
        obtain ⟨i', api', id', ans', e, hask', hans', htc⟩ := zlog_why hlog hst
        cases e
        rcases zlog_answer hlog hans' with ⟨h1, -⟩ | ⟨r', t', hs', ha'⟩ | ⟨e, -, ha'⟩
        · cases h1
        · rcases answer_cachePow ha' with ⟨z, rfl, -⟩ | ⟨e, -, rfl⟩
          · exact ⟨id, r, t, res, hask, hs, hy, hd.symm, id', z, t', hask', hs'⟩
          · simp [RAnswer.toCache, Except.map] at htc
        · rcases answer_cachePow ha' with ⟨z, e, -⟩ | ⟨e, -, rfl⟩
          · cases e
          · simp [RAnswer.toCache, Except.map] at htc
      · cases e
    · rcases answer_visitor ha with ⟨y, ⟨_, hy, -⟩, -⟩ | ⟨_, -, e⟩
      · cases gaveText_iff.1 hy
      · cases e
  · rcases e with e | e <;> cases e

example : ∃ pre post, zLog sysLib ⟨true⟩ 1 5 0 [0, 1] exRedis = pre ++ .sys (.api (.ret 0 (.get "site") (.get (.ok (some ⟨exDrawn, 50, "salt"⟩))))) :: post :=
  List.append_of_mem (mem_atCalls.1 (by decide +kernel))

/-- A verdict told to a call is the server's reply to a request of this very call. -/
theorem verdict_served {lib : PowLib} {p : Profile} {n ql now : Nat} {conns : List Nat} {steps : List ZStep} {pre post : List ZEvent}
    (hlog : zLog lib p n ql now conns steps = pre ++ post) {i : Nat} {api : Api} {v : VerifyCaptchaResult} {b : Bool}
    (h : .api (.cache (some (i, api)) (.verify v) (.verdict b)) ∈ atCalls pre) :
    ∃ id, .asked i id ∈ pre ∧ .net (.actor (.answered 0 id (.verify v) (.verdict (.ok b)))) ∈ pre := by
  obtain ⟨i', api', id, ans, e, hask, hans, htc⟩ := zlog_why hlog h
  cases e
  refine ⟨id, hask, ?_⟩
  cases ans with
  | verdict r =>
    cases r with
    | error e => simp [RAnswer.toCache, Except.map] at htc
    | ok c =>
      simp only [RAnswer.toCache, Except.map, Option.some.injEq, Except.ok.injEq, CacheReply.verdict.injEq] at htc
      subst htc
      exact hans
  | unit r => cases r <;> simp [RAnswer.toCache, Except.map] at htc
  | config r => cases r <;> simp [RAnswer.toCache, Except.map] at htc
  | visitor r => simp [RAnswer.toCache] at htc

/-- C100. What `validate_verification_tokens` says is exactly whether the token was there when the server handled the request of this call:
stored under the Redis key of site and token, not taken or stored over since, and not expired. -/
theorem C100_validate_exact (lib : PowLib) (p : Profile) (n ql now : Nat) (conns : List Nat) (steps : List ZStep) (i : Nat) (msg : VerifyCaptchaResult)
    (b : Bool) (pre post : List ZEvent) (hlog : zLog lib p n ql now conns steps = pre ++ .sys (.api (.ret i (.validate msg) (.validate (.ok b)))) :: post) :
    ∃ id T tpre tpost, .asked i id ∈ pre ∧ .net (.served id (.verify msg) (.ok (.int (if b then 1 else 0))) T) ∈ pre ∧
      serverLog (atRedis pre) = tpre ++ .answered msg (.ok b) T :: tpost ∧ (b = true ↔ TokenThere tpre (tokenKey msg.key msg.token) T) := by
  obtain ⟨os, ho⟩ := zlog_open hlog
  have hc := C99_validate_outcome lib p n ql now os i msg _ _ _ ho
  obtain ⟨id, hask, hans⟩ := verdict_served hlog hc
  obtain ⟨s1, hs1⟩ := zRun_ret lib p _ steps hlog (.inl ⟨b, rfl⟩) (by intro _ h; cases h)
  obtain ⟨ns, hn⟩ := (zinv_run lib p n ql now conns s1).net
  rw [hs1] at hn
  obtain ⟨T, hT⟩ := (netInv_run conns now ns).told 0 id msg b (by rw [hn]; exact mem_atRedis.2 hans)
  have hmem : TokenEvent.answered msg (.ok b) T ∈ serverLog (nRun (RNet.new conns now) ns).2 :=
    List.mem_flatMap.2 ⟨_, hT, by cases b <;> simp [tokenEvents]⟩
  obtain ⟨tpre, tpost, htp⟩ := List.append_of_mem hmem
  have hex := C92_server_exact conns now ns tpre msg (.ok b) T tpost htp
  rw [hn] at hT htp
  refine ⟨id, T, tpre, tpost, hask, mem_atRedis.1 hT, htp, ?_⟩
  constructor
  · rintro rfl
    refine Classical.byContradiction fun hno => ?_
    have := hex.2 hno
    simp at this
  · intro h
    have := hex.1 h
    simpa using this

/-- The example has both verdicts. -/
example : (∃ pre post, zLog sysLib ⟨true⟩ 1 5 0 [0, 1] exRedis = pre ++ .sys (.api (.ret 2 (.validate ⟨exDrawn2, "site"⟩) (.validate (.ok true)))) :: post) ∧
    ∃ pre post, zLog sysLib ⟨true⟩ 1 5 0 [0, 1] exRedis = pre ++ .sys (.api (.ret 3 (.validate ⟨exDrawn2, "site"⟩) (.validate (.ok false)))) :: post :=
  ⟨List.append_of_mem (mem_atCalls.1 (by decide +kernel)), List.append_of_mem (mem_atCalls.1 (by decide +kernel))⟩

/-- C100. If the sites have no colon in their keys (see C65): a token accepted for a site was stored for this site, not longer ago than the time
it was stored for. If it was this service that had it stored, then for a `verify_pow` whose work was for this site and solved, at the
difficulty the server told for it, the challenge the server handed out to that call, and the time is the one the server told with it. -/
theorem C100_token_costs_work (lib : PowLib) (p : Profile) (n ql now : Nat) (conns : List Nat) (steps : List ZStep) (i : Nat) (msg : VerifyCaptchaResult)
    (pre post : List ZEvent) (hlog : zLog lib p n ql now conns steps = pre ++ .sys (.api (.ret i (.validate msg) (.validate (.ok true)))) :: post)
    (hv : ':' ∉ msg.key.toList) (hk : ∀ b j m, .net (.actor (.sent b j (.cacheResult m))) ∈ pre → ':' ∉ m.key.toList) :
    ∃ id T j m y t, .asked i id ∈ pre ∧ .net (.served id (.verify msg) (.ok (.int 1)) T) ∈ pre ∧ .net (.served j (.cacheResult m) (.ok y) t) ∈ pre ∧
      m.key = msg.key ∧ m.token = msg.token ∧ T ≤ t + 1000 * m.duration ∧
      ∀ k, .asked k j ∈ pre → ∃ work ip id' r t' x, .sys (.api (.call k (.verify work ip))) ∈ pre ∧ .asked k id' ∈ pre ∧
        .net (.served id' (.retrivePow { token := work.string, key := work.key }) r t') ∈ pre ∧ ReplyText r x ∧
        Solves lib work x.difficultyFactor ∧ work.key = msg.key ∧ m.duration = x.duration := by
  obtain ⟨os, ho⟩ := zlog_open hlog
  have hc := C99_validate_outcome lib p n ql now os i msg _ _ _ ho
  obtain ⟨id, hask, hans⟩ := verdict_served hlog hc
  obtain ⟨s1, hs1⟩ := zRun_ret lib p _ steps hlog (.inl ⟨true, rfl⟩) (by intro _ h; cases h)
  have hinv := zinv_run lib p n ql now conns s1
  have hlog1 : zLog lib p n ql now conns s1 = pre ++ [] := by rw [List.append_nil]; exact hs1
  obtain ⟨ns, hn⟩ := hinv.net
  rw [hs1] at hn
  obtain ⟨T, b, j, m, y, t, h1, h2, h3, h4, h5, h6⟩ := C92_bound_and_fresh conns now ns 0 id msg (by rw [hn]; exact mem_atRedis.2 hans) hv (by
    intro b j m hm
    rw [hn] at hm
    exact hk b j m (mem_atRedis.1 hm))
  rw [hn] at h1 h2 h3
  refine ⟨id, T, j, m, y, t, hask, mem_atRedis.1 h1, mem_atRedis.1 h3, h4, h5, h6, ?_⟩
  intro k hk'
  obtain ⟨a, m', hsent, api, hcall, hreq⟩ := hinv.asked k j (by rw [hs1]; exact hk')
  rw [hs1] at hsent hcall hreq
  obtain ⟨-, rfl⟩ := zlog_sent (lib := lib) (p := p) (n := n) (ql := ql) (now := now) (conns := conns) (steps := s1) (a := b) (b := a)
    (by rw [hlog1]; simpa using mem_atRedis.1 h2) (by rw [hlog1]; simpa using hsent)
  rcases hreq with ⟨_, -, -, e⟩ | ⟨cm, st, -, e, hp⟩
  · cases e
  · cases cm <;> simp only [CacheMsg.toRedis, RMsg.cacheResult.injEq, reduceCtorEq] at e
    subst e
    cases st with
    | storePow cfg => obtain ⟨_, _, -, -, -, -, -, e⟩ := hp; cases e
    | check => obtain ⟨_, -, e⟩ := hp; cases e
    | retrieve => obtain ⟨_, _, -, e⟩ := hp; cases e
    | storeResult tk d =>
      obtain ⟨work, ip, cfg, rfl, hf, hkk, hd, e, hsol, -⟩ := hp
      cases e
      obtain ⟨id', r, t', x, g1, g2, g3, g4⟩ := found_served hlog (mem_apiPart.1 hf)
      cases g4
      exact ⟨work, ip, id', r, t', x, hcall, g1, g2, g3, by rw [← hd] at hsol; exact hsol, h4, rfl⟩

/-- The token of the example is stored for a site without colon. -/
example : (∃ pre post, zLog sysLib ⟨true⟩ 1 5 0 [0, 1] exRedis = pre ++ .sys (.api (.ret 2 (.validate ⟨exDrawn2, "site"⟩) (.validate (.ok true)))) :: post) ∧
    ((atActors (atRedis (zLog sysLib ⟨true⟩ 1 5 0 [0, 1] exRedis))).all fun e => match e with
      | .sent _ _ (.cacheResult m) => !m.key.toList.contains ':' | _ => true) = true ∧ ':' ∉ "site".toList :=
  ⟨List.append_of_mem (mem_atCalls.1 (by decide +kernel)), by decide +kernel, by decide⟩

/-! ## C101 Single use through the API -/

/-- C101. However many calls of this service validate a token, and however many other clients use the server: it is validated at most as
often as callers are told that it is valid, and that is at most as often as it was asked to be stored. -/
theorem C101_single_use (lib : PowLib) (p : Profile) (n ql now : Nat) (conns : List Nat) (steps : List ZStep) (κ : String) :
    let log := zLog lib p n ql now conns steps
    validated κ log ≤ toldValid κ (atRedis log) ∧ toldValid κ (atRedis log) ≤ askedToStore κ (atRedis log) := by
  intro log
  have hinv := zinv_run lib p n ql now conns steps
  constructor
  · let f : ZEvent → Option Nat := fun e => match e with
      | .sys (.api (.ret i (.validate msg) (.validate (.ok true)))) => if tokenKey msg.key msg.token = κ then some i else none
      | _ => none
    have hf : ∀ {e k}, f e = some k → ∃ msg, e = .sys (.api (.ret k (.validate msg) (.validate (.ok true)))) ∧ tokenKey msg.key msg.token = κ := by
      intro e k he
      simp only [f] at he
      split at he
      · split at he
        · rename_i i msg hκ
          cases he
          exact ⟨msg, rfl, hκ⟩
        · cases he
      · cases he
    have hcount : validated κ log = (log.filterMap f).length := by
      refine countP_filterMap_length _ f log ?_
      intro e
      simp only [f]
      split
      · rename_i i msg
        by_cases hκ : tokenKey msg.key msg.token = κ <;> simp [hκ]
      · simp
    rw [hcount]
    refine length_le_countP _ (fun k e => ∃ b id v, e = .actor (.answered b id (.verify v) (.verdict (.ok true))) ∧ .asked k id ∈ log) _ _ ?_ ?_ ?_
    · refine nodup_of_countP f log ?_
      intro k
      obtain ⟨os, ho⟩ := hinv.sys
      have h1 := (C99_returns_once lib p n ql now os k).1
      rw [openLog, ho] at h1
      refine Nat.le_trans ?_ h1
      show log.countP _ ≤ (atCalls log).countP (ends k)
      rw [atCalls, List.countP_filterMap]
      refine List.countP_mono_left ?_
      intro e _ he
      simp only [beq_iff_eq] at he
      obtain ⟨msg, rfl, -⟩ := hf he
      simp [ends]
    · intro k hk
      obtain ⟨e, he, hfe⟩ := List.mem_filterMap.1 hk
      obtain ⟨msg, rfl, hκ⟩ := hf hfe
      obtain ⟨pre, post, hsplit⟩ := List.append_of_mem he
      obtain ⟨os, ho⟩ := zlog_open (lib := lib) (p := p) (n := n) (ql := ql) (now := now) (conns := conns) (steps := steps) hsplit
      have hc := C99_validate_outcome lib p n ql now os k msg _ _ _ ho
      obtain ⟨id, hask, hans⟩ := verdict_served (lib := lib) (p := p) (n := n) (ql := ql) (now := now) (conns := conns) (steps := steps) hsplit hc
      refine ⟨_, mem_atRedis.2 (show _ ∈ log by rw [hsplit]; exact List.mem_append_left _ hans), by simp [hκ], 0, id, msg, rfl, ?_⟩
      rw [hsplit]
      exact List.mem_append_left _ hask
    · rintro k k' e ⟨b, id, v, rfl, h1⟩ ⟨b', id', v', e, h2⟩
      cases e
      exact hinv.own _ _ _ h1 h2
  · obtain ⟨ns, hn⟩ := hinv.net
    have := C92_single_use conns now ns κ
    rw [hn] at this
    exact this

example : validated (tokenKey "site" exDrawn2) (zLog sysLib ⟨true⟩ 1 5 0 [0, 1] exRedis) = 1 ∧
    askedToStore (tokenKey "site" exDrawn2) (atRedis (zLog sysLib ⟨true⟩ 1 5 0 [0, 1] exRedis)) = 1 := by decide +kernel

/-! ## C102 A client that gives up does not harm others -/

/-- Call 0 is cancelled while its request is on its way to the server; the `RedisCache` dies; call 1 fails. -/
def exGivesUp : List ZStep :=
  [.sys (.call (.validate ⟨"t", "site"⟩)), .ask 0, .net (.take 0), .cancel 0, .net (.serve 0 (.ok .nil)), .net (.deliver 0 0),
   .sys (.call (.validate ⟨"u", "site"⟩)), .ask 1]

/-- Only what actors and a server in good health do. -/
def healthy : ZStep → Bool
  | .net (.take _) => true
  | .net (.serve _ _) => true
  | .net (.deliver _ _) => true
  | .net _ => false
  | _ => true

/-- False as stated: with every command carried out and every reply delivered, one cancelled call makes later calls fail. -/
theorem C102_giving_up_refuted :
    ¬ ∀ lib p n ql now conns steps, conns.Nodup → steps.all healthy = true →
      (∀ id m r t, .net (.served id m r t) ∈ zLog lib p n ql now conns steps → ∃ x, r = .ok x) →
      ∀ i msg, .sys (.api (.ret i (.validate msg) (.validate (.error .mailboxError)))) ∉ zLog lib p n ql now conns steps := by
  intro h
  refine h sysLib ⟨true⟩ 1 5 0 [0, 1] exGivesUp (by decide) (by decide) ?_ 1 ⟨"u", "site"⟩ (mem_atCalls.1 (by decide +kernel))
  intro id m r t hm
  have key : ((atRedis (zLog sysLib ⟨true⟩ 1 5 0 [0, 1] exGivesUp)).all fun e => match e with | .served _ _ (.error _) _ => false | _ => true) = true := by
    decide +kernel
  have := List.all_eq_true.1 key _ (mem_atRedis.2 hm)
  cases r with
  | ok x => exact ⟨x, rfl⟩
  | error e => cases this

/-- Errors the Redis cache answers with. -/
theorem answer_error {m : RMsg} {r : RResult} {ans : RAnswer} {e : CaptchaError} (h : m.answer r = .ret ans) (he : ans.toCache = some (.error e)) :
    (∃ x, e = .redisError x) ∨ e = .mCaptchaRedisModuleError := by
  have hunit : ∀ {x : Exec (CaptchaResult Unit)}, x = RedisClient.unitReply r → x.map RAnswer.unit = .ret ans → (∃ x, e = .redisError x) ∨ e = .mCaptchaRedisModuleError := by
    rintro x rfl h
    cases r with
    | ok y => cases h; simp [RAnswer.toCache, Except.map] at he
    | error x =>
      cases h
      simp only [RAnswer.toCache, Except.map, Option.some.injEq, Except.error.injEq] at he
      exact .inl ⟨x, he.symm⟩
  cases m with
  | cachePow => exact hunit rfl h
  | addSite => exact hunit rfl h
  | rename => exact hunit rfl h
  | removeCaptcha => exact hunit rfl h
  | retrivePow v =>
    rcases answer_config h with ⟨x, -, rfl⟩ | ⟨x, -, rfl⟩
    · simp [RAnswer.toCache, Except.map] at he
    · simp only [RAnswer.toCache, Except.map, Option.some.injEq, Except.error.injEq] at he
      exact .inl ⟨x, he.symm⟩
  | cacheResult =>
    obtain ⟨x, -, rfl⟩ := answer_cacheResult h
    simp [RAnswer.toCache, Except.map] at he
  | verify v =>
    simp only [RMsg.answer, RedisClient.getToken] at h
    split at h
    · rename_i x hx
      cases h
      simp only [RAnswer.toCache, Except.map, Option.some.injEq, Except.error.injEq] at he
      exact .inl ⟨x, he.symm⟩
    · cases h
      split at he
      · simp [RAnswer.toCache, Except.map] at he
      · split at he
        · simp [RAnswer.toCache, Except.map] at he
        · simp only [RAnswer.toCache, Except.map, Option.some.injEq, Except.error.injEq] at he
          exact .inr he.symm
  | addVisitor =>
    rcases answer_visitor h with ⟨x, -, rfl⟩ | ⟨x, -, rfl⟩ <;> cases he
  | deletePow => cases h; simp [RAnswer.toCache, Except.map] at he
  | deleteResult => cases h; simp [RAnswer.toCache, Except.map] at he
  | getInternalData => cases h
  | setInternalData => cases h

/-- `MailboxError` and `RecvError` are told only after a crash of the cache or the master. -/
theorem mailbox_crash {lib : PowLib} {p : Profile} {n ql now : Nat} {conns : List Nat} {steps : List ZStep} {pre post : List ZEvent} {i : Nat} {api : Api}
    {r : Ret} {e : CaptchaError} (hlog : zLog lib p n ql now conns steps = pre ++ .sys (.api (.ret i api r)) :: post) (hr : r = api.fails e)
    (he : e = .mailboxError ∨ e = .recvError) : ∃ a j w, a ≤ 1 ∧ .net (.actor (.crashed a j w)) ∈ pre := by
  have hfailed : ∀ {m}, OEvent.failed i m e ∈ atCalls pre → ∃ a j w, a ≤ 1 ∧ .net (.actor (.crashed a j w)) ∈ pre := by
    intro m hm
    rcases zlog_why hlog hm with ⟨id, ans, -, hans, htc⟩ | ⟨-, j, w, hx⟩
    · exfalso
      have : (∃ x, e = .redisError x) ∨ e = .mCaptchaRedisModuleError := by
        rcases zlog_answer hlog hans with ⟨h1, rfl⟩ | ⟨r, t, -, ha⟩ | ⟨e', -, ha⟩
        · simp [RAnswer.toCache, Except.map] at htc
        · exact answer_error ha htc
        · exact answer_error ha htc
      rcases this with ⟨x, rfl⟩ | rfl <;> rcases he with he | he <;> cases he
    · exact ⟨0, j, w, by omega, hx⟩
  obtain ⟨os, ho⟩ := zlog_open hlog
  cases api with
  | get site =>
    have := C99_get_outcome lib p n ql now os i site r _ _ ho
    subst hr
    simp only [Api.fails] at this
    rcases this with ⟨-, hm⟩ | ⟨-, hm⟩ | ⟨_, _, -, hm⟩
    · obtain ⟨_, -, ⟨_, _, e, -⟩ | ⟨-, j, w, hx⟩⟩ := zlog_why hlog hm
      · cases e
      · exact ⟨1, j, w, by omega, hx⟩
    · obtain ⟨_, -, ⟨_, _, e, -⟩ | ⟨-, j, w, hx⟩⟩ := zlog_why hlog hm
      · cases e
      · exact ⟨1, j, w, by omega, hx⟩
    · exact hfailed hm
  | verify work ip =>
    have := C99_verify_outcome lib p n ql now os i work ip r _ _ ho
    subst hr
    simp only [Api.fails] at this
    rcases this with ⟨rfl, -⟩ | ⟨cfg, -, ⟨rfl, -⟩ | ⟨rfl, -⟩ | ⟨rfl, -⟩⟩ | hm | ⟨_, _, hm, -⟩
    · rcases he with he | he <;> cases he
    · rcases he with he | he <;> cases he
    · rcases he with he | he <;> cases he
    · rcases he with he | he <;> cases he
    · exact hfailed hm
    · exact hfailed hm
  | validate msg =>
    have := C99_validate_outcome lib p n ql now os i msg r _ _ ho
    subst hr
    exact hfailed this

/-- C102, the part that holds. Missing: giving up between sending a request to the cache and its answer. If nobody does, connections do not fail
and are not shared, the server's replies are as expected and nobody asks for what is not implemented, then no actor ever dies, and no
call fails for want of a cache or a master; calls may be cancelled while they wait for the master, for the queue or for the proof. -/
theorem C102_giving_up_partial (lib : PowLib) (p : Profile) (n ql now : Nat) (conns : List Nat) (steps : List ZStep) (hn : conns.Nodup)
    (hl : GivesUpLate lib p (RService.new n ql now conns) steps) (hf : ∀ b e, .net (.fail b e) ∉ steps)
    (ht : ∀ a id m, .net (.actor (.sent a id m)) ∈ zLog lib p n ql now conns steps → m ≠ .getInternalData ∧ ∀ d, m ≠ .setInternalData d)
    (hr : ∀ id m r t, .net (.served id m r t) ∈ zLog lib p n ql now conns steps → GoodReply m r) :
    (∀ a j w, .net (.actor (.crashed a j w)) ∉ zLog lib p n ql now conns steps) ∧
    ∀ i api e, .sys (.api (.ret i api (api.fails e))) ∈ zLog lib p n ql now conns steps → e ≠ .mailboxError ∧ e ≠ .recvError := by
  have hcrash : ∀ a j w, .net (.actor (.crashed a j w)) ∉ zLog lib p n ql now conns steps := by
    intro a j w hm
    obtain ⟨ns, h1, h2, h3⟩ := service_net lib p n ql now conns steps
    have hc : .actor (.crashed a j w) ∈ (nRun (RNet.new conns now) ns).2 := by rw [h1]; exact mem_atRedis.2 hm
    have hbad : ∀ m r, (m ≠ .getInternalData ∧ ∀ d, m ≠ .setInternalData d) → GoodReply m r → m.answer r ≠ .panic w := by
      intro m r hm hg ha
      rcases C77_bad_replies_partial m hm.1 hm.2 r w ha with ⟨⟨c, rfl⟩, e, rfl⟩ | ⟨hmm, s, hs, hno⟩
      · obtain ⟨x, hx⟩ := hg.1 c rfl
        cases hx
      · exact hno (hg.2 hmm s hs)
    obtain ⟨m, hsent, htodo | rfl | ⟨r, t, hs, ha⟩ | ⟨e, hfail, -⟩ | ⟨hneed, pre, post, x, rfl, hg, hx, hb⟩⟩ := genuine_crash conns now ns hc
    · rw [h1] at hsent
      have := ht a j m (mem_atRedis.1 hsent)
      cases m <;> simp [RMsg.todo] at htodo
      · exact this.1 rfl
      · exact this.2 _ rfl
    · obtain ⟨ys, hy⟩ := (netInv_run conns now ns).reached
      have := noBorrow_run hn ys a j
      rw [hy] at this
      exact this (mem_atActors.2 hc)
    · rw [h1] at hsent hs
      exact hbad m r (ht a j m (mem_atRedis.1 hsent)) (hr j m r t (mem_atRedis.1 hs)) ha
    · exact hf a e (h2 a e hfail)
    · have hld := h3 hl
      refine late_gone conns now pre ?_ hg hx hb hneed
      intro n1 id n2 hs
      exact hld n1 id (n2 ++ post) (by rw [hs]; simp)
  refine ⟨hcrash, ?_⟩
  intro i api e hm
  have : ¬ (e = .mailboxError ∨ e = .recvError) := by
    intro he
    obtain ⟨pre, post, hsplit⟩ := List.append_of_mem hm
    obtain ⟨a, j, w, -, hx⟩ := mailbox_crash hsplit rfl he
    exact hcrash a j w (by rw [hsplit]; exact List.mem_append_left _ hx)
  exact ⟨fun h => this (.inl h), fun h => this (.inr h)⟩

/-- Call 0 is cancelled while it waits for the master; call 1 succeeds. -/
def exLate : List ZStep :=
  [.sys (.call (.get "site")), .ask 0, .cancel 0, .net (.take 1), .net (.serve 0 exReply), .net (.deliver 1 0),
   .sys (.call (.get "site")), .ask 1, .net (.take 1), .net (.serve 0 exReply), .net (.deliver 1 0), .hear 1 (fun _ => 0),
   .ask 1, .net (.take 0), .net (.serve 0 (.ok .okay)), .net (.deliver 0 0), .hear 1 (fun _ => 0), .sys (.resume 1)]

/-- Steps with which someone gives up. -/
def ZStep.gives : ZStep → Bool
  | .cancel _ => true
  | .net (.drop _) => true
  | _ => false

example : [0, 1].Nodup ∧ GivesUpLate sysLib ⟨true⟩ (RService.new 1 5 0 [0, 1]) exLate ∧ (∀ b e, .net (.fail b e) ∉ exLate) ∧
    (∀ id m r t, .net (.served id m r t) ∈ zLog sysLib ⟨true⟩ 1 5 0 [0, 1] exLate → GoodReply m r) ∧
    (∀ a id m, .net (.actor (.sent a id m)) ∈ zLog sysLib ⟨true⟩ 1 5 0 [0, 1] exLate → m ≠ .getInternalData ∧ ∀ d, m ≠ .setInternalData d) ∧
    .sys (.api (.ret 1 (.get "site") (.get (.ok (some ⟨exDrawn, 50, "salt"⟩))))) ∈ zLog sysLib ⟨true⟩ 1 5 0 [0, 1] exLate := by
  refine ⟨by decide, ?_, ?_, ?_, ?_, mem_atCalls.1 (by decide +kernel)⟩
  · intro s1 x s2 hs id hx a m hm hc
    exfalso
    have hk : ∀ k : Nat, k < 18 → (exLate[k]?.map ZStep.gives) = some true → k = 2 := by decide +kernel
    have hlen : s1.length < 18 := by
      have := congrArg List.length hs
      simp only [List.length_append, List.length_cons] at this
      have h18 : exLate.length = 18 := rfl
      omega
    have hget : exLate[s1.length]? = some x := by rw [hs]; simp
    have h2 := hk s1.length hlen (by
      rw [hget]
      rcases hx with rfl | ⟨i, rfl, -⟩ <;> rfl)
    have hs1 : s1 = exLate.take 2 := by rw [hs, ← h2]; simp
    subst hs1
    have hall : ((atActors (atRedis (zRun sysLib ⟨true⟩ (RService.new 1 5 0 [0, 1]) (exLate.take 2)).2)).all fun e => match e with
      | .sent _ _ (.addVisitor _) => true | _ => false) = true := by decide +kernel
    have := List.all_eq_true.1 hall _ (mem_atActors.2 (mem_atRedis.2 hm))
    cases hc <;> cases this
  · intro b e hm
    simp [exLate] at hm
  · intro id m r t hm
    have hall : ((atRedis (zLog sysLib ⟨true⟩ 1 5 0 [0, 1] exLate)).all fun e => match e with
      | .served _ (.addVisitor _) (.ok (.bulk s)) _ => s == "{\"duration\":30,\"difficulty_factor\":50}"
      | .served _ (.cachePow _) (.ok _) _ => true
      | .served _ _ _ _ => false
      | _ => true) = true := by decide +kernel
    have := List.all_eq_true.1 hall _ (mem_atRedis.2 hm)
    have hv : ∃ x, VisitorText "{\"duration\":30,\"difficulty_factor\":50}" x := ⟨⟨30, 50⟩, (readVisitor_iff _ _).1 (by decide +kernel)⟩
    split at this
    · rename_i heq
      cases heq
      simp only [beq_iff_eq] at this
      subst this
      refine ⟨(by intro c h; cases h), ?_⟩
      intro _ s hs
      cases gaveText_iff.1 hs
      exact hv
    · rename_i heq
      cases heq
      refine ⟨(by intro c h; cases h), ?_⟩
      rintro (⟨v, h⟩ | ⟨v, h⟩) <;> cases h
    · cases this
    · rename_i h1 h2 h3
      exact absurd rfl (h3 _ _ _ _)
  · intro a id m hm
    have hall : ((atActors (atRedis (zLog sysLib ⟨true⟩ 1 5 0 [0, 1] exLate))).all fun e => match e with
      | .sent _ _ .getInternalData => false | .sent _ _ (.setInternalData _) => false | _ => true) = true := by decide +kernel
    have := List.all_eq_true.1 hall _ (mem_atActors.2 (mem_atRedis.2 hm))
    constructor
    · rintro rfl; cases this
    · rintro d rfl; cases this

/-! ## C103 get_pow tells failures of Redis -/

/-- A connection fails before the server has seen the request. -/
def exMasked : List ZStep := [.sys (.call (.get "site")), .ask 0, .net (.take 1), .net (.fail 1 "broken pipe"), .hear 0 (fun _ => 0)]

/-- False as stated: if the connection fails `get_pow` returns `Ok(None)`, as for a site that is not registered, though the server was not
even asked. -/
theorem C103_failures_refuted :
    ¬ ∀ lib p n ql now conns steps i site, .sys (.api (.ret i (.get site) (.get (.ok none)))) ∈ zLog lib p n ql now conns steps →
      ∃ id r t, .net (.served id (.addVisitor site) r t) ∈ zLog lib p n ql now conns steps := by
  intro h
  obtain ⟨id, r, t, hm⟩ := h sysLib ⟨true⟩ 1 5 0 [0, 1] exMasked 0 "site" (mem_atCalls.1 (by decide +kernel))
  have hall : ((atRedis (zLog sysLib ⟨true⟩ 1 5 0 [0, 1] exMasked)).all fun e => match e with | .served _ _ _ _ => false | _ => true) = true := by
    decide +kernel
  have := List.all_eq_true.1 hall _ (mem_atRedis.2 hm)
  cases this

/-- C103, the part that holds. Missing: which failure it was. `get_pow` returns `Ok(None)` only if the server answered the request of this call,
to count a visit of this site, with an error or with something other than a text, or if the connection of the master failed; never if the
server replied with a text. -/
theorem C103_failures_partial (lib : PowLib) (p : Profile) (n ql now : Nat) (conns : List Nat) (steps : List ZStep) (i : Nat) (site : String)
    (pre post : List ZEvent) (hlog : zLog lib p n ql now conns steps = pre ++ .sys (.api (.ret i (.get site) (.get (.ok none)))) :: post) :
    ∃ id, .asked i id ∈ pre ∧ .net (.actor (.sent 1 id (.addVisitor site))) ∈ pre ∧
      ((∃ r t e, .net (.served id (.addVisitor site) r t) ∈ pre ∧ GaveError r e) ∨ ∃ e, .net (.fail 1 e) ∈ steps) := by
  obtain ⟨os, ho⟩ := zlog_open hlog
  have hnone := C99_get_outcome lib p n ql now os i site _ _ _ ho
  have hx : ∃ o, .api (.master i (.reply o)) ∈ atCalls pre ∧ ∀ x, o ≠ .ok (some x) := by
    rcases hnone with h | ⟨e, h⟩
    · exact ⟨_, h, by intro x h; cases h⟩
    · exact ⟨_, h, by intro x h; cases h⟩
  obtain ⟨o, ho', hne⟩ := hx
  obtain ⟨site', hcall, ⟨id, x, e, hask, hans⟩ | ⟨e, -⟩⟩ := zlog_why hlog ho'
  · have hsite : Api.get site' = Api.get site := zlog_call (i := i) (by rw [hlog]; exact List.mem_append_left _ hcall) (.inr ⟨.get (.ok none), by rw [hlog]; simp⟩)
    cases hsite
    cases e
    have hsent : .net (.actor (.sent 1 id (.addVisitor site))) ∈ pre := by
      obtain ⟨a, b, hab⟩ := List.append_of_mem hans
      exact answered_sent hlog hans
    refine ⟨id, hask, hsent, ?_⟩
    rcases zlog_answer hlog hans with ⟨h1, -⟩ | ⟨r, t, hs, ha⟩ | ⟨e, hf, -⟩
    · cases h1
    · rcases answer_visitor ha with ⟨y, -, e⟩ | ⟨e', he', -⟩
      · cases e
        exact absurd rfl (hne y)
      · exact .inl ⟨r, t, e', hs, he'⟩
    · exact .inr ⟨e, hf⟩
  · rcases e with e | e <;> cases e

example : ∃ pre post, zLog sysLib ⟨true⟩ 1 5 0 [0, 1] exRedis = pre ++ .sys (.api (.ret 4 (.get "site") (.get (.ok none)))) :: post :=
  List.append_of_mem (mem_atCalls.1 (by decide +kernel))

/-! ## C104 Errors are traceable -/

/-- A request that failed at the cache. -/
theorem failed_cases {lib : PowLib} {p : Profile} {n ql now : Nat} {conns : List Nat} {steps : List ZStep} {pre post : List ZEvent}
    (hlog : zLog lib p n ql now conns steps = pre ++ post) {i : Nat} {m : CacheMsg} {e : CaptchaError} (h : .failed i m e ∈ atCalls pre) :
    (∃ id r t ans, .asked i id ∈ pre ∧ .net (.served id m.toRedis r t) ∈ pre ∧ m.toRedis.answer r = .ret ans ∧ ans.toCache = some (.error e)) ∨
    (∃ x ans, .net (.fail 0 x) ∈ steps ∧ m.toRedis.answer (.error x) = .ret ans ∧ ans.toCache = some (.error e)) ∨
    ((e = .mailboxError ∨ e = .recvError) ∧ ∃ j w, .net (.actor (.crashed 0 j w)) ∈ pre) := by
  rcases zlog_why hlog h with ⟨id, ans, hask, hans, htc⟩ | hx
  · rcases zlog_answer hlog hans with ⟨h1, rfl⟩ | ⟨r, t, hs, ha⟩ | ⟨x, hf, ha⟩
    · simp [RAnswer.toCache, Except.map] at htc
    · exact .inl ⟨id, r, t, ans, hask, hs, ha, htc⟩
    · exact .inr (.inl ⟨x, ans, hf, ha, htc⟩)
  · exact .inr (.inr hx)

/-- C104. Why `verify_pow` fails on Redis. `QueueFull` and `InsuffiencientDifficulty` only after the server handed the challenge out to this
call, if the queue refused the job, or the work does not solve the challenge at the difficulty told or a job panicked; `RedisError` only
with the error the server gave to the request of this call or with which the connection of the cache failed; `MailboxError` and
`RecvError` only after a crash of the cache. There is no other error; in particular never `StringNotFound` (see C80). -/
theorem C104_verify_errors (lib : PowLib) (p : Profile) (n ql now : Nat) (conns : List Nat) (steps : List ZStep) (i : Nat) (work : Work) (ip : String)
    (e : CaptchaError) (pre post : List ZEvent)
    (hlog : zLog lib p n ql now conns steps = pre ++ .sys (.api (.ret i (.verify work ip) (.verify (.error e)))) :: post) :
    (∃ id r t x, .asked i id ∈ pre ∧ .net (.served id (.retrivePow { token := work.string, key := work.key }) r t) ∈ pre ∧ ReplyText r x ∧
      ((e = .queueFull ∧ ∃ ip', .sys (.api (.queue (.refused ip' i))) ∈ pre) ∨
       (e = .insuffiencientDifficulty ∧ (¬ Solves lib work x.difficultyFactor ∨ SomeCrash (apiPart (atCalls pre)))))) ∨
    (∃ id r t x, .asked i id ∈ pre ∧ .net (.served id (.retrivePow { token := work.string, key := work.key }) r t) ∈ pre ∧
      GaveError r x ∧ e = .redisError x) ∨
    (∃ x, .net (.fail 0 x) ∈ steps ∧ e = .redisError x) ∨
    ((e = .mailboxError ∨ e = .recvError) ∧ ∃ j w, .net (.actor (.crashed 0 j w)) ∈ pre) := by
  obtain ⟨os, ho⟩ := zlog_open hlog
  have key : ∀ (m : CacheMsg), .failed i m e ∈ atCalls pre → m = .retrivePow { token := work.string, key := work.key } ∨ (∃ c, m = .cacheResult c) →
      (∃ id r t x, .asked i id ∈ pre ∧ .net (.served id (.retrivePow { token := work.string, key := work.key }) r t) ∈ pre ∧
        GaveError r x ∧ e = .redisError x) ∨
      (∃ x, .net (.fail 0 x) ∈ steps ∧ e = .redisError x) ∨
      ((e = .mailboxError ∨ e = .recvError) ∧ ∃ j w, .net (.actor (.crashed 0 j w)) ∈ pre) := by
    rintro m hm (rfl | ⟨c, rfl⟩)
    · rcases failed_cases hlog hm with ⟨id, r, t, ans, hask, hs, ha, htc⟩ | ⟨x, ans, hf, ha, htc⟩ | hx
      · rcases answer_config ha with ⟨x, -, rfl⟩ | ⟨x, hx, rfl⟩
        · simp [RAnswer.toCache, Except.map] at htc
        · simp only [RAnswer.toCache, Except.map, Option.some.injEq, Except.error.injEq] at htc
          exact .inl ⟨id, r, t, x, hask, hs, hx, htc.symm⟩
      · rcases answer_config ha with ⟨x, -, rfl⟩ | ⟨y, hy, rfl⟩
        · simp [RAnswer.toCache, Except.map] at htc
        · simp only [RAnswer.toCache, Except.map, Option.some.injEq, Except.error.injEq] at htc
          cases gaveError_iff.1 hy
          exact .inr (.inl ⟨x, hf, htc.symm⟩)
      · exact .inr (.inr hx)
    · rcases failed_cases hlog hm with ⟨id, r, t, ans, hask, hs, ha, htc⟩ | ⟨x, ans, hf, ha, htc⟩ | hx
      · obtain ⟨x, -, rfl⟩ := answer_cacheResult ha
        simp [RAnswer.toCache, Except.map] at htc
      · obtain ⟨x, -, rfl⟩ := answer_cacheResult ha
        simp [RAnswer.toCache, Except.map] at htc
      · exact .inr (.inr hx)
  rcases C99_verify_outcome lib p n ql now os i work ip _ _ _ ho with ⟨-, hc⟩ | ⟨cfg, hf, hcase⟩ | hm | ⟨t, cfg, hm, -⟩
  · obtain ⟨_, _, _, _, -, -, -, h⟩ := found_served hlog hc
    cases h
  · obtain ⟨id, r, t, x, h1, h2, h3, h4⟩ := found_served hlog (mem_apiPart.1 hf)
    cases h4
    refine .inl ⟨id, r, t, x, h1, h2, h3, ?_⟩
    rcases hcase with ⟨-, h⟩ | ⟨rfl, -, ip', hq⟩ | ⟨rfl, -, h⟩
    · exact absurd rfl h
    · exact .inl ⟨rfl, ip', mem_atCalls.1 hq⟩
    · exact .inr ⟨rfl, h⟩
  · exact .inr (key _ hm (.inl rfl))
  · exact .inr (key _ hm (.inr ⟨_, rfl⟩))

/-- C104. Why `validate_verification_tokens` fails on Redis: the connection of the cache failed, with the error told, or the cache crashed. -/
theorem C104_validate_errors (lib : PowLib) (p : Profile) (n ql now : Nat) (conns : List Nat) (steps : List ZStep) (i : Nat) (msg : VerifyCaptchaResult)
    (e : CaptchaError) (pre post : List ZEvent)
    (hlog : zLog lib p n ql now conns steps = pre ++ .sys (.api (.ret i (.validate msg) (.validate (.error e)))) :: post) :
    (∃ x, .net (.fail 0 x) ∈ steps ∧ e = .redisError x) ∨
    ((e = .mailboxError ∨ e = .recvError) ∧ ∃ j w, .net (.actor (.crashed 0 j w)) ∈ pre) := by
  obtain ⟨os, ho⟩ := zlog_open hlog
  have hm := C99_validate_outcome lib p n ql now os i msg _ _ _ ho
  rcases failed_cases hlog hm with ⟨id, r, t, ans, -, hs, ha, htc⟩ | ⟨x, ans, hf, ha, htc⟩ | hx
  · exfalso
    obtain ⟨ns, hn⟩ := (zinv_run lib p n ql now conns steps).net
    have hs' : .served id (.verify msg) r t ∈ (nRun (RNet.new conns now) ns).2 := by
      rw [hn]
      refine mem_atRedis.2 (show _ ∈ zLog lib p n ql now conns steps from ?_)
      rw [hlog]
      exact List.mem_append_left _ hs
    obtain ⟨b, rfl⟩ := ((netInv_run conns now ns).served _ _ _ _ hs').2 msg rfl
    have h01 : RMsg.answer (.verify msg) (.ok (.int (if b then 1 else 0))) = .ret (.verdict (.ok b)) := by cases b <;> rfl
    rw [show CacheMsg.toRedis (.verify msg) = .verify msg from rfl, h01] at ha
    cases ha
    simp [RAnswer.toCache, Except.map] at htc
  · simp only [CacheMsg.toRedis, RMsg.answer, RedisClient.getToken, Except.bind, Exec.map, Exec.ret.injEq] at ha
    subst ha
    simp only [RAnswer.toCache, Except.map, Option.some.injEq, Except.error.injEq] at htc
    exact .inl ⟨x, hf, htc.symm⟩
  · exact .inr hx

/-- C104. Why `get_pow` fails on Redis: the server gave this error to the request of this call to store the challenge, or the connection of the
cache failed, with the error told, or the cache or the master crashed. -/
theorem C104_get_errors (lib : PowLib) (p : Profile) (n ql now : Nat) (conns : List Nat) (steps : List ZStep) (i : Nat) (site : String)
    (e : CaptchaError) (pre post : List ZEvent)
    (hlog : zLog lib p n ql now conns steps = pre ++ .sys (.api (.ret i (.get site) (.get (.error e)))) :: post) :
    (∃ id c t x, .asked i id ∈ pre ∧ c.key = site ∧ .net (.served id (.cachePow c) (.error x) t) ∈ pre ∧ e = .redisError x) ∨
    (∃ x, .net (.fail 0 x) ∈ steps ∧ e = .redisError x) ∨
    ((e = .mailboxError ∨ e = .recvError) ∧ ∃ a j w, a ≤ 1 ∧ .net (.actor (.crashed a j w)) ∈ pre) := by
  obtain ⟨os, ho⟩ := zlog_open hlog
  rcases C99_get_outcome lib p n ql now os i site _ _ _ ho with ⟨rfl, -⟩ | ⟨rfl, -⟩ | ⟨s, res, -, hm⟩
  · exact .inr (.inr ⟨.inl rfl, mailbox_crash hlog rfl (.inl rfl)⟩)
  · exact .inr (.inr ⟨.inr rfl, mailbox_crash hlog rfl (.inr rfl)⟩)
  · rcases failed_cases hlog hm with ⟨id, r, t, ans, hask, hs, ha, htc⟩ | ⟨x, ans, hf, ha, htc⟩ | ⟨hx, j, w, hw⟩
    · rcases answer_cachePow ha with ⟨x, -, rfl⟩ | ⟨x, rfl, rfl⟩
      · simp [RAnswer.toCache, Except.map] at htc
      · simp only [RAnswer.toCache, Except.map, Option.some.injEq, Except.error.injEq] at htc
        exact .inl ⟨id, _, t, x, hask, rfl, hs, htc.symm⟩
    · rcases answer_cachePow ha with ⟨x, h, -⟩ | ⟨y, hy, rfl⟩
      · cases h
      · cases hy
        simp only [RAnswer.toCache, Except.map, Option.some.injEq, Except.error.injEq] at htc
        exact .inr (.inl ⟨x, hf, htc.symm⟩)
    · exact .inr (.inr ⟨hx, 0, j, w, by omega, hw⟩)

/-- Errors of all three: the server refuses to hand out a challenge (call 0) and to store one (call 1), the cache crashes on a text that is no
JSON (call 2), and is gone (call 3). -/
def exErrors : List ZStep :=
  [.sys (.call (.verify exWork "ip")), .ask 0, .net (.take 0), .net (.serve 0 (.error "no such challenge")), .net (.deliver 0 0), .hear 0 (fun _ => 0),
   .sys (.call (.get "site")), .ask 1, .net (.take 1), .net (.serve 0 exReply), .net (.deliver 1 0), .hear 1 (fun _ => 0),
   .ask 1, .net (.take 0), .net (.serve 0 (.error "out of memory")), .net (.deliver 0 0), .hear 1 (fun _ => 0),
   .sys (.call (.verify exWork "ip")), .ask 2, .net (.take 0), .net (.serve 0 (.ok (.bulk "?"))), .net (.deliver 0 0), .hear 2 (fun _ => 0),
   .sys (.call (.validate ⟨"t", "site"⟩)), .ask 3]

example : (atCalls (zLog sysLib ⟨true⟩ 1 5 0 [0, 1] exErrors)).filter (fun e => match e with | .api (.ret _ _ _) => true | _ => false) =
    [.api (.ret 0 (.verify exWork "ip") (.verify (.error (.redisError "no such challenge")))),
     .api (.ret 1 (.get "site") (.get (.error (.redisError "out of memory")))),
     .api (.ret 2 (.verify exWork "ip") (.verify (.error .recvError))),
     .api (.ret 3 (.validate ⟨"t", "site"⟩) (.validate (.error .mailboxError)))] := by decide +kernel

end MCap
