import Verif.Spec.RedisHonest
import Verif.Props.RedisLive
import Verif.Props.RedisLost
import Verif.Props.RedisPayment
import Verif.Props.ClusterService

/-!
# C131 With Redis, honest clients succeed
-/

namespace MCap
open Spec

/-- The server replies once to each request of a call. -/
theorem one_reply {lib : PowLib} {p : Profile} {n ql now : Nat} {conns : List Nat} {steps : List ZStep} {i id id' : Nat} {m m' : RMsg} {r r' : RResult}
    {t t' : Nat} (h1 : .asked i id ∈ zLog lib p n ql now conns steps) (h2 : .asked i id' ∈ zLog lib p n ql now conns steps)
    (h3 : .net (.served id m r t) ∈ zLog lib p n ql now conns steps) (h4 : .net (.served id' m' r' t') ∈ zLog lib p n ql now conns steps)
    (h : SameKind m m') : id = id' ∧ m = m' ∧ r = r' ∧ t = t' := by
  obtain ⟨ns, hn⟩ := (zinv_run lib p n ql now conns steps).net
  have hsent : ∀ {id m r t}, .net (.served id m r t) ∈ zLog lib p n ql now conns steps → ∃ a, .net (.actor (.sent a id m)) ∈ zLog lib p n ql now conns steps := by
    intro id m r t h
    obtain ⟨⟨a, ha⟩, -⟩ := (netInv_run conns now ns).served id m r t (by rw [hn]; exact mem_atRedis.2 h)
    rw [hn] at ha
    exact ⟨a, mem_atRedis.1 ha⟩
  obtain ⟨a, ha⟩ := hsent h3
  obtain ⟨b, hb⟩ := hsent h4
  have e := ask_once h1 h2 ha hb h
  subst e
  obtain ⟨x, y, hx⟩ := List.append_of_mem h3
  obtain ⟨x', y', hx'⟩ := List.append_of_mem h4
  obtain ⟨-, e1, e2, e3, -⟩ := one_place (zlog_servedOnce lib p n ql now conns steps id) hx hx'
  exact ⟨rfl, e1, e2, e3⟩

theorem replyText_one {r : RResult} {x y : AddVisitorResult} (h : ReplyText r x) (h' : ReplyText r y) : x = y := by
  obtain ⟨s, h1, h2⟩ := h
  obtain ⟨s', h3, h4⟩ := h'
  have := (gaveText_iff.1 h1).symm.trans (gaveText_iff.1 h3)
  cases this
  have := ((readVisitor_iff s x).2 h2).symm.trans ((readVisitor_iff s y).2 h4)
  cases this
  rfl

theorem replyText_no_error {r : RResult} {x : AddVisitorResult} {e : String} (h : ReplyText r x) (h' : GaveError r e) : False := by
  obtain ⟨s, h1, -⟩ := h
  have := (gaveText_iff.1 h1).symm.trans (gaveError_iff.1 h')
  cases this

/-- C131. A visitor for whom the server has counted the visit, with the numbers `x`, gets a challenge at this difficulty; it is stored on the
server for the time told. -/
theorem C131_gets_challenge (lib : PowLib) (p : Profile) (n ql now : Nat) (conns : List Nat) (steps : List ZStep) (i id : Nat) (site : String) (r : RResult)
    (t : Nat) (x : AddVisitorResult) (res : Ret) (h0 : KeepsUp steps (zLog lib p n ql now conns steps) 0)
    (h1 : KeepsUp steps (zLog lib p n ql now conns steps) 1)
    (hask : .asked i id ∈ zLog lib p n ql now conns steps) (hs : .net (.served id (.addVisitor site) r t) ∈ zLog lib p n ql now conns steps)
    (hx : ReplyText r x)
    (hstore : ∀ id' c e t', .asked i id' ∈ zLog lib p n ql now conns steps → .net (.served id' (.cachePow c) (.error e) t') ∉ zLog lib p n ql now conns steps)
    (hret : .sys (.api (.ret i (.get site) res)) ∈ zLog lib p n ql now conns steps) :
    ∃ string id' y t', res = .get (.ok (some ⟨string, x.difficultyFactor, lib.salt⟩)) ∧ .asked i id' ∈ zLog lib p n ql now conns steps ∧
      .net (.served id' (.cachePow { string := string, difficultyFactor := x.difficultyFactor, duration := x.duration, key := site }) (.ok y) t') ∈
        zLog lib p n ql now conns steps := by
  obtain ⟨pre, post, hlog⟩ := List.append_of_mem hret
  have hmem : ∀ {e}, e ∈ pre → e ∈ zLog lib p n ql now conns steps := fun h => by rw [hlog]; exact List.mem_append_left _ h
  obtain ⟨os, ho⟩ := zlog_open hlog
  have hout := C99_get_outcome lib p n ql now os i site _ _ _ ho
  cases res with
  | get res =>
    cases res with
    | ok o =>
      cases o with
      | some cfg =>
        obtain ⟨id2, r2, t2, x2, g1, g2, g3, g4, id', y, t', g5, g6⟩ := C100_get_on_redis lib p n ql now conns steps i site cfg pre post hlog
        obtain ⟨-, -, rfl, -⟩ := one_reply hask (hmem g1) hs (hmem g2) trivial
        cases replyText_one hx g3
        refine ⟨cfg.string, id', y, t', ?_, hmem g5, hmem g6⟩
        rw [g4, ← hout.1]
      | none =>
        exfalso
        obtain ⟨id2, g1, -, ⟨r2, t2, e, g2, g3⟩ | ⟨e, g2⟩⟩ := C103_failures_partial lib p n ql now conns steps i site pre post hlog
        · obtain ⟨-, -, rfl, -⟩ := one_reply hask (hmem g1) hs (hmem g2) trivial
          exact replyText_no_error hx g3
        · exact h1.1 e g2
    | error e =>
      exfalso
      rcases C104_get_errors lib p n ql now conns steps i site e pre post hlog with ⟨id2, c, t2, e2, g1, -, g2, -⟩ | ⟨e2, g1, -⟩ | ⟨-, a, j, w, g1, g2⟩
      · exact hstore id2 c e2 t2 (hmem g1) (hmem g2)
      · exact h0.1 e2 g1
      · match a, g1 with
        | 0, _ => exact h0.2 j w (hmem g2)
        | 1, _ => exact h1.2 j w (hmem g2)
  | _ => exact hout.elim

/-- C131. A visitor whose work solves the challenge, at the difficulty the server told with it, gets a token, if the queue takes the job and no job
has panicked; and the token is stored on the server for the time told. -/
theorem C131_gets_token (lib : PowLib) (p : Profile) (n ql now : Nat) (conns : List Nat) (steps : List ZStep) (i id : Nat) (work : Work) (ip : String)
    (r : RResult) (t : Nat) (x : AddVisitorResult) (res : Ret) (h0 : KeepsUp steps (zLog lib p n ql now conns steps) 0)
    (hask : .asked i id ∈ zLog lib p n ql now conns steps)
    (hs : .net (.served id (.retrivePow { token := work.string, key := work.key }) r t) ∈ zLog lib p n ql now conns steps) (hx : ReplyText r x)
    (hsol : Solves lib work x.difficultyFactor) (hjob : ¬ SomeCrashZ (zLog lib p n ql now conns steps))
    (href : ∀ ip', .sys (.api (.queue (.refused ip' i))) ∉ zLog lib p n ql now conns steps)
    (hret : .sys (.api (.ret i (.verify work ip) res)) ∈ zLog lib p n ql now conns steps) :
    ∃ token id' y t', res = .verify (.ok (token, x.difficultyFactor)) ∧ .asked i id' ∈ zLog lib p n ql now conns steps ∧
      .net (.served id' (.cacheResult { token := token, key := work.key, duration := x.duration }) (.ok y) t') ∈ zLog lib p n ql now conns steps := by
  obtain ⟨pre, post, hlog⟩ := List.append_of_mem hret
  have hmem : ∀ {e}, e ∈ pre → e ∈ zLog lib p n ql now conns steps := fun h => by rw [hlog]; exact List.mem_append_left _ h
  obtain ⟨os, ho⟩ := zlog_open hlog
  have hout := C99_verify_outcome lib p n ql now os i work ip _ _ _ ho
  cases res with
  | verify res =>
    cases res with
    | ok o =>
      obtain ⟨token, d⟩ := o
      obtain ⟨id2, r2, t2, x2, g1, g2, g3, rfl, -, id', y, t', g5, g6⟩ := C100_verify_on_redis lib p n ql now conns steps i work ip token d pre post hlog
      obtain ⟨-, -, rfl, -⟩ := one_reply hask (hmem g1) hs (hmem g2) trivial
      cases replyText_one hx g3
      exact ⟨token, id', y, t', rfl, hmem g5, hmem g6⟩
    | error e =>
      exfalso
      rcases C104_verify_errors lib p n ql now conns steps i work ip e pre post hlog with ⟨id2, r2, t2, x2, g1, g2, g3, g4⟩ | ⟨id2, r2, t2, e2, g1, g2, g3, -⟩ |
          ⟨e2, g1, -⟩ | ⟨-, j, w, g2⟩
      · obtain ⟨-, -, rfl, -⟩ := one_reply hask (hmem g1) hs (hmem g2) trivial
        cases replyText_one hx g3
        rcases g4 with ⟨-, ip', g4⟩ | ⟨-, g4 | ⟨w, j, g4⟩⟩
        · exact href ip' (hmem g4)
        · exact g4 hsol
        · exact hjob ⟨w, j, hmem (mem_atCalls.1 (mem_apiPart.1 g4))⟩
      · obtain ⟨-, -, rfl, -⟩ := one_reply hask (hmem g1) hs (hmem g2) trivial
        exact replyText_no_error hx g3
      · exact h0.1 e2 g1
      · exact h0.2 j w (hmem g2)
  | _ => exact hout.elim

/-- C131. It does get it: once nothing goes on by itself any more, the call has returned with the token, unless it was cancelled, or its job waits in
the queue of its client. -/
theorem C131_token_arrives (lib : PowLib) (p : Profile) (n ql now : Nat) (conns : List Nat) (steps : List ZStep) (i id : Nat) (work : Work) (ip : String)
    (r : RResult) (t : Nat) (x : AddVisitorResult) (h2 : 2 ≤ conns.length) (h0 : KeepsUp steps (zLog lib p n ql now conns steps) 0)
    (hcall : .sys (.api (.call i (.verify work ip))) ∈ zLog lib p n ql now conns steps)
    (hask : .asked i id ∈ zLog lib p n ql now conns steps)
    (hs : .net (.served id (.retrivePow { token := work.string, key := work.key }) r t) ∈ zLog lib p n ql now conns steps) (hx : ReplyText r x)
    (hsol : Solves lib work x.difficultyFactor) (hjob : ¬ SomeCrashZ (zLog lib p n ql now conns steps))
    (href : ∀ ip', .sys (.api (.queue (.refused ip' i))) ∉ zLog lib p n ql now conns steps)
    (hq : QuiescentZ lib p (zState lib p n ql now conns steps)) (hcan : .sys (.api (.cancelled i)) ∉ zLog lib p n ql now conns steps)
    (hwait : i ∉ waitingJobs (zState lib p n ql now conns steps).sys.queue) :
    ∃ token id' y t', .sys (.api (.ret i (.verify work ip) (.verify (.ok (token, x.difficultyFactor))))) ∈ zLog lib p n ql now conns steps ∧
      .asked i id' ∈ zLog lib p n ql now conns steps ∧
      .net (.served id' (.cacheResult { token := token, key := work.key, duration := x.duration }) (.ok y) t') ∈ zLog lib p n ql now conns steps := by
  obtain ⟨os, ho⟩ := (zinv_run lib p n ql now conns steps).sys
  have hab := open_alive lib p n ql now os ho (fun w j h => hjob ⟨w, j, mem_atCalls.1 h⟩)
  rcases C117_answered lib p n ql now conns steps h2 hq hab i _ hcall with ⟨res, hres⟩ | h | ⟨-, -, h⟩
  · obtain ⟨token, id', y, t', rfl, h⟩ := C131_gets_token lib p n ql now conns steps i id work ip r t x res h0 hask hs hx hsol hjob href hres
    exact ⟨token, id', y, t', hres, h⟩
  · exact absurd h hcan
  · exact absurd h hwait

/-- C131. A token stored on the server, whoever had it stored, validates if nothing touched it before the server handles the request, and its time
has not run out. -/
theorem C131_token_validates (lib : PowLib) (p : Profile) (n ql now : Nat) (conns : List Nat) (steps : List ZStep) (k j id : Nat) (m : CacheResult)
    (msg : VerifyCaptchaResult) (y : RValue) (r : RResult) (t T : Nat) (a b c : List ZEvent) (res : Ret)
    (h0 : KeepsUp steps (zLog lib p n ql now conns steps) 0)
    (hlog : zLog lib p n ql now conns steps = a ++ .net (.served j (.cacheResult m) (.ok y) t) :: (b ++ .net (.served id (.verify msg) r T) :: c))
    (hkey : tokenKey m.key m.token = tokenKey msg.key msg.token) (hb : ∀ e ∈ b, ¬ touchesToken (tokenKey msg.key msg.token) e)
    (hT : T ≤ t + 1000 * m.duration) (hask : .asked k id ∈ zLog lib p n ql now conns steps)
    (hret : .sys (.api (.ret k (.validate msg) res)) ∈ zLog lib p n ql now conns steps) : res = .validate (.ok true) := by
  obtain ⟨pre, post, hsp⟩ := List.append_of_mem hret
  have hmem : ∀ {e}, e ∈ pre → e ∈ zLog lib p n ql now conns steps := fun h => by rw [hsp]; exact List.mem_append_left _ h
  obtain ⟨os, ho⟩ := zlog_open hsp
  have hout := C99_validate_outcome lib p n ql now os k msg _ _ _ ho
  obtain ⟨ns, hn⟩ := (zinv_run lib p n ql now conns steps).net
  have hserved : .net (.served id (.verify msg) r T) ∈ zLog lib p n ql now conns steps := by rw [hlog]; simp
  obtain ⟨w, rfl⟩ := ((netInv_run conns now ns).served id (.verify msg) r T (by rw [hn]; exact mem_atRedis.2 hserved)).2 msg rfl
  have htok : serverLog (nRun (RNet.new conns now) ns).2 = (serverLog (atRedis a) ++ .added m t :: serverLog (atRedis b)) ++
      .answered msg (.ok w) T :: serverLog (atRedis c) := by
    rw [hn]
    simp only
    rw [show (zRun lib p (RService.new n ql now conns) steps).2 = _ from hlog]
    cases w <;> simp [atRedis, serverLog, tokenEvents]
  have hw : w = true := by
    have := (C92_server_exact conns now ns _ msg (.ok w) T _ htok).1 ⟨_, m, t, _, rfl, hkey, ?_, hT⟩
    · simpa using this
    · intro e he
      simp only [serverLog, List.mem_flatMap] at he
      obtain ⟨f, hf, he⟩ := he
      have hf := hb _ (mem_atRedis.1 hf)
      unfold tokenEvents at he
      split at he
      · simp only [List.mem_singleton] at he; subst he; exact hf
      · simp only [List.mem_singleton] at he; subst he; exact fun h => h
      · split at he <;> (simp only [List.mem_singleton] at he; subst he; exact hf)
      · cases he
  subst hw
  cases res with
  | validate res =>
    cases res with
    | ok b' =>
      obtain ⟨id2, T2, -, -, g1, g2, -⟩ := C100_validate_exact lib p n ql now conns steps k msg b' pre post hsp
      obtain ⟨-, -, e, -⟩ := one_reply hask (hmem g1) hserved (hmem g2) trivial
      cases b' with
      | true => rfl
      | false => cases e
    | error e =>
      exfalso
      rcases C104_validate_errors lib p n ql now conns steps k msg e pre post hsp with ⟨e2, g1, -⟩ | ⟨-, j, w, g2⟩
      · exact h0.1 e2 g1
      · exact h0.2 j w (hmem g2)
  | _ => exact hout.elim

/-- C131. Actors keep up if connections do not fail and are not shared, nobody gives up between a request to the cache and its answer, the server's
replies are as expected, and nobody asks for what is not implemented. -/
theorem C131_keeps_up (lib : PowLib) (p : Profile) (n ql now : Nat) (conns : List Nat) (steps : List ZStep) (hn : conns.Nodup)
    (hl : GivesUpLate lib p (RService.new n ql now conns) steps) (hf : ∀ b e, .net (.fail b e) ∉ steps)
    (ht : ∀ a id m, .net (.actor (.sent a id m)) ∈ zLog lib p n ql now conns steps → m ≠ .getInternalData ∧ ∀ d, m ≠ .setInternalData d)
    (hr : ∀ id m r t, .net (.served id m r t) ∈ zLog lib p n ql now conns steps → GoodReply m r) (a : Nat) :
    KeepsUp steps (zLog lib p n ql now conns steps) a :=
  ⟨hf a, (C102_giving_up_partial lib p n ql now conns steps hn hl hf ht hr).1 a⟩

/-! ### On a cluster -/

theorem keepsUp_part {steps s : List ZStep} {log : List ZEvent} {a : Nat} (h : KeepsUp steps log a) (hs : List.Sublist s steps) : KeepsUp s log a :=
  ⟨fun e he => h.1 e (hs.subset he), h.2⟩

/-- C131. The same on a cluster: a visit the cluster counted gives a challenge. -/
theorem C131_cluster_gets_challenge (lib : PowLib) (p : Profile) (thread : Nat → Nat) (n ql now : Nat) (conns : List Nat) (steps : List ZStep) (i id : Nat)
    (site : String) (r : RResult) (t : Nat) (x : AddVisitorResult) (res : Ret) (h0 : KeepsUp steps (cLog lib p thread n ql now conns steps) 0)
    (h1 : KeepsUp steps (cLog lib p thread n ql now conns steps) 1)
    (hask : .asked i id ∈ cLog lib p thread n ql now conns steps) (hs : .net (.served id (.addVisitor site) r t) ∈ cLog lib p thread n ql now conns steps)
    (hx : ReplyText r x)
    (hstore : ∀ id' c e t', .asked i id' ∈ cLog lib p thread n ql now conns steps →
      .net (.served id' (.cachePow c) (.error e) t') ∉ cLog lib p thread n ql now conns steps)
    (hret : .sys (.api (.ret i (.get site) res)) ∈ cLog lib p thread n ql now conns steps) :
    ∃ string id' y t', res = .get (.ok (some ⟨string, x.difficultyFactor, lib.salt⟩)) ∧ .asked i id' ∈ cLog lib p thread n ql now conns steps ∧
      .net (.served id' (.cachePow { string := string, difficultyFactor := x.difficultyFactor, duration := x.duration, key := site }) (.ok y) t') ∈
        cLog lib p thread n ql now conns steps := by
  obtain ⟨s, hsub, e, -⟩ := C130_as_single lib p thread n ql now conns steps
  rw [e] at h0 h1 hask hs hstore hret ⊢
  exact C131_gets_challenge lib p n ql now conns s i id site r t x res (keepsUp_part h0 hsub) (keepsUp_part h1 hsub) hask hs hx hstore hret

/-- C131. On a cluster, right work gets its token. -/
theorem C131_cluster_token_arrives (lib : PowLib) (p : Profile) (thread : Nat → Nat) (n ql now : Nat) (conns : List Nat) (steps : List ZStep) (i id : Nat)
    (work : Work) (ip : String) (r : RResult) (t : Nat) (x : AddVisitorResult) (h2 : 2 ≤ conns.length)
    (h0 : KeepsUp steps (cLog lib p thread n ql now conns steps) 0)
    (hcall : .sys (.api (.call i (.verify work ip))) ∈ cLog lib p thread n ql now conns steps)
    (hask : .asked i id ∈ cLog lib p thread n ql now conns steps)
    (hs : .net (.served id (.retrivePow { token := work.string, key := work.key }) r t) ∈ cLog lib p thread n ql now conns steps) (hx : ReplyText r x)
    (hsol : Solves lib work x.difficultyFactor) (hjob : ¬ SomeCrashZ (cLog lib p thread n ql now conns steps))
    (href : ∀ ip', .sys (.api (.queue (.refused ip' i))) ∉ cLog lib p thread n ql now conns steps)
    (hq : QuiescentC lib p thread (cState lib p thread n ql now conns steps)) (hcan : .sys (.api (.cancelled i)) ∉ cLog lib p thread n ql now conns steps)
    (hwait : i ∉ waitingJobs (cState lib p thread n ql now conns steps).sys.queue) :
    ∃ token id' y t', .sys (.api (.ret i (.verify work ip) (.verify (.ok (token, x.difficultyFactor))))) ∈ cLog lib p thread n ql now conns steps ∧
      .asked i id' ∈ cLog lib p thread n ql now conns steps ∧
      .net (.served id' (.cacheResult { token := token, key := work.key, duration := x.duration }) (.ok y) t') ∈ cLog lib p thread n ql now conns steps := by
  obtain ⟨s, hsub, e1, e2⟩ := C130_as_single lib p thread n ql now conns steps
  rw [e1] at h0 hcall hask hs hjob href hcan ⊢
  rw [e2] at hq hwait
  exact C131_token_arrives lib p n ql now conns s i id work ip r t x h2 (keepsUp_part h0 hsub) hcall hask hs hx hsol hjob href
    (quiescentC_single lib p thread n ql now conns s hq) hcan hwait

/-- C131. On a cluster, a stored token validates. -/
theorem C131_cluster_token_validates (lib : PowLib) (p : Profile) (thread : Nat → Nat) (n ql now : Nat) (conns : List Nat) (steps : List ZStep) (k j id : Nat)
    (m : CacheResult) (msg : VerifyCaptchaResult) (y : RValue) (r : RResult) (t T : Nat) (a b c : List ZEvent) (res : Ret)
    (h0 : KeepsUp steps (cLog lib p thread n ql now conns steps) 0)
    (hlog : cLog lib p thread n ql now conns steps = a ++ .net (.served j (.cacheResult m) (.ok y) t) :: (b ++ .net (.served id (.verify msg) r T) :: c))
    (hkey : tokenKey m.key m.token = tokenKey msg.key msg.token) (hb : ∀ e ∈ b, ¬ touchesToken (tokenKey msg.key msg.token) e)
    (hT : T ≤ t + 1000 * m.duration) (hask : .asked k id ∈ cLog lib p thread n ql now conns steps)
    (hret : .sys (.api (.ret k (.validate msg) res)) ∈ cLog lib p thread n ql now conns steps) : res = .validate (.ok true) := by
  obtain ⟨s, hsub, e, -⟩ := C130_as_single lib p thread n ql now conns steps
  rw [e] at h0 hlog hask hret
  exact C131_token_validates lib p n ql now conns s k j id m msg y r t T a b c res (keepsUp_part h0 hsub) hlog hkey hb hT hask hret

/-- C131. On a cluster the actors keep up also if they share a connection, as long as those that do so run on one thread, connections do not fail,
nobody gives up, the replies are as expected, and nobody asks for what is not implemented. -/
theorem C131_cluster_keeps_up (lib : PowLib) (p : Profile) (thread : Nat → Nat) (n ql now : Nat) (conns : List Nat) (steps : List ZStep)
    (hth : SharedOnThread thread conns) (hc : ∀ i, .cancel i ∉ steps) (hd : ∀ id, .net (.drop id) ∉ steps) (hf : ∀ b e, .net (.fail b e) ∉ steps)
    (ht : ∀ a id m, .net (.actor (.sent a id m)) ∈ cLog lib p thread n ql now conns steps → m ≠ .getInternalData ∧ ∀ d, m ≠ .setInternalData d)
    (hr : ∀ id m r t, .net (.served id m r t) ∈ cLog lib p thread n ql now conns steps → GoodReply m r) (a : Nat) :
    KeepsUp steps (cLog lib p thread n ql now conns steps) a := by
  refine ⟨hf a, ?_⟩
  intro j w hm
  have hnb := C130_no_borrow_panic lib p thread n ql now conns hth steps
  obtain ⟨s, hsub, e, -⟩ := C130_as_single lib p thread n ql now conns steps
  rw [e] at ht hr hm hnb
  obtain ⟨ns, h1, h2, h3⟩ := service_net lib p n ql now conns s
  have hl : GivesUpLate lib p (RService.new n ql now conns) s := by
    intro s1 x s2 hs id hx
    have hmem : x ∈ steps := hsub.subset (by rw [hs]; simp)
    rcases hx with rfl | ⟨i, rfl, -⟩
    · exact absurd hmem (hd id)
    · exact absurd hmem (hc i)
  have hcr : .actor (.crashed a j w) ∈ (nRun (RNet.new conns now) ns).2 := by rw [h1]; exact mem_atRedis.2 hm
  obtain ⟨m, hsent, htodo | rfl | ⟨r, t, hs, ha⟩ | ⟨e, hfail, -⟩ | ⟨hneed, pre, post, x, rfl, hg, hx, hb⟩⟩ := genuine_crash conns now ns hcr
  · rw [h1] at hsent
    have := ht a j m (mem_atRedis.1 hsent)
    cases m <;> simp [RMsg.todo] at htodo
    · exact this.1 rfl
    · exact this.2 _ rfl
  · exact hnb a j hm
  · rw [h1] at hsent hs
    have hm := ht a j m (mem_atRedis.1 hsent)
    have hg := hr j m r t (mem_atRedis.1 hs)
    rcases C77_bad_replies_partial m hm.1 hm.2 r w ha with ⟨⟨c, rfl⟩, e, rfl⟩ | ⟨hmm, s, hs, hno⟩
    · obtain ⟨x, hx⟩ := hg.1 c rfl
      cases hx
    · exact hno (hg.2 hmm s hs)
  · exact hf a e (hsub.subset (h2 a e hfail))
  · refine late_gone conns now pre ?_ hg hx hb hneed
    intro n1 id n2 hs
    exact h3 hl n1 id (n2 ++ post) (by rw [hs]; simp)

/-! ### Examples -/

/-- A visitor gets a challenge, solves it, gets a token; the site validates it; then everything comes to rest. -/
def exRedisHonest : List ZStep := exRedis.take 41 ++ [.sys (.queue .manage), .sys (.queue .manage)]

theorem exReply_text : ReplyText exReply ⟨30, 50⟩ := ⟨_, gaveText_iff.2 rfl, (readVisitor_iff _ _).1 (by decide +kernel)⟩

/-- Both actors keep up. -/
theorem exRedisHonest_fine (a : Nat) : KeepsUp exRedisHonest (zLog sysLib ⟨true⟩ 1 5 0 [0, 1] exRedisHonest) a := by
  constructor
  · intro e h
    simp [exRedisHonest, exRedis] at h
  · intro j w h
    have hall : ((atActors (atRedis (zLog sysLib ⟨true⟩ 1 5 0 [0, 1] exRedisHonest))).all fun e => match e with | .crashed _ _ _ => false | _ => true) = true := by
      decide +kernel
    simpa using List.all_eq_true.1 hall _ (mem_atActors.2 (mem_atRedis.2 h))

theorem asked_mem {log : List ZEvent} {i id : Nat} (h : (log.any fun e => match e with | .asked j k => j == i && k == id | _ => false) = true) :
    .asked i id ∈ log := by
  rw [List.any_eq_true] at h
  obtain ⟨e, he, h⟩ := h
  split at h
  · simp at h; rw [← h.1, ← h.2]; exact he
  · cases h

theorem bulk_mem {log : List ZEvent} {id t : Nat} {m : RMsg} {s : String} (h : ((atRedis log).any fun e => match e with
      | .served i m' (.ok (.bulk s')) t' => i == id && decide (m' = m) && s' == s && t' == t
      | _ => false) = true) :
    .net (.served id m (.ok (.bulk s)) t) ∈ log := by
  rw [List.any_eq_true] at h
  obtain ⟨e, he, h⟩ := h
  split at h
  · simp at h
    obtain ⟨⟨⟨rfl, rfl⟩, rfl⟩, rfl⟩ := h
    exact mem_atRedis.1 he
  · cases h

/-- The hypotheses of `C131_gets_challenge`. -/
example : .asked 0 0 ∈ zLog sysLib ⟨true⟩ 1 5 0 [0, 1] exRedisHonest ∧
    .net (.served 0 (.addVisitor "site") exReply 0) ∈ zLog sysLib ⟨true⟩ 1 5 0 [0, 1] exRedisHonest ∧
    (∀ id' c e t', .asked 0 id' ∈ zLog sysLib ⟨true⟩ 1 5 0 [0, 1] exRedisHonest →
      .net (.served id' (.cachePow c) (.error e) t') ∉ zLog sysLib ⟨true⟩ 1 5 0 [0, 1] exRedisHonest) ∧
    .sys (.api (.ret 0 (.get "site") (.get (.ok (some ⟨exDrawn, 50, "salt"⟩))))) ∈ zLog sysLib ⟨true⟩ 1 5 0 [0, 1] exRedisHonest := by
  refine ⟨asked_mem (by decide +kernel), bulk_mem (by decide +kernel), ?_, mem_atCalls.1 (by decide +kernel)⟩
  intro id' c e t' _ h
  have hall : ((atRedis (zLog sysLib ⟨true⟩ 1 5 0 [0, 1] exRedisHonest)).all fun e => match e with | .served _ _ (.error _) _ => false | _ => true) = true := by
    decide +kernel
  simpa using List.all_eq_true.1 hall _ (mem_atRedis.2 h)

theorem exRedisHonest_rest : QuiescentZ sysLib ⟨true⟩ (zState sysLib ⟨true⟩ 1 5 0 [0, 1] exRedisHonest) := by
  have e1 : (zState sysLib ⟨true⟩ 1 5 0 [0, 1] exRedisHonest).sys.queue =
      { inner := { queues := [("ip", [])], runners := [Worker.spawn], ips := ["ip"], cur := 0, queueLength := 5 },
        mailbox := [], status := .running, closed := false } := by decide +kernel
  have e2 : (zState sysLib ⟨true⟩ 1 5 0 [0, 1] exRedisHonest).sys.calls.map Call.view =
      [(.get "site", .done, true, none),
       (.verify exWork "ip", .done, true, some { pc := .dropped true, buf := [], rxAlive := false, reading := .verdict true }),
       (.validate ⟨exDrawn2, "site"⟩, .done, true, none)] := by decide +kernel
  have e3 : (zState sysLib ⟨true⟩ 1 5 0 [0, 1] exRedisHonest).sys.calls.length = 3 := by rw [← List.length_map Call.view, e2]; rfl
  refine rest_quiescentZ _ _ _ (rest_of 9 _ ?_ ?_) ?_ ?_ (by decide +kernel)
  · rw [e1]
    refine ⟨rfl, rfl, ?_⟩
    intro w r h
    cases w with
    | zero => simp at h; subst h; exact ⟨rfl, rfl⟩
    | succ w => simp at h
  · intro j hj
    rw [e3] at hj
    rw [e2]
    match j, hj with
    | 0, _ => exact ⟨_, rfl, .inl ⟨rfl, .inl rfl⟩⟩
    | 1, _ => exact ⟨_, rfl, .inl ⟨rfl, .inr ⟨_, _, rfl, rfl⟩⟩⟩
    | 2, _ => exact ⟨_, rfl, .inl ⟨rfl, .inl rfl⟩⟩
  · intro c hc
    have : c.view ∈ (zState sysLib ⟨true⟩ 1 5 0 [0, 1] exRedisHonest).sys.calls.map Call.view := List.mem_map_of_mem hc
    rw [e2] at this
    simp only [List.mem_cons, Call.view, Prod.mk.injEq, List.not_mem_nil, or_false] at this
    rcases this with h | h | h <;> exact h.2.1
  · decide +kernel

/-- The hypotheses of `C131_token_arrives`, and its conclusion. -/
example : ∃ token id' y t', .sys (.api (.ret 1 (.verify exWork "ip") (.verify (.ok (token, 50))))) ∈ zLog sysLib ⟨true⟩ 1 5 0 [0, 1] exRedisHonest ∧
    .asked 1 id' ∈ zLog sysLib ⟨true⟩ 1 5 0 [0, 1] exRedisHonest ∧
    .net (.served id' (.cacheResult { token := token, key := exWork.key, duration := 30 }) (.ok y) t') ∈ zLog sysLib ⟨true⟩ 1 5 0 [0, 1] exRedisHonest := by
  refine C131_token_arrives sysLib ⟨true⟩ 1 5 0 [0, 1] exRedisHonest 1 2 exWork "ip" exReply 0 ⟨30, 50⟩ (by decide) (exRedisHonest_fine 0)
    (mem_atCalls.1 (by decide +kernel)) (asked_mem (by decide +kernel)) (bulk_mem (by decide +kernel)) exReply_text ⟨by decide, by decide⟩ ?_ ?_
    exRedisHonest_rest (fun h => absurd (mem_atCalls.2 h) (by decide +kernel)) (by decide +kernel)
  · rintro ⟨w, j, h⟩
    have : (zLog sysLib ⟨true⟩ 1 5 0 [0, 1] exRedisHonest).all (fun | .sys (.api (.queue (.crashedOn _ _))) => false | _ => true) = true := by
      decide +kernel
    rw [List.all_eq_true] at this
    simpa using this _ h
  · intro ip' h
    have : (zLog sysLib ⟨true⟩ 1 5 0 [0, 1] exRedisHonest).all (fun | .sys (.api (.queue (.refused _ _))) => false | _ => true) = true := by
      decide +kernel
    rw [List.all_eq_true] at this
    simpa using this _ h

/-- The hypotheses of `C131_token_validates`. -/
example : ∃ j id m y r t T a b c, zLog sysLib ⟨true⟩ 1 5 0 [0, 1] exRedisHonest =
      a ++ .net (.served j (.cacheResult m) (.ok y) t) :: (b ++ .net (.served id (.verify ⟨exDrawn2, "site"⟩) r T) :: c) ∧
    tokenKey m.key m.token = tokenKey "site" exDrawn2 ∧ (∀ e ∈ b, ¬ touchesToken (tokenKey "site" exDrawn2) e) ∧ T ≤ t + 1000 * m.duration ∧
    .asked 2 id ∈ zLog sysLib ⟨true⟩ 1 5 0 [0, 1] exRedisHonest ∧
    .sys (.api (.ret 2 (.validate ⟨exDrawn2, "site"⟩) (.validate (.ok true)))) ∈ zLog sysLib ⟨true⟩ 1 5 0 [0, 1] exRedisHonest := by
  have hret : .sys (.api (.ret 2 (.validate ⟨exDrawn2, "site"⟩) (.validate (.ok true)))) ∈ zLog sysLib ⟨true⟩ 1 5 0 [0, 1] exRedisHonest :=
    mem_atCalls.1 (by decide +kernel)
  obtain ⟨pay, m, y, t, a, b, c, check, T, h1, h2, h3, h4, h5, -⟩ := C116_paid sysLib ⟨true⟩ 1 5 0 [0, 1] exRedisHonest 2 ⟨exDrawn2, "site"⟩ hret
  exact ⟨pay.store, check, m, y, _, t, T, a, b, c, h1, h3, h5, h4, h2, hret⟩

/-- On a cluster with one thread the run is the same. -/
theorem exRedisHonest_cluster : cRun sysLib ⟨true⟩ (fun _ => 0) (RService.new 1 5 0 [0, 1]) exRedisHonest =
    zRun sysLib ⟨true⟩ (RService.new 1 5 0 [0, 1]) exRedisHonest :=
  cRun_allMay sysLib ⟨true⟩ (fun _ => 0) exRedisHonest (RService.new 1 5 0 [0, 1]) (by decide +kernel)

/-- The hypotheses of the theorems about clusters. -/
example : KeepsUp exRedisHonest (cLog sysLib ⟨true⟩ (fun _ => 0) 1 5 0 [0, 1] exRedisHonest) 0 ∧
    QuiescentC sysLib ⟨true⟩ (fun _ => 0) (cState sysLib ⟨true⟩ (fun _ => 0) 1 5 0 [0, 1] exRedisHonest) ∧
    .sys (.api (.ret 1 (.verify exWork "ip") (.verify (.ok (exDrawn2, 50))))) ∈ cLog sysLib ⟨true⟩ (fun _ => 0) 1 5 0 [0, 1] exRedisHonest ∧
    .sys (.api (.ret 2 (.validate ⟨exDrawn2, "site"⟩) (.validate (.ok true)))) ∈ cLog sysLib ⟨true⟩ (fun _ => 0) 1 5 0 [0, 1] exRedisHonest := by
  rw [cState, cLog, exRedisHonest_cluster]
  exact ⟨exRedisHonest_fine 0, quiescentC_of_single _ _ _ _ exRedisHonest_rest, mem_atCalls.1 (by decide +kernel), mem_atCalls.1 (by decide +kernel)⟩

/-- No step of the run is a failure or a way of giving up. -/
example : (∀ i, .cancel i ∉ exRedisHonest) ∧ (∀ id, .net (.drop id) ∉ exRedisHonest) ∧ ∀ b e, .net (.fail b e) ∉ exRedisHonest := by
  simp [exRedisHonest, exRedis]

end MCap
