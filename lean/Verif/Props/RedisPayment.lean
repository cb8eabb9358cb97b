import Verif.Proofs.RedisOnce
import Verif.Props.RedisService

/-!
# C116: on Redis, every accepted token was paid for separately
-/

namespace MCap
open Spec

/-! ## C116 On Redis, every accepted token was paid for separately -/

/-- C116. Whatever the service accepts was paid for: the server stored the token, nobody touched it until it was taken for this validation, in
time; and if the request to store it came from this service, then from a `verify_pow` call that had taken out the challenge before, with a
request of its own, for the same site, and whose work solves it at the difficulty the server told with it. -/
theorem C116_paid (lib : PowLib) (p : Profile) (n ql now : Nat) (conns : List Nat) (steps : List ZStep) (v : Nat) (msg : VerifyCaptchaResult)
    (h : AcceptedOnRedis (zLog lib p n ql now conns steps) v msg) : ∃ pay, PaidOnRedis lib (zLog lib p n ql now conns steps) v msg pay := by
  have hinv := zinv_run lib p n ql now conns steps
  obtain ⟨pre, post, hlog⟩ := List.append_of_mem h
  obtain ⟨os, ho⟩ := zlog_open hlog
  obtain ⟨check, hask, hans⟩ := verdict_served hlog (C99_validate_outcome lib p n ql now os v msg _ _ _ ho)
  have hask' : .asked v check ∈ zLog lib p n ql now conns steps := by rw [hlog]; exact List.mem_append_left _ hask
  have hans' : .net (.actor (.answered 0 check (.verify msg) (.verdict (.ok true)))) ∈ zLog lib p n ql now conns steps := by
    rw [hlog]; exact List.mem_append_left _ hans
  obtain ⟨ns, hn⟩ := hinv.net
  have hnet := netInv_run conns now ns
  obtain ⟨T, hT⟩ := hnet.told 0 check msg true (by rw [hn]; exact mem_atRedis.2 hans')
  rw [hn] at hT
  obtain ⟨l, c, hl⟩ := List.append_of_mem (mem_atRedis.1 hT)
  simp only [if_true] at hl
  have hserver : serverLog (nRun (RNet.new conns now) ns).2 = l.flatMap zTokens ++ .answered msg (.ok true) T :: c.flatMap zTokens := by
    rw [hn, serverLog_z, hl, List.flatMap_append, List.flatMap_cons]
    rfl
  have hthere : TokenThere (l.flatMap zTokens) (tokenKey msg.key msg.token) T := by
    refine Classical.byContradiction fun hno => ?_
    have := (C92_server_exact conns now ns _ _ _ _ _ hserver).2 hno
    simp at this
  obtain ⟨ta, m, t, tb, htl, hkey, hfree, htime⟩ := hthere
  obtain ⟨a, e, b, rfl, he, -, hb⟩ := flatMap_split htl
  obtain ⟨store, y, rfl⟩ := zTokens_added he
  have hall : zLog lib p n ql now conns steps =
      a ++ .net (.served store (.cacheResult m) (.ok y) t) :: (b ++ .net (.served check (.verify msg) (.ok (.int 1)) T) :: c) := by
    rw [show zLog lib p n ql now conns steps = _ from hl]; simp
  have hunt : ∀ e ∈ b, ¬ touchesToken (tokenKey msg.key msg.token) e := by
    refine touches_concerns ?_ (by rw [hb]; exact hfree)
    intro id v' r t' hm
    refine (hnet.served id _ r t' ?_).2 v' rfl
    rw [hn]
    refine mem_atRedis.2 (show _ ∈ zLog lib p n ql now conns steps from ?_)
    rw [hall]
    simp [hm]
  by_cases hk : ∃ k, .asked k store ∈ zLog lib p n ql now conns steps
  · obtain ⟨k, hk⟩ := hk
    obtain ⟨s1, post', b', m', hwhen, ⟨api, hcall, hreq⟩, hbefore⟩ := asked_when hk
    have hsub : ∃ x, a = zLog lib p n ql now conns s1 ++ x := by
      rcases append_split (hwhen.symm.trans hall) with ⟨x, h1, -⟩ | ⟨x, h1, -⟩
      · exact absurd (show ZEvent.net (.served store (.cacheResult m) (.ok y) t) ∈ zLog lib p n ql now conns s1 by rw [h1]; simp) (hbefore _ _ _)
      · exact ⟨x, h1⟩
    obtain ⟨x, hx⟩ := hsub
    have hm' : m' = .cacheResult m := by
      obtain ⟨⟨d, hd⟩, -⟩ := hnet.served store (.cacheResult m) (.ok y) t (by
        rw [hn]
        refine mem_atRedis.2 (show _ ∈ zLog lib p n ql now conns steps from ?_)
        rw [hall]; simp)
      rw [hn] at hd
      exact (zlog_sent (lib := lib) (p := p) (n := n) (ql := ql) (now := now) (conns := conns) (steps := steps) (a := b') (b := d)
        (by rw [hwhen]; simp) (mem_atRedis.1 hd)).2
    subst hm'
    rcases hreq with ⟨_, -, -, e⟩ | ⟨cm, st, -, e, hp⟩
    · cases e
    · cases cm <;> simp only [CacheMsg.toRedis, RMsg.cacheResult.injEq, reduceCtorEq] at e
      subst e
      cases st with
      | storePow cfg => obtain ⟨_, _, -, -, -, -, -, e⟩ := hp; cases e
      | check => obtain ⟨_, -, e⟩ := hp; cases e
      | retrieve => obtain ⟨_, _, -, e⟩ := hp; cases e
      | storeResult tk d =>
        obtain ⟨work, ip, cfg, rfl, hf, hkk, hd, e, hsol, -⟩ := hp
        cases e
        obtain ⟨taken, r, t', z, g1, g2, g3, g4⟩ := found_served (lib := lib) (p := p) (n := n) (ql := ql) (now := now) (conns := conns) (steps := s1) (post := [])
          (List.append_nil _).symm (mem_apiPart.1 hf)
        cases g4
        refine ⟨⟨store, taken⟩, _, y, t, a, b, c, check, T, hall, hask', hkey, htime, hunt, ?_⟩
        intro k' hk'
        have := hinv.own k' k store hk' hk
        subst this
        refine ⟨work, ip, r, t', z, ?_, ?_, ?_, g3, by rw [← hd] at hsol; exact hsol, rfl, rfl⟩
        · rw [hx]; exact List.mem_append_left _ hcall
        · rw [hx]; exact List.mem_append_left _ g1
        · rw [hx]; exact List.mem_append_left _ g2
  · exact ⟨⟨store, 0⟩, m, y, t, a, b, c, check, T, hall, hask', hkey, htime, hunt, fun k hk' => absurd ⟨k, hk'⟩ hk⟩

/-- Another token. -/
def exDrawn3 : String := getRandom 32 (fun _ => 2)

/-- Two visitors solve a challenge each, and both tokens are validated; a third validation fails. -/
def exRedisTwo : List ZStep :=
  let got (i : Nat) (g : Rng) : List ZStep :=
    [.sys (.call (.verify exWork "ip")), .ask i, .net (.take 0), .net (.serve 0 exReply), .net (.deliver 0 0), .hear i (fun _ => 0), .sys (.resume i),
     .sys (.queue .manage), .sys (.queue .manage), .sys (.resume i), .sys (.queue (.take 0)), .sys (.work 0), .sys (.work 0), .sys (.work 0), .sys (.poll i g),
     .sys (.work 0), .sys (.queue (.finish 0)), .ask i, .net (.take 0), .net (.serve 0 (.ok .nil)), .net (.deliver 0 0), .hear i (fun _ => 0), .sys (.resume i)]
  let checks (i : Nat) (tok : String) : List ZStep :=
    [.sys (.call (.validate ⟨tok, "site"⟩)), .ask i, .net (.take 0), .net (.serve 0 (.ok .nil)), .net (.deliver 0 0), .hear i (fun _ => 0), .sys (.resume i)]
  got 0 (fun _ => 1) ++ got 1 (fun _ => 2) ++ checks 2 exDrawn2 ++ checks 3 exDrawn3 ++ checks 4 exDrawn3

example : AcceptedOnRedis (zLog sysLib ⟨true⟩ 1 5 0 [0, 1] exRedisTwo) 2 ⟨exDrawn2, "site"⟩ ∧
    AcceptedOnRedis (zLog sysLib ⟨true⟩ 1 5 0 [0, 1] exRedisTwo) 3 ⟨exDrawn3, "site"⟩ :=
  ⟨mem_atCalls.1 (by decide +kernel), mem_atCalls.1 (by decide +kernel)⟩

/-- C116. Two validations never share a payment: if the tokens were stored by the same request, or by requests of the same call, or by calls that
took out their challenge with the same request, then it was one validation of one token. -/
theorem C116_separately (lib : PowLib) (p : Profile) (n ql now : Nat) (conns : List Nat) (steps : List ZStep) (v v' : Nat) (msg msg' : VerifyCaptchaResult)
    (pay pay' : RedisPayment) (h : PaidOnRedis lib (zLog lib p n ql now conns steps) v msg pay)
    (h' : PaidOnRedis lib (zLog lib p n ql now conns steps) v' msg' pay')
    (hs : pay.store = pay'.store ∨ ∃ k k', .asked k pay.store ∈ zLog lib p n ql now conns steps ∧ .asked k' pay'.store ∈ zLog lib p n ql now conns steps ∧
      (k = k' ∨ pay.taken = pay'.taken)) : v = v' ∧ msg = msg' ∧ pay.store = pay'.store := by
  have hinv := zinv_run lib p n ql now conns steps
  have hone := askOnce_run lib p n ql now conns steps
  obtain ⟨m, y, t, a, b, c, check, T, hall, hask, hkey, -, hunt, hpaid⟩ := h
  obtain ⟨m', y', t', a', b', c', check', T', hall', hask', hkey', -, hunt', hpaid'⟩ := h'
  have hsentOf : ∀ {id m y t l r}, zLog lib p n ql now conns steps = l ++ .net (.served id (.cacheResult m) (.ok y) t) :: r →
      ∃ d, .net (.actor (.sent d id (.cacheResult m))) ∈ zLog lib p n ql now conns steps := by
    intro id m y t l r hl
    obtain ⟨ns, hn⟩ := hinv.net
    obtain ⟨⟨d, hd⟩, -⟩ := (netInv_run conns now ns).served id (.cacheResult m) (.ok y) t (by
      rw [hn]
      refine mem_atRedis.2 (show _ ∈ zLog lib p n ql now conns steps from ?_)
      rw [hl]; simp)
    rw [hn] at hd
    exact ⟨d, mem_atRedis.1 hd⟩
  have hstore : pay.store = pay'.store := by
    rcases hs with hs | ⟨k, k', hk, hk', hs⟩
    · exact hs
    · have hkk : k = k' := by
        rcases hs with hs | hs
        · exact hs
        · obtain ⟨_, _, _, _, _, -, ht, -⟩ := hpaid k hk
          obtain ⟨_, _, _, _, _, -, ht', -⟩ := hpaid' k' hk'
          refine hinv.own k k' pay.taken (show _ ∈ zLog lib p n ql now conns steps by rw [hall]; exact List.mem_append_left _ ht) (show _ ∈ zLog lib p n ql now conns steps from ?_)
          rw [hs, hall']; exact List.mem_append_left _ ht'
      subst hkk
      obtain ⟨d, hd⟩ := hsentOf hall
      obtain ⟨d', hd'⟩ := hsentOf hall'
      exact hone.same k _ _ ⟨hk, d, m, hd⟩ ⟨hk', d', m', hd'⟩
  rw [hstore] at hall
  obtain ⟨rfl, hm, -, -, hrest⟩ := one_place (zlog_servedOnce lib p n ql now conns steps pay'.store) hall hall'
  cases hm
  have hchk : ZEvent.net (.served check (.verify msg) (.ok (.int 1)) T) = .net (.served check' (.verify msg') (.ok (.int 1)) T') := by
    rcases append_split hrest with ⟨x, h1, -⟩ | ⟨x, h1, h2⟩
    · exact absurd (show touchesToken (tokenKey msg.key msg.token) (.net (.served check' (.verify msg') (.ok (.int 1)) T')) from hkey'.symm.trans hkey) (hunt _ (by rw [h1]; simp))
    · cases x with
      | nil => simp only [List.nil_append, List.cons.injEq] at h2; exact h2.1
      | cons z x =>
        simp only [List.cons_append, List.cons.injEq] at h2
        exact absurd (show touchesToken (tokenKey msg'.key msg'.token) (.net (.served check (.verify msg) (.ok (.int 1)) T)) from hkey.symm.trans hkey') (hunt' _ (by rw [h1, h2.1]; simp))
  cases hchk
  exact ⟨hinv.own v v' check hask hask', rfl, hstore⟩

/-- Two payments in one run. -/
example : ∃ pay pay', PaidOnRedis sysLib (zLog sysLib ⟨true⟩ 1 5 0 [0, 1] exRedisTwo) 2 ⟨exDrawn2, "site"⟩ pay ∧
    PaidOnRedis sysLib (zLog sysLib ⟨true⟩ 1 5 0 [0, 1] exRedisTwo) 3 ⟨exDrawn3, "site"⟩ pay' ∧ pay.store ≠ pay'.store := by
  obtain ⟨pay, h⟩ := C116_paid sysLib ⟨true⟩ 1 5 0 [0, 1] exRedisTwo 2 ⟨exDrawn2, "site"⟩ (mem_atCalls.1 (by decide +kernel))
  obtain ⟨pay', h'⟩ := C116_paid sysLib ⟨true⟩ 1 5 0 [0, 1] exRedisTwo 3 ⟨exDrawn3, "site"⟩ (mem_atCalls.1 (by decide +kernel))
  exact ⟨pay, pay', h, h', fun e => absurd (C116_separately _ _ _ _ _ _ _ _ _ _ _ _ _ h h' (.inl e)).1 (by decide)⟩

/-- C116. If only this service has tokens stored, it never accepts more tokens than challenges were taken from the server. -/
theorem C116_count (lib : PowLib) (p : Profile) (n ql now : Nat) (conns : List Nat) (steps : List ZStep)
    (hown : ∀ a id m, .net (.actor (.sent a id (.cacheResult m))) ∈ zLog lib p n ql now conns steps → ∃ k, .asked k id ∈ zLog lib p n ql now conns steps) :
    acceptedOnRedis (zLog lib p n ql now conns steps) ≤ challengesTaken (zLog lib p n ql now conns steps) := by
  have hinv := zinv_run lib p n ql now conns steps
  let f : ZEvent → Option Nat := fun e => match e with
    | .sys (.api (.ret i (.validate _) (.validate (.ok true)))) => some i
    | _ => none
  have hf : ∀ {e k}, f e = some k → ∃ msg, e = .sys (.api (.ret k (.validate msg) (.validate (.ok true)))) := by
    intro e k he
    simp only [f] at he
    split at he
    · rename_i i msg
      cases he
      exact ⟨msg, rfl⟩
    · cases he
  have hcount : acceptedOnRedis (zLog lib p n ql now conns steps) = ((zLog lib p n ql now conns steps).filterMap f).length := by
    refine countP_filterMap_length _ f _ ?_
    intro e
    simp only [f]
    split <;> simp
  rw [hcount]
  refine length_le_countP _ (fun v e => ∃ msg pay k m r t, PaidOnRedis lib (zLog lib p n ql now conns steps) v msg pay ∧
    .asked k pay.store ∈ zLog lib p n ql now conns steps ∧ e = .net (.served pay.taken m r t)) _ _ ?_ ?_ ?_
  · refine nodup_of_countP f _ ?_
    intro k
    obtain ⟨os, ho⟩ := hinv.sys
    have h1 := (C99_returns_once lib p n ql now os k).1
    rw [openLog, ho] at h1
    refine Nat.le_trans ?_ h1
    show (zLog lib p n ql now conns steps).countP _ ≤ (atCalls (zLog lib p n ql now conns steps)).countP (ends k)
    rw [atCalls, List.countP_filterMap]
    refine List.countP_mono_left ?_
    intro e _ he
    simp only [beq_iff_eq] at he
    obtain ⟨msg, rfl⟩ := hf he
    simp [ends]
  · intro v hv
    obtain ⟨e, he, hfe⟩ := List.mem_filterMap.1 hv
    obtain ⟨msg, rfl⟩ := hf hfe
    obtain ⟨pay, hpay⟩ := C116_paid lib p n ql now conns steps v msg he
    obtain ⟨m, y, t, a, b, c, check, T, hall, -, -, -, -, hpaid⟩ := id hpay
    obtain ⟨ns, hn⟩ := hinv.net
    obtain ⟨⟨d, hd⟩, -⟩ := (netInv_run conns now ns).served pay.store (.cacheResult m) (.ok y) t (by
      rw [hn]
      refine mem_atRedis.2 (show _ ∈ zLog lib p n ql now conns steps from ?_)
      rw [hall]; simp)
    rw [hn] at hd
    obtain ⟨k, hk⟩ := hown d _ m (mem_atRedis.1 hd)
    obtain ⟨work, ip, r, t', x, -, -, hs, -⟩ := hpaid k hk
    refine ⟨_, (show _ ∈ zLog lib p n ql now conns steps by rw [hall]; exact List.mem_append_left _ hs), rfl, msg, pay, k, _, r, t', hpay, hk, rfl⟩
  · rintro v v' e ⟨msg, pay, k, m, r, t, h1, h2, rfl⟩ ⟨msg', pay', k', m', r', t', h1', h2', e⟩
    simp only [ZEvent.net.injEq, NEvent.served.injEq] at e
    exact (C116_separately lib p n ql now conns steps v v' msg msg' pay pay' h1 h1' (.inr ⟨k, k', h2, h2', .inr e.1⟩)).1

/-- In the example both numbers are 2, and the calls themselves had the tokens stored. -/
example : acceptedOnRedis (zLog sysLib ⟨true⟩ 1 5 0 [0, 1] exRedisTwo) = 2 ∧ challengesTaken (zLog sysLib ⟨true⟩ 1 5 0 [0, 1] exRedisTwo) = 2 ∧
    ∀ a id m, .net (.actor (.sent a id (.cacheResult m))) ∈ zLog sysLib ⟨true⟩ 1 5 0 [0, 1] exRedisTwo →
      ∃ k, .asked k id ∈ zLog sysLib ⟨true⟩ 1 5 0 [0, 1] exRedisTwo := by
  refine ⟨by decide +kernel, by decide +kernel, ?_⟩
  intro a id m hm
  have hall : ((atActors (atRedis (zLog sysLib ⟨true⟩ 1 5 0 [0, 1] exRedisTwo))).all fun e => match e with
    | .sent _ id (.cacheResult _) => (zLog sysLib ⟨true⟩ 1 5 0 [0, 1] exRedisTwo).any fun x => match x with | .asked _ j => j == id | _ => false
    | _ => true) = true := by decide +kernel
  have := List.all_eq_true.1 hall _ (mem_atActors.2 (mem_atRedis.2 hm))
  obtain ⟨x, hx, hy⟩ := List.any_eq_true.1 this
  cases x with
  | asked k j =>
    simp only [beq_iff_eq] at hy
    subst hy
    exact ⟨k, hx⟩
  | _ => cases hy

end MCap
