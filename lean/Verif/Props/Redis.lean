import Verif.Proofs.Redis
import Verif.Proofs.RedisText
import Verif.Proofs.RedisActors
import Verif.Proofs.RedisReplies
import Verif.Proofs.RedisModule

/-!
# Properties of the Redis back end
-/

namespace MCap
open Spec

/-! ## C65 Redis token keys -/

/-- The claim as stated is false: a colon in a site key moves the boundary. -/
theorem C65_keys_unambiguous_refuted :
    ¬ ∀ k t k' t' : String, tokenKey k t = tokenKey k' t' → k = k' ∧ t = t' := by
  intro h
  have := (h "a:b" "c" "a" "b:c" (by decide)).1
  exact absurd this (by decide)

/-- So a token stored for one site is accepted for another one: the verdict for `("a", "b:c")` is true, though only `("a:b", "c")` was
stored. -/
theorem C65_token_crosses_sites_refuted :
    ¬ ∀ now steps pre v r T post, (tokenRun (RedisDb.init now) steps).2 = pre ++ .answered v (.ok r) T :: post → r = true →
      ∃ m t, .added m t ∈ pre ∧ m.key = v.key := by
  intro h
  have := h 0 [.add ⟨"c", "a:b", 30⟩, .get ⟨"b:c", "a"⟩] [.added ⟨"c", "a:b", 30⟩ 0] ⟨"b:c", "a"⟩ true 0 [] (by decide) rfl
  obtain ⟨m, t, hm, hk⟩ := this
  simp at hm
  obtain ⟨rfl, rfl⟩ := hm
  exact absurd hk (by decide)

/-- Missing: site keys with a colon. Without them Redis keys are unambiguous, whatever the tokens. -/
theorem C65_site_keys_partial (k t k' t' : String) (hk : ':' ∉ k.toList) (hk' : ':' ∉ k'.toList) (h : tokenKey k t = tokenKey k' t') :
    k = k' ∧ t = t' := tokenKey_inj h hk hk'

example : ':' ∉ "mysite".toList ∧ tokenKey "mysite" "t:1" = "mcaptcha:token:mysite:t:1" := by decide

/-- Missing: tokens with a colon. The library's own tokens are alphanumeric (C38, C46), so keys of tokens it minted are unambiguous,
whatever the site keys. -/
theorem C65_tokens_partial (k t k' t' : String) (ht : ':' ∉ t.toList) (ht' : ':' ∉ t'.toList) (h : tokenKey k t = tokenKey k' t') :
    k = k' ∧ t = t' := tokenKey_inj_tokens h ht ht'

example : ':' ∉ "Xy12".toList ∧ tokenKey "a:b" "Xy12" ≠ tokenKey "a" "Xy12" := by decide

/-- Token keys never collide with other keys of the server not starting with the prefix, and always start with it. -/
theorem C65_prefix (k t : String) : "mcaptcha:token:".toList <+: (tokenKey k t).toList := by
  rw [tokenKey_toList]
  exact List.prefix_append _ _

example : (tokenKey "s" "t").toList.take 15 = "mcaptcha:token:".toList := by decide

/-! ## C66 Redis tokens are single use -/

/-- In every history, a validation is answered `true` exactly if the token is there: stored under the same Redis key, not asked for or
deleted since, and not expired. Else the answer is `false`; it is never an error. -/
theorem C66_verdict (now : Nat) (steps : List TokenStep) (pre : List TokenEvent) (v : VerifyCaptchaResult) (r : CaptchaResult Bool) (T : Nat)
    (post : List TokenEvent) (h : (tokenRun (RedisDb.init now) steps).2 = pre ++ .answered v r T :: post) :
    (TokenThere pre (tokenKey v.key v.token) T → r = .ok true) ∧ (¬ TokenThere pre (tokenKey v.key v.token) T → r = .ok false) := by
  rcases (tokenInv_init now steps).right pre v r T post h with ⟨h1, h2⟩ | ⟨h1, h2⟩
  · exact ⟨fun _ => h2, fun hn => absurd h1 hn⟩
  · exact ⟨fun hn => absurd hn h1, fun _ => h2⟩

/-- A token accepted once is refused the second time; one asked for too late, too. -/
example :
    (tokenRun (RedisDb.init 0) [.add ⟨"t", "site", 2⟩, .tick 1500, .get ⟨"t", "site"⟩, .get ⟨"t", "site"⟩, .add ⟨"u", "site", 2⟩,
      .tick 2001, .get ⟨"u", "site"⟩]).2 =
    [.added ⟨"t", "site", 2⟩ 0, .answered ⟨"t", "site"⟩ (.ok true) 1500, .answered ⟨"t", "site"⟩ (.ok false) 1500,
      .added ⟨"u", "site", 2⟩ 1500, .answered ⟨"u", "site"⟩ (.ok false) 3501] := by decide

/-- An accepted token was stored before, with a deadline not yet over, for the same site if no site key has a colon. -/
theorem C66_bound_to_site (now : Nat) (steps : List TokenStep) (pre : List TokenEvent) (v : VerifyCaptchaResult) (T : Nat)
    (post : List TokenEvent) (h : (tokenRun (RedisDb.init now) steps).2 = pre ++ .answered v (.ok true) T :: post)
    (hv : ':' ∉ v.key.toList) (hk : ∀ m t, .added m t ∈ pre → ':' ∉ m.key.toList) :
    ∃ m t, .added m t ∈ pre ∧ m.key = v.key ∧ m.token = v.token ∧ T ≤ t + 1000 * m.duration := by
  rcases (tokenInv_init now steps).right pre v _ T post h with ⟨⟨a, m, t, b, rfl, h2, h3, h4⟩, -⟩ | ⟨-, h2⟩
  · have hm : .added m t ∈ a ++ .added m t :: b := by simp
    obtain ⟨hk', ht'⟩ := tokenKey_inj h2 (hk m t hm) hv
    exact ⟨m, t, hm, hk', ht', h4⟩
  · cases h2

example :
    (tokenRun (RedisDb.init 0) [.add ⟨"t", "site", 2⟩, .get ⟨"t", "site"⟩]).2 =
      [.added ⟨"t", "site", 2⟩ 0] ++ .answered ⟨"t", "site"⟩ (.ok true) 0 :: [] ∧ ':' ∉ "site".toList := by decide

/-- A token is accepted at most as often as it was stored. -/
theorem C66_single_use (now : Nat) (steps : List TokenStep) (κ : String) :
    acceptances κ (tokenRun (RedisDb.init now) steps).2 ≤ additions κ (tokenRun (RedisDb.init now) steps).2 := by
  have := (tokenInv_init now steps).few κ
  omega

example :
    acceptances (tokenKey "s" "t") (tokenRun (RedisDb.init 0) [.add ⟨"t", "s", 9⟩, .get ⟨"t", "s"⟩, .get ⟨"t", "s"⟩]).2 = 1 ∧
    additions (tokenKey "s" "t") (tokenRun (RedisDb.init 0) [.add ⟨"t", "s", 9⟩, .get ⟨"t", "s"⟩, .get ⟨"t", "s"⟩]).2 = 1 := by decide

/-- Storing succeeds whenever the lifetime is positive and within what the server can represent. -/
theorem C66_stored (db : RedisDb) (m : CacheResult) (hd : 0 < m.duration) (hf : db.now + 1000 * m.duration ≤ 2 ^ 63 - 1) :
    (tokenStep db (.add m)).2 = [.added m db.now] := by
  simp [tokenStep, exec_addToken, RedisDb.setEx, hd, RedisDb.maxTime, hf, RedisClient.addToken]

example : (tokenStep (RedisDb.init 5) (.add ⟨"t", "s", 30⟩)).2 = [.added ⟨"t", "s", 30⟩ 5] := by decide

/-! ## C67 Two back ends -/

/-- False as stated: a question for the wrong site uses the token up in memory (C39), but not in Redis. -/
theorem C67_same_answers_refuted : ¬ ∀ now msgs, hashVerdicts now msgs = redisVerdicts now msgs := by
  intro h
  have := h 0 [.store ⟨"t", "a", 30⟩, .check ⟨"t", "b"⟩, .check ⟨"t", "a"⟩]
  exact absurd this (by decide)

/-- Missing: tokens asked for under several site keys, site keys with a colon, and lifetimes the server refuses. Otherwise the verdicts
are the same (no time passes). -/
theorem C67_same_answers_partial (keyOf : String → String) (now : Nat) (msgs : List TokenMsg)
    (hs : ∀ m, .store m ∈ msgs → m.key = keyOf m.token ∧ ':' ∉ m.key.toList ∧ 0 < m.duration ∧ now + 1000 * m.duration ≤ 2 ^ 63 - 1)
    (hc : ∀ v, .check v ∈ msgs → v.key = keyOf v.token ∧ ':' ∉ v.key.toList) : hashVerdicts now msgs = redisVerdicts now msgs := by
  refine sameTokens_run keyOf msgs (CacheWorld.init now) (RedisDb.init now) ⟨?_, ?_⟩ ?_
  · intro t k h; cases h
  · intro t _; rfl
  · intro m hm
    cases m with
    | store m => exact hs m hm
    | check v => exact hc v hm

/-- Two sites, tokens used in turn, with a repetition and an unknown token. -/
example :
    hashVerdicts 0 [.store ⟨"t", "a", 30⟩, .store ⟨"u", "b", 30⟩, .check ⟨"u", "b"⟩, .check ⟨"u", "b"⟩, .check ⟨"t", "a"⟩, .check ⟨"x", "a"⟩] =
      [.ok true, .ok false, .ok true, .ok false] ∧
    redisVerdicts 0 [.store ⟨"t", "a", 30⟩, .store ⟨"u", "b", 30⟩, .check ⟨"u", "b"⟩, .check ⟨"u", "b"⟩, .check ⟨"t", "a"⟩, .check ⟨"x", "a"⟩] =
      [.ok true, .ok false, .ok true, .ok false] := by decide

/-! ## C68 Commands of an actor do not overlap -/

/-- Three actors on two connections; the last two are a master and its clone. -/
def redisExample : List RStep :=
  [.send 0 (.verify ⟨"t", "a"⟩), .send 0 (.cacheResult ⟨"u", "a", 30⟩), .take 0, .take 0, .send 1 (.addVisitor "a"), .take 1, .reply 0 (.ok (.int 1)),
    .take 0, .reply 0 (.ok .okay)]

example : (rRun (RSys.new [0, 1]) redisExample).2 =
    [.sent 0 0 (.verify ⟨"t", "a"⟩), .sent 0 1 (.cacheResult ⟨"u", "a", 30⟩), .started 0 0 ["DEL", "mcaptcha:token:a:t"],
      .sent 1 2 (.addVisitor "a"), .started 1 2 ["MCAPTCHA_CACHE.ADD_VISITOR", "a"], .answered 0 0 (.verify ⟨"t", "a"⟩) (.verdict (.ok true)),
      .started 0 1 ["SET", "mcaptcha:token:a:u", "a", "EX", "30"],
      .answered 0 1 (.cacheResult ⟨"u", "a", 30⟩) (.unit (.ok ()))] := by decide

/-- Between two commands on one connection, of the same actor or of two that share it, the first one has ended. -/
theorem C68_no_overlap (conns : List Nat) (steps : List RStep) (p : List REvent) (a i : Nat) (c : RCommand) (q : List REvent) (b j : Nat)
    (c' : RCommand) (r : List REvent)
    (h : (rRun (RSys.new conns) steps).2 = p ++ .started a i c :: (q ++ .started b j c' :: r)) (hc : conns[a]? = conns[b]?) :
    (∃ m ans, .answered a i m ans ∈ q) ∨ ∃ w, .crashed a i w ∈ q := by
  obtain ⟨e, he, ⟨m, ans, rfl⟩ | ⟨w, rfl⟩⟩ := (exclInv_run conns steps).excl p a i c q b j c' r h hc
  · exact .inl ⟨m, ans, he⟩
  · exact .inr ⟨w, he⟩

/-- With a connection of its own for every actor no borrow panics. -/
theorem C68_no_borrow_panic (conns : List Nat) (hd : conns.Nodup) (steps : List RStep) (a i : Nat) :
    .crashed a i .alreadyBorrowed ∉ (rRun (RSys.new conns) steps).2 := noBorrow_run hd steps a i

/-- What was answered by an actor is what it accepted first, in the same order. -/
theorem C68_in_order (conns : List Nat) (steps : List RStep) (a : Nat) :
    answeredBy a (rRun (RSys.new conns) steps).2 <+: sentTo a (rRun (RSys.new conns) steps).2 := by
  obtain ⟨rest, hr, -⟩ := redisOrder_run conns steps a
  exact ⟨rest, hr.symm⟩

/-- A living actor with nothing left to do has answered all it accepted. -/
theorem C68_all_answered (conns : List Nat) (steps : List RStep) (a : Nat) (x : RActor)
    (hx : (rRun (RSys.new conns) steps).1.actors[a]? = some x) (hal : x.alive = true) (hi : x.inbox = []) (hb : x.busy = none) :
    answeredBy a (rRun (RSys.new conns) steps).2 = sentTo a (rRun (RSys.new conns) steps).2 := by
  obtain ⟨rest, hr, hl⟩ := redisOrder_run conns steps a
  have := hl x hx hal
  rw [this] at hr
  simpa [RActor.waiting, hi, hb] using hr.symm

example : (rRun (RSys.new [0, 1]) redisExample).1.actors[0]? = some ⟨true, 0, [], none⟩ ∧
    answeredBy 0 (rRun (RSys.new [0, 1]) redisExample).2 = [0, 1] := by decide

/-- Every answer belongs to a message sent to that actor. Unless it is one answered on the spot, its command went to the server and the
answer is what the handler makes of the very reply that arrived when the answer was given. -/
theorem C68_answers_genuine (conns : List Nat) (steps : List RStep) (a i : Nat) (m : RMsg) (ans : RAnswer)
    (h : .answered a i m ans ∈ (rRun (RSys.new conns) steps).2) :
    .sent a i m ∈ (rRun (RSys.new conns) steps).2 ∧
      (((∃ string, m = .deletePow string) ∨ ∃ token, m = .deleteResult token) ∧ ans = .unit (.ok ()) ∨
        ∃ pre r post rest, steps = pre ++ .reply a r :: post ∧ .started a i m.command ∈ (rRun (RSys.new conns) pre).2 ∧
          m.answer r = .ret ans ∧ (rRun (RSys.new conns) steps).2 = (rRun (RSys.new conns) pre).2 ++ .answered a i m ans :: rest) := by
  refine ⟨((provInv_run conns steps).answered a i m ans h).1, ?_⟩
  obtain ⟨pre, x, post, rfl, hx⟩ := rEvent_at _ _ _ h
  rcases rStep_answered hx with ⟨-, h1, h2⟩ | ⟨r, y, rfl, hy, hb, ha, he⟩
  · exact .inl ⟨(by cases m <;> first | exact .inl ⟨_, rfl⟩ | exact .inr ⟨_, rfl⟩ | cases h1), h2⟩
  · refine .inr ⟨pre, r, post, (rRun (rStep (rRun (RSys.new conns) pre).1 (.reply a r)).1 post).2, rfl,
      ((provInv_run conns pre).busy a y hy i m hb).2.1, ha, ?_⟩
    simp only [rRun_append, rRun, he, List.singleton_append]

/-! ## C69 Finding the module -/

/-- A server with the module, but listed after another one. -/
def secondModule : RResult :=
  .ok (.array [.array [.bulk "name", .bulk "search", .bulk "ver", .int 20812], .array [.bulk "name", .bulk "mcaptcha_cache", .bulk "ver", .int 1]])

/-- False as stated: only the first module listed is looked at. -/
theorem C69_module_accepted_refuted :
    ¬ ∀ printable modules info, ListsModule modules "mcaptcha_cache" → (∀ cmd ∈ moduleCommands, KnowsCommand info cmd) →
      RedisClient.isModuleLoaded printable modules info = .ret (.ok ()) := by
  intro h
  have := h (fun _ => true) secondModule (fun _ => .ok (.array [.array []])) ⟨_, _, rfl, .tail _ (.head _), .tail _ (.head _)⟩
    (fun _ _ => ⟨_, rfl, by intro h; cases h⟩)
  exact absurd this (by decide)

theorem contains_module (printable : Char → Bool) :
    RedisClient.containsStr RedisClient.moduleName.toList (RedisClient.debugText printable (.bulk "mcaptcha_cache")) = true := by
  have : RedisClient.debugText printable (.bulk "mcaptcha_cache") = "bulk-string('\"mcaptcha_cache\"')".toList := by rfl
  rw [this]
  decide

theorem commandsCheck_ok (info : String → RResult) (cmds : List String) (h : ∀ cmd ∈ cmds, KnowsCommand info cmd) :
    RedisClient.commandsCheck info cmds = .ret (.ok ()) := by
  induction cmds with
  | nil => rfl
  | cons cmd r ih =>
    obtain ⟨v, hv, hn⟩ := h cmd List.mem_cons_self
    have hc : RedisClient.commandCheck cmd (.array [v]) = .ok () := by
      unfold RedisClient.commandCheck
      cases v <;> first | rfl | exact absurd rfl hn
    simp only [RedisClient.commandsCheck, hv, hc]
    exact ih (fun c hc => h c (List.mem_cons_of_mem _ hc))

/-- Missing: servers listing another module first. If the module is the first one listed, the server is accepted. -/
theorem C69_module_accepted_partial (printable : Char → Bool) (fs : List RValue) (es : List RValue) (info : String → RResult)
    (hn : .bulk "mcaptcha_cache" ∈ fs) (hc : ∀ cmd ∈ moduleCommands, KnowsCommand info cmd) :
    RedisClient.isModuleLoaded printable (.ok (.array (.array fs :: es))) info = .ret (.ok ()) := by
  have hm : fs.any (fun i => RedisClient.containsStr RedisClient.moduleName.toList (RedisClient.debugText printable i)) = true :=
    List.any_eq_true.2 ⟨_, hn, contains_module printable⟩
  have : RedisClient.moduleCheck printable (.array (.array fs :: es)) = .ok () := by
    simp only [RedisClient.moduleCheck, List.head?_cons, hm, if_true]
  simp only [RedisClient.isModuleLoaded, this]
  refine commandsCheck_ok info _ (fun cmd hcmd => hc cmd ?_)
  revert hcmd
  revert cmd
  decide

example :
    RValue.bulk "mcaptcha_cache" ∈ [RValue.bulk "name", .bulk "mcaptcha_cache", .bulk "ver", .int 1] ∧
      ∀ cmd ∈ moduleCommands, KnowsCommand (fun c => .ok (.array [.array [.bulk c, .int 2]])) cmd :=
  ⟨.tail _ (.head _), fun _ _ => ⟨_, rfl, by intro h; cases h⟩⟩

/-! ## C70 Replies -/

/-- `check_captcha_exists`: for every integer a server can send, 0 means yes, 1 no, all else is an error. -/
theorem C70_captcha_exists (i : Int) (h : -(2 ^ 63) ≤ i ∧ i < 2 ^ 63) :
    RedisClient.captchaExists (.ok (.int i)) =
      .ret (if i = 0 then .ok true else if i = 1 then .ok false else .error .mCaptchaRedisModuleError) := by
  have h0 : wrapUsize i = 0 ↔ i = 0 := by unfold wrapUsize; omega
  have h1 : wrapUsize i = 1 ↔ i = 1 := by unfold wrapUsize; omega
  simp only [RedisClient.captchaExists, Except.bind, RValue.readUsize, h0, h1]
  by_cases e0 : i = 0
  · subst e0; rfl
  · by_cases e1 : i = 1
    · subst e1; rfl
    · simp [e0, e1]

example : RedisClient.captchaExists (.ok (.int 0)) = .ret (.ok true) ∧ RedisClient.captchaExists (.ok (.int (-1))) =
    .ret (.error .mCaptchaRedisModuleError) := by decide

/-- `get_token` as stated is false: the reply is read as an `i32`, so `2^32 + 1` counts as 1. -/
theorem C70_get_token_refuted :
    ¬ ∀ i : Int, -(2 ^ 63) ≤ i ∧ i < 2 ^ 63 → RedisClient.getToken (.ok (.int i)) =
      .ret (if i = 1 then .ok true else if i = 0 then .ok false else .error .mCaptchaRedisModuleError) := by
  intro h
  exact absurd (h (2 ^ 32 + 1) (by decide)) (by decide)

/-- Missing: replies beyond 32 bits, which `DEL` of one key never gives. -/
theorem C70_get_token_partial (i : Int) (h : -(2 ^ 31) ≤ i ∧ i < 2 ^ 31) :
    RedisClient.getToken (.ok (.int i)) =
      .ret (if i = 1 then .ok true else if i = 0 then .ok false else .error .mCaptchaRedisModuleError) := by
  have : wrapI32 i = i := by unfold wrapI32; omega
  simp only [RedisClient.getToken, Except.bind, RValue.readI32, this]

example : RedisClient.getToken (.ok (.int 2)) = .ret (.error .mCaptchaRedisModuleError) := by decide

/-- Exactly: of an integer of 64 bits the lower 32 count, so that with it one in 2³² replies is taken for a token that was there. Missing, as
above: replies beyond 32 bits are not refused. -/
theorem C70_get_token_any_partial (i : Int) (h : -(2 ^ 63) ≤ i ∧ i < 2 ^ 63) :
    (RedisClient.getToken (.ok (.int i)) = .ret (.ok true) ↔ ∃ k : Int, i = 2 ^ 32 * k + 1) ∧
    (RedisClient.getToken (.ok (.int i)) = .ret (.ok false) ↔ ∃ k : Int, i = 2 ^ 32 * k) ∧
    ((∀ k : Int, i ≠ 2 ^ 32 * k ∧ i ≠ 2 ^ 32 * k + 1) → RedisClient.getToken (.ok (.int i)) = .ret (.error .mCaptchaRedisModuleError)) := by
  have e1 : wrapI32 i = 1 ↔ i % 2 ^ 32 = 1 := by unfold wrapI32; omega
  have e0 : wrapI32 i = 0 ↔ i % 2 ^ 32 = 0 := by unfold wrapI32; omega
  have k1 : (∃ k : Int, i = 2 ^ 32 * k + 1) ↔ i % 2 ^ 32 = 1 := ⟨by rintro ⟨k, rfl⟩; omega, fun h => ⟨i / 2 ^ 32, by omega⟩⟩
  have k0 : (∃ k : Int, i = 2 ^ 32 * k) ↔ i % 2 ^ 32 = 0 := ⟨by rintro ⟨k, rfl⟩; omega, fun h => ⟨i / 2 ^ 32, by omega⟩⟩
  rw [k1, k0]
  simp only [RedisClient.getToken, Except.bind, RValue.readI32, e1, e0]
  refine ⟨?_, ?_, fun hk => ?_⟩
  · split
    · simp_all
    · split <;> simp_all
  · split
    · simp_all
    · split <;> simp_all
  · rw [if_neg (fun h => by obtain ⟨k, hk'⟩ := k1.2 h; exact (hk k).2 hk'), if_neg (fun h => by obtain ⟨k, hk'⟩ := k0.2 h; exact (hk k).1 hk')]

example : -(2 ^ 63) ≤ (-(2 ^ 32) + 1 : Int) ∧ RedisClient.getToken (.ok (.int (-(2 ^ 32) + 1))) = .ret (.ok true) ∧
    (∀ k : Int, 7 ≠ 2 ^ 32 * k ∧ 7 ≠ 2 ^ 32 * k + 1) := ⟨by decide, by decide, fun k => by omega⟩

/-- Exactly: a count of visitors sent as a negative integer is read as one close to 2⁶⁴. Missing: it is not refused. -/
theorem C70_get_visitors_any_partial (i : Int) (h : -(2 ^ 63) ≤ i ∧ i < 2 ^ 63) :
    RedisClient.getVisitors (.ok (.int i)) = .ret (.ok (if i < 0 then 2 ^ 64 + i else i)) := by
  have : wrapUsize i = if i < 0 then 2 ^ 64 + i else i := by unfold wrapUsize; split <;> omega
  simp only [RedisClient.getVisitors, Except.bind, RValue.readUsize, this]

example : RedisClient.getVisitors (.ok (.int (-1))) = .ret (.ok 18446744073709551615) := by decide

/-- Errors of Redis are passed on by both. -/
theorem C70_errors (e : String) :
    RedisClient.captchaExists (.error e) = .ret (.error (.redisError e)) ∧ RedisClient.getToken (.error e) = .ret (.error (.redisError e)) :=
  ⟨rfl, rfl⟩

/-- No reply whatever makes them panic. -/
theorem C70_no_panic (r : RResult) : (∃ x, RedisClient.captchaExists r = .ret x) ∧ ∃ x, RedisClient.getToken r = .ret x := by
  constructor
  · unfold RedisClient.captchaExists; split <;> exact ⟨_, rfl⟩
  · unfold RedisClient.getToken; split <;> exact ⟨_, rfl⟩

example : RedisClient.getToken (.ok (.bulk "1")) = .ret (.ok true) ∧
    RedisClient.getToken (.ok .nil) = .ret (.error (.redisError "Response type not convertible to numeric.")) := by decide

/-! ## C76 Servers without the commands are refused -/

theorem commandsCheck_lacks (info : String → RResult) (cmds : List String) (cmd : String) (hm : cmd ∈ cmds) (hl : LacksCommand info cmd) :
    RedisClient.commandsCheck info cmds ≠ .ret (.ok ()) := by
  induction cmds with
  | nil => cases hm
  | cons c r ih =>
    unfold RedisClient.commandsCheck
    rcases List.mem_cons.1 hm with rfl | hm
    · rw [hl]
      intro h
      cases h
    · split
      · intro h; cases h
      · split
        · intro h; cases h
        · exact ih hm

/-- A server that lacks any of the commands the library uses is never accepted. -/
theorem C76_lacking_refused (printable : Char → Bool) (modules : RResult) (info : String → RResult) (cmd : String) (hm : cmd ∈ moduleCommands)
    (hl : LacksCommand info cmd) : RedisClient.isModuleLoaded printable modules info ≠ .ret (.ok ()) := by
  have hr : cmd ∈ RedisClient.requiredCommands := by
    clear hl
    revert hm
    revert cmd
    decide
  unfold RedisClient.isModuleLoaded
  split
  · intro h; cases h
  · split
    · intro h; cases h
    · exact commandsCheck_lacks info _ cmd hr hl

/-- The commands are what the requests send. -/
theorem C76_commands_used (m : RMsg) (c : String) (args : List String) (h : m.command = c :: args) : c ∈ "SET" :: "DEL" :: moduleCommands := by
  cases m <;> simp only [RMsg.command, RedisClient.addChallengeCmd, RedisClient.getChallengeCmd, RedisClient.addTokenCmd,
    RedisClient.getTokenCmd, RedisClient.addVisitorCmd, RedisClient.addMcaptchaCmd, RedisClient.renameCmd, RedisClient.deleteCaptchaCmd,
    List.cons.injEq, reduceCtorEq] at h <;> (rw [← h.1]; decide)

/-- The error names the command that is missing. -/
theorem C76_names_command (printable : Char → Bool) (fs es : List RValue) (info : String → RResult) (cmd : String)
    (hn : .bulk "mcaptcha_cache" ∈ fs) (hm : cmd ∈ moduleCommands) (hl : LacksCommand info cmd)
    (hc : ∀ c ∈ moduleCommands, c ≠ cmd → KnowsCommand info c) :
    RedisClient.isModuleLoaded printable (.ok (.array (.array fs :: es))) info = .ret (.error (.mCaptchaRediSModuleCommandNotFound cmd)) := by
  have hany : fs.any (fun i => RedisClient.containsStr RedisClient.moduleName.toList (RedisClient.debugText printable i)) = true :=
    List.any_eq_true.2 ⟨_, hn, contains_module printable⟩
  have hmod : RedisClient.moduleCheck printable (.array (.array fs :: es)) = .ok () := by
    simp only [RedisClient.moduleCheck, List.head?_cons, hany, if_true]
  simp only [RedisClient.isModuleLoaded, hmod]
  have hr : cmd ∈ RedisClient.requiredCommands := by
    clear hl hc
    revert hm
    revert cmd
    decide
  have hall : ∀ c ∈ RedisClient.requiredCommands, c ≠ cmd → KnowsCommand info c := by
    intro c hcm
    refine hc c ?_
    revert hcm
    revert c
    decide
  revert hr hall
  generalize RedisClient.requiredCommands = cmds
  intro hr hall
  induction cmds with
  | nil => cases hr
  | cons c r ih =>
    by_cases e : c = cmd
    · subst e
      unfold RedisClient.commandsCheck
      rw [hl]
      rfl
    · obtain ⟨v, hv, hne⟩ := hall c List.mem_cons_self e
      have hcc : RedisClient.commandCheck c (.array [v]) = .ok () := by
        unfold RedisClient.commandCheck
        cases v <;> first | rfl | exact absurd rfl hne
      simp only [RedisClient.commandsCheck, hv, hcc]
      refine ih ?_ (fun c hc => hall c (List.mem_cons_of_mem _ hc))
      rcases List.mem_cons.1 hr with h | h
      · exact absurd h.symm e
      · exact h

/-- An older module without RENAME_CAPTCHA. -/
example :
    RedisClient.isModuleLoaded (fun _ => true) (.ok (.array [.array [.bulk "name", .bulk "mcaptcha_cache"]]))
      (fun c => .ok (.array [if c = "MCAPTCHA_CACHE.RENAME_CAPTCHA" then .nil else .array [.bulk c]])) =
    .ret (.error (.mCaptchaRediSModuleCommandNotFound "MCAPTCHA_CACHE.RENAME_CAPTCHA")) := by decide

/-! ## C77 Failures of Redis are reported -/

/-- False as stated, four times: `add_token` panics on every error, among others for a lifetime of zero. -/
theorem C77_add_token_refuted : ¬ ∀ r, ∃ x, RedisClient.addToken r = .ret x := by
  intro h
  obtain ⟨x, hx⟩ := h (.error "timeout")
  cases hx

/-- A captcha configured with a token lifetime of zero seconds makes the server refuse the token, and the cache panic. -/
theorem C77_zero_duration_refuted : ¬ ∀ db m, ∀ e ∈ (tokenStep db (.add m)).2, e ≠ .failed m := by
  intro h
  exact h (RedisDb.init 0) ⟨"t", "s", 0⟩ (.failed ⟨"t", "s", 0⟩) (by decide) rfl

/-- Opening the connection panics if the server refuses `MODULE LIST`, as managed servers do. -/
theorem C77_new_refuted : ¬ ∀ printable modules info, ∃ x, RedisClient.isModuleLoaded printable modules info = .ret x := by
  intro h
  obtain ⟨x, hx⟩ := h (fun _ => true) (.error "NOPERM") (fun _ => .error "NOPERM")
  cases hx

/-- An answer of the module that is not the JSON expected makes `add_visitor` and `get_challenge` panic. -/
theorem C77_add_visitor_refuted : ¬ ∀ r, ∃ x, RedisClient.addVisitor r = .ret x := by
  intro h
  obtain ⟨x, hx⟩ := h (.ok (.bulk "OK"))
  have : RedisClient.addVisitor (.ok (.bulk "OK")) = .panic .unwrapErr := by decide
  rw [this] at hx
  cases hx

theorem C77_get_challenge_refuted : ¬ ∀ r, ∃ x, RedisClient.getChallenge r = .ret x := by
  intro h
  obtain ⟨x, hx⟩ := h (.ok (.bulk "{\"duration\":30}"))
  have : RedisClient.getChallenge (.ok (.bulk "{\"duration\":30}")) = .panic .unwrapErr := by decide +kernel
  rw [this] at hx
  cases hx

/-- Missing: `add_token`, opening, and malformed JSON. An error of Redis is returned as such by all other requests. -/
theorem C77_errors_reported_partial (e : String) :
    RedisClient.unitReply (.error e) = .ret (.error (.redisError e)) ∧ RedisClient.captchaExists (.error e) = .ret (.error (.redisError e)) ∧
    RedisClient.getVisitors (.error e) = .ret (.error (.redisError e)) ∧ RedisClient.getToken (.error e) = .ret (.error (.redisError e)) ∧
    RedisClient.addVisitor (.error e) = .ret (.error (.redisError e)) ∧ RedisClient.getChallenge (.error e) = .ret (.error (.redisError e)) :=
  ⟨rfl, rfl, rfl, rfl, rfl, rfl⟩

/-- The texts that are read as a visitor or challenge are exactly the JSON texts for one, in any spelling, with the members in any order
and further ones among them; the numbers read are those of the text. -/
theorem C77_json_read_partial (s : String) (v : AddVisitorResult) :
    (RedisClient.addVisitor (.ok (.bulk s)) = .ret (.ok (some v)) ↔ VisitorText s v) ∧
    (RedisClient.getChallenge (.ok (.bulk s)) = .ret (.ok v) ↔ VisitorText s v) := by
  rw [← readVisitor_iff]
  constructor
  · simp only [RedisClient.addVisitor, Except.bind, RValue.readString]
    cases readVisitor s <;> simp [Exec.map]
  · simp only [RedisClient.getChallenge, Except.bind, RValue.readString]
    cases readVisitor s <;> simp [Exec.map]

example : RedisClient.addVisitor (.ok (.bulk "{ \"difficulty_factor\": 50, \"duration\":30}")) = .ret (.ok (some ⟨30, 50⟩)) := by decide +kernel

theorem toCache_of_needs {m : RMsg} (h : m.needsReceiver = true) : ToCache m := by
  cases m <;> first | constructor | cases h

/-- The actor panics only for one of these reasons: a request it does not implement, a connection shared with another actor, a reply
received that its handler cannot cope with, or a caller that has given up. -/
theorem C77_crashes_partial (conns : List Nat) (steps : List RStep) (a i : Nat) (w : Panic)
    (h : .crashed a i w ∈ (rRun (RSys.new conns) steps).2) :
    ∃ m, .sent a i m ∈ (rRun (RSys.new conns) steps).2 ∧
      ((m = .getInternalData ∨ ∃ d, m = .setInternalData d) ∨ w = .alreadyBorrowed ∨ (∃ r, .reply a r ∈ steps ∧ m.answer r = .panic w) ∨
        (ToCache m ∧ .drop i ∈ steps)) := by
  obtain ⟨pre, x, post, rfl, hx⟩ := rEvent_at _ _ _ h
  have up : ∀ e, e ∈ (rRun (RSys.new conns) pre).2 → e ∈ (rRun (RSys.new conns) (pre ++ x :: post)).2 := by
    intro e he
    rw [rRun_append]
    exact List.mem_append_left _ he
  rcases rStep_crashed hx with ⟨m, y, rfl, hy, hm, hw⟩ | ⟨r, y, m, rfl, hy, hb, hw⟩
  · refine ⟨m, up _ ((provInv_run conns pre).inbox a y hy i m hm), ?_⟩
    rcases hw with ⟨h1, -⟩ | h1
    · exact .inl (by cases m <;> first | exact .inl rfl | exact .inr ⟨_, rfl⟩ | cases h1)
    · exact .inr (.inl h1)
  · refine ⟨m, up _ ((provInv_run conns pre).busy a y hy i m hb).1, ?_⟩
    rcases hw with h1 | ⟨h1, h2, -⟩
    · exact .inr (.inr (.inl ⟨r, by simp, h1⟩))
    · exact .inr (.inr (.inr ⟨toCache_of_needs h1, List.mem_append_left _ (gone_run conns pre i h2)⟩))

/-- Which replies these are: an error for a token to be stored, a text that is no visitor for the other two. -/
theorem C77_bad_replies_partial (m : RMsg) (hm : m ≠ .getInternalData) (hm' : ∀ d, m ≠ .setInternalData d) (r : RResult) (w : Panic)
    (h : m.answer r = .panic w) :
    ((∃ c, m = .cacheResult c) ∧ ∃ e, r = .error e) ∨
    (((∃ v, m = .retrivePow v) ∨ ∃ id, m = .addVisitor id) ∧ ∃ s, GaveText r s ∧ ¬ ∃ v, VisitorText s v) := by
  simp only [gaveText_iff]
  have hunit : RedisClient.unitReply r ≠ .panic w := by unfold RedisClient.unitReply; split <;> intro h <;> cases h
  have hvis : ∀ {s}, readVisitor s = .panic w → ¬ ∃ v, VisitorText s v := fun {s} h => (readVisitor_panic_iff s).1 (by rw [h, readVisitor_panic h])
  cases m with
  | cachePow => exact absurd (map_panic h) hunit
  | addSite => exact absurd (map_panic h) hunit
  | rename => exact absurd (map_panic h) hunit
  | removeCaptcha => exact absurd (map_panic h) hunit
  | retrivePow v =>
    have h := map_panic h
    unfold RedisClient.getChallenge at h
    split at h
    · cases h
    · rename_i s hs
      exact .inr ⟨.inl ⟨v, rfl⟩, s, hs, hvis (map_panic h)⟩
  | addVisitor id =>
    have h := map_panic h
    unfold RedisClient.addVisitor at h
    split at h
    · cases h
    · rename_i s hs
      exact .inr ⟨.inr ⟨id, rfl⟩, s, hs, hvis (map_panic h)⟩
  | cacheResult c =>
    have h := map_panic h
    unfold RedisClient.addToken at h
    split at h
    · exact .inl ⟨⟨c, rfl⟩, _, rfl⟩
    · cases h
  | verify =>
    have h := map_panic h
    unfold RedisClient.getToken at h
    split at h <;> cases h
  | deletePow => cases h
  | deleteResult => cases h
  | getInternalData => exact absurd rfl hm
  | setInternalData d => exact absurd rfl (hm' d)

/-- After a panic the actor takes no more requests. -/
example :
    (rRun (RSys.new [0]) [.send 0 (.cacheResult ⟨"t", "s", 0⟩), .send 0 (.verify ⟨"t", "s"⟩), .take 0, .reply 0 (.error "invalid expire time"), .take 0,
      .send 0 (.verify ⟨"t", "s"⟩)]).2 =
    [.sent 0 0 (.cacheResult ⟨"t", "s", 0⟩), .sent 0 1 (.verify ⟨"t", "s"⟩), .started 0 0 ["SET", "mcaptcha:token:s:t", "s", "EX", "0"],
      .crashed 0 0 .explicit, .refused 0 (.verify ⟨"t", "s"⟩)] := by decide

/-! ## C78 Clones of a Redis master -/

/-- False as stated: clones share the `RefCell`, so two of them at work at once make the second one panic. -/
theorem C78_clones_refuted :
    ¬ ∀ conns steps a i, .crashed a i .alreadyBorrowed ∉ (rRun (RSys.new conns) steps).2 := by
  intro h
  exact h [0, 0] [.send 0 (.addVisitor "a"), .send 1 (.addVisitor "b"), .take 0, .take 1] 1 1 (by decide)

/-- Missing: clones at work at the same time. The borrow panics only if another actor with the same connection has a command under
way: started, and neither answered nor crashed since. -/
theorem C78_clones_partial (conns : List Nat) (steps : List RStep) (p : List REvent) (a i : Nat) (q : List REvent)
    (h : (rRun (RSys.new conns) steps).2 = p ++ .crashed a i .alreadyBorrowed :: q) :
    ∃ b j p' c q', b ≠ a ∧ conns[b]? = conns[a]? ∧ p = p' ++ .started b j c :: q' ∧
      (∀ m ans, .answered b j m ans ∉ q') ∧ ∀ w, .crashed b j w ∉ q' := by
  obtain ⟨b, j, h1, h2, p', c, q', h3, h4⟩ := (borrowInv_run conns steps).why p a i q h
  exact ⟨b, j, p', c, q', h1, h2, h3, fun m ans hm => h4 _ hm (.inl ⟨m, ans, rfl⟩), fun w hm => h4 _ hm (.inr ⟨w, rfl⟩)⟩

example : (rRun (RSys.new [0, 0]) [.send 0 (.addVisitor "a"), .send 1 (.addVisitor "b"), .take 0, .take 1]).2 =
    [.sent 0 0 (.addVisitor "a"), .sent 1 1 (.addVisitor "b"), .started 0 0 ["MCAPTCHA_CACHE.ADD_VISITOR", "a"]] ++
      .crashed 1 1 .alreadyBorrowed :: [] := by decide

/-- With connections of their own both work. -/
example : ([0, 1] : List Nat).Nodup ∧
    (rRun (RSys.new [0, 1]) [.send 0 (.addVisitor "a"), .send 1 (.addVisitor "b"), .take 0, .take 1]).2 =
      [.sent 0 0 (.addVisitor "a"), .sent 1 1 (.addVisitor "b"), .started 0 0 ["MCAPTCHA_CACHE.ADD_VISITOR", "a"],
        .started 1 1 ["MCAPTCHA_CACHE.ADD_VISITOR", "b"]] := by decide

/-! ## C79 Callers who give up -/

/-- False as stated: the cache unwraps the result of sending the answer, so a caller whose request timed out kills the cache. -/
theorem C79_giving_up_refuted :
    ¬ ∀ conns steps, (∀ a m r, .send a m ∈ steps → ∃ x, m.answer r = .ret x) → conns.Nodup → ∀ a i w,
      .crashed a i w ∉ (rRun (RSys.new conns) steps).2 := by
  intro h
  refine h [0] [.send 0 (.verify ⟨"t", "s"⟩), .take 0, .drop 0, .reply 0 (.ok (.int 1))] ?_ (by decide) 0 0 .unwrapErr (by decide)
  intro a m r hm
  simp only [List.mem_cons, RStep.send.injEq, reduceCtorEq, List.not_mem_nil, or_false] at hm
  obtain ⟨-, rfl⟩ := hm
  obtain ⟨x, hx⟩ := (C70_no_panic r).2
  exact ⟨.verdict x, by simp only [RMsg.answer, hx, Exec.map]⟩

/-- C79. Not only that one: whichever request to the cache is given up before its reply, the cache is dead when any reply comes, and refuses every
later request. -/
theorem C79_giving_up_kills (conns : List Nat) (a : Nat) (ha : a < conns.length) (m m' : RMsg) (hm : ToCache m) (r : RResult) :
    (∃ w, .crashed a 0 w ∈ (rRun (RSys.new conns) [.send a m, .take a, .drop 0, .reply a r]).2) ∧
    .refused a m' ∈ (rRun (RSys.new conns) [.send a m, .take a, .drop 0, .reply a r, .send a m']).2 := by
  have hn : m.todo = false ∧ m.immediate = false ∧ m.needsReceiver = true := by cases hm <;> exact ⟨rfl, rfl, rfl⟩
  obtain ⟨h1, h2, h3⟩ := hn
  cases hans : m.answer r with
  | panic w => simp [rRun, rStep, RSys.new, ha, RSys.setActor, RSys.onTake, h1, h2, RSys.onReply, hans, RSys.RActor.dead]
  | ret x => simp [rRun, rStep, RSys.new, ha, RSys.setActor, RSys.onTake, h1, h2, h3, RSys.onReply, hans, RSys.RActor.dead]

example : (rRun (RSys.new [0]) [.send 0 (.cachePow ⟨"c", 50, 30, "a"⟩), .take 0, .drop 0, .reply 0 (.ok .okay), .send 0 (.verify ⟨"t", "a"⟩)]).2 =
    [.sent 0 0 (.cachePow ⟨"c", 50, 30, "a"⟩), .started 0 0 (RMsg.cachePow ⟨"c", 50, 30, "a"⟩).command, .crashed 0 0 .unwrapErr,
      .refused 0 (.verify ⟨"t", "a"⟩)] := by decide

/-- Missing: the requests to the cache. For those to the master, giving up changes nothing: the log is the same as if nobody had. -/
theorem C79_giving_up_partial (conns : List Nat) (steps : List RStep) (hm : ∀ a m, .send a m ∈ steps → ¬ ToCache m) :
    (rRun (RSys.new conns) steps).2 = (rRun (RSys.new conns) (steps.filter fun x => match x with | .drop _ => false | _ => true)).2 := by
  have hf : (fun x : RStep => match x with | .drop _ => false | _ => true) = fun x => !x.isDrop := by
    funext x; cases x <;> rfl
  rw [hf]
  exact rRun_gone steps (RSys.new conns) [] (by
    intro a x hx
    simp only [RSys.new, List.getElem?_map, Option.map_eq_some_iff] at hx
    obtain ⟨c, -, rfl⟩ := hx
    exact ⟨(by intro _ _ h; cases h), (by intro _ _ h; cases h)⟩) (fun a m hs => by
      rw [Bool.eq_false_iff]
      exact fun hn => hm a m hs (toCache_of_needs hn))

example :
    (rRun (RSys.new [0]) [.send 0 (.removeCaptcha "a"), .take 0, .drop 0, .reply 0 (.ok .okay)]).2 =
      [.sent 0 0 (.removeCaptcha "a"), .started 0 0 ["MCAPTCHA_CACHE.DELETE_CAPTCHA", "a"], .answered 0 0 (.removeCaptcha "a") (.unit (.ok ()))] := by
  decide

/-! ## C80 Challenges looked up in Redis -/

/-- What a cache on Redis answers when a challenge is looked up: an error of Redis, or exactly the difficulty and duration in the reply of
the module, under the very site key that was asked for. -/
theorem C80_lookup_partial (conns : List Nat) (steps : List RStep) (a i : Nat) (v : VerifyCaptchaResult) (ans : RAnswer)
    (h : .answered a i (.retrivePow v) ans ∈ (rRun (RSys.new conns) steps).2) :
    ∃ r, .reply a r ∈ steps ∧
      ((∃ e, GaveError r e ∧ ans = .config (.error (.redisError e))) ∨
        ∃ s x, GaveText r s ∧ VisitorText s x ∧
          ans = .config (.ok (some { key := v.key, difficultyFactor := x.difficultyFactor, duration := x.duration }))) := by
  simp only [gaveText_iff, gaveError_iff]
  obtain ⟨-, ⟨hi, -⟩ | ⟨pre, r, post, rest, rfl, -, hr, -⟩⟩ := C68_answers_genuine conns steps a i _ ans h
  · rcases hi with ⟨_, hi⟩ | ⟨_, hi⟩ <;> cases hi
  · refine ⟨r, by simp, ?_⟩
    simp only [RMsg.answer, RedisClient.getChallenge] at hr
    cases hb : r.bind RValue.readString with
    | error e =>
      simp only [hb, Exec.map, Exec.ret.injEq] at hr
      exact .inl ⟨e, rfl, hr.symm⟩
    | ok s =>
      cases hv : readVisitor s with
      | panic w => simp only [hb, hv, Exec.map, reduceCtorEq] at hr
      | ret x =>
        simp only [hb, hv, Exec.map, Exec.ret.injEq] at hr
        exact .inr ⟨s, x, rfl, (readVisitor_iff s x).1 hv, hr.symm⟩

/-- So the claim as stated is false with Redis: a missing challenge is never answered `Ok(None)`, the only answer for which
verify_pow reports StringNotFound, and never comes with another site's key, the only case of MCaptchaKeyValidationFail. The
reply of the server to an unknown challenge comes through as RedisError (or a panic, if it is nil or no JSON). -/
theorem C80_not_found_refuted :
    ¬ ∀ v, ∃ r, RMsg.answer (.retrivePow v) r = .ret (.config (.ok none)) := by
  intro h
  obtain ⟨r, hr⟩ := h ⟨"t", "s"⟩
  simp only [RMsg.answer, RedisClient.getChallenge] at hr
  cases hb : r.bind RValue.readString with
  | error e =>
    simp only [hb, Exec.map, Exec.ret.injEq, RAnswer.config.injEq] at hr
    cases hr
  | ok s =>
    cases hv : readVisitor s with
    | panic w => simp only [hb, hv, Exec.map, reduceCtorEq] at hr
    | ret x =>
      simp only [hb, hv, Exec.map, Exec.ret.injEq, RAnswer.config.injEq] at hr
      cases hr

example : RMsg.answer (.retrivePow ⟨"t", "s"⟩) (.ok .nil) = .ret (.config (.error (.redisError "Response type not string compatible."))) ∧
    RMsg.answer (.retrivePow ⟨"t", "s"⟩) (.ok (.bulk "{\"duration\":30,\"difficulty_factor\":50}")) = .ret (.config (.ok (some ⟨"s", 50, 30⟩))) := by
  decide +kernel

/-! ## C83 Requests a Redis master does not implement -/

/-- False as stated: asking a Redis master for its state, or restoring it, kills the master. -/
theorem C83_internal_data_refuted :
    ¬ ∀ m, m = .getInternalData ∨ (∃ d, m = .setInternalData d) → ∃ steps ans, .answered 0 0 m ans ∈ (rRun (RSys.new [0]) (.send 0 m :: steps)).2 := by
  intro h
  obtain ⟨steps, ans, ha⟩ := h .getInternalData (.inl rfl)
  obtain ⟨-, ⟨hi, -⟩ | ⟨-, -, r, hr⟩⟩ := (provInv_run [0] (.send 0 .getInternalData :: steps)).answered 0 0 _ ans ha
  · cases hi
  · cases hr

/-- Missing: these two requests. All others, when taken by an idle actor with its connection free, put a command on its way or are answered. -/
theorem C83_served_partial (s : RSys) (a : Nat) (x : RActor) (i : Nat) (m : RMsg) (rest : List (Nat × RMsg)) (hx : s.actors[a]? = some x)
    (hb : x.busy = none) (hi : x.inbox = (i, m) :: rest) (hm : m ≠ .getInternalData) (hm' : ∀ d, m ≠ .setInternalData d)
    (hc : x.conn ∉ s.borrowed) :
    (rStep s (.take a)).2 = [.started a i m.command] ∨ (rStep s (.take a)).2 = [.answered a i m (.unit (.ok ()))] := by
  have ht : m.todo = false := by
    cases m <;> first | rfl | exact absurd rfl hm | exact absurd rfl (hm' _)
  simp only [rStep, hx, hb, hi, RSys.onTake, ht, Bool.false_eq_true, if_false, if_neg hc]
  cases m.immediate
  · exact .inl rfl
  · exact .inr rfl

example : (rRun (RSys.new [0]) [.send 0 .getInternalData, .send 0 (.addVisitor "a"), .take 0, .take 0, .send 0 (.addVisitor "a")]).2 =
    [.sent 0 0 .getInternalData, .sent 0 1 (.addVisitor "a"), .crashed 0 0 .explicit, .refused 0 (.addVisitor "a")] := by decide

/-! ## C90 Servers without the module -/

/-- False as stated: a module whose name only starts with the one looked for passes, and so does a path that mentions it. -/
theorem C90_no_module_refused_refuted :
    ¬ ∀ printable modules info, ¬ ListsModule modules "mcaptcha_cache" → RedisClient.isModuleLoaded printable modules info ≠ .ret (.ok ()) := by
  intro h
  refine h (fun _ => true) (.ok (.array [.array [.bulk "name", .bulk "mcaptcha_cache_legacy", .bulk "ver", .int 1]]))
    (fun _ => .ok (.array [.array []])) ?_ (by decide +kernel)
  rintro ⟨es, fs, he, hf, hn⟩
  cases he
  simp only [List.mem_singleton, RValue.array.injEq] at hf
  subst hf
  simp at hn

/-- A reply to `MODULE LIST` that is no array passes as well. -/
theorem C90_no_list_refused_refuted :
    ¬ ∀ printable v info, (∀ vs, v ≠ .array vs) → RedisClient.isModuleLoaded printable (.ok v) info ≠ .ret (.ok ()) := by
  intro h
  exact h (fun _ => true) .nil (fun _ => .ok .nil) (by intro _ e; cases e) (by decide +kernel)

/-- Missing: names and paths of other modules that contain the name. If no text in the first entry contains it, the server is refused
with MCaptchaRedisModuleIsNotLoaded. -/
theorem C90_no_module_refused_partial (printable : Char → Bool) (e : RValue) (es : List RValue) (info : String → RResult)
    (h : ¬ Mentions "mcaptcha_cache" e) :
    RedisClient.isModuleLoaded printable (.ok (.array (e :: es))) info = .ret (.error .mCaptchaRedisModuleIsNotLoaded) := by
  have hm : RedisClient.moduleCheck printable (.array (e :: es)) = .error .mCaptchaRedisModuleIsNotLoaded := by
    unfold RedisClient.moduleCheck
    simp only [List.head?_cons]
    split
    · rename_i fs he
      simp only [Option.some.injEq] at he
      subst he
      have : fs.any (fun i => RedisClient.containsStr RedisClient.moduleName.toList (RedisClient.debugText printable i)) = false := by
        cases hany : fs.any (fun i => RedisClient.containsStr RedisClient.moduleName.toList (RedisClient.debugText printable i)) with
        | false => rfl
        | true =>
          obtain ⟨i, hi, hc⟩ := List.any_eq_true.1 hany
          exact absurd (.inside fs i hi (mentions_of printable i ((containsStr_iff _ _).1 hc))) h
      rw [this]
      rfl
    · rfl
  simp only [RedisClient.isModuleLoaded, hm]

/-- So is a server without modules. -/
theorem C90_no_modules_partial (printable : Char → Bool) (info : String → RResult) :
    RedisClient.isModuleLoaded printable (.ok (.array [])) info = .ret (.error .mCaptchaRedisModuleIsNotLoaded) := rfl

/-- Another module, with escapes in its path. -/
example : ¬ Mentions "mcaptcha_cache" (.array [.bulk "name", .bulk "search", .bulk "path", .simple "/lib/\"mcaptcha\"_cache", .int 7]) := by
  intro h
  have key : ∀ s : String, RedisClient.containsStr "mcaptcha_cache".toList s.toList = false → ∀ a b, s ≠ a ++ "mcaptcha_cache" ++ b := by
    intro s hs a b e
    subst e
    have : RedisClient.containsStr "mcaptcha_cache".toList (a ++ "mcaptcha_cache" ++ b).toList = true :=
      (containsStr_iff _ _).2 ⟨a.toList, b.toList, by simp only [String.toList_append]⟩
    rw [this] at hs
    cases hs
  have hb : ∀ v, Mentions "mcaptcha_cache" v → ∀ s, (v = .bulk s ∨ v = .simple s) → RedisClient.containsStr "mcaptcha_cache".toList s.toList = false → False := by
    intro v hv s hs hc
    cases hv with
    | bulk a b => rcases hs with e | e <;> cases e; exact key _ hc a b rfl
    | simple a b => rcases hs with e | e <;> cases e; exact key _ hc a b rfl
    | inside => rcases hs with e | e <;> cases e
  cases h with
  | inside _ v hm h =>
    simp only [List.mem_cons, List.not_mem_nil, or_false] at hm
    rcases hm with e | e | e | e | e
    · exact hb v h _ (.inl e) (by decide +kernel)
    · exact hb v h _ (.inl e) (by decide +kernel)
    · exact hb v h _ (.inl e) (by decide +kernel)
    · exact hb v h _ (.inr e) (by decide +kernel)
    · subst e; cases h

/-! ## C91 What is sent -/

/-- Every command sent stems from a message sent to that actor, the only one of that number, and is the one for that message. -/
theorem C91_commands (conns : List Nat) (steps : List RStep) (a i : Nat) (c : RCommand)
    (h : .started a i c ∈ (rRun (RSys.new conns) steps).2) :
    ∃ m, .sent a i m ∈ (rRun (RSys.new conns) steps).2 ∧ Wire m c ∧ ∀ b m', .sent b i m' ∈ (rRun (RSys.new conns) steps).2 → b = a ∧ m' = m := by
  obtain ⟨m, hm, rfl, hi, ht⟩ := (provInv_run conns steps).started a i c h
  exact ⟨m, hm, command_wire m ht hi, fun b m' hm' => ids_unique conns steps b a i m' m hm' hm⟩

example : .started 0 0 ["MCAPTCHA_CACHE.RENAME_CAPTCHA", "old", "new"] ∈ (rRun (RSys.new [7]) [.send 0 (.rename "old" "new"), .take 0]).2 ∧
    .started 0 0 ["SET", "mcaptcha:token:site:tok", "site", "EX", "30"] ∈
      (rRun (RSys.new [7]) [.send 0 (.cacheResult ⟨"tok", "site", 30⟩), .take 0]).2 := by decide +kernel

/-- A looked up challenge and a visit carry the numbers in the reply, under the site asked for. -/
theorem C91_numbers (v : VerifyCaptchaResult) (id s : String) (x : AddVisitorResult) (h : VisitorText s x) :
    RMsg.answer (.retrivePow v) (.ok (.bulk s)) =
      .ret (.config (.ok (some { key := v.key, difficultyFactor := x.difficultyFactor, duration := x.duration }))) ∧
    RMsg.answer (.addVisitor id) (.ok (.bulk s)) = .ret (.visitor (.ok (some x))) := by
  have hv := (readVisitor_iff s x).2 h
  constructor
  · simp only [RMsg.answer, RedisClient.getChallenge, Except.bind, RValue.readString, hv, Exec.map, Except.map]
  · simp only [RMsg.answer, RedisClient.addVisitor, Except.bind, RValue.readString, hv, Exec.map]

example : ∃ x, VisitorText "{\"duration\":30,\"difficulty_factor\":500}" x := ⟨⟨30, 500⟩, (readVisitor_iff _ _).1 (by decide +kernel)⟩

/-- What the callers are told otherwise: an error of Redis where there was one, success where the reply does not matter, and for a token
the number of keys deleted. -/
theorem C91_answers (e : String) (x : RValue) :
    (∀ m, ((∃ c, m = .cachePow c) ∨ (∃ id c, m = .addSite id c) ∨ (∃ a b, m = .rename a b) ∨ ∃ id, m = .removeCaptcha id) →
      RMsg.answer m (.error e) = .ret (.unit (.error (.redisError e))) ∧ RMsg.answer m (.ok x) = .ret (.unit (.ok ()))) ∧
    (∀ c, RMsg.answer (.cacheResult c) (.ok x) = .ret (.unit (.ok ()))) ∧
    (∀ v, RMsg.answer (.retrivePow v) (.error e) = .ret (.config (.error (.redisError e)))) ∧
    (∀ id, RMsg.answer (.addVisitor id) (.error e) = .ret (.visitor (.error (.redisError e)))) ∧
    ∀ v, RMsg.answer (.verify v) (.error e) = .ret (.verdict (.error (.redisError e))) ∧
      RMsg.answer (.verify v) (.ok (.int 1)) = .ret (.verdict (.ok true)) ∧
      RMsg.answer (.verify v) (.ok (.int 0)) = .ret (.verdict (.ok false)) := by
  refine ⟨?_, fun _ => rfl, fun _ => rfl, fun _ => rfl, fun _ => ⟨rfl, rfl, rfl⟩⟩
  rintro m (⟨c, rfl⟩ | ⟨id, c, rfl⟩ | ⟨a, b, rfl⟩ | ⟨id, rfl⟩) <;> exact ⟨rfl, rfl⟩

example : RMsg.answer (.removeCaptcha "a") (.error "down") = .ret (.unit (.error (.redisError "down"))) ∧
    RMsg.answer (.verify ⟨"t", "s"⟩) (.ok (.int 1)) = .ret (.verdict (.ok true)) := by decide

/-- The connection counts as alive exactly if the server answers with the status PONG. -/
theorem C91_ping (r : RResult) : RedisClient.ping r = true ↔ r = .ok (.simple "PONG") := by
  constructor
  · intro h
    unfold RedisClient.ping at h
    split at h
    · rw [beq_iff_eq] at h; rw [h]
    · cases h
  · rintro rfl; rfl

end MCap
