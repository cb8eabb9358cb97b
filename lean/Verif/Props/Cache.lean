import Verif.Proofs.Cache

/-!
# C35-C42: the in-memory cache
-/

namespace MCap
open Spec

/-- A challenge used in the examples. -/
def exChallenge : CachePoW := { string := "chal", difficultyFactor := 50, duration := 30, key := "site" }
/-- Its stored form. -/
def exConfig : CachedPoWConfig := { key := "site", difficultyFactor := 50, duration := 30 }
/-- A token used in the examples. -/
def exToken : CacheResult := { token := "tok", key := "site", duration := 30 }

/-- C35. After any schedule of messages and timer deliveries, `RetrivePoW` answers with the data of the latest message about
that string if that was a `CachePoW`, and `None` otherwise (never issued, or retrieved or expired since). -/
theorem C35_cache_returns_stored (now : Nat) (steps : List CacheStep) (v : VerifyCaptchaResult) :
    let run := cacheRun (CacheWorld.init now) steps
    (run.1.handle (.retrivePow v)).2 = .config (storedChallenge (msgs run.2) v.token) := by
  intro run
  have h := (agrees_run _ [] steps (agrees_init now)).1 v.token
  simp only [CacheWorld.handle, retrive_eq]
  rw [h]; rfl

/-- Stored, re-stored with other data, another string retrieved: the latest data come back. -/
example : ((cacheRun (CacheWorld.init 0)
    [.req (.cachePow { exChallenge with difficultyFactor := 1 }), .req (.cachePow exChallenge), .tick 5,
     .req (.retrivePow ⟨"other", "site"⟩)]).1.handle (.retrivePow ⟨"chal", "x"⟩)).2 = .config (some exConfig) := by
  decide
/-- Expired by its timer: nothing. -/
example : ((cacheRun (CacheWorld.init 0) [.req (.cachePow exChallenge), .tick 30, .fire 0]).1.handle
    (.retrivePow ⟨"chal", "site"⟩)).2 = .config none := by decide
example : storedChallenge [.cachePow exChallenge, .retrivePow ⟨"chal", "k"⟩, .cachePow exChallenge, .verify ⟨"chal", "site"⟩]
    "chal" = some exConfig := by decide

/-- C36. Over any schedule a challenge is handed out at most as often as it was issued. -/
theorem C36_challenge_once (now : Nat) (steps : List CacheStep) (s : String) :
    handedOut s (cacheRun (CacheWorld.init now) steps).2 ≤ issued s (cacheRun (CacheWorld.init now) steps).2 := by
  have h := (count_run (CacheWorld.init now) steps s).1
  have h0 : heldC (CacheWorld.init now) s = 0 := rfl
  omega

/-- C36. Once asked for, a challenge is not handed out again until it is cached again: whatever happens in between, in any
state. -/
theorem C36_retrieved_until_recached (w : CacheWorld) (v v' : VerifyCaptchaResult) (hv : v.token = v'.token)
    (steps : List CacheStep) (hn : ∀ e ∈ (cacheRun (w.handle (.retrivePow v)).1 steps).2,
      ∀ c, e.1 = .cachePow c → c.string ≠ v.token) :
    ((cacheRun (w.handle (.retrivePow v)).1 steps).1.handle (.retrivePow v')).2 = .config none := by
  have h := (count_run (w.handle (.retrivePow v)).1 steps v.token).1
  have h0 : heldC (w.handle (.retrivePow v)).1 v.token = 0 := by
    simp [heldC, CacheWorld.handle, retrive_eq]
  have hi : issued v.token (cacheRun (w.handle (.retrivePow v)).1 steps).2 = 0 := by
    simp only [issued, List.length_eq_zero_iff, List.filter_eq_nil_iff]
    intro e he
    have := hn e he
    split
    · rename_i c hc; simpa using this c hc
    · simp
  have hz : heldC (cacheRun (w.handle (.retrivePow v)).1 steps).1 v.token = 0 := by omega
  simp only [CacheWorld.handle, retrive_eq] at hz ⊢
  simp only [heldC, hv] at hz
  rw [hv]
  revert hz
  cases AMap.get _ v'.token <;> simp

/-- Issued twice, handed out twice, asked three times. -/
example : handedOut "chal" (cacheRun (CacheWorld.init 0)
    [.req (.cachePow exChallenge), .req (.retrivePow ⟨"chal", "site"⟩), .req (.retrivePow ⟨"chal", "site"⟩),
     .req (.cachePow exChallenge), .req (.retrivePow ⟨"chal", "site"⟩)]).2 = 2 := by decide
example : ∀ e ∈ (cacheRun ((cacheRun (CacheWorld.init 0) [.req (.cachePow exChallenge)]).1.handle
    (.retrivePow ⟨"chal", "site"⟩)).1 [.req (.cachePow { exChallenge with string := "other" }), .tick 30, .fire 0]).2,
    ∀ c, e.1 = .cachePow c → c.string ≠ "chal" := by
  intro e he c hc
  simp [cacheRun, cacheStep, CacheWorld.handle, CacheWorld.init, exChallenge, retrive_eq] at he
  rcases he with he | he
  · subst he; cases hc; decide
  · subst he; cases hc

/-- C37. Over any schedule a token is accepted at most as often as it was issued. -/
theorem C37_token_once (now : Nat) (steps : List CacheStep) (t : String) :
    accepted t (cacheRun (CacheWorld.init now) steps).2 ≤ tokensIssued t (cacheRun (CacheWorld.init now) steps).2 := by
  have h := (count_run (CacheWorld.init now) steps t).2
  have h0 : heldT (CacheWorld.init now) t = 0 := rfl
  omega

/-- C37. A token that has been presented, under whatever key, is not accepted again before it is issued again. -/
theorem C37_presented_until_reissued (w : CacheWorld) (v v' : VerifyCaptchaResult) (hv : v.token = v'.token)
    (steps : List CacheStep) (hn : ∀ e ∈ (cacheRun (w.handle (.verify v)).1 steps).2,
      ∀ r, e.1 = .cacheResult r → r.token ≠ v.token) :
    ((cacheRun (w.handle (.verify v)).1 steps).1.handle (.verify v')).2 = .verdict false := by
  have h := (count_run (w.handle (.verify v)).1 steps v.token).2
  have h0 : heldT (w.handle (.verify v)).1 v.token = 0 := by
    simp [heldT, CacheWorld.handle, verify_eq]
  have hi : tokensIssued v.token (cacheRun (w.handle (.verify v)).1 steps).2 = 0 := by
    simp only [tokensIssued, List.length_eq_zero_iff, List.filter_eq_nil_iff]
    intro e he
    have := hn e he
    split
    · rename_i c hc; simpa using this c hc
    · simp
  have hz : heldT (cacheRun (w.handle (.verify v)).1 steps).1 v.token = 0 := by omega
  simp only [heldT, hv] at hz
  rw [verify_reply _ v' none]
  · rfl
  · revert hz
    cases AMap.get _ v'.token <;> simp

/-- A token accepted once, then replayed. -/
example : (cacheRun (CacheWorld.init 0)
    [.req (.cacheResult exToken), .req (.verify ⟨"tok", "site"⟩), .req (.verify ⟨"tok", "site"⟩)]).2 =
    [(.cacheResult exToken, .done), (.verify ⟨"tok", "site"⟩, .verdict true), (.verify ⟨"tok", "site"⟩, .verdict false)] := by
  decide

/-- C38. After any schedule a token is accepted if and only if the latest message about it was a `CacheResult` with the
presented key. -/
theorem C38_token_bound_to_site (now : Nat) (steps : List CacheStep) (v : VerifyCaptchaResult) :
    let run := cacheRun (CacheWorld.init now) steps
    ((run.1.handle (.verify v)).2 = .verdict true ↔
      ∃ r, lastAboutToken (msgs run.2) v.token = some (.cacheResult r) ∧ r.key = v.key) ∧
    ((run.1.handle (.verify v)).2 ≠ .verdict true → (run.1.handle (.verify v)).2 = .verdict false) := by
  intro run
  have h : run.1.cache.resultMap.get v.token = storedToken (msgs run.2) v.token :=
    (agrees_run _ [] steps (agrees_init now)).2 v.token
  rw [verify_reply _ _ _ h]
  constructor
  · rw [CacheReply.verdict.injEq, decide_eq_true_eq]
    unfold storedToken
    constructor
    · intro e
      split at e
      · rename_i r hr; exact ⟨r, hr, by simpa using e⟩
      · cases e
    · rintro ⟨r, hr, hk⟩
      rw [hr]; simp [hk]
  · intro e
    simpa using e

/-- Right key, wrong key, and a token re-issued to another site. -/
example : ((cacheRun (CacheWorld.init 0) [.req (.cacheResult exToken), .tick 29]).1.handle (.verify ⟨"tok", "site"⟩)).2 =
    .verdict true := by decide
example : ((cacheRun (CacheWorld.init 0) [.req (.cacheResult exToken)]).1.handle (.verify ⟨"tok", "evil"⟩)).2 =
    .verdict false := by decide
example : ((cacheRun (CacheWorld.init 0) [.req (.cacheResult exToken), .req (.cacheResult { exToken with key := "b" })]).1.handle
    (.verify ⟨"tok", "site"⟩)).2 = .verdict false := by decide

/-- C39, full statement refuted: presenting a token under the wrong key may consume it. -/
theorem C39_wrong_key_harmless_refuted :
    ¬ ∀ (w : CacheWorld) (t k k' : String), k' ≠ k → (w.handle (.verify ⟨t, k⟩)).2 = .verdict true →
      ((w.handle (.verify ⟨t, k'⟩)).1.handle (.verify ⟨t, k⟩)).2 = .verdict true := by
  intro h
  have := h (cacheRun (CacheWorld.init 0) [.req (.cacheResult exToken)]).1 "tok" "site" "evil" (by decide) (by decide)
  exact absurd this (by decide)

/-- C39. In fact presenting a token under a wrong key always consumes it: in every state. -/
theorem C39_wrong_key_burns_refuted (w : CacheWorld) (t k k' : String) :
    ((w.handle (.verify ⟨t, k'⟩)).1.handle (.verify ⟨t, k⟩)).2 = .verdict false :=
  C37_presented_until_reissued w ⟨t, k'⟩ ⟨t, k⟩ rfl [] (by simp [cacheRun])

/-- C39, what holds: presenting a token, under whatever key, leaves every other token and every challenge as it was.
Missing: the presented token itself is consumed even by the wrong site. -/
theorem C39_wrong_key_harmless_partial (w : CacheWorld) (v : VerifyCaptchaResult) :
    (∀ v', v'.token ≠ v.token → ((w.handle (.verify v)).1.handle (.verify v')).2 = (w.handle (.verify v')).2) ∧
    (∀ v', ((w.handle (.verify v)).1.handle (.retrivePow v')).2 = (w.handle (.retrivePow v')).2) := by
  constructor
  · intro v' hne
    simp only [CacheWorld.handle, verify_eq]
    rw [AMap.get_erase_ne _ _ _ (fun e => hne e.symm)]
  · intro v'
    simp only [CacheWorld.handle, verify_eq, retrive_eq]

example : let w := (cacheRun (CacheWorld.init 0)
      [.req (.cacheResult exToken), .req (.cacheResult { exToken with token := "t2" })]).1
    ((w.handle (.verify ⟨"t2", "evil"⟩)).1.handle (.verify ⟨"tok", "site"⟩)).2 = .verdict true := by decide

/-- C40, challenges. A string cached for the first time and then not touched by clients is retrievable as long as less than
`duration` has passed, and not any more from then on if no timer is overdue. -/
theorem C40_challenge_lifetime (now : Nat) (before after : List CacheStep) (c : CachePoW) (k : String)
    (hfresh : ∀ c', CacheStep.req (.cachePow c') ∈ before → c'.string ≠ c.string)
    (hleft : after.all (leavesChallenge c.string) = true) :
    let w := (cacheRun (CacheWorld.init now) (before ++ [.req (.cachePow c)] ++ after)).1
    let stored := cacheClock now before
    let t := cacheClock now (before ++ [.req (.cachePow c)] ++ after)
    w.now = t ∧
    (t < stored + c.duration →
      (w.handle (.retrivePow ⟨c.string, k⟩)).2 = .config (some ⟨c.key, c.difficultyFactor, c.duration⟩)) ∧
    (CacheOnTime w → stored + c.duration ≤ t → (w.handle (.retrivePow ⟨c.string, k⟩)).2 = .config none) := by
  intro w stored t
  have ht : w.now = t := cacheRun_now _ _
  refine ⟨ht, ?_⟩
  have htim := timersFrom_run (CacheWorld.init now) before (fun s => s ≠ c.string) (fun _ => True)
    (fun t h => nomatch h) hfresh (fun _ _ => trivial)
  have hw : w = (cacheRun ((cacheRun (CacheWorld.init now) before).1.handle (.cachePow c)).1 after).1 := by
    show (cacheRun _ _).1 = _
    rw [cacheRun_append, cacheRun_append]; rfl
  have hlife : LifeC w c.string ⟨c.key, c.difficultyFactor, c.duration⟩ (stored + c.duration) := by
    rw [hw]
    refine lifeC_run _ _ _ _ _ hleft (.inl ⟨AMap.get_insert_self _ _ _, ?_⟩)
    have hp : pend (fun m => challengeOf m == some c.string) (cacheRun (CacheWorld.init now) before).1 = [] := by
      simp only [pend, List.filter_eq_nil_iff]
      intro x hx
      rcases htim x hx with ⟨s, e, hs⟩ | ⟨s, e, -⟩
      · rw [e]; simpa [challengeOf] using hs
      · rw [e]; simp [challengeOf]
    simp only [pend] at hp ⊢
    simp only [CacheWorld.handle, List.filter_append, hp, cacheRun_now]
    simp [challengeOf, stored, CacheWorld.init]
  constructor
  · intro hlt
    rcases hlife with ⟨h1, -⟩ | ⟨-, -, h3⟩
    · simp only [CacheWorld.handle, retrive_eq]; rw [h1]
    · rw [ht] at h3; exact absurd hlt (Nat.not_lt.2 h3)
  · intro hot hle
    rcases hlife with ⟨h1, h2⟩ | ⟨h1, -, -⟩
    · have hm : (⟨stored + c.duration, .deletePow c.string⟩ : CacheTimer) ∈
          pend (fun m => challengeOf m == some c.string) w := by rw [h2]; simp
      have := hot _ (List.mem_filter.1 hm).1
      rw [ht] at this
      exact absurd this (Nat.not_lt.2 hle)
    · simp only [CacheWorld.handle, retrive_eq]; rw [h1]

/-- C40, tokens. -/
theorem C40_token_lifetime (now : Nat) (before after : List CacheStep) (r : CacheResult)
    (hfresh : ∀ r', CacheStep.req (.cacheResult r') ∈ before → r'.token ≠ r.token)
    (hleft : after.all (leavesToken r.token) = true) :
    let w := (cacheRun (CacheWorld.init now) (before ++ [.req (.cacheResult r)] ++ after)).1
    let stored := cacheClock now before
    let t := cacheClock now (before ++ [.req (.cacheResult r)] ++ after)
    w.now = t ∧
    (t < stored + r.duration → (w.handle (.verify ⟨r.token, r.key⟩)).2 = .verdict true) ∧
    (CacheOnTime w → stored + r.duration ≤ t → (w.handle (.verify ⟨r.token, r.key⟩)).2 = .verdict false) := by
  intro w stored t
  have ht : w.now = t := cacheRun_now _ _
  refine ⟨ht, ?_⟩
  have htim := timersFrom_run (CacheWorld.init now) before (fun _ => True) (fun s => s ≠ r.token)
    (fun t h => nomatch h) (fun _ _ => trivial) hfresh
  have hw : w = (cacheRun ((cacheRun (CacheWorld.init now) before).1.handle (.cacheResult r)).1 after).1 := by
    show (cacheRun _ _).1 = _
    rw [cacheRun_append, cacheRun_append]; rfl
  have hlife : LifeT w r.token r.key (stored + r.duration) := by
    rw [hw]
    refine lifeT_run _ _ _ _ _ hleft (.inl ⟨AMap.get_insert_self _ _ _, ?_⟩)
    have hp : pend (fun m => tokenOf m == some r.token) (cacheRun (CacheWorld.init now) before).1 = [] := by
      simp only [pend, List.filter_eq_nil_iff]
      intro x hx
      rcases htim x hx with ⟨s, e, -⟩ | ⟨s, e, hs⟩
      · rw [e]; simp [tokenOf]
      · rw [e]; simpa [tokenOf] using hs
    simp only [pend] at hp ⊢
    simp only [CacheWorld.handle, List.filter_append, hp, cacheRun_now]
    simp [tokenOf, stored, CacheWorld.init]
  constructor
  · intro hlt
    rcases hlife with ⟨h1, -⟩ | ⟨-, -, h3⟩
    · simp only [CacheWorld.handle, verify_eq]; rw [h1]; simp
    · rw [ht] at h3; exact absurd hlt (Nat.not_lt.2 h3)
  · intro hot hle
    rcases hlife with ⟨h1, h2⟩ | ⟨h1, -, -⟩
    · have hm : (⟨stored + r.duration, .deleteResult r.token⟩ : CacheTimer) ∈
          pend (fun m => tokenOf m == some r.token) w := by rw [h2]; simp
      have := hot _ (List.mem_filter.1 hm).1
      rw [ht] at this
      exact absurd this (Nat.not_lt.2 hle)
    · simp only [CacheWorld.handle, verify_eq]; rw [h1]; simp

/-- Just before and at the end of its life, with other traffic around. -/
example : ((cacheRun (CacheWorld.init 0) ([.req (.cacheResult exToken), .tick 7] ++ [.req (.cachePow exChallenge)] ++
    [.tick 29, .fire 0, .fire 0, .req (.cachePow { exChallenge with string := "o" })])).1.handle
    (.retrivePow ⟨"chal", "site"⟩)).2 = .config (some exConfig) := by decide
example : let w := (cacheRun (CacheWorld.init 0) ([.req (.cacheResult exToken), .tick 7] ++ [.req (.cachePow exChallenge)] ++
    [.tick 29, .fire 0, .fire 0, .req (.cachePow { exChallenge with string := "o" }), .tick 1, .fire 0])).1
    CacheOnTime w ∧ (w.handle (.retrivePow ⟨"chal", "site"⟩)).2 = .config none :=
  ⟨by unfold CacheOnTime; decide, by decide⟩

/-- C41, full statement refuted: a challenge stored again disappears with the timer of its earlier life. For all data: stored
at time 0 for `d1` seconds and again at time `t ≤ d1`, for `d2` seconds, the string is gone at time `d1` although its own time
ends at `t + d2 > d1`. -/
theorem C41_recached_full_lifetime_refuted (s : String) (c1 c2 : CachePoW) (t : Nat) (h1 : c1.string = s) (h2 : c2.string = s)
    (ht : t ≤ c1.duration) (k : String) :
    ((cacheRun (CacheWorld.init 0) [.req (.cachePow c1), .tick t, .req (.cachePow c2), .tick (c1.duration - t), .fire 0]).1.handle
      (.retrivePow ⟨s, k⟩)).2 = .config none := by
  have e : t + (c1.duration - t) = c1.duration := by omega
  subst h1
  simp [cacheRun, cacheStep, CacheWorld.handle, CacheWorld.init, HashCache.removePowConfig, HashCache.savePowConfig, retrive_eq, e]

/-- The same with concrete numbers: 20 of its 30 seconds are left. -/
example : (cacheRun (CacheWorld.init 0)
    [.req (.cachePow exChallenge), .tick 20, .req (.cachePow exChallenge), .tick 10, .fire 0,
     .req (.retrivePow ⟨"chal", "site"⟩)]).2.getLast? = some (.retrivePow ⟨"chal", "site"⟩, .config none) := by decide

/-- C41, what holds: a string cached in any state in which no timer of an earlier life is pending lives for its full duration,
if clients leave it alone, whatever else happens.
Missing: the case of a pending earlier timer, refuted above. -/
theorem C41_recached_full_lifetime_partial (w : CacheWorld) (c : CachePoW) (k : String) (after : List CacheStep)
    (hno : ∀ t ∈ w.timers, challengeOf t.msg ≠ some c.string) (hleft : after.all (leavesChallenge c.string) = true)
    (hlt : cacheClock w.now after < w.now + c.duration) :
    ((cacheRun (w.handle (.cachePow c)).1 after).1.handle (.retrivePow ⟨c.string, k⟩)).2 =
      .config (some ⟨c.key, c.difficultyFactor, c.duration⟩) := by
  have hlife : LifeC (cacheRun (w.handle (.cachePow c)).1 after).1 c.string ⟨c.key, c.difficultyFactor, c.duration⟩
      (w.now + c.duration) := by
    refine lifeC_run _ _ _ _ _ hleft (.inl ⟨AMap.get_insert_self _ _ _, ?_⟩)
    have hp : pend (fun m => challengeOf m == some c.string) w = [] := by
      simp only [pend, List.filter_eq_nil_iff]
      intro x hx; simpa using hno x hx
    simp only [pend] at hp ⊢
    simp only [CacheWorld.handle, List.filter_append, hp]
    simp [challengeOf]
  rcases hlife with ⟨h1, -⟩ | ⟨-, -, h3⟩
  · simp only [CacheWorld.handle, retrive_eq] at h1 ⊢; rw [h1]
  · rw [cacheRun_now, handle_now] at h3
    exact absurd hlt (Nat.not_lt.2 h3)

/-- Cached again after the first life ended. -/
example : let w := (cacheRun (CacheWorld.init 0) [.req (.cachePow exChallenge), .tick 30, .fire 0]).1
    (∀ t ∈ w.timers, challengeOf t.msg ≠ some "chal") ∧ cacheClock w.now [.tick 29] < w.now + 30 := by decide

/-- C41. Nothing is deleted twice for one time it was stored: in any execution without a client's own deletion of the string,
the deletions of it never outnumber the times it was issued. So an expiry of an earlier life strikes a later one at most once. -/
theorem C41_one_expiry_per_issue (now : Nat) (steps : List CacheStep) (s : String)
    (hC : CacheStep.req (.deletePow s) ∉ steps) (hT : CacheStep.req (.deleteResult s) ∉ steps) :
    deletions s (cacheRun (CacheWorld.init now) steps).2 ≤ issued s (cacheRun (CacheWorld.init now) steps).2 ∧
    tokenDeletions s (cacheRun (CacheWorld.init now) steps).2 ≤ tokensIssued s (cacheRun (CacheWorld.init now) steps).2 := by
  obtain ⟨-, h1, h2⟩ := exp_run (CacheWorld.init now) steps s (fun _ h => nomatch h) hC hT
  simp [expC, expT, pend, CacheWorld.init] at h1 h2 ⊢
  omega

/-- Issued twice, expired twice. -/
example : let tr := (cacheRun (CacheWorld.init 0)
    [.req (.cachePow exChallenge), .tick 20, .req (.cachePow exChallenge), .tick 30, .fire 0, .fire 0, .fire 0]).2
    deletions "chal" tr = 2 ∧ issued "chal" tr = 2 := by decide

/-- C41, what holds, by history: a string whose earlier lives have all expired and that is cached again lives for its full
duration if clients leave it alone from then on.
Missing: the case of an earlier life that has not expired yet, refuted above. -/
theorem C41_recached_after_expiry_partial (now : Nat) (before : List CacheStep) (c : CachePoW) (k : String)
    (after : List CacheStep)
    (hC : CacheStep.req (.deletePow c.string) ∉ before) (hT : CacheStep.req (.deleteResult c.string) ∉ before)
    (hexp : deletions c.string (cacheRun (CacheWorld.init now) before).2 =
      issued c.string (cacheRun (CacheWorld.init now) before).2)
    (hleft : after.all (leavesChallenge c.string) = true) (hlt : cacheClock 0 after < c.duration) :
    (cacheRun (CacheWorld.init now) (before ++ .req (.cachePow c) :: after ++ [.req (.retrivePow ⟨c.string, k⟩)])).2.getLast? =
      some (.retrivePow ⟨c.string, k⟩, .config (some ⟨c.key, c.difficultyFactor, c.duration⟩)) := by
  obtain ⟨ho, h1, -⟩ := exp_run (CacheWorld.init now) before c.string (fun _ h => nomatch h) hC hT
  have hz : expC (cacheRun (CacheWorld.init now) before).1 c.string = 0 := by
    have : expC (CacheWorld.init now) c.string = 0 := rfl
    omega
  generalize hw : (cacheRun (CacheWorld.init now) before).1 = w at ho hz
  have hno : ∀ t ∈ w.timers, challengeOf t.msg ≠ some c.string := by
    intro t ht e
    simp only [expC, pend, List.length_eq_zero_iff, List.filter_eq_nil_iff] at hz
    rcases ho t ht with ⟨x, hx⟩ | ⟨x, hx⟩
    · rw [hx, challengeOf] at e
      exact hz t ht (by rw [hx, Option.some.inj e]; exact beq_self_eq_true _)
    · rw [hx] at e; exact nomatch e
  have hcl : ∀ (l : List CacheStep) (a : Nat), cacheClock a l = a + cacheClock 0 l := by
    intro l
    induction l with
    | nil => intro a; rfl
    | cons st r ih =>
      intro a
      cases st with
      | tick d => simp only [cacheClock]; rw [ih (a + d), ih (0 + d)]; omega
      | _ => exact ih a
  have := C41_recached_full_lifetime_partial w c k after hno hleft (by rw [hcl]; omega)
  rw [cacheRun_append, cacheRun_append]
  simp only [cacheRun, cacheStep, hw, List.append_nil, List.getLast?_append, List.getLast?_singleton, Option.some_or, this]

/-- The same string cached again after its first life expired. -/
example : let before : List CacheStep := [.req (.cachePow exChallenge), .tick 30, .fire 0]
    deletions "chal" (cacheRun (CacheWorld.init 0) before).2 = issued "chal" (cacheRun (CacheWorld.init 0) before).2 ∧
    cacheClock 0 [.tick 29] < exChallenge.duration := by decide

/-- C42. No message about challenges changes the tokens, and conversely. -/
theorem C42_stores_separate (w : CacheWorld) (m : CacheMsg) :
    (tokenOf m = none → (w.handle m).1.cache.resultMap = w.cache.resultMap) ∧
    (challengeOf m = none → (w.handle m).1.cache.difficultyMap = w.cache.difficultyMap) := by
  cases m with
  | cachePow c => exact ⟨fun _ => rfl, by simp [challengeOf]⟩
  | deletePow s => exact ⟨fun _ => rfl, by simp [challengeOf]⟩
  | retrivePow v => exact ⟨fun _ => by simp only [CacheWorld.handle, retrive_eq], by simp [challengeOf]⟩
  | cacheResult r => exact ⟨by simp [tokenOf], fun _ => rfl⟩
  | deleteResult t => exact ⟨by simp [tokenOf], fun _ => rfl⟩
  | verify v => exact ⟨by simp [tokenOf], fun _ => by simp only [CacheWorld.handle, verify_eq]⟩

/-- C42. Only issued tokens are accepted and only issued challenges are handed out. -/
theorem C42_no_mixing (now : Nat) (steps : List CacheStep) (v : VerifyCaptchaResult) :
    let run := cacheRun (CacheWorld.init now) steps
    ((run.1.handle (.verify v)).2 = .verdict true → ∃ r, CacheMsg.cacheResult r ∈ msgs run.2 ∧ r.token = v.token ∧ r.key = v.key) ∧
    (∀ cfg, (run.1.handle (.retrivePow v)).2 = .config (some cfg) →
      ∃ c, CacheMsg.cachePow c ∈ msgs run.2 ∧ c.string = v.token ∧ cfg = ⟨c.key, c.difficultyFactor, c.duration⟩) := by
  intro run
  constructor
  · intro h
    obtain ⟨r, hr, hk⟩ := (C38_token_bound_to_site now steps v).1.1 h
    have hm := List.mem_of_getLast? hr
    obtain ⟨h1, h2⟩ := List.mem_filter.1 hm
    exact ⟨r, h1, by simpa [tokenOf] using h2, hk⟩
  · intro cfg h
    have h' := C35_cache_returns_stored now steps v
    simp only at h'
    rw [show (run.1.handle (.retrivePow v)).2 = _ from h'] at h
    simp only [CacheReply.config.injEq, storedChallenge] at h
    split at h
    · rename_i c hc
      obtain ⟨h1, h2⟩ := List.mem_filter.1 (List.mem_of_getLast? hc)
      exact ⟨c, h1, by simpa [challengeOf] using h2, (Option.some.inj h).symm⟩
    · cases h

/-- C42. Two runs that handled the same token messages answer the next token query alike, whatever happened to challenges and
whenever it happened. -/
theorem C42_tokens_independent (now now' : Nat) (s s' : List CacheStep) (v : VerifyCaptchaResult)
    (h : (msgs (cacheRun (CacheWorld.init now) s).2).filter (fun m => (tokenOf m).isSome) =
         (msgs (cacheRun (CacheWorld.init now') s').2).filter (fun m => (tokenOf m).isSome)) :
    ((cacheRun (CacheWorld.init now) s).1.handle (.verify v)).2 =
      ((cacheRun (CacheWorld.init now') s').1.handle (.verify v)).2 := by
  have key : ∀ h : List CacheMsg, lastAboutToken h v.token = lastAboutToken (h.filter fun m => (tokenOf m).isSome) v.token := by
    intro h
    simp only [lastAboutToken, List.filter_filter]
    congr 1
    apply List.filter_congr
    intro m _
    cases hm : tokenOf m <;> simp
  have h1 := (agrees_run _ [] s (agrees_init now)).2 v.token
  have h2 := (agrees_run _ [] s' (agrees_init now')).2 v.token
  rw [verify_reply _ _ _ h1, verify_reply _ _ _ h2]
  have : storedToken ([] ++ msgs (cacheRun (CacheWorld.init now) s).2) v.token =
      storedToken ([] ++ msgs (cacheRun (CacheWorld.init now') s').2) v.token := by
    simp only [List.nil_append, storedToken]
    rw [key, h, ← key]
  rw [this]

/-- A challenge string does not validate as a token, nor a token as a challenge. -/
example : ((cacheRun (CacheWorld.init 0) [.req (.cachePow exChallenge)]).1.handle (.verify ⟨"chal", "site"⟩)).2 = .verdict false ∧
    ((cacheRun (CacheWorld.init 0) [.req (.cacheResult exToken)]).1.handle (.retrivePow ⟨"tok", "site"⟩)).2 = .config none := by
  decide
/-- The same string in both stores. -/
example : ((cacheRun (CacheWorld.init 0) [.req (.cachePow exChallenge), .req (.cacheResult { exToken with token := "chal" }),
    .req (.retrivePow ⟨"chal", "site"⟩)]).1.handle (.verify ⟨"chal", "site"⟩)).2 = .verdict true := by decide

end MCap
