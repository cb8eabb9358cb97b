import Verif.Spec.RedisTimed
import Verif.Proofs.Redis

/-!
# The two caches side by side, with time
-/

namespace MCap
open Spec

theorem cacheRun_snoc (w : CacheWorld) (a : List CacheStep) (x : CacheStep) :
    (cacheRun w (a ++ [x])).1 = (cacheStep (cacheRun w a).1 x).1 := by
  induction a generalizing w with
  | nil => rfl
  | cons y r ih => exact ih _

theorem cacheClock_append (now : Nat) (a b : List CacheStep) : cacheClock now (a ++ b) = cacheClock (cacheClock now a) b := by
  induction a generalizing now with
  | nil => rfl
  | cons y r ih =>
    cases y with
    | req m => exact ih now
    | tick d => exact ih (now + d)
    | fire i => exact ih now

theorem storedUntil_snoc {now : Nat} {a : List CacheStep} {t key : String} {due : Nat} (x : CacheStep) (h : StoredUntil now a t key due) :
    StoredUntil now (a ++ [x]) t key due := by
  obtain ⟨a1, m, b, rfl, h1, h2, h3⟩ := h
  exact ⟨a1, m, b ++ [x], by simp, h1, h2, h3⟩

/-- Tokens are stored once, so there is one time they end. -/
theorem storedUntil_one {keyOf : String → String} {now : Nat} {steps rest : List CacheStep} {a : List CacheStep} (hs : steps = a ++ rest)
    (hf : TokensOnce keyOf now steps) {t k k' : String} {d d' : Nat} (h : StoredUntil now a t k d) (h' : StoredUntil now a t k' d') : d = d' := by
  obtain ⟨a1, m, b, e, h1, -, h3⟩ := h
  obtain ⟨a1', m', b', e', h1', -, h3'⟩ := h'
  rcases Nat.lt_trichotomy a1.length a1'.length with hl | hl | hl
  · exfalso
    have := (hf.store a1' m' (b' ++ rest) (by rw [hs, e']; simp)).2.2.2.2 m (by
      have : a1' = a1 ++ .req (.cacheResult m) :: (a1'.drop (a1.length + 1)) := by
        have h4 : a1' = (a1 ++ .req (.cacheResult m) :: b).take a1'.length := by rw [← e, e']; simp
        obtain ⟨n, hn⟩ : ∃ n, a1'.length = a1.length + (n + 1) := ⟨a1'.length - a1.length - 1, by omega⟩
        rw [hn, List.take_length_add_append] at h4
        rw [h4]; simp
      rw [this]; simp)
    exact this (by rw [h1, h1'])
  · rw [e] at e'
    obtain ⟨e1, e2⟩ := List.append_inj e' hl
    cases e2
    rw [h3, h3', e1]
  · exfalso
    have := (hf.store a1 m (b ++ rest) (by rw [hs, e]; simp)).2.2.2.2 m' (by
      have : a1 = a1' ++ .req (.cacheResult m') :: (a1.drop (a1'.length + 1)) := by
        have h4 : a1 = (a1' ++ .req (.cacheResult m') :: b').take a1.length := by rw [← e', e]; simp
        obtain ⟨n, hn⟩ : ∃ n, a1.length = a1'.length + (n + 1) := ⟨a1.length - a1'.length - 1, by omega⟩
        rw [hn, List.take_length_add_append] at h4
        rw [h4]; simp
      rw [this]; simp)
    exact this (by rw [h1, h1'])

/-- The two caches after `a`. -/
structure Twin (keyOf : String → String) (now : Nat) (a : List CacheStep) (w : CacheWorld) (db : RedisDb) : Prop where
  run : w = (cacheRun (CacheWorld.init now) a).1
  clock : w.now = cacheClock now a
  dbclock : db.now = 1000 * w.now
  timers : ∀ τ ∈ w.timers, (∃ s, τ.msg = .deletePow s) ∨ ∃ t k, τ.msg = .deleteResult t ∧ StoredUntil now a t k τ.due
  hash : ∀ t k, w.cache.resultMap.get t = some k → k = keyOf t ∧ ∃ due, StoredUntil now a t k due ∧ { due := due, msg := .deleteResult t } ∈ w.timers ∧
    ∃ v, db.keys.get (tokenKey (keyOf t) t) = some (v, 1000 * due)
  redis : ∀ t v e, ':' ∉ (keyOf t).toList → db.keys.get (tokenKey (keyOf t) t) = some (v, e) →
    ∃ k due, StoredUntil now a t k due ∧ e = 1000 * due ∧ ((w.cache.resultMap.get t).isSome = true ∨ due ≤ w.now)

theorem twin_quiet {keyOf : String → String} {now : Nat} {a : List CacheStep} {w w' : CacheWorld} {db : RedisDb} {x : CacheStep} (h : Twin keyOf now a w db)
    (hr : w' = (cacheStep w x).1) (hx : cacheClock (cacheClock now a) [x] = cacheClock now a) (hn : w'.now = w.now)
    (hm : w'.cache.resultMap = w.cache.resultMap) (ht : ∀ τ ∈ w'.timers, τ ∈ w.timers ∨ ∃ s, τ.msg = .deletePow s)
    (ht' : ∀ τ ∈ w.timers, (∃ s, τ.msg = .deletePow s) ∨ τ ∈ w'.timers) : Twin keyOf now (a ++ [x]) w' db := by
  refine ⟨by rw [hr, h.run, cacheRun_snoc], by rw [hn, h.clock, cacheClock_append, hx], by rw [hn]; exact h.dbclock, ?_, ?_, ?_⟩
  · intro τ hτ
    rcases ht τ hτ with h1 | h1
    · rcases h.timers τ h1 with h2 | ⟨t, k, h2, h3⟩
      · exact .inl h2
      · exact .inr ⟨t, k, h2, storedUntil_snoc x h3⟩
    · exact .inl h1
  · intro t k hk
    rw [hm] at hk
    obtain ⟨h1, due, h2, h3, h4⟩ := h.hash t k hk
    refine ⟨h1, due, storedUntil_snoc x h2, ?_, h4⟩
    rcases ht' _ h3 with ⟨s, h5⟩ | h5
    · cases h5
    · exact h5
  · intro t v e hc hg
    obtain ⟨k, due, h1, h2, h3⟩ := h.redis t v e hc hg
    rw [hm, hn]
    exact ⟨k, due, storedUntil_snoc x h1, h2, h3⟩

/-- The step on both sides: the twins stay twins, and answer alike. -/
theorem twin_step {keyOf : String → String} {now : Nat} {steps a r : List CacheStep} {w : CacheWorld} {db : RedisDb} {x : CacheStep}
    (hs : steps = a ++ x :: r) (hf : TokensOnce keyOf now steps) (ho : ChecksOnTime now steps) (h : Twin keyOf now a w db) :
    Twin keyOf now (a ++ [x]) (cacheStep w x).1 (tokenRun db (onRedis x)).1 ∧
    ((cacheStep w x).2.filterMap fun e => match e with | (_, .verdict b) => some (Except.ok (ε := CaptchaError) b) | _ => none) =
      (tokenRun db (onRedis x)).2.filterMap fun e => match e with | .answered _ r _ => some r | _ => none := by
  cases x with
  | tick d =>
    refine ⟨⟨by rw [h.run, cacheRun_snoc], ?_, ?_, ?_, ?_, ?_⟩, rfl⟩
    · rw [cacheClock_append, ← h.clock]; rfl
    · simp [onRedis, tokenRun, tokenStep, cacheStep, h.dbclock]; omega
    · intro τ hτ
      rcases h.timers τ hτ with h2 | ⟨t, k, h2, h3⟩
      · exact .inl h2
      · exact .inr ⟨t, k, h2, storedUntil_snoc _ h3⟩
    · intro t k hk
      obtain ⟨h1, due, h2, h3, h4⟩ := h.hash t k hk
      exact ⟨h1, due, storedUntil_snoc _ h2, h3, h4⟩
    · intro t v e hc hg
      obtain ⟨k, due, h1, h2, h3⟩ := h.redis t v e hc hg
      refine ⟨k, due, storedUntil_snoc _ h1, h2, h3.imp id fun h => ?_⟩
      simp [cacheStep]; omega
  | fire i =>
    simp only [cacheStep, onRedis, tokenRun]
    split
    · rename_i τ hτ
      have hmem := List.mem_of_getElem? hτ
      split
      · rename_i hdue
        rcases h.timers τ hmem with ⟨s, hm⟩ | ⟨t, k, hm, hst⟩
        · refine ⟨?_, by simp [hm, CacheWorld.handle]⟩
          refine twin_quiet h (by simp [cacheStep, hτ, hdue]) rfl ?_ ?_ ?_ ?_
          · simp [hm, CacheWorld.handle]
          · simp [hm, CacheWorld.handle, HashCache.removePowConfig]
          · intro τ' h'
            simp [hm, CacheWorld.handle] at h'
            exact .inl (List.mem_of_mem_eraseIdx h')
          · intro τ' h'
            by_cases he : τ' = τ
            · subst he; exact .inl ⟨s, hm⟩
            · refine .inr ?_
              simp only [hm, CacheWorld.handle]
              obtain ⟨j, hj, rfl⟩ := List.getElem_of_mem h'
              refine List.mem_eraseIdx_iff_getElem.2 ⟨j, hj, ?_, rfl⟩
              intro hji
              subst hji
              rw [List.getElem?_eq_getElem hj] at hτ
              exact he (Option.some.inj hτ)
        · refine ⟨?_, by simp [hm, CacheWorld.handle]⟩
          have hw : (({ w with timers := w.timers.eraseIdx i } : CacheWorld).handle τ.msg).1 =
              { w with timers := w.timers.eraseIdx i, cache := { w.cache with resultMap := w.cache.resultMap.erase t } } := by
            simp [hm, CacheWorld.handle, HashCache.removeCacheResult]
          rw [hw]
          refine ⟨by rw [cacheRun_snoc, ← h.run, ← hw]; simp [cacheStep, hτ, hdue], ?_, h.dbclock, ?_, ?_, ?_⟩
          · rw [cacheClock_append]; exact h.clock
          · intro τ' h'
            rcases h.timers τ' (List.mem_of_mem_eraseIdx h') with h2 | ⟨t', k', h2, h3⟩
            · exact .inl h2
            · exact .inr ⟨t', k', h2, storedUntil_snoc _ h3⟩
          · intro t' k' hk'
            simp only [AMap.get_erase] at hk'
            split at hk'
            · cases hk'
            · rename_i hne
              obtain ⟨h1, due, h2, h3, h4⟩ := h.hash t' k' hk'
              refine ⟨h1, due, storedUntil_snoc _ h2, ?_, h4⟩
              obtain ⟨j, hj, he⟩ := List.getElem_of_mem h3
              refine List.mem_eraseIdx_iff_getElem.2 ⟨j, hj, ?_, he⟩
              intro hji
              subst hji
              rw [List.getElem?_eq_getElem hj, he] at hτ
              have : τ.msg = .deleteResult t' := by rw [← Option.some.inj hτ]
              rw [hm] at this
              cases this
              exact hne rfl
          · intro t' v e hc hg
            obtain ⟨k', due, h1, h2, h3⟩ := h.redis t' v e hc hg
            refine ⟨k', due, storedUntil_snoc _ h1, h2, ?_⟩
            by_cases he : t = t'
            · subst he
              right
              have := storedUntil_one hs hf h1 hst
              show due ≤ w.now
              omega
            · simp only [AMap.get_erase, if_neg he]
              exact h3
      · rename_i hdue
        exact ⟨twin_quiet h (by simp [cacheStep, hτ, hdue]) rfl rfl rfl (fun τ h => .inl h) (fun τ h => .inr h), rfl⟩
    · rename_i hτ
      exact ⟨twin_quiet h (by simp [cacheStep, hτ]) rfl rfl rfl (fun τ h => .inl h) (fun τ h => .inr h), rfl⟩
  | req msg =>
    cases msg with
    | cachePow c =>
      refine ⟨twin_quiet h rfl rfl rfl rfl ?_ ?_, rfl⟩
      · intro τ hτ
        simp [cacheStep, CacheWorld.handle] at hτ
        rcases hτ with h1 | rfl
        · exact .inl h1
        · exact .inr ⟨_, rfl⟩
      · intro τ hτ
        simp [cacheStep, CacheWorld.handle, hτ]
    | deletePow s => exact ⟨twin_quiet h rfl rfl rfl rfl (fun τ h => .inl h) (fun τ h => .inr h), rfl⟩
    | retrivePow v =>
      have hres : (w.cache.retrivePowConfig v).1.resultMap = w.cache.resultMap := by
        unfold HashCache.retrivePowConfig HashCache.removePowConfig
        split <;> rename_i heq <;> exact (congrArg (fun p => p.1.resultMap) heq).symm
      refine ⟨twin_quiet h rfl rfl rfl ?_ (fun τ h => .inl h) (fun τ h => .inr h), rfl⟩
      simpa [cacheStep, CacheWorld.handle] using hres
    | deleteResult t => exact absurd (by rw [hs]; simp) (hf.kept t)
    | cacheResult m =>
      obtain ⟨hk, hc, hd, hb, hno⟩ := hf.store a m r hs
      have e : tokenStep db (.add m) =
          ({ db with keys := db.keys.insert (tokenKey m.key m.token) (m.key, db.now + 1000 * m.duration) }, [.added m db.now]) := by
        have : db.now + 1000 * m.duration ≤ 2 ^ 63 - 1 := by rw [h.dbclock, h.clock]; omega
        simp [tokenStep, exec_addToken, RedisDb.setEx, hd, RedisDb.maxTime, this, RedisClient.addToken]
      have hnew : StoredUntil now (a ++ [.req (.cacheResult m)]) m.token m.key (w.now + m.duration) :=
        ⟨a, m, [], rfl, rfl, rfl, by rw [h.clock]⟩
      simp only [onRedis, tokenRun, e]
      refine ⟨⟨by rw [h.run, cacheRun_snoc], ?_, h.dbclock, ?_, ?_, ?_⟩, rfl⟩
      · rw [cacheClock_append]; exact h.clock
      · intro τ hτ
        simp [cacheStep, CacheWorld.handle] at hτ
        rcases hτ with h1 | rfl
        · rcases h.timers τ h1 with h2 | ⟨t, k, h2, h3⟩
          · exact .inl h2
          · exact .inr ⟨t, k, h2, storedUntil_snoc _ h3⟩
        · exact .inr ⟨_, _, rfl, hnew⟩
      · intro t k
        simp only [cacheStep, CacheWorld.handle, HashCache.saveCaptchaResult, AMap.get_insert]
        split
        · rename_i ht
          subst ht
          rintro ⟨⟩
          exact ⟨hk, _, hnew, by simp, m.key, by rw [← hk]; simp [h.dbclock]; omega⟩
        · rename_i hne
          intro hg
          obtain ⟨h1, due, h2, h3, v, h4⟩ := h.hash t k hg
          refine ⟨h1, due, storedUntil_snoc _ h2, by simp [h3], v, ?_⟩
          rw [if_neg, h4]
          intro hq
          have : ':' ∉ (keyOf t).toList := by
            obtain ⟨a1, m1, b1, e1, e2, e3, -⟩ := h2
            obtain ⟨-, g2, -⟩ := hf.store a1 m1 (b1 ++ .req (.cacheResult m) :: r) (by rw [hs, e1]; simp)
            rw [← h1, ← e3]; exact g2
          exact hne (tokenKey_inj hq hc this).2
      · intro t v e' hct
        simp only [cacheStep, CacheWorld.handle, HashCache.saveCaptchaResult, AMap.get_insert]
        split
        · rename_i hq
          have ht := (tokenKey_inj hq hc hct).2
          intro hg
          cases hg
          refine ⟨m.key, w.now + m.duration, by rw [← ht]; exact hnew, by rw [h.dbclock]; omega, .inl ?_⟩
          simp [ht]
        · rename_i hq
          intro hg
          obtain ⟨k, due, h1, h2, h3⟩ := h.redis t v e' hct hg
          refine ⟨k, due, storedUntil_snoc _ h1, h2, ?_⟩
          have : m.token ≠ t := by
            intro he
            subst he
            exact hq (by rw [hk])
          rw [if_neg this]
          exact h3
    | verify v =>
      obtain ⟨hk, hc⟩ := hf.check v (by rw [hs]; simp)
      obtain ⟨hot, hne⟩ := ho a v r hs
      rw [← h.run] at hot
      have hc' : ':' ∉ (keyOf v.token).toList := by rw [← hk]; exact hc
      have e : tokenStep db (.get v) =
          ({ db with keys := db.keys.erase (tokenKey v.key v.token) }, [.answered v (.ok (db.has (tokenKey v.key v.token))) db.now]) := by
        simp only [tokenStep, exec_getToken, RedisDb.del, RedisClient.getToken]
        cases db.has (tokenKey v.key v.token) <;> rfl
      have hverd : w.cache.verifyCaptchaResult v = ({ w.cache with resultMap := w.cache.resultMap.erase v.token }, db.has (tokenKey v.key v.token)) := by
        unfold HashCache.verifyCaptchaResult HashCache.removeCacheResult RedisDb.has
        rw [hk]
        cases hg : w.cache.resultMap.get v.token with
        | some k =>
          obtain ⟨h1, due, h2, h3, y, h4⟩ := h.hash _ _ hg
          have := hot _ h3
          simp only [] at this
          rw [h4]
          simp only [h1, if_true]
          congr 1
          symm
          rw [decide_eq_true_iff, h.dbclock]
          omega
        | none =>
          cases hg' : db.keys.get (tokenKey (keyOf v.token) v.token) with
          | none => rfl
          | some y =>
            obtain ⟨y, e'⟩ := y
            obtain ⟨k, due, h1, h2, h3⟩ := h.redis _ _ _ hc' hg'
            rw [hg] at h3
            have h4 : due ≤ w.now := h3.resolve_left (by simp)
            have h5 := hne k due h1
            rw [← h.clock] at h5
            have h6 : decide (db.now ≤ e') = false := by
              rw [decide_eq_false_iff_not, h.dbclock, h2]
              omega
            simp [h6]
      have e' : cacheStep w (.req (.verify v)) = ({ w with cache := { w.cache with resultMap := w.cache.resultMap.erase v.token } },
          [(.verify v, .verdict (db.has (tokenKey v.key v.token)))]) := by
        simp [cacheStep, CacheWorld.handle, hverd]
      refine ⟨?_, by simp only [onRedis, tokenRun, e, e']; rfl⟩
      refine ⟨by rw [h.run, cacheRun_snoc], ?_, ?_, ?_, ?_, ?_⟩
      · rw [e', cacheClock_append]; exact h.clock
      · rw [e']; simp only [onRedis, tokenRun, e]; exact h.dbclock
      · rw [e']
        intro τ hτ
        rcases h.timers τ hτ with h2 | ⟨t, k, h2, h3⟩
        · exact .inl h2
        · exact .inr ⟨t, k, h2, storedUntil_snoc _ h3⟩
      · rw [e']
        simp only [onRedis, tokenRun, e]
        intro t k hg
        simp only [AMap.get_erase] at hg
        split at hg
        · cases hg
        · rename_i hne'
          obtain ⟨h1, due, h2, h3, y, h4⟩ := h.hash t k hg
          refine ⟨h1, due, storedUntil_snoc _ h2, h3, y, ?_⟩
          rw [AMap.get_erase, if_neg, h4]
          intro hq
          have : ':' ∉ (keyOf t).toList := by
            obtain ⟨a1, m1, b1, e1, e2, e3, -⟩ := h2
            obtain ⟨-, g2, -⟩ := hf.store a1 m1 (b1 ++ .req (.verify v) :: r) (by rw [hs, e1]; simp)
            rw [← h1, ← e3]; exact g2
          exact hne' (tokenKey_inj hq hc this).2
      · rw [e']
        simp only [onRedis, tokenRun, e]
        intro t y e2 hct hg
        rw [AMap.get_erase] at hg
        split at hg
        · cases hg
        · rename_i hq
          obtain ⟨k, due, h1, h2, h3⟩ := h.redis t y e2 hct hg
          refine ⟨k, due, storedUntil_snoc _ h1, h2, ?_⟩
          have : v.token ≠ t := by
            intro he
            subst he
            exact hq (by rw [hk])
          rw [AMap.get_erase, if_neg this]
          exact h3

theorem tokenRun_append (db : RedisDb) (a b : List TokenStep) :
    tokenRun db (a ++ b) = ((tokenRun (tokenRun db a).1 b).1, (tokenRun db a).2 ++ (tokenRun (tokenRun db a).1 b).2) := by
  induction a generalizing db with
  | nil => rfl
  | cons x r ih => simp only [List.cons_append, tokenRun, ih, List.append_assoc]

theorem twin_run {keyOf : String → String} {now : Nat} {steps : List CacheStep} (hf : TokensOnce keyOf now steps) (ho : ChecksOnTime now steps)
    (b : List CacheStep) : ∀ (a : List CacheStep) (w : CacheWorld) (db : RedisDb), steps = a ++ b → Twin keyOf now a w db →
    ((cacheRun w b).2.filterMap fun e => match e with | (_, .verdict b) => some (Except.ok (ε := CaptchaError) b) | _ => none) =
      (tokenRun db (b.flatMap onRedis)).2.filterMap fun e => match e with | .answered _ r _ => some r | _ => none := by
  induction b with
  | nil => intro a w db _ _; rfl
  | cons x r ih =>
    intro a w db hs h
    obtain ⟨h1, h2⟩ := twin_step hs hf ho h
    have := ih (a ++ [x]) _ _ (by rw [hs]; simp) h1
    simp only [cacheRun, List.flatMap_cons, tokenRun_append, List.filterMap_append]
    rw [h2, this]

end MCap
