import Verif.Spec.Redis
import Verif.Proofs.AMap

/-!
# Facts about the Redis back end
-/

namespace MCap
open Spec

/-! ### Keys -/

theorem tokenKey_toList (key token : String) :
    (tokenKey key token).toList = "mcaptcha:token:".toList ++ (key.toList ++ ':' :: token.toList) := by
  simp [tokenKey, String.toList_append]

theorem split_at_colon {a a' b b' : List Char} (h : a ++ ':' :: b = a' ++ ':' :: b') (ha : ':' ∉ a) (ha' : ':' ∉ a') : a = a' ∧ b = b' := by
  induction a generalizing a' with
  | nil =>
    cases a' with
    | nil => simpa using h
    | cons c r =>
      simp at h
      rw [← h.1] at ha'
      exact absurd List.mem_cons_self ha'
  | cons x a ih =>
    cases a' with
    | nil =>
      simp at h
      rw [h.1] at ha
      exact absurd List.mem_cons_self ha
    | cons y a' =>
      simp at h
      obtain ⟨h1, h2⟩ := ih h.2 (fun hm => ha (List.mem_cons_of_mem _ hm)) (fun hm => ha' (List.mem_cons_of_mem _ hm))
      exact ⟨by rw [h.1, h1], h2⟩

theorem tokenKey_inj {k t k' t' : String} (h : tokenKey k t = tokenKey k' t') (hk : ':' ∉ k.toList) (hk' : ':' ∉ k'.toList) :
    k = k' ∧ t = t' := by
  have h : (tokenKey k t).toList = (tokenKey k' t').toList := by rw [h]
  rw [tokenKey_toList, tokenKey_toList] at h
  obtain ⟨h1, h2⟩ := split_at_colon (List.append_cancel_left h) hk hk'
  exact ⟨String.toList_injective h1, String.toList_injective h2⟩

theorem tokenKey_inj_tokens {k t k' t' : String} (h : tokenKey k t = tokenKey k' t') (ht : ':' ∉ t.toList) (ht' : ':' ∉ t'.toList) :
    k = k' ∧ t = t' := by
  have h : (tokenKey k t).toList = (tokenKey k' t').toList := by rw [h]
  rw [tokenKey_toList, tokenKey_toList] at h
  have h := congrArg List.reverse (List.append_cancel_left h)
  simp only [List.reverse_append, List.reverse_cons, List.append_assoc, List.singleton_append] at h
  obtain ⟨h1, h2⟩ := split_at_colon h (by simpa using ht) (by simpa using ht')
  exact ⟨String.toList_injective (List.reverse_inj.1 h2), String.toList_injective (List.reverse_inj.1 h1)⟩

/-! ### Commands -/

theorem parseDigits_toString (n : Nat) : parseDigits (toString n).toList = some n := by
  have e : (toString n).toList = Nat.toDigits 10 n := by
    simp [toString, Nat.repr]
  rw [e]
  have h : ∀ c ∈ Nat.toDigits 10 n, c.isDigit = true := fun c h => Nat.isDigit_of_mem_toDigits (by omega) (by omega) h
  unfold parseDigits
  rw [if_pos ⟨Nat.toDigits_ne_nil, List.all_eq_true.2 h⟩, Nat.ofDigitChars_ten_toDigits]

theorem exec_addToken (db : RedisDb) (m : CacheResult) :
    db.exec (RedisClient.addTokenCmd m) = db.setEx (tokenKey m.key m.token) m.key m.duration := by
  simp only [RedisDb.exec, RedisClient.addTokenCmd, parseDigits_toString, and_self, if_true]

theorem exec_getToken (db : RedisDb) (v : VerifyCaptchaResult) : db.exec (RedisClient.getTokenCmd v) = db.del (tokenKey v.key v.token) := by
  simp only [RedisDb.exec, RedisClient.getTokenCmd, if_true]

theorem exec_deleteToken (db : RedisDb) (v : VerifyCaptchaResult) : db.exec (RedisClient.deleteTokenCmd v) = db.del (tokenKey v.key v.token) := by
  simp only [RedisDb.exec, RedisClient.deleteTokenCmd, if_true]

/-! ### Tokens -/

/-- The token was stored and nothing happened to it since; it is to go at `due`. -/
def TokenStored (log : List TokenEvent) (κ : String) (due : Nat) : Prop :=
  ∃ a m t b, log = a ++ .added m t :: b ∧ tokenKey m.key m.token = κ ∧ (∀ e ∈ b, ¬ Concerns κ e) ∧ due = t + 1000 * m.duration

theorem there_iff (log : List TokenEvent) (κ : String) (now : Nat) : TokenThere log κ now ↔ ∃ due, TokenStored log κ due ∧ now ≤ due := by
  constructor
  · rintro ⟨a, m, t, b, h1, h2, h3, h4⟩; exact ⟨_, ⟨a, m, t, b, h1, h2, h3, rfl⟩, h4⟩
  · rintro ⟨due, ⟨a, m, t, b, h1, h2, h3, rfl⟩, h4⟩; exact ⟨a, m, t, b, h1, h2, h3, h4⟩

theorem tokenStored_snoc (log : List TokenEvent) (e : TokenEvent) (κ : String) (due : Nat) :
    TokenStored (log ++ [e]) κ due ↔
      (∃ m t, e = .added m t ∧ tokenKey m.key m.token = κ ∧ due = t + 1000 * m.duration) ∨ (¬ Concerns κ e ∧ TokenStored log κ due) := by
  constructor
  · rintro ⟨a, m, t, b, h1, h2, h3, h4⟩
    rcases List.eq_nil_or_concat b with rfl | ⟨b', x, rfl⟩
    · have h1 : log ++ [e] = a ++ [.added m t] := h1
      obtain ⟨-, h⟩ := List.append_inj' h1 rfl
      simp at h
      exact .inl ⟨m, t, h, h2, h4⟩
    · have h1 : log ++ [e] = (a ++ .added m t :: b') ++ [x] := by rw [h1]; simp
      obtain ⟨hl, h⟩ := List.append_inj' h1 rfl
      simp at h
      subst h
      exact .inr ⟨h3 e (by simp), a, m, t, b', hl, h2, fun y hy => h3 y (by simp [hy]), h4⟩
  · rintro (⟨m, t, rfl, h2, h3⟩ | ⟨hn, a, m, t, b, rfl, h2, h3, h4⟩)
    · exact ⟨log, m, t, [], rfl, h2, by simp, h3⟩
    · refine ⟨a, m, t, b ++ [e], by simp, h2, ?_, h4⟩
      intro y hy
      rcases List.mem_append.1 hy with hy | hy
      · exact h3 y hy
      · simp at hy; subst hy; exact hn

/-- The server holds what the history says; the answers were right; acceptances do not outnumber additions. -/
structure TokenInv (db : RedisDb) (log : List TokenEvent) : Prop where
  held : ∀ κ due, (∃ v, db.keys.get κ = some (v, due)) ↔ TokenStored log κ due
  right : ∀ pre v r t post, log = pre ++ .answered v r t :: post →
    (TokenThere pre (tokenKey v.key v.token) t ∧ r = .ok true) ∨ (¬ TokenThere pre (tokenKey v.key v.token) t ∧ r = .ok false)
  few : ∀ κ, acceptances κ log + (if (db.keys.get κ).isSome then 1 else 0) ≤ additions κ log

theorem has_iff {db : RedisDb} {log : List TokenEvent} (h : TokenInv db log) (κ : String) : db.has κ = true ↔ TokenThere log κ db.now := by
  rw [there_iff]
  unfold RedisDb.has
  cases hg : db.keys.get κ with
  | none =>
    simp
    intro due hs
    obtain ⟨v, hv⟩ := (h.held κ due).2 hs
    rw [hg] at hv
    cases hv
  | some p =>
    obtain ⟨v, due⟩ := p
    simp only [decide_eq_true_eq]
    constructor
    · intro hd; exact ⟨due, (h.held κ due).1 ⟨v, hg⟩, hd⟩
    · rintro ⟨due', hs, hd⟩
      obtain ⟨v', hv⟩ := (h.held κ due').2 hs
      rw [hg] at hv
      simp at hv
      omega

theorem right_snoc {log : List TokenEvent} {e : TokenEvent}
    (h : ∀ pre v r t post, log = pre ++ .answered v r t :: post →
      (TokenThere pre (tokenKey v.key v.token) t ∧ r = .ok true) ∨ (¬ TokenThere pre (tokenKey v.key v.token) t ∧ r = .ok false))
    (he : ∀ v r t, e = .answered v r t →
      (TokenThere log (tokenKey v.key v.token) t ∧ r = .ok true) ∨ (¬ TokenThere log (tokenKey v.key v.token) t ∧ r = .ok false)) :
    ∀ pre v r t post, log ++ [e] = pre ++ .answered v r t :: post →
      (TokenThere pre (tokenKey v.key v.token) t ∧ r = .ok true) ∨ (¬ TokenThere pre (tokenKey v.key v.token) t ∧ r = .ok false) := by
  intro pre v r t post hs
  rcases List.eq_nil_or_concat post with rfl | ⟨b', x, rfl⟩
  · obtain ⟨hl, hx⟩ := List.append_inj' hs rfl
    simp at hx
    subst hl
    exact he v r t hx
  · have hs : log ++ [e] = (pre ++ .answered v r t :: b') ++ [x] := by rw [hs]; simp
    obtain ⟨hl, -⟩ := List.append_inj' hs rfl
    exact h pre v r t b' hl

theorem acceptances_snoc (κ : String) (log : List TokenEvent) (e : TokenEvent) :
    acceptances κ (log ++ [e]) = acceptances κ log + acceptances κ [e] := by
  simp [acceptances]

theorem additions_snoc (κ : String) (log : List TokenEvent) (e : TokenEvent) :
    additions κ (log ++ [e]) = additions κ log + additions κ [e] := by
  simp [additions]

theorem tokenInv_step {db : RedisDb} {log : List TokenEvent} (h : TokenInv db log) (s : TokenStep) :
    TokenInv (tokenStep db s).1 (log ++ (tokenStep db s).2) := by
  cases s with
  | tick ms => simpa [tokenStep] using (⟨h.held, h.right, h.few⟩ : TokenInv { db with now := db.now + ms } log)
  | delete v =>
    simp only [tokenStep, exec_getToken, exec_deleteToken, RedisDb.del]
    refine ⟨?_, right_snoc h.right (by intro _ _ _ e; cases e), ?_⟩
    · intro κ due
      rw [tokenStored_snoc, ← h.held, AMap.get_erase]
      by_cases hk : tokenKey v.key v.token = κ
      · simp [hk, Concerns]
      · simp [hk, Concerns]
    · intro κ
      have := h.few κ
      rw [acceptances_snoc, additions_snoc, AMap.get_erase]
      simp only [acceptances, additions, List.filter_cons, List.filter_nil] at *
      by_cases hk : tokenKey v.key v.token = κ
      · simp [hk] at *; omega
      · simp [hk] at *; omega
  | get v =>
    have hhas := has_iff h (tokenKey v.key v.token)
    have e : (tokenStep db (.get v)).2 = [.answered v (.ok (db.has (tokenKey v.key v.token))) db.now] := by
      simp only [tokenStep, exec_getToken, RedisDb.del, RedisClient.getToken]
      cases db.has (tokenKey v.key v.token) <;> rfl
    rw [e]
    simp only [tokenStep, exec_getToken, exec_deleteToken, RedisDb.del]
    refine ⟨?_, right_snoc h.right ?_, ?_⟩
    · intro κ due
      rw [tokenStored_snoc, ← h.held, AMap.get_erase]
      by_cases hk : tokenKey v.key v.token = κ
      · simp [hk, Concerns]
      · simp [hk, Concerns]
    · intro v' r t e
      simp only [TokenEvent.answered.injEq] at e
      obtain ⟨rfl, rfl, rfl⟩ := e
      cases hb : db.has (tokenKey v.key v.token) with
      | true => exact .inl ⟨hhas.1 hb, rfl⟩
      | false => exact .inr ⟨fun ht => (by rw [hhas.2 ht] at hb; cases hb), rfl⟩
    · intro κ
      have := h.few κ
      rw [acceptances_snoc, additions_snoc, AMap.get_erase]
      by_cases hk : tokenKey v.key v.token = κ
      · subst hk
        cases hb : db.has (tokenKey v.key v.token) with
        | true =>
          have hs : (db.keys.get (tokenKey v.key v.token)).isSome = true := by
            unfold RedisDb.has at hb
            split at hb
            · rename_i hg; rw [hg]; rfl
            · simp at hb
          rw [if_pos hs] at this
          simp only [acceptances, additions, List.filter_cons, List.filter_nil] at *
          simp at *
          omega
        | false =>
          simp only [acceptances, additions, List.filter_cons, List.filter_nil] at *
          simp at *
          omega
      · have h0 : acceptances κ [TokenEvent.answered v (.ok (db.has (tokenKey v.key v.token))) db.now] = 0 := by
          unfold acceptances
          cases db.has (tokenKey v.key v.token) <;> simp [hk]
        rw [h0, if_neg hk]
        simp only [additions, List.filter_cons, List.filter_nil] at *
        simp at *
        omega
  | add m =>
    by_cases hd : 0 < m.duration ∧ db.now + 1000 * m.duration ≤ RedisDb.maxTime
    · have e : tokenStep db (.add m) =
          ({ db with keys := db.keys.insert (tokenKey m.key m.token) (m.key, db.now + 1000 * m.duration) }, [.added m db.now]) := by
        simp [tokenStep, exec_addToken, RedisDb.setEx, hd, RedisClient.addToken]
      rw [e]
      refine ⟨?_, right_snoc h.right (by intro _ _ _ e; cases e), ?_⟩
      · intro κ due
        rw [tokenStored_snoc, ← h.held, AMap.get_insert]
        by_cases hk : tokenKey m.key m.token = κ
        · simp only [hk, if_true, Option.some.injEq, Prod.mk.injEq]
          constructor
          · rintro ⟨_, _, rfl⟩; exact .inl ⟨m, db.now, rfl, hk, rfl⟩
          · rintro (⟨m', t', e, _, rfl⟩ | ⟨hn, _⟩)
            · cases e; exact ⟨m.key, rfl, rfl⟩
            · exact absurd hk hn
        · simp [hk, Concerns]
      · intro κ
        have := h.few κ
        rw [acceptances_snoc, additions_snoc, AMap.get_insert]
        by_cases hk : tokenKey m.key m.token = κ
        · subst hk
          simp only [acceptances, additions, List.filter_cons, List.filter_nil] at *
          simp at *
          split at this <;> omega
        · simp only [acceptances, additions, List.filter_cons, List.filter_nil] at *
          simp [hk] at *
          omega
    · have e : tokenStep db (.add m) = (db, [.failed m]) := by
        simp [tokenStep, exec_addToken, RedisDb.setEx, hd, RedisClient.addToken]
      rw [e]
      refine ⟨?_, right_snoc h.right (by intro _ _ _ e; cases e), ?_⟩
      · intro κ due
        rw [tokenStored_snoc, ← h.held]
        simp [Concerns]
      · intro κ
        have := h.few κ
        rw [acceptances_snoc, additions_snoc]
        simp only [acceptances, additions, List.filter_cons, List.filter_nil] at *
        simpa using this

theorem tokenInv_run (steps : List TokenStep) (db : RedisDb) (log : List TokenEvent) (h : TokenInv db log) :
    TokenInv (tokenRun db steps).1 (log ++ (tokenRun db steps).2) := by
  induction steps generalizing db log with
  | nil => simpa [tokenRun] using h
  | cons s r ih =>
    have := ih _ _ (tokenInv_step h s)
    rw [List.append_assoc] at this
    exact this

theorem tokenInv_init (now : Nat) (steps : List TokenStep) :
    TokenInv (tokenRun (RedisDb.init now) steps).1 (tokenRun (RedisDb.init now) steps).2 := by
  have := tokenInv_run steps (RedisDb.init now) [] ⟨by simp [RedisDb.init, TokenStored], by simp, by simp [RedisDb.init, acceptances]⟩
  simpa using this

/-! ### Two back ends -/

/-- Each token goes with one site key, site keys have no colon, durations are acceptable to the server. -/
def TokenMsgFits (keyOf : String → String) (now : Nat) : TokenMsg → Prop
  | .store m => m.key = keyOf m.token ∧ ':' ∉ m.key.toList ∧ 0 < m.duration ∧ now + 1000 * m.duration ≤ RedisDb.maxTime
  | .check v => v.key = keyOf v.token ∧ ':' ∉ v.key.toList

/-- Both hold the same tokens. -/
structure SameTokens (keyOf : String → String) (w : CacheWorld) (db : RedisDb) : Prop where
  key : ∀ t k, w.cache.resultMap.get t = some k → k = keyOf t
  same : ∀ t, ':' ∉ (keyOf t).toList → (w.cache.resultMap.get t).isSome = db.has (tokenKey (keyOf t) t)

theorem has_insert (db : RedisDb) (κ κ' v : String) (due : Nat) (hd : db.now ≤ due) :
    ({ db with keys := db.keys.insert κ (v, due) } : RedisDb).has κ' = if κ = κ' then true else db.has κ' := by
  unfold RedisDb.has
  rw [AMap.get_insert]
  by_cases h : κ = κ'
  · simp [h, hd]
  · simp [h]

theorem has_erase (db : RedisDb) (κ κ' : String) :
    ({ db with keys := db.keys.erase κ } : RedisDb).has κ' = if κ = κ' then false else db.has κ' := by
  unfold RedisDb.has
  rw [AMap.get_erase]
  by_cases h : κ = κ'
  · simp [h]
  · simp [h]

theorem sameTokens_run (keyOf : String → String) (msgs : List TokenMsg) (w : CacheWorld) (db : RedisDb) (h : SameTokens keyOf w db)
    (hm : ∀ m ∈ msgs, TokenMsgFits keyOf db.now m) :
    ((cacheRun w (msgs.map fun | .store m => .req (.cacheResult m) | .check v => .req (.verify v))).2.filterMap
      fun e => match e with | (_, .verdict b) => some (Except.ok (ε := CaptchaError) b) | _ => none) =
    (tokenRun db (msgs.map fun | .store m => .add m | .check v => .get v)).2.filterMap
      fun e => match e with | .answered _ r _ => some r | _ => none := by
  induction msgs generalizing w db with
  | nil => rfl
  | cons m r ih =>
    have hm0 := hm m List.mem_cons_self
    have hmr : ∀ x ∈ r, TokenMsgFits keyOf db.now x := fun x hx => hm x (List.mem_cons_of_mem _ hx)
    cases m with
    | store m =>
      obtain ⟨hk, hc, hd, hf⟩ := hm0
      have e : tokenStep db (.add m) =
          ({ db with keys := db.keys.insert (tokenKey m.key m.token) (m.key, db.now + 1000 * m.duration) }, [.added m db.now]) := by
        simp [tokenStep, exec_addToken, RedisDb.setEx, hd, hf, RedisClient.addToken]
      have e' : cacheStep w (.req (.cacheResult m)) = ((w.handle (.cacheResult m)).1, [(.cacheResult m, .done)]) := rfl
      simp only [List.map_cons, cacheRun, tokenRun, e, e', List.filterMap_append, List.filterMap_cons, List.filterMap_nil, List.nil_append]
      refine ih _ _ ⟨?_, ?_⟩ hmr
      · intro t k
        simp only [CacheWorld.handle, HashCache.saveCaptchaResult, AMap.get_insert]
        split
        · rename_i ht; rintro ⟨⟩; rw [hk, ht]
        · exact h.key t k
      · intro t ht
        simp only [CacheWorld.handle, HashCache.saveCaptchaResult]
        rw [has_insert _ _ _ _ _ (by omega), AMap.get_insert]
        by_cases he : m.token = t
        · subst he; simp [hk]
        · rw [if_neg he, if_neg, h.same t ht]
          intro hq
          exact he (tokenKey_inj hq hc ht).2
    | check v =>
      obtain ⟨hk, hc⟩ := hm0
      have hsame := h.same v.token (by rw [← hk]; exact hc)
      have e : tokenStep db (.get v) =
          ({ db with keys := db.keys.erase (tokenKey v.key v.token) }, [.answered v (.ok (db.has (tokenKey v.key v.token))) db.now]) := by
        simp only [tokenStep, exec_getToken, RedisDb.del, RedisClient.getToken]
        cases db.has (tokenKey v.key v.token) <;> rfl
      have e' : cacheStep w (.req (.verify v)) =
          ({ w with cache := { w.cache with resultMap := w.cache.resultMap.erase v.token } },
            [(.verify v, .verdict (db.has (tokenKey v.key v.token)))]) := by
        simp only [cacheStep, CacheWorld.handle, HashCache.verifyCaptchaResult, HashCache.removeCacheResult]
        cases hg : w.cache.resultMap.get v.token with
        | none => rw [hg] at hsame; simp [hk, ← hsame]
        | some k => rw [hg] at hsame; simp [hk, h.key _ _ hg, ← hsame]
      simp only [List.map_cons, cacheRun, tokenRun, e, e', List.filterMap_append, List.filterMap_cons, List.filterMap_nil,
        List.cons_append, List.nil_append]
      congr 1
      refine ih _ _ ⟨?_, ?_⟩ hmr
      · intro t k
        simp only [AMap.get_erase]
        split
        · intro hx; cases hx
        · exact h.key t k
      · intro t ht
        rw [has_erase, AMap.get_erase]
        by_cases he : v.token = t
        · subst he; simp [hk]
        · rw [if_neg he, if_neg, h.same t ht]
          intro hq
          exact he (tokenKey_inj hq hc ht).2

end MCap
