import Verif.Spec.Cache
import Verif.Proofs.AMap
import Verif.Proofs.ListAux

namespace MCap
open Spec

theorem retrive_eq (h : HashCache) (v : VerifyCaptchaResult) :
    h.retrivePowConfig v = ({ h with difficultyMap := h.difficultyMap.erase v.token }, h.difficultyMap.get v.token) := by
  unfold HashCache.retrivePowConfig HashCache.removePowConfig
  cases h.difficultyMap.get v.token <;> rfl

theorem verify_eq (h : HashCache) (v : VerifyCaptchaResult) :
    h.verifyCaptchaResult v =
      ({ h with resultMap := h.resultMap.erase v.token }, decide (h.resultMap.get v.token = some v.key)) := by
  unfold HashCache.verifyCaptchaResult HashCache.removeCacheResult
  cases h.resultMap.get v.token with
  | none => rfl
  | some k => by_cases hk : k = v.key <;> simp [hk]

theorem verify_reply (w : CacheWorld) (v : VerifyCaptchaResult) (o : Option String)
    (h : w.cache.resultMap.get v.token = o) : (w.handle (.verify v)).2 = .verdict (decide (o = some v.key)) := by
  subst h; simp only [CacheWorld.handle, verify_eq]

theorem retrive_reply (w : CacheWorld) (v : VerifyCaptchaResult) (o : Option CachedPoWConfig)
    (h : w.cache.difficultyMap.get v.token = o) : (w.handle (.retrivePow v)).2 = .config o := by
  subst h; simp only [CacheWorld.handle, retrive_eq]

theorem cacheRun_append (w : CacheWorld) (a b : List CacheStep) :
    cacheRun w (a ++ b) = ((cacheRun (cacheRun w a).1 b).1, (cacheRun w a).2 ++ (cacheRun (cacheRun w a).1 b).2) := by
  induction a generalizing w with
  | nil => simp [cacheRun]
  | cons s r ih => simp [cacheRun, ih, List.append_assoc]

/-! ### The stores are functions of the history -/

/-- The cache contains what the history says. -/
def Agrees (w : CacheWorld) (h : List CacheMsg) : Prop :=
  (∀ s, w.cache.difficultyMap.get s = storedChallenge h s) ∧ (∀ t, w.cache.resultMap.get t = storedToken h t)

theorem lastAbout_snoc_self (h : List CacheMsg) (m : CacheMsg) (s : String) (e : challengeOf m = some s) :
    lastAboutChallenge (h ++ [m]) s = some m := by
  simp [lastAboutChallenge, e]

theorem lastAbout_snoc_ne (h : List CacheMsg) (m : CacheMsg) (s : String) (e : challengeOf m ≠ some s) :
    lastAboutChallenge (h ++ [m]) s = lastAboutChallenge h s := by
  simp [lastAboutChallenge, e]

theorem lastToken_snoc_self (h : List CacheMsg) (m : CacheMsg) (s : String) (e : tokenOf m = some s) :
    lastAboutToken (h ++ [m]) s = some m := by
  simp [lastAboutToken, e]

theorem lastToken_snoc_ne (h : List CacheMsg) (m : CacheMsg) (s : String) (e : tokenOf m ≠ some s) :
    lastAboutToken (h ++ [m]) s = lastAboutToken h s := by
  simp [lastAboutToken, e]

theorem agrees_handle (w : CacheWorld) (h : List CacheMsg) (m : CacheMsg) (ha : Agrees w h) :
    Agrees (w.handle m).1 (h ++ [m]) := by
  obtain ⟨h1, h2⟩ := ha
  have nc : ∀ s, challengeOf m ≠ some s → storedChallenge (h ++ [m]) s = storedChallenge h s := by
    intro s e; simp only [storedChallenge, lastAbout_snoc_ne h m s e]
  have nt : ∀ t, tokenOf m ≠ some t → storedToken (h ++ [m]) t = storedToken h t := by
    intro s e; simp only [storedToken, lastToken_snoc_ne h m s e]
  cases m with
  | cachePow c =>
    refine ⟨fun s => ?_, fun t => ?_⟩
    · simp only [CacheWorld.handle, HashCache.savePowConfig, AMap.get_insert]
      by_cases e : c.string = s
      · rw [if_pos e]; simp only [storedChallenge, lastAbout_snoc_self h (.cachePow c) s (congrArg some e)]
      · rw [if_neg e, nc s (by simpa [challengeOf] using e)]; exact h1 s
    · rw [nt t (by simp [tokenOf])]; exact h2 t
  | deletePow s' =>
    refine ⟨fun s => ?_, fun t => ?_⟩
    · simp only [CacheWorld.handle, HashCache.removePowConfig, AMap.get_erase]
      by_cases e : s' = s
      · rw [if_pos e]; simp only [storedChallenge, lastAbout_snoc_self h (.deletePow s') s (congrArg some e)]
      · rw [if_neg e, nc s (by simpa [challengeOf] using e)]; exact h1 s
    · rw [nt t (by simp [tokenOf])]; exact h2 t
  | retrivePow v =>
    refine ⟨fun s => ?_, fun t => ?_⟩
    · simp only [CacheWorld.handle, retrive_eq, AMap.get_erase]
      by_cases e : v.token = s
      · rw [if_pos e]; simp only [storedChallenge, lastAbout_snoc_self h (.retrivePow v) s (congrArg some e)]
      · rw [if_neg e, nc s (by simpa [challengeOf] using e)]; exact h1 s
    · rw [nt t (by simp [tokenOf])]
      simp only [CacheWorld.handle, retrive_eq]; exact h2 t
  | cacheResult r =>
    refine ⟨fun s => ?_, fun t => ?_⟩
    · rw [nc s (by simp [challengeOf])]; exact h1 s
    · simp only [CacheWorld.handle, HashCache.saveCaptchaResult, AMap.get_insert]
      by_cases e : r.token = t
      · rw [if_pos e]; simp only [storedToken, lastToken_snoc_self h (.cacheResult r) t (congrArg some e)]
      · rw [if_neg e, nt t (by simpa [tokenOf] using e)]; exact h2 t
  | deleteResult t' =>
    refine ⟨fun s => ?_, fun t => ?_⟩
    · rw [nc s (by simp [challengeOf])]; exact h1 s
    · simp only [CacheWorld.handle, HashCache.removeCacheResult, AMap.get_erase]
      by_cases e : t' = t
      · rw [if_pos e]; simp only [storedToken, lastToken_snoc_self h (.deleteResult t') t (congrArg some e)]
      · rw [if_neg e, nt t (by simpa [tokenOf] using e)]; exact h2 t
  | verify v =>
    refine ⟨fun s => ?_, fun t => ?_⟩
    · rw [nc s (by simp [challengeOf])]
      simp only [CacheWorld.handle, verify_eq]; exact h1 s
    · simp only [CacheWorld.handle, verify_eq, AMap.get_erase]
      by_cases e : v.token = t
      · rw [if_pos e]; simp only [storedToken, lastToken_snoc_self h (.verify v) t (congrArg some e)]
      · rw [if_neg e, nt t (by simpa [tokenOf] using e)]; exact h2 t

theorem agrees_step (w : CacheWorld) (h : List CacheMsg) (s : CacheStep) (ha : Agrees w h) :
    Agrees (cacheStep w s).1 (h ++ msgs (cacheStep w s).2) := by
  cases s with
  | req m => exact agrees_handle w h m ha
  | tick d => simp only [cacheStep, msgs, List.map_nil, List.append_nil]; exact ha
  | fire i =>
    simp only [cacheStep]
    split
    · split
      · exact agrees_handle _ h _ ha
      · simpa [msgs] using ha
    · simpa [msgs] using ha

theorem agrees_run (w : CacheWorld) (h : List CacheMsg) (steps : List CacheStep) (ha : Agrees w h) :
    Agrees (cacheRun w steps).1 (h ++ msgs (cacheRun w steps).2) := by
  induction steps generalizing w h with
  | nil => simpa [cacheRun, msgs] using ha
  | cons s r ih =>
    have := ih _ _ (agrees_step w h s ha)
    simpa [cacheRun, msgs, List.append_assoc] using this

theorem agrees_init (now : Nat) : Agrees (CacheWorld.init now) [] := by
  constructor <;> intro s <;> rfl

/-! ### Counting -/

/-- 1 if challenge `s` is in the cache. -/
def heldC (w : CacheWorld) (s : String) : Nat := (w.cache.difficultyMap.get s).elim 0 fun _ => 1
/-- 1 if token `t` is in the cache. -/
def heldT (w : CacheWorld) (t : String) : Nat := (w.cache.resultMap.get t).elim 0 fun _ => 1

theorem elim_le (o : Option α) : (o.elim 0 fun _ => 1) ≤ 1 := by cases o <;> simp

theorem count_handle (w : CacheWorld) (m : CacheMsg) (s : String) :
    handedOut s [(m, (w.handle m).2)] + heldC (w.handle m).1 s ≤ issued s [(m, (w.handle m).2)] + heldC w s := by
  cases m with
  | cachePow c =>
    simp only [CacheWorld.handle, HashCache.savePowConfig, AMap.get_insert, handedOut, issued, heldC]
    by_cases e : c.string = s
    · simp [e]
    · simp [e]
  | deletePow s' =>
    simp only [CacheWorld.handle, HashCache.removePowConfig, AMap.get_erase, handedOut, issued, heldC]
    by_cases e : s' = s
    · simp [e]
    · simp [e]
  | retrivePow v =>
    simp only [CacheWorld.handle, retrive_eq, AMap.get_erase, handedOut, issued, heldC]
    by_cases e : v.token = s
    · subst e
      cases w.cache.difficultyMap.get v.token <;> simp
    · rw [if_neg e]
      cases w.cache.difficultyMap.get v.token <;> simp [e]
  | cacheResult r => simp [CacheWorld.handle, HashCache.saveCaptchaResult, handedOut, issued, heldC]
  | deleteResult t' => simp [CacheWorld.handle, HashCache.removeCacheResult, handedOut, issued, heldC]
  | verify v => simp [CacheWorld.handle, verify_eq, handedOut, issued, heldC]

theorem tcount_handle (w : CacheWorld) (m : CacheMsg) (s : String) :
    accepted s [(m, (w.handle m).2)] + heldT (w.handle m).1 s ≤ tokensIssued s [(m, (w.handle m).2)] + heldT w s := by
  cases m with
  | cachePow c => simp [CacheWorld.handle, HashCache.savePowConfig, accepted, tokensIssued, heldT]
  | deletePow s' => simp [CacheWorld.handle, HashCache.removePowConfig, accepted, tokensIssued, heldT]
  | retrivePow v => simp [CacheWorld.handle, retrive_eq, accepted, tokensIssued, heldT]
  | cacheResult r =>
    simp only [CacheWorld.handle, HashCache.saveCaptchaResult, AMap.get_insert, accepted, tokensIssued, heldT]
    by_cases e : r.token = s
    · simp [e]
    · simp [e]
  | deleteResult t' =>
    simp only [CacheWorld.handle, HashCache.removeCacheResult, AMap.get_erase, accepted, tokensIssued, heldT]
    by_cases e : t' = s
    · simp [e]
    · simp [e]
  | verify v =>
    simp only [CacheWorld.handle, verify_eq, AMap.get_erase, accepted, tokensIssued, heldT]
    by_cases e : v.token = s
    · subst e
      cases hg : w.cache.resultMap.get v.token with
      | none => simp
      | some k => by_cases hk : k = v.key <;> simp [hk]
    · rw [if_neg e]
      cases hb : decide (w.cache.resultMap.get v.token = some v.key) <;> simp [e]

theorem handedOut_append (s : String) (a b : List (CacheMsg × CacheReply)) :
    handedOut s (a ++ b) = handedOut s a + handedOut s b := by simp [handedOut]
theorem issued_append (s : String) (a b : List (CacheMsg × CacheReply)) :
    issued s (a ++ b) = issued s a + issued s b := by simp [issued]
theorem accepted_append (s : String) (a b : List (CacheMsg × CacheReply)) :
    accepted s (a ++ b) = accepted s a + accepted s b := by simp [accepted]
theorem tokensIssued_append (s : String) (a b : List (CacheMsg × CacheReply)) :
    tokensIssued s (a ++ b) = tokensIssued s a + tokensIssued s b := by simp [tokensIssued]

/-- One step is either silent, leaving the cache alone, or handles one message on a world with the same cache. -/
theorem step_cases (w : CacheWorld) (st : CacheStep) :
    ((cacheStep w st).1.cache = w.cache ∧ (cacheStep w st).2 = []) ∨
    ∃ (w0 : CacheWorld) (m : CacheMsg), w0.cache = w.cache ∧ (cacheStep w st).1 = (w0.handle m).1 ∧
      (cacheStep w st).2 = [(m, (w0.handle m).2)] := by
  cases st with
  | req m => exact .inr ⟨w, m, rfl, rfl, rfl⟩
  | tick d => exact .inl ⟨rfl, rfl⟩
  | fire i =>
    simp only [cacheStep]
    split
    · rename_i t ht
      split
      · exact .inr ⟨{ w with timers := w.timers.eraseIdx i }, t.msg, rfl, rfl, rfl⟩
      · exact .inl ⟨rfl, rfl⟩
    · exact .inl ⟨rfl, rfl⟩

theorem count_step (w : CacheWorld) (st : CacheStep) (s : String) :
    handedOut s (cacheStep w st).2 + heldC (cacheStep w st).1 s ≤ issued s (cacheStep w st).2 + heldC w s ∧
    accepted s (cacheStep w st).2 + heldT (cacheStep w st).1 s ≤ tokensIssued s (cacheStep w st).2 + heldT w s := by
  rcases step_cases w st with ⟨hc, ht⟩ | ⟨w0, m, hc, h1, h2⟩
  · rw [ht]; simp [handedOut, issued, accepted, tokensIssued, heldC, heldT, hc]
  · rw [h1, h2]
    have e1 : heldC w s = heldC w0 s := by simp [heldC, hc]
    have e2 : heldT w s = heldT w0 s := by simp [heldT, hc]
    rw [e1, e2]
    exact ⟨count_handle w0 m s, tcount_handle w0 m s⟩

theorem count_run (w : CacheWorld) (steps : List CacheStep) (s : String) :
    handedOut s (cacheRun w steps).2 + heldC (cacheRun w steps).1 s ≤ issued s (cacheRun w steps).2 + heldC w s ∧
    accepted s (cacheRun w steps).2 + heldT (cacheRun w steps).1 s ≤ tokensIssued s (cacheRun w steps).2 + heldT w s := by
  induction steps generalizing w with
  | nil => simp [cacheRun, handedOut, issued, accepted, tokensIssued]
  | cons st r ih =>
    obtain ⟨i1, i2⟩ := ih (cacheStep w st).1
    obtain ⟨j1, j2⟩ := count_step w st s
    simp only [cacheRun, handedOut_append, issued_append, accepted_append, tokensIssued_append]
    omega

/-! ### Messages about other strings -/

theorem handle_other (w : CacheWorld) (m : CacheMsg) (s : String) (h : challengeOf m ≠ some s) :
    (w.handle m).1.cache.difficultyMap.get s = w.cache.difficultyMap.get s := by
  cases m with
  | cachePow c => exact AMap.get_insert_ne _ _ _ _ (fun e => h (congrArg some e))
  | deletePow s' => exact AMap.get_erase_ne _ _ _ (fun e => h (congrArg some e))
  | retrivePow v =>
    simp only [CacheWorld.handle, retrive_eq]
    exact AMap.get_erase_ne _ _ _ (fun e => h (congrArg some e))
  | cacheResult r => rfl
  | deleteResult t' => rfl
  | verify v => simp only [CacheWorld.handle, verify_eq]

theorem handle_other_token (w : CacheWorld) (m : CacheMsg) (s : String) (h : tokenOf m ≠ some s) :
    (w.handle m).1.cache.resultMap.get s = w.cache.resultMap.get s := by
  cases m with
  | cachePow c => rfl
  | deletePow s' => rfl
  | retrivePow v => simp only [CacheWorld.handle, retrive_eq]
  | cacheResult r => exact AMap.get_insert_ne _ _ _ _ (fun e => h (congrArg some e))
  | deleteResult t' => exact AMap.get_erase_ne _ _ _ (fun e => h (congrArg some e))
  | verify v =>
    simp only [CacheWorld.handle, verify_eq]
    exact AMap.get_erase_ne _ _ _ (fun e => h (congrArg some e))

theorem handle_now (w : CacheWorld) (m : CacheMsg) : (w.handle m).1.now = w.now := by
  cases m <;> rfl

/-! ### Timers -/

/-- Pending timers whose message satisfies `p`. -/
def pend (p : CacheMsg → Bool) (w : CacheWorld) : List CacheTimer := w.timers.filter fun t => p t.msg

theorem filter_eraseIdx_neg {α : Type} (p : α → Bool) (l : List α) (i : Nat) (x : α) (h : l[i]? = some x) (hp : p x = false) :
    (l.eraseIdx i).filter p = l.filter p := by
  induction l generalizing i with
  | nil => simp at h
  | cons a r ih =>
    cases i with
    | zero =>
      simp only [List.getElem?_cons_zero, Option.some.injEq] at h
      subst h
      simp [hp]
    | succ j =>
      simp only [List.getElem?_cons_succ] at h
      simp only [List.eraseIdx_cons_succ, List.filter_cons, ih j h]

theorem filter_eraseIdx_pos {α : Type} (p : α → Bool) (l : List α) (i : Nat) (x y : α) (h : l[i]? = some x) (hp : p x = true)
    (hf : l.filter p = [y]) : x = y ∧ (l.eraseIdx i).filter p = [] := by
  induction l generalizing i with
  | nil => simp at h
  | cons a r ih =>
    cases i with
    | zero =>
      simp only [List.getElem?_cons_zero, Option.some.injEq] at h
      subst h
      simp only [List.filter_cons, hp, if_true, List.cons.injEq] at hf
      exact ⟨hf.1, hf.2⟩
    | succ j =>
      simp only [List.getElem?_cons_succ] at h
      simp only [List.filter_cons] at hf
      have hx : x ∈ r := List.mem_of_getElem? h
      split at hf
      · simp only [List.cons.injEq] at hf
        have : x ∈ r.filter p := List.mem_filter.2 ⟨hx, hp⟩
        rw [hf.2] at this
        simp at this
      · rename_i ha
        obtain ⟨e1, e2⟩ := ih j h hf
        exact ⟨e1, by simp [List.eraseIdx_cons_succ, ha, e2]⟩

/-- Timers added by handling a message about something else. -/
theorem pend_handle_challenge (w : CacheWorld) (m : CacheMsg) (s : String) (h : challengeOf m ≠ some s) :
    pend (fun m => challengeOf m == some s) (w.handle m).1 = pend (fun m => challengeOf m == some s) w := by
  cases m with
  | cachePow c =>
    have : ¬ c.string = s := fun e => h (congrArg some e)
    simp [CacheWorld.handle, pend, challengeOf, this]
  | cacheResult r => simp [CacheWorld.handle, pend, challengeOf]
  | _ => rfl

theorem pend_handle_token (w : CacheWorld) (m : CacheMsg) (s : String) (h : tokenOf m ≠ some s) :
    pend (fun m => tokenOf m == some s) (w.handle m).1 = pend (fun m => tokenOf m == some s) w := by
  cases m with
  | cachePow c => simp [CacheWorld.handle, pend, tokenOf]
  | cacheResult r =>
    have : ¬ r.token = s := fun e => h (congrArg some e)
    simp [CacheWorld.handle, pend, tokenOf, this]
  | _ => rfl

/-- Life of a challenge: stored with its one timer pending, or gone after the timer was due. -/
def LifeC (w : CacheWorld) (s : String) (cfg : CachedPoWConfig) (due : Nat) : Prop :=
  (w.cache.difficultyMap.get s = some cfg ∧ pend (fun m => challengeOf m == some s) w = [⟨due, .deletePow s⟩]) ∨
  (w.cache.difficultyMap.get s = none ∧ pend (fun m => challengeOf m == some s) w = [] ∧ due ≤ w.now)

theorem lifeC_step (w : CacheWorld) (s : String) (cfg : CachedPoWConfig) (due : Nat) (st : CacheStep)
    (hl : leavesChallenge s st = true) (h : LifeC w s cfg due) : LifeC (cacheStep w st).1 s cfg due := by
  cases st with
  | req m =>
    have hm : challengeOf m ≠ some s := by simpa [leavesChallenge] using hl
    simp only [cacheStep, LifeC, handle_other w m s hm, pend_handle_challenge w m s hm, handle_now]
    exact h
  | tick d =>
    rcases h with h | ⟨h1, h2, h3⟩
    · exact .inl h
    · exact .inr ⟨h1, h2, Nat.le_trans h3 (Nat.le_add_right _ _)⟩
  | fire i =>
    simp only [cacheStep]
    split
    · rename_i t ht
      split
      · rename_i hdue
        by_cases hm : challengeOf t.msg = some s
        · rcases h with ⟨h1, h2⟩ | ⟨h1, h2, h3⟩
          · obtain ⟨e, he⟩ := filter_eraseIdx_pos (fun t : CacheTimer => challengeOf t.msg == some s) w.timers i t _ ht
              (by simp [hm]) h2
            subst e
            refine .inr ⟨?_, ?_, ?_⟩
            · exact AMap.get_erase_self _ _
            · exact he
            · exact hdue
          · have : t ∈ pend (fun m => challengeOf m == some s) w :=
              List.mem_filter.2 ⟨List.mem_of_getElem? ht, by simp [hm]⟩
            rw [h2] at this; simp at this
        · have hp : pend (fun m => challengeOf m == some s) ({ w with timers := w.timers.eraseIdx i } : CacheWorld) =
              pend (fun m => challengeOf m == some s) w :=
            filter_eraseIdx_neg (fun t : CacheTimer => challengeOf t.msg == some s) w.timers i t ht (by simp [hm])
          simp only [LifeC, handle_other _ t.msg s hm, pend_handle_challenge _ t.msg s hm, handle_now, hp]
          exact h
      · exact h
    · exact h

theorem lifeC_run (w : CacheWorld) (s : String) (cfg : CachedPoWConfig) (due : Nat) (steps : List CacheStep)
    (hl : steps.all (leavesChallenge s) = true) (h : LifeC w s cfg due) : LifeC (cacheRun w steps).1 s cfg due := by
  induction steps generalizing w with
  | nil => exact h
  | cons st r ih =>
    simp only [List.all_cons, Bool.and_eq_true] at hl
    exact ih _ hl.2 (lifeC_step w s cfg due st hl.1 h)

/-- Life of a token. -/
def LifeT (w : CacheWorld) (s : String) (key : String) (due : Nat) : Prop :=
  (w.cache.resultMap.get s = some key ∧ pend (fun m => tokenOf m == some s) w = [⟨due, .deleteResult s⟩]) ∨
  (w.cache.resultMap.get s = none ∧ pend (fun m => tokenOf m == some s) w = [] ∧ due ≤ w.now)

theorem lifeT_step (w : CacheWorld) (s : String) (key : String) (due : Nat) (st : CacheStep)
    (hl : leavesToken s st = true) (h : LifeT w s key due) : LifeT (cacheStep w st).1 s key due := by
  cases st with
  | req m =>
    have hm : tokenOf m ≠ some s := by simpa [leavesToken] using hl
    simp only [cacheStep, LifeT, handle_other_token w m s hm, pend_handle_token w m s hm, handle_now]
    exact h
  | tick d =>
    rcases h with h | ⟨h1, h2, h3⟩
    · exact .inl h
    · exact .inr ⟨h1, h2, Nat.le_trans h3 (Nat.le_add_right _ _)⟩
  | fire i =>
    simp only [cacheStep]
    split
    · rename_i t ht
      split
      · rename_i hdue
        by_cases hm : tokenOf t.msg = some s
        · rcases h with ⟨h1, h2⟩ | ⟨h1, h2, h3⟩
          · obtain ⟨e, he⟩ := filter_eraseIdx_pos (fun t : CacheTimer => tokenOf t.msg == some s) w.timers i t _ ht
              (by simp [hm]) h2
            subst e
            refine .inr ⟨?_, ?_, ?_⟩
            · exact AMap.get_erase_self _ _
            · exact he
            · exact hdue
          · have : t ∈ pend (fun m => tokenOf m == some s) w :=
              List.mem_filter.2 ⟨List.mem_of_getElem? ht, by simp [hm]⟩
            rw [h2] at this; simp at this
        · have hp : pend (fun m => tokenOf m == some s) ({ w with timers := w.timers.eraseIdx i } : CacheWorld) =
              pend (fun m => tokenOf m == some s) w :=
            filter_eraseIdx_neg (fun t : CacheTimer => tokenOf t.msg == some s) w.timers i t ht (by simp [hm])
          simp only [LifeT, handle_other_token _ t.msg s hm, pend_handle_token _ t.msg s hm, handle_now, hp]
          exact h
      · exact h
    · exact h

theorem lifeT_run (w : CacheWorld) (s : String) (key : String) (due : Nat) (steps : List CacheStep)
    (hl : steps.all (leavesToken s) = true) (h : LifeT w s key due) : LifeT (cacheRun w steps).1 s key due := by
  induction steps generalizing w with
  | nil => exact h
  | cons st r ih =>
    simp only [List.all_cons, Bool.and_eq_true] at hl
    exact ih _ hl.2 (lifeT_step w s key due st hl.1 h)

/-! ### Where timers come from -/

/-- Timers about a challenge or a token come from caching it. -/
def TimersFrom (w : CacheWorld) (P T : String → Prop) : Prop :=
  ∀ t ∈ w.timers, (∃ s, t.msg = .deletePow s ∧ P s) ∨ (∃ s, t.msg = .deleteResult s ∧ T s)

theorem timersFrom_handle (w : CacheWorld) (m : CacheMsg) (P T : String → Prop) (h : TimersFrom w P T)
    (hp : ∀ c, m = .cachePow c → P c.string) (ht : ∀ r, m = .cacheResult r → T r.token) :
    TimersFrom (w.handle m).1 P T := by
  cases m with
  | cachePow c =>
    intro t hm
    rcases List.mem_append.1 hm with hm | hm
    · exact h t hm
    · simp only [List.mem_singleton] at hm
      subst hm
      exact .inl ⟨_, rfl, hp c rfl⟩
  | cacheResult r =>
    intro t hm
    rcases List.mem_append.1 hm with hm | hm
    · exact h t hm
    · simp only [List.mem_singleton] at hm
      subst hm
      exact .inr ⟨_, rfl, ht r rfl⟩
  | _ => exact h

theorem timersFrom_run (w : CacheWorld) (steps : List CacheStep) (P T : String → Prop) (h : TimersFrom w P T)
    (hp : ∀ c, CacheStep.req (.cachePow c) ∈ steps → P c.string)
    (ht : ∀ r, CacheStep.req (.cacheResult r) ∈ steps → T r.token) : TimersFrom (cacheRun w steps).1 P T := by
  induction steps generalizing w with
  | nil => exact h
  | cons st r ih =>
    refine ih _ ?_ (fun c hc => hp c (List.mem_cons_of_mem _ hc)) (fun c hc => ht c (List.mem_cons_of_mem _ hc))
    cases st with
    | req m =>
      exact timersFrom_handle w m P T h (fun c e => hp c (by simp [e])) (fun c e => ht c (by simp [e]))
    | tick d => exact h
    | fire i =>
      simp only
      split
      · rename_i t hti
        split
        · have hmem := h t (List.mem_of_getElem? hti)
          refine timersFrom_handle _ t.msg P T (fun x hx => h x (List.mem_of_mem_eraseIdx hx)) ?_ ?_
          · intro c e; rcases hmem with ⟨s, e', -⟩ | ⟨s, e', -⟩ <;> rw [e] at e' <;> cases e'
          · intro c e; rcases hmem with ⟨s, e', -⟩ | ⟨s, e', -⟩ <;> rw [e] at e' <;> cases e'
        · exact h
      · exact h

theorem cacheRun_now (w : CacheWorld) (steps : List CacheStep) : (cacheRun w steps).1.now = cacheClock w.now steps := by
  induction steps generalizing w with
  | nil => rfl
  | cons st r ih =>
    show (cacheRun (cacheStep w st).1 r).1.now = _
    rw [ih]
    cases st with
    | req m => simp only [cacheStep, handle_now, cacheClock]
    | tick d => rfl
    | fire i =>
      simp only [cacheStep, cacheClock]
      split
      · split
        · rw [handle_now]
        · rfl
      · rfl

/-! ### One expiry for each time something is stored -/

theorem deletions_append (s : String) (a b : List (CacheMsg × CacheReply)) :
    deletions s (a ++ b) = deletions s a + deletions s b := by simp [deletions]
theorem tokenDeletions_append (s : String) (a b : List (CacheMsg × CacheReply)) :
    tokenDeletions s (a ++ b) = tokenDeletions s a + tokenDeletions s b := by simp [tokenDeletions]

/-- Pending expiries of challenge `s`. -/
def expC (w : CacheWorld) (s : String) : Nat := (pend (fun m => m == .deletePow s) w).length
/-- Pending expiries of token `s`. -/
def expT (w : CacheWorld) (s : String) : Nat := (pend (fun m => m == .deleteResult s) w).length

theorem exp_handle (w : CacheWorld) (m : CacheMsg) (s : String) :
    expC (w.handle m).1 s = expC w s + issued s [(m, (w.handle m).2)] ∧
    expT (w.handle m).1 s = expT w s + tokensIssued s [(m, (w.handle m).2)] := by
  cases m with
  | cachePow c =>
    by_cases e : c.string = s <;> simp [CacheWorld.handle, expC, expT, pend, issued, tokensIssued, e]
  | cacheResult r =>
    by_cases e : r.token = s <;> simp [CacheWorld.handle, expC, expT, pend, issued, tokensIssued, e]
  | _ => simp [CacheWorld.handle, expC, expT, pend, issued, tokensIssued]

theorem length_filter_eraseIdx {α : Type} (p : α → Bool) (l : List α) (i : Nat) (x : α) (h : l[i]? = some x) :
    ((l.eraseIdx i).filter p).length + (if p x then 1 else 0) = (l.filter p).length := by
  induction l generalizing i with
  | nil => simp at h
  | cons a r ih =>
    cases i with
    | zero =>
      simp only [List.getElem?_cons_zero, Option.some.injEq] at h
      subst h
      simp only [List.eraseIdx_cons_zero, List.filter_cons]
      split <;> simp
    | succ j =>
      simp only [List.getElem?_cons_succ] at h
      have := ih j h
      simp only [List.eraseIdx_cons_succ, List.filter_cons]
      split <;> (try simp only [List.length_cons]) <;> omega

/-- Timers only carry deletions. -/
def OnlyDeletes (w : CacheWorld) : Prop :=
  ∀ t ∈ w.timers, (∃ s, t.msg = .deletePow s) ∨ ∃ s, t.msg = .deleteResult s

theorem onlyDeletes_handle (w : CacheWorld) (m : CacheMsg) (h : OnlyDeletes w) : OnlyDeletes (w.handle m).1 := by
  cases m with
  | cachePow c =>
    intro t ht
    simp only [CacheWorld.handle, List.mem_append, List.mem_singleton] at ht
    rcases ht with ht | rfl
    · exact h t ht
    · exact .inl ⟨_, rfl⟩
  | cacheResult r =>
    intro t ht
    simp only [CacheWorld.handle, List.mem_append, List.mem_singleton] at ht
    rcases ht with ht | rfl
    · exact h t ht
    · exact .inr ⟨_, rfl⟩
  | _ => exact h

theorem exp_step (w : CacheWorld) (st : CacheStep) (s : String) (ho : OnlyDeletes w)
    (hC : st ≠ .req (.deletePow s)) (hT : st ≠ .req (.deleteResult s)) :
    OnlyDeletes (cacheStep w st).1 ∧
    deletions s (cacheStep w st).2 + expC (cacheStep w st).1 s = issued s (cacheStep w st).2 + expC w s ∧
    tokenDeletions s (cacheStep w st).2 + expT (cacheStep w st).1 s = tokensIssued s (cacheStep w st).2 + expT w s := by
  cases st with
  | req m =>
    obtain ⟨e1, e2⟩ := exp_handle w m s
    have d1 : deletions s [(m, (w.handle m).2)] = 0 := by
      cases m with
      | deletePow x =>
        have : x ≠ s := fun e => hC (by rw [e])
        simp [deletions, this]
      | _ => simp [deletions]
    have d2 : tokenDeletions s [(m, (w.handle m).2)] = 0 := by
      cases m with
      | deleteResult x =>
        have : x ≠ s := fun e => hT (by rw [e])
        simp [tokenDeletions, this]
      | _ => simp [tokenDeletions]
    refine ⟨onlyDeletes_handle w m ho, ?_, ?_⟩
    · simp only [cacheStep]; omega
    · simp only [cacheStep]; omega
  | tick d => exact ⟨ho, by simp [cacheStep, deletions, issued, expC, pend], by simp [cacheStep, tokenDeletions, tokensIssued, expT, pend]⟩
  | fire i =>
    simp only [cacheStep]
    split
    · rename_i t ht
      split
      · have ho' : OnlyDeletes { w with timers := w.timers.eraseIdx i } := fun x hx => ho x (List.mem_of_mem_eraseIdx hx)
        obtain ⟨e1, e2⟩ := exp_handle { w with timers := w.timers.eraseIdx i } t.msg s
        have f1 := length_filter_eraseIdx (fun t : CacheTimer => t.msg == .deletePow s) w.timers i t ht
        have f2 := length_filter_eraseIdx (fun t : CacheTimer => t.msg == .deleteResult s) w.timers i t ht
        refine ⟨onlyDeletes_handle _ _ ho', ?_⟩
        generalize hr : ({ w with timers := w.timers.eraseIdx i } : CacheWorld).handle t.msg = p at e1 e2 ⊢
        have g1 : expC { w with timers := w.timers.eraseIdx i } s + (if t.msg == .deletePow s then 1 else 0) = expC w s := f1
        have g2 : expT { w with timers := w.timers.eraseIdx i } s + (if t.msg == .deleteResult s then 1 else 0) = expT w s := f2
        have hm := ho t (List.mem_of_getElem? ht)
        rcases hm with ⟨x, hx⟩ | ⟨x, hx⟩
        · rw [hx] at e1 e2 g1 g2 ⊢
          by_cases e : x = s
          · simp [deletions, tokenDeletions, issued, tokensIssued, e] at e1 e2 g1 g2 ⊢; omega
          · simp [deletions, tokenDeletions, issued, tokensIssued, e] at e1 e2 g1 g2 ⊢; omega
        · rw [hx] at e1 e2 g1 g2 ⊢
          by_cases e : x = s
          · simp [deletions, tokenDeletions, issued, tokensIssued, e] at e1 e2 g1 g2 ⊢; omega
          · simp [deletions, tokenDeletions, issued, tokensIssued, e] at e1 e2 g1 g2 ⊢; omega
      · exact ⟨ho, by simp [deletions, issued], by simp [tokenDeletions, tokensIssued]⟩
    · exact ⟨ho, by simp [deletions, issued], by simp [tokenDeletions, tokensIssued]⟩

theorem exp_run (w : CacheWorld) (steps : List CacheStep) (s : String) (ho : OnlyDeletes w)
    (hC : CacheStep.req (.deletePow s) ∉ steps) (hT : CacheStep.req (.deleteResult s) ∉ steps) :
    OnlyDeletes (cacheRun w steps).1 ∧
    deletions s (cacheRun w steps).2 + expC (cacheRun w steps).1 s = issued s (cacheRun w steps).2 + expC w s ∧
    tokenDeletions s (cacheRun w steps).2 + expT (cacheRun w steps).1 s =
      tokensIssued s (cacheRun w steps).2 + expT w s := by
  induction steps generalizing w with
  | nil => exact ⟨ho, by simp [cacheRun, deletions, issued], by simp [cacheRun, tokenDeletions, tokensIssued]⟩
  | cons st r ih =>
    simp only [List.mem_cons, not_or] at hC hT
    obtain ⟨o, j1, j2⟩ := exp_step w st s ho (fun e => hC.1 e.symm) (fun e => hT.1 e.symm)
    obtain ⟨o', i1, i2⟩ := ih (cacheStep w st).1 o hC.2 hT.2
    refine ⟨o', ?_, ?_⟩
    · simp only [cacheRun, deletions_append, issued_append]; omega
    · simp only [cacheRun, tokenDeletions_append, tokensIssued_append]; omega

end MCap
