import Verif.Spec.CacheMemory
import Verif.Proofs.SystemAddr
import Verif.Props.Cache

/-!
# C113: the in-memory cache forgets
-/

namespace MCap
open Spec

/-- The end of a challenge's life which a task stands for. -/
def powEnd (t : CacheTimer) : Option Nat := match t.msg with | .deletePow _ => some t.due | _ => none
/-- The end of a token's life which a task stands for. -/
def resEnd (t : CacheTimer) : Option Nat := match t.msg with | .deleteResult _ => some t.due | _ => none

/-- Every entry has a task that will remove it. -/
structure CHeld (w : CacheWorld) : Prop where
  kind : ∀ t ∈ w.timers, (∃ s, t.msg = .deletePow s) ∨ ∃ s, t.msg = .deleteResult s
  pow : ∀ s ∈ w.cache.difficultyMap.keys, ∃ t ∈ w.timers, t.msg = .deletePow s
  res : ∀ s ∈ w.cache.resultMap.keys, ∃ t ∈ w.timers, t.msg = .deleteResult s
  nd1 : w.cache.difficultyMap.keys.Nodup
  nd2 : w.cache.resultMap.keys.Nodup

theorem cheld_init (now : Nat) : CHeld (.init now) :=
  ⟨fun _ h => (nomatch h), fun _ h => (nomatch h), fun _ h => (nomatch h), .nil, .nil⟩

theorem cheld_req (w : CacheWorld) (m : CacheMsg) (h : CHeld w) : CHeld (w.handle m).1 := by
  obtain ⟨h1, h2, h3, h4, h5⟩ := h
  cases m with
  | cachePow c =>
    refine ⟨?_, ?_, ?_, AMap.nodup_insert _ _ _ h4, h5⟩
    · intro t ht
      rcases List.mem_append.1 ht with h | h
      · exact h1 t h
      · cases List.mem_singleton.1 h; exact .inl ⟨_, rfl⟩
    · intro s hs
      rcases (AMap.mem_keys_insert _ _ _ _).1 hs with rfl | hs
      · exact ⟨_, List.mem_append_right _ (.head _), rfl⟩
      · obtain ⟨t, ht, e⟩ := h2 s hs
        exact ⟨t, List.mem_append_left _ ht, e⟩
    · intro s hs
      obtain ⟨t, ht, e⟩ := h3 s hs
      exact ⟨t, List.mem_append_left _ ht, e⟩
  | deletePow s => exact ⟨h1, fun x hx => h2 x ((AMap.keys_erase _ _ _).1 hx).1, h3, AMap.nodup_erase _ _ h4, h5⟩
  | retrivePow v =>
    simp only [CacheWorld.handle, retrive_eq]
    exact ⟨h1, fun x hx => h2 x ((AMap.keys_erase _ _ _).1 hx).1, h3, AMap.nodup_erase _ _ h4, h5⟩
  | cacheResult r =>
    refine ⟨?_, ?_, ?_, h4, AMap.nodup_insert _ _ _ h5⟩
    · intro t ht
      rcases List.mem_append.1 ht with h | h
      · exact h1 t h
      · cases List.mem_singleton.1 h; exact .inr ⟨_, rfl⟩
    · intro s hs
      obtain ⟨t, ht, e⟩ := h2 s hs
      exact ⟨t, List.mem_append_left _ ht, e⟩
    · intro s hs
      rcases (AMap.mem_keys_insert _ _ _ _).1 hs with rfl | hs
      · exact ⟨_, List.mem_append_right _ (.head _), rfl⟩
      · obtain ⟨t, ht, e⟩ := h3 s hs
        exact ⟨t, List.mem_append_left _ ht, e⟩
  | deleteResult t => exact ⟨h1, h2, fun x hx => h3 x ((AMap.keys_erase _ _ _).1 hx).1, h4, AMap.nodup_erase _ _ h5⟩
  | verify v =>
    simp only [CacheWorld.handle, verify_eq]
    exact ⟨h1, h2, fun x hx => h3 x ((AMap.keys_erase _ _ _).1 hx).1, h4, AMap.nodup_erase _ _ h5⟩

theorem mem_eraseIdx_of_ne {α : Type} {l : List α} {i : Nat} {x y : α} (hi : l[i]? = some x) (hy : y ∈ l) (hne : y ≠ x) : y ∈ l.eraseIdx i := by
  obtain ⟨j, hj⟩ := List.getElem?_of_mem hy
  refine List.mem_eraseIdx_iff_getElem?.2 ⟨j, ?_, hj⟩
  rintro rfl
  rw [hi] at hj
  exact hne (Option.some.inj hj).symm

theorem cheld_step (w : CacheWorld) (s : CacheStep) (h : CHeld w) : CHeld (cacheStep w s).1 := by
  cases s with
  | req m => exact cheld_req w m h
  | tick d => exact ⟨h.1, h.2, h.3, h.4, h.5⟩
  | fire i =>
    simp only [cacheStep]
    split
    · rename_i t ht
      split
      · rcases h.kind t (List.mem_of_getElem? ht) with ⟨s, hs⟩ | ⟨s, hs⟩
        · rw [hs]
          refine ⟨fun x hx => h.kind x (List.mem_of_mem_eraseIdx hx), ?_, ?_, AMap.nodup_erase _ _ h.nd1, h.nd2⟩
          · intro x hx
            obtain ⟨hx, hne⟩ := (AMap.keys_erase _ _ _).1 hx
            obtain ⟨t', ht', e⟩ := h.pow x hx
            exact ⟨t', mem_eraseIdx_of_ne ht ht' (by rintro rfl; rw [hs] at e; exact hne (CacheMsg.deletePow.inj e).symm), e⟩
          · intro x hx
            obtain ⟨t', ht', e⟩ := h.res x hx
            exact ⟨t', mem_eraseIdx_of_ne ht ht' (by rintro rfl; rw [hs] at e; cases e), e⟩
        · rw [hs]
          refine ⟨fun x hx => h.kind x (List.mem_of_mem_eraseIdx hx), ?_, ?_, h.nd1, AMap.nodup_erase _ _ h.nd2⟩
          · intro x hx
            obtain ⟨t', ht', e⟩ := h.pow x hx
            exact ⟨t', mem_eraseIdx_of_ne ht ht' (by rintro rfl; rw [hs] at e; cases e), e⟩
          · intro x hx
            obtain ⟨hx, hne⟩ := (AMap.keys_erase _ _ _).1 hx
            obtain ⟨t', ht', e⟩ := h.res x hx
            exact ⟨t', mem_eraseIdx_of_ne ht ht' (by rintro rfl; rw [hs] at e; exact hne (CacheMsg.deleteResult.inj e).symm), e⟩
      · exact h
    · exact h

theorem cheld_run (ops : List CacheStep) (w : CacheWorld) (h : CHeld w) : CHeld (cacheRun w ops).1 := by
  induction ops generalizing w with
  | nil => exact h
  | cons s r ih => exact ih _ (cheld_step w s h)

/-- A task that is delivered leaves no new one. -/
theorem fire_timers (w : CacheWorld) (i : Nat) (h : CHeld w) : (cacheStep w (.fire i)).1.timers.Sublist w.timers ∧ (cacheStep w (.fire i)).1.now = w.now := by
  simp only [cacheStep]
  split
  · rename_i t ht
    split
    · rcases h.kind t (List.mem_of_getElem? ht) with ⟨s, hs⟩ | ⟨s, hs⟩ <;> rw [hs] <;> exact ⟨List.eraseIdx_sublist _ _, rfl⟩
    · exact ⟨.refl _, rfl⟩
  · exact ⟨.refl _, rfl⟩

theorem cheld_ends (ops : List CacheStep) (w : CacheWorld) (h : CHeld w) :
    ((cacheRun w ops).1.timers.filterMap powEnd).Sublist (w.timers.filterMap powEnd ++ challengeEnds w.now ops) ∧
    ((cacheRun w ops).1.timers.filterMap resEnd).Sublist (w.timers.filterMap resEnd ++ tokenEnds w.now ops) := by
  induction ops generalizing w with
  | nil => simp [cacheRun, challengeEnds, tokenEnds]
  | cons s r ih =>
    obtain ⟨i1, i2⟩ := ih _ (cheld_step w s h)
    show ((cacheRun (cacheStep w s).1 r).1.timers.filterMap powEnd).Sublist _ ∧ ((cacheRun (cacheStep w s).1 r).1.timers.filterMap resEnd).Sublist _
    cases s with
    | req m =>
      cases m with
      | cachePow c =>
        refine ⟨i1.trans ?_, i2.trans ?_⟩ <;> simp [cacheStep, CacheWorld.handle, challengeEnds, tokenEnds, powEnd, resEnd, List.filterMap_append]
      | cacheResult c =>
        refine ⟨i1.trans ?_, i2.trans ?_⟩ <;> simp [cacheStep, CacheWorld.handle, challengeEnds, tokenEnds, powEnd, resEnd, List.filterMap_append]
      | _ => exact ⟨i1, i2⟩
    | tick d => exact ⟨i1, i2⟩
    | fire i =>
      obtain ⟨f1, f2⟩ := fire_timers w i h
      rw [f2] at i1 i2
      exact ⟨i1.trans ((f1.filterMap _).append (.refl _)), i2.trans ((f1.filterMap _).append (.refl _))⟩

/-- The strings that tasks are about. -/
theorem keys_le_timers {keys : List String} {timers : List CacheTimer} {mk : String → CacheMsg} {f : CacheTimer → Option Nat} (hn : keys.Nodup)
    (hmk : ∀ a b, mk a = mk b → a = b) (hk : ∀ s ∈ keys, ∃ t ∈ timers, t.msg = mk s) (hf : ∀ t s, t.msg = mk s → f t = some t.due) :
    keys.length ≤ (timers.filterMap f).length := by
  have h1 : (keys.map mk).length ≤ ((timers.filter fun t => (f t).isSome).map (·.msg)).length := by
    refine nodup_subset_length _ _ ?_ ?_
    · exact (List.pairwise_map.2 (hn.imp fun {a b} (h : a ≠ b) he => h (hmk _ _ he)))
    · intro x hx
      obtain ⟨s, hs, rfl⟩ := List.mem_map.1 hx
      obtain ⟨t, ht, e⟩ := hk s hs
      exact List.mem_map.2 ⟨t, List.mem_filter.2 ⟨ht, by rw [hf t s e]; rfl⟩, e⟩
  have h2 : ∀ l : List CacheTimer, (l.filter fun t => (f t).isSome).length = (l.filterMap f).length := by
    intro l
    induction l with
    | nil => rfl
    | cons t r ih =>
      rw [List.filter_cons, List.filterMap_cons]
      cases f t <;> simp [ih]
  rw [List.length_map, List.length_map, h2] at h1
  exact h1

theorem ends_le {timers : List CacheTimer} {f : CacheTimer → Option Nat} {ends : List Nat} {late now : Nat}
    (hs : (timers.filterMap f).Sublist ends) (hf : ∀ t e, f t = some e → e = t.due) (hl : ∀ t ∈ timers, now < t.due + late) :
    (timers.filterMap f).length ≤ stillAround late now ends := by
  have h1 : (timers.filterMap f).filter (fun e => decide (now < e + late)) = timers.filterMap f := by
    rw [List.filter_eq_self]
    intro e he
    obtain ⟨t, ht, hte⟩ := List.mem_filterMap.1 he
    rw [hf t e hte]
    exact decide_eq_true (hl t ht)
  have := (hs.filter fun e => decide (now < e + late)).length_le
  rw [h1] at this
  exact this

theorem powEnd_due (t : CacheTimer) (e : Nat) (h : powEnd t = some e) : e = t.due := by
  unfold powEnd at h
  split at h
  · exact (Option.some.inj h).symm
  · cases h

theorem resEnd_due (t : CacheTimer) (e : Nat) (h : resEnd t = some e) : e = t.due := by
  unfold resEnd at h
  split at h
  · exact (Option.some.inj h).symm
  · cases h

theorem timers_split (ts : List CacheTimer) (h : ∀ t ∈ ts, (∃ s, t.msg = .deletePow s) ∨ ∃ s, t.msg = .deleteResult s) :
    ts.length = (ts.filterMap powEnd).length + (ts.filterMap resEnd).length := by
  induction ts with
  | nil => rfl
  | cons t r ih =>
    have := ih fun x hx => h x (.tail _ hx)
    rcases h t (.head _) with ⟨s, hs⟩ | ⟨s, hs⟩ <;> simp [powEnd, resEnd, hs] <;> omega

/-- C113. While no task of the cache is `late` seconds overdue, there are never more challenges that can be retrieved, and never more tokens
that can be validated, than were stored and have not ended `late` seconds ago; nor more entries in the maps, nor more tasks. -/
theorem C113_cache_memory (now : Nat) (ops : List CacheStep) (late : Nat) (w : CacheWorld) (hw : (cacheRun (.init now) ops).1 = w)
    (hl : ∀ t ∈ w.timers, w.now < t.due + late) :
    (∀ L : List String, L.Nodup → (∀ s ∈ L, ∃ k c, (w.handle (.retrivePow ⟨s, k⟩)).2 = .config (some c)) →
      L.length ≤ stillAround late w.now (challengeEnds now ops)) ∧
    (∀ L : List String, L.Nodup → (∀ s ∈ L, ∃ k, (w.handle (.verify ⟨s, k⟩)).2 = .verdict true) →
      L.length ≤ stillAround late w.now (tokenEnds now ops)) ∧
    w.cache.difficultyMap.length ≤ stillAround late w.now (challengeEnds now ops) ∧
    w.cache.resultMap.length ≤ stillAround late w.now (tokenEnds now ops) ∧
    w.timers.length ≤ stillAround late w.now (challengeEnds now ops) + stillAround late w.now (tokenEnds now ops) := by
  have hh : CHeld w := hw ▸ cheld_run ops _ (cheld_init now)
  obtain ⟨e1, e2⟩ := cheld_ends ops _ (cheld_init now)
  rw [hw] at e1 e2
  have b1 := ends_le (late := late) (now := w.now) e1 powEnd_due hl
  have b2 := ends_le (late := late) (now := w.now) e2 resEnd_due hl
  have i0 : (CacheWorld.init now).timers = [] := rfl
  have i1 : (CacheWorld.init now).now = now := rfl
  rw [i0, i1, List.filterMap_nil, List.nil_append] at b1 b2
  have c1 : ∀ L : List String, L.Nodup → (∀ s ∈ L, s ∈ w.cache.difficultyMap.keys) → L.length ≤ stillAround late w.now (challengeEnds now ops) :=
    fun L hn hL => Nat.le_trans (keys_le_timers (mk := .deletePow) (f := powEnd) hn (fun a b h => CacheMsg.deletePow.inj h)
      (fun s hs => hh.pow s (hL s hs)) (fun t s h => by unfold powEnd; rw [h])) b1
  have c2 : ∀ L : List String, L.Nodup → (∀ s ∈ L, s ∈ w.cache.resultMap.keys) → L.length ≤ stillAround late w.now (tokenEnds now ops) :=
    fun L hn hL => Nat.le_trans (keys_le_timers (mk := .deleteResult) (f := resEnd) hn (fun a b h => CacheMsg.deleteResult.inj h)
      (fun s hs => hh.res s (hL s hs)) (fun t s h => by unfold resEnd; rw [h])) b2
  refine ⟨?_, ?_, ?_, ?_, ?_⟩
  · intro L hn hL
    refine c1 L hn fun s hs => ?_
    obtain ⟨k, c, h⟩ := hL s hs
    rw [retrive_reply w ⟨s, k⟩ _ rfl] at h
    by_cases hm : s ∈ w.cache.difficultyMap.keys
    · exact hm
    · rw [(AMap.get_none_iff _ _).2 hm] at h; cases h
  · intro L hn hL
    refine c2 L hn fun s hs => ?_
    obtain ⟨k, h⟩ := hL s hs
    rw [verify_reply w ⟨s, k⟩ _ rfl] at h
    by_cases hm : s ∈ w.cache.resultMap.keys
    · exact hm
    · rw [(AMap.get_none_iff _ _).2 hm] at h; cases h
  · have := c1 _ hh.nd1 fun s hs => hs
    simpa [AMap.keys] using this
  · have := c2 _ hh.nd2 fun s hs => hs
    simpa [AMap.keys] using this
  · rw [timers_split _ hh.kind]
    omega

/-- Two challenges and a token, one of the challenges expired. -/
example : let ops : List CacheStep := [.req (.cachePow exChallenge), .tick 20, .req (.cachePow { exChallenge with string := "two" }), .req (.cacheResult exToken),
      .tick 15, .fire 0]
    let w := (cacheRun (.init 0) ops).1
    (∀ t ∈ w.timers, w.now < t.due + 0) ∧ challengeEnds 0 ops = [30, 50] ∧ tokenEnds 0 ops = [50] ∧ w.cache.difficultyMap.length = 1 ∧
      stillAround 0 w.now (challengeEnds 0 ops) = 1 ∧ stillAround 0 w.now (tokenEnds 0 ops) = 1 ∧ w.timers.length = 2 := by decide

/-- C113. Once every task has been delivered the cache is empty: no challenge can be retrieved and no token validated. And this comes to pass
from every state, as soon as enough time has gone by. -/
theorem C113_cache_empties (now : Nat) (ops : List CacheStep) (w : CacheWorld) (hw : (cacheRun (.init now) ops).1 = w) :
    (w.timers = [] → w.cache = .default ∧ (∀ v, (w.handle (.retrivePow v)).2 = .config none) ∧ ∀ v, (w.handle (.verify v)).2 = .verdict false) ∧
    ∃ d, ∀ d', d ≤ d' → (cacheRun w (.tick d' :: List.replicate w.timers.length (.fire 0))).1.timers = [] := by
  have hh : CHeld w := hw ▸ cheld_run ops _ (cheld_init now)
  refine ⟨?_, ?_⟩
  · intro h0
    have k1 : w.cache.difficultyMap = [] := by
      cases h : w.cache.difficultyMap with
      | nil => rfl
      | cons e r =>
        obtain ⟨t, ht, -⟩ := hh.pow e.1 (by rw [h]; exact .head _)
        rw [h0] at ht; cases ht
    have k2 : w.cache.resultMap = [] := by
      cases h : w.cache.resultMap with
      | nil => rfl
      | cons e r =>
        obtain ⟨t, ht, -⟩ := hh.res e.1 (by rw [h]; exact .head _)
        rw [h0] at ht; cases ht
    have k : w.cache = .default := by
      cases hc : w.cache with
      | mk a b => rw [hc] at k1 k2; cases k1; cases k2; rfl
    refine ⟨k, fun v => ?_, fun v => ?_⟩
    · rw [retrive_reply w v none (by rw [k]; rfl)]
    · rw [verify_reply w v none (by rw [k]; rfl)]; rfl
  · have hb : ∀ ts : List CacheTimer, ∃ d, ∀ t ∈ ts, t.due ≤ d := by
      intro ts
      induction ts with
      | nil => exact ⟨0, by intro t h; cases h⟩
      | cons t r ih =>
        obtain ⟨d, hd⟩ := ih
        refine ⟨max t.due d, fun x hx => ?_⟩
        rcases List.mem_cons.1 hx with rfl | h
        · exact Nat.le_max_left _ _
        · exact Nat.le_trans (hd x h) (Nat.le_max_right _ _)
    obtain ⟨d, hd⟩ := hb w.timers
    refine ⟨d, fun d' hdd => ?_⟩
    have key : ∀ (k : Nat) (v : CacheWorld), CHeld v → v.timers.length = k → (∀ t ∈ v.timers, t.due ≤ v.now) →
        (cacheRun v (List.replicate k (.fire 0))).1.timers = [] := by
      intro k
      induction k with
      | zero => intro v _ h _; exact List.length_eq_zero_iff.1 h
      | succ k ih =>
        intro v hv hk hd
        obtain ⟨t, r, ht⟩ : ∃ t r, v.timers = t :: r := by
          cases h : v.timers with
          | nil => rw [h] at hk; cases hk
          | cons t r => exact ⟨t, r, rfl⟩
        have h0 : v.timers[0]? = some t := by rw [ht]; rfl
        have hst : (cacheStep v (.fire 0)).1.timers = r ∧ (cacheStep v (.fire 0)).1.now = v.now := by
          simp only [cacheStep, h0]
          rw [if_pos (hd t (by rw [ht]; exact .head _))]
          rcases hv.kind t (List.mem_of_getElem? h0) with ⟨s, hs⟩ | ⟨s, hs⟩ <;> rw [hs] <;>
            exact ⟨by show v.timers.eraseIdx 0 = r; rw [ht]; rfl, rfl⟩
        refine ih (cacheStep v (.fire 0)).1 (cheld_step v _ hv) ?_ ?_
        · rw [hst.1]; rw [ht] at hk; simpa using hk
        · rw [hst.1, hst.2]
          intro x hx
          exact hd x (by rw [ht]; exact .tail _ hx)
    exact key _ { w with now := w.now + d' } (cheld_step w (.tick d') hh) rfl fun t ht => by
      have := hd t ht
      show t.due ≤ w.now + d'
      omega

example : (cacheRun (.init 0) [.req (.cachePow exChallenge), .req (.cacheResult exToken), .tick 30, .fire 1, .fire 0]).1.timers = [] ∧
    (cacheRun (.init 0) [.req (.cachePow exChallenge), .req (.cacheResult exToken), .tick 29, .fire 1, .fire 0]).1.timers ≠ [] := by decide

end MCap
