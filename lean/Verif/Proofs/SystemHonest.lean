import Verif.Proofs.SystemAddr

namespace MCap
open Spec

/-! ### What is stored stays until it is touched -/

theorem cacheTrace_cache (snd : Option (Nat × Api)) (m : CacheMsg) (r : CacheReply) (b : List SEvent) :
    cacheTrace (.cache snd m r :: b) = (m, r) :: cacheTrace b := rfl

theorem stored_untouched (a b : List SEvent) (snd : Option (Nat × Api)) (c : CachePoW) (r : CacheReply) (h : untouched c.string b) :
    storedChallenge (msgs (cacheTrace (a ++ .cache snd (.cachePow c) r :: b))) c.string =
      some { key := c.key, difficultyFactor := c.difficultyFactor, duration := c.duration } := by
  have hf : (msgs (cacheTrace b)).filter (fun m => challengeOf m == some c.string) = [] := by
    rw [List.filter_eq_nil_iff]
    intro m hm
    obtain ⟨⟨m', r'⟩, he, rfl⟩ := List.mem_map.1 hm
    obtain ⟨sd, hs⟩ := mem_cacheTrace.1 he
    simpa using h sd m' r' hs
  unfold storedChallenge lastAboutChallenge
  rw [cacheTrace_append, cacheTrace_cache, msgs_append, List.filter_append]
  simp only [msgs, List.map_cons] at hf ⊢
  rw [List.filter_cons_of_pos (by simp [challengeOf]), hf]
  simp

theorem storedToken_untouched (a b : List SEvent) (snd : Option (Nat × Api)) (c : CacheResult) (r : CacheReply) (h : untouchedToken c.token b) :
    storedToken (msgs (cacheTrace (a ++ .cache snd (.cacheResult c) r :: b))) c.token = some c.key := by
  have hf : (msgs (cacheTrace b)).filter (fun m => tokenOf m == some c.token) = [] := by
    rw [List.filter_eq_nil_iff]
    intro m hm
    obtain ⟨⟨m', r'⟩, he, rfl⟩ := List.mem_map.1 hm
    obtain ⟨sd, hs⟩ := mem_cacheTrace.1 he
    simpa using h sd m' r' hs
  unfold storedToken lastAboutToken
  rw [cacheTrace_append, cacheTrace_cache, msgs_append, List.filter_append]
  simp only [msgs, List.map_cons] at hf ⊢
  rw [List.filter_cons_of_pos (by simp [tokenOf]), hf]
  simp

/-! ### Mailbox errors need a cache that is gone -/

theorem mailbox_step (lib : PowLib) (p : Profile) (s : Sys) (st : SStep) (i : Nat) (a : Api) (r : Ret)
    (hr : r = .verify (.error .mailboxError) ∨ r = .validate (.error .mailboxError)) (h : .ret i a r ∈ (sysStep lib p s st).2) :
    st = .cacheGone i := by
  have hret : ∀ (s : Sys) (j : Nat) (c : Call) (r' : Ret), .ret i a r ∈ (s.returns j c r').2 → r = r' ∧ i = j := by
    intro s j c r' h
    simp [Sys.returns] at h
    exact ⟨h.2.2, h.1⟩
  unfold sysStep at h
  split at h
  · simp at h
  cases st with
  | call a => simp only at h; split at h <;> simp at h
  | master j m g =>
    exfalso
    simp only at h
    split at h
    · split at h
      · simp only [List.mem_cons] at h
        rcases h with h | h
        · cases h
        · unfold Sys.onMaster at h
          split at h
          all_goals first
            | (simp at h; done)
            | (obtain ⟨e, -⟩ := hret _ _ _ _ h
               rcases hr with hr | hr <;> rw [hr] at e <;> simp at e)
      · simp at h
    · simp at h
  | cache j =>
    simp only at h
    split at h
    · split at h <;> simp at h
    · simp at h
  | cacheGone j =>
    simp only at h
    split at h
    · split at h
      · unfold Sys.onCacheGone at h
        split at h
        all_goals first
          | (simp at h; done)
          | (obtain ⟨-, e⟩ := hret _ _ _ _ h; rw [e])
      · simp at h
    · simp at h
  | resume j =>
    exfalso
    simp only at h
    split at h
    · split at h
      · unfold Sys.onResume at h
        split at h
        case h_2 =>
          unfold Sys.onRetrieved at h
          split at h
          · obtain ⟨e, -⟩ := hret _ _ _ _ h
            rcases hr with hr | hr <;> rw [hr] at e <;> simp at e
          · split at h
            · obtain ⟨e, -⟩ := hret _ _ _ _ h
              rcases hr with hr | hr <;> rw [hr] at e <;> simp at e
            · simp only at h
              split at h <;> simp at h
        all_goals first
          | (simp at h; done)
          | (obtain ⟨e, -⟩ := hret _ _ _ _ h
             rcases hr with hr | hr <;> rw [hr] at e <;> simp at e)
      · simp at h
    · simp at h
  | poll j g =>
    exfalso
    simp only at h
    split at h
    · split at h
      · unfold Sys.onPoll at h
        split at h
        · simp only at h
          split at h
          all_goals first
            | (simp at h; done)
            | (obtain ⟨e, -⟩ := hret _ _ _ _ h
               rcases hr with hr | hr <;> rw [hr] at e <;> simp at e)
        · simp at h
      · simp at h
    · simp at h
  | queue qs => simp only at h; split at h <;> simp at h
  | work w => simp at h
  | fire k => simp at h
  | tick d => simp at h
  | cancel j =>
    simp only at h
    split at h
    · split at h <;> simp at h
    · simp at h
  | shutdown => simp only at h; split at h <;> simp at h

theorem mailbox_run (lib : PowLib) (p : Profile) (s : Sys) (steps : List SStep) (i : Nat) (a : Api) (r : Ret)
    (hr : r = .verify (.error .mailboxError) ∨ r = .validate (.error .mailboxError)) (h : .ret i a r ∈ (sysRun lib p s steps).2) :
    .cacheGone i ∈ steps := by
  induction steps generalizing s with
  | nil => simp [sysRun] at h
  | cons st rest ih =>
    simp only [sysRun, List.mem_append] at h
    rcases h with h | h
    · rw [mailbox_step lib p s st i a r hr h]; simp
    · exact List.mem_cons_of_mem _ (ih _ h)

/-! ### Expiry tasks are not early -/

/-- Messages about `x` sent by expiry tasks come at `T` or later; `about` tells what a message is about. -/
def DueFrom (about : CacheMsg → Option String) (x : String) (T : Nat) (w : CacheWorld) : Prop :=
  ∀ t ∈ w.timers, about t.msg = some x → T ≤ t.due

/-- What a message adds to the expiry tasks. -/
theorem cacheHandle_tasks (w : CacheWorld) (m : CacheMsg) :
    (w.handle m).1.timers = w.timers ++ (match m with
      | .cachePow c => [{ due := w.now + c.duration, msg := .deletePow c.string }]
      | .cacheResult c => [{ due := w.now + c.duration, msg := .deleteResult c.token }]
      | _ => []) := by
  cases m <;> simp [CacheWorld.handle]

theorem dueFrom_handle {about : CacheMsg → Option String} (hab : about = challengeOf ∨ about = tokenOf) {x : String} {T : Nat} {w : CacheWorld}
    (h : DueFrom about x T w) (m : CacheMsg) (hm : about m ≠ some x) : DueFrom about x T (w.handle m).1 := by
  intro t ht hx
  rw [cacheHandle_tasks] at ht
  rcases List.mem_append.1 ht with ht | ht
  · exact h t ht hx
  · exfalso
    cases m with
    | cachePow c =>
      simp at ht; subst ht
      rcases hab with rfl | rfl
      · simp [challengeOf] at hx hm; exact hm hx
      · simp [tokenOf] at hx
    | cacheResult c =>
      simp at ht; subst ht
      rcases hab with rfl | rfl
      · simp [challengeOf] at hx
      · simp [tokenOf] at hx hm; exact hm hx
    | _ => simp at ht

theorem now_move {lib : PowLib} {p : Profile} {s s' : Sys} {ev : List SEvent} (m : Move lib p s s' ev) : s.cache.now ≤ s'.cache.now := by
  cases m with
  | expire k =>
    simp only [cacheStep]
    split
    · split
      · rw [handle_now]; exact Nat.le_refl _
      · exact Nat.le_refl _
    · exact Nat.le_refl _
  | cache i c m k hc h2 => simp only [Sys.setCall]; rw [handle_now]; exact Nat.le_refl _
  | tick d => simp [cacheStep]
  | _ => exact Nat.le_refl _

theorem now_run (lib : PowLib) (p : Profile) (steps : List SStep) (s : Sys) : s.cache.now ≤ (sysRun lib p s steps).1.cache.now := by
  induction steps generalizing s with
  | nil => exact Nat.le_refl _
  | cons st r ih => exact Nat.le_trans (now_move (sysStep_move lib p s st)) (ih _)

/-- A schedule during which no call touches `x` and which ends before `T`: nobody touches `x`. -/
theorem untouched_run (about : CacheMsg → Option String) (hab : about = challengeOf ∨ about = tokenOf) (lib : PowLib) (p : Profile) (x : String) (T : Nat)
    (steps : List SStep) (s : Sys) (h0 : DueFrom about x T s.cache)
    (hal : ∀ snd m r, .cache (some snd) m r ∈ (sysRun lib p s steps).2 → about m ≠ some x)
    (hT : (sysRun lib p s steps).1.cache.now < T) : ∀ snd m r, .cache snd m r ∈ (sysRun lib p s steps).2 → about m ≠ some x := by
  have hnow := now_run lib p
  induction steps generalizing s with
  | nil => simp [sysRun]
  | cons st r ih =>
    intro snd m rp hm
    have hm : .cache snd m rp ∈ (sysStep lib p s st).2 ++ (sysRun lib p (sysStep lib p s st).1 r).2 := hm
    have hal : ∀ snd m rp, .cache (some snd) m rp ∈ (sysStep lib p s st).2 ++ (sysRun lib p (sysStep lib p s st).1 r).2 → about m ≠ some x := hal
    have hT : (sysRun lib p (sysStep lib p s st).1 r).1.cache.now < T := hT
    have mv := sysStep_move lib p s st
    have hlt : s.cache.now < T := Nat.lt_of_le_of_lt (Nat.le_trans (now_move mv) (hnow r (sysStep lib p s st).1)) hT
    generalize (sysStep lib p s st).1 = s' at *
    generalize (sysStep lib p s st).2 = ev at *
    have key : DueFrom about x T s'.cache ∧ ∀ snd m rp, .cache snd m rp ∈ ev → about m ≠ some x := by
      cases mv with
      | cache i c m k hc h2 =>
        have hh := hal (i, c.api) m _ (List.mem_append_left _ List.mem_cons_self)
        refine ⟨dueFrom_handle hab h0 m hh, ?_⟩
        intro snd m' rp h
        simp at h
        obtain ⟨-, rfl, -⟩ := h
        exact hh
      | expire k =>
        simp only [cacheStep]
        cases hk : s.cache.timers[k]? with
        | none => simp only; exact ⟨h0, by simp⟩
        | some t =>
          simp only
          split
          · rename_i hd
            have hx : about t.msg ≠ some x := by
              intro hx
              have := h0 t (List.mem_of_getElem? hk) hx
              omega
            refine ⟨?_, ?_⟩
            · refine dueFrom_handle hab ?_ t.msg hx
              intro t' ht' hx'
              exact h0 t' (List.mem_of_mem_eraseIdx ht') hx'
            · intro snd m' rp h
              simp at h
              obtain ⟨-, rfl, -⟩ := h
              exact hx
          · exact ⟨h0, by simp⟩
      | tick d => exact ⟨h0, by simp⟩
      | «local» i c c' ev hc m =>
        refine ⟨h0, ?_⟩
        intro snd m' rp h
        exfalso
        have := (local_traces m).1
        have : (m', rp) ∈ cacheTrace ev := mem_cacheTrace.2 ⟨snd, h⟩
        simp_all
      | idle => exact ⟨h0, by simp⟩
      | start a hq => exact ⟨h0, by simp⟩
      | submit i c work ip cfg hc h1 h2 hk hl hq hcl => exact ⟨h0, by simp⟩
      | panic i c cfg work ip hc h1 h2 hl hq hcl => exact ⟨h0, by simp⟩
      | queue qs hm => exact ⟨h0, by simp⟩
      | shutdown hs => exact ⟨h0, by simp⟩
    rcases List.mem_append.1 hm with hm | hm
    · exact key.2 snd m rp hm
    · exact ih _ key.1 (fun snd m rp h => hal snd m rp (List.mem_append_right _ h)) hT snd m rp hm

/-- Expiry tasks are about strings that were stored. -/
theorem timers_stored (lib : PowLib) (p : Profile) (n ql now : Nat) (steps : List SStep) :
    ∀ t ∈ (sysRun lib p (Sys.new n ql now) steps).1.cache.timers,
      (∃ c sd r, t.msg = .deletePow c.string ∧ .cache sd (.cachePow c) r ∈ (sysRun lib p (Sys.new n ql now) steps).2) ∨
      (∃ c sd r, t.msg = .deleteResult c.token ∧ .cache sd (.cacheResult c) r ∈ (sysRun lib p (Sys.new n ql now) steps).2) := by
  refine run_induct lib p n ql now (fun s log => ∀ t ∈ s.cache.timers,
      (∃ c sd r, t.msg = .deletePow c.string ∧ .cache sd (.cachePow c) r ∈ log) ∨
      (∃ c sd r, t.msg = .deleteResult c.token ∧ .cache sd (.cacheResult c) r ∈ log)) (by simp [Sys.new, CacheWorld.init]) ?_ steps
  intro d s' ev h m
  have hw := fun t ht => ((facts lib p n ql now d).si.timers t ht)
  generalize (sysRun lib p (Sys.new n ql now) d).1 = s at *
  generalize (sysRun lib p (Sys.new n ql now) d).2 = log at *
  have mono : ∀ (ts : List CacheTimer) (ev : List SEvent), (∀ t ∈ ts, t ∈ s.cache.timers) → ∀ t ∈ ts,
      (∃ c sd r, t.msg = .deletePow c.string ∧ .cache sd (.cachePow c) r ∈ log ++ ev) ∨
      (∃ c sd r, t.msg = .deleteResult c.token ∧ .cache sd (.cacheResult c) r ∈ log ++ ev) := by
    intro ts ev hs t ht
    rcases h t (hs t ht) with ⟨c, sd, r, e, hm⟩ | ⟨c, sd, r, e, hm⟩
    · exact .inl ⟨c, sd, r, e, List.mem_append_left _ hm⟩
    · exact .inr ⟨c, sd, r, e, List.mem_append_left _ hm⟩
  cases m with
  | cache i c m k hc h2 =>
    intro t ht
    have ht : t ∈ (s.cache.handle m).1.timers := ht
    rw [cacheHandle_tasks] at ht
    rcases List.mem_append.1 ht with ht | ht
    · exact mono s.cache.timers _ (fun _ h => h) t ht
    · cases m with
      | cachePow c' => simp at ht; subst ht; exact .inl ⟨c', _, _, rfl, List.mem_append_right _ List.mem_cons_self⟩
      | cacheResult c' => simp at ht; subst ht; exact .inr ⟨c', _, _, rfl, List.mem_append_right _ List.mem_cons_self⟩
      | _ => simp at ht
  | expire k =>
    refine mono _ _ ?_
    simp only [cacheStep]
    cases hk : s.cache.timers[k]? with
    | none => exact fun _ h => h
    | some t =>
      simp only
      split
      · intro t' ht'
        rw [cacheHandle_tasks] at ht'
        rcases List.mem_append.1 ht' with ht' | ht'
        · exact List.mem_of_mem_eraseIdx ht'
        · rcases hw t (List.mem_of_getElem? hk) with ⟨x, e⟩ | ⟨x, e⟩ <;> rw [e] at ht' <;> simp at ht'
      · exact fun _ h => h
  | tick d => exact mono _ _ (fun _ h => h)
  | idle => exact mono _ _ (fun _ h => h)
  | «local» i c c' ev hc m => exact mono _ _ (fun _ h => h)
  | start a hq => exact mono _ _ (fun _ h => h)
  | submit i c work ip cfg hc h1 h2 hk hl hq hcl => exact mono _ _ (fun _ h => h)
  | panic i c cfg work ip hc h1 h2 hl hq hcl => exact mono _ _ (fun _ h => h)
  | queue qs hm => exact mono _ _ (fun _ h => h)
  | shutdown hs => exact mono _ _ (fun _ h => h)

/-- A step in which the cache answers a call leaves the cache as the handler does. -/
theorem cache_after {lib : PowLib} {p : Profile} {s s' : Sys} {ev : List SEvent} (mv : Move lib p s s' ev) {sd : Nat × Api} {m : CacheMsg}
    {r : CacheReply} (h : ev = [.cache (some sd) m r]) : s'.cache = (s.cache.handle m).1 := by
  cases mv with
  | idle => cases h
  | «local» i d d' ev hd m => have := (local_traces m).1; rw [h] at this; simp [cacheTrace] at this
  | start a hq => cases h
  | cache i d m' k hd hp => simp at h; obtain ⟨-, rfl, -⟩ := h; rfl
  | submit i c work ip cfg hc h1 h2 hk hl hq hcl =>
    exfalso
    have : SEvent.cache (some sd) m r ∈ (qStep p s.queue (.submit ip i)).2.map SEvent.queue := by rw [h]; simp
    simp at this
  | panic => simp at h
  | queue qs _ =>
    exfalso
    have : SEvent.cache (some sd) m r ∈ (qStep p s.queue qs).2.map SEvent.queue := by rw [h]; simp
    simp at this
  | shutdown _ =>
    exfalso
    have : SEvent.cache (some sd) m r ∈ (qStep p s.queue .close).2.map SEvent.queue := by rw [h]; simp
    simp at this
  | expire k =>
    exfalso
    have : SEvent.cache (some sd) m r ∈ (cacheStep s.cache (.fire k)).2.map fun (m, r) => SEvent.cache none m r := by rw [h]; simp
    simp at this
  | tick => cases h

end MCap
