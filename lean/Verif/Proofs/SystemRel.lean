import Verif.Proofs.SystemCount

namespace MCap
open Spec

/-! ### The cache inside the system is a cache, the queue inside the system is a queue -/

theorem cacheTrace_expire (l : List (CacheMsg × CacheReply)) : cacheTrace (l.map fun (m, r) => SEvent.cache none m r) = l := by
  induction l with
  | nil => rfl
  | cons e r ih => simp only [cacheTrace] at ih; simp [cacheTrace, ih]

theorem queueTrace_expire (l : List (CacheMsg × CacheReply)) : queueTrace (l.map fun (m, r) => SEvent.cache none m r) = [] := by
  simp [queueTrace, List.filterMap_eq_nil_iff]

theorem cache_move {lib : PowLib} {p : Profile} {s s' : Sys} {ev : List SEvent} (m : Move lib p s s' ev) :
    ∃ cs, cacheRun s.cache cs = (s'.cache, cacheTrace ev) := by
  cases m with
  | idle => exact ⟨[], rfl⟩
  | «local» i c c' _ hc m => exact ⟨[], by rw [(local_traces m).1]; rfl⟩
  | start a hq => exact ⟨[], rfl⟩
  | cache i c m k hc h2 => exact ⟨[.req m], rfl⟩
  | submit i c work ip cfg hc h1 h2 hk hl hq hcl => exact ⟨[], by rw [cacheTrace_queue]; rfl⟩
  | panic i c cfg work ip hc h1 h2 hl hq hcl => exact ⟨[], rfl⟩
  | queue qs hm => exact ⟨[], by rw [cacheTrace_queue]; rfl⟩
  | shutdown hs => exact ⟨[], by rw [cacheTrace_queue]; rfl⟩
  | expire k => exact ⟨[.fire k], by rw [cacheTrace_expire]; simp [cacheRun]⟩
  | tick d => exact ⟨[.tick d], by simp [cacheRun, cacheStep, cacheTrace]⟩

/-- What the cache does in a run of the system, it does in a run of its own. -/
theorem cache_run (lib : PowLib) (p : Profile) (s : Sys) (steps : List SStep) :
    ∃ cs, cacheRun s.cache cs = ((sysRun lib p s steps).1.cache, cacheTrace (sysRun lib p s steps).2) := by
  induction steps generalizing s with
  | nil => exact ⟨[], rfl⟩
  | cons st r ih =>
    obtain ⟨c1, h1⟩ := cache_move (sysStep_move lib p s st)
    obtain ⟨c2, h2⟩ := ih (sysStep lib p s st).1
    refine ⟨c1 ++ c2, ?_⟩
    simp only [sysRun, cacheTrace_append]
    rw [cacheRun_append, h1, h2]

theorem qstep_crash_quiet (p : Profile) (q : Queue) (w : Nat) (h : ∀ j, .crashedOn w j ∉ (qStep p q (.crash w)).2) :
    qStep p q (.crash w) = (q, []) := by
  unfold qStep at h ⊢
  by_cases ha : q.status = .aborted
  · simp [ha]
  · simp only [ha, if_false, Queue.crash] at h ⊢
    cases hr : q.inner.runners[w]? with
    | none => rfl
    | some r =>
      rw [hr] at h
      cases hj : r.running with
      | none => simp [hj]
      | some j => exact absurd (by simp [hj]) (h j)

theorem queue_one (p : Profile) (q : Queue) (qs : QStep) :
    ∃ l, qRun p q l = ((qStep p q qs).1, (qStep p q qs).2) ∧ ∀ w, .crash w ∈ l → ∃ j, .crashedOn w j ∈ (qStep p q qs).2 := by
  by_cases h : ∃ w, qs = .crash w ∧ ∀ j, .crashedOn w j ∉ (qStep p q (.crash w)).2
  · obtain ⟨w, rfl, h⟩ := h
    rw [qstep_crash_quiet p q w h]
    exact ⟨[], rfl, by simp⟩
  · refine ⟨[qs], by simp [qRun], ?_⟩
    intro w hw
    simp only [List.mem_singleton] at hw
    subst hw
    by_cases h' : ∃ j, .crashedOn w j ∈ (qStep p q (.crash w)).2
    · exact h'
    · exact absurd ⟨w, rfl, fun j hj => h' ⟨j, hj⟩⟩ h

theorem queue_move {lib : PowLib} {p : Profile} {s s' : Sys} {ev : List SEvent} (m : Move lib p s s' ev) :
    ∃ qs, qRun p s.queue qs = (s'.queue, queueTrace ev) ∧ ∀ w, .crash w ∈ qs → ∃ j, .crashedOn w j ∈ queueTrace ev := by
  have hnone : ∀ {s' : Sys} {ev : List SEvent}, s'.queue = s.queue → queueTrace ev = [] →
      ∃ qs, qRun p s.queue qs = (s'.queue, queueTrace ev) ∧ ∀ w, .crash w ∈ qs → ∃ j, .crashedOn w j ∈ queueTrace ev := by
    intro s' ev h1 h2
    exact ⟨[], by rw [h1, h2]; rfl, by simp⟩
  cases m with
  | idle => exact hnone rfl rfl
  | «local» i c c' _ hc m => exact hnone rfl (local_traces m).2
  | start a hq => exact hnone rfl rfl
  | cache i c m k hc h2 => exact hnone rfl rfl
  | submit i c work ip cfg hc h1 h2 hk hl hq hcl => rw [queueTrace_map]; exact queue_one p s.queue _
  | panic i c cfg work ip hc h1 h2 hl hq hcl => exact hnone rfl rfl
  | queue qs hm => rw [queueTrace_map]; exact queue_one p s.queue _
  | shutdown hs => rw [queueTrace_map]; exact queue_one p s.queue _
  | expire k => exact hnone rfl (queueTrace_expire _)
  | tick d => exact hnone rfl rfl

/-- What the queue does in a run of the system, it does in a run of its own, with a crash only where the log shows one. -/
theorem queue_run (lib : PowLib) (p : Profile) (s : Sys) (steps : List SStep) :
    ∃ qs, qRun p s.queue qs = ((sysRun lib p s steps).1.queue, queueTrace (sysRun lib p s steps).2) ∧
      ∀ w, .crash w ∈ qs → ∃ j, .crashedOn w j ∈ queueTrace (sysRun lib p s steps).2 := by
  induction steps generalizing s with
  | nil => exact ⟨[], rfl, by simp⟩
  | cons st r ih =>
    obtain ⟨c1, h1, h1'⟩ := queue_move (sysStep_move lib p s st)
    obtain ⟨c2, h2, h2'⟩ := ih (sysStep lib p s st).1
    refine ⟨c1 ++ c2, ?_, ?_⟩
    · simp only [sysRun, queueTrace_append]
      rw [qRun_append, h1, h2]
    · intro w hw
      simp only [sysRun, queueTrace_append, List.mem_append]
      rcases List.mem_append.1 hw with hw | hw
      · exact (h1' w hw).imp fun _ h => .inl h
      · exact (h2' w hw).imp fun _ h => .inr h

theorem mem_queueTrace {log : List SEvent} {e : QEvent} : e ∈ queueTrace log ↔ .queue e ∈ log := by
  simp only [queueTrace, List.mem_filterMap]
  constructor
  · rintro ⟨x, hx, h⟩
    cases x <;> simp at h
    subst h; exact hx
  · intro h; exact ⟨_, h, rfl⟩

theorem mem_cacheTrace {log : List SEvent} {m : CacheMsg} {r : CacheReply} :
    (m, r) ∈ cacheTrace log ↔ ∃ sender, .cache sender m r ∈ log := by
  simp only [cacheTrace, List.mem_filterMap]
  constructor
  · rintro ⟨x, hx, h⟩
    cases x <;> simp at h
    obtain ⟨rfl, rfl⟩ := h; exact ⟨_, hx⟩
  · rintro ⟨sd, h⟩; exact ⟨_, h, rfl⟩

/-- The invariants of the queue hold inside the system. -/
theorem sys_qinv (lib : PowLib) (p : Profile) (n ql now : Nat) (steps : List SStep) :
    QInv n ql (sysRun lib p (Sys.new n ql now) steps).1.queue (queueTrace (sysRun lib p (Sys.new n ql now) steps).2) ∧
    LInv (sysRun lib p (Sys.new n ql now) steps).1.queue ∧
    (¬ SomeCrash (sysRun lib p (Sys.new n ql now) steps).2 → HInv (sysRun lib p (Sys.new n ql now) steps).1.queue) := by
  obtain ⟨qs, h1, h2⟩ := queue_run lib p (Sys.new n ql now) steps
  have e : (Sys.new n ql now).queue = Queue.new n ql := rfl
  rw [e] at h1
  have a := qinv_new p n ql qs
  have b := linv_new p n ql qs
  rw [h1] at a b
  refine ⟨a, b, ?_⟩
  intro hc
  have c := hinv_new p n ql qs (by
    intro w hw
    obtain ⟨j, hj⟩ := h2 w hw
    exact hc ⟨w, j, mem_queueTrace.1 hj⟩)
  rw [h1] at c
  exact c

/-! ### Issues and mints are the stores the cache sees -/

theorem why_mem {lib : PowLib} {s : Sys} {log : List SEvent} (h : SInv lib s log) {e : SEvent} (he : e ∈ log) :
    ∃ pre post, log = pre ++ e :: post ∧ Why lib pre e := by
  obtain ⟨pre, post, hs⟩ := List.append_of_mem he
  exact ⟨pre, post, hs, h.why pre e post hs⟩

theorem length_filter_filterMap {α β : Type} (f : α → Option β) (p : β → Bool) (l : List α) :
    ((l.filterMap f).filter p).length = l.countP fun a => (f a).any p := by
  induction l with
  | nil => rfl
  | cons a r ih =>
    rw [List.countP_cons, List.filterMap_cons]
    cases hf : f a with
    | none => simpa using ih
    | some b =>
      simp only [List.filter_cons, Option.any_some]
      split <;> simp_all

theorem issued_eq {lib : PowLib} {s : Sys} {log : List SEvent} (h : SInv lib s log) (x : String) : issued x (cacheTrace log) = issues x log := by
  unfold issued cacheTrace
  rw [length_filter_filterMap]
  unfold issues
  apply List.countP_congr
  intro e he
  obtain ⟨pre, post, -, hw⟩ := why_mem h he
  cases e with
  | cache sd m r =>
    rcases sd with _ | ⟨i, api⟩
    · obtain ⟨-, ⟨y, rfl⟩ | ⟨y, rfl⟩⟩ := hw <;> simp
    · cases api with
      | get id => cases m <;> simp
      | verify work ip =>
        obtain ⟨-, ⟨rfl, -⟩ | ⟨-, t, cfg, -, -, -, -, rfl⟩⟩ := hw <;> simp
      | validate msg => obtain ⟨-, rfl, -⟩ := hw; simp
  | _ => simp

theorem tokensIssued_eq {lib : PowLib} {s : Sys} {log : List SEvent} (h : SInv lib s log) (x : String) :
    tokensIssued x (cacheTrace log) = mints x log := by
  unfold tokensIssued cacheTrace
  rw [length_filter_filterMap]
  unfold mints
  apply List.countP_congr
  intro e he
  obtain ⟨pre, post, -, hw⟩ := why_mem h he
  cases e with
  | cache sd m r =>
    rcases sd with _ | ⟨i, api⟩
    · obtain ⟨-, ⟨y, rfl⟩ | ⟨y, rfl⟩⟩ := hw <;> simp
    · cases api with
      | get id => obtain ⟨-, -, cfg, res, -, -, -, -, rfl⟩ := hw; simp
      | verify work ip => cases m <;> simp
      | validate msg => obtain ⟨-, rfl, -⟩ := hw; simp
  | _ => simp

end MCap
