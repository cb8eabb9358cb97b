import Verif.Proofs.QueueLive

namespace MCap
open Spec

/-! ### Without crashes -/

/-- Invariant of crash-free runs. -/
structure HInv (q : Queue) : Prop where
  ok : Healthy q
  alive : ∀ r ∈ q.inner.runners, r.status ≠ .crashed
  wait : q.closed = true → q.status = .running → .stop ∈ q.mailbox

theorem allAlive {q : Queue} (h : HInv q) (hl : LInv q) (hr : q.status = .running) : AllAlive q.inner := by
  intro r hm
  obtain ⟨w, hw, rfl⟩ := List.getElem_of_mem hm
  have h1 := (hl.run hr w _ (List.getElem?_eq_getElem hw)).1
  have h2 := h.alive _ hm
  cases hs : (q.inner.runners[w]).status <;> simp_all

theorem schedule_ret (p : Profile) (im : Inner) (h : IInv im) (ha : AllAlive im) (ip : String) (job : Nat) :
    ∃ im' ev, im.schedule p ip job = .ret (im', ev) := by
  rw [schedule_eq]
  split
  · exact ⟨_, _, rfl⟩
  · obtain ⟨a1, a2, a3, -⟩ := enqueued_spec im h ip job
    obtain ⟨im', ev, hd⟩ := dispatchAll_ret p (List.range (enqueued im ip job).runners.length) _ a1 (enqueued_ne im h ip job)
      (by intro r hr; rw [a3] at hr; exact ha r hr) (fun n hn => List.mem_range.1 hn)
    have : (enqueued im ip job).dispatch p = .ret (im', ev) := hd
    rw [this]
    exact ⟨_, _, rfl⟩

theorem disp_nocrash {im im' : Inner} {ev : List QEvent} {k : Nat} (d : Disp im im' ev k) (h : ∀ r ∈ im.runners, r.status ≠ .crashed) :
    ∀ r ∈ im'.runners, r.status ≠ .crashed := by
  intro x hx
  obtain ⟨w, hw, rfl⟩ := List.getElem_of_mem hx
  obtain ⟨r, hr, e⟩ := disp_back d w _ (List.getElem?_eq_getElem hw)
  rw [e]
  exact h r (List.mem_of_getElem? hr)

/-- What handling a message does while all workers live. -/
theorem manage_alive (p : Profile) {n ql : Nat} {q : Queue} {tr : List QEvent} (hi : QInv n ql q tr) (ha : AllAlive q.inner)
    (hr : q.status = .running) (m : InnerMsg) (rest : List InnerMsg) (hm : q.mailbox = m :: rest) :
    (q.manage p).1.mailbox = rest ∧ (q.manage p).1.closed = q.closed ∧
    (q.manage p).1.status = (if m = .stop then .stopping else .running) := by
  have hg : q.someGone = false := by
    simp only [Queue.someGone, List.any_eq_false, bne_iff_ne, ne_eq, Decidable.not_not]
    exact ha
  unfold Queue.manage
  rw [if_pos hr, hm]
  cases m with
  | stop => simp [hg]
  | dispatch name =>
    obtain ⟨im, ev, hd⟩ := dispatchTo_ret p q.inner hi.inv (hi.mail name (by rw [hm]; simp)) ha name
    simp [hd, hr]
  | schedule ip job =>
    obtain ⟨im, ev, hd⟩ := schedule_ret p q.inner hi.inv ha ip job
    simp [hd, hr]

theorem nocrash_shape {n ql : Nat} (q : Queue) (tr : List QEvent) (q' : Queue) (ev : List QEvent) (hi : QInv n ql q tr)
    (h : ∀ r ∈ q.inner.runners, r.status ≠ .crashed) (hc : ∀ w j, .crashedOn w j ∉ ev) (s : Shape q q' ev) :
    ∀ r ∈ q'.inner.runners, r.status ≠ .crashed := by
  cases s with
  | quiet h1 => rw [h1]; exact h
  | stop h1 h2 h3 h4 =>
    rw [h4]
    intro x hx
    simp only [List.mem_map] at hx
    obtain ⟨r, hr, rfl⟩ := hx
    exact h r hr
  | disp ev k h1 h2 h3 d => exact disp_nocrash d h
  | refused ip job h1 h2 h3 h4 => rw [h4]; exact h
  | sched ip job ev h1 h2 h3 d =>
    refine disp_nocrash d ?_
    rw [(enqueued_spec q.inner hi.inv ip job).2.2.1]; exact h
  | worker w r r' ev h1 h2 h3 m h5 =>
    rw [h2]
    intro x hx
    rcases List.mem_or_eq_of_mem_set hx with hx | rfl
    · exact h x hx
    · have hr := h r (List.mem_of_getElem? h1)
      cases m with
      | stop rest a1 a2 a3 => simp
      | start job rest a1 a2 a3 => exact hr
      | finish job a1 => exact hr
      | finishExit job a1 => simp
      | crash job a1 => exact absurd (by simp) (hc w job)

/-- The events the manager produces. -/
theorem manage_events (p : Profile) {n ql : Nat} {q : Queue} {tr : List QEvent} (hi : QInv n ql q tr) :
    ∀ e ∈ (q.manage p).2, (∃ ip, e = .served ip) ∨ (∃ w ip j, e = .handed w ip j) ∨ (∃ ip j, e = .accepted ip j) ∨ ∃ ip j, e = .refused ip j := by
  intro e he
  unfold Queue.manage at he
  split at he
  · cases hmb : q.mailbox with
    | nil => rw [hmb] at he; simp at he
    | cons m rest =>
      rw [hmb] at he
      cases m with
      | stop => simp only at he; split at he <;> simp at he
      | dispatch name =>
        simp only at he
        cases hd : q.inner.dispatchTo p name with
        | panic w => rw [hd] at he; simp at he
        | ret a =>
          obtain ⟨im, ev⟩ := a
          rw [hd] at he
          rcases (dispatchTo_disp p q.inner hi.inv name im ev hd).only e he with h | h
          · exact .inl h
          · exact .inr (.inl h)
      | schedule ip job =>
        simp only at he
        cases hd : q.inner.schedule p ip job with
        | panic w => rw [hd] at he; simp at he
        | ret a =>
          obtain ⟨im, ev⟩ := a
          rw [hd] at he
          rcases schedule_cases p q.inner im hi.inv ip job ev hd with ⟨_, _, rfl⟩ | ⟨_, ev', rfl, d⟩
          · simp only [List.mem_singleton] at he
            exact .inr (.inr (.inr ⟨_, _, he⟩))
          · rcases List.mem_cons.1 he with he | he
            · exact .inr (.inr (.inl ⟨_, _, he⟩))
            · rcases d.only e he with h | h
              · exact .inl h
              · exact .inr (.inl h)
  · simp at he

theorem step_crashedOn (p : Profile) {n ql : Nat} {q : Queue} {tr : List QEvent} (hi : QInv n ql q tr) (s : QStep) (hs : ∀ w, s ≠ .crash w) :
    ∀ w j, .crashedOn w j ∉ (qStep p q s).2 := by
  intro w j hm
  unfold qStep at hm
  split at hm
  · simp at hm
  · cases s with
    | submit ip job => simp only at hm; split at hm <;> simp at hm
    | manage =>
      rcases manage_events p hi _ hm with ⟨_, e⟩ | ⟨_, _, _, e⟩ | ⟨_, _, e⟩ | ⟨_, _, e⟩ <;> cases e
    | take w =>
      simp only [Queue.take] at hm
      split at hm
      · simp at hm
      · split at hm
        · split at hm <;> simp at hm
        · simp at hm
    | finish w =>
      simp only [Queue.finish] at hm
      split at hm
      · simp at hm
      · split at hm
        · simp at hm
        · split at hm <;> simp at hm
    | crash w => exact hs w rfl
    | close => simp only at hm; split at hm <;> simp at hm
    | joined =>
      simp only at hm
      split at hm
      · split at hm
        · simp at hm
        · split at hm <;> simp at hm
      · simp at hm

theorem hinv_init (n ql : Nat) : HInv (Queue.new n ql) where
  ok := by simp [Healthy, Queue.new]
  alive r hr := by
    simp only [Queue.new, Inner.new, List.mem_replicate] at hr
    rw [hr.2]; simp [Worker.spawn]
  wait := by simp [Queue.new]

theorem hinv_step (p : Profile) {n ql : Nat} {q : Queue} {tr : List QEvent} (hi : QInv n ql q tr) (hl : LInv q) (h : HInv q) (s : QStep)
    (hs : ∀ w, s ≠ .crash w) : HInv (qStep p q s).1 := by
  have hal := nocrash_shape q tr _ _ hi h.alive (step_crashedOn p hi s hs) (qinv_shape p hi s)
  suffices Healthy (qStep p q s).1 ∧ ((qStep p q s).1.closed = true → (qStep p q s).1.status = .running → .stop ∈ (qStep p q s).1.mailbox) from
    ⟨this.1, hal, this.2⟩
  clear hal
  have hq : Healthy q ∧ (q.closed = true → q.status = .running → .stop ∈ q.mailbox) := ⟨h.ok, h.wait⟩
  unfold qStep
  rw [if_neg h.ok.2]
  cases s with
  | submit ip job =>
    simp only
    split
    · rename_i hc
      exact ⟨h.ok, fun e => by simp [hc.1] at e⟩
    · exact hq
  | manage =>
    simp only
    by_cases hr : q.status = .running
    · cases hm : q.mailbox with
      | nil => simpa [Queue.manage, hm] using hq
      | cons m rest =>
        obtain ⟨h1, h2, h3⟩ := manage_alive p hi (allAlive h hl hr) hr m rest hm
        rw [h1, h2]
        constructor
        · unfold Healthy; rw [h3]; split <;> simp
        · intro hc hst
          rw [h3] at hst
          split at hst
          · cases hst
          · rename_i hne
            have := h.wait hc hr
            rw [hm] at this
            rcases List.mem_cons.1 this with e | e
            · exact absurd e.symm hne
            · exact e
    · simpa [Queue.manage, hr] using hq
  | take w =>
    simp only [Queue.take]
    split
    · exact hq
    · split
      · split
        · exact hq
        · exact hq
        · exact hq
      · exact hq
  | finish w =>
    simp only [Queue.finish]
    split
    · exact hq
    · split
      · exact hq
      · split
        · exact ⟨hq.1, fun a b => List.mem_append_left _ (hq.2 a b)⟩
        · exact hq
  | crash w => exact absurd rfl (hs w)
  | close =>
    simp only
    split
    · exact ⟨h.ok, fun _ _ => by simp⟩
    · exact hq
  | joined =>
    simp only
    split
    · split
      · rename_i hc
        simp only [List.any_eq_true, decide_eq_true_eq] at hc
        obtain ⟨r, hr, hc⟩ := hc
        exact absurd hc (h.alive r hr)
      · split
        · exact ⟨by simp [Healthy], by simp⟩
        · exact hq
    · exact hq

theorem hinv_run (p : Profile) {n ql : Nat} {q : Queue} {tr : List QEvent} (hi : QInv n ql q tr) (hl : LInv q) (h : HInv q) (steps : List QStep)
    (hs : noCrash steps) : HInv (qRun p q steps).1 := by
  induction steps generalizing q tr with
  | nil => exact h
  | cons s r ih =>
    refine ih (qinv_step p hi s) (linv_shape q tr _ _ hi hl (qinv_shape p hi s))
      (hinv_step p hi hl h s (fun w e => hs w (by simp [e]))) (fun w hm => hs w (List.mem_cons_of_mem _ hm))

theorem hinv_new (p : Profile) (n ql : Nat) (steps : List QStep) (hs : noCrash steps) : HInv (qRun p (Queue.new n ql) steps).1 :=
  hinv_run p (qinv_init n ql) (linv_init n ql) (hinv_init n ql) steps hs

/-! ### After `Stop` -/

theorem not_running_step (p : Profile) {n ql : Nat} {q : Queue} {tr : List QEvent} (hi : QInv n ql q tr) (h : q.status ≠ .running) (s : QStep) :
    (qStep p q s).1.status ≠ .running ∧ (∀ e ∈ (qStep p q s).2, isHandover e = false) := by
  have sh := qinv_shape p hi s
  generalize (qStep p q s).1 = q' at sh
  generalize (qStep p q s).2 = ev at sh
  cases sh with
  | quiet h1 h2 h3 =>
    refine ⟨?_, by simp⟩
    rcases h2 with h2 | h2
    · rw [h2]; exact h
    · exact h2.1
  | stop h1 h2 h3 h4 => exact absurd h1 h
  | disp ev k h1 h2 h3 d => exact absurd h1 h
  | refused ip job h1 h2 h3 h4 => exact absurd h1 h
  | sched ip job ev h1 h2 h3 d => exact absurd h1 h
  | worker w r r' ev h1 h2 h3 m h5 =>
    refine ⟨by rw [h3]; exact h, ?_⟩
    cases m <;> simp [isHandover]

theorem not_running_run (p : Profile) {n ql : Nat} {q : Queue} {tr : List QEvent} (hi : QInv n ql q tr) (h : q.status ≠ .running)
    (steps : List QStep) : (qRun p q steps).1.status ≠ .running ∧ (∀ e ∈ (qRun p q steps).2, isHandover e = false) := by
  induction steps generalizing q tr with
  | nil => exact ⟨h, by simp [qRun]⟩
  | cons s r ih =>
    obtain ⟨h1, h2⟩ := not_running_step p hi h s
    obtain ⟨h3, h4⟩ := ih (qinv_step p hi s) h1
    refine ⟨h3, ?_⟩
    intro e he
    simp only [qRun, List.mem_append] at he
    rcases he with he | he
    · exact h2 e he
    · exact h4 e he

theorem stopped_step (p : Profile) {n ql : Nat} {q : Queue} {tr : List QEvent} (hi : QInv n ql q tr) (hl : LInv q) (h : q.status = .stopped)
    (s : QStep) : qStep p q s = (q, []) := by
  have key : ∀ (w : Nat) (r : Worker), q.inner.runners[w]? = some r → r.status = .exited ∧ r.running = none := by
    intro w r hr
    have h1 := hl.fin h w r hr
    refine ⟨h1, ?_⟩
    cases hr' : r.running with
    | none => rfl
    | some j => have := hi.act w r hr (by simp [hr']); rw [h1] at this; cases this
  unfold qStep
  rw [if_neg (by rw [h]; simp)]
  cases s with
  | submit ip job => simp [Queue.listening, h]
  | manage => simp [Queue.manage, h]
  | take w =>
    simp only [Queue.take]
    cases hr : q.inner.runners[w]? with
    | none => rfl
    | some r => simp [(key w r hr).1]
  | finish w =>
    simp only [Queue.finish]
    cases hr : q.inner.runners[w]? with
    | none => rfl
    | some r => simp [(key w r hr).2]
  | crash w =>
    simp only [Queue.crash]
    cases hr : q.inner.runners[w]? with
    | none => rfl
    | some r => simp [(key w r hr).2]
  | close => simp [Queue.listening, h]
  | joined => simp [h]

theorem stopped_run (p : Profile) {n ql : Nat} {q : Queue} {tr : List QEvent} (hi : QInv n ql q tr) (hl : LInv q) (h : q.status = .stopped)
    (steps : List QStep) : qRun p q steps = (q, []) := by
  induction steps with
  | nil => rfl
  | cons s r ih => simp [qRun, stopped_step p hi hl h s, ih]

end MCap
