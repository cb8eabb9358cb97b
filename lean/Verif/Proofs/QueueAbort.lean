import Verif.Proofs.QueueHealth

namespace MCap
open Spec

/-! ### The manager thread ends with the process or when told to -/

/-- Until the `Manager` is dropped nobody tells the thread to stop, and it cannot end but with the whole process. -/
def Untold (q : Queue) : Prop := q.closed = false → InnerMsg.stop ∉ q.mailbox ∧ (q.status = .running ∨ q.status = .aborted)

/-- When the manager thread panics on a message other than the last one, a worker is gone. -/
theorem panics_gone (p : Profile) {n ql : Nat} {q : Queue} {tr : List QEvent} (hi : QInv n ql q tr) (m : InnerMsg) (hm : m ∈ q.mailbox) :
    (∀ name w, m = .dispatch name → q.inner.dispatchTo p name = .panic w → q.someGone = true) ∧
    ∀ ip job w, m = .schedule ip job → q.inner.schedule p ip job = .panic w → q.someGone = true := by
  have hal : q.someGone = false → AllAlive q.inner := by
    intro hg r hr
    simp only [Queue.someGone, List.any_eq_false, bne_iff_ne, ne_eq, Decidable.not_not] at hg
    exact hg r hr
  constructor
  · rintro name w rfl hd
    cases hg : q.someGone with
    | true => rfl
    | false =>
      obtain ⟨im, ev, h⟩ := dispatchTo_ret p q.inner hi.inv (hi.mail name hm) (hal hg) name
      rw [h] at hd; cases hd
  · rintro ip job w rfl hd
    cases hg : q.someGone with
    | true => rfl
    | false =>
      obtain ⟨im, ev, h⟩ := schedule_ret p q.inner hi.inv (hal hg) ip job
      rw [h] at hd; cases hd

theorem untold_step (p : Profile) {n ql : Nat} {q : Queue} {tr : List QEvent} (hi : QInv n ql q tr) (s : QStep) (h : Untold q) :
    Untold (qStep p q s).1 := by
  unfold qStep
  split
  · exact h
  rename_i hnab
  cases s with
  | submit ip job =>
    simp only
    split
    · intro hc
      obtain ⟨a, b⟩ := h hc
      exact ⟨by simpa using a, b⟩
    · exact h
  | manage =>
    simp only [Queue.manage]
    split
    · rename_i hrun
      cases hm : q.mailbox with
      | nil => exact h
      | cons m rest =>
        have hrest : ∀ q' : Queue, q'.closed = q.closed → q'.mailbox = rest → (q'.status = .running ∨ q'.status = .aborted) → Untold q' := by
          intro q' e1 e2 e3 hc
          rw [e1] at hc
          refine ⟨?_, e3⟩
          rw [e2]
          intro hx
          exact (h hc).1 (by rw [hm]; exact List.mem_cons_of_mem _ hx)
        obtain ⟨p1, p2⟩ := panics_gone p hi m (by rw [hm]; simp)
        have hpan : q.someGone = true → ({ q with mailbox := rest } : Queue).managerPanics.status = .aborted := by
          intro hg
          have : ({ q with mailbox := rest } : Queue).someGone = true := hg
          unfold Queue.managerPanics
          rw [this]
          rfl
        cases m with
        | stop =>
          intro hc
          exact absurd (by rw [hm]; simp) (h (by simp only at hc; split at hc <;> exact hc)).1
        | dispatch name =>
          simp only
          split
          · exact hrest _ rfl rfl (.inl hrun)
          · rename_i hd; exact hrest _ rfl rfl (.inr (hpan (p1 _ _ rfl hd)))
        | schedule ip job =>
          simp only
          split
          · exact hrest _ rfl rfl (.inl hrun)
          · rename_i hd; exact hrest _ rfl rfl (.inr (hpan (p2 _ _ _ rfl hd)))
    · exact h
  | take w =>
    simp only [Queue.take]
    split
    · exact h
    · split
      · split <;> exact h
      · exact h
  | finish w =>
    simp only [Queue.finish]
    split
    · exact h
    · split
      · exact h
      · split
        · intro hc
          obtain ⟨a, b⟩ := h hc
          exact ⟨by simpa [Queue.setWorker] using a, b⟩
        · exact h
  | crash w =>
    simp only [Queue.crash]
    split
    · exact h
    · split <;> exact h
  | close =>
    simp only
    split
    · intro hc; cases hc
    · exact h
  | joined =>
    simp only
    split
    · rename_i hst
      have hno : q.closed = false → False := by
        intro hc
        rcases (h hc).2 with e | e <;> rw [hst] at e <;> cases e
      split
      · intro hc; exact (hno hc).elim
      · split
        · intro hc; exact (hno hc).elim
        · exact h
    · exact h

theorem untold_run (p : Profile) {n ql : Nat} (qs : List QStep) {q : Queue} {tr : List QEvent} (hi : QInv n ql q tr) (h : Untold q) :
    Untold (qRun p q qs).1 := by
  induction qs generalizing q tr with
  | nil => exact h
  | cons s r ih => exact ih (qinv_step p hi s) (untold_step p hi s h)

/-- A submission in the mailbox is answered or stays, or takes the process with it. -/
theorem answer_any (p : Profile) {n ql : Nat} {q : Queue} {tr : List QEvent} (hi : QInv n ql q tr) (s : QStep) (ip : String) (i : Nat)
    (h : InnerMsg.schedule ip i ∈ q.mailbox) :
    InnerMsg.schedule ip i ∈ (qStep p q s).1.mailbox ∨ .accepted ip i ∈ (qStep p q s).2 ∨ .refused ip i ∈ (qStep p q s).2 ∨
    (qStep p q s).1.status = .aborted := by
  unfold qStep
  split
  · exact .inl h
  cases s with
  | submit ip' job =>
    left
    simp only
    split
    · exact List.mem_append_left _ h
    · exact h
  | manage =>
    simp only [Queue.manage]
    split
    · cases hm : q.mailbox with
      | nil => rw [hm] at h; cases h
      | cons m rest =>
        obtain ⟨p1, p2⟩ := panics_gone p hi m (by rw [hm]; simp)
        rw [hm] at h
        rcases List.mem_cons.1 h with e | hin
        · subst e
          simp only
          cases hd : q.inner.schedule p ip i with
          | ret a =>
            obtain ⟨im, ev⟩ := a
            right
            rcases schedule_cases p q.inner im hi.inv ip i ev hd with ⟨-, rfl, rfl⟩ | ⟨hl, ev', rfl, d⟩ <;> simp
          | panic w =>
            right; right; right
            have : ({ q with mailbox := rest } : Queue).someGone = true := p2 _ _ _ rfl hd
            simp only [Queue.managerPanics, this, if_true]
        · left
          cases m with
          | stop => simp only; split <;> exact hin
          | dispatch name => simp only; split <;> exact hin
          | schedule ip job => simp only; split <;> exact hin
    · exact .inl h
  | take w =>
    left
    simp only [Queue.take]
    split
    · exact h
    · split
      · split <;> exact h
      · exact h
  | finish w =>
    left
    simp only [Queue.finish]
    split
    · exact h
    · split
      · exact h
      · split
        · exact List.mem_append_left _ h
        · exact h
  | crash w =>
    left
    simp only [Queue.crash]
    split
    · exact h
    · split <;> exact h
  | close =>
    left
    simp only
    split
    · exact List.mem_append_left _ h
    · exact h
  | joined =>
    left
    simp only
    split
    · split
      · exact h
      · split <;> exact h
    · exact h

theorem crash_quiet (p : Profile) (q : Queue) (w : Nat) (h : ∀ j, .crashedOn w j ∉ (qStep p q (.crash w)).2) : qStep p q (.crash w) = (q, []) := by
  unfold qStep at h ⊢
  split
  · rfl
  · rename_i hn
    rw [if_neg hn] at h
    simp only [Queue.crash] at h ⊢
    split
    · rfl
    · rename_i hr
      rw [hr] at h
      split
      · rfl
      · rename_i j hj; simp [hj] at h

/-- Crash steps without a crash can be left out. -/
theorem without_crash_steps (p : Profile) (steps : List QStep) (q : Queue) (h : ∀ w j, .crashedOn w j ∉ (qRun p q steps).2) :
    ∃ steps', noCrash steps' ∧ qRun p q steps' = qRun p q steps := by
  induction steps generalizing q with
  | nil => exact ⟨[], by simp [noCrash], rfl⟩
  | cons s r ih =>
    have h1 : ∀ w j, .crashedOn w j ∉ (qStep p q s).2 := fun w j hm => h w j (List.mem_append_left _ hm)
    obtain ⟨r', a, b⟩ := ih (qStep p q s).1 (fun w j hm => h w j (List.mem_append_right _ hm))
    by_cases hs : ∃ w, s = .crash w
    · obtain ⟨w, rfl⟩ := hs
      have e := crash_quiet p q w (fun j => h1 w j)
      refine ⟨r', a, ?_⟩
      rw [e] at b
      simp only [qRun, e, List.nil_append]
      rw [b]
    · refine ⟨s :: r', ?_, ?_⟩
      · intro w hm
        rcases List.mem_cons.1 hm with e | hm
        · exact hs ⟨w, e.symm⟩
        · exact a w hm
      · simp only [qRun, b]

end MCap
