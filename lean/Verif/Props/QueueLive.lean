import Verif.Props.Queue
import Verif.Proofs.SystemEnds

/-!
# C55, C105: shutting the queue down, whatever the schedule

Liveness is stated without fairness: whatever the schedule, only finitely many of its steps change anything (`queueChanges`), and when
nothing is left to be done by manager and workers (`QueueAtRest`) the shutdown is over.
-/

namespace MCap
open Spec

theorem closed_step (p : Profile) (q : Queue) (s : QStep) (h : q.closed = true) : (qStep p q s).1.closed = true := by
  unfold qStep
  split
  · exact h
  cases s with
  | submit ip j => simp [h]
  | manage =>
    simp only [Queue.manage]
    repeat' split
    all_goals first | exact h | (simp only [Queue.managerPanics]; exact h)
  | take w => simp only [Queue.take]; (repeat' split) <;> exact h
  | finish w => simp only [Queue.finish]; (repeat' split) <;> exact h
  | crash w => simp only [Queue.crash]; (repeat' split) <;> exact h
  | close => simp [h]
  | joined => simp only; (repeat' split) <;> exact h

theorem closed_submit (p : Profile) (q : Queue) (ip : String) (j : Nat) (h : q.closed = true) : (qStep p q (.submit ip j)).1 = q := by
  unfold qStep
  split <;> simp [h]

theorem queueChanges_le (p : Profile) (later : List QStep) (q : Queue) (h : q.closed = true) : queueChanges p q later ≤ queueW q := by
  induction later generalizing q with
  | nil => exact Nat.zero_le _
  | cons s r ih =>
    have hr := ih (qStep p q s).1 (closed_step p q s h)
    have hw : (qStep p q s).1 = q ∨ queueW (qStep p q s).1 < queueW q := by
      cases s with
      | submit ip j => exact .inl (closed_submit p q ip j h)
      | _ => exact queue_weight p q _ (by simp)
    unfold queueChanges
    rcases hw with e | hlt
    · rw [e] at hr ⊢; simp only [if_true]; omega
    · split <;> omega

theorem rest_run (p : Profile) (q : Queue) (h : QueueAtRest p q) (steps : List QStep) (hs : ∀ s ∈ steps, internal s = true) :
    (qRun p q steps).1 = q := by
  induction steps with
  | nil => rfl
  | cons s r ih =>
    have e := h s (hs s (by simp))
    simp only [qRun]
    rw [e]
    exact ih fun s hm => hs s (List.mem_cons_of_mem _ hm)

/-- C55. The shutdown is inevitable: once the manager has been dropped, whatever the schedule, only a bounded number of steps change
anything, and when manager and workers have nothing left to do the manager thread has returned, unless a job has panicked. -/
theorem C55_shutdown_inevitable (p : Profile) (n ql : Nat) (steps : List QStep) :
    (qFrom p n ql steps).1.closed = true →
      (∃ N, ∀ later, queueChanges p (qFrom p n ql steps).1 later ≤ N) ∧
      (noCrash steps → QueueAtRest p (qFrom p n ql steps).1 → (qFrom p n ql steps).1.status = .stopped) := by
  intro hcl
  refine ⟨⟨_, fun later => queueChanges_le p later _ hcl⟩, fun hc hr => ?_⟩
  obtain ⟨later, h1, h2⟩ := C55_shutdown_completes p n ql steps hc hcl
  rwa [rest_run p _ hr later h1] at h2

/-- A shutdown with a job running and two more in the inbox: eight of these steps change something. -/
example : let q := (qFrom ⟨true⟩ 1 9 (exWaitSteps ++ [.take 0, .close])).1
    let later : List QStep := [.manage, .finish 0, .take 0, .finish 0, .submit "C" 8, .take 0, .finish 0, .take 0, .joined, .manage]
    q.closed = true ∧ queueChanges ⟨true⟩ q later = 8 ∧ (qRun ⟨true⟩ q later).1.status = .stopped := by decide

theorem idle_orphan_step (p : Profile) (q : Queue) (w : Nat) (s : QStep) (h : q.status = .panicked) (hw : q.inner.runners[w]? = some Worker.spawn) :
    (qStep p q s).1.status = .panicked ∧ (qStep p q s).1.inner.runners[w]? = some Worker.spawn := by
  have hab : ¬ q.status = .aborted := by rw [h]; simp
  have hl : q.listening = false := by simp [Queue.listening, h]
  have hset : ∀ (w' : Nat) (r r' : Worker), q.inner.runners[w']? = some r → r ≠ Worker.spawn →
      (q.inner.runners.set w' r')[w]? = some Worker.spawn := by
    intro w' r r' hr hne
    rw [List.getElem?_set_ne]
    · exact hw
    · rintro rfl
      rw [hw] at hr
      exact hne (Option.some.inj hr).symm
  unfold qStep
  rw [if_neg hab]
  cases s with
  | submit ip j => simp [hl, h, hw]
  | manage => simp [Queue.manage, h, hw]
  | take w' =>
    simp only [Queue.take]
    split
    · exact ⟨h, hw⟩
    · rename_i r hr
      split
      · split
        · exact ⟨h, hw⟩
        · rename_i hb; exact ⟨h, hset w' r _ hr (by rintro rfl; cases hb)⟩
        · rename_i hb; exact ⟨h, hset w' r _ hr (by rintro rfl; cases hb)⟩
      · exact ⟨h, hw⟩
  | finish w' =>
    simp only [Queue.finish]
    split
    · exact ⟨h, hw⟩
    · rename_i r hr
      split
      · exact ⟨h, hw⟩
      · rename_i hj
        rw [if_neg (by simp [hl])]
        exact ⟨h, hset w' r _ hr (by rintro rfl; cases hj)⟩
  | crash w' =>
    simp only [Queue.crash]
    split
    · exact ⟨h, hw⟩
    · rename_i r hr
      split
      · exact ⟨h, hw⟩
      · rename_i hj
        exact ⟨h, hset w' r _ hr (by rintro rfl; cases hj)⟩
  | close => simp [hl, h, hw]
  | joined => simp [h, hw]

theorem orphan_spins (p : Profile) (w : Nat) (later : List QStep) (q : Queue) (h : q.status = .panicked)
    (hw : q.inner.runners[w]? = some Worker.spawn) : (qRun p q later).1.inner.runners[w]? = some Worker.spawn := by
  induction later generalizing q with
  | nil => exact hw
  | cons s r ih =>
    obtain ⟨h1, h2⟩ := idle_orphan_step p q w s h hw
    simp only [qRun]
    exact ih _ h1 h2

/-- C105 is refuted, with any number of workers: one job of one client panics on its worker; dropping the `Manager` panics, and the
threads of the other workers never end, whatever happens (they spin at src/queue.rs:54-55). This is for the order of the map in which
the worker that is gone comes first (see `Queue.manage`); in other orders those before it end. -/
theorem C105_drop_is_clean_refuted (p : Profile) (n ql : Nat) (hn : 1 ≤ n) (hq : 2 ≤ ql) (ip : String) (j : Nat) :
    let q := (qFrom p n ql [.submit ip j, .manage, .take 0, .crash 0, .close, .manage]).1
    DropPanicked q ∧ ∀ w, 0 < w → w < n → ∀ later, ThreadLives (qRun p q later).1 w := by
  obtain ⟨n, rfl⟩ : ∃ m, n = m + 1 := ⟨n - 1, by omega⟩
  have e : qFrom p (n + 1) ql [.submit ip j, .manage, .take 0, .crash 0, .close, .manage] =
      qRun p (Queue.new (n + 1) ql) (flood ip [j] ++ [.take 0, .crash 0, .close, .manage]) := rfl
  have e1 : (qFrom p (n + 1) ql [.submit ip j, .manage, .take 0, .crash 0, .close, .manage]).1 =
      { floodQueue n ql ip { inbox := [], running := none, status := .crashed } with status := .panicked, closed := true } := by
    rw [e, qRun_append]
    simp only
    rw [flood_new p n ql hq ip j []]
    simp [qRun, qStep, floodQueue, floodInner, Queue.take, Queue.crash, Queue.setWorker, Queue.listening, Queue.manage, Queue.someGone]
  simp only
  rw [e1]
  refine ⟨⟨rfl, rfl⟩, fun w h0 hw later => ⟨Worker.spawn, orphan_spins p w later _ rfl ?_, rfl⟩⟩
  obtain ⟨w, rfl⟩ : ∃ m, w = m + 1 := ⟨w - 1, by omega⟩
  simp only [floodQueue, floodInner, List.getElem?_cons_succ, List.getElem?_replicate]
  rw [if_pos (by omega)]

/-- Missing: histories in which a job panics. In all others dropping the `Manager` never panics, only a bounded number of steps change
anything from then on, it has returned when nothing is left to be done, and when it has returned no thread of a worker is left. -/
theorem C105_drop_is_clean_partial (p : Profile) (n ql : Nat) (steps : List QStep) (hc : noCrash steps) :
    ¬ DropPanicked (qFrom p n ql steps).1 ∧
    ((qFrom p n ql steps).1.closed = true →
      (∃ N, ∀ later, queueChanges p (qFrom p n ql steps).1 later ≤ N) ∧
      (QueueAtRest p (qFrom p n ql steps).1 → DropReturned (qFrom p n ql steps).1)) ∧
    (DropReturned (qFrom p n ql steps).1 → ∀ w, ¬ ThreadLives (qFrom p n ql steps).1 w) := by
  refine ⟨fun h => (C53_manager_never_panics p n ql steps hc).1 h.2, fun h => ?_, fun h w hl => ?_⟩
  · obtain ⟨h1, h2⟩ := C55_shutdown_inevitable p n ql steps h
    exact ⟨h1, fun hr => ⟨h, h2 hc hr⟩⟩
  · obtain ⟨r, hr, hal⟩ := hl
    have := (linv_new p n ql steps).fin h.2 w r hr
    rw [hal] at this; cases this

example : let steps := exWaitSteps ++ [.take 0, .close, .manage, .finish 0, .take 0, .finish 0, .take 0, .finish 0, .take 0, .joined]
    noCrash steps ∧ DropReturned (qFrom ⟨true⟩ 1 9 steps).1 := by
  simp only
  refine ⟨?_, by unfold DropReturned; decide⟩
  simp [noCrash, exWaitSteps]

end MCap
