import Verif.Proofs.QueueFlood
import Verif.Proofs.QueueTurns
import Verif.Proofs.QueueAbort

/-!
# C47-C55, C72, C73: the queue

`qRun p (Queue.new n ql) steps` executes an arbitrary schedule of submissions, manager messages, worker steps, panicking jobs and
the shutdown, with `n` workers and queue length `ql`; it returns the final state and the trace of events.
-/

namespace MCap
open Spec

/-- Shorthand of this file: final state and trace. -/
abbrev qFrom (p : Profile) (n ql : Nat) (steps : List QStep) : Queue × List QEvent := qRun p (Queue.new n ql) steps

/-- Two clients, two workers, three jobs; one is done, one is running. -/
def exQueueSteps : List QStep :=
  [.submit "A" 1, .manage, .submit "B" 2, .manage, .take 0, .finish 0, .manage, .submit "A" 3, .manage, .take 0]

/-- One worker, more clients than workers: jobs wait. -/
def exWaitSteps : List QStep := [.submit "A" 1, .submit "B" 2, .submit "A" 3, .submit "A" 4, .manage, .manage, .manage, .manage]

/-- C47. Client by client, what was accepted is what was handed over followed by what waits; worker by worker, what was handed
over is what was run followed by what is on it, unless the worker died of a panicking job; only existing workers get jobs. -/
theorem C47_one_place (p : Profile) (n ql : Nat) (steps : List QStep) :
    let (q, tr) := qFrom p n ql steps
    (∀ ip, acceptedOf ip tr = handedOf ip tr ++ waitingOf q ip) ∧
    (∀ w, w < n → notCrashed q w → handedTo w tr = ranBy w tr ++ onWorker q w) ∧
    (∀ w ip j, .handed w ip j ∈ tr → w < n) := by
  have h := qinv_new p n ql steps
  refine ⟨h.fifo, ?_, fun w ip j => handed_lt h w ip j⟩
  intro w hw hc
  have hlt : w < (qFrom p n ql steps).1.inner.runners.length := by rw [h.nrun]; exact hw
  have hr := List.getElem?_eq_getElem hlt
  have := h.wrk w _ hr (hc _ hr)
  simpa [onWorker, hr] using this

/-- C47. Counted over all clients and workers: each accepted job is in exactly one place. In particular (both sides zero) a job
never accepted is nowhere. -/
theorem C47_counted (p : Profile) (n ql : Nat) (steps : List QStep) (j : Nat) :
    let (q, tr) := qFrom p n ql steps
    (acceptedJobs tr).count j = (waitingJobs q).count j + ((List.range n).map fun w => (handedTo w tr).count j).sum := by
  have h := qinv_new p n ql steps
  have h1 := count_new p n ql steps j
  have h2 := handed_sum n _ (fun w ip j => handed_lt h w ip j) j
  simp only
  rw [← h2]
  omega

example : (qFrom ⟨true⟩ 2 9 exQueueSteps).2.length = 16 ∧ (acceptedJobs (qFrom ⟨true⟩ 2 9 exQueueSteps).2) = [1, 2, 3] ∧
    onWorker (qFrom ⟨true⟩ 2 9 exQueueSteps).1 0 = [2, 3] ∧ ranBy 0 (qFrom ⟨true⟩ 2 9 exQueueSteps).2 = [1] := by decide
example : waitingJobs (qFrom ⟨true⟩ 1 9 exWaitSteps).1 = [4] ∧ handedTo 0 (qFrom ⟨true⟩ 1 9 exWaitSteps).2 = [1, 2, 3] := by decide

/-- C48. The jobs of one client handed over so far are the first ones accepted, in the order of acceptance. -/
theorem C48_submission_order (p : Profile) (n ql : Nat) (steps : List QStep) (ip : String) :
    handedOf ip (qFrom p n ql steps).2 <+: acceptedOf ip (qFrom p n ql steps).2 := by
  rw [(qinv_new p n ql steps).fifo ip]
  exact List.prefix_append _ _

/-- C48. A worker starts the jobs handed to it in that order, and completes them in that order. -/
theorem C48_worker_order (p : Profile) (n ql : Nat) (steps : List QStep) (w : Nat) :
    startedBy w (qFrom p n ql steps).2 <+: handedTo w (qFrom p n ql steps).2 ∧
    ranBy w (qFrom p n ql steps).2 <+: startedBy w (qFrom p n ql steps).2 :=
  ⟨(order_new p n ql steps w).2, (order_new p n ql steps w).1⟩

example : handedOf "A" (qFrom ⟨true⟩ 1 9 exWaitSteps).2 = [1, 3] ∧ acceptedOf "A" (qFrom ⟨true⟩ 1 9 exWaitSteps).2 = [1, 3, 4] := by decide

/-- C49. After any history `steps` let `n` clients be known. In any continuation that brings no new client, any `n` consecutive
turns serve every known client exactly once. -/
theorem C49_round_robin (p : Profile) (n ql : Nat) (steps more : List QStep) :
    let (q, tr) := qFrom p n ql steps
    let seg := (qRun p q more).2
    (∀ ip ∈ acceptedIps seg, ip ∈ acceptedIps tr) →
    ∀ i, i + distinctClients tr ≤ (turns seg).length → ∀ ip ∈ acceptedIps tr,
      (((turns seg).drop i).take (distinctClients tr)).count ip = 1 := by
  have h := qinv_new p n ql steps
  simp only
  intro hs i hi ip hip
  have hsame := ips_same h (qinv_run p h more) hs
  have hmem : ip ∈ (qFrom p n ql steps).1.inner.ips := by rw [h.ipsEq]; exact List.mem_eraseDups.2 hip
  have hne : (qFrom p n ql steps).1.inner.ips ≠ [] := by intro e; rw [e] at hmem; simp at hmem
  have ht := turns_around p h more hsame hne
  have hd := distinct_eq h
  rw [hd] at hi ⊢
  rw [← count_map_some, List.map_take, List.map_drop, ht, around_window _ _ _ _ _ hi]
  exact around_once _ h.inv.nd _ ip hmem

example : let tr := (qFrom ⟨true⟩ 1 9 exWaitSteps).2
    let seg := (qRun ⟨true⟩ (qFrom ⟨true⟩ 1 9 exWaitSteps).1 [.take 0, .finish 0, .manage, .take 0, .finish 0, .manage]).2
    distinctClients tr = 2 ∧ turns seg = ["A", "B"] ∧ acceptedIps seg = [] ∧ acceptedIps tr = ["A", "B", "A", "A"] := by decide

/-- C50. In every history: a submission is refused only when the number of distinct clients accepted before equals the queue
length and accepted only when it is smaller; that number never exceeds the queue length. -/
theorem C50_admission (p : Profile) (n ql : Nat) (steps : List QStep) :
    let tr := (qFrom p n ql steps).2
    distinctClients tr ≤ ql ∧
    (∀ before after ip j, tr = before ++ .refused ip j :: after → distinctClients before = ql) ∧
    (∀ before after ip j, tr = before ++ .accepted ip j :: after → distinctClients before < ql) := by
  have h := qinv_new p n ql steps
  have ha := admission_new p n ql steps
  refine ⟨?_, ha.1, ha.2⟩
  rw [distinct_eq h]; exact h.len

/-- C50. When no job has panicked, every submission reaching the manager is answered, and the answer is determined by the number of
distinct clients. -/
theorem C50_answered (p : Profile) (n ql : Nat) (steps : List QStep) (hc : noCrash steps) (ip : String) (job : Nat) (rest : List InnerMsg) :
    let (q, tr) := qFrom p n ql steps
    q.status = .running → q.mailbox = .schedule ip job :: rest →
      (qStep p q .manage).2.head? = some (if distinctClients tr = ql then .refused ip job else .accepted ip job) := by
  have g := good_new p n ql steps hc
  simp only
  intro hr hm
  obtain ⟨im, ev, hd⟩ := schedule_ret p _ g.qi.inv (allAlive g.hi g.li hr) ip job
  have he : (qStep p (qFrom p n ql steps).1 .manage).2 = ev := by
    simp [qStep, Queue.manage, hr, hm, hd]
  rw [he, distinct_eq g.qi]
  rcases schedule_cases p _ im g.qi.inv ip job ev hd with ⟨h1, -, rfl⟩ | ⟨h1, ev', rfl, -⟩
  · rw [keys_length _ g.qi.inv, g.qi.qlen] at h1
    rw [if_pos h1]; rfl
  · rw [keys_length _ g.qi.inv, g.qi.qlen] at h1
    rw [if_neg h1]; rfl

example : (qFrom ⟨true⟩ 1 2 (exWaitSteps ++ [.submit "C" 9, .manage])).2.filter (fun e => e matches .refused ..) =
    [.refused "A" 3, .refused "A" 4, .refused "C" 9] := by decide

/-- C51 is refuted: once as many distinct clients as the queue length have been accepted, no submission is ever accepted again,
whatever happens later. -/
theorem C51_full_queue_recovers_refuted (p : Profile) (n ql : Nat) (steps later : List QStep) :
    let (q, tr) := qFrom p n ql steps
    distinctClients tr = ql → ∀ ip j, .accepted ip j ∉ (qRun p q later).2 := by
  simp only
  intro hfull ip j hm
  obtain ⟨a, b, e⟩ := List.append_of_mem hm
  have h := (admission_new p n ql (steps ++ later)).2 ((qFrom p n ql steps).2 ++ a) b ip j (by
    rw [qRun_append]; simp only; rw [e, List.append_assoc])
  have : distinctClients (qFrom p n ql steps).2 ≤ distinctClients ((qFrom p n ql steps).2 ++ a) := by
    simp [distinctClients, acceptedIps_append, List.eraseDups_append]
  rw [hfull] at this
  omega

/-- C51, the situation is reached: every accepted job has been run, nobody waits, and yet the queue is full. -/
theorem C51_drained_but_full_refuted :
    ∃ steps, let (q, tr) := qFrom ⟨true⟩ 1 2 steps
      (∀ j ∈ acceptedJobs tr, j ∈ ranBy 0 tr) ∧ acceptedJobs tr ≠ [] ∧ waitingJobs q = [] ∧ q.mailbox = [] ∧ q.status = .running ∧
      distinctClients tr = 2 :=
  ⟨[.submit "A" 1, .manage, .take 0, .finish 0, .manage, .submit "B" 2, .manage, .take 0, .finish 0, .manage], by decide⟩

/-- C51, what does hold: while fewer distinct clients than the queue length have ever been accepted, submissions are accepted,
however many jobs there are. Missing: recovery after that. -/
theorem C51_full_queue_recovers_partial (p : Profile) (n ql : Nat) (steps : List QStep) (hc : noCrash steps) (ip : String) (job : Nat)
    (rest : List InnerMsg) :
    let (q, tr) := qFrom p n ql steps
    q.status = .running → q.mailbox = .schedule ip job :: rest → distinctClients tr < ql →
      (qStep p q .manage).2.head? = some (.accepted ip job) := by
  have := C50_answered p n ql steps hc ip job rest
  simp only at this ⊢
  intro h1 h2 h3
  rw [this h1 h2, if_neg (Nat.ne_of_lt h3)]

example : let (q, tr) := qFrom ⟨true⟩ 1 3 (exWaitSteps ++ [.submit "A" 9])
    q.status = .running ∧ q.mailbox = [.schedule "A" 9] ∧ distinctClients tr < 3 := by decide

/-- A history that leaves a job stranded. -/
def exStrand : List QStep :=
  [.submit "A" 1, .manage, .take 0, .finish 0, .manage, .submit "B" 2, .manage, .take 0, .finish 0, .manage, .submit "A" 3, .manage]

theorem exStrand_idle : Idle (qFrom ⟨true⟩ 1 9 exStrand).1 := by
  have e : (qFrom ⟨true⟩ 1 9 exStrand).1 =
      { inner := { queues := [("A", [3]), ("B", [])], runners := [Worker.spawn], ips := ["A", "B"], cur := 1, queueLength := 9 },
        mailbox := [], status := .running, closed := false } := by decide
  rw [e]
  refine ⟨rfl, rfl, ?_⟩
  intro w r h
  cases w with
  | zero => simp at h; subst h; exact ⟨rfl, rfl⟩
  | succ w => simp at h

/-- C52 is refuted: one worker, the jobs of `A` and `B` are run and finish, then a second job of `A` is accepted when it is the turn of
`B`: nobody hands it to the idle worker, and without further submissions nothing ever will, whatever is scheduled. -/
theorem C52_every_job_run_refuted :
    ∃ steps, noCrash steps ∧
      acceptedOf "A" (qFrom ⟨true⟩ 1 9 steps).2 = [1, 3] ∧ handedOf "A" (qFrom ⟨true⟩ 1 9 steps).2 = [1] ∧
      ∀ later, (∀ s ∈ later, internal s = true) →
        (qRun ⟨true⟩ (qFrom ⟨true⟩ 1 9 steps).1 later).2 = [] ∧ waitingOf (qRun ⟨true⟩ (qFrom ⟨true⟩ 1 9 steps).1 later).1 "A" = [3] := by
  refine ⟨exStrand, by simp [noCrash, exStrand], by decide, by decide, ?_⟩
  intro later hl
  rw [idle_run ⟨true⟩ exStrand_idle later hl]
  have h : waitingOf (qFrom ⟨true⟩ 1 9 exStrand).1 "A" = [3] := by decide
  exact ⟨rfl, h⟩

/-- C52, what does hold: as long as there are at most as many clients as workers, no job waits: every accepted job has been handed to a
worker as soon as it is answered. Missing: more clients than workers. -/
theorem C52_every_job_run_partial (p : Profile) (n ql : Nat) (steps : List QStep) :
    let (q, tr) := qFrom p n ql steps
    distinctClients tr ≤ n → ∀ ip, waitingOf q ip = [] ∧ handedOf ip tr = acceptedOf ip tr := by
  have h := qinv_new p n ql steps
  simp only
  intro hd ip
  rw [distinct_eq h] at hd
  have hw := few_new p n ql steps hd ip
  refine ⟨hw, ?_⟩
  rw [h.fifo ip, hw, List.append_nil]

example : distinctClients (qFrom ⟨true⟩ 2 9 exQueueSteps).2 = 2 ∧ (acceptedJobs (qFrom ⟨true⟩ 2 9 exQueueSteps).2).length = 3 := by decide

/-- C52, what does hold with more clients: with `m` clients and no new one, the first `k` jobs waiting for a client have been handed
over, in order, after `m * k` further turns, even if more is submitted. Missing: turns come only with submissions and completions. -/
theorem C52_waits_bounded_turns_partial (p : Profile) (n ql : Nat) (steps more : List QStep) (ip : String) (k : Nat) :
    let (q, tr) := qFrom p n ql steps
    let seg := (qRun p q more).2
    (∀ ip ∈ acceptedIps seg, ip ∈ acceptedIps tr) → k ≤ (waitingOf q ip).length → distinctClients tr * k ≤ (turns seg).length →
      (waitingOf q ip).take k <+: handedOf ip seg := by
  exact waits_bounded p (qinv_new p n ql steps) more ip k

example : let q := (qFrom ⟨true⟩ 1 9 exWaitSteps).1
    let seg := (qRun ⟨true⟩ q [.take 0, .finish 0, .take 0, .finish 0, .submit "A" 7, .manage, .manage, .manage]).2
    waitingOf q "A" = [4] ∧ (turns seg).length = 3 ∧ handedOf "A" seg = [4, 7] := by decide

/-- C53. As long as no job panics the manager thread neither panics nor aborts, in both build profiles. -/
theorem C53_manager_never_panics (p : Profile) (n ql : Nat) (steps : List QStep) (hc : noCrash steps) : Healthy (qFrom p n ql steps).1 :=
  (hinv_new p n ql steps hc).ok

example : noCrash exQueueSteps ∧ noCrash exStrand := by constructor <;> simp [noCrash, exQueueSteps, exStrand]

/-- C54 is refuted, with any number of workers: a client's job panics on its worker; the next submission of the client aborts the whole
process. -/
theorem C54_crash_contained_refuted (p : Profile) (n ql : Nat) (hn : 1 ≤ n) (hq : 2 ≤ ql) (ip : String) (j k : Nat) :
    (qFrom p n ql [.submit ip j, .manage, .take 0, .crash 0, .submit ip k, .manage]).1.status = .aborted := by
  obtain ⟨n, rfl⟩ : ∃ m, n = m + 1 := ⟨n - 1, by omega⟩
  have hr : List.range (n + 1) = 0 :: (List.range n).map Nat.succ := List.range_succ_eq_map
  let r0 : Worker := { inbox := [.prove j], running := none, status := .alive }
  let im1 : Inner :=
    { queues := [(ip, [])], runners := r0 :: List.replicate n Worker.spawn, ips := [ip], cur := 0, queueLength := ql }
  have h1 : (Inner.new (n + 1) ql).schedule p ip j =
      .ret (im1, .accepted ip j :: ([.served ip, .handed 0 ip j] ++ ((List.range n).map Nat.succ).map fun _ => .served ip)) := by
    have hl : ¬ (0 = ql) := by omega
    have hd := single_dispatch p ip ((List.range n).map Nat.succ) im1 rfl rfl rfl (by
      intro x hx
      simp only [List.mem_map, List.mem_range] at hx
      obtain ⟨a, ha, rfl⟩ := hx
      simp [im1]; omega)
    let im0 : Inner :=
      { queues := [(ip, [j])], runners := Worker.spawn :: List.replicate n Worker.spawn, ips := [ip], cur := 0, queueLength := ql }
    have ht : im0.dispatchTo p 0 = .ret (im1, [.served ip, .handed 0 ip j]) := by
      simp [im0, im1, r0, Inner.dispatchTo, Inner.advance, usizeSub, Inner.serve, AMap.get, AMap.insert, Worker.spawn]
    have ha : im0.dispatch p =
        .ret (im1, [.served ip, .handed 0 ip j] ++ ((List.range n).map Nat.succ).map fun _ => .served ip) := by
      have hlen : im0.runners.length = n + 1 := by simp [im0]
      have h0 : im0.runners[0]? = some Worker.spawn := rfl
      unfold Inner.dispatch
      rw [hlen, hr]
      unfold Inner.dispatchAll
      simp [h0, ht, hd]
    have : (Inner.new (n + 1) ql).schedule p ip j = (im0.dispatch p).bind fun (im', ev) => .ret (im', .accepted ip j :: ev) := by
      simp [Inner.schedule, Inner.new, hl, AMap.get, AMap.insert, im0, List.replicate_succ]
    rw [this, ha]
    rfl
  have h2 : ({ im1 with runners := { inbox := [], running := none, status := .crashed } :: List.replicate n Worker.spawn } : Inner).schedule p ip k =
      .panic .unwrapErr := by
    have hl : ¬ (1 = ql) := by omega
    simp [Inner.schedule, im1, hl, AMap.get, AMap.insert, Inner.dispatch, hr, Inner.dispatchAll, Inner.dispatchTo, Inner.advance,
      usizeSub, Inner.serve]
  simp [qFrom, qRun, qStep, Queue.new, Queue.listening, Queue.manage, h1, Queue.take, Queue.crash, Queue.setWorker, im1, r0]
  simp [im1] at h2
  simp [h2, Queue.managerPanics, Queue.someGone]

/-- C54, another client suffers as well: the job of `A` panics, the service dies when `B` submits. -/
example : (qFrom ⟨false⟩ 2 9 [.submit "A" 1, .manage, .take 0, .crash 0, .submit "B" 3, .manage]).1.status = .aborted := by decide

/-- C54, what does hold: the panic itself destroys only that worker, its running job and what was in its inbox. Client queues, mailbox,
manager and the other workers are untouched, and the other workers still run everything handed to them, in order.
Missing: survival of the next job that falls to the dead worker. -/
theorem C54_crash_contained_partial (p : Profile) (n ql : Nat) (steps : List QStep) (w : Nat) :
    let q := (qFrom p n ql steps).1
    let q' := (qStep p q (.crash w)).1
    (∀ ip, waitingOf q' ip = waitingOf q ip) ∧ q'.mailbox = q.mailbox ∧ q'.status = q.status ∧
    (∀ w', w' ≠ w → q'.inner.runners[w']? = q.inner.runners[w']?) := by
  simp only
  generalize (qFrom p n ql steps).1 = q
  unfold qStep
  split
  · simp
  · simp only [Queue.crash]
    split
    · simp
    · split
      · simp
      · refine ⟨fun ip => rfl, rfl, rfl, ?_⟩
        intro w' hne
        simp [Queue.setWorker, List.getElem?_set, hne.symm]

example : onWorker (qStep ⟨true⟩ (qFrom ⟨true⟩ 2 9 exQueueSteps).1 (.crash 0)).1 0 = [] ∧
    (qStep ⟨true⟩ (qFrom ⟨true⟩ 2 9 exQueueSteps).1 (.crash 0)).2 = [.crashedOn 0 2] := by decide

/-- C55. Once the manager thread has begun to shut down (or is gone), whatever happens: no job is accepted or handed over any more, so
jobs still waiting are never run (workers complete only what had been handed to them before); and a worker that returns from its loop
has run everything handed to it. -/
theorem C55_dispatched_run_waiting_dropped (p : Profile) (n ql : Nat) (steps later : List QStep) :
    let (q, tr) := qFrom p n ql steps
    let (q', tr') := qRun p q later
    q.status ≠ .running →
      (∀ e ∈ tr', isHandover e = false) ∧
      (∀ w, ranBy w (tr ++ tr') <+: handedTo w tr) ∧
      (Healthy q' → ∀ w r, q'.inner.runners[w]? = some r → r.status = .exited → ranBy w (tr ++ tr') = handedTo w tr) := by
  simp only
  intro hst
  have h := qinv_new p n ql steps
  have hn := (not_running_run p h hst later).2
  have hto : ∀ w, handedTo w (qRun p (qFrom p n ql steps).1 later).2 = [] := by
    intro w
    simp only [handedTo, List.filterMap_eq_nil_iff]
    intro e he
    have := hn e he
    cases e <;> simp [isHandover] at this <;> rfl
  have happ := qRun_append p (Queue.new n ql) steps later
  have h' := qinv_new p n ql (steps ++ later)
  have hl := linv_new p n ql (steps ++ later)
  have ho := order_new p n ql (steps ++ later)
  rw [happ] at h' hl ho
  refine ⟨hn, ?_, ?_⟩
  · intro w
    have := (ho w).1.trans (ho w).2
    rwa [handedTo_append, hto, List.append_nil] at this
  · intro hh w r hr he
    have hw := h'.wrk w r hr (by rw [he]; simp)
    have hi := hl.ext hh.1 hh.2 w r hr he
    have hrun : r.running = none := by
      cases hx : r.running with
      | none => rfl
      | some j => have := h'.act w r hr (by simp [hx]); rw [he] at this; cases this
    rw [hi, hrun, handedTo_append, hto, List.append_nil] at hw
    simpa [jobsIn] using hw.symm

/-- C55. When the manager thread has returned, every job handed over has been run, and nothing ever happens again. -/
theorem C55_afterwards_nothing (p : Profile) (n ql : Nat) (steps later : List QStep) :
    let (q, tr) := qFrom p n ql steps
    q.status = .stopped → (∀ w, w < n → ranBy w tr = handedTo w tr) ∧ qRun p q later = (q, []) := by
  simp only
  intro hst
  have h := qinv_new p n ql steps
  have hl := linv_new p n ql steps
  refine ⟨?_, stopped_run p h hl hst later⟩
  intro w hw
  have hlt : w < (qFrom p n ql steps).1.inner.runners.length := by rw [h.nrun]; exact hw
  have hr := List.getElem?_eq_getElem hlt
  have he := hl.fin hst w _ hr
  have hc := C55_dispatched_run_waiting_dropped p n ql steps []
  simp only [qRun, List.append_nil] at hc
  exact (hc (by rw [hst]; simp)).2.2 ⟨by rw [hst]; simp, by rw [hst]; simp⟩ w _ hr he

/-- C55. The shutdown completes: from every state of a panic-free history in which the manager has been dropped, workers and manager can
run on, without any help from outside, until the manager thread has returned. -/
theorem C55_shutdown_completes (p : Profile) (n ql : Nat) (steps : List QStep) (hc : noCrash steps) :
    (qFrom p n ql steps).1.closed = true →
      ∃ later, (∀ s ∈ later, internal s = true) ∧ (qRun p (qFrom p n ql steps).1 later).1.status = .stopped := by
  intro hcl
  have g := good_new p n ql steps hc
  cases hst : (qRun p (Queue.new n ql) steps).1.status with
  | running => exact closing_ends p _ g hst hcl (Nat.le_refl _)
  | stopping => exact stopping_ends p _ g hst (Nat.le_refl _)
  | stopped => exact ⟨[], by simp, hst⟩
  | panicked => exact absurd hst g.hi.ok.1
  | aborted => exact absurd hst g.hi.ok.2

/-- Shutdown with a running job, jobs in the inbox and a waiting job: the latter is dropped. -/
example : let r := qFrom ⟨true⟩ 1 9 (exWaitSteps ++ [.take 0, .close, .manage, .finish 0, .take 0, .finish 0, .take 0, .finish 0, .take 0, .joined])
    r.1.status = .stopped ∧ ranBy 0 r.2 = [1, 2, 3] ∧ waitingJobs r.1 = [4] := by decide
example : (qFrom ⟨true⟩ 1 9 (exWaitSteps ++ [.take 0, .close])).1.closed = true ∧
    (qFrom ⟨true⟩ 1 9 (exWaitSteps ++ [.take 0, .close])).1.status = .running := by decide

/-- C72 is refuted: however many workers and whatever the queue length (at least two), one client alone can have any number of jobs
accepted of which none has been started. -/
theorem C72_client_bounded_refuted (p : Profile) (n ql : Nat) (hn : 1 ≤ n) (hq : 2 ≤ ql) (js : List Nat) :
    ∃ steps, acceptedOf "A" (qFrom p n ql steps).2 = js ∧ ∀ w, startedBy w (qFrom p n ql steps).2 = [] := by
  obtain ⟨n, rfl⟩ : ∃ m, n = m + 1 := ⟨n - 1, by omega⟩
  cases js with
  | nil => exact ⟨[], rfl, fun _ => rfl⟩
  | cons j js =>
    refine ⟨flood "A" (j :: js), ?_⟩
    obtain ⟨-, h2, h3, -⟩ := flood_trace n "A" (j :: js)
    rw [qFrom, flood_new p n ql hq "A" j js]
    exact ⟨h2, h3⟩

/-- C72, also for the client's own queue: with one worker and queue length 3 it exceeds every bound. -/
theorem C72_client_queue_bounded_refuted (p : Profile) (bound : Nat) :
    ∃ steps, noCrash steps ∧ bound < (waitingOf (qFrom p 1 3 steps).1 "A").length := by
  have h0 : (qFrom p 1 3 [.submit "B" 1, .manage, .submit "A" 7, .manage]).1 = growQueue [] [.prove 1, .prove 7] := by
    simp [qFrom, qRun, qStep, Queue.new, Inner.new, Queue.listening, Queue.manage, Inner.schedule, AMap.get, AMap.insert, Inner.dispatch,
      Inner.dispatchAll, Inner.dispatchTo, Inner.advance, usizeSub, Inner.serve, List.range_succ, List.replicate, Worker.spawn, growQueue,
      growInner]
  obtain ⟨steps, hs, l, inbox, e, hl⟩ := grow_many p (bound + 1) [] [.prove 1, .prove 7]
  refine ⟨[.submit "B" 1, .manage, .submit "A" 7, .manage] ++ steps, ?_, ?_⟩
  · intro w hm
    rcases List.mem_append.1 hm with hm | hm
    · simp at hm
    · rcases hs _ hm with h | h <;> cases h
  · rw [qFrom, qRun_append]
    simp only
    rw [h0, e]
    have : waitingOf (growQueue l inbox) "A" = l := by simp [waitingOf, growQueue, growInner, AMap.get]
    rw [this, hl]
    simp

/-- C72, what does hold: the number of client queues is bounded by the queue length. Missing: a bound on each of them. -/
theorem C72_client_bounded_partial (p : Profile) (n ql : Nat) (steps : List QStep) :
    (qFrom p n ql steps).1.inner.queues.length ≤ ql := by
  have h := qinv_new p n ql steps
  rw [keys_length _ h.inv]; exact h.len

/-- C73 is refuted, with any number of workers: client `A` submits any number of jobs, then `B` its first job. It is handed over at once,
to worker 0, behind all jobs of `A`: in no continuation does worker 0 complete it before all of them. -/
theorem C73_backlog_delays_others_refuted (p : Profile) (n ql : Nat) (hn : 1 ≤ n) (hq : 3 ≤ ql) (j : Nat) (js : List Nat) (b : Nat)
    (hb : b ∉ j :: js) :
    let (q, tr) := qFrom p n ql (flood "A" (j :: js) ++ [.submit "B" b, .manage])
    acceptedOf "A" tr = j :: js ∧ acceptedOf "B" tr = [b] ∧ .handed 0 "B" b ∈ tr ∧
    ∀ later, b ∈ ranBy 0 (tr ++ (qRun p q later).2) → j :: js <+: ranBy 0 (tr ++ (qRun p q later).2) := by
  obtain ⟨n, rfl⟩ : ∃ m, n = m + 1 := ⟨n - 1, by omega⟩
  obtain ⟨q', ev, e, he, hea⟩ := flood_other p n ql hq "A" "B" (by decide)
    { inbox := (j :: js).map .prove, running := none, status := .alive } rfl b
  obtain ⟨f1, f2, f3, f4⟩ := flood_trace n "A" (j :: js)
  have hrun : qFrom p (n + 1) ql (flood "A" (j :: js) ++ [.submit "B" b, .manage]) =
      (q', (j :: js).flatMap (floodEvents n "A") ++ (.accepted "B" b :: .served "B" :: .handed 0 "B" b :: ev)) := by
    rw [qFrom, qRun_append, flood_new p n ql (by omega) "A" j js]
    simp only
    rw [e]
  have hto : handedTo 0 (qFrom p (n + 1) ql (flood "A" (j :: js) ++ [.submit "B" b, .manage])).2 = (j :: js) ++ [b] := by
    rw [hrun, handedTo_append, f1]
    have : handedTo 0 (.accepted "B" b :: .served "B" :: .handed 0 "B" b :: ev) = b :: handedTo 0 ev := rfl
    rw [this, he]
  have hlater : ∀ later, b ∈ ranBy 0 ((qFrom p (n + 1) ql (flood "A" (j :: js) ++ [.submit "B" b, .manage])).2 ++
        (qRun p (qFrom p (n + 1) ql (flood "A" (j :: js) ++ [.submit "B" b, .manage])).1 later).2) →
      j :: js <+: ranBy 0 ((qFrom p (n + 1) ql (flood "A" (j :: js) ++ [.submit "B" b, .manage])).2 ++
        (qRun p (qFrom p (n + 1) ql (flood "A" (j :: js) ++ [.submit "B" b, .manage])).1 later).2) := by
    intro later hm
    have ho := order_new p (n + 1) ql ((flood "A" (j :: js) ++ [.submit "B" b, .manage]) ++ later) 0
    rw [qRun_append] at ho
    have hp := ho.1.trans ho.2
    simp only at hp
    rw [handedTo_append, hto, List.append_assoc] at hp
    rcases List.prefix_or_prefix_of_prefix hp (List.prefix_append (j :: js) _) with h | h
    · exact absurd (h.subset hm) hb
    · exact h
  simp only
  rw [qFrom] at hrun
  refine ⟨?_, ?_, ?_, hlater⟩
  · rw [hrun, acceptedOf_append, f2]
    have : acceptedOf "A" (.accepted "B" b :: .served "B" :: .handed 0 "B" b :: ev) = acceptedOf "A" ev := by simp [acceptedOf]
    rw [this, hea, List.append_nil]
  · rw [hrun, acceptedOf_append, (f4 "B" (by decide)).1]
    have : acceptedOf "B" (.accepted "B" b :: .served "B" :: .handed 0 "B" b :: ev) = b :: acceptedOf "B" ev := by simp [acceptedOf]
    rw [this, hea]; rfl
  · rw [hrun]; simp

/-- The hypotheses are met: a backlog of four jobs, three workers; two of them never do anything. -/
example : let r := qFrom ⟨true⟩ 3 9 (flood "A" [1, 2, 3, 4] ++ [.submit "B" 5, .manage, .take 0, .take 1, .take 2, .finish 0, .take 0])
    startedBy 0 r.2 = [1, 2] ∧ onWorker r.1 0 = [2, 3, 4, 5] ∧ onWorker r.1 1 = [] ∧ onWorker r.1 2 = [] := by decide

/-- C73, what does hold: the handing over itself is fair: with `d` known clients and no new one, any `d * m` consecutive turns give every
known client exactly `m` turns, whatever their backlogs.
Missing: what was handed over to busy workers stays in their unbounded inboxes, ahead of later jobs of other clients. -/
theorem C73_backlog_delays_others_partial (p : Profile) (n ql : Nat) (steps more : List QStep) (i : Nat) :
    let (q, tr) := qFrom p n ql steps
    let seg := (qRun p q more).2
    (∀ ip ∈ acceptedIps seg, ip ∈ acceptedIps tr) → ∀ m, i + distinctClients tr * m ≤ (turns seg).length →
      ∀ ip ∈ acceptedIps tr, (((turns seg).drop i).take (distinctClients tr * m)).count ip = m := by
  have h := qinv_new p n ql steps
  simp only
  intro hs m hi ip hip
  have hsame := ips_same h (qinv_run p h more) hs
  have hmem : ip ∈ (qFrom p n ql steps).1.inner.ips := by rw [h.ipsEq]; exact List.mem_eraseDups.2 hip
  have hne : (qFrom p n ql steps).1.inner.ips ≠ [] := by intro e; rw [e] at hmem; simp at hmem
  have ht := turns_around p h more hsame hne
  have hd := distinct_eq h
  rw [hd] at hi ⊢
  rw [← count_map_some, List.map_take, List.map_drop, ht, around_window _ _ _ _ _ hi]
  exact around_times _ h.inv.nd _ _ ip hmem

example : let tr := (qFrom ⟨true⟩ 1 9 exWaitSteps).2
    let seg := (qRun ⟨true⟩ (qFrom ⟨true⟩ 1 9 exWaitSteps).1 (List.replicate 4 [QStep.take 0, .finish 0, .submit "A" 7, .manage, .manage]).flatten).2
    distinctClients tr = 2 ∧ (turns seg).count "A" = 4 ∧ (turns seg).count "B" = 4 := by decide

/-- C74 is refuted, with any number of workers: all jobs of a single client pile up on worker 0 while the other workers are idle. -/
theorem C74_no_idle_worker_refuted (p : Profile) (n ql : Nat) (hn : 1 ≤ n) (hq : 2 ≤ ql) (j : Nat) (js : List Nat) :
    let (q, tr) := qFrom p n ql (flood "A" (j :: js))
    acceptedOf "A" tr = j :: js ∧ onWorker q 0 = j :: js ∧ ∀ w, w ≠ 0 → onWorker q w = [] := by
  obtain ⟨n, rfl⟩ : ∃ m, n = m + 1 := ⟨n - 1, by omega⟩
  obtain ⟨-, f2, -, -⟩ := flood_trace n "A" (j :: js)
  rw [qFrom, flood_new p n ql hq "A" j js]
  refine ⟨f2, ?_, ?_⟩
  · simp only [onWorker, floodQueue, floodInner, List.getElem?_cons_zero]
    exact jobsIn_proves _
  · intro w hw
    obtain ⟨w, rfl⟩ : ∃ m, w = m + 1 := ⟨w - 1, by omega⟩
    simp only [onWorker, floodQueue, floodInner, List.getElem?_cons_succ, List.getElem?_replicate]
    split
    · rename_i r hr
      split at hr <;> cases hr
      rfl
    · rfl

/-- C74, what does hold: the workers have something to do whenever a job was handed over and not yet run: the job is on a worker, and a
worker with jobs in its inbox can always take one. Missing: idle workers take over from busy ones. -/
theorem C74_no_idle_worker_partial (p : Profile) (n ql : Nat) (steps : List QStep) (w : Nat) (r : Worker) :
    let q := (qFrom p n ql steps).1
    q.status = .running → q.inner.runners[w]? = some r → r.status = .alive → onWorker q w ≠ [] →
      ∃ s e, (s = .take w ∨ s = .finish w) ∧ e ∈ (qStep p q s).2 := by
  simp only
  intro hst hr hal hne
  have hl := linv_new p n ql steps
  have hab : ¬ (qRun p (Queue.new n ql) steps).1.status = .aborted := by rw [hst]; simp
  simp only [onWorker, hr] at hne
  cases hrun : r.running with
  | some job =>
    refine ⟨.finish w, .ran w job, .inr rfl, ?_⟩
    simp only [qStep, hab, if_false, Queue.finish, hr, hrun]
    split <;> simp
  | none =>
    cases hin : r.inbox with
    | nil => rw [hrun, hin] at hne; simp [jobsIn] at hne
    | cons m rest =>
      cases m with
      | stop => have := (hl.run hst w r hr).2; rw [hin] at this; simp at this
      | prove job =>
        refine ⟨.take w, .started w job, .inl rfl, ?_⟩
        simp [qStep, hab, Queue.take, hr, hal, hrun, hin]

example : let q := (qFrom ⟨true⟩ 2 9 exQueueSteps).1
    q.status = .running ∧ onWorker q 0 ≠ [] ∧ (q.inner.runners[0]?.map (·.status)) = some .alive := by decide

/-! ### Turns, answers and orphaned workers -/

/-- C52, what holds, exactly: while the manager runs, every accepted submission leads to one turn per worker and every completed job to
one more; of these, what has not been taken yet is what workers have asked for and the manager has not read. Submissions and
completions are the only sources of turns.
Missing: that these turns suffice for every waiting job, refuted above. -/
theorem C52_turns_exact_partial (p : Profile) (n ql : Nat) (steps : List QStep) :
    let (q, tr) := qFrom p n ql steps
    q.status = .running → (turns tr).length + requests q = n * (acceptedJobs tr).length + completions tr :=
  fun h => (tinv_new p n ql steps).turns (by simp [Queue.listening, h])

/-- Two workers, three submissions, one completion. -/
example : let (q, tr) := qFrom ⟨true⟩ 2 9 exQueueSteps
    q.status = .running ∧ (turns tr).length = 7 ∧ (acceptedJobs tr).length = 3 ∧ completions tr = 1 := by decide

/-- C55. Everything submitted before the manager is dropped is answered before it stops serving: in every panic-free history, once the
manager thread is no longer running, every submission made before the drop has exactly one answer, and submissions after it have
none. -/
theorem C55_answered_before_stop (p : Profile) (n ql : Nat) (before after : List QStep) (hb : QStep.close ∉ before)
    (hc : noCrash (before ++ .close :: after)) (ip : String) (j : Nat) :
    let (q, tr) := qFrom p n ql (before ++ .close :: after)
    q.status ≠ .running → answersTo ip j tr = before.count (.submit ip j) := by
  simp only
  intro hst
  have hc1 : noCrash before := fun w h => hc w (List.mem_append_left _ h)
  have hc2 : noCrash after := fun w h => hc w (List.mem_append_right _ (List.mem_cons_of_mem _ h))
  have g := good_new p n ql before hc1
  obtain ⟨ho, h1⟩ := open_run p before (good_new p n ql [] (fun _ h => nomatch h)) ⟨rfl, rfl, by simp [qRun, Queue.new]⟩ hc1 hb
  have e0 : (qRun p (Queue.new n ql) []).1 = Queue.new n ql := rfl
  rw [e0] at ho h1
  have h1 := h1 ip j
  have e : qStep p (qRun p (Queue.new n ql) before).1 .close =
      ({ (qRun p (Queue.new n ql) before).1 with mailbox := (qRun p (Queue.new n ql) before).1.mailbox ++ [.stop], closed := true }, []) := by
    unfold qStep
    rw [if_neg g.hi.ok.2]
    simp only
    rw [if_pos ⟨ho.op, by simp [Queue.listening, ho.run]⟩]
  have g' := good_step p g .close (fun _ => nofun)
  have hcq : ClosedQ (qStep p (qRun p (Queue.new n ql) before).1 .close).1 := by
    rw [e]
    exact ⟨rfl, fun _ => ⟨_, [], rfl, ho.stop, by simp⟩, fun h => absurd ho.run h⟩
  obtain ⟨hcq', h2⟩ := closed_run p after g' hcq hc2
  have h2 := h2 ip j
  have ep : pendingSubs ip j (qStep p (qRun p (Queue.new n ql) before).1 .close).1 = pendingSubs ip j (qRun p (Queue.new n ql) before).1 := by
    rw [e]; simp [pendingSubs, List.count_append]
  have e1 : (qStep p (qRun p (Queue.new n ql) before).1 .close).2 = [] := by rw [e]
  rw [qRun_append] at hst ⊢
  simp only [qRun] at hst ⊢
  have hz : pendingSubs ip j (qRun p (qStep p (qRun p (Queue.new n ql) before).1 .close).1 after).1 = 0 :=
    List.count_eq_zero.2 (hcq'.done hst ip j)
  rw [answersTo_append, answersTo_append, e1]
  have : answersTo ip j ([] : List QEvent) = 0 := rfl
  have z : pendingSubs ip j (Queue.new n ql) = 0 := rfl
  omega

/-- Two submissions in the mailbox when the manager is dropped: one is accepted, the other refused, then the manager stops. -/
example : let (q, tr) := qFrom ⟨true⟩ 1 1 ([.submit "A" 1, .submit "B" 2] ++ .close :: [.manage, .manage, .manage])
    q.status = .stopping ∧ tr = [.accepted "A" 1, .served "A", .handed 0 "A" 1, .refused "B" 2] := by decide

/-- C54, what holds: until the `Manager` is dropped its thread goes on, or the whole process ends, because a job has panicked.
Missing: that it always goes on, refuted above. -/
theorem C54_manager_stays_partial (p : Profile) (n ql : Nat) (steps : List QStep) :
    (qFrom p n ql steps).1.closed = false → (qFrom p n ql steps).1.status = .running ∨
      ((qFrom p n ql steps).1.status = .aborted ∧ ∃ w j, .crashedOn w j ∈ (qFrom p n ql steps).2) := by
  intro hc
  rcases (untold_run p steps (qinv_init n ql) (fun _ => by simp [Queue.new]) hc).2 with h | h
  · exact .inl h
  · refine .inr ⟨h, Classical.byContradiction fun hx => ?_⟩
    obtain ⟨steps', h1, h2⟩ := without_crash_steps p steps (Queue.new n ql) (fun w j hm => hx ⟨w, j, hm⟩)
    have := (hinv_new p n ql steps' h1).ok.2
    rw [h2] at this
    exact this h

/-- Both cases: a worker has crashed and the thread goes on; the next submission ends the process. -/
example : let steps : List QStep := [.submit "A" 1, .manage, .take 0, .crash 0]
    (qFrom ⟨true⟩ 1 9 steps).1.status = .running ∧ (qFrom ⟨true⟩ 1 9 steps).1.closed = false ∧
    (qFrom ⟨true⟩ 1 9 (steps ++ [.submit "A" 2, .manage])).1.status = .aborted ∧
    (qFrom ⟨true⟩ 1 9 (steps ++ [.submit "A" 2, .manage])).1.closed = false := by decide

/-- C54, what holds: workers left behind by a panicked manager thread run out of work. From the panic on each runs at most one more job to its end,
and nothing is accepted any more.
Missing: that the manager survives, refuted above. -/
theorem C54_orphans_end_partial (p : Profile) (n ql : Nat) (steps later : List QStep) :
    let q := (qFrom p n ql steps).1
    q.status = .panicked → (∀ w, (ranBy w (qRun p q later).2).length ≤ 1) ∧ (qRun p q later).1.status = .panicked ∧
      ∀ e ∈ (qRun p q later).2, isHandover e = false := by
  simp only
  intro h
  have hi := qinv_new p n ql steps
  exact ⟨fun w => (orphan_run p later hi h w).2.1, (orphan_run p later hi h 0).1,
    (C55_dispatched_run_waiting_dropped p n ql steps later (by rw [h]; simp)).1⟩

/-- Worker 0 dies of its job, then the manager is dropped and panics; worker 1 has two jobs and runs only the first. -/
example : let steps : List QStep := [.submit "A" 1, .manage, .submit "B" 2, .manage, .submit "B" 3, .manage, .submit "A" 4, .manage,
      .submit "A" 5, .manage, .take 0, .crash 0, .close, .manage]
    let q := (qFrom ⟨true⟩ 2 9 steps).1
    q.status = .panicked ∧ onWorker q 1 = [4, 5] ∧
      (qRun ⟨true⟩ q [.take 1, .finish 1, .take 1, .finish 1]).2 = [.started 1 4, .ran 1 4] := by decide

end MCap
