import Verif.Proofs.SystemBack

namespace MCap
open Spec

/-! ### Work left to do: every step that changes anything, other than a new call or the clock, makes it less -/

def sumOf {α : Type} (f : α → Nat) : List α → Nat
  | [] => 0
  | a :: r => f a + sumOf f r

theorem sumOf_append {α : Type} (f : α → Nat) (a b : List α) : sumOf f (a ++ b) = sumOf f a + sumOf f b := by
  induction a with
  | nil => simp [sumOf]
  | cons x r ih => simp [sumOf, ih]; omega

theorem sumOf_set {α : Type} (f : α → Nat) {l : List α} {i : Nat} {a : α} (h : l[i]? = some a) (b : α) :
    sumOf f (l.set i b) + f a = sumOf f l + f b := by
  induction l generalizing i with
  | nil => simp at h
  | cons x r ih =>
    cases i with
    | zero => simp at h; subst h; simp [sumOf]; omega
    | succ i => simp at h; have := ih h; simp [sumOf]; omega

theorem sumOf_map_le {α : Type} (f : α → Nat) (g : α → α) (k : Nat) (h : ∀ a, f (g a) ≤ f a + k) (l : List α) :
    sumOf f (l.map g) ≤ sumOf f l + k * l.length := by
  induction l with
  | nil => simp [sumOf]
  | cons x r ih =>
    have := h x
    simp only [List.map_cons, sumOf, List.length_cons, Nat.mul_add]; omega

def workerW (r : Worker) : Nat := 4 * r.inbox.length + (if r.running = none then 0 else 3) + (if r.status = .alive then 1 else 0)

def innerW (im : Inner) : Nat := 5 * sumOf (fun e => e.2.length) im.queues + sumOf workerW im.runners

theorem insert_sum (m : AMap String (List Nat)) (k : String) (v l : List Nat) (h : m.get k = some l) :
    sumOf (fun e => e.2.length) (m.insert k v) + l.length = sumOf (fun e => e.2.length) m + v.length := by
  induction m with
  | nil => simp [AMap.get] at h
  | cons e r ih =>
    obtain ⟨k', v'⟩ := e
    by_cases hk : k' = k
    · subst hk
      simp [AMap.get] at h
      subst h
      simp [AMap.insert, sumOf]; omega
    · simp [AMap.get, hk] at h
      have := ih h
      simp [AMap.insert, hk, sumOf]; omega

theorem insert_sum_new (m : AMap String (List Nat)) (k : String) (v : List Nat) (h : m.get k = none) :
    sumOf (fun e => e.2.length) (m.insert k v) = sumOf (fun e => e.2.length) m + v.length := by
  induction m with
  | nil => simp [AMap.insert, sumOf]
  | cons e r ih =>
    obtain ⟨k', v'⟩ := e
    by_cases hk : k' = k
    · simp [AMap.get, hk] at h
    · simp [AMap.get, hk] at h
      have := ih h
      simp [AMap.insert, hk, sumOf]; omega

theorem serve_weight (im : Inner) (name : Nat) (r : Worker) (hr : im.runners[name]? = some r) (cur : Nat) (im' : Inner) (ev : List QEvent)
    (h : im.serve name r cur = .ret (im', ev)) : innerW im' ≤ innerW im ∧ im'.runners.length = im.runners.length := by
  unfold Inner.serve at h
  split at h
  · cases h
  · rename_i ip hip
    split at h
    · cases h
    · simp only [Exec.ret.injEq, Prod.mk.injEq] at h; obtain ⟨rfl, -⟩ := h; exact ⟨Nat.le_refl _, rfl⟩
    · rename_i job rest hq
      split at h
      · simp only [Exec.ret.injEq, Prod.mk.injEq] at h
        obtain ⟨rfl, -⟩ := h
        have h1 := insert_sum im.queues ip rest _ hq
        have h2 := sumOf_set workerW hr { r with inbox := r.inbox ++ [.prove job] }
        refine ⟨?_, by simp⟩
        simp only [innerW, List.length_cons] at *
        simp only [workerW, List.length_append, List.length_cons, List.length_nil] at h2
        show 5 * _ + sumOf workerW _ ≤ _
        unfold workerW
        unfold workerW at h2
        omega
      · cases h

theorem dispatchTo_weight (p : Profile) (im : Inner) (name : Nat) (im' : Inner) (ev : List QEvent)
    (h : im.dispatchTo p name = .ret (im', ev)) : innerW im' ≤ innerW im ∧ im'.runners.length = im.runners.length := by
  unfold Inner.dispatchTo at h
  split at h
  · simp only [Exec.ret.injEq, Prod.mk.injEq] at h; obtain ⟨rfl, -⟩ := h; exact ⟨Nat.le_refl _, rfl⟩
  · rename_i r hr
    cases hc : im.advance p with
    | panic w => rw [hc] at h; cases h
    | ret cur => rw [hc] at h; exact serve_weight im name r hr cur im' ev h

theorem dispatchAll_weight (p : Profile) (names : List Nat) (im : Inner) (im' : Inner) (ev : List QEvent)
    (h : im.dispatchAll p names = .ret (im', ev)) : innerW im' ≤ innerW im ∧ im'.runners.length = im.runners.length := by
  induction names generalizing im im' ev with
  | nil => simp only [Inner.dispatchAll, Exec.ret.injEq, Prod.mk.injEq] at h; obtain ⟨rfl, -⟩ := h; exact ⟨Nat.le_refl _, rfl⟩
  | cons name rest ih =>
    unfold Inner.dispatchAll at h
    split at h
    · cases h
    · cases hd : im.dispatchTo p name with
      | panic w => rw [hd] at h; cases h
      | ret a =>
        obtain ⟨im1, ev1⟩ := a
        rw [hd] at h
        simp only [Exec.bind] at h
        cases hd2 : im1.dispatchAll p rest with
        | panic w => rw [hd2] at h; cases h
        | ret b =>
          obtain ⟨im2, ev2⟩ := b
          rw [hd2] at h
          simp only [Exec.ret.injEq, Prod.mk.injEq] at h
          obtain ⟨rfl, -⟩ := h
          have h1 := dispatchTo_weight p im name im1 ev1 hd
          have h2 := ih im1 im2 ev2 hd2
          exact ⟨Nat.le_trans h2.1 h1.1, h2.2.trans h1.2⟩

theorem schedule_weight (p : Profile) (im : Inner) (ip : String) (job : Nat) (im' : Inner) (ev : List QEvent)
    (h : im.schedule p ip job = .ret (im', ev)) : innerW im' ≤ innerW im + 5 ∧ im'.runners.length = im.runners.length := by
  have key : ∀ (im0 : Inner), innerW im0 = innerW im + 5 → im0.runners.length = im.runners.length →
      ((im0.dispatch p).bind fun (im', ev) => Exec.ret (im', QEvent.accepted ip job :: ev)) = .ret (im', ev) →
      innerW im' ≤ innerW im + 5 ∧ im'.runners.length = im.runners.length := by
    intro im0 h1 h2 h
    cases hd : im0.dispatch p with
    | panic w => rw [hd] at h; cases h
    | ret a =>
      obtain ⟨im1, ev1⟩ := a
      rw [hd] at h
      simp only [Exec.bind, Exec.ret.injEq, Prod.mk.injEq] at h
      obtain ⟨rfl, -⟩ := h
      have := dispatchAll_weight p _ im0 im1 ev1 hd
      exact ⟨by omega, by omega⟩
  unfold Inner.schedule at h
  split at h
  · simp only [Exec.ret.injEq, Prod.mk.injEq] at h; obtain ⟨rfl, -⟩ := h; exact ⟨by omega, rfl⟩
  · split at h
    · rename_i queue hq
      have h1 := insert_sum im.queues ip (queue ++ [job]) _ hq
      refine key _ ?_ ?_ h
      · simp only [innerW, List.length_append, List.length_cons, List.length_nil] at *; omega
      · rfl
    · rename_i hq
      have h1 := insert_sum_new im.queues ip [job] hq
      refine key _ ?_ ?_ h
      · simp only [innerW, List.length_cons, List.length_nil] at *; omega
      · rfl

def msgW (n : Nat) : InnerMsg → Nat
  | .stop => 1 + 4 * n
  | .dispatch _ => 1
  | .schedule _ _ => 6

def statusW : ManagerStatus → Nat
  | .running => 2
  | .stopping => 1
  | _ => 0

def queueW (q : Queue) : Nat :=
  statusW q.status + (if q.closed then 0 else 2 + 4 * q.inner.runners.length) + sumOf (msgW q.inner.runners.length) q.mailbox + innerW q.inner

theorem setWorker_weight (q : Queue) {w : Nat} {r : Worker} (h : q.inner.runners[w]? = some r) (r' : Worker) :
    queueW (q.setWorker w r') + workerW r = queueW q + workerW r' := by
  have := sumOf_set workerW h r'
  simp only [queueW, Queue.setWorker, innerW, List.length_set]; omega

/-- Every step of the queue other than a submission changes nothing or leaves less to do. -/
theorem queue_weight (p : Profile) (q : Queue) (s : QStep) (hs : ∀ ip j, s ≠ .submit ip j) :
    (qStep p q s).1 = q ∨ queueW (qStep p q s).1 < queueW q := by
  unfold qStep
  split
  · exact .inl rfl
  cases s with
  | submit ip job => exact absurd rfl (hs ip job)
  | manage =>
    simp only [Queue.manage]
    split
    · rename_i hrun
      cases hm : q.mailbox with
      | nil => exact .inl rfl
      | cons m rest =>
        right
        have hpan : queueW ({ q with mailbox := rest } : Queue).managerPanics < queueW q := by
          have : statusW (if ({ q with mailbox := rest } : Queue).someGone then .aborted else .panicked) = 0 := by split <;> rfl
          have e : queueW ({ q with mailbox := rest } : Queue).managerPanics =
              statusW (if ({ q with mailbox := rest } : Queue).someGone then .aborted else .panicked) +
              (if q.closed then 0 else 2 + 4 * q.inner.runners.length) + sumOf (msgW q.inner.runners.length) rest + innerW q.inner := rfl
          rw [e, this]
          simp only [queueW, hm, sumOf, hrun, statusW]; omega
        cases m with
        | stop =>
          simp only
          split
          · simp only [queueW, hm, hrun, statusW, sumOf]; omega
          · have h1 := sumOf_map_le workerW (fun r => { r with inbox := r.inbox ++ [.stop] }) 4
              (by intro a; simp only [workerW, List.length_append, List.length_cons, List.length_nil]; omega) q.inner.runners
            simp only [queueW, hm, hrun, statusW, sumOf, msgW, innerW, List.length_map] at *; omega
        | dispatch name =>
          simp only
          cases hd : q.inner.dispatchTo p name with
          | panic w => exact hpan
          | ret a =>
            obtain ⟨im, ev⟩ := a
            have := dispatchTo_weight p _ _ _ _ hd
            simp only [queueW, hm, sumOf, msgW, this.2] at *; omega
        | schedule ip job =>
          simp only
          cases hd : q.inner.schedule p ip job with
          | panic w => exact hpan
          | ret a =>
            obtain ⟨im, ev⟩ := a
            have := schedule_weight p _ _ _ _ _ hd
            simp only [queueW, hm, sumOf, msgW, this.2] at *; omega
    · exact .inl rfl
  | take w =>
    simp only [Queue.take]
    split
    · exact .inl rfl
    · rename_i r hr
      split
      · rename_i ha
        split
        · exact .inl rfl
        · rename_i rest hb
          right
          have := setWorker_weight q hr { r with inbox := rest, status := .exited }
          have e : workerW r = 4 * (rest.length + 1) + 1 := by simp [workerW, hb, ha.1, ha.2]
          have e' : workerW { r with inbox := rest, status := .exited } = 4 * rest.length := by simp [workerW, ha.2]
          simp only; omega
        · rename_i job rest hb
          right
          have := setWorker_weight q hr { r with inbox := rest, running := some job }
          have e : workerW r = 4 * (rest.length + 1) + 1 := by simp [workerW, hb, ha.1, ha.2]
          have e' : workerW { r with inbox := rest, running := some job } = 4 * rest.length + 4 := by simp [workerW, ha.1]
          simp only; omega
      · exact .inl rfl
  | finish w =>
    simp only [Queue.finish]
    split
    · exact .inl rfl
    · rename_i r hr
      split
      · exact .inl rfl
      · rename_i job hj
        right
        split
        · have := setWorker_weight q hr { r with running := none }
          have e : queueW { q.setWorker w { r with running := none } with mailbox := q.mailbox ++ [.dispatch w] } =
              queueW (q.setWorker w { r with running := none }) + 1 := by
            simp only [queueW, Queue.setWorker, sumOf_append, sumOf, msgW]; omega
          simp only
          rw [e]
          simp only [workerW, hj] at this
          simp at this ⊢; omega
        · have := setWorker_weight q hr { r with running := none, status := .exited }
          simp only [workerW, hj] at this
          simp at this ⊢; omega
  | crash w =>
    simp only [Queue.crash]
    split
    · exact .inl rfl
    · rename_i r hr
      split
      · exact .inl rfl
      · rename_i job hj
        right
        have := setWorker_weight q hr { inbox := [], running := none, status := .crashed }
        simp only [workerW, hj] at this
        simp at this ⊢; omega
  | close =>
    simp only
    split
    · rename_i h
      right
      simp only [queueW, sumOf_append, sumOf, msgW, h.1]
      simp; omega
    · exact .inl rfl
  | joined =>
    simp only
    split
    · rename_i h
      split
      · right; simp only [queueW, h, statusW]; omega
      · split
        · right; simp only [queueW, h, statusW]; omega
        · exact .inl rfl
    · exact .inl rfl

theorem submit_weight (p : Profile) (q : Queue) (ip : String) (j : Nat) : queueW (qStep p q (.submit ip j)).1 ≤ queueW q + 6 := by
  unfold qStep
  split
  · exact Nat.le_add_right _ _
  · simp only
    split
    · simp only [queueW, sumOf_append, sumOf, msgW]; omega
    · exact Nat.le_add_right _ _

def workerPcW : WorkerPc → Nat
  | .start => 6
  | .sendInsufficient => 5
  | .checkValid => 4
  | .sendInvalid => 3
  | .sendTrue => 2
  | .finished => 1
  | .dropped _ => 0

def pcW : Pc → Nat
  | .awaitMaster => 8
  | .awaitCache _ .retrieve => 60
  | .replied _ .retrieve => 58
  | .awaitAdd _ => 20
  | .answered _ _ => 18
  | .polling _ => 16
  | .awaitCache _ _ => 6
  | .replied _ _ => 4
  | .done => 0

def callW (c : Call) : Nat :=
  pcW c.pc + (if c.live then 1 else 0) + (match c.job with | some (_, ch) => workerPcW ch.pc | none => 0)

/-- What is left to do in a state. -/
def sysW (s : Sys) : Nat := sumOf callW s.calls + queueW s.queue + s.cache.timers.length

theorem worker_weight (q : QueuedWork) (ch : VerdictChannel) :
    (ch.workerStep q).getD ch = ch ∨ workerPcW ((ch.workerStep q).getD ch).pc < workerPcW ch.pc := by
  unfold VerdictChannel.workerStep
  cases hp : ch.pc with
  | start => right; simp only; split <;> simp [workerPcW]
  | sendInsufficient =>
    simp only [VerdictChannel.send]
    split
    · right; simp [workerPcW]
    · split
      · right; simp [workerPcW]
      · left; rfl
  | checkValid => right; simp only; split <;> simp [workerPcW]
  | sendInvalid =>
    simp only [VerdictChannel.send]
    split
    · right; simp [workerPcW]
    · split
      · right; simp [workerPcW]
      · left; rfl
  | sendTrue =>
    simp only [VerdictChannel.send]
    split
    · right; simp [workerPcW]
    · split
      · right; simp [workerPcW]
      · left; rfl
  | finished => right; simp [workerPcW]
  | dropped b => left; rfl

theorem poll_same (ch : VerdictChannel) (h : ch.poll.reading = .none) : ch.poll = ch := by
  unfold VerdictChannel.poll at h ⊢
  split
  · rename_i hc
    rw [if_pos hc] at h
    split
    · rename_i hb; rw [hb] at h; simp at h
    · rename_i hb
      rw [hb] at h
      split
      · rename_i hp; simp [hp] at h
      · rfl
  · rfl

theorem over_weight (c : Call) : callW c.over + pcW c.pc = callW c := by
  obtain ⟨api, pc, live, job⟩ := c
  have h0 : pcW .done = 0 := rfl
  cases job with
  | none => cases live <;> simp [callW, Call.over, Call.dropRx, h0] <;> omega
  | some x =>
    obtain ⟨q, ch⟩ := x
    cases live <;> simp [callW, Call.over, Call.dropRx, VerdictChannel.dropRx, h0] <;> omega

theorem pcW_pos {pc : Pc} (h : pc ≠ .done) : 0 < pcW pc := by
  cases pc with
  | awaitCache m k => cases k <;> simp [pcW]
  | replied m k => cases k <;> simp [pcW]
  | done => exact absurd rfl h
  | _ => simp [pcW]

theorem over_less (c : Call) (h : c.pc ≠ .done) : callW c.over < callW c := by
  have := over_weight c
  have := pcW_pos h
  omega

theorem local_less {lib : PowLib} {i : Nat} {c c' : Call} {ev : List SEvent} (m : Local lib i c c' ev) : c' = c ∨ callW c' < callW c := by
  cases m with
  | masterErr id a r h1 h2 hl h3 => exact .inr (over_less c (by simp [h2]))
  | masterOk id r g h1 h2 hl => right; simp [callW, h2, pcW]
  | retPow r cfg h2 hl => exact .inr (over_less c (by simp [h2]))
  | notFound work ip h1 h2 hl => exact .inr (over_less c (by simp [h2]))
  | wrongKey work ip cfg h1 h2 hk hl => exact .inr (over_less c (by simp [h2]))
  | stored r t d h2 hl => exact .inr (over_less c (by simp [h2]))
  | checked b h2 hl => exact .inr (over_less c (by simp [h2]))
  | accepted cfg h2 hl => right; simp [callW, h2, pcW]
  | refused cfg h2 hl => exact .inr (over_less c (by simp [h2]))
  | lost cfg h2 hl => exact .inr (over_less c (by simp [h2]))
  | pollNone cfg job ch h2 hj hr hl =>
    left
    rw [poll_same ch hr, ← hj]
  | pollBad cfg job ch h2 hj hr hl =>
    right
    have h1 := over_less { c with job := some (job, ch.poll) } (by simp [h2])
    have h3 : callW { c with job := some (job, ch.poll) } = callW c := by simp [callW, hj, poll_pc]
    omega
  | pollGood cfg job ch g h2 hj hr hl => right; simp [callW, h2, hj, pcW, poll_pc]
  | gone m k r h2 hl hr => exact .inr (over_less c (by simp [h2]))
  | work job ch hj hf =>
    rcases worker_weight job ch with h | h
    · left; rw [h, ← hj]
    · right; simp [callW, hj]; exact h
  | cancel hl hd =>
    right
    obtain ⟨api, pc, live, job⟩ := c
    cases job with
    | none => simp at hl; simp [callW, Call.dropRx, hl]
    | some x => simp at hl; simp [callW, Call.dropRx, hl, VerdictChannel.dropRx]

theorem release_weight (ch : VerdictChannel) : releaseCh ch = ch ∨ workerPcW (releaseCh ch).pc < workerPcW ch.pc := by
  unfold releaseCh
  split
  · exact .inl rfl
  · rename_i h; right; simp [h, workerPcW]
  · rename_i h1 h2
    right
    cases hp : ch.pc with
    | finished => exact absurd hp h2
    | dropped b => exact absurd hp (h1 b)
    | _ => simp [workerPcW]

theorem settle_less (q : Queue) (ev : List QEvent) (i : Nat) (c : Call) : c.settle q ev i = c ∨ callW (c.settle q ev i) < callW c := by
  have hl := settle_live q ev i c
  have ha := settle_api q ev i c
  have hj := settle_job q ev i c
  have hpc : (c.settle q ev i).pc = c.pc ∨ pcW (c.settle q ev i).pc < pcW c.pc := by
    rcases settle_pc q ev i c with h | ⟨cfg, h, ⟨h', -⟩ | ⟨h', -⟩ | ⟨h', -⟩⟩
    · exact .inl h
    all_goals right; rw [h, h']; simp [pcW]
  have hjob : (c.settle q ev i).job = c.job ∨ (match (c.settle q ev i).job with | some (_, ch) => workerPcW ch.pc | none => 0) <
      (match c.job with | some (_, ch) => workerPcW ch.pc | none => 0) := by
    rw [hj]
    split
    · exact .inl rfl
    · cases hc : c.job with
      | none => exact .inl rfl
      | some x =>
        obtain ⟨qw, ch⟩ := x
        rcases release_weight ch with h | h
        · left; simp [h]
        · right; simpa using h
  generalize c.settle q ev i = c' at *
  obtain ⟨api, pc, live, job⟩ := c
  obtain ⟨api', pc', live', job'⟩ := c'
  simp only at hl ha hpc hjob
  subst hl ha
  rcases hpc with rfl | hp <;> rcases hjob with rfl | hj
  · exact .inl rfl
  all_goals right; simp only [callW]; omega

theorem settle_all_less (q : Queue) (ev : List QEvent) (l : List Call) (k : Nat) :
    l.mapIdx (fun i c => c.settle q ev (i + k)) = l ∨ sumOf callW (l.mapIdx (fun i c => c.settle q ev (i + k))) < sumOf callW l := by
  induction l generalizing k with
  | nil => exact .inl rfl
  | cons c r ih =>
    rw [List.mapIdx_cons]
    have e : (fun (i : Nat) (c : Call) => c.settle q ev (i + 1 + k)) = (fun (i : Nat) (c : Call) => c.settle q ev (i + (k + 1))) := by
      funext i c; congr 1; omega
    rw [show (r.mapIdx fun i c => c.settle q ev (i + 1 + k)) = r.mapIdx (fun i c => c.settle q ev (i + (k + 1))) from by rw [e]]
    rcases settle_less q ev (0 + k) c with h1 | h1 <;> rcases ih (k + 1) with h2 | h2
    · left; rw [h1, h2]
    · right; rw [h1]; simp only [sumOf]; omega
    · right; rw [h2]; simp only [sumOf]; omega
    · right; simp only [sumOf]; omega

theorem handle_weight (w : CacheWorld) (m : CacheMsg) : (w.handle m).1.timers.length ≤ w.timers.length + 1 := by
  cases m <;> simp [CacheWorld.handle]

theorem fire_weight (w : CacheWorld) (k : Nat) (ht : ∀ t ∈ w.timers, (∃ s, t.msg = .deletePow s) ∨ (∃ s, t.msg = .deleteResult s)) :
    (cacheStep w (.fire k)).1 = w ∨ (cacheStep w (.fire k)).1.timers.length < w.timers.length := by
  simp only [cacheStep]
  split
  · rename_i t hk
    split
    · right
      have hlt := lt_of_some hk
      have hlen : (w.timers.eraseIdx k).length < w.timers.length := by rw [List.length_eraseIdx]; split <;> omega
      rcases ht t (List.mem_of_getElem? hk) with ⟨x, hx⟩ | ⟨x, hx⟩ <;> (rw [hx]; exact hlen)
    · exact .inl rfl
  · exact .inl rfl

theorem setCall_weight (s : Sys) {i : Nat} {c : Call} (hc : s.calls[i]? = some c) (c' : Call) :
    sysW (s.setCall i c') + callW c = sysW s + callW c' := by
  have := sumOf_set callW hc c'
  simp only [sysW, Sys.setCall]; omega

theorem setCall_same (s : Sys) {i : Nat} {c : Call} (hc : s.calls[i]? = some c) : s.setCall i c = s := by
  obtain ⟨cache, queue, calls⟩ := s
  simp only [Sys.setCall, Sys.mk.injEq, true_and]
  simp only at hc
  obtain ⟨h, rfl⟩ := List.getElem?_eq_some_iff.1 hc
  exact List.set_getElem_self h

theorem queue_move_weight (p : Profile) (s : Sys) (qs : QStep) (hs : ∀ ip j, qs ≠ .submit ip j) :
    let s' : Sys := { s with queue := (qStep p s.queue qs).1, calls := s.calls.mapIdx (Call.settle (qStep p s.queue qs).1 (qStep p s.queue qs).2) }
    s' = s ∨ sysW s' < sysW s := by
  have h1 := queue_weight p s.queue qs hs
  have h2 := settle_all_less (qStep p s.queue qs).1 (qStep p s.queue qs).2 s.calls 0
  simp only [Nat.add_zero] at h2
  generalize (qStep p s.queue qs).1 = q' at *
  generalize (qStep p s.queue qs).2 = ev at *
  obtain ⟨cache, queue, calls⟩ := s
  simp only at *
  rcases h1 with rfl | h1 <;> rcases h2 with h2 | h2
  · left; rw [show calls.mapIdx (Call.settle q' ev) = calls from h2]
  · right; simp only [sysW]; have : sumOf callW (calls.mapIdx (Call.settle q' ev)) < sumOf callW calls := h2; omega
  · right; rw [show calls.mapIdx (Call.settle q' ev) = calls from h2]; simp only [sysW]; omega
  · right; simp only [sysW]; have : sumOf callW (calls.mapIdx (Call.settle q' ev)) < sumOf callW calls := h2; omega

/-- Only new calls add calls, only the clock changes the time. -/
theorem quiet_step (lib : PowLib) (p : Profile) (s : Sys) (st : SStep) (h1 : ∀ a, st ≠ .call a) (h2 : ∀ d, st ≠ .tick d) :
    (sysStep lib p s st).1.calls.length = s.calls.length ∧ (sysStep lib p s st).1.cache.now = s.cache.now := by
  have hh : ∀ m, (s.cache.handle m).1.now = s.cache.now := by intro m; cases m <;> rfl
  unfold sysStep
  split
  · exact ⟨rfl, rfl⟩
  cases st with
  | call a => exact absurd rfl (h1 a)
  | tick d => exact absurd rfl (h2 d)
  | master i a g =>
    simp only
    split
    · split
      · simp only [Sys.onMaster]; split <;> simp [Sys.returns, Sys.setCall]
      · exact ⟨rfl, rfl⟩
    · exact ⟨rfl, rfl⟩
  | cache i =>
    simp only
    split
    · split
      · exact ⟨by simp [Sys.setCall], hh _⟩
      · exact ⟨rfl, rfl⟩
    · exact ⟨rfl, rfl⟩
  | cacheGone i =>
    simp only
    split
    · split
      · simp only [Sys.onCacheGone]; split <;> simp [Sys.returns, Sys.setCall]
      · exact ⟨rfl, rfl⟩
    · exact ⟨rfl, rfl⟩
  | resume i =>
    simp only
    split
    · split
      · simp only [Sys.onResume]
        split <;> try simp [Sys.returns, Sys.setCall]
        rename_i r _ _ _ _
        cases r with
        | none => simp [Sys.onRetrieved, Sys.returns, Sys.setCall]
        | some cfg => simp only [Sys.onRetrieved]; split <;> (try split) <;> simp [Sys.returns, Sys.setCall]
      · exact ⟨rfl, rfl⟩
    · exact ⟨rfl, rfl⟩
  | poll i g =>
    simp only
    split
    · split
      · simp only [Sys.onPoll]
        split
        · split <;> simp [Sys.returns, Sys.setCall]
        · exact ⟨rfl, rfl⟩
      · exact ⟨rfl, rfl⟩
    · exact ⟨rfl, rfl⟩
  | queue qs => simp only; split <;> simp
  | work w =>
    simp only [Sys.onWork]
    split
    · split
      · split
        · split <;> simp [Sys.setCall]
        · exact ⟨rfl, rfl⟩
      · exact ⟨rfl, rfl⟩
    · exact ⟨rfl, rfl⟩
  | fire k =>
    refine ⟨rfl, ?_⟩
    simp only [cacheStep]
    split
    · split
      · rename_i t _ _; cases t.msg <;> rfl
      · rfl
    · rfl
  | cancel i =>
    simp only
    split
    · split <;> simp [Sys.setCall]
    · exact ⟨rfl, rfl⟩
  | shutdown => simp only; split <;> simp

/-- A step other than a new call and the clock changes nothing or leaves less to do. -/
theorem step_weight (lib : PowLib) (p : Profile) (s : Sys) (st : SStep) (h1 : ∀ a, st ≠ .call a)
    (ht : ∀ t ∈ s.cache.timers, (∃ s, t.msg = .deletePow s) ∨ (∃ s, t.msg = .deleteResult s)) :
    ((∃ d, st = .tick d) ∧ sysW (sysStep lib p s st).1 = sysW s) ∨ (sysStep lib p s st).1 = s ∨ sysW (sysStep lib p s st).1 < sysW s := by
  have key : ∀ s' ev, Move lib p s s' ev → (∃ a, s' = { s with calls := s.calls ++ [Call.start a] }) ∨ (∃ d, s' = { s with cache := (cacheStep s.cache (.tick d)).1 }) ∨
      s' = s ∨ sysW s' < sysW s := by
    intro s' ev m
    cases m with
    | idle => exact .inr (.inr (.inl rfl))
    | «local» i c c' _ hc m =>
      rcases local_less m with rfl | hl
      · exact .inr (.inr (.inl (setCall_same s hc)))
      · have := setCall_weight s hc c'
        exact .inr (.inr (.inr (by omega)))
    | start a hq => exact .inl ⟨a, rfl⟩
    | cache i c m k hc h2 =>
      refine .inr (.inr (.inr ?_))
      have h3 := setCall_weight ({ s with cache := (s.cache.handle m).1 } : Sys) (show ({ s with cache := (s.cache.handle m).1 } : Sys).calls[i]? = some c from hc)
        { c with pc := .replied (s.cache.handle m).2 k }
      have h4 := handle_weight s.cache m
      have h5 : callW { c with pc := .replied (s.cache.handle m).2 k } + 2 = callW c := by
        cases k <;> simp [callW, h2, pcW] <;> omega
      have h6 : sysW ({ s with cache := (s.cache.handle m).1 } : Sys) + s.cache.timers.length = sysW s + (s.cache.handle m).1.timers.length := by
        simp only [sysW]; omega
      omega
    | submit i c work ip cfg hc h1 h2 hk hl hq hcl =>
      refine .inr (.inr (.inr ?_))
      generalize hj : (some (({ pow := lib, work := work.toProof, string := work.string, difficultyFactor := cfg.difficultyFactor } : QueuedWork),
        VerdictChannel.new)) = job
      generalize hc' : ({ c with pc := .awaitAdd cfg, job := job } : Call) = c'
      have h3 := setCall_weight ({ s with queue := (qStep p s.queue (.submit ip i)).1 } : Sys)
        (show ({ s with queue := (qStep p s.queue (.submit ip i)).1 } : Sys).calls[i]? = some c from hc) c'
      have h4 := submit_weight p s.queue ip i
      have h5 : callW c' + 32 ≤ callW c := by
        rw [← hc', ← hj]
        simp [callW, h2, pcW, VerdictChannel.new, workerPcW]; omega
      have h6 : sysW ({ s with queue := (qStep p s.queue (.submit ip i)).1 } : Sys) + queueW s.queue =
          sysW s + queueW (qStep p s.queue (.submit ip i)).1 := by
        simp only [sysW]; omega
      omega
    | panic i c cfg work ip hc h1 h2 hl hq hcl =>
      have := setCall_weight s hc c.over
      have := over_less c (by simp [h2])
      exact .inr (.inr (.inr (by omega)))
    | queue qs h =>
      refine .inr (.inr (queue_move_weight p s qs ?_))
      rintro ip j rfl
      simp [Sys.mayStep] at h
    | shutdown h => exact .inr (.inr (queue_move_weight p s .close (by simp)))
    | expire k =>
      rcases fire_weight s.cache k ht with h | h
      · refine .inr (.inr (.inl ?_)); rw [h]
      · refine .inr (.inr (.inr ?_)); simp only [sysW]; omega
    | tick d => exact .inr (.inl ⟨d, rfl⟩)
  by_cases hst : ∃ d, st = .tick d
  · obtain ⟨d, rfl⟩ := hst
    refine .inl ⟨⟨d, rfl⟩, ?_⟩
    unfold sysStep
    split <;> rfl
  · right
    have hm := sysStep_move lib p s st
    have hq := quiet_step lib p s st h1 (fun d e => hst ⟨d, e⟩)
    rcases key _ _ hm with ⟨a, h⟩ | ⟨d, h⟩ | h | h
    · rw [h] at hq; simp at hq
    · left
      rw [h] at hq ⊢
      have hd : d = 0 := by have := hq.2; simp [cacheStep] at this; exact this
      subst hd
      rfl
    · exact .inl h
    · exact .inr h

end MCap
