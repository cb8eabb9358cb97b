import Verif.Proofs.QueueFineRel
import Verif.Props.Queue

/-!
# C128 Handling a message is as good as one step

In the rest of the model of the queue the manager thread handles a message in one step. Here it is interrupted between any two sends.
-/

namespace MCap
open Spec

abbrev fFrom (p : Profile) (n ql : Nat) (steps : List FStep) : FQueue × List QEvent := fRun p (FQueue.new n ql) steps

/-! ### What is read off a log is the same for logs with the same parts -/

theorem filterMap_part {α : Type} (f : QEvent → Option α) (g : QEvent → Bool) (hf : ∀ e, g e = false → f e = none) (l : List QEvent) :
    l.filterMap f = (l.filter g).filterMap f := by
  induction l with
  | nil => rfl
  | cons e r ih =>
    cases hg : g e with
    | true => simp only [List.filter_cons, hg, if_true, List.filterMap_cons, ih]
    | false => simp only [List.filter_cons, hg, List.filterMap_cons, hf e hg, ih]; rfl

theorem sameParts_reads {a b : List QEvent} (h : SameParts a b) :
    (∀ ip, acceptedOf ip a = acceptedOf ip b) ∧ (∀ ip, handedOf ip a = handedOf ip b) ∧ (∀ w, handedTo w a = handedTo w b) ∧
    (∀ w, startedBy w a = startedBy w b) ∧ (∀ w, ranBy w a = ranBy w b) ∧ turns a = turns b ∧ acceptedIps a = acceptedIps b := by
  obtain ⟨h1, h2, h3⟩ := h
  refine ⟨fun ip => ?_, fun ip => ?_, fun w => ?_, fun w => ?_, fun w => ?_, ?_, ?_⟩
  · unfold acceptedOf
    rw [filterMap_part _ isAnswer (by intro e he; cases e <;> simp_all [isAnswer]) a, h2,
      ← filterMap_part _ isAnswer (by intro e he; cases e <;> simp_all [isAnswer]) b]
  · unfold handedOf
    rw [filterMap_part _ isTurn (by intro e he; cases e <;> simp_all [isTurn]) a, h1,
      ← filterMap_part _ isTurn (by intro e he; cases e <;> simp_all [isTurn]) b]
  · unfold handedTo
    rw [filterMap_part _ isTurn (by intro e he; cases e <;> simp_all [isTurn]) a, h1,
      ← filterMap_part _ isTurn (by intro e he; cases e <;> simp_all [isTurn]) b]
  · unfold startedBy
    rw [filterMap_part _ (isOn w) (by intro e he; cases e <;> simp_all [isOn]) a, h3,
      ← filterMap_part _ (isOn w) (by intro e he; cases e <;> simp_all [isOn]) b]
  · unfold ranBy
    rw [filterMap_part _ (isOn w) (by intro e he; cases e <;> simp_all [isOn]) a, h3,
      ← filterMap_part _ (isOn w) (by intro e he; cases e <;> simp_all [isOn]) b]
  · unfold turns
    rw [filterMap_part _ isTurn (by intro e he; cases e <;> simp_all [isTurn]) a, h1,
      ← filterMap_part _ isTurn (by intro e he; cases e <;> simp_all [isTurn]) b]
  · unfold acceptedIps
    rw [filterMap_part _ isAnswer (by intro e he; cases e <;> simp_all [isAnswer]) a, h2,
      ← filterMap_part _ isAnswer (by intro e he; cases e <;> simp_all [isAnswer]) b]

/-! ### Fine runs are coarse runs -/

/-- Whatever the workers, the clients and the owner of the `Manager` do between the sends of the manager thread, and in whatever order the map
yields the workers: between messages the queue is in a state it could have reached with every message handled in one step, by a run in
which the manager thread, the clients and each of the workers see the same. -/
theorem C128_one_step (p : Profile) (n ql : Nat) (steps : List FStep) (ho : OrdersOf n steps) :
    let (f, tr) := fFrom p n ql steps
    BetweenMessages f → Healthy f.q →
      ∃ coarse, (qFrom p n ql coarse).1 = f.q ∧ SameParts tr (qFrom p n ql coarse).2 ∧ (noCrashFine steps → noCrash coarse) := by
  have h := frel_run p n ql (noCrashFine steps) steps _ [] ho id (frel_new p n ql _)
  rw [List.nil_append] at h
  intro hb hh
  unfold FRel at h
  have hb' : (fRun p (FQueue.new n ql) steps).1.doing = none := hb
  rw [hb'] at h
  exact h.2 hh

/-- Two workers. The manager thread hands the first one a job and is interrupted: the worker runs the job and asks for more, and another
client submits a job. -/
def exFineSteps : List FStep :=
  [.other (.submit "a" 1), .receive [1, 0], .go, .other (.take 0), .other (.submit "b" 2), .other (.finish 0), .go]

example : OrdersOf 2 (exFineSteps ++ [.go]) ∧ BetweenMessages (fFrom ⟨true⟩ 2 9 (exFineSteps ++ [.go])).1 ∧
    Healthy (fFrom ⟨true⟩ 2 9 (exFineSteps ++ [.go])).1.q ∧
    (fFrom ⟨true⟩ 2 9 (exFineSteps ++ [.go])).2 =
      [.served "a", .handed 0 "a" 1, .started 0 1, .ran 0 1, .served "a", .accepted "a" 1] := by
  refine ⟨?_, ?_, ?_, ?_⟩
  · intro o ho
    simp only [exFineSteps, List.cons_append, List.nil_append, List.mem_cons, FStep.receive.injEq, reduceCtorEq, false_or, List.not_mem_nil, or_false] at ho
    subst ho; decide
  · unfold BetweenMessages; decide +kernel
  · unfold Healthy; decide +kernel
  · decide +kernel

/-- The finer model has more to it: a job may have run before its submission is answered. -/
theorem C128_runs_before_answer :
    ∃ steps, OrdersOf 2 steps ∧ noCrashFine steps ∧ ranBy 0 (fFrom ⟨true⟩ 2 9 steps).2 = [1] ∧ acceptedOf "a" (fFrom ⟨true⟩ 2 9 steps).2 = [] ∧
      ∀ coarse, ranBy 0 (qFrom ⟨true⟩ 2 9 coarse).2 = [1] → acceptedJobs (qFrom ⟨true⟩ 2 9 coarse).2 ≠ [] := by
  refine ⟨exFineSteps, ?_, ?_, by decide +kernel, by decide +kernel, ?_⟩
  · intro o ho
    simp only [exFineSteps, List.mem_cons, FStep.receive.injEq, reduceCtorEq, false_or, List.not_mem_nil, or_false] at ho
    subst ho; decide
  · intro w; simp [exFineSteps]
  · intro coarse hr ha
    have h1 : 1 ∈ handedTo 0 (qFrom ⟨true⟩ 2 9 coarse).2 := by
      obtain ⟨c1, c2⟩ := C48_worker_order ⟨true⟩ 2 9 coarse 0
      exact c1.subset (c2.subset (by rw [hr]; simp))
    simp only [handedTo, List.mem_filterMap] at h1
    obtain ⟨e, he, h1⟩ := h1
    cases e with
    | handed w ip j =>
      simp only [Option.ite_none_right_eq_some, Option.some.injEq] at h1
      have h2 : j ∈ acceptedOf ip (qFrom ⟨true⟩ 2 9 coarse).2 :=
        (C48_submission_order ⟨true⟩ 2 9 coarse ip).subset (by simp only [handedOf, List.mem_filterMap]; exact ⟨_, he, by simp⟩)
      simp only [acceptedOf, List.mem_filterMap] at h2
      obtain ⟨e', he', h2⟩ := h2
      cases e' with
      | accepted i k =>
        simp only [acceptedJobs, List.filterMap_eq_nil_iff] at ha
        exact absurd (ha _ he') (by simp)
      | _ => simp at h2
    | _ => simp at h1

/-- Without panicking jobs the manager thread does not panic, wherever it is interrupted. -/
theorem C128_never_panics (p : Profile) (n ql : Nat) (steps : List FStep) (ho : OrdersOf n steps) (hc : noCrashFine steps) :
    Healthy (fFrom p n ql steps).1.q := by
  have h := frel_run p n ql True steps _ [] ho (fun _ => hc) (frel_new p n ql _)
  unfold FRel at h
  split at h
  · exact h.1 trivial
  · obtain ⟨q0, m, imk, evk, ⟨_, ws, rest, -, a2, -, a4, a5, -⟩, -⟩ := h
    have hl : ({ q0 with mailbox := rest, inner := imk } : Queue).listening = true := by simp [Queue.listening, a2]
    have := (moves_frame p _ ws hl a4).1
    rw [a5] at this
    unfold Healthy
    rw [this]
    simp [a2]

example : OrdersOf 2 exFineSteps ∧ noCrashFine exFineSteps := by
  refine ⟨?_, fun w => by simp [exFineSteps]⟩
  intro o ho
  simp only [exFineSteps, List.mem_cons, FStep.receive.injEq, reduceCtorEq, false_or, List.not_mem_nil, or_false] at ho
  subst ho; decide

/-- Between messages, jobs of a client have been handed out in the order of its submissions, and each worker starts and completes jobs in the order
it was handed them. -/
theorem C128_orders (p : Profile) (n ql : Nat) (steps : List FStep) (ho : OrdersOf n steps) :
    let (f, tr) := fFrom p n ql steps
    BetweenMessages f → Healthy f.q →
      (∀ ip, acceptedOf ip tr = handedOf ip tr ++ waitingOf f.q ip) ∧
      ∀ w, startedBy w tr <+: handedTo w tr ∧ ranBy w tr <+: startedBy w tr := by
  intro hb hh
  obtain ⟨coarse, h1, h2, -⟩ := C128_one_step p n ql steps ho hb hh
  obtain ⟨r1, r2, r3, r4, r5, -⟩ := sameParts_reads h2
  refine ⟨fun ip => ?_, fun w => ?_⟩
  · rw [r1, r2, ← h1]
    exact (qinv_new p n ql coarse).fifo ip
  · rw [r3, r4, r5]
    exact C48_worker_order p n ql coarse w

/-! ### Coarse runs are fine runs -/

theorem fRun_append (p : Profile) (f : FQueue) (a b : List FStep) :
    fRun p f (a ++ b) = ((fRun p (fRun p f a).1 b).1, (fRun p f a).2 ++ (fRun p (fRun p f a).1 b).2) := by
  induction a generalizing f with
  | nil => simp [fRun]
  | cons s r ih => simp [fRun, ih, List.append_assoc]

theorem go_dispatching (p : Profile) (q : Queue) (names : List Nat) (reply : Option (String × Nat)) (im im' : Inner) (ev : List QEvent)
    (h : im.dispatchAll p names = .ret (im', ev)) :
    fRun p { q := { q with inner := im }, doing := some (.dispatching names reply) } (List.replicate names.length .go) =
      ({ q := { q with inner := im' }, doing := some (.dispatching [] reply) }, ev) := by
  induction names generalizing im ev with
  | nil =>
    simp only [Inner.dispatchAll, Exec.ret.injEq, Prod.mk.injEq] at h
    obtain ⟨rfl, rfl⟩ := h
    rfl
  | cons a rest ih =>
    simp only [Inner.dispatchAll] at h
    cases hx : im.runners[a]? with
    | none => rw [hx] at h; cases h
    | some r =>
      rw [hx] at h
      simp only at h
      cases ha : im.dispatchTo p a with
      | panic w => rw [ha] at h; cases h
      | ret b =>
        obtain ⟨imb, eb⟩ := b
        rw [ha] at h
        simp only [Exec.bind] at h
        cases hb : imb.dispatchAll p rest with
        | panic w => rw [hb] at h; cases h
        | ret c =>
          obtain ⟨imc, ec⟩ := c
          rw [hb] at h
          simp only [Exec.ret.injEq, Prod.mk.injEq] at h
          obtain ⟨rfl, rfl⟩ := h
          simp only [List.length_cons, List.replicate_succ, fRun, fStep, FQueue.go, ha, ih imb ec hb]

theorem go_stopping (p : Profile) (q : Queue) (names : List Nat) (im : Inner) (rs rs' : List Worker) (h : sendStops names rs = (rs', true)) :
    fRun p { q := { q with inner := { im with runners := rs } }, doing := some (.stopping names) } (List.replicate names.length .go) =
      ({ q := { q with inner := { im with runners := rs' } }, doing := some (.stopping []) }, []) := by
  induction names generalizing rs with
  | nil =>
    simp only [sendStops, Prod.mk.injEq, and_true] at h
    subst h; rfl
  | cons a rest ih =>
    simp only [sendStops] at h
    simp only [List.length_cons, List.replicate_succ, fRun, fStep, FQueue.go]
    cases hx : rs[a]? with
    | none =>
      rw [hx] at h
      simp only
      rw [ih rs h]; rfl
    | some r =>
      rw [hx] at h
      simp only at h ⊢
      split at h
      · rename_i ha
        simp only [ha, if_true, Queue.setWorker]
        rw [ha] at h
        rw [ih _ h]; rfl
      · cases h

/-- Handling a message in one step, undisturbed, done send by send. -/
theorem manage_fine (p : Profile) {n ql : Nat} (q : Queue) (tr : List QEvent) (hi : QInv n ql q tr) (hh : Healthy (q.manage p).1) :
    ∃ fs ev, fRun p { q := q, doing := none } fs = ({ q := (q.manage p).1, doing := none }, ev) ∧ SameParts ev (q.manage p).2 ∧
      OrdersOf n fs ∧ noCrashFine fs := by
  by_cases hr : q.status = .running
  case neg => exact ⟨[], [], by simp [fRun, Queue.manage, hr], by simp [Queue.manage, hr, sameParts_refl], by intro o; simp, by intro w; simp⟩
  case pos =>
    have hsched : ∀ k, OrdersOf n (.receive (List.range n) :: List.replicate k .go) ∧ noCrashFine (.receive (List.range n) :: List.replicate k .go) := by
      intro k
      refine ⟨?_, ?_⟩
      · intro o ho
        simp only [List.mem_cons, FStep.receive.injEq, List.mem_replicate, reduceCtorEq, and_false, or_false] at ho
        rw [ho]
      · intro w; simp
    cases hm : q.mailbox with
    | nil => exact ⟨[], [], by simp [fRun, Queue.manage, hr, hm], by simp [Queue.manage, hr, hm, sameParts_refl], by intro o; simp, by intro w; simp⟩
    | cons m rest =>
      have hrep : ∀ k, List.replicate (k + 1) FStep.go = List.replicate k .go ++ [.go] := fun k => by
        rw [List.replicate_succ']
      cases m with
      | stop =>
        simp only [Queue.manage, hr, hm, if_true] at hh ⊢
        split at hh
        · simp [Healthy] at hh
        · rename_i hg
          rw [if_neg hg]
          have hal : ∀ r ∈ q.inner.runners, r.status = .alive := by
            simpa [Queue.someGone] using hg
          have hok : (sendStops (List.range n) q.inner.runners).2 = true :=
            (sendStops_ok _ _ List.nodup_range).2 fun w _ r hx => hal r (List.mem_of_getElem? hx)
          have hs : sendStops (List.range n) q.inner.runners = ((sendStops (List.range n) q.inner.runners).1, true) := by rw [← hok]
          have hall := (sendStops_all (List.range n) _ _ (by rw [hi.nrun]) hs).2
          have hgo := go_stopping p { q with mailbox := rest } (List.range n) q.inner q.inner.runners _ hs
          refine ⟨.receive (List.range n) :: List.replicate (n + 1) .go, [], ?_, sameParts_refl _, hsched _⟩
          rw [hrep]
          rw [List.length_range] at hgo
          simp only [fRun, fStep, FQueue.receive, hr, hm, and_self, if_true, List.nil_append, fRun_append]
          simp only [hr] at hgo
          rw [hgo]
          simp [fRun, fStep, FQueue.go, hall]
      | dispatch name =>
        simp only [Queue.manage, hr, hm, if_true] at hh ⊢
        cases hd : q.inner.dispatchTo p name with
        | panic w => rw [hd] at hh; simp only [Queue.managerPanics, Healthy] at hh; split at hh <;> simp at hh
        | ret a =>
          obtain ⟨im, ev⟩ := a
          refine ⟨.receive (List.range n) :: List.replicate 2 .go, ev, ?_, sameParts_refl _, hsched _⟩
          simp [fRun, fStep, FQueue.receive, FQueue.go, hr, hm, hd, List.replicate_succ]
      | schedule ip job =>
        simp only [Queue.manage, hr, hm, if_true] at hh ⊢
        by_cases hf : q.inner.queues.length = q.inner.queueLength
        · refine ⟨.receive (List.range n) :: List.replicate 0 .go, [.refused ip job], ?_, ?_, hsched _⟩
          · simp [fRun, fStep, FQueue.receive, hr, hm, hf, Inner.schedule]
          · simp [hf, Inner.schedule, sameParts_refl]
        · rw [schedule_eq, if_neg hf] at hh ⊢
          cases hd : (enqueued q.inner ip job).dispatch p with
          | panic w => rw [hd] at hh; simp only [Exec.bind, Queue.managerPanics, Healthy] at hh; split at hh <;> simp at hh
          | ret a =>
            obtain ⟨im, ev⟩ := a
            have hrun := (enqueued_spec q.inner hi.inv ip job).2.2.1
            have hde : (enqueued q.inner ip job).dispatchAll p (List.range q.inner.runners.length) = .ret (im, ev) := by
              rw [← hrun]; exact hd
            have hT : TurnsOnly ev := disp_turnsOnly (dispatchAll_disp p _ _ (enqueued_spec q.inner hi.inv ip job).1 im ev hde)
            have hgo := go_dispatching p { q with mailbox := rest } _ (some (ip, job)) _ im ev hde
            refine ⟨.receive (List.range n) :: List.replicate (q.inner.runners.length + 1) .go, ev ++ [.accepted ip job], ?_, ?_, hsched _⟩
            · rw [hrep]
              rw [List.length_range] at hgo
              have hpush : q.inner.push ip job = enqueued q.inner ip job := rfl
              simp only [fRun, fStep, FQueue.receive, hr, hm, and_self, if_true, hf, if_false, List.nil_append, fRun_append, hpush]
              simp only [hr] at hgo
              rw [hgo]
              simp [fRun, fStep, FQueue.go, Exec.bind]
            · simp only [Exec.bind]
              have := sameParts_answer (tr := ev) (l := []) (evk := ev) (wv := []) ip job (by simpa using sameParts_refl ev) hT ⟨rfl, rfl⟩
              simpa using this

/-- The other way round: what can be reached with every message handled in one step can be reached send by send. -/
theorem C128_no_fewer (p : Profile) (n ql : Nat) (coarse : List QStep) (hh : Healthy (qFrom p n ql coarse).1) :
    ∃ steps, OrdersOf n steps ∧ (noCrash coarse → noCrashFine steps) ∧
      let (f, tr) := fFrom p n ql steps
      BetweenMessages f ∧ f.q = (qFrom p n ql coarse).1 ∧ SameParts tr (qFrom p n ql coarse).2 := by
  have key : ∀ k, k ≤ coarse.length → Healthy (qRun p (Queue.new n ql) (coarse.take k)).1 →
      ∃ steps tr, OrdersOf n steps ∧ (noCrash coarse → noCrashFine steps) ∧
        fRun p (FQueue.new n ql) steps = ({ q := (qRun p (Queue.new n ql) (coarse.take k)).1, doing := none }, tr) ∧
        SameParts tr (qRun p (Queue.new n ql) (coarse.take k)).2 := by
    intro k
    induction k with
    | zero => intro _ _; exact ⟨[], [], by intro o; simp, by intro _ w; simp, rfl, sameParts_refl _⟩
    | succ k ih =>
      intro hk hk2
      have hlt : k < coarse.length := by omega
      have ht : coarse.take (k + 1) = coarse.take k ++ [coarse[k]] := by rw [List.take_add_one, List.getElem?_eq_getElem hlt]; rfl
      rw [ht, qRun_append, qRun_one] at hk2 ⊢
      have hprev : Healthy (qRun p (Queue.new n ql) (coarse.take k)).1 := by
        apply Classical.byContradiction
        intro hn
        exact unhealthy_step p _ coarse[k] hn hk2
      obtain ⟨steps, tr, b1, b2, b3, b4⟩ := ih (by omega) hprev
      have hi := qinv_new p n ql (coarse.take k)
      generalize qRun p (Queue.new n ql) (coarse.take k) = z at *
      by_cases hs : coarse[k] = .manage
      · rw [hs] at hk2 ⊢
        have hst : qStep p z.1 .manage = z.1.manage p := by simp [qStep, hprev.2]
        rw [hst] at hk2 ⊢
        obtain ⟨fs, ev, c1, c2, c3, c4⟩ := manage_fine p z.1 z.2 hi hk2
        refine ⟨steps ++ fs, tr ++ ev, ?_, ?_, ?_, sameParts_append b4 c2⟩
        · intro o ho; exact (List.mem_append.1 ho).elim (b1 o) (c3 o)
        · intro hn w ho; exact (List.mem_append.1 ho).elim (b2 hn w) (c4 w)
        · rw [fRun_append, b3, c1]
      · refine ⟨steps ++ [.other coarse[k]], tr ++ (qStep p z.1 coarse[k]).2, ?_, ?_, ?_, sameParts_append b4 (sameParts_refl _)⟩
        · intro o ho
          rcases List.mem_append.1 ho with ho | ho
          · exact b1 o ho
          · simp at ho
        · intro hn w ho
          rcases List.mem_append.1 ho with ho | ho
          · exact b2 hn w ho
          · simp only [List.mem_singleton, FStep.other.injEq] at ho
            exact hn w (by rw [ho]; exact List.getElem_mem hlt)
        · rw [fRun_append, b3]
          have e : ∀ f : FQueue, fStep p f (.other coarse[k]) = ({ f with q := (qStep p f.q coarse[k]).1 }, (qStep p f.q coarse[k]).2) := by
            intro f
            cases hc : coarse[k] <;> first | rfl | exact absurd hc hs
          simp [fRun, e]
  have := key coarse.length (Nat.le_refl _) (by rw [List.take_length]; exact hh)
  rw [List.take_length] at this
  obtain ⟨steps, tr, b1, b2, b3, b4⟩ := this
  refine ⟨steps, b1, b2, ?_⟩
  simp only [fFrom, b3]
  exact ⟨rfl, trivial, b4⟩

example : Healthy (qFrom ⟨true⟩ 2 9 [.submit "a" 1, .manage, .take 0, .finish 0, .close, .manage, .manage]).1 ∧
    (qFrom ⟨true⟩ 2 9 [.submit "a" 1, .manage, .take 0, .finish 0, .close, .manage, .manage]).1.status = .stopping := by
  unfold Healthy; decide +kernel

/-! ### Dropping the queue, send by send -/

/-- A thread that is gone stays gone. -/
theorem goneStays_step (p : Profile) (q : Queue) (s : QStep) (w : Nat) (hs : s ≠ .manage) (h : ∃ r, q.inner.runners[w]? = some r ∧ r.status ≠ .alive) :
    ∃ r, (qStep p q s).1.inner.runners[w]? = some r ∧ r.status ≠ .alive := by
  have set : ∀ v y, (v = w → y.status ≠ .alive) → ∃ r, (q.setWorker v y).inner.runners[w]? = some r ∧ r.status ≠ .alive := by
    intro v y hy
    obtain ⟨r, hr, hn⟩ := h
    simp only [Queue.setWorker]
    by_cases e : v = w
    · subst e
      exact ⟨y, List.getElem?_set_self (List.getElem?_eq_some_iff.1 hr).1, hy rfl⟩
    · exact ⟨r, by rw [List.getElem?_set_ne e]; exact hr, hn⟩
  unfold qStep
  split
  · exact h
  cases s with
  | submit ip job => simp only; split <;> exact h
  | close => simp only; split <;> exact h
  | manage => exact absurd rfl hs
  | joined =>
    simp only
    split
    · split
      · exact h
      · split <;> exact h
    · exact h
  | take v =>
    simp only [Queue.take]
    split
    · exact h
    · rename_i x hx
      split
      · rename_i hc
        have hne : v ≠ w := by
          rintro rfl
          obtain ⟨r, hr, hn⟩ := h
          rw [hx] at hr; cases hr
          exact hn hc.1
        split
        · exact h
        · exact set v _ fun e => absurd e hne
        · exact set v _ fun e => absurd e hne
      · exact h
  | finish v =>
    simp only [Queue.finish]
    split
    · exact h
    · rename_i x hx
      split
      · exact h
      · have hv : v = w → x.status ≠ .alive := by
          rintro rfl
          obtain ⟨r, hr, hn⟩ := h
          rw [hx] at hr; cases hr
          exact hn
        split
        · exact set v { x with running := none } hv
        · exact set v _ fun _ => by simp
  | crash v =>
    simp only [Queue.crash]
    split
    · exact h
    · split
      · exact h
      · exact set v _ fun _ => by simp

theorem panicked_step (p : Profile) (q : Queue) (s : QStep) (h : q.status = .panicked) : (qStep p q s).1.status = .panicked := by
  have hl : q.listening = false := by simp [Queue.listening, h]
  unfold qStep
  rw [if_neg (by rw [h]; simp)]
  cases s with
  | submit ip job => simp [hl, h]
  | close => simp [hl, h]
  | manage => simp [Queue.manage, h]
  | joined => simp [h]
  | take w => simp only [Queue.take]; split; · exact h
              split; · split <;> exact h
              exact h
  | finish w => simp only [Queue.finish]; split; · exact h
                split; · exact h
                split <;> exact h
  | crash w => simp only [Queue.crash]; split; · exact h
               split <;> exact h

/-- If a worker is gone when the thread receives `Stop`, the thread panics, whatever the order of the map and whatever happens between
its sends: it never comes to join the workers. -/
theorem C128_drop_panics (p : Profile) (f : FQueue) (order : List Nat) (later : List FStep) (w : Nat) (hb : BetweenMessages f) (hs : AboutToStop f.q)
    (hg : ∃ r, f.q.inner.runners[w]? = some r ∧ r.status ≠ .alive) (ho : IsOrder order f.q) :
    let g := (fRun p (fStep p f (.receive order)).1 later).1
    (BetweenMessages g → g.q.status = .panicked) ∧ (g.q.status = .running ∨ g.q.status = .panicked) := by
  -- amid the loop with the dead worker to come, or panicked
  let Inv : FQueue → Prop := fun g =>
    (∃ names, g.doing = some (.stopping names) ∧ w ∈ names ∧ g.q.status = .running ∧ ∃ r, g.q.inner.runners[w]? = some r ∧ r.status ≠ .alive) ∨
    (g.doing = none ∧ g.q.status = .panicked)
  have hstep : ∀ g s, Inv g → Inv (fStep p g s).1 := by
    rintro ⟨q, d⟩ s (⟨names, h1, h2, h3, h4⟩ | ⟨h1, h2⟩)
    · simp only at h1 h3 h4
      subst h1
      cases s with
      | receive o => simp only [fStep, FQueue.receive, reduceCtorEq, false_and, if_false]; exact .inl ⟨names, rfl, h2, h3, h4⟩
      | other s =>
        by_cases hm : s = .manage
        · subst hm; exact .inl ⟨names, rfl, h2, h3, h4⟩
        · have e : fStep p ⟨q, some (.stopping names)⟩ (.other s) = (⟨(qStep p q s).1, some (.stopping names)⟩, (qStep p q s).2) := by
            cases s <;> first | rfl | exact absurd rfl hm
          rw [e]
          refine .inl ⟨names, rfl, h2, ?_, goneStays_step p q s w hm h4⟩
          by_cases ha : Acts q s
          · rw [(acts_frame p q s (by simp [Queue.listening, h3]) ha).1]; exact h3
          · rw [noact_step p q s h3 hm ha]; exact h3
      | go =>
        cases names with
        | nil => simp at h2
        | cons v names =>
          simp only [fStep, FQueue.go]
          by_cases hv : v = w
          · subst hv
            obtain ⟨r, hr, hn⟩ := h4
            rw [hr]
            simp only [hn, if_false]
            exact .inr ⟨rfl, rfl⟩
          · have hw : w ∈ names := by
              rcases List.mem_cons.1 h2 with e | e
              · exact absurd e.symm hv
              · exact e
            split
            · exact .inl ⟨names, rfl, hw, h3, h4⟩
            · rename_i r hr
              split
              · refine .inl ⟨names, rfl, hw, h3, ?_⟩
                obtain ⟨x, hx, hn⟩ := h4
                exact ⟨x, by simp only [Queue.setWorker]; rw [List.getElem?_set_ne hv]; exact hx, hn⟩
              · exact .inr ⟨rfl, rfl⟩
    · simp only at h1 h2
      subst h1
      cases s with
      | receive o => simp only [fStep, FQueue.receive, h2, reduceCtorEq, and_false, if_false]; exact .inr ⟨rfl, h2⟩
      | go => exact .inr ⟨rfl, h2⟩
      | other s =>
        by_cases hm : s = .manage
        · subst hm; exact .inr ⟨rfl, h2⟩
        · have e : fStep p ⟨q, none⟩ (.other s) = (⟨(qStep p q s).1, none⟩, (qStep p q s).2) := by
            cases s <;> first | rfl | exact absurd rfl hm
          rw [e]
          exact .inr ⟨rfl, panicked_step p q s h2⟩
  have hrun : ∀ (l : List FStep) g, Inv g → Inv (fRun p g l).1 := by
    intro l
    induction l with
    | nil => exact fun g h => h
    | cons s r ih => exact fun g h => ih _ (hstep g s h)
  have h0 : Inv (fStep p f (.receive order)).1 := by
    obtain ⟨hrun, rest, hm⟩ := hs
    have hd : f.doing = none := hb
    simp only [fStep, FQueue.receive, hd, hrun, hm, and_self, if_true]
    refine .inl ⟨order, rfl, ?_, rfl, hg⟩
    obtain ⟨r, hr, -⟩ := hg
    exact ho.mem_iff.2 (List.mem_range.2 (List.getElem?_eq_some_iff.1 hr).1)
  intro g
  rcases hrun later _ h0 with ⟨names, h1, -, h3, -⟩ | ⟨h1, h2⟩
  · refine ⟨fun e => ?_, .inl h3⟩
    have e' : g.doing = none := e
    rw [show g.doing = some (.stopping names) from h1] at e'
    cases e'
  · exact ⟨fun _ => h2, .inr h2⟩

/-- Worker 0 dies of its job; then the `Manager` is dropped. Worker 1, which comes first here, is told and ends before the panic. -/
def exFineDrop : List FStep :=
  [.other (.submit "a" 1), .receive [0, 1], .go, .go, .go, .other (.take 0), .other (.crash 0), .other .close]

example : let f := (fFrom ⟨true⟩ 2 9 exFineDrop).1
    BetweenMessages f ∧ AboutToStop f.q ∧ (∃ r, f.q.inner.runners[0]? = some r ∧ r.status ≠ .alive) ∧ IsOrder [1, 0] f.q ∧
    ThreadLives f.q 1 ∧ ¬ ThreadLives (fRun ⟨true⟩ f [.receive [1, 0], .go, .other (.take 1), .go]).1.q 1 := by
  refine ⟨rfl, ⟨rfl, [], rfl⟩, ⟨⟨[], none, .crashed⟩, rfl, by simp⟩, ?_, ⟨⟨[], none, .alive⟩, rfl, rfl⟩, ?_⟩
  · unfold IsOrder; decide +kernel
  · rintro ⟨r, hr, ha⟩
    have : r = ⟨[], none, .exited⟩ := by
      have h : (fRun ⟨true⟩ (fFrom ⟨true⟩ 2 9 exFineDrop).1 [.receive [1, 0], .go, .other (.take 1), .go]).1.q.inner.runners[1]? =
        some ⟨[], none, .exited⟩ := by decide +kernel
      rw [h] at hr; cases hr; rfl
    rw [this] at ha; cases ha

end MCap
