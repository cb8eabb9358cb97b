import Verif.Proofs.Queue

namespace MCap
open Spec

theorem qRun_append (p : Profile) (q : Queue) (a b : List QStep) :
    qRun p q (a ++ b) = ((qRun p (qRun p q a).1 b).1, (qRun p q a).2 ++ (qRun p (qRun p q a).1 b).2) := by
  induction a generalizing q with
  | nil => simp [qRun]
  | cons s r ih => simp [qRun, ih, List.append_assoc]

/-- A dispatch emits no other event. -/
theorem disp_events {im im' : Inner} {ev : List QEvent} {k : Nat} (d : Disp im im' ev k) :
    acceptedIps ev = [] ∧ acceptedJobs ev = [] ∧ (∀ ip, acceptedOf ip ev = []) ∧ (∀ w, ranBy w ev = []) := by
  have h := d.only
  refine ⟨?_, ?_, ?_, ?_⟩
  · simp only [acceptedIps, List.filterMap_eq_nil_iff]
    intro e he; rcases h e he with ⟨_, rfl⟩ | ⟨_, _, _, rfl⟩ <;> rfl
  · simp only [acceptedJobs, List.filterMap_eq_nil_iff]
    intro e he; rcases h e he with ⟨_, rfl⟩ | ⟨_, _, _, rfl⟩ <;> rfl
  · intro ip
    simp only [acceptedOf, List.filterMap_eq_nil_iff]
    intro e he; rcases h e he with ⟨_, rfl⟩ | ⟨_, _, _, rfl⟩ <;> rfl
  · intro w
    simp only [ranBy, List.filterMap_eq_nil_iff]
    intro e he; rcases h e he with ⟨_, rfl⟩ | ⟨_, _, _, rfl⟩ <;> rfl

/-- Invariant of the whole queue with the trace so far, for `n` workers and queue length `ql`. -/
structure QInv (n ql : Nat) (q : Queue) (tr : List QEvent) : Prop where
  inv : IInv q.inner
  nrun : q.inner.runners.length = n
  qlen : q.inner.queueLength = ql
  fifo : ∀ ip, acceptedOf ip tr = handedOf ip tr ++ waitingOf q ip
  wrk : ∀ (w : Nat) (r : Worker), q.inner.runners[w]? = some r → r.status ≠ .crashed →
    handedTo w tr = ranBy w tr ++ (r.running.toList ++ jobsIn r.inbox)
  out : ∀ w, n ≤ w → handedTo w tr = []
  ipsEq : q.inner.ips = (acceptedIps tr).eraseDups
  len : q.inner.ips.length ≤ ql
  busy : ∀ r ∈ q.inner.runners, (r.running ≠ none ∨ jobsIn r.inbox ≠ []) → q.inner.ips ≠ []
  mail : ∀ name, InnerMsg.dispatch name ∈ q.mailbox → q.inner.ips ≠ []
  act : ∀ (w : Nat) (r : Worker), q.inner.runners[w]? = some r → r.running ≠ none → r.status = .alive

theorem qinv_init (n ql : Nat) : QInv n ql (Queue.new n ql) [] where
  inv := ⟨rfl, List.nodup_nil, .inl rfl⟩
  nrun := by simp [Queue.new, Inner.new]
  qlen := rfl
  fifo _ := rfl
  wrk w r h _ := by
    simp only [Queue.new, Inner.new, List.getElem?_replicate] at h
    split at h <;> cases h
    rfl
  out _ _ := rfl
  ipsEq := rfl
  len := Nat.zero_le _
  busy r h := by
    simp only [Queue.new, Inner.new, List.mem_replicate] at h
    rw [h.2]; simp [Worker.spawn, jobsIn]
  mail := by simp [Queue.new]
  act w r h := by
    simp only [Queue.new, Inner.new, List.getElem?_replicate] at h
    split at h <;> cases h
    simp [Worker.spawn]

/-- Dispatches preserve the invariant. -/
theorem qinv_disp {n ql : Nat} {q : Queue} {tr : List QEvent} (h : QInv n ql q tr) {im : Inner} {ev : List QEvent} {k : Nat}
    (d : Disp q.inner im ev k) (rest : List InnerMsg) (hk : q.inner.ips ≠ []) :
    QInv n ql { q with inner := im, mailbox := rest } (tr ++ ev) := by
  obtain ⟨e1, e2, e3, e4⟩ := disp_events d
  refine ⟨d.iinv h.inv, by rw [← h.nrun]; exact d.len, by rw [← h.qlen]; exact d.ql, ?_, ?_, ?_, ?_, ?_, ?_, ?_, ?_⟩
  · intro ip
    rw [acceptedOf_append, handedOf_append, e3, List.append_nil, h.fifo ip, List.append_assoc]
    congr 1
    exact d.wait ip
  · intro w r' hr' hc
    have hlt : w < q.inner.runners.length := by
      rw [← d.len]
      by_cases hlt : w < im.runners.length
      · exact hlt
      · rw [List.getElem?_eq_none (show im.runners.length ≤ w by omega)] at hr'; cases hr'
    have hw := d.wrk w _ (List.getElem?_eq_getElem hlt)
    rw [hw] at hr'
    cases hr'
    rw [handedTo_append, ranBy_append, e4, List.append_nil, h.wrk w _ (List.getElem?_eq_getElem hlt) hc, jobsIn_append, jobsIn_proves]
    simp [List.append_assoc]
  · intro w hw
    rw [handedTo_append, h.out w hw, d.out w (by rw [h.nrun]; exact hw)]; rfl
  · rw [acceptedIps_append, e1, List.append_nil, ← h.ipsEq]; exact d.ips
  · show im.ips.length ≤ ql
    rw [d.ips]; exact h.len
  · intro _ _ _; show im.ips ≠ []; rw [d.ips]; exact hk
  · intro _ _; show im.ips ≠ []; rw [d.ips]; exact hk
  · intro w r' hr' hc
    have hlt : w < q.inner.runners.length := by
      rw [← d.len]
      by_cases hlt : w < im.runners.length
      · exact hlt
      · rw [List.getElem?_eq_none (show im.runners.length ≤ w by omega)] at hr'; cases hr'
    have hw := d.wrk w _ (List.getElem?_eq_getElem hlt)
    rw [hw] at hr'
    cases hr'
    exact h.act w (q.inner.runners[w]) (List.getElem?_eq_getElem hlt) hc

/-- Enqueueing preserves it. -/
theorem qinv_enqueue {n ql : Nat} {q : Queue} {tr : List QEvent} (h : QInv n ql q tr) (ip : String) (job : Nat)
    (hfull : q.inner.queues.length ≠ q.inner.queueLength) :
    QInv n ql { q with inner := enqueued q.inner ip job } (tr ++ [.accepted ip job]) := by
  obtain ⟨a1, a2, a3, a4, a5, a6, a7⟩ := enqueued_spec q.inner h.inv ip job
  have hlt : q.inner.ips.length < ql := by
    rw [keys_length _ h.inv, h.qlen] at hfull
    have := h.len; omega
  refine ⟨a1, by simp only [a3]; exact h.nrun, by simp only [a4]; exact h.qlen, ?_, ?_, ?_, ?_, ?_, ?_, ?_, ?_⟩
  · intro ip'
    have := h.fifo ip'
    simp only [waitingOf] at this ⊢
    rw [acceptedOf_append, handedOf_append, a6, this]
    have hh : handedOf ip' [QEvent.accepted ip job] = [] := rfl
    have ha : acceptedOf ip' [QEvent.accepted ip job] = if ip = ip' then [job] else [] := by
      simp only [acceptedOf, List.filterMap_cons, List.filterMap_nil]; split <;> simp_all
    rw [hh, ha]; simp [List.append_assoc]
  · intro w r hr hc
    simp only [a3] at hr
    rw [handedTo_append, ranBy_append]
    have := h.wrk w r hr hc
    rw [this]; simp [handedTo, ranBy]
  · intro w hw; rw [handedTo_append, h.out w hw]; rfl
  · simp only [a2]
    rw [acceptedIps_append, List.eraseDups_append, ← h.ipsEq]
    have hi : acceptedIps [QEvent.accepted ip job] = [ip] := rfl
    rw [hi]
    by_cases hm : ip ∈ q.inner.ips
    · have hm' : ip ∈ acceptedIps tr := by
        have := h.ipsEq ▸ hm
        exact List.mem_eraseDups.1 this
      rw [if_pos hm]
      simp [List.removeAll, hm']
    · have hm' : ip ∉ acceptedIps tr := by
        intro e; apply hm; rw [h.ipsEq]; exact List.mem_eraseDups.2 e
      rw [if_neg hm]
      simp [List.removeAll, hm', List.eraseDups_cons]
  · simp only [a2]
    split
    · exact h.len
    · simp; omega
  · intro r hr hb
    exact enqueued_ne _ h.inv _ _
  · intro name hn
    exact enqueued_ne _ h.inv _ _
  · intro w r hr hc
    simp only [a3] at hr
    exact h.act w r hr hc

/-- Changing one worker preserves it, if its jobs and the trace change together. -/
theorem qinv_worker {n ql : Nat} {q : Queue} {tr : List QEvent} (h : QInv n ql q tr) (w : Nat) (r r' : Worker) (hr : q.inner.runners[w]? = some r)
    (ev : List QEvent) (mb : List InnerMsg) (hmb : ∀ m ∈ mb, m ∈ q.mailbox ∨ r.running ≠ none)
    (hacc : acceptedIps ev = []) (hacc' : ∀ ip, acceptedOf ip ev = []) (hh : ∀ ip, handedOf ip ev = []) (ht : ∀ w', handedTo w' ev = [])
    (hran : ∀ w', w' ≠ w → ranBy w' ev = [])
    (hw : r'.status ≠ .crashed → r.status ≠ .crashed ∧ r.running.toList ++ jobsIn r.inbox = ranBy w ev ++ (r'.running.toList ++ jobsIn r'.inbox))
    (hb : (r'.running ≠ none ∨ jobsIn r'.inbox ≠ []) → (r.running ≠ none ∨ jobsIn r.inbox ≠ []))
    (ha : r'.running ≠ none → r'.status = .alive) :
    QInv n ql { q.setWorker w r' with mailbox := mb } (tr ++ ev) := by
  have hlt : w < q.inner.runners.length := by
    by_cases hlt : w < q.inner.runners.length
    · exact hlt
    · rw [List.getElem?_eq_none (by omega)] at hr; cases hr
  refine ⟨⟨h.inv.keys, h.inv.nd, h.inv.cur⟩, by simp [Queue.setWorker, h.nrun], h.qlen, ?_, ?_, ?_, ?_, h.len, ?_, ?_, ?_⟩
  · intro ip
    rw [acceptedOf_append, handedOf_append, hacc', hh, List.append_nil, List.append_nil]
    exact h.fifo ip
  · intro w' x hx hc
    simp only [Queue.setWorker, List.getElem?_set] at hx
    rw [handedTo_append, ht, List.append_nil, ranBy_append]
    by_cases e : w = w'
    · subst e
      simp only [if_true, hlt, Option.some.injEq] at hx
      subst hx
      obtain ⟨h1, h2⟩ := hw hc
      rw [h.wrk w r hr h1, h2, List.append_assoc]
    · rw [if_neg e] at hx
      rw [hran w' (fun e' => e e'.symm), List.append_nil]
      exact h.wrk w' x hx hc
  · intro w' hw'; rw [handedTo_append, ht, List.append_nil]; exact h.out w' hw'
  · rw [acceptedIps_append, hacc, List.append_nil]; exact h.ipsEq
  · intro x hx hbx
    rcases List.mem_or_eq_of_mem_set hx with hx | hx
    · exact h.busy x hx hbx
    · subst hx
      exact h.busy r (List.mem_of_getElem? hr) (hb hbx)
  · intro name hn
    rcases hmb _ hn with hn | hn
    · exact h.mail name hn
    · exact h.busy r (List.mem_of_getElem? hr) (.inl hn)
  · intro w' x hx hc
    simp only [Queue.setWorker, List.getElem?_set] at hx
    by_cases e : w = w'
    · subst e
      simp only [if_true, hlt, Option.some.injEq] at hx
      subst hx
      exact ha hc
    · rw [if_neg e] at hx
      exact h.act w' x hx hc

theorem qinv_mail {n ql : Nat} {q : Queue} {tr : List QEvent} (h : QInv n ql q tr) (mb : List InnerMsg) (st : ManagerStatus) (cl : Bool)
    (hmb : ∀ name, .dispatch name ∈ mb → .dispatch name ∈ q.mailbox) :
    QInv n ql { q with mailbox := mb, status := st, closed := cl } tr :=
  ⟨h.inv, h.nrun, h.qlen, h.fifo, h.wrk, h.out, h.ipsEq, h.len, h.busy, fun name hn => h.mail name (hmb name hn), h.act⟩

theorem dispatchTo_dispk (p : Profile) (im : Inner) (h : IInv im) (name : Nat) (im' : Inner) (ev : List QEvent)
    (he : im.dispatchTo p name = .ret (im', ev)) : ∃ k, Disp im im' ev k := ⟨_, dispatchTo_disp p im h name im' ev he⟩

/-- What `schedule` does when it returns. -/
theorem schedule_cases (p : Profile) (im im' : Inner) (h : IInv im) (ip : String) (job : Nat) (ev : List QEvent)
    (he : im.schedule p ip job = .ret (im', ev)) :
    (im.queues.length = im.queueLength ∧ im' = im ∧ ev = [.refused ip job]) ∨
    (im.queues.length ≠ im.queueLength ∧ ∃ ev', ev = .accepted ip job :: ev' ∧ Disp (enqueued im ip job) im' ev' im.runners.length) := by
  rw [schedule_eq] at he
  split at he
  · rename_i hl
    simp only [Exec.ret.injEq, Prod.mk.injEq] at he
    exact .inl ⟨hl, he.1.symm, he.2.symm⟩
  · rename_i hl
    right
    refine ⟨hl, ?_⟩
    cases hd : (enqueued im ip job).dispatch p with
    | panic w => rw [hd] at he; cases he
    | ret a =>
      obtain ⟨im2, ev2⟩ := a
      rw [hd] at he
      simp only [Exec.bind, Exec.ret.injEq, Prod.mk.injEq] at he
      obtain ⟨rfl, rfl⟩ := he
      refine ⟨ev2, rfl, ?_⟩
      obtain ⟨a1, a2, a3, a4, a5, a6, a7⟩ := enqueued_spec im h ip job
      have := dispatchAll_disp p _ _ a1 _ _ hd
      simpa [a3] using this

theorem qinv_manage (p : Profile) {n ql : Nat} {q : Queue} {tr : List QEvent} (h : QInv n ql q tr) :
    QInv n ql (q.manage p).1 (tr ++ (q.manage p).2) := by
  unfold Queue.manage
  split
  · cases hm : q.mailbox with
    | nil => simpa using h
    | cons m rest =>
      have hsub : ∀ m' ∈ rest, m' ∈ q.mailbox := fun m' hm' => by rw [hm]; exact List.mem_cons_of_mem _ hm'
      cases m with
      | stop =>
        simp only
        split
        · simpa using qinv_mail h rest .panicked q.closed (fun _ hn => hsub _ hn)
        · have h' := qinv_mail h rest .stopping q.closed (fun _ hn => hsub _ hn)
          simp only [List.append_nil]
          refine ⟨⟨h'.inv.keys, h'.inv.nd, h'.inv.cur⟩, by simpa using h'.nrun, h'.qlen, h'.fifo, ?_, h'.out, h'.ipsEq, h'.len, ?_, h'.mail, ?_⟩
          · intro w r hr hc
            simp only [List.getElem?_map, Option.map_eq_some_iff] at hr
            obtain ⟨r0, hr0, rfl⟩ := hr
            rw [h'.wrk w r0 hr0 hc, jobsIn_append]
            simp [jobsIn]
          · intro r hr hb
            simp only [List.mem_map] at hr
            obtain ⟨r0, hr0, rfl⟩ := hr
            refine h'.busy r0 hr0 ?_
            rw [jobsIn_append] at hb
            simpa [jobsIn] using hb
          · intro w r hr hc
            simp only [List.getElem?_map, Option.map_eq_some_iff] at hr
            obtain ⟨r0, hr0, rfl⟩ := hr
            exact h'.act w r0 hr0 hc
      | dispatch name =>
        simp only
        cases hd : q.inner.dispatchTo p name with
        | panic w =>
          simp only [Queue.managerPanics, List.append_nil]
          exact qinv_mail h rest _ q.closed (fun _ hn => hsub _ hn)
        | ret a =>
          obtain ⟨im, ev⟩ := a
          obtain ⟨k, d⟩ := dispatchTo_dispk p q.inner h.inv name im ev hd
          exact qinv_disp h d rest (h.mail name (by rw [hm]; simp))
      | schedule ip job =>
        simp only
        cases hd : q.inner.schedule p ip job with
        | panic w =>
          simp only [Queue.managerPanics, List.append_nil]
          exact qinv_mail h rest _ q.closed (fun _ hn => hsub _ hn)
        | ret a =>
          obtain ⟨im, ev⟩ := a
          rcases schedule_cases p q.inner im h.inv ip job ev hd with ⟨-, rfl, rfl⟩ | ⟨hl, ev', rfl, d⟩
          · have h' := qinv_mail h rest q.status q.closed (fun _ hn => hsub _ hn)
            refine ⟨h'.inv, h'.nrun, h'.qlen, ?_, ?_, ?_, ?_, h'.len, h'.busy, h'.mail, h'.act⟩
            · intro ip'; rw [acceptedOf_append, handedOf_append]; simpa [acceptedOf, handedOf] using h'.fifo ip'
            · intro w r hr hc; rw [handedTo_append, ranBy_append]; simpa [handedTo, ranBy] using h'.wrk w r hr hc
            · intro w hw; rw [handedTo_append, h'.out w hw]; rfl
            · rw [acceptedIps_append]; simpa [acceptedIps] using h'.ipsEq
          · have h1 := qinv_enqueue h ip job hl
            have h2 := qinv_disp h1 d rest (enqueued_ne _ h.inv _ _)
            simpa [List.append_assoc] using h2
  · simpa using h

theorem qinv_step (p : Profile) {n ql : Nat} {q : Queue} {tr : List QEvent} (h : QInv n ql q tr) (s : QStep) :
    QInv n ql (qStep p q s).1 (tr ++ (qStep p q s).2) := by
  unfold qStep
  split
  · simpa using h
  · cases s with
    | submit ip job =>
      simp only
      split
      · simp only [List.append_nil]
        exact qinv_mail h _ q.status q.closed (by simp)
      · simpa using h
    | manage => exact qinv_manage p h
    | take w =>
      simp only [Queue.take]
      split
      · simpa using h
      · rename_i r hr
        split
        · rename_i hg
          split
          · simpa using h
          · rename_i rest hin
            have := qinv_worker h w r { r with inbox := rest, status := .exited } hr [] q.mailbox (fun m hm => .inl hm) rfl (fun _ => rfl)
              (fun _ => rfl) (fun _ => rfl) (fun _ _ => rfl) (fun _ => ⟨by simp [hg.1], by simp [hin, jobsIn, ranBy]⟩)
              (by simp [hin, jobsIn]) (by simp [hg.2])
            simp only [List.append_nil] at this ⊢
            exact this
          · rename_i job rest hin
            have := qinv_worker h w r { r with inbox := rest, running := some job } hr [.started w job] q.mailbox (fun m hm => .inl hm) rfl (fun _ => rfl)
              (fun _ => rfl) (fun _ => rfl) (fun _ _ => rfl) (fun _ => ⟨by simp [hg.1], by simp [hin, jobsIn, ranBy, hg.2]⟩)
              (by simp [hin, jobsIn]) (fun _ => hg.1)
            exact this
        · simpa using h
    | finish w =>
      simp only [Queue.finish]
      split
      · simpa using h
      · rename_i r hr
        split
        · simpa using h
        · rename_i job hrun
          split
          · refine qinv_worker h w r { r with running := none } hr [.ran w job] (q.mailbox ++ [.dispatch w]) ?_ rfl (fun _ => rfl)
              (fun _ => rfl) (fun _ => rfl) ?_ ?_ ?_ (by simp)
            · intro m hm; right; simp [hrun]
            · intro w' hw'; simp [ranBy]; exact fun e => hw' e.symm
            · intro hc; exact ⟨hc, by simp [hrun, ranBy]⟩
            · intro _; simp [hrun]
          · refine qinv_worker h w r { r with running := none, status := .exited } hr [.ran w job] q.mailbox (fun m hm => .inl hm) rfl
              (fun _ => rfl) (fun _ => rfl) (fun _ => rfl) ?_ ?_ ?_ (by simp)
            · intro w' hw'; simp [ranBy]; exact fun e => hw' e.symm
            · intro _; exact ⟨by rw [h.act w r hr (by simp [hrun])]; simp, by simp [hrun, ranBy]⟩
            · intro _; simp [hrun]
    | crash w =>
      simp only [Queue.crash]
      split
      · simpa using h
      · rename_i r hr
        split
        · simpa using h
        · rename_i job hrun
          exact qinv_worker h w r { inbox := [], running := none, status := .crashed } hr [.crashedOn w job] q.mailbox (fun m hm => .inl hm) rfl (fun _ => rfl)
              (fun _ => rfl) (fun _ => rfl) (fun _ _ => rfl) (by simp) (by simp [jobsIn]) (by simp)
    | close =>
      simp only
      split
      · simp only [List.append_nil]
        exact qinv_mail h _ q.status true (by simp)
      · simpa using h
    | joined =>
      simp only
      split
      · split
        · simp only [List.append_nil]
          exact qinv_mail h _ _ q.closed (fun _ hn => hn)
        · split
          · simp only [List.append_nil]
            exact qinv_mail h _ _ q.closed (fun _ hn => hn)
          · simpa using h
      · simpa using h

theorem qinv_run (p : Profile) {n ql : Nat} {q : Queue} {tr : List QEvent} (h : QInv n ql q tr) (steps : List QStep) :
    QInv n ql (qRun p q steps).1 (tr ++ (qRun p q steps).2) := by
  induction steps generalizing q tr with
  | nil => simpa [qRun] using h
  | cons s r ih =>
    have := ih (qinv_step p h s)
    simpa [qRun, List.append_assoc] using this

theorem qinv_new (p : Profile) (n ql : Nat) (steps : List QStep) :
    QInv n ql (qRun p (Queue.new n ql) steps).1 (qRun p (Queue.new n ql) steps).2 := by
  simpa using qinv_run p (qinv_init n ql) steps

/-! ### Shapes of steps -/

/-- What a worker thread can do. -/
inductive WorkerMove (w : Nat) (r : Worker) : Worker → List QEvent → Prop where
  | stop (rest : List WorkerMsg) : r.status = .alive → r.running = none → r.inbox = .stop :: rest →
      WorkerMove w r { r with inbox := rest, status := .exited } []
  | start (job : Nat) (rest : List WorkerMsg) : r.status = .alive → r.running = none → r.inbox = .prove job :: rest →
      WorkerMove w r { r with inbox := rest, running := some job } [.started w job]
  | finish (job : Nat) : r.running = some job → WorkerMove w r { r with running := none } [.ran w job]
  | finishExit (job : Nat) : r.running = some job → WorkerMove w r { r with running := none, status := .exited } [.ran w job]
  | crash (job : Nat) : r.running = some job →
      WorkerMove w r { inbox := [], running := none, status := .crashed } [.crashedOn w job]

/-- What a step can do. -/
inductive Shape (q : Queue) : Queue → List QEvent → Prop where
  | quiet (q' : Queue) : q'.inner = q.inner → (q'.status = q.status ∨ (q'.status ≠ .running ∧ q'.status ≠ .stopping)) →
      (q'.status = .stopped → q.status = .stopped ∨ (q.status = .stopping ∧ ∀ r ∈ q.inner.runners, r.status = .exited)) → Shape q q' []
  | stop (q' : Queue) : q.status = .running → q'.status = .stopping →
      (∀ r ∈ q.inner.runners, r.status = .alive) →
      q'.inner = { q.inner with runners := q.inner.runners.map fun r => { r with inbox := r.inbox ++ [.stop] } } → Shape q q' []
  | disp (q' : Queue) (ev : List QEvent) (k : Nat) : q.status = .running → q'.status = .running → q.inner.ips ≠ [] →
      Disp q.inner q'.inner ev k → Shape q q' ev
  | refused (q' : Queue) (ip : String) (job : Nat) : q.status = .running → q'.status = .running →
      q.inner.queues.length = q.inner.queueLength → q'.inner = q.inner → Shape q q' [.refused ip job]
  | sched (q' : Queue) (ip : String) (job : Nat) (ev : List QEvent) : q.status = .running → q'.status = .running →
      q.inner.queues.length ≠ q.inner.queueLength → Disp (enqueued q.inner ip job) q'.inner ev q.inner.runners.length →
      Shape q q' (.accepted ip job :: ev)
  | worker (q' : Queue) (w : Nat) (r r' : Worker) (ev : List QEvent) : q.inner.runners[w]? = some r →
      q'.inner = { q.inner with runners := q.inner.runners.set w r' } → q'.status = q.status → WorkerMove w r r' ev →
      (r.status = .alive → r.running ≠ none → r'.status = .exited → q.listening = false) → Shape q q' ev

theorem someGone_false {q : Queue} (h : ¬ q.someGone = true) : ∀ r ∈ q.inner.runners, r.status = .alive := by
  intro r hr
  simp only [Queue.someGone, List.any_eq_true, not_exists, not_and, bne_iff_ne, ne_eq, Decidable.not_not] at h
  exact h r hr

theorem shape_manage (p : Profile) (q : Queue) (h : IInv q.inner) (hm : ∀ name, InnerMsg.dispatch name ∈ q.mailbox → q.inner.ips ≠ []) :
    Shape q (q.manage p).1 (q.manage p).2 := by
  have hpan : ∀ (rest : List InnerMsg), Shape q ({ q with mailbox := rest } : Queue).managerPanics [] := by
    intro rest
    refine .quiet _ rfl (.inr ?_) ?_
    · simp only [Queue.managerPanics]; split <;> simp
    · simp only [Queue.managerPanics]; split <;> simp
  unfold Queue.manage
  split
  · rename_i hrun
    cases hmb : q.mailbox with
    | nil => exact .quiet _ rfl (.inl rfl) (fun e => .inl e)
    | cons m rest =>
      cases m with
      | stop =>
        simp only
        split
        · exact .quiet _ rfl (.inr (by simp)) (by simp)
        · rename_i hg
          exact .stop _ hrun rfl (someGone_false hg) rfl
      | dispatch name =>
        simp only
        cases hd : q.inner.dispatchTo p name with
        | panic w => exact hpan rest
        | ret a =>
          obtain ⟨im, ev⟩ := a
          obtain ⟨k, d⟩ := dispatchTo_dispk p q.inner h name im ev hd
          exact .disp _ ev k hrun hrun (hm name (by rw [hmb]; simp)) d
      | schedule ip job =>
        simp only
        cases hd : q.inner.schedule p ip job with
        | panic w => exact hpan rest
        | ret a =>
          obtain ⟨im, ev⟩ := a
          rcases schedule_cases p q.inner im h ip job ev hd with ⟨hf, rfl, rfl⟩ | ⟨hl, ev', rfl, d⟩
          · exact .refused _ ip job hrun hrun hf rfl
          · exact .sched _ ip job ev' hrun hrun hl d
  · exact .quiet _ rfl (.inl rfl) (fun e => .inl e)

theorem shape_step (p : Profile) (q : Queue) (h : IInv q.inner) (hm : ∀ name, InnerMsg.dispatch name ∈ q.mailbox → q.inner.ips ≠ [])
    (s : QStep) : Shape q (qStep p q s).1 (qStep p q s).2 := by
  have hq : Shape q q [] := .quiet _ rfl (.inl rfl) (fun e => .inl e)
  unfold qStep
  split
  · exact hq
  · cases s with
    | submit ip job =>
      simp only
      split
      · exact .quiet _ rfl (.inl rfl) (fun e => .inl e)
      · exact hq
    | manage => exact shape_manage p q h hm
    | take w =>
      simp only [Queue.take]
      split
      · exact hq
      · rename_i r hr
        split
        · rename_i hg
          split
          · exact hq
          · rename_i rest hin
            exact .worker _ w r _ _ hr rfl rfl (.stop rest hg.1 hg.2 hin) (fun _ e => absurd hg.2 e)
          · rename_i job rest hin
            exact .worker _ w r _ _ hr rfl rfl (.start job rest hg.1 hg.2 hin) (fun _ e => absurd hg.2 e)
        · exact hq
    | finish w =>
      simp only [Queue.finish]
      split
      · exact hq
      · rename_i r hr
        split
        · exact hq
        · rename_i job hrun
          split
          · exact .worker _ w r _ _ hr rfl rfl (.finish job hrun) (fun ha _ e => by simp [ha] at e)
          · rename_i hl
            exact .worker _ w r _ _ hr rfl rfl (.finishExit job hrun) (fun _ _ _ => by simpa using hl)
    | crash w =>
      simp only [Queue.crash]
      split
      · exact hq
      · rename_i r hr
        split
        · exact hq
        · rename_i job hrun
          exact .worker _ w r _ _ hr rfl rfl (.crash job hrun) (by simp)
    | close =>
      simp only
      split
      · exact .quiet _ rfl (.inl rfl) (fun e => .inl e)
      · exact hq
    | joined =>
      simp only
      split
      · rename_i hst
        split
        · exact .quiet _ rfl (.inr (by simp)) (by simp)
        · rename_i hc
          split
          · rename_i h1
            refine .quiet _ rfl (.inr (by simp)) (fun _ => .inr ⟨hst, ?_⟩)
            intro r hr
            simp only [List.all_eq_true, bne_iff_ne, ne_eq] at h1
            simp only [List.any_eq_true, not_exists, not_and, decide_eq_true_eq] at hc
            have h1 := h1 r hr
            have h2 := hc r hr
            cases hs : r.status <;> simp_all
          · exact hq
      · exact hq

end MCap
