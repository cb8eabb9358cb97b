import Verif.Proofs.SystemEnds

namespace MCap
open Spec

/-! ### Where a job can come from -/

theorem disp_held_back {im : Inner} {q q' : Queue} {ev : List QEvent} {k : Nat} (d : Disp im q'.inner ev k) (hr : im.runners = q.inner.runners)
    {i : Nat} (h : i ∈ waitingJobs q' ∨
      ∃ (w : Nat) (r : Worker), q'.inner.runners[w]? = some r ∧ r.status = .alive ∧ (r.running = some i ∨ WorkerMsg.prove i ∈ r.inbox)) :
    i ∈ im.queues.flatMap (·.2) ∨
      ∃ (w : Nat) (r : Worker), q.inner.runners[w]? = some r ∧ r.status = .alive ∧ (r.running = some i ∨ WorkerMsg.prove i ∈ r.inbox) := by
  have hc := d.cnt i
  rcases h with h | ⟨w, r', h1, h2, h3⟩
  · left
    have : 0 < (q'.inner.queues.flatMap (·.2)).count i := List.count_pos_iff.2 h
    exact List.count_pos_iff.1 (by omega)
  · obtain ⟨r, hr1, rfl⟩ := disp_back d w r' h1
    rw [hr] at hr1
    rcases h3 with h3 | h3
    · exact .inr ⟨w, r, hr1, h2, .inl h3⟩
    · rcases List.mem_append.1 h3 with h3 | h3
      · exact .inr ⟨w, r, hr1, h2, .inr h3⟩
      · left
        obtain ⟨j, hj, e⟩ := List.mem_map.1 h3
        cases e
        obtain ⟨ip, hj⟩ := mem_handedTo.1 hj
        have : 0 < (handedJobs ev).count i := by
          apply List.count_pos_iff.2
          simp only [handedJobs, List.mem_filterMap]
          exact ⟨_, hj, rfl⟩
        exact List.count_pos_iff.1 (by omega)

/-- Only a submission brings a job. -/
theorem held_back (p : Profile) {n ql : Nat} {q : Queue} {tr : List QEvent} (hi : QInv n ql q tr) (s : QStep) (hs : ∀ ip j, s ≠ .submit ip j)
    (i : Nat) (h : Held (qStep p q s).1 i) : Held q i := by
  have hset : ∀ (w : Nat) (r r' : Worker), q.inner.runners[w]? = some r →
      (r'.status = .alive → r.status = .alive ∧ ((r'.running = some i ∨ WorkerMsg.prove i ∈ r'.inbox) → (r.running = some i ∨ WorkerMsg.prove i ∈ r.inbox))) →
      (∃ (v : Nat) (x : Worker), (q.setWorker w r').inner.runners[v]? = some x ∧ x.status = .alive ∧ (x.running = some i ∨ WorkerMsg.prove i ∈ x.inbox)) →
      ∃ (v : Nat) (x : Worker), q.inner.runners[v]? = some x ∧ x.status = .alive ∧ (x.running = some i ∨ WorkerMsg.prove i ∈ x.inbox) := by
    rintro w r r' hr himp ⟨v, x, h1, h2, h3⟩
    simp only [Queue.setWorker] at h1
    rw [List.getElem?_set] at h1
    split at h1
    · rename_i e
      subst e
      simp [lt_of_some hr] at h1
      subst h1
      exact ⟨w, r, hr, (himp h2).1, (himp h2).2 h3⟩
    · exact ⟨v, x, h1, h2, h3⟩
  unfold qStep at h
  split at h
  · exact h
  cases s with
  | submit ip job => exact absurd rfl (hs ip job)
  | manage =>
    simp only [Queue.manage] at h
    split at h
    · rename_i hrun
      have hlis : q.listening = true := by simp [Queue.listening, hrun]
      cases hm : q.mailbox with
      | nil => rw [hm] at h; exact h
      | cons m rest =>
        have hrest : (∃ ip, InnerMsg.schedule ip i ∈ rest) → ∃ ip, InnerMsg.schedule ip i ∈ q.mailbox := by
          rintro ⟨ip, h⟩; exact ⟨ip, by rw [hm]; exact List.mem_cons_of_mem _ h⟩
        have hsame : ∀ st, Held { q with mailbox := rest, status := st } i → Held q i := by
          rintro st (⟨-, h | h⟩ | h)
          · exact .inl ⟨hlis, .inl (hrest h)⟩
          · exact .inl ⟨hlis, .inr h⟩
          · exact .inr h
        rw [hm] at h
        cases m with
        | stop =>
          simp only at h
          split at h
          · exact hsame _ h
          · rcases h with ⟨-, h | h⟩ | ⟨w, r, h1, h2, h3⟩
            · exact .inl ⟨hlis, .inl (hrest h)⟩
            · exact .inl ⟨hlis, .inr h⟩
            · right
              simp only [List.getElem?_map, Option.map_eq_some_iff] at h1
              obtain ⟨x, hx, rfl⟩ := h1
              refine ⟨w, x, hx, h2, ?_⟩
              simpa using h3
        | dispatch name =>
          simp only at h
          cases hd : q.inner.dispatchTo p name with
          | panic w => rw [hd] at h; exact hsame _ h
          | ret a =>
            obtain ⟨im, ev⟩ := a
            rw [hd] at h
            obtain ⟨k, d⟩ := dispatchTo_dispk p q.inner hi.inv name im ev hd
            rcases h with ⟨-, h | h⟩ | h
            · exact .inl ⟨hlis, .inl (hrest h)⟩
            · rcases disp_held_back (q := q) (q' := { q with mailbox := rest, inner := im }) d rfl (.inl h) with h | h
              · exact .inl ⟨hlis, .inr h⟩
              · exact .inr h
            · rcases disp_held_back (q := q) (q' := { q with mailbox := rest, inner := im }) d rfl (.inr h) with h | h
              · exact .inl ⟨hlis, .inr h⟩
              · exact .inr h
        | schedule ip job =>
          simp only at h
          cases hd : q.inner.schedule p ip job with
          | panic w => rw [hd] at h; exact hsame _ h
          | ret a =>
            obtain ⟨im, ev⟩ := a
            rw [hd] at h
            rcases schedule_cases p q.inner im hi.inv ip job ev hd with ⟨-, rfl, rfl⟩ | ⟨hl, ev', rfl, d⟩
            · exact hsame q.status h
            · obtain ⟨a1, a2, a3, a4, a5, a6, a7⟩ := enqueued_spec q.inner hi.inv ip job
              have hq : i ∈ (enqueued q.inner ip job).queues.flatMap (·.2) → Held q i := by
                intro hx
                have := List.count_pos_iff.2 hx
                rw [a7] at this
                by_cases hz : 0 < (q.inner.queues.flatMap (·.2)).count i
                · exact .inl ⟨hlis, .inr (List.count_pos_iff.1 hz)⟩
                · have : 0 < [job].count i := by omega
                  have := List.count_pos_iff.1 this
                  simp at this
                  subst this
                  exact .inl ⟨hlis, .inl ⟨ip, by rw [hm]; simp⟩⟩
              rcases h with ⟨-, h | h⟩ | h
              · exact .inl ⟨hlis, .inl (hrest h)⟩
              · rcases disp_held_back (q := q) (q' := { q with mailbox := rest, inner := im }) d a3 (.inl h) with h | h
                · exact hq h
                · exact .inr h
              · rcases disp_held_back (q := q) (q' := { q with mailbox := rest, inner := im }) d a3 (.inr h) with h | h
                · exact hq h
                · exact .inr h
    · exact h
  | take w =>
    simp only [Queue.take] at h
    split at h
    · exact h
    · rename_i r hr
      split at h
      · rename_i hg
        split at h
        · exact h
        · rename_i rest hin
          rcases h with h | h
          · exact .inl h
          · exact .inr (hset w r _ hr (by intro e; simp at e) h)
        · rename_i job rest hin
          rcases h with h | h
          · exact .inl h
          · refine .inr (hset w r _ hr ?_ h)
            intro _
            refine ⟨hg.1, ?_⟩
            rw [hin]
            rintro (e | e)
            · simp at e; subst e; exact .inr (by simp)
            · exact .inr (List.mem_cons_of_mem _ e)
      · exact h
  | finish w =>
    simp only [Queue.finish] at h
    split at h
    · exact h
    · rename_i r hr
      split at h
      · exact h
      · rename_i job hj
        split at h
        · rcases h with ⟨h0, ⟨ip, h⟩ | h⟩ | h
          · rcases List.mem_append.1 h with h | h
            · exact .inl ⟨h0, .inl ⟨ip, h⟩⟩
            · simp at h
          · exact .inl ⟨h0, .inr h⟩
          · refine .inr (hset w r { r with running := none } hr ?_ h)
            intro e
            exact ⟨e, by rintro (e | e); · simp at e
                         · exact .inr e⟩
        · rcases h with h | h
          · exact .inl h
          · exact .inr (hset w r _ hr (by intro e; simp at e) h)
  | crash w =>
    simp only [Queue.crash] at h
    split at h
    · exact h
    · rename_i r hr
      split at h
      · exact h
      · rcases h with h | h
        · exact .inl h
        · exact .inr (hset w r _ hr (by intro e; simp at e) h)
  | close =>
    simp only at h
    split at h
    · rcases h with ⟨h0, ⟨ip, h⟩ | h⟩ | h
      · rcases List.mem_append.1 h with h | h
        · exact .inl ⟨h0, .inl ⟨ip, h⟩⟩
        · simp at h
      · exact .inl ⟨h0, .inr h⟩
      · exact .inr h
    · exact h
  | joined =>
    simp only at h
    split at h
    · rename_i hst
      have hlis : q.listening = true := by simp [Queue.listening, hst]
      split at h
      · rcases h with ⟨h0, h⟩ | h
        · exact .inl ⟨hlis, h⟩
        · exact .inr h
      · split at h
        · rcases h with ⟨h0, h⟩ | h
          · exact .inl ⟨hlis, h⟩
          · exact .inr h
        · exact h
    · exact h

/-! ### The receiving end of a channel, and the jobs in the queue -/

def inQ : Pc → Bool
  | .awaitAdd _ => true
  | .answered _ _ => true
  | .polling _ => true
  | _ => false

def RxOk (c : Call) : Prop := ∀ job ch, c.job = some (job, ch) →
  (c.live = true → inQ c.pc = true → ch.rxAlive = true ∧ ch.reading = .none) ∧ (c.live = false ∨ c.pc = .done → ch.rxAlive = false) ∧
  c.pc ≠ .awaitMaster

def HasJob (c : Call) : Prop := ∃ job ch, c.job = some (job, ch) ∧ ∀ b, ch.pc ≠ .dropped b

structure RInv (s : Sys) : Prop where
  rx : ∀ (i : Nat) (c : Call), s.calls[i]? = some c → RxOk c
  held : ∀ j, Held s.queue j → ∃ c, s.calls[j]? = some c ∧ HasJob c

theorem rxOk_over (c : Call) : RxOk c.over := by
  obtain ⟨api, pc, live, job⟩ := c
  intro j ch h
  cases job with
  | none => simp [Call.over, Call.dropRx] at h
  | some x =>
    simp [Call.over, Call.dropRx] at h
    obtain ⟨-, rfl⟩ := h
    exact ⟨by simp [Call.over, Call.dropRx, inQ], fun _ => rfl, by simp [Call.over]⟩

theorem hasJob_over {c : Call} (h : HasJob c) : HasJob c.over := by
  obtain ⟨job, ch, h1, h2⟩ := h
  exact ⟨job, ch.dropRx, by simp [Call.over, Call.dropRx, h1], h2⟩

theorem work_rx (q : QueuedWork) (ch : VerdictChannel) :
    ((ch.workerStep q).getD ch).rxAlive = ch.rxAlive ∧ ((ch.workerStep q).getD ch).reading = ch.reading := by
  unfold VerdictChannel.workerStep
  cases ch.pc with
  | start => simp only; split <;> simp
  | checkValid => simp only; split <;> simp
  | sendInsufficient => simp only [VerdictChannel.send]; split; · simp
                        split <;> simp
  | sendInvalid => simp only [VerdictChannel.send]; split; · simp
                   split <;> simp
  | sendTrue => simp only [VerdictChannel.send]; split; · simp
                split <;> simp
  | finished => simp
  | dropped b => simp

theorem local_rx {lib : PowLib} {i : Nat} {c c' : Call} {ev : List SEvent} (m : Local lib i c c' ev) (h : RxOk c) :
    RxOk c' ∧ (HasJob c → HasJob c') := by
  cases m with
  | masterErr id a r h1 h2 hl h3 => exact ⟨rxOk_over c, hasJob_over⟩
  | masterOk id r g h1 h2 hl =>
    refine ⟨?_, fun h => h⟩
    intro job ch hj
    exact ⟨by simp [inQ], fun e => by simp [hl] at e, by simp⟩
  | retPow r cfg h2 hl => exact ⟨rxOk_over c, hasJob_over⟩
  | notFound work ip h1 h2 hl => exact ⟨rxOk_over c, hasJob_over⟩
  | wrongKey work ip cfg h1 h2 hk hl => exact ⟨rxOk_over c, hasJob_over⟩
  | stored r t d h2 hl => exact ⟨rxOk_over c, hasJob_over⟩
  | checked b h2 hl => exact ⟨rxOk_over c, hasJob_over⟩
  | accepted cfg h2 hl =>
    refine ⟨?_, fun h => h⟩
    intro job ch hj
    exact ⟨fun _ _ => (h job ch hj).1 hl (by simp [h2, inQ]), fun e => by simp [hl] at e, by simp⟩
  | refused cfg h2 hl => exact ⟨rxOk_over c, hasJob_over⟩
  | lost cfg h2 hl => exact ⟨rxOk_over c, hasJob_over⟩
  | pollNone cfg job ch h2 hj hr hl =>
    rw [poll_same ch hr, ← hj]
    exact ⟨h, fun h => h⟩
  | pollBad cfg job ch h2 hj hr hl =>
    refine ⟨rxOk_over _, ?_⟩
    rintro ⟨job', ch', e, h'⟩
    rw [hj] at e; cases e
    exact hasJob_over ⟨job, ch.poll, rfl, by rw [poll_pc]; exact h'⟩
  | pollGood cfg job ch g h2 hj hr hl =>
    refine ⟨?_, ?_⟩
    · intro job ch hj
      exact ⟨by simp [inQ], fun e => by simp [hl] at e, by simp⟩
    · rintro ⟨job', ch', e, h'⟩
      rw [hj] at e; cases e
      exact ⟨job, ch.poll, rfl, by rw [poll_pc]; exact h'⟩
  | gone m k r h2 hl hr => exact ⟨rxOk_over c, hasJob_over⟩
  | work job ch hj hf =>
    have hw := work_rx job ch
    refine ⟨?_, ?_⟩
    · intro job' ch' e
      simp only [Option.some.injEq, Prod.mk.injEq] at e
      obtain ⟨rfl, rfl⟩ := e
      rw [hw.1, hw.2]
      exact h job ch hj
    · rintro ⟨job', ch', e, h'⟩
      rw [hj] at e; cases e
      exact ⟨job, _, rfl, (workerStep_pc job ch hf).1 h'⟩
  | cancel hl hd =>
    refine ⟨?_, ?_⟩
    · intro job' ch' e
      simp only [Call.dropRx, Option.map_eq_some_iff] at e
      obtain ⟨x, hx, e⟩ := e
      cases e
      exact ⟨by simp, fun _ => rfl, (h x.1 x.2 hx).2.2⟩
    · rintro ⟨job', ch', e, h'⟩
      exact ⟨job', ch'.dropRx, by simp [Call.dropRx, e], h'⟩

theorem settle_rx (q : Queue) (ev : List QEvent) (i : Nat) (c : Call) (h : RxOk c) :
    RxOk (c.settle q ev i) ∧ (q.holds i = true → HasJob c → HasJob (c.settle q ev i)) := by
  have hj := settle_job q ev i c
  have hl := settle_live q ev i c
  have hpc : (inQ (c.settle q ev i).pc = true → inQ c.pc = true) ∧ ((c.settle q ev i).pc = .done → c.pc = .done) ∧
      ((c.settle q ev i).pc = .awaitMaster → c.pc = .awaitMaster) := by
    rcases settle_pc q ev i c with e | ⟨cfg, e, ⟨e', -⟩ | ⟨e', -⟩ | ⟨e', -⟩⟩
    · rw [e]; exact ⟨fun h => h, fun h => h, fun h => h⟩
    all_goals rw [e, e']; exact ⟨fun _ => rfl, by simp, by simp⟩
  refine ⟨?_, ?_⟩
  · intro job ch e
    rw [hj] at e
    have : ∃ ch0, c.job = some (job, ch0) ∧ ch.rxAlive = ch0.rxAlive ∧ ch.reading = ch0.reading := by
      split at e
      · exact ⟨ch, e, rfl, rfl⟩
      · obtain ⟨x, hx, e⟩ := Option.map_eq_some_iff.1 e
        cases e
        refine ⟨x.2, hx, ?_⟩
        unfold releaseCh
        split <;> exact ⟨rfl, rfl⟩
    obtain ⟨ch0, h1, h2, h3⟩ := this
    rw [h2, h3, hl]
    exact ⟨fun a b => (h job ch0 h1).1 a (hpc.1 b), fun a => (h job ch0 h1).2.1 (a.imp id hpc.2.1),
      fun e => (h job ch0 h1).2.2 (hpc.2.2 e)⟩
  · rintro hh ⟨job, ch, h1, h2⟩
    exact ⟨job, ch, by rw [hj, if_pos hh]; exact h1, h2⟩

theorem rinv_set {s : Sys} (h : RInv s) {i : Nat} {c c' : Call} (hc : s.calls[i]? = some c) (h1 : RxOk c') (h2 : HasJob c → HasJob c') :
    RInv (s.setCall i c') := by
  refine ⟨?_, ?_⟩
  · intro j d hd
    simp only [Sys.setCall] at hd
    rw [List.getElem?_set] at hd
    split at hd
    · rename_i e
      subst e
      simp [lt_of_some hc] at hd
      subst hd; exact h1
    · exact h.rx j d hd
  · intro j hj
    obtain ⟨d, hd, hh⟩ := h.held j hj
    simp only [Sys.setCall]
    by_cases e : i = j
    · subst e
      rw [hc] at hd; cases hd
      exact ⟨c', by rw [List.getElem?_set]; simp [lt_of_some hc], h2 hh⟩
    · exact ⟨d, by rw [List.getElem?_set_ne e]; exact hd, hh⟩

theorem rinv_queue (p : Profile) {n ql : Nat} {s : Sys} {tr : List QEvent} (hq : QInv n ql s.queue tr) (h : RInv s) (qs : QStep)
    (hs : ∀ ip j, qs ≠ .submit ip j) :
    RInv { s with queue := (qStep p s.queue qs).1, calls := s.calls.mapIdx (Call.settle (qStep p s.queue qs).1 (qStep p s.queue qs).2) } := by
  refine ⟨?_, ?_⟩
  · intro i c hc
    simp only [List.getElem?_mapIdx, Option.map_eq_some_iff] at hc
    obtain ⟨c0, hc0, rfl⟩ := hc
    exact (settle_rx _ _ i c0 (h.rx i c0 hc0)).1
  · intro j hj
    obtain ⟨c, hc, hh⟩ := h.held j (held_back p hq qs hs j hj)
    refine ⟨_, by simp only [List.getElem?_mapIdx, hc, Option.map_some]; rfl, ?_⟩
    exact (settle_rx _ _ j c (h.rx j c hc)).2 ((holds_iff _ _).2 hj) hh

theorem rinv_move {lib : PowLib} {p : Profile} {n ql : Nat} {s s' : Sys} {tr : List QEvent} {ev : List SEvent} (hq : QInv n ql s.queue tr)
    (h : RInv s) (m : Move lib p s s' ev) : RInv s' := by
  cases m with
  | idle => exact h
  | «local» i c c' _ hc m => exact rinv_set h hc (local_rx m (h.rx i c hc)).1 (local_rx m (h.rx i c hc)).2
  | start a hcl =>
    refine ⟨?_, ?_⟩
    · intro i c hc
      simp only [List.getElem?_append] at hc
      split at hc
      · exact h.rx i c hc
      · have : c = Call.start a := by
          have := List.mem_of_getElem? hc
          simpa using this
        subst this
        intro job ch e; simp [Call.start] at e
    · intro j hj
      obtain ⟨c, hc, hh⟩ := h.held j hj
      exact ⟨c, by rw [List.getElem?_append_left (lt_of_some hc)]; exact hc, hh⟩
  | cache i c m k hc h2 =>
    have h' : RInv ({ s with cache := (s.cache.handle m).1 } : Sys) := ⟨h.rx, h.held⟩
    refine rinv_set h' hc ?_ (fun h => h)
    intro job ch e
    refine ⟨by simp [inQ], fun hx => ?_, by simp⟩
    rcases hx with hx | hx
    · exact (h.rx i c hc job ch e).2.1 (.inl hx)
    · simp at hx
  | submit i c work ip cfg hc h1 h2 hk hl hlis hcl =>
    have hmem : ∀ j, Held (qStep p s.queue (.submit ip i)).1 j → j = i ∨ Held s.queue j := by
      intro j hj
      unfold qStep at hj
      rw [if_neg hcl] at hj
      simp only at hj
      split at hj
      · rcases hj with ⟨h0, ⟨ip', h⟩ | h⟩ | h
        · rcases List.mem_append.1 h with h | h
          · exact .inr (.inl ⟨h0, .inl ⟨ip', h⟩⟩)
          · simp at h; exact .inl h.2
        · exact .inr (.inl ⟨h0, .inr h⟩)
        · exact .inr (.inr h)
      · exact .inr hj
    refine ⟨?_, ?_⟩
    · intro j d hd
      simp only [Sys.setCall] at hd
      rw [List.getElem?_set] at hd
      split at hd
      · rename_i e
        subst e
        simp [lt_of_some hc] at hd
        subst hd
        intro job ch e
        simp only [Option.some.injEq, Prod.mk.injEq] at e
        obtain ⟨-, rfl⟩ := e
        exact ⟨fun _ _ => ⟨rfl, rfl⟩, fun e => by simp [hl] at e, by simp⟩
      · exact h.rx j d hd
    · intro j hj
      simp only [Sys.setCall]
      by_cases e : i = j
      · subst e
        refine ⟨_, by rw [List.getElem?_set]; simp [lt_of_some hc]; rfl, _, _, rfl, ?_⟩
        simp [VerdictChannel.new]
      · rcases hmem j hj with e' | hj
        · exact absurd e'.symm e
        · obtain ⟨d, hd, hh⟩ := h.held j hj
          exact ⟨d, by rw [List.getElem?_set_ne e]; exact hd, hh⟩
  | panic i c cfg work ip hc h1 h2 hl hlis hcl => exact rinv_set h hc (rxOk_over c) hasJob_over
  | queue qs hm =>
    refine rinv_queue p hq h qs ?_
    rintro ip j rfl
    simp [Sys.mayStep] at hm
  | shutdown hs => exact rinv_queue p hq h .close (by simp)
  | expire k => exact ⟨h.rx, h.held⟩
  | tick d => exact ⟨h.rx, h.held⟩

theorem rinv_new (lib : PowLib) (p : Profile) (n ql now : Nat) (steps : List SStep) : RInv (sysRun lib p (Sys.new n ql now) steps).1 := by
  suffices h : ∀ (steps done : List SStep), RInv (sysRun lib p (Sys.new n ql now) done).1 →
      RInv (sysRun lib p (Sys.new n ql now) (done ++ steps)).1 by
    have := h steps [] ⟨by intro i c hc; simp [sysRun, Sys.new] at hc, ?_⟩
    · simpa using this
    · rintro j (⟨-, ⟨ip, h⟩ | h⟩ | ⟨w, r, h1, h2, h3⟩)
      · simp [sysRun, Sys.new, Queue.new] at h
      · simp [sysRun, Sys.new, Queue.new, waitingJobs, Inner.new] at h
      · simp only [sysRun, Sys.new, Queue.new, Inner.new] at h1
        have := List.mem_of_getElem? h1
        rw [List.mem_replicate] at this
        rw [this.2] at h3
        simp [Worker.spawn] at h3
  intro steps
  induction steps with
  | nil => intro done h; simpa using h
  | cons st r ih =>
    intro done h
    have hq := (sys_qinv lib p n ql now done).1
    have := ih (done ++ [st]) (by
      rw [sysRun_append]
      exact rinv_move hq h (sysStep_move lib p _ st))
    simpa using this

end MCap
