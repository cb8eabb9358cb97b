import Verif.Proofs.SystemStuck

namespace MCap
open Spec

/-! ### A thread that spins for ever -/

/-- Call `i` polls an empty channel whose sender lives; the manager has nothing to do; every worker has nothing to do or is blocked. -/
structure Jam (i : Nat) (s : Sys) : Prop where
  status : s.queue.status = .running
  mailbox : s.queue.mailbox = []
  settled : ∀ (j : Nat) (c : Call), s.calls[j]? = some c → c.settle s.queue [] j = c
  workers : ∀ (w : Nat) (r : Worker), s.queue.inner.runners[w]? = some r → (r.running = none ∧ r.inbox = []) ∨
    ∃ j c job ch, r.running = some j ∧ s.calls[j]? = some c ∧ c.job = some (job, ch) ∧ ch.pc ≠ .finished ∧ ch.workerStep job = none
  spin : ∃ c cfg job ch, s.calls[i]? = some c ∧ c.live = true ∧ c.pc = .polling cfg ∧ c.job = some (job, ch) ∧ ch.reading = .none ∧
    ch.buf = [] ∧ ∀ b, ch.pc ≠ .dropped b

theorem jam_spins {i : Nat} {s : Sys} (h : Jam i s) : Spins s i := by
  obtain ⟨c, cfg, job, ch, h1, h2, h3, -⟩ := h.spin
  exact ⟨c, cfg, h1, h2, h3⟩

theorem set_same {α : Type} {l : List α} {i : Nat} {a : α} (h : l[i]? = some a) : l.set i a = l := by
  apply List.ext_getElem?
  intro k
  rw [List.getElem?_set]
  split
  · rename_i e; subst e; rw [h]; simp [lt_of_some h]
  · rfl

/-- Nothing gets the thread out of there, but a crash on a blocked worker. -/
theorem jam_step (lib : PowLib) (p : Profile) {i : Nat} {s : Sys} (h : Jam i s) (st : SStep)
    (h1 : elsewhere st = true ∨ ∃ g, st = .poll i g)
    (h2 : ∀ v, st = .queue (.crash v) → ∀ (w : Nat) (r : Worker), s.queue.inner.runners[w]? = some r → r.running = none) :
    ∃ w, sysStep lib p s st = ({ s with cache := w }, []) := by
  have hnab : ¬ s.queue.status = .aborted := by rw [h.status]; simp
  have hidle : ∃ w, ((s, []) : Sys × List SEvent) = ({ s with cache := w }, []) := ⟨s.cache, rfl⟩
  have hqueue : ∀ qs, qStep p s.queue qs = (s.queue, []) →
      ∃ w, (({ s with queue := (qStep p s.queue qs).1,
                      calls := s.calls.mapIdx (Call.settle (qStep p s.queue qs).1 (qStep p s.queue qs).2) } : Sys),
            (qStep p s.queue qs).2.map SEvent.queue) = ({ s with cache := w }, []) := by
    intro qs e
    rw [e]
    refine ⟨s.cache, ?_⟩
    rw [mapIdx_same _ _ h.settled]
    rfl
  unfold sysStep
  rw [if_neg hnab]
  rcases h1 with h1 | ⟨g, rfl⟩
  · cases st with
    | queue qs =>
      simp only
      split
      · rename_i hm
        refine hqueue qs ?_
        unfold qStep
        rw [if_neg hnab]
        cases qs with
        | submit ip j => simp [Sys.mayStep] at hm
        | close => simp [Sys.mayStep] at hm
        | manage => simp [Queue.manage, h.mailbox]
        | joined => simp [h.status]
        | take w =>
          simp only [Queue.take]
          cases hr : s.queue.inner.runners[w]? with
          | none => rfl
          | some r =>
            rcases h.workers w r hr with ⟨-, e⟩ | ⟨j, c, job, ch, e, -⟩
            · simp [e]
            · simp [e]
        | finish w =>
          simp only [Queue.finish]
          cases hr : s.queue.inner.runners[w]? with
          | none => rfl
          | some r =>
            rcases h.workers w r hr with ⟨e, -⟩ | ⟨j, c, job, ch, e, hc, hj, hf, -⟩
            · simp [e]
            · exfalso
              obtain ⟨inbox, running, status⟩ := r
              simp only at e
              subst e
              obtain ⟨api, pc, live, jb⟩ := c
              simp only at hj
              subst hj
              simp [Sys.mayStep, hr, hc] at hm
              exact hf hm
        | crash w =>
          simp only [Queue.crash]
          cases hr : s.queue.inner.runners[w]? with
          | none => rfl
          | some r => simp [h2 w rfl w r hr]
      · exact hidle
    | work w =>
      simp only
      have : s.onWork w = s := by
        unfold Sys.onWork
        cases hr : s.queue.inner.runners[w]? with
        | none => rfl
        | some r =>
          obtain ⟨ib, rn, sts⟩ := r
          rcases h.workers w _ hr with ⟨e, -⟩ | ⟨j, c, job, ch, e, hc, hj, hf, hb⟩
          · simp only at e; subst e; rfl
          · simp only at e
            subst e
            simp only [hc, hj, hf, if_false, hb, Option.getD_none]
            have : ({ c with job := some (job, ch) } : Call) = c := by rw [← hj]
            rw [this, Sys.setCall, set_same hc]
      rw [this]; exact hidle
    | tick d => exact ⟨_, rfl⟩
    | _ => simp [elsewhere] at h1
  · obtain ⟨c, cfg, job, ch, hc, hl, hp, hj, hr, hb, hd⟩ := h.spin
    simp only [hc, hl, if_true]
    unfold Sys.onPoll
    have e : ch.poll = ch := by
      unfold VerdictChannel.poll
      split
      · rw [hb]
        cases hx : ch.pc with
        | dropped b => exact absurd hx (hd b)
        | _ => rfl
      · rfl
    rw [hp, hj]
    simp only [e, hr]
    refine ⟨s.cache, ?_⟩
    have e2 : ({ c with pc := .polling cfg, job := some (job, ch) } : Call) = c := by rw [← hj, ← hp]
    rw [e2, Sys.setCall, set_same hc]

theorem jam_run (lib : PowLib) (p : Profile) {i : Nat} (later : List SStep) {s : Sys} (h : Jam i s) (h1 : OneThread lib p s later)
    (h2 : ∀ v, .queue (.crash v) ∈ later → ∀ (w : Nat) (r : Worker), s.queue.inner.runners[w]? = some r → r.running = none) :
    ∃ w, sysRun lib p s later = ({ s with cache := w }, []) := by
  induction later generalizing s with
  | nil => exact ⟨s.cache, rfl⟩
  | cons st r ih =>
    obtain ⟨w, e⟩ := jam_step lib p h st (h1.1 i (jam_spins h)) (fun v hv => h2 v (by rw [hv]; simp))
    have h1 := h1.2
    rw [e] at h1
    obtain ⟨w', e'⟩ := ih (s := { s with cache := w }) ⟨h.status, h.mailbox, h.settled, h.workers, h.spin⟩ h1
      (fun v hv => h2 v (List.mem_cons_of_mem _ hv))
    refine ⟨w', ?_⟩
    simp only [sysRun, e, e', List.append_nil]

theorem oneThread_append (lib : PowLib) (p : Profile) (a b : List SStep) (s : Sys) :
    OneThread lib p s (a ++ b) ↔ OneThread lib p s a ∧ OneThread lib p (sysRun lib p s a).1 b := by
  induction a generalizing s with
  | nil => simp [OneThread, sysRun]
  | cons st r ih => simp [OneThread, sysRun, ih, and_assoc]

/-! ### Every job is known from the log -/

/-- The job of a call, and its channel. -/
def JobKnown (lib : PowLib) (log : List SEvent) (i : Nat) (c : Call) : Prop :=
  ∀ q ch, c.job = some (q, ch) → SChan q ch ∧ ∃ work ip cfg, c.api = .verify work ip ∧ Found log i work ip cfg ∧
    q = { pow := lib, work := work.toProof, string := work.string, difficultyFactor := cfg.difficultyFactor }

theorem jobKnown_mono {lib : PowLib} {log : List SEvent} {i : Nat} {c : Call} (h : JobKnown lib log i c) (ev : List SEvent) :
    JobKnown lib (log ++ ev) i c := by
  intro q ch hj
  obtain ⟨h1, work, ip, cfg, h2, h3, h4⟩ := h q ch hj
  exact ⟨h1, work, ip, cfg, h2, List.mem_append_left _ h3, h4⟩

/-- The same job, with another good channel. -/
theorem jobKnown_of {lib : PowLib} {log : List SEvent} {i : Nat} {c c' : Call} (h : JobKnown lib log i c) (ha : c'.api = c.api)
    (hj : ∀ q ch', c'.job = some (q, ch') → ∃ ch, c.job = some (q, ch) ∧ (SChan q ch → SChan q ch')) : JobKnown lib log i c' := by
  intro q ch' e
  obtain ⟨ch, e', hs⟩ := hj q ch' e
  obtain ⟨h1, h2⟩ := h q ch e'
  rw [ha]
  exact ⟨hs h1, h2⟩

theorem dropRx_jobs (c : Call) (q : QueuedWork) (ch' : VerdictChannel) (h : c.dropRx.job = some (q, ch')) :
    ∃ ch, c.job = some (q, ch) ∧ (SChan q ch → SChan q ch') := by
  obtain ⟨x, hx, e⟩ := Option.map_eq_some_iff.1 h
  cases e
  exact ⟨x.2, hx, schan_dropRx _ x.2⟩

theorem over_jobs (c : Call) (q : QueuedWork) (ch' : VerdictChannel) (h : c.over.job = some (q, ch')) :
    ∃ ch, c.job = some (q, ch) ∧ (SChan q ch → SChan q ch') := dropRx_jobs c q ch' h

theorem local_known {lib : PowLib} {log : List SEvent} {i : Nat} {c c' : Call} {ev : List SEvent} (m : Local lib i c c' ev)
    (h : JobKnown lib log i c) : JobKnown lib log i c' := by
  have hover : JobKnown lib log i c.over := jobKnown_of h rfl (over_jobs c)
  cases m with
  | masterOk id r g h1 h2 hl => exact h
  | accepted cfg h2 hl => exact h
  | pollNone cfg job ch h2 hj hr hl =>
    refine jobKnown_of h rfl ?_
    intro q ch' e
    cases e
    exact ⟨ch, hj, schan_poll _ ch⟩
  | pollBad cfg job ch h2 hj hr hl =>
    refine jobKnown_of h rfl ?_
    intro q ch' e
    obtain ⟨ch2, e2, h3⟩ := over_jobs _ q ch' e
    cases e2
    exact ⟨ch, hj, fun hs => h3 (schan_poll _ ch hs)⟩
  | pollGood cfg job ch g h2 hj hr hl =>
    refine jobKnown_of h rfl ?_
    intro q ch' e
    cases e
    exact ⟨ch, hj, schan_poll _ ch⟩
  | work job ch hj hf =>
    refine jobKnown_of h rfl ?_
    intro q ch' e
    cases e
    exact ⟨ch, hj, schan_work _ ch⟩
  | cancel hl hd => exact jobKnown_of h rfl (fun q ch' e => dropRx_jobs c q ch' e)
  | _ => exact hover

theorem settle_known {lib : PowLib} {log : List SEvent} {i : Nat} {c : Call} (q : Queue) (ev : List QEvent) (h : JobKnown lib log i c) :
    JobKnown lib log i (c.settle q ev i) := by
  refine jobKnown_of h (settle_api q ev i c) ?_
  intro x ch' e
  rw [settle_job] at e
  split at e
  · exact ⟨ch', e, fun h => h⟩
  · obtain ⟨y, hy, e⟩ := Option.map_eq_some_iff.1 e
    cases e
    exact ⟨y.2, hy, schan_release _ y.2⟩

theorem known_move {lib : PowLib} {p : Profile} {s s' : Sys} {log ev : List SEvent} (hs : SInv lib s log)
    (h : ∀ (i : Nat) (c : Call), s.calls[i]? = some c → JobKnown lib log i c) (m : Move lib p s s' ev) :
    ∀ (i : Nat) (c : Call), s'.calls[i]? = some c → JobKnown lib (log ++ ev) i c := by
  have hset : ∀ (w : CacheWorld) (q : Queue) (i : Nat) (c' : Call), JobKnown lib (log ++ ev) i c' →
      ∀ (j : Nat) (d : Call), (({ s with cache := w, queue := q } : Sys).setCall i c').calls[j]? = some d → JobKnown lib (log ++ ev) j d := by
    intro w q i c' h' j d hd
    simp only [Sys.setCall] at hd
    rw [List.getElem?_set] at hd
    split at hd
    · rename_i e
      subst e
      split at hd
      · cases hd; exact h'
      · cases hd
    · exact jobKnown_mono (h j d hd) ev
  have hmap : ∀ (q : Queue) (ev' : List QEvent) (i : Nat) (c : Call), (s.calls.mapIdx (Call.settle q ev'))[i]? = some c →
      JobKnown lib (log ++ ev) i c := by
    intro q ev' i c hc
    simp only [List.getElem?_mapIdx, Option.map_eq_some_iff] at hc
    obtain ⟨c0, hc0, rfl⟩ := hc
    exact settle_known q ev' (jobKnown_mono (h i c0 hc0) ev)
  cases m with
  | idle => intro i c hc; exact jobKnown_mono (h i c hc) _
  | «local» i c c' _ hc m => exact hset s.cache s.queue i c' (jobKnown_mono (local_known m (h i c hc)) _)
  | start a hcl =>
    intro i c hc
    simp only [List.getElem?_append] at hc
    split at hc
    · exact jobKnown_mono (h i c hc) _
    · have : c = Call.start a := by
        have := List.mem_of_getElem? hc
        simpa using this
      subst this
      intro q ch e; simp [Call.start] at e
  | cache i c m k hc h2 =>
    exact hset _ s.queue i _ (jobKnown_mono (jobKnown_of (h i c hc) rfl (fun q ch e => ⟨ch, e, fun h => h⟩)) _)
  | submit i c work ip cfg hc h1 h2 hk hl hlis hcl =>
    refine hset s.cache _ i _ (jobKnown_mono ?_ _)
    intro q ch e
    cases e
    refine ⟨schan_new _, work, ip, cfg, h1, ?_, rfl⟩
    have := (hs.calls i c hc).2
    rw [h2] at this
    obtain ⟨-, m, ⟨work', ip', e1, e2⟩, hm⟩ := this
    rw [h1] at e1
    cases e1
    rw [h1, e2] at hm
    exact hm
  | panic i c cfg work ip hc h1 h2 hl hlis hcl =>
    exact hset s.cache s.queue i c.over (jobKnown_mono (jobKnown_of (c' := c.over) (h i c hc) rfl (over_jobs c)) _)
  | queue qs hm => exact hmap _ _
  | shutdown hs => exact hmap _ _
  | expire k => intro i c hc; exact jobKnown_mono (h i c hc) _
  | tick d => intro i c hc; exact jobKnown_mono (h i c hc) _

theorem known_new (lib : PowLib) (p : Profile) (n ql now : Nat) (steps : List SStep) :
    ∀ (i : Nat) (c : Call), (sysRun lib p (Sys.new n ql now) steps).1.calls[i]? = some c →
      JobKnown lib (sysRun lib p (Sys.new n ql now) steps).2 i c := by
  suffices h : ∀ (steps done : List SStep), (∀ (i : Nat) (c : Call), (sysRun lib p (Sys.new n ql now) done).1.calls[i]? = some c →
      JobKnown lib (sysRun lib p (Sys.new n ql now) done).2 i c) →
      ∀ (i : Nat) (c : Call), (sysRun lib p (Sys.new n ql now) (done ++ steps)).1.calls[i]? = some c →
        JobKnown lib (sysRun lib p (Sys.new n ql now) (done ++ steps)).2 i c by
    have := h steps [] (by intro i c hc; simp [sysRun, Sys.new] at hc)
    simpa using this
  intro steps
  induction steps with
  | nil => intro done h; simpa using h
  | cons st r ih =>
    intro done h
    have := ih (done ++ [st]) (by
      rw [sysRun_append]
      have := known_move (sinv_new lib p n ql now done) h (sysStep_move lib p _ st)
      simpa [sysRun] using this)
    simpa using this

/-! ### When nothing goes on around the loop any more -/

/-- A blocked worker has two complaints in its channel. -/
theorem blocked_flaws {q : QueuedWork} {ch : VerdictChannel} (h : SChan q ch) (hf : ch.pc ≠ .finished) (hd : ∀ b, ch.pc ≠ .dropped b)
    (hb : (ch.workerStep q).getD ch = ch) :
    q.pow.isSufficientDifficulty q.work q.difficultyFactor = false ∧ q.pow.isValidProof q.work q.string = false := by
  have hi := h.exact (hd false)
  have hsend : ∀ b next, next ≠ ch.pc → (ch.send b next).getD ch = ch → ch.rxAlive = true ∧ ¬ ch.buf.length < 2 := by
    intro b next hn e
    have := congrArg VerdictChannel.pc e
    simp only [VerdictChannel.send] at this
    split at this
    · exact absurd this hn
    · rename_i hx
      split at this
      · exact absurd this hn
      · rename_i hy; exact ⟨by simpa using hx, hy⟩
  have hlen : ch.rxAlive = true → ch.buf.length ≤ (sentUpTo q ch.pc).length := by
    intro hr
    rw [← hi.live hr]; simp
  cases hpc : ch.pc with
  | start =>
    exfalso
    have := congrArg VerdictChannel.pc hb
    unfold VerdictChannel.workerStep at this
    rw [hpc] at this
    simp only at this
    split at this <;> simp at this
  | checkValid =>
    exfalso
    have := congrArg VerdictChannel.pc hb
    unfold VerdictChannel.workerStep at this
    rw [hpc] at this
    simp only at this
    split at this <;> simp at this
  | finished => exact absurd hpc hf
  | dropped b => exact absurd hpc (hd b)
  | sendInsufficient =>
    exfalso
    unfold VerdictChannel.workerStep at hb
    rw [hpc] at hb
    obtain ⟨h1, h2⟩ := hsend _ _ (by rw [hpc]; simp) hb
    have := hlen h1
    rw [hpc] at this
    simp [sentUpTo] at this
    simp [this] at h2
  | sendInvalid =>
    exfalso
    unfold VerdictChannel.workerStep at hb
    rw [hpc] at hb
    obtain ⟨h1, h2⟩ := hsend _ _ (by rw [hpc]; simp) hb
    have := hlen h1
    rw [hpc] at this
    simp only [sentUpTo, complaintD] at this
    split at this <;> simp only [List.length_cons, List.length_nil] at this <;> omega
  | sendTrue =>
    unfold VerdictChannel.workerStep at hb
    rw [hpc] at hb
    obtain ⟨h1, h2⟩ := hsend _ _ (by rw [hpc]; simp) hb
    have := hlen h1
    rw [hpc] at this
    simp only [sentUpTo, complaintD, complaintV] at this
    split at this
    · rename_i x
      split at this
      · rename_i y; exact ⟨x, y⟩
      · simp at this; omega
    · split at this <;> simp at this
      · omega
      · simp [this] at h2

/-- When nothing goes on around the loop of call `i` any more, and no job crashed, its job waits in its client's queue, or a worker is
blocked on a proof with two flaws. -/
theorem loop_ends (lib : PowLib) (p : Profile) (n ql now : Nat) (steps : List SStep) (i : Nat)
    (hq : ∀ st, aroundLoop i st = true → (sysStep lib p (sysRun lib p (Sys.new n ql now) steps).1 st).1 = (sysRun lib p (Sys.new n ql now) steps).1)
    (hc : ¬ SomeCrash (sysRun lib p (Sys.new n ql now) steps).2) (hi : Spins (sysRun lib p (Sys.new n ql now) steps).1 i) :
    i ∈ waitingJobs (sysRun lib p (Sys.new n ql now) steps).1.queue ∨ ¬ AtMostOneFlaw lib (sysRun lib p (Sys.new n ql now) steps).2 := by
  have hf := facts lib p n ql now steps
  have hr := rinv_new lib p n ql now steps
  have hk := known_new lib p n ql now steps
  obtain ⟨qi, qli, qh⟩ := sys_qinv lib p n ql now steps
  have qh := qh hc
  generalize (sysRun lib p (Sys.new n ql now) steps).1 = s at *
  generalize (sysRun lib p (Sys.new n ql now) steps).2 = log at *
  obtain ⟨c, cfg, hi, hl, hpc⟩ := hi
  by_cases hcl : s.queue.closed = true
  · have := hf.ji.fin hcl i c hi hl
    rw [hpc] at this; cases this
  have hcl : s.queue.closed = false := by simpa using hcl
  obtain ⟨hrun, hstop⟩ := hf.ji.up hc hcl
  have hnab : ¬ s.queue.status = .aborted := by rw [hrun]; simp
  have hjobs := hf.ji.jobs hc hcl
  by_cases hflaw : AtMostOneFlaw lib log
  case neg => exact .inr hflaw
  left
  /- the manager has nothing to do -/
  have D : s.queue.mailbox = [] := by
    have := hq (.queue .manage) rfl
    unfold sysStep at this
    rw [if_neg hnab] at this
    simp only [Sys.mayStep, if_true] at this
    have e : (qStep p s.queue .manage).1 = s.queue := congrArg Sys.queue this
    unfold qStep at e
    rw [if_neg hnab] at e
    simp only [Queue.manage, hrun, if_true] at e
    cases hm : s.queue.mailbox with
    | nil => rfl
    | cons m rest =>
      exfalso
      have hlen : ∀ (q : Queue), q.mailbox = rest → q ≠ s.queue := by
        intro q h1 h2
        have := congrArg (fun q : Queue => q.mailbox.length) h2
        simp [h1, hm] at this
      rw [hm] at e
      cases m with
      | stop =>
        simp only at e
        split at e <;> exact hlen _ rfl e
      | dispatch name =>
        simp only at e
        split at e <;> exact hlen _ rfl e
      | schedule ip job =>
        simp only at e
        split at e <;> exact hlen _ rfl e
  /- the loop has found nothing, and the job is not dropped -/
  have F : ∃ job ch, c.job = some (job, ch) ∧ ∀ b, ch.pc ≠ .dropped b := by
    have hs := hjobs i c hi
    unfold JCall at hs
    rw [hpc] at hs
    obtain ⟨job, ch, hj, -⟩ := hs
    obtain ⟨h1, h2⟩ := (hr.rx i c hi job ch hj).1 hl (by rw [hpc]; rfl)
    have := hq (.poll i (fun _ => 0)) (by simp [aroundLoop])
    unfold sysStep at this
    rw [if_neg hnab] at this
    simp only [hi, hl, if_true] at this
    unfold Sys.onPoll at this
    rw [hpc, hj] at this
    simp only at this
    have hread : ch.poll.reading = .none := by
      cases hx : ch.poll.reading with
      | none => rfl
      | disconnected =>
        rw [hx] at this
        exact absurd this (setCall_ne hi s.cache s.queue _ (pc_ne (by simp [hpc, Call.over])))
      | verdict b =>
        rw [hx] at this
        cases b with
        | false => exact absurd this (setCall_ne hi s.cache s.queue _ (pc_ne (by simp [hpc, Call.over])))
        | true => exact absurd this (setCall_ne hi s.cache s.queue _ (pc_ne (by simp [hpc])))
    refine ⟨job, ch, hj, ?_⟩
    intro b hb
    unfold VerdictChannel.poll at hread
    rw [if_pos ⟨h2, h1⟩] at hread
    split at hread
    · simp at hread
    · rw [hb] at hread; simp at hread
  /- no worker runs anything -/
  have G : ∀ (w : Nat) (r : Worker), s.queue.inner.runners[w]? = some r → r.running = none := by
    intro w r hw
    cases hrn : r.running with
    | none => rfl
    | some j =>
      exfalso
      have halive := qi.act w r hw (by simp [hrn])
      obtain ⟨d, hd, job, ch, hj, hnd⟩ := hr.held j (.inr ⟨w, r, hw, halive, .inl hrn⟩)
      by_cases hfin : ch.pc = .finished
      · have := hq (.queue (.finish w)) rfl
        unfold sysStep at this
        rw [if_neg hnab] at this
        have hmay : s.mayStep (.finish w) = true := by
          obtain ⟨inbox, running, status⟩ := r
          simp only at hrn
          subst hrn
          obtain ⟨api, pc, live, jb⟩ := d
          simp only at hj
          subst hj
          simp [Sys.mayStep, hw, hd, hfin]
        simp only [hmay, if_true] at this
        have e : (qStep p s.queue (.finish w)).1 = s.queue := congrArg Sys.queue this
        unfold qStep at e
        rw [if_neg hnab] at e
        have hlis : s.queue.listening = true := by simp [Queue.listening, hrun]
        simp only [Queue.finish, hw, hrn, hlis, if_true] at e
        have := congrArg (fun q : Queue => q.mailbox.length) e
        simp at this
      · have := hq (.work w) rfl
        unfold sysStep at this
        rw [if_neg hnab] at this
        simp only at this
        have e1 : s.onWork w = s.setCall j { d with job := some (job, (ch.workerStep job).getD ch) } := by
          obtain ⟨inbox, running, status⟩ := r
          simp only at hrn
          subst hrn
          simp [Sys.onWork, hw, hd, hj, hfin]
        rw [e1] at this
        have e2 : (ch.workerStep job).getD ch = ch := by
          apply Classical.byContradiction
          intro hne
          refine setCall_ne hd s.cache s.queue _ ?_ this
          intro e
          have := congrArg Call.job e
          rw [hj] at this
          simp at this
          exact hne this
        obtain ⟨hs, work, ip, cfg', -, hfound, rfl⟩ := hk j d hd job ch hj
        obtain ⟨x, y⟩ := blocked_flaws hs hfin hnd e2
        rcases hflaw j work ip cfg' hfound with h | h
        · simp only [Work.toProof] at x; rw [h] at x; cases x
        · simp only [Work.toProof] at y; rw [h] at y; cases y
  have H : ∀ (w : Nat) (r : Worker), s.queue.inner.runners[w]? = some r → r.status = .alive → r.inbox = [] := by
    intro w r hw hal
    have := hq (.queue (.take w)) rfl
    unfold sysStep at this
    rw [if_neg hnab] at this
    simp only [Sys.mayStep, if_true] at this
    have e : (qStep p s.queue (.take w)).1 = s.queue := congrArg Sys.queue this
    unfold qStep at e
    rw [if_neg hnab] at e
    simp only [Queue.take, hw, hal, G w r hw, and_self, if_true] at e
    cases hin : r.inbox with
    | nil => rfl
    | cons m rest =>
      exfalso
      rw [hin] at e
      have hne : ∀ x : Worker, x.inbox = rest → s.queue.setWorker w x ≠ s.queue := by
        intro x hx e
        have := congrArg (fun q : Queue => q.inner.runners[w]?) e
        simp only [Queue.setWorker, List.getElem?_set, lt_of_some hw, hw] at this
        simp at this
        have := congrArg (fun r : Worker => r.inbox.length) this
        simp [hx, hin] at this
      cases m with
      | stop => exact hne _ rfl e
      | prove j => exact hne _ rfl e
  obtain ⟨job, ch, hj, hnd⟩ := F
  have hs := hjobs i c hi
  unfold JCall at hs
  rw [hpc] at hs
  obtain ⟨job', ch', e, h⟩ := hs
  rw [hj] at e; cases e
  rcases h with ⟨⟨-, ⟨ip, h⟩ | h⟩ | ⟨w, r, h1, h2, h3⟩, -⟩ | h
  · rw [D] at h; cases h
  · exact h
  · rcases h3 with h3 | h3
    · rw [G w r h1] at h3; cases h3
    · rw [H w r h1 h2] at h3; cases h3
  · exact absurd h (hnd true)

end MCap
