import Verif.Proofs.SystemOnce

namespace MCap
open Spec

/-! ### Where a job is -/

/-- `Queue.holds` as a proposition. -/
def Held (q : Queue) (i : Nat) : Prop :=
  (q.listening = true ∧ ((∃ ip, InnerMsg.schedule ip i ∈ q.mailbox) ∨ i ∈ waitingJobs q)) ∨
  ∃ (w : Nat) (r : Worker), q.inner.runners[w]? = some r ∧ r.status = .alive ∧ (r.running = some i ∨ WorkerMsg.prove i ∈ r.inbox)

theorem holds_iff (q : Queue) (i : Nat) : q.holds i = true ↔ Held q i := by
  unfold Queue.holds Held
  rw [Bool.or_eq_true, Bool.and_eq_true, Bool.or_eq_true]
  refine or_congr (and_congr Iff.rfl (or_congr ?_ ?_)) ?_
  · rw [List.any_eq_true]
    constructor
    · rintro ⟨m, hm, h⟩
      cases m <;> simp at h
      subst h; exact ⟨_, hm⟩
    · rintro ⟨ip, h⟩; exact ⟨_, h, by simp⟩
  · rw [List.any_eq_true]
    simp only [waitingJobs, List.mem_flatMap, List.contains_iff_mem]
  · rw [List.any_eq_true]
    constructor
    · rintro ⟨r, hr, h⟩
      obtain ⟨w, hw, rfl⟩ := List.getElem_of_mem hr
      refine ⟨w, _, List.getElem?_eq_getElem hw, ?_⟩
      simpa using h
    · rintro ⟨w, r, hr, h⟩
      exact ⟨r, List.mem_of_getElem? hr, by simpa using h⟩

theorem mem_handedTo {w : Nat} {j : Nat} {ev : List QEvent} : j ∈ handedTo w ev ↔ ∃ ip, QEvent.handed w ip j ∈ ev := by
  simp only [handedTo, List.mem_filterMap]
  constructor
  · rintro ⟨e, he, h⟩
    cases e <;> simp at h
    obtain ⟨rfl, rfl⟩ := h; exact ⟨_, he⟩
  · rintro ⟨ip, h⟩; exact ⟨_, h, by simp⟩

/-- A dispatch loses no job. -/
theorem disp_held {im : Inner} {q q' : Queue} {ev : List QEvent} {k : Nat} (d : Disp im q'.inner ev k) (hr : im.runners = q.inner.runners)
    (ha : AllAlive q.inner) (hl : q'.listening = true) {i : Nat}
    (h : i ∈ im.queues.flatMap (·.2) ∨
      ∃ (w : Nat) (r : Worker), q.inner.runners[w]? = some r ∧ r.status = .alive ∧ (r.running = some i ∨ WorkerMsg.prove i ∈ r.inbox)) :
    Held q' i := by
  rcases h with h | ⟨w, r, h1, h2, h3⟩
  · have hc := d.cnt i
    have : 0 < (im.queues.flatMap (·.2)).count i := List.count_pos_iff.2 h
    by_cases hz : 0 < (handedJobs ev).count i
    · have hm := List.count_pos_iff.1 hz
      simp only [handedJobs, List.mem_filterMap] at hm
      obtain ⟨e, he, hx⟩ := hm
      cases e <;> simp at hx
      subst hx
      rename_i w ip j
      have hlt := disp_handed_lt d w ip j he
      right
      refine ⟨w, _, d.wrk w _ (List.getElem?_eq_getElem hlt), ?_, .inr ?_⟩
      · have : im.runners[w] ∈ q.inner.runners := by rw [← hr]; exact List.getElem_mem hlt
        have := ha _ this
        exact this
      · simp only [List.mem_append, List.mem_map]
        right
        exact ⟨_, mem_handedTo.2 ⟨ip, he⟩, rfl⟩
    · left
      refine ⟨hl, .inr ?_⟩
      apply List.count_pos_iff.1
      show 0 < (q'.inner.queues.flatMap (·.2)).count i
      omega
  · right
    rw [← hr] at h1
    refine ⟨w, _, d.wrk w r h1, h2, ?_⟩
    rcases h3 with h3 | h3
    · exact .inl h3
    · exact .inr (List.mem_append_left _ h3)

/-- While manager and workers are well, a job is lost from sight only by being refused or by being finished. -/
theorem held_step (p : Profile) {n ql : Nat} {q : Queue} {tr : List QEvent} (hi : QInv n ql q tr) (hli : LInv q) (ha : AllAlive q.inner)
    (hrun : q.status = .running) (hst : InnerMsg.stop ∉ q.mailbox) (s : QStep) (hc : ∀ w j, .crashedOn w j ∉ (qStep p q s).2) (i : Nat) (h : Held q i) :
    Held (qStep p q s).1 i ∨ (∃ ip, .refused ip i ∈ (qStep p q s).2) ∨
    ∃ (w : Nat) (r : Worker), s = .finish w ∧ q.inner.runners[w]? = some r ∧ r.running = some i := by
  have hnab : ¬ q.status = .aborted := by rw [hrun]; simp
  have hlis : q.listening = true := by simp [Queue.listening, hrun]
  cases s with
  | submit ip job =>
    left
    unfold qStep
    rw [if_neg hnab]
    simp only
    split
    · rcases h with ⟨h1, h2 | h2⟩ | h
      · exact .inl ⟨hlis, .inl (h2.imp fun _ h => List.mem_append_left _ h)⟩
      · exact .inl ⟨hlis, .inr h2⟩
      · exact .inr h
    · exact h
  | manage =>
    have e : qStep p q .manage = q.manage p := by unfold qStep; rw [if_neg hnab]
    rw [e]
    unfold Queue.manage
    rw [if_pos hrun]
    cases hm : q.mailbox with
    | nil => left; exact h
    | cons m rest =>
      have hrest : ∀ m', m' ∈ rest → m' ∈ q.mailbox := fun m' h => by rw [hm]; exact List.mem_cons_of_mem _ h
      cases m with
      | stop => exact absurd (by rw [hm]; simp) hst
      | dispatch name =>
        obtain ⟨im, ev, hd⟩ := dispatchTo_ret p q.inner hi.inv (hi.mail name (by rw [hm]; simp)) ha name
        obtain ⟨k, d⟩ := dispatchTo_dispk p q.inner hi.inv name im ev hd
        simp only [hd]
        left
        rcases h with ⟨h1, ⟨ip, h2⟩ | h2⟩ | h
        · rw [hm] at h2
          rcases List.mem_cons.1 h2 with e | h2
          · cases e
          · exact .inl ⟨hlis, .inl ⟨ip, h2⟩⟩
        · exact disp_held (q := q) (q' := { q with mailbox := rest, inner := im }) d rfl ha hlis (.inl h2)
        · exact disp_held (q := q) (q' := { q with mailbox := rest, inner := im }) d rfl ha hlis (.inr h)
      | schedule ip job =>
        obtain ⟨im, ev, hd⟩ := schedule_ret p q.inner hi.inv ha ip job
        simp only [hd]
        rcases schedule_cases p q.inner im hi.inv ip job ev hd with ⟨-, rfl, rfl⟩ | ⟨hl, ev', rfl, d⟩
        · rcases h with ⟨h1, ⟨ip', h2⟩ | h2⟩ | h
          · rw [hm] at h2
            rcases List.mem_cons.1 h2 with e | h2
            · cases e; exact .inr (.inl ⟨ip, by simp⟩)
            · exact .inl (.inl ⟨hlis, .inl ⟨ip', h2⟩⟩)
          · exact .inl (.inl ⟨hlis, .inr h2⟩)
          · exact .inl (.inr h)
        · obtain ⟨a1, a2, a3, a4, a5, a6, a7⟩ := enqueued_spec q.inner hi.inv ip job
          left
          rcases h with ⟨h1, ⟨ip', h2⟩ | h2⟩ | h
          · rw [hm] at h2
            rcases List.mem_cons.1 h2 with e | h2
            · cases e
              refine disp_held (q := q) (q' := { q with mailbox := rest, inner := im }) d a3 ha hlis (.inl ?_)
              apply List.count_pos_iff.1
              rw [a7]; simp
            · exact .inl ⟨hlis, .inl ⟨ip', h2⟩⟩
          · refine disp_held (q := q) (q' := { q with mailbox := rest, inner := im }) d a3 ha hlis (.inl ?_)
            apply List.count_pos_iff.1
            rw [a7]
            have : 0 < (q.inner.queues.flatMap (·.2)).count i := List.count_pos_iff.2 h2
            omega
          · exact disp_held (q := q) (q' := { q with mailbox := rest, inner := im }) d a3 ha hlis (.inr h)
  | take w =>
    left
    unfold qStep
    rw [if_neg hnab]
    simp only [Queue.take]
    split
    · exact h
    · rename_i r hr
      split
      · rename_i hg
        split
        · exact h
        · rename_i rest hin
          rcases h with h | ⟨w', r', h1, h2, h3⟩
          · exact .inl h
          · right
            by_cases ew : w = w'
            · subst ew
              rw [hr] at h1; cases h1
              have := h2
              rcases h3 with h3 | h3
              · rw [hg.2] at h3; cases h3
              · rw [hin] at h3
                rcases List.mem_cons.1 h3 with e | h3
                · cases e
                · exact absurd (by rw [hin]; simp) (hli.run hrun w _ hr).2
            · refine ⟨w', r', ?_, h2, h3⟩
              simp only [Queue.setWorker]
              rw [List.getElem?_set_ne ew]; exact h1
        · rename_i job rest hin
          rcases h with h | ⟨w', r', h1, h2, h3⟩
          · exact .inl h
          · right
            by_cases ew : w = w'
            · subst ew
              rw [hr] at h1; cases h1
              refine ⟨w, { r with inbox := rest, running := some job }, ?_, h2, ?_⟩
              · simp only [Queue.setWorker]
                rw [List.getElem?_set_self (lt_of_some hr)]
              · rcases h3 with h3 | h3
                · rw [hg.2] at h3; cases h3
                · rw [hin] at h3
                  rcases List.mem_cons.1 h3 with e | h3
                  · cases e; exact .inl rfl
                  · exact .inr h3
            · refine ⟨w', r', ?_, h2, h3⟩
              simp only [Queue.setWorker]
              rw [List.getElem?_set_ne ew]; exact h1
      · exact h
  | finish w =>
    by_cases hf : ∃ r, q.inner.runners[w]? = some r ∧ r.running = some i
    · obtain ⟨r, h1, h2⟩ := hf
      exact .inr (.inr ⟨w, r, rfl, h1, h2⟩)
    · left
      unfold qStep
      rw [if_neg hnab]
      simp only [Queue.finish]
      split
      · exact h
      · rename_i r hr
        split
        · exact h
        · rename_i job hj
          rw [if_pos hlis]
          rcases h with ⟨h1, ⟨ip, h2⟩ | h2⟩ | ⟨w', r', h1, h2, h3⟩
          · exact .inl ⟨hlis, .inl ⟨ip, List.mem_append_left _ h2⟩⟩
          · exact .inl ⟨hlis, .inr h2⟩
          · right
            by_cases ew : w = w'
            · subst ew
              rw [hr] at h1; cases h1
              refine ⟨w, { r with running := none }, ?_, h2, .inr ?_⟩
              · simp only [Queue.setWorker]
                rw [List.getElem?_set_self (lt_of_some hr)]
              · rcases h3 with h3 | h3
                · exact absurd ⟨r, hr, h3⟩ hf
                · exact h3
            · refine ⟨w', r', ?_, h2, h3⟩
              simp only [Queue.setWorker]
              rw [List.getElem?_set_ne ew]; exact h1
  | crash w =>
    left
    rw [qstep_crash_quiet p q w (fun j => hc w j)]
    exact h
  | close =>
    left
    unfold qStep
    rw [if_neg hnab]
    simp only
    split
    · rcases h with ⟨h1, h2 | h2⟩ | h
      · exact .inl ⟨hlis, .inl (h2.imp fun _ h => List.mem_append_left _ h)⟩
      · exact .inl ⟨hlis, .inr h2⟩
      · exact .inr h
    · exact h
  | joined =>
    left
    unfold qStep
    rw [if_neg hnab]
    simp only
    rw [if_neg (by rw [hrun]; simp)]
    exact h

/-- While manager and workers are well and the `Manager` is not dropped, the manager keeps running and no stop message is sent. -/
theorem open_step (p : Profile) {n ql : Nat} {q : Queue} {tr : List QEvent} (hi : QInv n ql q tr) (ha : AllAlive q.inner)
    (hrun : q.status = .running) (hst : InnerMsg.stop ∉ q.mailbox) (s : QStep) (hc : ∀ w j, .crashedOn w j ∉ (qStep p q s).2)
    (hcl : (qStep p q s).1.closed = false) :
    (qStep p q s).1.status = .running ∧ InnerMsg.stop ∉ (qStep p q s).1.mailbox := by
  have hnab : ¬ q.status = .aborted := by rw [hrun]; simp
  have hlis : q.listening = true := by simp [Queue.listening, hrun]
  cases s with
  | submit ip job =>
    unfold qStep
    rw [if_neg hnab]
    simp only
    split
    · exact ⟨hrun, by simpa using hst⟩
    · exact ⟨hrun, hst⟩
  | manage =>
    have e : qStep p q .manage = q.manage p := by unfold qStep; rw [if_neg hnab]
    rw [e]
    cases hm : q.mailbox with
    | nil => unfold Queue.manage; rw [if_pos hrun, hm]; exact ⟨hrun, hst⟩
    | cons m rest =>
      obtain ⟨a, -, c⟩ := manage_alive p hi ha hrun m rest hm
      rw [a, c]
      rw [hm] at hst
      rw [if_neg (fun e => hst (by rw [e]; simp))]
      exact ⟨rfl, fun h => hst (List.mem_cons_of_mem _ h)⟩
  | take w =>
    unfold qStep
    rw [if_neg hnab]
    simp only [Queue.take]
    split
    · exact ⟨hrun, hst⟩
    · split
      · split <;> exact ⟨hrun, hst⟩
      · exact ⟨hrun, hst⟩
  | finish w =>
    unfold qStep
    rw [if_neg hnab]
    simp only [Queue.finish]
    split
    · exact ⟨hrun, hst⟩
    · split
      · exact ⟨hrun, hst⟩
      · rw [if_pos hlis]
        exact ⟨hrun, by simpa using hst⟩
  | crash w =>
    rw [qstep_crash_quiet p q w (fun j => hc w j)]
    exact ⟨hrun, hst⟩
  | close =>
    unfold qStep at hcl ⊢
    rw [if_neg hnab] at hcl ⊢
    simp only at hcl ⊢
    split at hcl
    · simp at hcl
    · rename_i h; rw [if_neg h]; exact ⟨hrun, hst⟩
  | joined =>
    unfold qStep
    rw [if_neg hnab]
    simp only
    rw [if_neg (by rw [hrun]; simp)]
    exact ⟨hrun, hst⟩

/-- A submission in the mailbox is answered or stays. -/
theorem answer_step (p : Profile) {n ql : Nat} {q : Queue} {tr : List QEvent} (hi : QInv n ql q tr) (ha : AllAlive q.inner)
    (hrun : q.status = .running) (s : QStep) (hc : ∀ w j, .crashedOn w j ∉ (qStep p q s).2) (ip : String) (i : Nat)
    (h : InnerMsg.schedule ip i ∈ q.mailbox) :
    InnerMsg.schedule ip i ∈ (qStep p q s).1.mailbox ∨ .accepted ip i ∈ (qStep p q s).2 ∨ .refused ip i ∈ (qStep p q s).2 := by
  have hnab : ¬ q.status = .aborted := by rw [hrun]; simp
  have hlis : q.listening = true := by simp [Queue.listening, hrun]
  cases s with
  | submit ip' job =>
    left
    unfold qStep
    rw [if_neg hnab]
    simp only
    split
    · exact List.mem_append_left _ h
    · exact h
  | manage =>
    have e : qStep p q .manage = q.manage p := by unfold qStep; rw [if_neg hnab]
    rw [e]
    cases hm : q.mailbox with
    | nil => rw [hm] at h; cases h
    | cons m rest =>
      obtain ⟨a, -, -⟩ := manage_alive p hi ha hrun m rest hm
      rw [a]
      rw [hm] at h
      rcases List.mem_cons.1 h with e | h
      · right
        subst e
        obtain ⟨im, ev, hd⟩ := schedule_ret p q.inner hi.inv ha ip i
        unfold Queue.manage
        rw [if_pos hrun, hm]
        simp only [hd]
        rcases schedule_cases p q.inner im hi.inv ip i ev hd with ⟨-, rfl, rfl⟩ | ⟨hl, ev', rfl, d⟩ <;> simp
      · exact .inl h
  | take w =>
    left
    unfold qStep
    rw [if_neg hnab]
    simp only [Queue.take]
    split
    · exact h
    · split
      · split <;> exact h
      · exact h
  | finish w =>
    left
    unfold qStep
    rw [if_neg hnab]
    simp only [Queue.finish]
    split
    · exact h
    · split
      · exact h
      · rw [if_pos hlis]
        exact List.mem_append_left _ h
  | crash w =>
    left
    rw [qstep_crash_quiet p q w (fun j => hc w j)]
    exact h
  | close =>
    left
    unfold qStep
    rw [if_neg hnab]
    simp only
    split
    · exact List.mem_append_left _ h
    · exact h
  | joined =>
    left
    unfold qStep
    rw [if_neg hnab]
    simp only
    rw [if_neg (by rw [hrun]; simp)]
    exact h

theorem closed_mono (p : Profile) (q : Queue) (s : QStep) (h : q.closed = true) : (qStep p q s).1.closed = true := by
  unfold qStep
  split
  · exact h
  cases s with
  | submit ip job => simp only; split <;> exact h
  | manage =>
    simp only [Queue.manage]
    split
    · cases q.mailbox with
      | nil => exact h
      | cons m rest =>
        cases m with
        | stop => simp only; split <;> exact h
        | dispatch name => simp only; split <;> exact h
        | schedule ip job => simp only; split <;> exact h
    · exact h
  | take w =>
    simp only [Queue.take]
    split
    · exact h
    · split
      · split <;> exact h
      · exact h
  | finish w =>
    simp only [Queue.finish]
    split
    · exact h
    · split
      · exact h
      · split <;> exact h
  | crash w =>
    simp only [Queue.crash]
    split
    · exact h
    · split <;> exact h
  | close => simp only; split <;> simp [h]
  | joined => simp only; split <;> (try split) <;> (try split) <;> exact h

/-- Only dropping the `Manager` closes it. -/
theorem closed_only (p : Profile) (q : Queue) (s : QStep) (hs : s ≠ .close) : (qStep p q s).1.closed = q.closed := by
  unfold qStep
  split
  · rfl
  cases s with
  | submit ip job => simp only; split <;> rfl
  | manage =>
    simp only [Queue.manage]
    split
    · cases q.mailbox with
      | nil => rfl
      | cons m rest =>
        cases m with
        | stop => simp only; split <;> rfl
        | dispatch name => simp only; split <;> rfl
        | schedule ip job => simp only; split <;> rfl
    · rfl
  | take w =>
    simp only [Queue.take]
    split
    · rfl
    · split
      · split <;> rfl
      · rfl
  | finish w =>
    simp only [Queue.finish]
    split
    · rfl
    · split
      · rfl
      · split <;> rfl
  | crash w =>
    simp only [Queue.crash]
    split
    · rfl
    · split <;> rfl
  | close => exact absurd rfl hs
  | joined => simp only; split <;> (try split) <;> (try split) <;> rfl

/-! ### Without crashes no job is lost -/

/-- The job of a call is somewhere, or has run to its end. -/
def Safe (q : Queue) (i : Nat) (c : Call) : Prop :=
  ∃ job ch, c.job = some (job, ch) ∧ ((Held q i ∧ ∀ b, ch.pc ≠ .dropped b) ∨ ch.pc = .dropped true)

def JCall (q : Queue) (i : Nat) (c : Call) : Prop :=
  match c.pc with
  | .awaitAdd _ => (∃ job ch, c.job = some (job, ch) ∧ ∀ b, ch.pc ≠ .dropped b) ∧ ∃ ip, InnerMsg.schedule ip i ∈ q.mailbox
  | .answered _ .accepted => Safe q i c
  | .answered _ .lost => False
  | .polling _ => Safe q i c
  | _ => True

/-- Why a call can be told its job failed. -/
def Why3 (lib : PowLib) (pre : List SEvent) : SEvent → Prop
  | .ret i (.verify work ip) (.verify (.error .insuffiencientDifficulty)) =>
      SomeCrash pre ∨ ∃ cfg, Found pre i work ip cfg ∧ cfg.key = work.key ∧ ¬ Solves lib work cfg.difficultyFactor
  | .ret _ (.verify _ _) (.verify (.error .recvError)) => SomeCrash pre
  | .panicked _ => SomeCrash pre
  | _ => True

structure JInv (lib : PowLib) (s : Sys) (log : List SEvent) : Prop where
  fin : s.queue.closed = true → ∀ (i : Nat) (c : Call), s.calls[i]? = some c → c.live = true → c.pc = .done
  up : ¬ SomeCrash log → s.queue.closed = false → s.queue.status = .running ∧ InnerMsg.stop ∉ s.queue.mailbox
  jobs : ¬ SomeCrash log → s.queue.closed = false → ∀ (i : Nat) (c : Call), s.calls[i]? = some c → JCall s.queue i c
  why : ∀ pre e post, log = pre ++ e :: post → Why3 lib pre e

theorem someCrash_mono {log ev : List SEvent} (h : SomeCrash log) : SomeCrash (log ++ ev) := by
  obtain ⟨w, j, h⟩ := h
  exact ⟨w, j, List.mem_append_left _ h⟩

theorem poll_pc (ch : VerdictChannel) : ch.poll.pc = ch.pc := by
  unfold VerdictChannel.poll
  split
  · split
    · rfl
    · split <;> simp_all
  · rfl

theorem workerStep_pc (q : QueuedWork) (ch : VerdictChannel) (hf : ch.pc ≠ .finished) :
    ((∀ b, ch.pc ≠ .dropped b) → ∀ b, ((ch.workerStep q).getD ch).pc ≠ .dropped b) ∧
    (ch.pc = .dropped true → ((ch.workerStep q).getD ch).pc = .dropped true) := by
  unfold VerdictChannel.workerStep
  cases hp : ch.pc with
  | start => simp only; split <;> simp
  | sendInsufficient =>
    simp only [VerdictChannel.send]
    split
    · simp
    · split <;> simp [hp]
  | checkValid => simp only; split <;> simp
  | sendInvalid =>
    simp only [VerdictChannel.send]
    split
    · simp
    · split <;> simp [hp]
  | sendTrue =>
    simp only [VerdictChannel.send]
    split
    · simp
    · split <;> simp [hp]
  | finished => exact absurd hp hf
  | dropped b => simp [hp]

/-- A change of the channel that keeps the worker's place keeps the call safe. -/
theorem jcall_job {q : Queue} {i : Nat} {c c' : Call} (h : JCall q i c) (hp : c'.pc = c.pc)
    (hj : ∀ job ch, c.job = some (job, ch) → ∃ ch', c'.job = some (job, ch') ∧ ((∀ b, ch.pc ≠ .dropped b) → ∀ b, ch'.pc ≠ .dropped b) ∧
      (ch.pc = .dropped true → ch'.pc = .dropped true)) : JCall q i c' := by
  have hsafe : Safe q i c → Safe q i c' := by
    rintro ⟨job, ch, h1, h2⟩
    obtain ⟨ch', a, b, d⟩ := hj job ch h1
    refine ⟨job, ch', a, ?_⟩
    rcases h2 with ⟨x, y⟩ | y
    · exact .inl ⟨x, b y⟩
    · exact .inr (d y)
  unfold JCall at h ⊢
  rw [hp]
  cases hpc : c.pc with
  | awaitAdd cfg =>
    rw [hpc] at h
    obtain ⟨⟨job, ch, h1, h2⟩, h3⟩ := h
    obtain ⟨ch', a, b, d⟩ := hj job ch h1
    exact ⟨⟨job, ch', a, b h2⟩, h3⟩
  | answered cfg a =>
    rw [hpc] at h
    cases a with
    | accepted => exact hsafe h
    | refused => trivial
    | lost => exact h
  | polling cfg => rw [hpc] at h; exact hsafe h
  | awaitMaster => trivial
  | awaitCache m k => trivial
  | replied r k => trivial
  | done => trivial

theorem local_jcall {lib : PowLib} {q : Queue} {i : Nat} {c c' : Call} {ev : List SEvent} (h : JCall q i c) (m : Local lib i c c' ev) :
    JCall q i c' := by
  cases m with
  | accepted cfg h2 hl =>
    unfold JCall at h
    rw [h2] at h
    exact h
  | pollNone cfg job ch h2 hj hr hl =>
    refine jcall_job h rfl ?_
    intro job' ch' e
    rw [hj] at e; cases e
    exact ⟨ch.poll, rfl, by rw [poll_pc]; exact ⟨fun h => h, fun h => h⟩⟩
  | work job ch hj hf =>
    refine jcall_job h rfl ?_
    intro job' ch' e
    rw [hj] at e; cases e
    exact ⟨_, rfl, workerStep_pc job ch hf⟩
  | cancel hl hd =>
    refine jcall_job h rfl ?_
    intro job' ch' e
    exact ⟨ch'.dropRx, by simp [Call.dropRx, e], fun h => h, fun h => h⟩
  | masterErr => trivial
  | masterOk => trivial
  | retPow => trivial
  | notFound => trivial
  | wrongKey => trivial
  | stored => trivial
  | checked => trivial
  | refused => trivial
  | lost => trivial
  | pollBad => trivial
  | pollGood => trivial
  | gone => trivial

theorem not_solves {lib : PowLib} {work : Work} {d : Nat} {ch : VerdictChannel}
    (h : SChan { pow := lib, work := work.toProof, string := work.string, difficultyFactor := d } ch) (hr : ch.reading = .verdict false) :
    ¬ Solves lib work d := by
  intro hs
  have := (head_true_iff _ false (h.verd false hr)).2 hs
  cases this

theorem local_why3 {lib : PowLib} {s : Sys} {log : List SEvent} {i : Nat} {c c' : Call} {ev : List SEvent} (hc : CallInv lib log i c)
    (h : ¬ SomeCrash log → JCall s.queue i c) (m : Local lib i c c' ev) :
    ∀ ev1 e ev2, ev = ev1 ++ e :: ev2 → Why3 lib (log ++ ev1) e := by
  have none : ∀ ev1 (e : SEvent) ev2, ([] : List SEvent) = ev1 ++ e :: ev2 → Why3 lib (log ++ ev1) e := by
    intro ev1 e ev2 he; simp at he
  obtain ⟨-, hc⟩ := hc
  cases m with
  | masterErr id a r h1 h2 hl h3 =>
    intro ev1 e ev2 he
    cases ev1 with
    | nil => simp at he; rw [← he.1]; trivial
    | cons x t =>
      cases t with
      | nil => simp at he; rw [← he.2.1, h1]; trivial
      | cons y t => simp at he
  | masterOk => exact one_all (P := Why3 lib) _ trivial
  | retPow r cfg h2 hl => refine one_all (P := Why3 lib) _ ?_; cases c.api <;> trivial
  | notFound work ip h1 h2 hl => refine one_all (P := Why3 lib) _ ?_; rw [h1]; trivial
  | wrongKey work ip cfg h1 h2 hk hl => refine one_all (P := Why3 lib) _ ?_; rw [h1]; trivial
  | stored r t d h2 hl => refine one_all (P := Why3 lib) _ ?_; cases c.api <;> trivial
  | checked b h2 hl => refine one_all (P := Why3 lib) _ ?_; cases c.api <;> trivial
  | accepted => exact none
  | refused cfg h2 hl => refine one_all (P := Why3 lib) _ ?_; cases c.api <;> trivial
  | lost cfg h2 hl =>
    refine one_all (P := Why3 lib) _ ?_
    rw [h2] at hc
    obtain ⟨⟨work, ip, ch, a1, a2, a3, a4, a5⟩, -⟩ := hc
    rw [a1]
    by_cases hx : SomeCrash log
    · exact hx
    · have := h hx
      unfold JCall at this
      rw [h2] at this
      exact absurd this id
  | pollNone => exact none
  | pollBad cfg job ch h2 hj hr hl =>
    refine one_all (P := Why3 lib) _ ?_
    rw [h2] at hc
    obtain ⟨⟨work, ip, ch', a1, a2, a3, a4, a5⟩, -⟩ := hc
    rw [a4] at hj
    cases hj
    rw [a1]
    by_cases hx : SomeCrash log
    · exact .inl hx
    · right
      refine ⟨cfg, a2, a3, ?_⟩
      have hs := h hx
      unfold JCall at hs
      rw [h2] at hs
      obtain ⟨job', ch'', b1, b2⟩ := hs
      rw [a4] at b1
      cases b1
      rcases hr with hr | hr
      · have := (schan_poll _ _ a5).disc hr
        rw [poll_pc] at this
        rcases b2 with ⟨-, b⟩ | b
        · exact absurd this (b false)
        · rw [this] at b; cases b
      · exact not_solves (schan_poll _ _ a5) hr
  | pollGood => exact none
  | gone m k r h2 hl hr =>
    refine one_all (P := Why3 lib) _ ?_
    subst hr
    cases c.api <;> trivial
  | work => exact none
  | cancel => exact one_all (P := Why3 lib) _ trivial

/-- A call that still waits for the answer of the queue has not been answered, and its job exists. -/
theorem settle_awaits (q : Queue) (ev : List QEvent) (i : Nat) (c : Call) (cfg : CachedPoWConfig) (h : c.pc = .awaitAdd cfg)
    (h' : (c.settle q ev i).pc = .awaitAdd cfg) : (¬ ∃ ip, .accepted ip i ∈ ev) ∧ (¬ ∃ ip, .refused ip i ∈ ev) ∧ q.holds i = true := by
  have e : (c.settle q ev i).pc =
        (if ev.any (fun e => match e with | .accepted _ j => j == i | _ => false) then .answered cfg .accepted
        else if ev.any (fun e => match e with | .refused _ j => j == i | _ => false) then .answered cfg .refused
        else if q.holds i then .awaitAdd cfg
        else .answered cfg .lost) := by
    unfold Call.settle; simp only [h]; split <;> rfl
  rw [e] at h'
  split at h'
  · cases h'
  · rename_i h1
    split at h'
    · cases h'
    · rename_i h2
      split at h'
      · rename_i h3
        refine ⟨?_, ?_, h3⟩
        · rintro ⟨ip, hm⟩; exact h1 (List.any_eq_true.2 ⟨_, hm, by simp⟩)
        · rintro ⟨ip, hm⟩; exact h2 (List.any_eq_true.2 ⟨_, hm, by simp⟩)
      · cases h'

theorem settle_lost (q : Queue) (ev : List QEvent) (i : Nat) (c : Call) (cfg : CachedPoWConfig) 
    (h' : (c.settle q ev i).pc = .answered cfg .lost) (h : c.pc ≠ .answered cfg .lost) :
    (¬ ∃ ip, .accepted ip i ∈ ev) ∧ (¬ ∃ ip, .refused ip i ∈ ev) := by
  have e : ∀ cfg, c.pc = .awaitAdd cfg → (c.settle q ev i).pc =
        (if ev.any (fun e => match e with | .accepted _ j => j == i | _ => false) then .answered cfg .accepted
        else if ev.any (fun e => match e with | .refused _ j => j == i | _ => false) then .answered cfg .refused
        else if q.holds i then .awaitAdd cfg
        else .answered cfg .lost) := by
    intro cfg h
    unfold Call.settle; simp only [h]; split <;> rfl
  rcases settle_pc q ev i c with e' | ⟨cfg', e', -⟩
  · rw [e'] at h'; exact absurd h' h
  · rw [e cfg' e'] at h'
    split at h'
    · cases h'
    · rename_i h1
      split at h'
      · cases h'
      · rename_i h2
        refine ⟨?_, ?_⟩
        · rintro ⟨ip, hm⟩; exact h1 (List.any_eq_true.2 ⟨_, hm, by simp⟩)
        · rintro ⟨ip, hm⟩; exact h2 (List.any_eq_true.2 ⟨_, hm, by simp⟩)

theorem not_held {q : Queue} {i : Nat} (h : q.holds i = false) : ¬ Held q i := by
  intro hh
  rw [(holds_iff q i).2 hh] at h
  cases h

theorem jinv_move {lib : PowLib} {p : Profile} {n ql : Nat} {s s' : Sys} {log ev : List SEvent}
    (hi : ∀ (i : Nat) (c : Call), s.calls[i]? = some c → CallInv lib log i c)
    (hq : QInv n ql s.queue (queueTrace log)) (hli : LInv s.queue) (hh : ¬ SomeCrash log → HInv s.queue) (hu : UInv lib s log)
    (h : JInv lib s log) (m : Move lib p s s' ev) : JInv lib s' (log ++ ev) := by
  have hqueue : ∀ (qs : QStep), (∀ ip j, qs ≠ .submit ip j) → (qs = .close → ∀ c ∈ s.calls, c.live = true → c.pc = .done) →
      (∀ w, qs = .finish w → s.mayStep qs = true) →
      JInv lib { s with queue := (qStep p s.queue qs).1, calls := s.calls.mapIdx (Call.settle (qStep p s.queue qs).1 (qStep p s.queue qs).2) }
      (log ++ (qStep p s.queue qs).2.map .queue) := by
    intro qs hs hclose hmay
    have hpast : ¬ SomeCrash (log ++ (qStep p s.queue qs).2.map .queue) → ¬ SomeCrash log ∧ ∀ w j, .crashedOn w j ∉ (qStep p s.queue qs).2 := by
      intro hc
      refine ⟨fun h => hc (someCrash_mono h), fun w j hm => hc ⟨w, j, List.mem_append_right _ (List.mem_map_of_mem hm)⟩⟩
    have hopen : (qStep p s.queue qs).1.closed = false → s.queue.closed = false := by
      intro h1
      cases hx : s.queue.closed with
      | false => rfl
      | true => rw [closed_mono p _ qs hx] at h1; cases h1
    refine ⟨?_, ?_, ?_, extend_all h.why _ ?_⟩
    · intro hcl i c hc hl
      simp only [List.getElem?_mapIdx, Option.map_eq_some_iff] at hc
      obtain ⟨c0, hc0, rfl⟩ := hc
      rw [settle_live] at hl
      have hd : c0.pc = .done := by
        by_cases hx : qs = .close
        · exact hclose hx c0 (List.mem_of_getElem? hc0) hl
        · have := closed_only p s.queue qs hx
          rw [show (qStep p s.queue qs).1.closed = true from hcl] at this
          exact h.fin this.symm i c0 hc0 hl
      rcases settle_pc (qStep p s.queue qs).1 (qStep p s.queue qs).2 i c0 with e | ⟨cfg, e, -⟩
      · rw [e]; exact hd
      · rw [hd] at e; cases e
    · intro hc hcl
      obtain ⟨h1, h2⟩ := hpast hc
      obtain ⟨hr, hst⟩ := h.up h1 (hopen hcl)
      exact open_step p hq (allAlive (hh h1) hli hr) hr hst qs h2 hcl
    · intro hc hcl i c hci
      obtain ⟨h1, h2⟩ := hpast hc
      obtain ⟨hr, hst⟩ := h.up h1 (hopen hcl)
      have hal := allAlive (hh h1) hli hr
      simp only [List.getElem?_mapIdx, Option.map_eq_some_iff] at hci
      obtain ⟨c0, hc0, rfl⟩ := hci
      have hj := h.jobs h1 (hopen hcl) i c0 hc0
      have hhad := (hu.calls i c0 hc0).had
      have hmail := mail_step p hq qs hs i
      have hheld := held_step p hq hli hal hr hst qs h2 i
      have hrefN : ∀ ip, .refused ip i ∈ (qStep p s.queue qs).2 → 0 < refN i ((qStep p s.queue qs).2.map .queue) := by
        intro ip hm
        rw [refN_queue]
        exact List.countP_pos_iff.2 ⟨_, hm, by simp⟩
      have haccN : ∀ ip, .accepted ip i ∈ (qStep p s.queue qs).2 → 0 < accN i ((qStep p s.queue qs).2.map .queue) := by
        intro ip hm
        rw [accN_queue]
        exact List.countP_pos_iff.2 ⟨_, hm, by simp⟩
      -- a job still held stays so, or has run
      have hsafe : ∀ job ch, c0.job = some (job, ch) → refN i ((qStep p s.queue qs).2.map .queue) = 0 →
          ((Held s.queue i ∧ ∀ b, ch.pc ≠ .dropped b) ∨ ch.pc = .dropped true) →
          Safe (qStep p s.queue qs).1 i (c0.settle (qStep p s.queue qs).1 (qStep p s.queue qs).2 i) := by
        intro job ch hjob hz hsf
        unfold Safe
        rw [settle_job, hjob]
        rcases hsf with ⟨hl, hnd⟩ | hd
        · cases hx : (qStep p s.queue qs).1.holds i with
          | true => exact ⟨job, ch, by simp, .inl ⟨(holds_iff _ _).1 hx, hnd⟩⟩
          | false =>
            rcases hheld hl with hl' | ⟨ip, hl'⟩ | ⟨w, r, e1, e2, e3⟩
            · exact absurd hl' (not_held hx)
            · have := hrefN ip hl'; omega
            · have hm := hmay w e1
              rw [e1] at hm
              simp only [Sys.mayStep] at hm
              have hr2 : s.queue.inner.runners[w]? = some { inbox := r.inbox, running := some i, status := r.status } := by rw [e2, ← e3]
              rw [hr2] at hm
              simp only at hm
              have hc1 : s.calls[i]? = some { api := c0.api, pc := c0.pc, live := c0.live, job := some (job, ch) } := by rw [hc0, ← hjob]
              rw [hc1] at hm
              simp at hm
              exact ⟨job, releaseCh ch, by simp, .inr (by simp [releaseCh, hm])⟩
        · cases hx : (qStep p s.queue qs).1.holds i with
          | true => exact ⟨job, ch, by simp, .inr hd⟩
          | false => exact ⟨job, releaseCh ch, by simp, .inr (by simp [releaseCh, hd])⟩
      unfold JCall at hj
      cases hp : c0.pc with
      | awaitAdd cfg =>
        rw [hp] at hj hhad
        obtain ⟨⟨job, ch, hjob, hnd⟩, ip, hmem⟩ := hj
        have hlis : s.queue.listening = true := by simp [Queue.listening, hr]
        have hHeld : Held s.queue i := .inl ⟨hlis, .inl ⟨ip, hmem⟩⟩
        rcases settle_pc (qStep p s.queue qs).1 (qStep p s.queue qs).2 i c0 with e | ⟨cfg', -, ⟨e, ip', e'⟩ | ⟨e, -⟩ | ⟨e, e'⟩⟩
        · unfold JCall
          rw [e, hp]
          have hnoans : (¬ ∃ ip, .accepted ip i ∈ (qStep p s.queue qs).2) ∧ ¬ ∃ ip, .refused ip i ∈ (qStep p s.queue qs).2 := by
            have := settle_awaits (qStep p s.queue qs).1 (qStep p s.queue qs).2 i c0 cfg hp (by rw [e, hp])
            exact ⟨this.1, this.2.1⟩
          have hholds := (settle_awaits (qStep p s.queue qs).1 (qStep p s.queue qs).2 i c0 cfg hp (by rw [e, hp])).2.2
          refine ⟨⟨job, ch, by rw [settle_job, if_pos hholds, hjob], hnd⟩, ip, ?_⟩
          rcases answer_step p hq hal hr qs h2 ip i hmem with a | a | a
          · exact a
          · exact absurd ⟨_, a⟩ hnoans.1
          · exact absurd ⟨_, a⟩ hnoans.2
        · unfold JCall
          rw [e]
          have := haccN ip' e'
          have hM := hhad.2.2
          exact hsafe job ch hjob (by omega) (.inl ⟨hHeld, hnd⟩)
        · unfold JCall; rw [e]; trivial
        · exfalso
          have := settle_lost (qStep p s.queue qs).1 (qStep p s.queue qs).2 i c0 cfg' e (by simp [hp])
          rcases answer_step p hq hal hr qs h2 ip i hmem with a | a | a
          · have hrun' := (open_step p hq hal hr hst qs h2 hcl).1
            exact not_held e' (.inl ⟨by simp [Queue.listening, hrun'], .inl ⟨ip, a⟩⟩)
          · exact this.1 ⟨_, a⟩
          · exact this.2 ⟨_, a⟩
      | answered cfg a =>
        have e : (c0.settle (qStep p s.queue qs).1 (qStep p s.queue qs).2 i).pc = c0.pc := by
          rcases settle_pc (qStep p s.queue qs).1 (qStep p s.queue qs).2 i c0 with e | ⟨cfg', e, -⟩
          · exact e
          · rw [hp] at e; cases e
        rw [hp] at hj hhad
        unfold JCall
        rw [e, hp]
        cases a with
        | accepted =>
          obtain ⟨job, ch, hjob, hsf⟩ := hj
          have := hhad.2.2
          exact hsafe job ch hjob (by omega) hsf
        | refused => trivial
        | lost => exact hj
      | polling cfg =>
        have e : (c0.settle (qStep p s.queue qs).1 (qStep p s.queue qs).2 i).pc = c0.pc := by
          rcases settle_pc (qStep p s.queue qs).1 (qStep p s.queue qs).2 i c0 with e | ⟨cfg', e, -⟩
          · exact e
          · rw [hp] at e; cases e
        rw [hp] at hj hhad
        unfold JCall
        rw [e, hp]
        obtain ⟨job, ch, hjob, hsf⟩ := hj
        have := hhad.2.2
        exact hsafe job ch hjob (by omega) hsf
      | awaitMaster =>
        unfold JCall
        rcases settle_pc (qStep p s.queue qs).1 (qStep p s.queue qs).2 i c0 with e | ⟨cfg', e, -⟩
        · rw [e, hp]; trivial
        · rw [hp] at e; cases e
      | awaitCache m k =>
        unfold JCall
        rcases settle_pc (qStep p s.queue qs).1 (qStep p s.queue qs).2 i c0 with e | ⟨cfg', e, -⟩
        · rw [e, hp]; trivial
        · rw [hp] at e; cases e
      | replied m k =>
        unfold JCall
        rcases settle_pc (qStep p s.queue qs).1 (qStep p s.queue qs).2 i c0 with e | ⟨cfg', e, -⟩
        · rw [e, hp]; trivial
        · rw [hp] at e; cases e
      | done =>
        unfold JCall
        rcases settle_pc (qStep p s.queue qs).1 (qStep p s.queue qs).2 i c0 with e | ⟨cfg', e, -⟩
        · rw [e, hp]; trivial
        · rw [hp] at e; cases e
    · intro ev1 e ev2 he
      have : e ∈ (qStep p s.queue qs).2.map SEvent.queue := by rw [he]; simp
      obtain ⟨x, -, rfl⟩ := List.mem_map.1 this
      trivial
  have hsame : ∀ {ev : List SEvent}, queueTrace ev = [] → ¬ SomeCrash (log ++ ev) → ¬ SomeCrash log :=
    fun _ hc h => hc (someCrash_mono h)
  cases m with
  | idle => rw [List.append_nil]; exact h
  | «local» i c c' _ hc m =>
    have hq0 := (local_traces m).2
    refine ⟨?_, fun hc' hcl => h.up (hsame hq0 hc') hcl, ?_, extend_all h.why _ ?_⟩
    · intro hcl j d hd hl
      simp only [Sys.setCall] at hd hcl
      rw [List.getElem?_set] at hd
      split at hd
      · rename_i e
        subst e
        simp [lt_of_some hc] at hd
        subst hd
        have hf := h.fin hcl i c hc
        cases m with
        | cancel => simp at hl
        | work => exact hf hl
        | pollNone cfg job ch h2 hj hr hl' => rw [hf hl'] at h2; cases h2
        | accepted cfg h2 hl' => rw [hf hl'] at h2; cases h2
        | pollGood cfg job ch g h2 hj hr hl' => rw [hf hl'] at h2; cases h2
        | masterOk id r g h1 h2 hl' => rw [hf hl'] at h2; cases h2
        | masterErr => rfl
        | retPow => rfl
        | notFound => rfl
        | wrongKey => rfl
        | stored => rfl
        | checked => rfl
        | refused => rfl
        | lost => rfl
        | pollBad => rfl
        | gone => rfl
      · exact h.fin hcl j d hd hl
    · intro hc' hcl j d hd
      simp only [Sys.setCall] at hd hcl ⊢
      rw [List.getElem?_set] at hd
      split at hd
      · rename_i e
        subst e
        simp [lt_of_some hc] at hd
        subst hd
        exact local_jcall (h.jobs (hsame hq0 hc') hcl i c hc) m
      · exact h.jobs (hsame hq0 hc') hcl j d hd
    · cases hcl : s.queue.closed with
      | false => exact local_why3 (s := s) (hi i c hc) (fun hx => h.jobs hx hcl i c hc) m
      | true =>
        have hf := h.fin hcl i c hc
        have none : ∀ ev1 (e : SEvent) ev2, ([] : List SEvent) = ev1 ++ e :: ev2 → Why3 lib (log ++ ev1) e := by
          intro ev1 e ev2 he; simp at he
        cases m with
        | cancel => exact one_all (P := Why3 lib) _ trivial
        | work => exact none
        | pollNone cfg job ch h2 hj hr hl' => rw [hf hl'] at h2; cases h2
        | accepted cfg h2 hl' => rw [hf hl'] at h2; cases h2
        | pollGood cfg job ch g h2 hj hr hl' => rw [hf hl'] at h2; cases h2
        | masterOk id r g h1 h2 hl' => rw [hf hl'] at h2; cases h2
        | masterErr id a r h1 h2 hl' h3 => rw [hf hl'] at h2; cases h2
        | retPow r cfg h2 hl' => rw [hf hl'] at h2; cases h2
        | notFound work ip h1 h2 hl' => rw [hf hl'] at h2; cases h2
        | wrongKey work ip cfg h1 h2 hk hl' => rw [hf hl'] at h2; cases h2
        | stored r t d h2 hl' => rw [hf hl'] at h2; cases h2
        | checked b h2 hl' => rw [hf hl'] at h2; cases h2
        | refused cfg h2 hl' => rw [hf hl'] at h2; cases h2
        | lost cfg h2 hl' => rw [hf hl'] at h2; cases h2
        | pollBad cfg job ch h2 hj hr hl' => rw [hf hl'] at h2; cases h2
        | gone m k r h2 hl' hr => rw [hf hl'] at h2; cases h2
  | start a hcl0 =>
    have hnew : ∀ (j : Nat) (d : Call), (s.calls ++ [Call.start a])[j]? = some d → s.calls[j]? = some d ∨ d = Call.start a := by
      intro j d hd
      rw [List.getElem?_append] at hd
      split at hd
      · exact .inl hd
      · have hj : j - s.calls.length = 0 := by
          rcases Nat.lt_or_ge (j - s.calls.length) 1 with h' | h'
          · omega
          · rw [List.getElem?_eq_none (by simpa using h')] at hd; cases hd
        rw [hj] at hd; exact .inr (by simpa using hd.symm)
    refine ⟨?_, fun hc' hcl => h.up (hsame rfl hc') hcl, ?_, extend_all h.why _ (one_all (P := Why3 lib) _ trivial)⟩
    · intro hcl
      have : s.queue.closed = true := hcl
      rw [hcl0] at this; cases this
    · intro hc' hcl j d hd
      rcases hnew j d hd with hd | rfl
      · exact h.jobs (hsame rfl hc') hcl j d hd
      · cases a <;> trivial
  | cache i c m k hc h2 =>
    refine ⟨?_, fun hc' hcl => h.up (hsame rfl hc') hcl, ?_, extend_all h.why _ (one_all (P := Why3 lib) _ trivial)⟩
    · intro hcl j d hd hl
      simp only [Sys.setCall] at hd hcl
      rw [List.getElem?_set] at hd
      split at hd
      · rename_i e
        subst e
        simp [lt_of_some hc] at hd
        subst hd
        have := h.fin hcl i c hc hl
        rw [h2] at this; cases this
      · exact h.fin hcl j d hd hl
    · intro hc' hcl j d hd
      simp only [Sys.setCall] at hd hcl ⊢
      rw [List.getElem?_set] at hd
      split at hd
      · rename_i e
        subst e
        simp [lt_of_some hc] at hd
        subst hd
        trivial
      · exact h.jobs (hsame rfl hc') hcl j d hd
  | submit i c work ip cfg hc h1 h2 hk hl hlis hcl0 =>
    have hev : (qStep p s.queue (.submit ip i)).2 = [] := (mail_submit p s.queue ip i i).1
    rw [hev, List.map_nil, List.append_nil]
    have hopen : s.queue.closed = false := by
      cases hx : s.queue.closed with
      | false => rfl
      | true =>
        have := h.fin hx i c hc hl
        rw [h2] at this; cases this
    have hst : qStep p s.queue (.submit ip i) = ({ s.queue with mailbox := s.queue.mailbox ++ [.schedule ip i] }, []) := by
      unfold qStep
      rw [if_neg hcl0]
      simp only
      rw [if_pos ⟨hopen, hlis⟩]
    rw [hst]
    refine ⟨?_, ?_, ?_, h.why⟩
    · intro hcl
      have : s.queue.closed = true := hcl
      rw [hopen] at this; cases this
    · intro hc' hcl
      obtain ⟨a, b⟩ := h.up hc' hopen
      exact ⟨a, by simpa [Sys.setCall] using b⟩
    · intro hc' hcl j d hd
      simp only [Sys.setCall] at hd ⊢
      rw [List.getElem?_set] at hd
      split at hd
      · rename_i e
        subst e
        simp [lt_of_some hc] at hd
        subst hd
        exact ⟨⟨_, _, rfl, by simp [VerdictChannel.new]⟩, ip, by simp⟩
      · have hj := h.jobs hc' hopen j d hd
        have hmono : Held s.queue j → Held { s.queue with mailbox := s.queue.mailbox ++ [.schedule ip i] } j := by
          rintro (⟨a, ⟨x, b⟩ | b⟩ | b)
          · exact .inl ⟨a, .inl ⟨x, List.mem_append_left _ b⟩⟩
          · exact .inl ⟨a, .inr b⟩
          · exact .inr b
        have hsf : Safe s.queue j d → Safe { s.queue with mailbox := s.queue.mailbox ++ [.schedule ip i] } j d := by
          rintro ⟨job, ch, a, ⟨b, c⟩ | b⟩
          · exact ⟨job, ch, a, .inl ⟨hmono b, c⟩⟩
          · exact ⟨job, ch, a, .inr b⟩
        unfold JCall at hj ⊢
        cases hp : d.pc with
        | awaitAdd cfg =>
          rw [hp] at hj
          obtain ⟨a, x, b⟩ := hj
          exact ⟨a, x, List.mem_append_left _ b⟩
        | answered cfg a =>
          rw [hp] at hj
          cases a with
          | accepted => exact hsf hj
          | refused => trivial
          | lost => exact hj
        | polling cfg => rw [hp] at hj; exact hsf hj
        | awaitMaster => trivial
        | awaitCache m k => trivial
        | replied m k => trivial
        | done => trivial
  | panic i c cfg work ip hc h1 h2 hl hlis hcl0 =>
    have hopen : s.queue.closed = false := by
      cases hx : s.queue.closed with
      | false => rfl
      | true =>
        have := h.fin hx i c hc hl
        rw [h2] at this; cases this
    refine ⟨?_, fun hc' hcl => h.up (hsame rfl hc') hcl, ?_, extend_all h.why _ (one_all (P := Why3 lib) _ ?_)⟩
    · intro hcl
      have : s.queue.closed = true := hcl
      rw [hopen] at this; cases this
    · intro hc' hcl j d hd
      simp only [Sys.setCall] at hd ⊢
      rw [List.getElem?_set] at hd
      split at hd
      · rename_i e
        subst e
        simp [lt_of_some hc] at hd
        subst hd
        trivial
      · exact h.jobs (hsame rfl hc') hopen j d hd
    · apply Classical.byContradiction
      intro hx
      have := (h.up hx hopen).1
      simp [Queue.listening, this] at hlis
  | queue qs hm =>
    refine hqueue qs (by intro ip j e; subst e; simp [Sys.mayStep] at hm) (by intro e; subst e; simp [Sys.mayStep] at hm) ?_
    intro _ _; exact hm
  | shutdown hs => exact hqueue .close (by simp) (fun _ => hs) (by simp)
  | expire k =>
    refine ⟨h.fin, fun hc' hcl => h.up (hsame (queueTrace_expire _) hc') hcl, fun hc' hcl => h.jobs (hsame (queueTrace_expire _) hc') hcl, extend_all h.why _ ?_⟩
    intro ev1 e ev2 he
    have : e ∈ (cacheStep s.cache (.fire k)).2.map fun (m, r) => SEvent.cache none m r := by rw [he]; simp
    obtain ⟨x, -, rfl⟩ := List.mem_map.1 this
    trivial
  | tick d => rw [List.append_nil]; exact ⟨h.fin, h.up, h.jobs, h.why⟩

theorem jinv_new (lib : PowLib) (p : Profile) (n ql now : Nat) (steps : List SStep) :
    JInv lib (sysRun lib p (Sys.new n ql now) steps).1 (sysRun lib p (Sys.new n ql now) steps).2 := by
  suffices h : ∀ (steps done : List SStep) (s : Sys) (log : List SEvent), sysRun lib p (Sys.new n ql now) done = (s, log) → JInv lib s log →
      JInv lib (sysRun lib p s steps).1 (log ++ (sysRun lib p s steps).2) by
    have := h steps [] (Sys.new n ql now) [] rfl
      ⟨by intro h; simp [Sys.new, Queue.new] at h, fun _ _ => ⟨rfl, by simp [Sys.new, Queue.new]⟩,
       by intro _ _ i c hc; simp [Sys.new] at hc, by intro pre e post hs; simp at hs⟩
    simpa using this
  intro steps
  induction steps with
  | nil => intro done s log _ h; simpa [sysRun] using h
  | cons st r ih =>
    intro done s log hd h
    have m := sysStep_move lib p s st
    have h1 := sinv_new lib p n ql now done
    have h2 := uinv_new lib p n ql now done
    obtain ⟨h3, h4, h5⟩ := sys_qinv lib p n ql now done
    rw [hd] at h1 h2 h3 h4 h5
    have := ih (done ++ [st]) _ _ (by rw [sysRun_append, hd]; simp [sysRun]) (jinv_move h1.calls h3 h4 h5 h2 h m)
    simpa [sysRun, List.append_assoc] using this

end MCap
