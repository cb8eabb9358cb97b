import Verif.Spec.SystemDrop
import Verif.Proofs.OpenLive

/-!
# Dropping the System
-/

namespace MCap
open Spec

/-! ### Calls that have ended -/

/-- Nobody runs the call any more. -/
def isOver (c : Call) : Bool := !c.live || c.pc = .done

theorem isOver_over (c : Call) : isOver c.over = true := by simp [isOver, Call.over]

def OverKept (l l' : List Call) : Prop := ∀ (k : Nat) (c : Call), l[k]? = some c → isOver c = true → ∃ c', l'[k]? = some c' ∧ isOver c' = true

theorem over_refl (l : List Call) : OverKept l l := fun _ c h h' => ⟨c, h, h'⟩

theorem over_set {l : List Call} {i : Nat} {c c' : Call} (h : l[i]? = some c) (hp : isOver c = true → isOver c' = true) : OverKept l (l.set i c') := by
  intro k d hd ho
  by_cases hik : i = k
  · subst hik
    rw [h] at hd; cases hd
    exact ⟨c', List.getElem?_set_self (lt_of_some h), hp ho⟩
  · exact ⟨d, by rw [List.getElem?_set_ne hik]; exact hd, ho⟩

theorem over_settle (l : List Call) (q : Queue) (ev : List QEvent) : OverKept l (l.mapIdx (Call.settle q ev)) := by
  intro k c hc ho
  refine ⟨_, by rw [List.getElem?_mapIdx, hc]; rfl, ?_⟩
  unfold isOver at ho ⊢
  rw [settle_live]
  rcases settle_pc q ev k c with e | ⟨cfg, e, -⟩
  · rw [e]; exact ho
  · rw [e] at ho
    simp at ho
    simp [ho]

/-- With this event a call ends. -/
def endsCall (k : Nat) : SEvent → Prop
  | .ret i _ _ => i = k
  | .cancelled i => i = k
  | .panicked i => i = k
  | _ => False

theorem local_isOver {lib : PowLib} {i : Nat} {c c' : Call} {ev : List SEvent} (m : Local lib i c c' ev) :
    (isOver c = true → isOver c' = true) ∧ ∀ e ∈ ev, ∀ k, endsCall k e → k = i ∧ isOver c' = true := by
  have hov : ∀ {d : Call}, isOver d.over = true := fun {d} => isOver_over d
  cases m with
  | masterErr id a r h1 h2 hl h3 =>
    exact ⟨fun _ => hov, by intro e he k hk; simp at he; rcases he with rfl | rfl <;> simp [endsCall] at hk; exact ⟨hk.symm, hov⟩⟩
  | masterOk id r g h1 h2 hl => exact ⟨by simp [isOver, h2, hl], by intro e he k hk; simp at he; subst he; cases hk⟩
  | accepted cfg h2 hl => exact ⟨by simp [isOver, h2, hl], by simp⟩
  | pollNone cfg job ch h2 hj hr hl => exact ⟨by simp [isOver, h2, hl], by simp [endsCall]⟩
  | pollGood cfg job ch g h2 hj hr hl => exact ⟨by simp [isOver, h2, hl], by simp [endsCall]⟩
  | work job ch hj hf => exact ⟨fun h => h, by simp⟩
  | cancel hl hd =>
    exact ⟨fun _ => rfl, by intro e he k hk; simp at he; subst he; exact ⟨hk.symm, rfl⟩⟩
  | _ => exact ⟨fun _ => hov, by intro e he k hk; simp at he; subst he; exact ⟨hk.symm, hov⟩⟩

theorem ends_queue (l : List QEvent) : ∀ e ∈ l.map SEvent.queue, ∀ k, ¬ endsCall k e := by
  intro e he k hk
  obtain ⟨_, -, rfl⟩ := List.mem_map.1 he
  cases hk

theorem over_move {lib : PowLib} {p : Profile} {s s' : Sys} {ev : List SEvent} (m : Move lib p s s' ev) :
    OverKept s.calls s'.calls ∧ ∀ e ∈ ev, ∀ k, endsCall k e → ∃ c, s'.calls[k]? = some c ∧ isOver c = true := by
  cases m with
  | idle => exact ⟨over_refl _, by simp⟩
  | «local» i c c' _ hc m =>
    obtain ⟨h1, h2⟩ := local_isOver m
    refine ⟨over_set hc h1, ?_⟩
    intro e he k hk
    obtain ⟨rfl, h4⟩ := h2 e he k hk
    exact ⟨c', List.getElem?_set_self (lt_of_some hc), h4⟩
  | start a hcl =>
    refine ⟨?_, by intro e he k hk; simp at he; subst he; cases hk⟩
    intro k c hc ho
    exact ⟨c, by rw [List.getElem?_append_left (lt_of_some hc)]; exact hc, ho⟩
  | cache i c m k hc h2 =>
    refine ⟨over_set hc (by simp [isOver, h2]), by intro e he k hk; simp at he; subst he; cases hk⟩
  | submit i c work ip cfg hc h1 h2 hk hl hq hcl =>
    exact ⟨over_set hc (by simp [isOver, h2, hl]), fun e he k hk => absurd hk (ends_queue _ e he k)⟩
  | panic i c cfg work ip hc h1 h2 hl hq hcl =>
    refine ⟨over_set hc (fun _ => isOver_over c), ?_⟩
    intro e he k hk
    simp at he; subst he
    have : k = i := hk.symm
    subst this
    exact ⟨_, List.getElem?_set_self (lt_of_some hc), isOver_over c⟩
  | queue qs hm => exact ⟨over_settle _ _ _, fun e he k hk => absurd hk (ends_queue _ e he k)⟩
  | shutdown hs => exact ⟨over_settle _ _ _, fun e he k hk => absurd hk (ends_queue _ e he k)⟩
  | expire k =>
    refine ⟨over_refl _, ?_⟩
    intro e he k hk
    simp at he
    obtain ⟨_, _, -, rfl⟩ := he
    cases hk
  | tick d => exact ⟨over_refl _, by simp⟩

def OverInv (s : Sys) (log : List SEvent) : Prop := ∀ k, (∃ e ∈ log, endsCall k e) → ∃ c, s.calls[k]? = some c ∧ isOver c = true

theorem overInv_move {lib : PowLib} {p : Profile} {s s' : Sys} {log ev : List SEvent} (h : OverInv s log) (m : Move lib p s s' ev) : OverInv s' (log ++ ev) := by
  rintro k ⟨e, he, hk⟩
  obtain ⟨h1, h2⟩ := over_move m
  rcases List.mem_append.1 he with he | he
  · obtain ⟨c, hc, ho⟩ := h k ⟨e, he, hk⟩
    exact h1 k c hc ho
  · exact h2 e he k hk

theorem overInv_new (lib : PowLib) (p : Profile) (n ql now : Nat) (steps : List SStep) :
    OverInv (sysRun lib p (Sys.new n ql now) steps).1 (sysRun lib p (Sys.new n ql now) steps).2 :=
  run_induct lib p n ql now OverInv (by rintro k ⟨e, he, -⟩; cases he) (fun _ _ _ h m => overInv_move h m) steps

/-! ### The message to stop is not lost -/

def StopWaits (q : Queue) : Prop := q.closed = true → q.status = .running → .stop ∈ q.mailbox

theorem stopWaits_step (p : Profile) (q : Queue) (h : StopWaits q) (s : QStep) : StopWaits (qStep p q s).1 := by
  unfold qStep
  split
  · exact h
  · cases s with
    | submit ip job =>
      simp only
      split
      · rename_i hc; intro hcl; simp [hc.1] at hcl
      · exact h
    | manage =>
      simp only [Queue.manage]
      split
      · rename_i hrun
        split
        · exact h
        · split
          · intro _ hr; cases hr
          · intro _ hr; cases hr
        all_goals
          rename_i hmb
          split
          · intro hcl _
            have := h hcl hrun
            rw [hmb] at this
            simpa using this
          · intro _ hr
            simp only [Queue.managerPanics] at hr
            split at hr <;> cases hr
      · exact h
    | take w =>
      simp only [Queue.take]
      split
      · exact h
      · split
        · split
          · exact h
          · exact h
          · exact h
        · exact h
    | finish w =>
      simp only [Queue.finish]
      split
      · exact h
      · split
        · exact h
        · split
          · intro hcl hr; exact List.mem_append_left _ (h hcl hr)
          · exact h
    | crash w =>
      simp only [Queue.crash]
      split
      · exact h
      · split
        · exact h
        · exact h
    | close =>
      simp only
      split
      · intro _ _; simp
      · exact h
    | joined =>
      simp only
      split
      · split
        · intro _ hr; cases hr
        · split
          · intro _ hr; cases hr
          · exact h
      · exact h

theorem stopWaits_run (p : Profile) (qs : List QStep) (q : Queue) (h : StopWaits q) : StopWaits (qRun p q qs).1 := by
  induction qs generalizing q with
  | nil => exact h
  | cons s r ih => exact ih _ (stopWaits_step p q h s)

/-! ### At rest -/

theorem drop_core {lib : PowLib} {p : Profile} {n ql : Nat} {s : Sys} {tr : List QEvent} (hq : WoundUp lib p s) (hnab : ¬ s.queue.status = .aborted)
    (hcl : s.queue.closed = true) (hfin : ∀ (i : Nat) (c : Call), s.calls[i]? = some c → c.live = true → c.pc = .done)
    (hr : RInv s) (qi : QInv n ql s.queue tr) (li : LInv s.queue) (hs : StopWaits s.queue) :
    s.queue.status = .stopped ∨ s.queue.status = .panicked := by
  have hqs : ∀ qs, windsUp (.queue qs) = true → s.mayStep qs = true → (qStep p s.queue qs).1 = s.queue := by
    intro qs h1 h2
    have := hq (.queue qs) h1
    unfold sysStep at this
    rw [if_neg hnab] at this
    simp only [h2, if_true] at this
    exact congrArg Sys.queue this
  /- the manager has nothing to do -/
  have D : s.queue.status ≠ .running := by
    intro hrun
    have hin := hs hcl hrun
    have e := hqs .manage rfl rfl
    unfold qStep at e
    rw [if_neg hnab] at e
    simp only [Queue.manage, hrun, if_true] at e
    cases hm : s.queue.mailbox with
    | nil => rw [hm] at hin; cases hin
    | cons m rest =>
      have hlen : ∀ (q : Queue), q.mailbox = rest → q ≠ s.queue := by
        intro q h1 h2
        have := congrArg (fun q : Queue => q.mailbox.length) h2
        simp [h1, hm] at this
      rw [hm] at e
      cases m with
      | stop =>
        simp only at e
        split at e <;> exact hlen _ rfl e
      | dispatch name =>
        simp only at e
        split at e <;> exact hlen _ rfl e
      | schedule ip job =>
        simp only at e
        split at e <;> exact hlen _ rfl e
  /- no worker runs anything -/
  have G : ∀ (w : Nat) (r : Worker), s.queue.inner.runners[w]? = some r → r.running = none := by
    intro w r hw
    cases hrn : r.running with
    | none => rfl
    | some j =>
      exfalso
      have halive := qi.act w r hw (by simp [hrn])
      obtain ⟨d, hd, job, ch, hj, hnd⟩ := hr.held j (.inr ⟨w, r, hw, halive, .inl hrn⟩)
      have hrx : ch.rxAlive = false := by
        refine (hr.rx j d hd job ch hj).2.1 ?_
        cases hx : d.live with
        | false => exact .inl rfl
        | true => exact .inr (hfin j d hd hx)
      by_cases hfin : ch.pc = .finished
      · have hmay : s.mayStep (.finish w) = true := by
          obtain ⟨inbox, running, status⟩ := r
          simp only at hrn
          subst hrn
          obtain ⟨api, pc, live, jb⟩ := d
          simp only at hj
          subst hj
          simp [Sys.mayStep, hw, hd, hfin]
        have e := hqs (.finish w) rfl hmay
        unfold qStep at e
        rw [if_neg hnab] at e
        simp only [Queue.finish, hw, hrn] at e
        split at e
        · have := congrArg (fun q : Queue => q.mailbox.length) e
          simp at this
        · have := congrArg (fun q : Queue => q.inner.runners[w]?) e
          simp only [Queue.setWorker, List.getElem?_set, lt_of_some hw, hw] at this
          simp at this
          have := congrArg Worker.running this
          simp [hrn] at this
      · have := hq (.work w) rfl
        unfold sysStep at this
        rw [if_neg hnab] at this
        simp only at this
        have e1 : s.onWork w = s.setCall j { d with job := some (job, (ch.workerStep job).getD ch) } := by
          obtain ⟨inbox, running, status⟩ := r
          simp only at hrn
          subst hrn
          simp [Sys.onWork, hw, hd, hj, hfin]
        rw [e1] at this
        have e2 : (ch.workerStep job).getD ch = ch := by
          apply Classical.byContradiction
          intro hne
          refine setCall_ne hd s.cache s.queue _ ?_ this
          intro e
          have := congrArg Call.job e
          rw [hj] at this
          simp at this
          exact hne this
        have := congrArg VerdictChannel.pc e2
        unfold VerdictChannel.workerStep at this
        cases hpc : ch.pc with
        | start =>
          rw [hpc] at this
          simp only at this
          split at this <;> simp at this
        | checkValid =>
          rw [hpc] at this
          simp only at this
          split at this <;> simp at this
        | finished => exact absurd hpc hfin
        | dropped b => exact absurd hpc (hnd b)
        | sendInsufficient => rw [hpc] at this; simp [VerdictChannel.send, hrx] at this
        | sendInvalid => rw [hpc] at this; simp [VerdictChannel.send, hrx] at this
        | sendTrue => rw [hpc] at this; simp [VerdictChannel.send, hrx] at this
  have H : ∀ (w : Nat) (r : Worker), s.queue.inner.runners[w]? = some r → r.status = .alive → r.inbox = [] := by
    intro w r hw hal
    have e := hqs (.take w) rfl rfl
    unfold qStep at e
    rw [if_neg hnab] at e
    simp only [Queue.take, hw, hal, G w r hw, and_self, if_true] at e
    cases hin : r.inbox with
    | nil => rfl
    | cons m rest =>
      exfalso
      rw [hin] at e
      have hne : ∀ x : Worker, x.inbox = rest → s.queue.setWorker w x ≠ s.queue := by
        intro x hx e
        have := congrArg (fun q : Queue => q.inner.runners[w]?) e
        simp only [Queue.setWorker, List.getElem?_set, lt_of_some hw, hw] at this
        simp at this
        have := congrArg (fun r : Worker => r.inbox.length) this
        simp [hx, hin] at this
      cases m with
      | stop => exact hne _ rfl e
      | prove j => exact hne _ rfl e
  cases hst : s.queue.status with
  | running => exact absurd hst D
  | stopped => exact .inl rfl
  | panicked => exact .inr rfl
  | aborted => exact absurd hst hnab
  | stopping =>
    exfalso
    have hdead : ∀ r ∈ s.queue.inner.runners, r.status ≠ .alive := by
      intro r hm hal
      obtain ⟨w, hw, rfl⟩ := List.getElem_of_mem hm
      have hw' := List.getElem?_eq_getElem hw
      obtain ⟨js, hjs⟩ := li.stp hst w _ hw' hal
      rw [H w _ hw' hal] at hjs
      simp at hjs
    have e := hqs .joined rfl rfl
    unfold qStep at e
    rw [if_neg hnab] at e
    simp only [hst, if_true] at e
    split at e
    · have := congrArg Queue.status e
      rw [hst] at this; cases this
    · split at e
      · have := congrArg Queue.status e
        rw [hst] at this; cases this
      · rename_i hall
        apply hall
        rw [List.all_eq_true]
        intro r hm
        simpa using hdead r hm

/-! ### Every schedule after the drop changes only boundedly much -/

theorem closed_step (p : Profile) (q : Queue) (s : QStep) (h : q.closed = true) : (qStep p q s).1.closed = true := by
  unfold qStep
  split
  · exact h
  · cases s <;> simp only [Queue.manage, Queue.take, Queue.finish, Queue.crash, Queue.managerPanics, Queue.setWorker] <;> repeat' split
    all_goals first | exact h | rfl

theorem closed_move {lib : PowLib} {p : Profile} {s s' : Sys} {ev : List SEvent} (m : Move lib p s s' ev) (h : s.queue.closed = true) : s'.queue.closed = true := by
  cases m with
  | submit i c work ip cfg hc h1 h2 hk hl hq hcl => exact closed_step p s.queue (.submit ip i) h
  | queue qs hm => exact closed_step p s.queue qs h
  | shutdown hs => exact closed_step p s.queue .close h
  | _ => exact h

theorem closed_changes (lib : PowLib) (p : Profile) (later : List SStep) (s : Sys) (h : s.queue.closed = true) :
    changes lib p s later = changes lib p s (later.filter fun st => match st with | .call _ => false | _ => true) := by
  induction later generalizing s with
  | nil => rfl
  | cons st r ih =>
    have hn := closed_move (sysStep_move lib p s st) h
    have hr := ih _ hn
    cases st with
    | call a =>
      have e : (sysStep lib p s (.call a)).1 = s := by
        unfold sysStep
        split
        · rfl
        · simp [h]
      rw [e] at hr
      simp [changes, e, hr]
    | _ => simp only [List.filter_cons_of_pos, changes, hr]

/-! ### The same with an arbitrary back end -/

def OverInvO (s : Sys) (log : List OEvent) : Prop := ∀ k, (∃ e, .api e ∈ log ∧ endsCall k e) → ∃ c, s.calls[k]? = some c ∧ isOver c = true

theorem over_open (lib : PowLib) (p : Profile) (s : Sys) (x : OStep) :
    OverKept s.calls (openStep lib p s x).1.calls ∧
    ∀ e, .api e ∈ (openStep lib p s x).2 → ∀ k, endsCall k e → ∃ c, (openStep lib p s x).1.calls[k]? = some c ∧ isOver c = true := by
  cases x with
  | sys st =>
    simp only [openStep]
    split
    · have := over_move (sysStep_move lib p s st)
      refine ⟨this.1, fun e he k hk => this.2 e ?_ k hk⟩
      obtain ⟨e', he', h⟩ := List.mem_map.1 he
      cases h; exact he'
    · exact ⟨over_refl _, by simp⟩
  | cache i a =>
    simp only [openStep]
    split
    · exact ⟨over_refl _, by simp⟩
    · split
      · rename_i c hc
        split
        · rename_i m k hpc hl
          cases a with
          | ok r =>
            simp only [Sys.onCacheAnswer]
            split
            · refine ⟨over_set hc (by simp [isOver, hpc]), ?_⟩
              intro e he k hk
              simp at he
              subst he; cases hk
            · exact ⟨over_refl _, by simp⟩
          | error e =>
            refine ⟨over_set hc (fun _ => isOver_over c), ?_⟩
            intro e' he k hk
            simp [Sys.onCacheAnswer] at he
            subst he
            have : k = i := hk.symm
            subst this
            exact ⟨_, List.getElem?_set_self (lt_of_some hc), isOver_over c⟩
        · exact ⟨over_refl _, by simp⟩
      · exact ⟨over_refl _, by simp⟩

theorem overInvO_new (lib : PowLib) (p : Profile) (n ql now : Nat) (steps : List OStep) :
    OverInvO (openRun lib p (Sys.new n ql now) steps).1 (openRun lib p (Sys.new n ql now) steps).2 := by
  suffices h : ∀ (s : Sys) (log : List OEvent), OverInvO s log → OverInvO (openRun lib p s steps).1 (log ++ (openRun lib p s steps).2) by
    simpa using h (Sys.new n ql now) [] (by rintro k ⟨e, he, -⟩; cases he)
  induction steps with
  | nil => intro s log h; simpa [openRun] using h
  | cons x r ih =>
    intro s log h
    have := ih (openStep lib p s x).1 (log ++ (openStep lib p s x).2) (by
      obtain ⟨h1, h2⟩ := over_open lib p s x
      rintro k ⟨e, he, hk⟩
      rcases List.mem_append.1 he with he | he
      · obtain ⟨c, hc, ho⟩ := h k ⟨e, he, hk⟩
        exact h1 k c hc ho
      · exact h2 e he k hk)
    simpa [openRun, List.append_assoc] using this

theorem stopWaits_new (p : Profile) (n ql : Nat) (qs : List QStep) : StopWaits (qRun p (Queue.new n ql) qs).1 :=
  stopWaits_run p qs _ (fun h => by cases h)

/-- With nobody using the `System`, and its manager thread there, dropping it goes ahead. -/
theorem shutdown_core {lib : PowLib} {p : Profile} {s : Sys} (h : ∀ c ∈ s.calls, isOver c = true) (hl : s.queue.listening = true) :
    (sysStep lib p s .shutdown).1.queue.closed = true := by
  have hnab : ¬ s.queue.status = .aborted := by
    intro e
    simp [Queue.listening, e] at hl
  unfold sysStep
  rw [if_neg hnab]
  have hall : (s.calls.all fun c => !c.live || c.pc = .done) = true := List.all_eq_true.2 h
  simp only [hall, if_true]
  unfold qStep
  rw [if_neg hnab]
  simp only [hl]
  cases hc : s.queue.closed with
  | true => simp [hc]
  | false => simp

end MCap
