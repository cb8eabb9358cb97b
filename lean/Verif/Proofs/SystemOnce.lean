import Verif.Proofs.SystemRel

namespace MCap
open Spec

/-! ### Each call looks its challenge up once, is answered once by the queue and returns once -/

def retrievals (i : Nat) (log : List SEvent) : Nat :=
  log.countP fun | .cache (some (j, _)) (.retrivePow _) _ => j == i | _ => false

def accN (i : Nat) (log : List SEvent) : Nat := log.countP fun | .queue (.accepted _ j) => j == i | _ => false
def refN (i : Nat) (log : List SEvent) : Nat := log.countP fun | .queue (.refused _ j) => j == i | _ => false
def retN (i : Nat) (log : List SEvent) : Nat := log.countP fun | .ret j _ _ => j == i | .panicked j => j == i | _ => false

/-- Submissions of job `i` the manager has yet to look at. -/
def mailN (i : Nat) (q : Queue) : Nat :=
  if q.status = .running then q.mailbox.countP (fun m => match m with | .schedule _ j => j == i | _ => false) else 0

theorem retrievals_append (i : Nat) (a b : List SEvent) : retrievals i (a ++ b) = retrievals i a + retrievals i b := by simp [retrievals]
theorem accN_append (i : Nat) (a b : List SEvent) : accN i (a ++ b) = accN i a + accN i b := by simp [accN]
theorem refN_append (i : Nat) (a b : List SEvent) : refN i (a ++ b) = refN i a + refN i b := by simp [refN]
theorem retN_append (i : Nat) (a b : List SEvent) : retN i (a ++ b) = retN i a + retN i b := by simp [retN]

theorem accN_queue (i : Nat) (l : List QEvent) : accN i (l.map .queue) = l.countP (fun e => match e with | .accepted _ j => j == i | _ => false) := by
  simp only [accN, List.countP_map]; congr 1; funext e; cases e <;> rfl
theorem refN_queue (i : Nat) (l : List QEvent) : refN i (l.map .queue) = l.countP (fun e => match e with | .refused _ j => j == i | _ => false) := by
  simp only [refN, List.countP_map]; congr 1; funext e; cases e <;> rfl
theorem retrievals_queue (i : Nat) (l : List QEvent) : retrievals i (l.map .queue) = 0 := by
  simp only [retrievals, List.countP_eq_zero]; intro e he; obtain ⟨y, -, rfl⟩ := List.mem_map.1 he; simp
theorem retN_queue (i : Nat) (l : List QEvent) : retN i (l.map .queue) = 0 := by
  simp only [retN, List.countP_eq_zero]; intro e he; obtain ⟨y, -, rfl⟩ := List.mem_map.1 he; simp

/-- Events without answers of the manager. -/
theorem silent_queue {i : Nat} {ev : List QEvent} (h : ∀ e ∈ ev, (∀ ip j, e ≠ .accepted ip j) ∧ (∀ ip j, e ≠ .refused ip j)) :
    accN i (ev.map .queue) = 0 ∧ refN i (ev.map .queue) = 0 := by
  rw [accN_queue, refN_queue]
  refine ⟨?_, ?_⟩ <;>
  · rw [List.countP_eq_zero]
    intro e he
    have := h e he
    cases e with
    | accepted ip j => exact absurd rfl (this.1 ip j)
    | refused ip j => exact absurd rfl (this.2 ip j)
    | _ => simp

theorem silent_disp {im im' : Inner} {ev : List QEvent} {k : Nat} (d : Disp im im' ev k) (i : Nat) :
    accN i (ev.map .queue) = 0 ∧ refN i (ev.map .queue) = 0 := by
  refine silent_queue fun e he => ?_
  rcases d.only e he with ⟨_, rfl⟩ | ⟨_, _, _, rfl⟩ <;> exact ⟨by simp, by simp⟩

/-- A step of the queue other than a submission answers at most the submissions in the mailbox. -/
theorem mail_step (p : Profile) {n ql : Nat} {q : Queue} {tr : List QEvent} (hi : QInv n ql q tr) (s : QStep) (hs : ∀ ip j, s ≠ .submit ip j) (i : Nat) :
    accN i ((qStep p q s).2.map .queue) + refN i ((qStep p q s).2.map .queue) + mailN i (qStep p q s).1 ≤ mailN i q := by
  unfold qStep
  split
  · simp [accN, refN]
  cases s with
  | submit ip job => exact absurd rfl (hs ip job)
  | manage =>
    simp only [Queue.manage]
    split
    · rename_i hrun
      cases hm : q.mailbox with
      | nil => simp [accN, refN]
      | cons m rest =>
        have hle : ∀ st, mailN i { q with mailbox := rest, status := st } ≤ mailN i q := by
          intro st
          simp only [mailN, hrun, if_true, hm, List.countP_cons]
          split <;> omega
        cases m with
        | stop =>
          simp only
          split
          · simpa [accN, refN] using hle .panicked
          · simp [accN, refN, mailN]
        | dispatch name =>
          simp only
          cases hd : q.inner.dispatchTo p name with
          | panic w =>
            have := hle (if ({ q with mailbox := rest } : Queue).someGone then .aborted else .panicked)
            simpa [accN, refN, Queue.managerPanics] using this
          | ret a =>
            obtain ⟨im, ev⟩ := a
            obtain ⟨k, d⟩ := dispatchTo_dispk p q.inner hi.inv name im ev hd
            have := silent_disp d i
            simp only [this.1, this.2]
            simp [mailN, hrun, hm]
        | schedule ip job =>
          simp only
          cases hd : q.inner.schedule p ip job with
          | panic w =>
            have := hle (if ({ q with mailbox := rest } : Queue).someGone then .aborted else .panicked)
            simpa [accN, refN, Queue.managerPanics] using this
          | ret a =>
            obtain ⟨im, ev⟩ := a
            rcases schedule_cases p q.inner im hi.inv ip job ev hd with ⟨-, rfl, rfl⟩ | ⟨hl, ev', rfl, d⟩
            · simp [accN, refN, mailN, hrun, hm, List.countP_cons]; omega
            · have := silent_disp d i
              have e1 : accN i ((QEvent.accepted ip job :: ev').map .queue) = if job == i then 1 else 0 := by
                simp only [List.map_cons]
                rw [← List.singleton_append, accN_append, this.1]
                simp [accN, List.countP_cons]
              have e2 : refN i ((QEvent.accepted ip job :: ev').map .queue) = 0 := by
                simp only [List.map_cons]
                rw [← List.singleton_append, refN_append, this.2]
                simp [refN]
              simp only [e1, e2]
              simp [mailN, hrun, hm, List.countP_cons]; omega
    · simp [accN, refN]
  | take w =>
    simp only [Queue.take]
    split
    · simp [accN, refN]
    · split
      · split <;> simp [accN, refN, mailN, Queue.setWorker] <;> exact Nat.le_refl _
      · simp [accN, refN]
  | finish w =>
    simp only [Queue.finish]
    split
    · simp [accN, refN]
    · split
      · simp [accN, refN]
      · split <;> simp [accN, refN, mailN, Queue.setWorker] <;> exact Nat.le_refl _
  | crash w =>
    simp only [Queue.crash]
    split
    · simp [accN, refN]
    · split <;> simp [accN, refN, mailN, Queue.setWorker] <;> exact Nat.le_refl _
  | close =>
    simp only
    split <;> simp [accN, refN, mailN]
  | joined =>
    simp only
    split
    · split
      · simp [accN, refN, mailN]
      · split <;> simp [accN, refN, mailN]
    · simp [accN, refN]

theorem mail_submit (p : Profile) (q : Queue) (ip : String) (j i : Nat) :
    (qStep p q (.submit ip j)).2 = [] ∧ mailN i (qStep p q (.submit ip j)).1 ≤ mailN i q + (if j = i then 1 else 0) := by
  unfold qStep
  split
  · simp
  · simp only
    split
    · refine ⟨rfl, ?_⟩
      simp only [mailN]
      split
      · simp [List.countP_append, List.countP_cons]
      · simp
    · simp

/-- Answers of the queue a call at this point has had. `A` accepted, `R` refused, `M` submission not looked at yet. -/
def Had (A R M : Nat) : Pc → Prop
  | .awaitMaster => A = 0 ∧ R = 0 ∧ M = 0
  | .awaitCache _ (.storeResult _ _) => A = 1 ∧ R = 0 ∧ M = 0
  | .awaitCache _ _ => A = 0 ∧ R = 0 ∧ M = 0
  | .replied _ (.storeResult _ _) => A = 1 ∧ R = 0 ∧ M = 0
  | .replied _ _ => A = 0 ∧ R = 0 ∧ M = 0
  | .awaitAdd _ => A = 0 ∧ R = 0 ∧ M ≤ 1
  | .answered _ .accepted => A = 1 ∧ R = 0 ∧ M = 0
  | .answered _ .refused => A = 0 ∧ R = 1 ∧ M = 0
  | .answered _ .lost => A = 0 ∧ R = 0 ∧ M = 0
  | .polling _ => A = 1 ∧ R = 0 ∧ M = 0
  | .done => A + R ≤ 1 ∧ M = 0

/-- The call has yet to look its challenge up. -/
def unlooked : Pc → Bool
  | .awaitCache _ .retrieve => true
  | _ => false

structure UCall (q : Queue) (log : List SEvent) (i : Nat) (c : Call) : Prop where
  had : Had (accN i log) (refN i log) (mailN i q) c.pc
  look : retrievals i log ≤ 1 ∧ (unlooked c.pc = true → retrievals i log = 0)
  once : retN i log ≤ 1 ∧ (c.pc ≠ .done → retN i log = 0)

/-- More about the returns of `verify_pow`. -/
def Why2 (lib : PowLib) (pre : List SEvent) : SEvent → Prop
  | .ret i (.verify work ip) (.verify (.ok _)) => retN i pre = 0 ∧ accN i pre = 1 ∧ refN i pre = 0 ∧ ∃ cfg, Found pre i work ip cfg
  | .ret i (.verify work ip) (.verify (.error e)) => retN i pre = 0 ∧
      ((e = .stringNotFound ∧ accN i pre = 0 ∧ refN i pre = 0) ∨
       (e = .mCaptchaKeyValidationFail ∧ accN i pre = 0 ∧ refN i pre = 0) ∨
       (e = .queueFull ∧ accN i pre = 0 ∧ refN i pre = 1 ∧ ∃ cfg, Found pre i work ip cfg ∧ cfg.key = work.key) ∨
       (e = .insuffiencientDifficulty ∧ accN i pre = 1 ∧ refN i pre = 0) ∨
       (e = .recvError ∧ accN i pre = 0 ∧ refN i pre = 0 ∧ ∃ cfg, Found pre i work ip cfg ∧ cfg.key = work.key) ∨
       (e = .mailboxError ∧ ((retrievals i pre = 0 ∧ accN i pre = 0 ∧ refN i pre = 0) ∨
          (accN i pre = 1 ∧ refN i pre = 0 ∧ ∃ cfg, Found pre i work ip cfg ∧ cfg.key = work.key ∧ Solves lib work cfg.difficultyFactor))))
  | .ret i _ _ => retN i pre = 0
  | .panicked i => retN i pre = 0 ∧ accN i pre = 0 ∧ refN i pre = 0
  | _ => True

structure UInv (lib : PowLib) (s : Sys) (log : List SEvent) : Prop where
  calls : ∀ (i : Nat) (c : Call), s.calls[i]? = some c → UCall s.queue log i c
  fresh : ∀ i, s.calls.length ≤ i → accN i log = 0 ∧ refN i log = 0 ∧ mailN i s.queue = 0 ∧ retrievals i log = 0 ∧ retN i log = 0
  why : ∀ pre e post, log = pre ++ e :: post → Why2 lib pre e

theorem extend_all {P : List SEvent → SEvent → Prop} {log : List SEvent} (h : ∀ pre e post, log = pre ++ e :: post → P pre e) (ev : List SEvent)
    (he : ∀ ev1 e ev2, ev = ev1 ++ e :: ev2 → P (log ++ ev1) e) :
    ∀ pre e' post, log ++ ev = pre ++ e' :: post → P pre e' := by
  intro pre e post hs
  rcases append_split hs with ⟨c, h1, -⟩ | ⟨c, rfl, h2⟩
  · exact h pre e c h1
  · exact he c e post h2

theorem one_all {P : List SEvent → SEvent → Prop} {log : List SEvent} (x : SEvent) (hx : P log x) :
    ∀ ev1 e ev2, [x] = ev1 ++ e :: ev2 → P (log ++ ev1) e := by
  intro ev1 e ev2 he
  cases ev1 with
  | nil => simp at he; rw [← he.1]; simpa using hx
  | cons a r => simp at he

/-- Counts of a single call's events in a local move. -/
theorem local_counts {lib : PowLib} {i : Nat} {c c' : Call} {ev : List SEvent} (m : Local lib i c c' ev) :
    (∀ j, accN j ev = 0 ∧ refN j ev = 0 ∧ retrievals j ev = 0) ∧ (∀ j, j ≠ i → retN j ev = 0) ∧
    (retN i ev = 0 ∧ (c.pc = .done → c'.pc = .done) ∧ (c'.pc = .done → c.pc = .done) ∨ retN i ev = 1 ∧ c.pc ≠ .done ∧ c'.pc = .done) := by
  have hov : ∀ (c'' : Call), (c''.over).pc = .done := fun _ => rfl
  cases m with
  | masterErr id a r h1 h2 hl h3 =>
    refine ⟨fun j => ⟨rfl, rfl, rfl⟩, fun j hj => ?_, .inr ⟨?_, by simp [h2], rfl⟩⟩
    · simp [retN, Ne.symm hj]
    · simp [retN]
  | masterOk id r g h1 h2 hl => exact ⟨fun j => ⟨rfl, rfl, rfl⟩, fun j hj => rfl, .inl ⟨rfl, by simp [h2], by simp⟩⟩
  | accepted cfg h2 hl => exact ⟨fun j => ⟨rfl, rfl, rfl⟩, fun j hj => rfl, .inl ⟨rfl, by simp [h2], by simp⟩⟩
  | pollNone cfg job ch h2 hj hr hl => exact ⟨fun j => ⟨rfl, rfl, rfl⟩, fun j hj => rfl, .inl ⟨rfl, by simp [h2], by simp [h2]⟩⟩
  | pollGood cfg job ch g h2 hj hr hl => exact ⟨fun j => ⟨rfl, rfl, rfl⟩, fun j hj => rfl, .inl ⟨rfl, by simp [h2], by simp⟩⟩
  | work job ch hj hf => exact ⟨fun j => ⟨rfl, rfl, rfl⟩, fun j hj => rfl, .inl ⟨rfl, id, id⟩⟩
  | cancel hl hd => exact ⟨fun j => ⟨rfl, rfl, rfl⟩, fun j hj => rfl, .inl ⟨rfl, id, id⟩⟩
  | retPow r cfg h2 hl =>
    refine ⟨fun j => ⟨rfl, rfl, rfl⟩, fun j hj => ?_, .inr ⟨?_, by simp [h2], rfl⟩⟩ <;> simp [retN]; exact fun e => hj e.symm
  | notFound work ip h1 h2 hl =>
    refine ⟨fun j => ⟨rfl, rfl, rfl⟩, fun j hj => ?_, .inr ⟨?_, by simp [h2], rfl⟩⟩ <;> simp [retN]; exact fun e => hj e.symm
  | wrongKey work ip cfg h1 h2 hk hl =>
    refine ⟨fun j => ⟨rfl, rfl, rfl⟩, fun j hj => ?_, .inr ⟨?_, by simp [h2], rfl⟩⟩ <;> simp [retN]; exact fun e => hj e.symm
  | stored r t d h2 hl =>
    refine ⟨fun j => ⟨rfl, rfl, rfl⟩, fun j hj => ?_, .inr ⟨?_, by simp [h2], rfl⟩⟩ <;> simp [retN]; exact fun e => hj e.symm
  | checked b h2 hl =>
    refine ⟨fun j => ⟨rfl, rfl, rfl⟩, fun j hj => ?_, .inr ⟨?_, by simp [h2], rfl⟩⟩ <;> simp [retN]; exact fun e => hj e.symm
  | refused cfg h2 hl =>
    refine ⟨fun j => ⟨rfl, rfl, rfl⟩, fun j hj => ?_, .inr ⟨?_, by simp [h2], rfl⟩⟩ <;> simp [retN]; exact fun e => hj e.symm
  | lost cfg h2 hl =>
    refine ⟨fun j => ⟨rfl, rfl, rfl⟩, fun j hj => ?_, .inr ⟨?_, by simp [h2], rfl⟩⟩ <;> simp [retN]; exact fun e => hj e.symm
  | pollBad cfg job ch h2 hj hr hl =>
    refine ⟨fun j => ⟨rfl, rfl, rfl⟩, fun j hj => ?_, .inr ⟨?_, by simp [h2], rfl⟩⟩ <;> simp [retN]; exact fun e => hj e.symm
  | gone m k r h2 hl hr =>
    refine ⟨fun j => ⟨rfl, rfl, rfl⟩, fun j hj => ?_, .inr ⟨?_, by simp [h2], rfl⟩⟩ <;> simp [retN]; exact fun e => hj e.symm

theorem had_done {A R M : Nat} {pc : Pc} (h : Had A R M pc) (hp : ∀ cfg, pc ≠ .awaitAdd cfg) : Had A R M .done := by
  cases pc with
  | awaitMaster => obtain ⟨rfl, rfl, rfl⟩ := h; simp [Had]
  | awaitCache m k => cases k <;> (obtain ⟨rfl, rfl, rfl⟩ := h; simp [Had])
  | replied m k => cases k <;> (obtain ⟨rfl, rfl, rfl⟩ := h; simp [Had])
  | awaitAdd cfg => exact absurd rfl (hp cfg)
  | answered cfg a => cases a <;> (obtain ⟨rfl, rfl, rfl⟩ := h; simp [Had])
  | polling cfg => obtain ⟨rfl, rfl, rfl⟩ := h; simp [Had]
  | done => exact h

/-- Local moves keep the account of answers. -/
theorem local_had {lib : PowLib} {i : Nat} {c c' : Call} {ev : List SEvent} (m : Local lib i c c' ev) {A R M : Nat} (h : Had A R M c.pc) :
    Had A R M c'.pc ∧ (unlooked c'.pc = true → unlooked c.pc = true) := by
  cases m with
  | masterErr id a r h1 h2 hl h3 => exact ⟨had_done h (by simp [h2]), by simp [Call.over, unlooked]⟩
  | masterOk id r g h1 h2 hl => rw [h2] at h; exact ⟨h, by simp [unlooked]⟩
  | accepted cfg h2 hl => rw [h2] at h; exact ⟨h, by simp [unlooked]⟩
  | pollNone cfg job ch h2 hj hr hl => exact ⟨h, fun e => e⟩
  | pollGood cfg job ch g h2 hj hr hl => rw [h2] at h; exact ⟨h, by simp [unlooked]⟩
  | work job ch hj hf => exact ⟨h, fun e => e⟩
  | cancel hl hd => exact ⟨h, fun e => e⟩
  | retPow r cfg h2 hl => exact ⟨had_done h (by simp [h2]), by simp [Call.over, unlooked]⟩
  | notFound work ip h1 h2 hl => exact ⟨had_done h (by simp [h2]), by simp [Call.over, unlooked]⟩
  | wrongKey work ip cfg h1 h2 hk hl => exact ⟨had_done h (by simp [h2]), by simp [Call.over, unlooked]⟩
  | stored r t d h2 hl => exact ⟨had_done h (by simp [h2]), by simp [Call.over, unlooked]⟩
  | checked b h2 hl => exact ⟨had_done h (by simp [h2]), by simp [Call.over, unlooked]⟩
  | refused cfg h2 hl => exact ⟨had_done h (by simp [h2]), by simp [Call.over, unlooked]⟩
  | lost cfg h2 hl => exact ⟨had_done h (by simp [h2]), by simp [Call.over, unlooked]⟩
  | pollBad cfg job ch h2 hj hr hl => exact ⟨had_done h (by simp [h2]), by simp [Call.over, unlooked]⟩
  | gone m k r h2 hl hr => exact ⟨had_done h (by simp [h2]), by simp [Call.over, unlooked]⟩

/-- The returns of a local move are explained. -/
theorem local_why2 {lib : PowLib} {q : Queue} {log : List SEvent} {i : Nat} {c c' : Call} {ev : List SEvent} (hc : CallInv lib log i c)
    (h : UCall q log i c) (m : Local lib i c c' ev) : ∀ ev1 e ev2, ev = ev1 ++ e :: ev2 → Why2 lib (log ++ ev1) e := by
  have h0 : c.pc ≠ .done → retN i log = 0 := h.once.2
  have hh := h.had
  obtain ⟨-, hc⟩ := hc
  have none : ∀ ev1 (e : SEvent) ev2, ([] : List SEvent) = ev1 ++ e :: ev2 → Why2 lib (log ++ ev1) e := by
    intro ev1 e ev2 he; simp at he
  have other : ∀ (api : Api) (r : Ret), (∀ work ip, api ≠ .verify work ip) → c.pc ≠ .done → Why2 lib log (.ret i api r) := by
    intro api r ha hd
    cases api with
    | verify work ip => exact absurd rfl (ha work ip)
    | get id => exact h0 hd
    | validate msg => exact h0 hd
  cases m with
  | masterErr id a r h1 h2 hl h3 =>
    intro ev1 e ev2 he
    match ev1 with
    | [] => simp at he; rw [← he.1]; trivial
    | [x] =>
      simp at he
      obtain ⟨rfl, rfl, -⟩ := he
      rw [h1]
      show retN i (log ++ [SEvent.master i a]) = 0
      rw [retN_append, h0 (by simp [h2])]; rfl
    | x :: y :: r => simp at he
  | masterOk id r g h1 h2 hl => exact one_all (P := Why2 lib) _ trivial
  | accepted cfg h2 hl => exact none
  | pollNone cfg job ch h2 hj hr hl => exact none
  | pollGood cfg job ch g h2 hj hr hl => exact none
  | work job ch hj hf => exact none
  | cancel hl hd => exact one_all (P := Why2 lib) _ trivial
  | retPow r cfg h2 hl =>
    refine one_all (P := Why2 lib) _ ?_
    rw [h2] at hc
    obtain ⟨-, m, ⟨id, res, a1, -⟩, -⟩ := hc
    exact other _ _ (by simp [a1]) (by simp [h2])
  | notFound work ip h1 h2 hl =>
    refine one_all (P := Why2 lib) _ ?_
    rw [h2] at hh
    rw [h1]
    exact ⟨h0 (by simp [h2]), .inl ⟨rfl, hh.1, hh.2.1⟩⟩
  | wrongKey work ip cfg h1 h2 hk hl =>
    refine one_all (P := Why2 lib) _ ?_
    rw [h2] at hh
    rw [h1]
    exact ⟨h0 (by simp [h2]), .inr (.inl ⟨rfl, hh.1, hh.2.1⟩)⟩
  | stored r t d h2 hl =>
    refine one_all (P := Why2 lib) _ ?_
    rw [h2] at hh hc
    obtain ⟨hfit, m, ⟨work, ip, cfg, a1, a2, a3, a4, rfl, a5, a6⟩, hm⟩ := hc
    rw [a1]
    exact ⟨h0 (by simp [h2]), hh.1, hh.2.1, cfg, a2⟩
  | checked b h2 hl =>
    refine one_all (P := Why2 lib) _ ?_
    rw [h2] at hc
    obtain ⟨-, m, ⟨msg, a1, -⟩, -⟩ := hc
    exact other _ _ (by simp [a1]) (by simp [h2])
  | refused cfg h2 hl =>
    refine one_all (P := Why2 lib) _ ?_
    rw [h2] at hh hc
    obtain ⟨⟨work, ip, ch, a1, a2, a3, -⟩, h3, -⟩ := hc
    rw [a1]
    exact ⟨h0 (by simp [h2]), .inr (.inr (.inl ⟨rfl, hh.1, hh.2.1, cfg, a2, a3⟩))⟩
  | lost cfg h2 hl =>
    refine one_all (P := Why2 lib) _ ?_
    rw [h2] at hh hc
    obtain ⟨⟨work, ip, ch, a1, a2, a3, -⟩, h3, -⟩ := hc
    rw [a1]
    exact ⟨h0 (by simp [h2]), .inr (.inr (.inr (.inr (.inl ⟨rfl, hh.1, hh.2.1, cfg, a2, a3⟩))))⟩
  | pollBad cfg job ch h2 hj hr hl =>
    refine one_all (P := Why2 lib) _ ?_
    rw [h2] at hh hc
    obtain ⟨⟨work, ip, ch', a1, a2, a3, -⟩, h3⟩ := hc
    rw [a1]
    exact ⟨h0 (by simp [h2]), .inr (.inr (.inr (.inl ⟨rfl, hh.1, hh.2.1⟩)))⟩
  | gone m k r h2 hl hr =>
    refine one_all (P := Why2 lib) _ ?_
    cases ha : c.api with
    | get id => exact h0 (by simp [h2])
    | validate msg => exact h0 (by simp [h2])
    | verify work ip =>
      rw [ha] at hr; subst hr
      refine ⟨h0 (by simp [h2]), .inr (.inr (.inr (.inr (.inr ⟨rfl, ?_⟩))))⟩
      rw [h2] at hh hc
      cases k with
      | storePow cfg => obtain ⟨id, r, a1, -⟩ := hc; rw [ha] at a1; cases a1
      | retrieve => exact .inl ⟨h.look.2 (by rw [h2]; rfl), hh.1, hh.2.1⟩
      | storeResult t d =>
        obtain ⟨work', ip', cfg, a1, a2, a3, a4, -, a5, -⟩ := hc
        rw [ha] at a1; cases a1
        exact .inr ⟨hh.1, hh.2.1, cfg, a2, a3, by rw [a4]; exact a5⟩
      | check => obtain ⟨msg, a1, -⟩ := hc; rw [ha] at a1; cases a1

theorem any_of_count {α : Type} {p : α → Bool} {l : List α} : l.any p = true ↔ 0 < l.countP p := by
  rw [List.countP_pos_iff, List.any_eq_true]

/-- The answer of the queue is recorded when it arrives. -/
theorem settle_had (q q' : Queue) (log : List SEvent) (ev : List QEvent) (i : Nat) (c : Call) (h : Had (accN i log) (refN i log) (mailN i q) c.pc)
    (hm : accN i (ev.map .queue) + refN i (ev.map .queue) + mailN i q' ≤ mailN i q) :
    Had (accN i (log ++ ev.map .queue)) (refN i (log ++ ev.map .queue)) (mailN i q') (c.settle q' ev i).pc := by
  rw [accN_append, refN_append]
  have hsame : (∀ cfg, c.pc ≠ .awaitAdd cfg) → mailN i q = 0 →
      Had (accN i log + accN i (ev.map .queue)) (refN i log + refN i (ev.map .queue)) (mailN i q') (c.settle q' ev i).pc := by
    intro hp hz
    have e1 : accN i (ev.map .queue) = 0 := by omega
    have e2 : refN i (ev.map .queue) = 0 := by omega
    have e3 : mailN i q' = 0 := by omega
    rw [e1, e2, e3, Nat.add_zero, Nat.add_zero]
    rw [hz] at h
    rcases settle_pc q' ev i c with e | ⟨cfg, e, -⟩
    · rw [e]; exact h
    · exact absurd e (hp cfg)
  cases hp : c.pc with
  | awaitMaster => rw [hp] at h; exact hsame (by simp [hp]) h.2.2
  | awaitCache m k => rw [hp] at h; exact hsame (by simp [hp]) (by cases k <;> exact h.2.2)
  | replied r k => rw [hp] at h; exact hsame (by simp [hp]) (by cases k <;> exact h.2.2)
  | answered cfg a => rw [hp] at h; exact hsame (by simp [hp]) (by cases a <;> exact h.2.2)
  | polling cfg => rw [hp] at h; exact hsame (by simp [hp]) h.2.2
  | done => rw [hp] at h; exact hsame (by simp [hp]) h.2
  | awaitAdd cfg =>
    rw [hp] at h
    obtain ⟨h1, h2, h3⟩ := h
    rw [h1, h2, Nat.zero_add, Nat.zero_add]
    rw [accN_queue, refN_queue] at hm ⊢
    have hpc : (c.settle q' ev i).pc =
        if ev.any (fun e => match e with | .accepted _ j => j == i | _ => false) then .answered cfg .accepted
        else if ev.any (fun e => match e with | .refused _ j => j == i | _ => false) then .answered cfg .refused
        else if q'.holds i then .awaitAdd cfg
        else .answered cfg .lost := by
      unfold Call.settle; simp only [hp]; split <;> rfl
    rw [hpc]
    split
    · rename_i ha
      have := any_of_count.1 ha
      simp only [Had]; omega
    · rename_i ha
      have ha : ev.countP (fun e => match e with | .accepted _ j => j == i | _ => false) = 0 := by
        have := mt any_of_count.2 ha; omega
      split
      · rename_i hb
        have := any_of_count.1 hb
        simp only [Had]; omega
      · rename_i hb
        have hb : ev.countP (fun e => match e with | .refused _ j => j == i | _ => false) = 0 := by
          have := mt any_of_count.2 hb; omega
        split
        · simp only [Had]; omega
        · rename_i hh
          simp only [Had]
          refine ⟨ha, hb, ?_⟩
          simp only [mailN]
          split
          · rename_i hr
            have hl : q'.listening = true := by simp [Queue.listening, hr]
            have hno : ¬ (q'.mailbox.any (fun m => match m with | .schedule _ j' => j' == i | _ => false)) = true := by
              intro e
              apply hh
              unfold Queue.holds
              rw [hl, Bool.true_and, Bool.or_eq_true, Bool.or_eq_true]
              exact .inl (.inl e)
            have := mt any_of_count.2 hno
            omega
          · rfl

theorem uinv_move {lib : PowLib} {p : Profile} {n ql : Nat} {s s' : Sys} {log ev : List SEvent}
    (hi : ∀ (i : Nat) (c : Call), s.calls[i]? = some c → CallInv lib log i c)
    (hq : QInv n ql s.queue (queueTrace log)) (h : UInv lib s log)
    (m : Move lib p s s' ev) : UInv lib s' (log ++ ev) := by
  have hqueue : ∀ (qs : QStep), (∀ ip j, qs ≠ .submit ip j) →
      UInv lib { s with queue := (qStep p s.queue qs).1, calls := s.calls.mapIdx (Call.settle (qStep p s.queue qs).1 (qStep p s.queue qs).2) }
      (log ++ (qStep p s.queue qs).2.map .queue) := by
    intro qs hs
    refine ⟨?_, ?_, extend_all h.why _ ?_⟩
    · intro i c hc
      simp only [List.getElem?_mapIdx, Option.map_eq_some_iff] at hc
      obtain ⟨c0, hc0, rfl⟩ := hc
      have hu := h.calls i c0 hc0
      have hpc := settle_pc (qStep p s.queue qs).1 (qStep p s.queue qs).2 i c0
      refine ⟨settle_had s.queue _ log _ i c0 hu.had (mail_step p hq qs hs i), ?_, ?_⟩
      · rw [retrievals_append, retrievals_queue]
        refine ⟨hu.look.1, fun e => hu.look.2 ?_⟩
        rcases hpc with e' | ⟨cfg, -, ⟨e', -⟩ | ⟨e', -⟩ | ⟨e', -⟩⟩ <;> rw [e'] at e
        · exact e
        all_goals simp [unlooked] at e
      · rw [retN_append, retN_queue]
        refine ⟨hu.once.1, fun e => hu.once.2 ?_⟩
        rcases hpc with e' | ⟨cfg, e', -⟩
        · rw [e'] at e; exact e
        · rw [e']; simp
    · intro i hl
      simp only [List.length_mapIdx] at hl
      obtain ⟨a1, a2, a3, a4, a5⟩ := h.fresh i hl
      have := mail_step p hq qs hs i
      rw [accN_append, refN_append, retrievals_append, retN_append, retrievals_queue, retN_queue]
      refine ⟨?_, ?_, ?_, ?_, ?_⟩ <;> (try simp only) <;> omega
    · intro ev1 e ev2 he
      have : e ∈ (qStep p s.queue qs).2.map SEvent.queue := by rw [he]; simp
      obtain ⟨x, -, rfl⟩ := List.mem_map.1 this
      trivial
  cases m with
  | idle => rw [List.append_nil]; exact h
  | «local» i c c' _ hc m =>
    obtain ⟨l1, l2, l3⟩ := local_counts m
    have hu := h.calls i c hc
    have hh := local_had m hu.had
    refine ⟨?_, ?_, extend_all h.why _ (local_why2 (hi i c hc) hu m)⟩
    · intro j d hd
      simp only [Sys.setCall] at hd ⊢
      rw [List.getElem?_set] at hd
      obtain ⟨z1, z2, z3⟩ := l1 j
      split at hd
      · rename_i e
        subst e
        simp [lt_of_some hc] at hd
        subst hd
        refine ⟨?_, ?_, ?_⟩
        · rw [accN_append, refN_append, z1, z2]; exact hh.1
        · rw [retrievals_append, z3]; exact ⟨hu.look.1, fun e => hu.look.2 (hh.2 e)⟩
        · rw [retN_append]
          rcases l3 with ⟨z, a, b⟩ | ⟨z, a, b⟩
          · rw [z]; exact ⟨hu.once.1, fun e => hu.once.2 (fun e' => e (a e'))⟩
          · rw [z, hu.once.2 a]; exact ⟨Nat.le_refl _, fun e => absurd b e⟩
      · rename_i e
        have hv := h.calls j d hd
        refine ⟨?_, ?_, ?_⟩
        · rw [accN_append, refN_append, z1, z2]; exact hv.had
        · rw [retrievals_append, z3]; exact hv.look
        · rw [retN_append, l2 j (fun e' => e e'.symm)]; exact hv.once
    · intro j hl
      simp only [Sys.setCall, List.length_set] at hl ⊢
      obtain ⟨a1, a2, a3, a4, a5⟩ := h.fresh j hl
      obtain ⟨z1, z2, z3⟩ := l1 j
      have hne : j ≠ i := by
        intro e; subst e
        have := lt_of_some hc; omega
      rw [accN_append, refN_append, retrievals_append, retN_append, a1, a2, a4, a5, z1, z2, z3, l2 j hne]
      exact ⟨rfl, rfl, a3, rfl, rfl⟩
  | start a hcl =>
    have e : ∀ j, accN j [SEvent.call s.calls.length a] = 0 ∧ refN j [SEvent.call s.calls.length a] = 0 ∧
        retrievals j [SEvent.call s.calls.length a] = 0 ∧ retN j [SEvent.call s.calls.length a] = 0 := fun j => ⟨rfl, rfl, rfl, rfl⟩
    refine ⟨?_, ?_, extend_all h.why _ (one_all (P := Why2 lib) _ trivial)⟩
    · intro j d hd
      obtain ⟨z1, z2, z3, z4⟩ := e j
      rw [List.getElem?_append] at hd
      split at hd
      · have hv := h.calls j d hd
        refine ⟨?_, ?_, ?_⟩
        · rw [accN_append, refN_append, z1, z2]; exact hv.had
        · rw [retrievals_append, z3]; exact hv.look
        · rw [retN_append, z4]; exact hv.once
      · rename_i hl
        have hd : d = Call.start a := by
          have hj : j - s.calls.length = 0 := by
            rcases Nat.lt_or_ge (j - s.calls.length) 1 with h' | h'
            · omega
            · rw [List.getElem?_eq_none (by simpa using h')] at hd; cases hd
          rw [hj] at hd; simpa using hd.symm
        subst hd
        obtain ⟨a1, a2, a3, a4, a5⟩ := h.fresh j (by omega)
        refine ⟨?_, ?_, ?_⟩
        · rw [accN_append, refN_append, z1, z2, a1, a2, a3]
          cases a <;> exact ⟨rfl, rfl, rfl⟩
        · rw [retrievals_append, z3, a4]; exact ⟨Nat.zero_le _, fun _ => rfl⟩
        · rw [retN_append, z4, a5]; exact ⟨Nat.zero_le _, fun _ => rfl⟩
    · intro j hl
      simp at hl
      obtain ⟨z1, z2, z3, z4⟩ := e j
      obtain ⟨a1, a2, a3, a4, a5⟩ := h.fresh j (by omega)
      rw [accN_append, refN_append, retrievals_append, retN_append, a1, a2, a4, a5, z1, z2, z3, z4]
      exact ⟨rfl, rfl, a3, rfl, rfl⟩
  | cache i c m k hc h2 =>
    have hu := h.calls i c hc
    have hp := (hi i c hc).2
    rw [h2] at hp
    have e : ∀ j, accN j [SEvent.cache (some (i, c.api)) m (s.cache.handle m).2] = 0 ∧ refN j [SEvent.cache (some (i, c.api)) m (s.cache.handle m).2] = 0 ∧
        retN j [SEvent.cache (some (i, c.api)) m (s.cache.handle m).2] = 0 := fun j => ⟨rfl, rfl, rfl⟩
    have e' : ∀ j, j ≠ i → retrievals j [SEvent.cache (some (i, c.api)) m (s.cache.handle m).2] = 0 := by
      intro j hj; cases m <;> simp [retrievals, Ne.symm hj]
    refine ⟨?_, ?_, extend_all h.why _ (one_all (P := Why2 lib) _ trivial)⟩
    · intro j d hd
      obtain ⟨z1, z2, z3⟩ := e j
      simp only [Sys.setCall] at hd ⊢
      rw [List.getElem?_set] at hd
      split at hd
      · rename_i e
        subst e
        simp [lt_of_some hc] at hd
        subst hd
        refine ⟨?_, ?_, ?_⟩
        · rw [accN_append, refN_append, z1, z2]
          have := hu.had
          rw [h2] at this
          cases k <;> exact this
        · rw [retrievals_append]
          refine ⟨?_, by simp [unlooked]⟩
          cases k with
          | retrieve => rw [hu.look.2 (by rw [h2]; rfl)]; obtain ⟨work, ip, -, rfl⟩ := hp; simp [retrievals]
          | storePow cfg => obtain ⟨_, _, _, _, _, _, _, rfl⟩ := hp; simpa [retrievals] using hu.look.1
          | storeResult t d => obtain ⟨_, _, _, _, _, _, _, rfl, _⟩ := hp; simpa [retrievals] using hu.look.1
          | check => obtain ⟨msg, _, rfl⟩ := hp; simpa [retrievals] using hu.look.1
        · rw [retN_append, z3, hu.once.2 (by simp [h2])]; exact ⟨Nat.zero_le _, fun _ => rfl⟩
      · rename_i hne
        have hv := h.calls j d hd
        refine ⟨?_, ?_, ?_⟩
        · rw [accN_append, refN_append, z1, z2]; exact hv.had
        · rw [retrievals_append, e' j (fun x => hne x.symm)]; exact hv.look
        · rw [retN_append, z3]; exact hv.once
    · intro j hl
      simp only [Sys.setCall, List.length_set] at hl ⊢
      obtain ⟨a1, a2, a3, a4, a5⟩ := h.fresh j hl
      obtain ⟨z1, z2, z3⟩ := e j
      have hne : j ≠ i := by
        intro e; subst e
        have := lt_of_some hc; omega
      rw [accN_append, refN_append, retrievals_append, retN_append, a1, a2, a4, a5, z1, z2, z3, e' j hne]
      exact ⟨rfl, rfl, a3, rfl, rfl⟩
  | submit i c work ip cfg hc h1 h2 hk hl hlis hcl =>
    have hu := h.calls i c hc
    have hm := fun j => mail_submit p s.queue ip i j
    have hev : (qStep p s.queue (.submit ip i)).2 = [] := (hm i).1
    rw [hev, List.map_nil, List.append_nil]
    refine ⟨?_, ?_, h.why⟩
    · intro j d hd
      simp only [Sys.setCall] at hd ⊢
      rw [List.getElem?_set] at hd
      have hmj := (hm j).2
      split at hd
      · rename_i e
        subst e
        simp [lt_of_some hc] at hd
        subst hd
        have hh := hu.had
        rw [h2] at hh
        refine ⟨?_, ⟨hu.look.1, by simp [unlooked]⟩, ⟨hu.once.1, fun _ => hu.once.2 (by simp [h2])⟩⟩
        obtain ⟨b1, b2, b3⟩ := hh
        rw [b3] at hmj
        exact ⟨b1, b2, by simpa using hmj⟩
      · rename_i hne
        rw [if_neg hne, Nat.add_zero] at hmj
        have hv := h.calls j d hd
        refine ⟨?_, hv.look, hv.once⟩
        have hh := hv.had
        generalize mailN j (qStep p s.queue (.submit ip i)).1 = M' at hmj ⊢
        revert hh
        cases d.pc with
        | awaitMaster => simp only [Had]; omega
        | awaitCache m k => cases k <;> simp only [Had] <;> omega
        | replied m k => cases k <;> simp only [Had] <;> omega
        | awaitAdd cfg => simp only [Had]; omega
        | answered cfg a => cases a <;> simp only [Had] <;> omega
        | polling cfg => simp only [Had]; omega
        | done => simp only [Had]; omega
    · intro j hlen
      simp only [Sys.setCall, List.length_set] at hlen ⊢
      obtain ⟨a1, a2, a3, a4, a5⟩ := h.fresh j hlen
      have hne : i ≠ j := by
        intro e; subst e
        have := lt_of_some hc; omega
      have hmj := (hm j).2
      rw [if_neg hne] at hmj
      exact ⟨a1, a2, by omega, a4, a5⟩
  | panic i c cfg work ip hc h1 h2 hl hlis hcl =>
    have hu := h.calls i c hc
    have e : ∀ j, accN j [SEvent.panicked i] = 0 ∧ refN j [SEvent.panicked i] = 0 ∧ retrievals j [SEvent.panicked i] = 0 := fun j => ⟨rfl, rfl, rfl⟩
    refine ⟨?_, ?_, extend_all h.why _ (one_all (P := Why2 lib) _ ?_)⟩
    · intro j d hd
      obtain ⟨z1, z2, z3⟩ := e j
      simp only [Sys.setCall] at hd ⊢
      rw [List.getElem?_set] at hd
      split at hd
      · rename_i e
        subst e
        simp [lt_of_some hc] at hd
        subst hd
        refine ⟨?_, ?_, ?_⟩
        · rw [accN_append, refN_append, z1, z2]; exact had_done hu.had (by simp [h2])
        · rw [retrievals_append, z3]; exact ⟨hu.look.1, by simp [Call.over, unlooked]⟩
        · rw [retN_append, hu.once.2 (by simp [h2])]
          refine ⟨by simp [retN], fun e => absurd rfl e⟩
      · rename_i hne
        have hv := h.calls j d hd
        refine ⟨?_, ?_, ?_⟩
        · rw [accN_append, refN_append, z1, z2]; exact hv.had
        · rw [retrievals_append, z3]; exact hv.look
        · rw [retN_append, show retN j [SEvent.panicked i] = 0 from by simp [retN]; exact hne]; exact hv.once
    · intro j hlen
      simp only [Sys.setCall, List.length_set] at hlen ⊢
      obtain ⟨a1, a2, a3, a4, a5⟩ := h.fresh j hlen
      obtain ⟨z1, z2, z3⟩ := e j
      have hne : i ≠ j := by
        intro e; subst e
        have := lt_of_some hc; omega
      rw [accN_append, refN_append, retrievals_append, retN_append, a1, a2, a4, a5, z1, z2, z3]
      exact ⟨rfl, rfl, a3, rfl, by simp [retN]; exact hne⟩
    · have hh := hu.had
      rw [h2] at hh
      exact ⟨hu.once.2 (by simp [h2]), hh.1, hh.2.1⟩
  | queue qs hm => exact hqueue qs (by intro ip j e; subst e; simp [Sys.mayStep] at hm)
  | shutdown hs => exact hqueue .close (by simp)
  | expire k =>
    have e : ∀ j, accN j ((cacheStep s.cache (.fire k)).2.map fun (m, r) => SEvent.cache none m r) = 0 ∧
        refN j ((cacheStep s.cache (.fire k)).2.map fun (m, r) => SEvent.cache none m r) = 0 ∧
        retrievals j ((cacheStep s.cache (.fire k)).2.map fun (m, r) => SEvent.cache none m r) = 0 ∧
        retN j ((cacheStep s.cache (.fire k)).2.map fun (m, r) => SEvent.cache none m r) = 0 := by
      intro x
      refine ⟨?_, ?_, ?_, ?_⟩ <;>
        · simp only [accN, refN, retrievals, retN, List.countP_eq_zero]
          intro e he
          obtain ⟨y, -, rfl⟩ := List.mem_map.1 he
          simp
    refine ⟨?_, ?_, extend_all h.why _ ?_⟩
    · intro j d hd
      obtain ⟨z1, z2, z3, z4⟩ := e j
      have hv := h.calls j d hd
      refine ⟨?_, ?_, ?_⟩
      · rw [accN_append, refN_append, z1, z2]; exact hv.had
      · rw [retrievals_append, z3]; exact hv.look
      · rw [retN_append, z4]; exact hv.once
    · intro j hl
      obtain ⟨z1, z2, z3, z4⟩ := e j
      obtain ⟨a1, a2, a3, a4, a5⟩ := h.fresh j hl
      rw [accN_append, refN_append, retrievals_append, retN_append, a1, a2, a4, a5, z1, z2, z3, z4]
      exact ⟨rfl, rfl, a3, rfl, rfl⟩
    · intro ev1 e ev2 he
      have : e ∈ (cacheStep s.cache (.fire k)).2.map fun (m, r) => SEvent.cache none m r := by rw [he]; simp
      obtain ⟨x, -, rfl⟩ := List.mem_map.1 this
      trivial
  | tick d => rw [List.append_nil]; exact ⟨h.calls, h.fresh, h.why⟩

theorem uinv_new (lib : PowLib) (p : Profile) (n ql now : Nat) (steps : List SStep) :
    UInv lib (sysRun lib p (Sys.new n ql now) steps).1 (sysRun lib p (Sys.new n ql now) steps).2 := by
  suffices h : ∀ (s : Sys) (log : List SEvent), SInv lib s log → QInv n ql s.queue (queueTrace log) → UInv lib s log →
      UInv lib (sysRun lib p s steps).1 (log ++ (sysRun lib p s steps).2) by
    have h0 := sinv_new lib p n ql now []
    have := h (Sys.new n ql now) [] h0 (qinv_init n ql)
      ⟨by intro i c hc; simp [Sys.new] at hc, fun i _ => ⟨rfl, rfl, rfl, rfl, rfl⟩, by intro pre e post hs; simp at hs⟩
    simpa using this
  induction steps with
  | nil => intro s log _ _ h; simpa [sysRun] using h
  | cons st r ih =>
    intro s log h1 h2 h3
    have m := sysStep_move lib p s st
    obtain ⟨qs, hq, -⟩ := queue_move m
    have h2' := qinv_run p h2 qs
    rw [hq] at h2'
    have := ih _ _ (sinv_move h1 m) (by rw [queueTrace_append]; exact h2') (uinv_move h1.calls h2 h3 m)
    simpa [sysRun, List.append_assoc] using this

end MCap
