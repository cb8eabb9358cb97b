import Verif.Spec.QueueFine
import Verif.Proofs.QueueAbort
import Verif.Props.QueueDrop

namespace MCap
open Spec

/-! ### What a step of a worker does -/

/-- The worker a step belongs to. -/
def workerOf : QStep → Option Nat
  | .take v => some v
  | .finish v => some v
  | .crash v => some v
  | _ => none

/-- A step of a worker while the manager thread listens: the worker afterwards, the events, and what is sent to the manager thread. -/
def workerAct : QStep → Worker → Option (Worker × List QEvent × List InnerMsg)
  | .take v, r =>
    if r.status = .alive ∧ r.running = none then
      match r.inbox with
      | [] => none
      | .stop :: rest => some ({ r with inbox := rest, status := .exited }, [], [])
      | .prove job :: rest => some ({ r with inbox := rest, running := some job }, [.started v job], [])
    else none
  | .finish v, r =>
    match r.running with
    | none => none
    | some job => some ({ r with running := none }, [.ran v job], [.dispatch v])
  | .crash v, r =>
    match r.running with
    | none => none
    | some job => some ({ inbox := [], running := none, status := .crashed }, [.crashedOn v job], [])
  | _, _ => none

theorem listening_ne {q : Queue} (h : q.listening = true) : q.status ≠ .aborted := by
  intro e; simp [Queue.listening, e] at h

theorem qStep_worker (p : Profile) (q : Queue) (s : QStep) (v : Nat) (hv : workerOf s = some v) (hl : q.listening = true) :
    qStep p q s =
      match q.inner.runners[v]? with
      | none => (q, [])
      | some r =>
        match workerAct s r with
        | none => (q, [])
        | some (y, ev, mail) =>
          ({ q with inner := { q.inner with runners := q.inner.runners.set v y }, mailbox := q.mailbox ++ mail }, ev) := by
  have hna := listening_ne hl
  cases s <;> simp only [workerOf, reduceCtorEq, Option.some.injEq] at hv
  all_goals subst hv; simp only [qStep, hna, if_false]
  case take w =>
    simp only [Queue.take]
    cases hr : q.inner.runners[w]? with
    | none => rfl
    | some r =>
      simp only [workerAct]
      by_cases hc : r.status = .alive ∧ r.running = none
      · rw [if_pos hc, if_pos hc]
        cases r.inbox with
        | nil => rfl
        | cons m rest => cases m <;> simp [Queue.setWorker]
      · rw [if_neg hc, if_neg hc]
  case finish w =>
    simp only [Queue.finish]
    cases hr : q.inner.runners[w]? with
    | none => rfl
    | some r =>
      simp only [workerAct]
      cases r.running with
      | none => rfl
      | some job => simp [hl, Queue.setWorker]
  case crash w =>
    simp only [Queue.crash]
    cases hr : q.inner.runners[w]? with
    | none => rfl
    | some r =>
      simp only [workerAct]
      cases r.running with
      | none => rfl
      | some job => simp [Queue.setWorker]

/-- A worker that is there afterwards was there before, and would have done the same with a longer inbox. -/
theorem workerAct_append (s : QStep) (r y : Worker) (ev : List QEvent) (mail : List InnerMsg) (m : WorkerMsg)
    (h : workerAct s r = some (y, ev, mail)) (hy : y.status = .alive) :
    r.status = .alive ∧ workerAct s { r with inbox := r.inbox ++ [m] } = some ({ y with inbox := y.inbox ++ [m] }, ev, mail) := by
  cases s <;> simp only [workerAct, reduceCtorEq] at h ⊢
  case take w =>
    by_cases hc : r.status = .alive ∧ r.running = none
    · rw [if_pos hc] at h ⊢
      cases hi : r.inbox with
      | nil => rw [hi] at h; simp at h
      | cons a rest =>
        rw [hi] at h
        cases a with
        | stop => simp at h; rw [← h.1] at hy; simp at hy
        | prove job =>
          simp only [Option.some.injEq, Prod.mk.injEq] at h
          obtain ⟨rfl, rfl, rfl⟩ := h
          exact ⟨hc.1, rfl⟩
    · rw [if_neg hc] at h; cases h
  case finish w =>
    cases hr : r.running with
    | none => rw [hr] at h; cases h
    | some job =>
      rw [hr] at h
      simp only [Option.some.injEq, Prod.mk.injEq] at h
      obtain ⟨rfl, rfl, rfl⟩ := h
      exact ⟨hy, rfl⟩
  case crash w =>
    cases hr : r.running with
    | none => rw [hr] at h; cases h
    | some job =>
      rw [hr] at h
      simp only [Option.some.injEq, Prod.mk.injEq] at h
      obtain ⟨rfl, rfl, rfl⟩ := h
      cases hy

/-! ### What a step of the manager thread does -/

/-- An action of the manager thread that looks at one worker only, and only to send to it. -/
def Sends (op : Inner → Exec (Inner × List QEvent)) (name : Nat) : Prop :=
  ∃ act : Inner → Exec (Inner × List QEvent × Option WorkerMsg), ∀ im : Inner,
    op im =
      match im.runners[name]? with
      | none => .ret (im, [])
      | some r =>
        match act { im with runners := [] } with
        | .panic w => .panic w
        | .ret (im', ev, none) => .ret ({ im' with runners := im.runners }, ev)
        | .ret (im', ev, some m) =>
          if r.status = .alive then .ret ({ im' with runners := im.runners.set name { r with inbox := r.inbox ++ [m] } }, ev)
          else .panic .unwrapErr

theorem dispatchTo_sends (p : Profile) (name : Nat) : Sends (fun im => im.dispatchTo p name) name := by
  refine ⟨fun im => (im.advance p).bind fun cur =>
    match im.ips[cur]? with
    | none => .panic .unwrapNone
    | some ip =>
      match im.queues.get ip with
      | none => .panic .unwrapNone
      | some [] => .ret ({ im with cur := cur }, [.served ip], none)
      | some (job :: rest) =>
        .ret ({ im with cur := cur, queues := im.queues.insert ip rest }, [.served ip, .handed name ip job], some (.prove job)), ?_⟩
  intro im
  simp only [Inner.dispatchTo]
  cases im.runners[name]? with
  | none => rfl
  | some r =>
    have e : ({ im with runners := [] } : Inner).advance p = im.advance p := rfl
    simp only [e]
    cases im.advance p with
    | panic w => rfl
    | ret cur =>
      simp only [Exec.bind, Inner.serve]
      cases im.ips[cur]? with
      | none => rfl
      | some ip =>
        simp only
        cases im.queues.get ip with
        | none => rfl
        | some l => cases l <;> rfl

/-- `Stop` is sent to one worker. -/
def stopTo (w : Nat) (im : Inner) : Exec (Inner × List QEvent) :=
  match im.runners[w]? with
  | none => .ret (im, [])
  | some r =>
    if r.status = .alive then .ret ({ im with runners := im.runners.set w { r with inbox := r.inbox ++ [.stop] } }, [])
    else .panic .unwrapErr

theorem stopTo_sends (w : Nat) : Sends (stopTo w) w :=
  ⟨fun im => .ret (im, [], some .stop), fun _ => rfl⟩

/-! ### The two commute -/

/-- The step is one of a worker, of a client or of the owner of the `Manager`, and not idle. -/
def Acts (q : Queue) (s : QStep) : Prop :=
  match s with
  | .submit .. => True
  | .close => True
  | .manage => False
  | .joined => False
  | _ => ∃ v r a, workerOf s = some v ∧ q.inner.runners[v]? = some r ∧ workerAct s r = some a

/-- Neither a submission nor dropping the `Manager` looks at the inner manager. -/
theorem qStep_outer (p : Profile) (q : Queue) (im : Inner) (s : QStep) (hs : s = .close ∨ ∃ ip j, s = .submit ip j) :
    (qStep p q s).1.inner = q.inner ∧
    qStep p { q with inner := im } s = ({ (qStep p q s).1 with inner := im }, (qStep p q s).2) := by
  rcases hs with rfl | ⟨ip, j, rfl⟩
  all_goals
    have e : ({ q with inner := im } : Queue).listening = q.listening := rfl
    simp only [qStep, e]
    by_cases h1 : q.status = .aborted
    · simp [h1]
    · simp only [h1, if_false]
      by_cases h2 : q.closed = false ∧ q.listening = true
      · simp [h2]
      · simp only [if_neg h2, and_self]

theorem acts_step (p : Profile) {q : Queue} {s : QStep} {v : Nat} {r y : Worker} {ev : List QEvent} {mail : List InnerMsg}
    (hl : q.listening = true) (hv : workerOf s = some v) (hr : q.inner.runners[v]? = some r) (ha : workerAct s r = some (y, ev, mail)) :
    qStep p q s = ({ q with inner := { q.inner with runners := q.inner.runners.set v y }, mailbox := q.mailbox ++ mail }, ev) := by
  rw [qStep_worker p q s v hv hl, hr]
  simp only [ha]

theorem inner_eta (im : Inner) : { im with runners := im.runners } = im := rfl

/-- What the manager thread can do after a step of somebody else it could have done before, with the same outcome. -/
theorem commute (p : Profile) {op : Inner → Exec (Inner × List QEvent)} {name : Nat} (hop : Sends op name) (q : Queue) (s : QStep)
    (hl : q.listening = true) (ha : Acts q s) (im2 : Inner) (e2 : List QEvent) (h : op (qStep p q s).1.inner = .ret (im2, e2)) :
    ∃ im1, op q.inner = .ret (im1, e2) ∧
      qStep p { q with inner := im1 } s = ({ (qStep p q s).1 with inner := im2 }, (qStep p q s).2) ∧ Acts { q with inner := im1 } s := by
  have outer : (s = .close ∨ ∃ ip j, s = .submit ip j) → ∃ im1, op q.inner = .ret (im1, e2) ∧
      qStep p { q with inner := im1 } s = ({ (qStep p q s).1 with inner := im2 }, (qStep p q s).2) ∧ Acts { q with inner := im1 } s := by
    intro hs
    rw [(qStep_outer p q im2 s hs).1] at h
    refine ⟨im2, h, (qStep_outer p q im2 s hs).2, ?_⟩
    rcases hs with rfl | ⟨_, _, rfl⟩ <;> trivial
  have worker : ∀ v r a, workerOf s = some v → q.inner.runners[v]? = some r → workerAct s r = some a →
      ∃ im1, op q.inner = .ret (im1, e2) ∧
        qStep p { q with inner := im1 } s = ({ (qStep p q s).1 with inner := im2 }, (qStep p q s).2) ∧
        ∃ r', im1.runners[v]? = some r' ∧ ∃ a', workerAct s r' = some a' := by
    rintro v r ⟨y, ev, mail⟩ hv hr hw
    have hst := acts_step p hl hv hr hw
    have hvlt : v < q.inner.runners.length := (List.getElem?_eq_some_iff.1 hr).1
    rw [hst] at h ⊢
    -- it is enough to find the worker in the state the manager thread leaves
    suffices hs : ∃ im1 r' y', op q.inner = .ret (im1, e2) ∧ im1.runners[v]? = some r' ∧ workerAct s r' = some (y', ev, mail) ∧
        { im1 with runners := im1.runners.set v y' } = im2 by
      obtain ⟨im1, r', y', h1, h2, h3, h4⟩ := hs
      refine ⟨im1, h1, ?_, r', h2, _, h3⟩
      have := acts_step p (q := { q with inner := im1 }) hl hv h2 h3
      rw [this, h4]
    obtain ⟨act, hact⟩ := hop
    rw [hact] at h
    rw [hact]
    simp only at h
    by_cases hvn : v = name
    · subst hvn
      rw [List.getElem?_set_self hvlt] at h
      rw [hr]
      simp only at h ⊢
      cases hb : act { q.inner with runners := [] } with
      | panic w => rw [hb] at h; cases h
      | ret b =>
        obtain ⟨im', e', m⟩ := b
        rw [hb] at h
        cases m with
        | none =>
          simp only [Exec.ret.injEq, Prod.mk.injEq] at h
          obtain ⟨rfl, rfl⟩ := h
          exact ⟨_, r, y, rfl, hr, hw, rfl⟩
        | some m =>
          simp only at h
          split at h
          · rename_i hy
            obtain ⟨ha1, ha2⟩ := workerAct_append s r y ev mail m hw hy
            simp only [Exec.ret.injEq, Prod.mk.injEq] at h
            obtain ⟨rfl, rfl⟩ := h
            simp only [if_pos ha1]
            refine ⟨_, _, _, rfl, List.getElem?_set_self hvlt, ha2, ?_⟩
            simp [List.set_set]
          · cases h
    · rw [List.getElem?_set_ne hvn] at h
      cases hn : q.inner.runners[name]? with
      | none =>
        rw [hn] at h
        simp only [Exec.ret.injEq, Prod.mk.injEq] at h
        obtain ⟨rfl, rfl⟩ := h
        exact ⟨_, r, y, rfl, hr, hw, rfl⟩
      | some x =>
        rw [hn] at h
        simp only at h ⊢
        cases hb : act { q.inner with runners := [] } with
        | panic w => rw [hb] at h; cases h
        | ret b =>
          obtain ⟨im', e', m⟩ := b
          rw [hb] at h
          cases m with
          | none =>
            simp only [Exec.ret.injEq, Prod.mk.injEq] at h
            obtain ⟨rfl, rfl⟩ := h
            exact ⟨_, r, y, rfl, hr, hw, rfl⟩
          | some m =>
            simp only at h ⊢
            split at h
            · rename_i hx
              simp only [Exec.ret.injEq, Prod.mk.injEq] at h
              obtain ⟨rfl, rfl⟩ := h
              rw [if_pos hx]
              refine ⟨_, r, y, rfl, ?_, hw, ?_⟩
              · rw [List.getElem?_set_ne (Ne.symm hvn)]; exact hr
              · simp only [Inner.mk.injEq, true_and, and_true]
                rw [List.set_comm _ _ (Ne.symm hvn)]
            · cases h
  cases s with
  | submit ip j => exact outer (.inr ⟨_, _, rfl⟩)
  | close => exact outer (.inl rfl)
  | manage => exact ha.elim
  | joined => exact ha.elim
  | take w =>
    obtain ⟨v, r, a, h1, h2, h3⟩ := ha
    obtain ⟨im1, b1, b2, r', b3, a', b4⟩ := worker v r a h1 h2 h3
    exact ⟨im1, b1, b2, v, r', a', h1, b3, b4⟩
  | finish w =>
    obtain ⟨v, r, a, h1, h2, h3⟩ := ha
    obtain ⟨im1, b1, b2, r', b3, a', b4⟩ := worker v r a h1 h2 h3
    exact ⟨im1, b1, b2, v, r', a', h1, b3, b4⟩
  | crash w =>
    obtain ⟨v, r, a, h1, h2, h3⟩ := ha
    obtain ⟨im1, b1, b2, r', b3, a', b4⟩ := worker v r a h1 h2 h3
    exact ⟨im1, b1, b2, v, r', a', h1, b3, b4⟩

/-- All of the steps are ones as in `Acts`. -/
def Moves (p : Profile) : Queue → List QStep → Prop
  | _, [] => True
  | q, s :: ws => Acts q s ∧ Moves p (qStep p q s).1 ws

/-- What such a step leaves as it is. -/
theorem acts_frame (p : Profile) (q : Queue) (s : QStep) (hl : q.listening = true) (ha : Acts q s) :
    (qStep p q s).1.status = q.status ∧ ∃ rs, (qStep p q s).1.inner = { q.inner with runners := rs } := by
  have worker : (∃ v r a, workerOf s = some v ∧ q.inner.runners[v]? = some r ∧ workerAct s r = some a) →
      (qStep p q s).1.status = q.status ∧ ∃ rs, (qStep p q s).1.inner = { q.inner with runners := rs } := by
    rintro ⟨v, r, ⟨y, ev, mail⟩, h1, h2, h3⟩
    rw [acts_step p hl h1 h2 h3]
    exact ⟨rfl, _, rfl⟩
  cases s with
  | submit ip j =>
    refine ⟨?_, q.inner.runners, (qStep_outer p q q.inner _ (.inr ⟨ip, j, rfl⟩)).1⟩
    simp only [qStep, listening_ne hl, if_false]
    split <;> rfl
  | close =>
    refine ⟨?_, q.inner.runners, (qStep_outer p q q.inner _ (.inl rfl)).1⟩
    simp only [qStep, listening_ne hl, if_false]
    split <;> rfl
  | manage => exact ha.elim
  | joined => exact ha.elim
  | take w => exact worker ha
  | finish w => exact worker ha
  | crash w => exact worker ha

theorem listening_of_status {q q' : Queue} (h : q'.status = q.status) (hl : q.listening = true) : q'.listening = true := by
  simp only [Queue.listening, h] at hl ⊢; exact hl

theorem moves_frame (p : Profile) (q : Queue) (ws : List QStep) (hl : q.listening = true) (hm : Moves p q ws) :
    (qRun p q ws).1.status = q.status ∧ ∃ rs, (qRun p q ws).1.inner = { q.inner with runners := rs } := by
  induction ws generalizing q with
  | nil => exact ⟨rfl, _, rfl⟩
  | cons s r ih =>
    obtain ⟨a, rs, b⟩ := acts_frame p q s hl hm.1
    obtain ⟨c, rs', d⟩ := ih (qStep p q s).1 (listening_of_status a hl) hm.2
    simp only [qRun]
    refine ⟨by rw [c, a], rs', ?_⟩
    rw [d, b]

theorem moves_snoc (p : Profile) (q : Queue) (ws : List QStep) (s : QStep) :
    Moves p q (ws ++ [s]) ↔ Moves p q ws ∧ Acts (qRun p q ws).1 s := by
  induction ws generalizing q with
  | nil => simp [Moves, qRun]
  | cons a r ih => simp only [List.cons_append, Moves, qRun, ih, and_assoc]

theorem commute_run (p : Profile) {op : Inner → Exec (Inner × List QEvent)} {name : Nat} (hop : Sends op name) (q : Queue) (ws : List QStep)
    (hl : q.listening = true) (hm : Moves p q ws) (im2 : Inner) (e2 : List QEvent) (h : op (qRun p q ws).1.inner = .ret (im2, e2)) :
    ∃ im1, op q.inner = .ret (im1, e2) ∧
      qRun p { q with inner := im1 } ws = ({ (qRun p q ws).1 with inner := im2 }, (qRun p q ws).2) ∧ Moves p { q with inner := im1 } ws := by
  induction ws generalizing q with
  | nil => exact ⟨im2, h, rfl, trivial⟩
  | cons s r ih =>
    obtain ⟨a, -⟩ := acts_frame p q s hl hm.1
    obtain ⟨im1', b1, b2, b3⟩ := ih (qStep p q s).1 (listening_of_status a hl) hm.2 h
    obtain ⟨im1, c1, c2, c3⟩ := commute p hop q s hl hm.1 im1' e2 b1
    refine ⟨im1, c1, ?_, c3, ?_⟩
    · simp only [qRun, c2, b2]
    · rw [c2]; exact b3

/-- Others do not notice that the manager thread starts to join the workers. -/
theorem stopping_step (p : Profile) (q : Queue) (s : QStep) (hr : q.status = .running) (ha : Acts q s) :
    qStep p { q with status := .stopping } s = ({ (qStep p q s).1 with status := .stopping }, (qStep p q s).2) ∧
    Acts { q with status := .stopping } s := by
  have hl : q.listening = true := by simp [Queue.listening, hr]
  have worker : (∃ v r a, workerOf s = some v ∧ q.inner.runners[v]? = some r ∧ workerAct s r = some a) →
      qStep p { q with status := .stopping } s = ({ (qStep p q s).1 with status := .stopping }, (qStep p q s).2) := by
    rintro ⟨v, r, ⟨y, ev, mail⟩, h1, h2, h3⟩
    rw [acts_step p hl h1 h2 h3, acts_step p (q := { q with status := .stopping }) rfl h1 h2 h3]
  have e : ({ q with status := .stopping } : Queue).listening = q.listening := by rw [hl]; rfl
  cases s with
  | submit ip j =>
    refine ⟨?_, trivial⟩
    simp only [qStep, e, hr, reduceCtorEq, if_false]
    split <;> rfl
  | close =>
    refine ⟨?_, trivial⟩
    simp only [qStep, e, hr, reduceCtorEq, if_false]
    split <;> rfl
  | manage => exact ha.elim
  | joined => exact ha.elim
  | take w => exact ⟨worker ha, ha⟩
  | finish w => exact ⟨worker ha, ha⟩
  | crash w => exact ⟨worker ha, ha⟩

theorem stopping_run (p : Profile) (q : Queue) (ws : List QStep) (hr : q.status = .running) (hm : Moves p q ws) :
    qRun p { q with status := .stopping } ws = ({ (qRun p q ws).1 with status := .stopping }, (qRun p q ws).2) := by
  induction ws generalizing q with
  | nil => rfl
  | cons s r ih =>
    have hl : q.listening = true := by simp [Queue.listening, hr]
    obtain ⟨a, -⟩ := acts_frame p q s hl hm.1
    simp only [qRun, (stopping_step p q s hr hm.1).1]
    rw [ih _ (by rw [a, hr]) hm.2]

/-- A step that is none of these does nothing. -/
theorem noact_step (p : Profile) (q : Queue) (s : QStep) (hr : q.status = .running) (hs : s ≠ .manage) (ha : ¬ Acts q s) :
    qStep p q s = (q, []) := by
  have hl : q.listening = true := by simp [Queue.listening, hr]
  have worker : ∀ v, workerOf s = some v → (¬ ∃ v r a, workerOf s = some v ∧ q.inner.runners[v]? = some r ∧ workerAct s r = some a) →
      qStep p q s = (q, []) := by
    intro v hv hn
    rw [qStep_worker p q s v hv hl]
    split
    · rfl
    · split
      · rfl
      · rename_i r h1 _ _ _ _ h2
        exact absurd ⟨v, r, _, hv, h1, h2⟩ hn
  cases s with
  | submit ip j => exact absurd trivial ha
  | close => exact absurd trivial ha
  | manage => exact absurd rfl hs
  | joined => simp [qStep, hr]
  | take w => exact worker w rfl ha
  | finish w => exact worker w rfl ha
  | crash w => exact worker w rfl ha

/-! ### Logs -/

/-- The manager thread has no part in the log. -/
def OthersOnly (l : List QEvent) : Prop := l.filter isTurn = [] ∧ l.filter isAnswer = []

/-- The log is one of turns only. -/
def TurnsOnly (l : List QEvent) : Prop := l.filter isAnswer = [] ∧ ∀ w, l.filter (isOn w) = []

theorem workerAct_events (s : QStep) (r y : Worker) (ev : List QEvent) (mail : List InnerMsg) (h : workerAct s r = some (y, ev, mail)) :
    OthersOnly ev := by
  cases s <;> simp only [workerAct, reduceCtorEq] at h
  case take w =>
    split at h
    · split at h
      · cases h
      · simp only [Option.some.injEq, Prod.mk.injEq] at h; rw [← h.2.1]; exact ⟨rfl, rfl⟩
      · simp only [Option.some.injEq, Prod.mk.injEq] at h; rw [← h.2.1]; exact ⟨rfl, rfl⟩
    · cases h
  all_goals
    split at h
    · cases h
    · simp only [Option.some.injEq, Prod.mk.injEq] at h; rw [← h.2.1]; exact ⟨rfl, rfl⟩

theorem acts_events (p : Profile) (q : Queue) (s : QStep) (hl : q.listening = true) (ha : Acts q s) : OthersOnly (qStep p q s).2 := by
  have worker : (∃ v r a, workerOf s = some v ∧ q.inner.runners[v]? = some r ∧ workerAct s r = some a) → OthersOnly (qStep p q s).2 := by
    rintro ⟨v, r, ⟨y, ev, mail⟩, h1, h2, h3⟩
    rw [acts_step p hl h1 h2 h3]
    exact workerAct_events s r y ev mail h3
  cases s with
  | submit ip j =>
    simp only [qStep, listening_ne hl, if_false]
    split <;> exact ⟨rfl, rfl⟩
  | close =>
    simp only [qStep, listening_ne hl, if_false]
    split <;> exact ⟨rfl, rfl⟩
  | manage => exact ha.elim
  | joined => exact ha.elim
  | take w => exact worker ha
  | finish w => exact worker ha
  | crash w => exact worker ha

theorem OthersOnly.append {a b : List QEvent} (ha : OthersOnly a) (hb : OthersOnly b) : OthersOnly (a ++ b) := by
  simp only [OthersOnly, List.filter_append, ha.1, ha.2, hb.1, hb.2]; exact ⟨rfl, rfl⟩

theorem TurnsOnly.append {a b : List QEvent} (ha : TurnsOnly a) (hb : TurnsOnly b) : TurnsOnly (a ++ b) := by
  refine ⟨by rw [List.filter_append, ha.1, hb.1]; rfl, fun w => by rw [List.filter_append, ha.2 w, hb.2 w]; rfl⟩

theorem moves_events (p : Profile) (q : Queue) (ws : List QStep) (hl : q.listening = true) (hm : Moves p q ws) : OthersOnly (qRun p q ws).2 := by
  induction ws generalizing q with
  | nil => exact ⟨rfl, rfl⟩
  | cons s r ih =>
    obtain ⟨a, -⟩ := acts_frame p q s hl hm.1
    exact (acts_events p q s hl hm.1).append (ih _ (listening_of_status a hl) hm.2)

theorem disp_turnsOnly {im im' : Inner} {ev : List QEvent} {k : Nat} (d : Disp im im' ev k) : TurnsOnly ev := by
  constructor
  · rw [List.filter_eq_nil_iff]
    intro e he; rcases d.only e he with ⟨_, rfl⟩ | ⟨_, _, _, rfl⟩ <;> simp [isAnswer]
  · intro w
    rw [List.filter_eq_nil_iff]
    intro e he; rcases d.only e he with ⟨_, rfl⟩ | ⟨_, _, _, rfl⟩ <;> simp [isOn]

theorem sameParts_append {a b c d : List QEvent} (h : SameParts a b) (h' : SameParts c d) : SameParts (a ++ c) (b ++ d) := by
  obtain ⟨h1, h2, h3⟩ := h
  obtain ⟨k1, k2, k3⟩ := h'
  simp only [SameParts, List.filter_append, h1, h2, h3, k1, k2, k3]
  exact ⟨trivial, trivial, fun _ => trivial⟩

theorem sameParts_refl (a : List QEvent) : SameParts a a := ⟨rfl, rfl, fun _ => rfl⟩

/-- More of the turns comes in before what others did. -/
theorem sameParts_turns {tr l evk ev wv : List QEvent} (h : SameParts tr (l ++ (evk ++ wv))) (he : TurnsOnly ev) (hw : OthersOnly wv) :
    SameParts (tr ++ ev) (l ++ ((evk ++ ev) ++ wv)) := by
  obtain ⟨h1, h2, h3⟩ := h
  simp only [SameParts, List.filter_append, hw.1, hw.2, he.1, he.2, List.append_nil] at *
  exact ⟨by rw [h1, List.append_assoc], h2, h3⟩

/-- The answer comes in before the turns. -/
theorem sameParts_answer {tr l evk wv : List QEvent} (ip : String) (job : Nat) (h : SameParts tr (l ++ (evk ++ wv))) (he : TurnsOnly evk)
    (hw : OthersOnly wv) : SameParts (tr ++ [.accepted ip job]) (l ++ ((.accepted ip job :: evk) ++ wv)) := by
  obtain ⟨h1, h2, h3⟩ := h
  have e : (QEvent.accepted ip job :: evk) = [.accepted ip job] ++ evk := rfl
  rw [e]
  simp only [SameParts, List.filter_append, hw.1, hw.2, he.1, he.2, List.append_nil, List.nil_append] at *
  refine ⟨?_, ?_, ?_⟩
  · rw [h1]; simp [isTurn]
  · rw [h2]
  · intro w; rw [h3 w]; simp [isOn]

end MCap
