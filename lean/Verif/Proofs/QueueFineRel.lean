import Verif.Proofs.QueueFine

namespace MCap
open Spec

/-! ### Workers that have neither crashed nor been told to stop -/

/-- Worker `w` lives and has not been told to stop. -/
def Fresh (q : Queue) (w : Nat) : Prop := ∀ r, q.inner.runners[w]? = some r → r.status = .alive ∧ .stop ∉ r.inbox

theorem workerAct_fresh (s : QStep) (r y : Worker) (ev : List QEvent) (mail : List InnerMsg) (hs : ∀ w, s ≠ .crash w)
    (h : workerAct s r = some (y, ev, mail)) (hr : r.status = .alive ∧ .stop ∉ r.inbox) : y.status = .alive ∧ .stop ∉ y.inbox := by
  cases s <;> simp only [workerAct, reduceCtorEq] at h
  case take w =>
    split at h
    · split at h
      · cases h
      · rename_i hi; rw [hi] at hr; simp at hr
      · rename_i hi
        simp only [Option.some.injEq, Prod.mk.injEq] at h
        rw [← h.1]
        rw [hi] at hr
        exact ⟨hr.1, fun hm => hr.2 (List.mem_cons_of_mem _ hm)⟩
    · cases h
  case finish w =>
    split at h
    · cases h
    · simp only [Option.some.injEq, Prod.mk.injEq] at h
      rw [← h.1]; exact hr
  case crash w => exact absurd rfl (hs w)

theorem acts_fresh (p : Profile) (q : Queue) (s : QStep) (hl : q.listening = true) (ha : Acts q s) (hs : ∀ w, s ≠ .crash w) (w : Nat)
    (h : Fresh q w) : Fresh (qStep p q s).1 w := by
  have worker : (∃ v r a, workerOf s = some v ∧ q.inner.runners[v]? = some r ∧ workerAct s r = some a) → Fresh (qStep p q s).1 w := by
    rintro ⟨v, r, ⟨y, ev, mail⟩, h1, h2, h3⟩
    rw [acts_step p hl h1 h2 h3]
    intro x hx
    simp only at hx
    by_cases e : v = w
    · subst e
      rw [List.getElem?_set_self (List.getElem?_eq_some_iff.1 h2).1] at hx
      cases hx
      exact workerAct_fresh s r _ ev mail hs h3 (h r h2)
    · rw [List.getElem?_set_ne e] at hx
      exact h x hx
  cases s with
  | submit ip j =>
    intro r hr
    rw [(qStep_outer p q q.inner _ (.inr ⟨ip, j, rfl⟩)).1] at hr
    exact h r hr
  | close =>
    intro r hr
    rw [(qStep_outer p q q.inner _ (.inl rfl)).1] at hr
    exact h r hr
  | manage => exact ha.elim
  | joined => exact ha.elim
  | take w => exact worker ha
  | finish w => exact worker ha
  | crash w => exact worker ha

theorem moves_fresh (p : Profile) (q : Queue) (ws : List QStep) (hl : q.listening = true) (hm : Moves p q ws) (hs : noCrash ws) (w : Nat)
    (h : Fresh q w) : Fresh (qRun p q ws).1 w := by
  induction ws generalizing q with
  | nil => exact h
  | cons s r ih =>
    obtain ⟨a, -⟩ := acts_frame p q s hl hm.1
    exact ih _ (listening_of_status a hl) hm.2 (fun w hx => hs w (List.mem_cons_of_mem _ hx))
      (acts_fresh p q s hl hm.1 (fun w e => hs w (by simp [e])) w h)

theorem fresh_alive {q : Queue} (h : ∀ w, Fresh q w) : AllAlive q.inner := by
  intro r hr
  obtain ⟨w, hw, rfl⟩ := List.getElem_of_mem hr
  exact (h w _ (List.getElem?_eq_getElem hw)).1

theorem disp_fresh {q q' : Queue} {im : Inner} {ev : List QEvent} {k : Nat} (him : im.runners = q.inner.runners) (d : Disp im q'.inner ev k)
    (h : ∀ w, Fresh q w) : ∀ w, Fresh q' w := by
  intro w x hx
  obtain ⟨r, hr, rfl⟩ := disp_back d w x hx
  rw [him] at hr
  refine ⟨(h w r hr).1, ?_⟩
  simp only [List.mem_append, List.mem_map, reduceCtorEq, and_false, exists_false, or_false]
  exact (h w r hr).2

/-! ### Lists of workers, one more -/

theorem dispatchAll_snoc (p : Profile) (done : List Nat) (name : Nat) (im im1 im2 : Inner) (e1 e2 : List QEvent)
    (h1 : im.dispatchAll p done = .ret (im1, e1)) (hr : im1.runners[name]? ≠ none) (h2 : im1.dispatchTo p name = .ret (im2, e2)) :
    im.dispatchAll p (done ++ [name]) = .ret (im2, e1 ++ e2) := by
  induction done generalizing im e1 with
  | nil =>
    simp only [Inner.dispatchAll, Exec.ret.injEq, Prod.mk.injEq] at h1
    obtain ⟨rfl, rfl⟩ := h1
    simp only [List.nil_append, Inner.dispatchAll]
    cases hx : im.runners[name]? with
    | none => exact absurd hx hr
    | some r => simp [h2, Exec.bind]
  | cons a rest ih =>
    simp only [List.cons_append, Inner.dispatchAll] at h1 ⊢
    cases hx : im.runners[a]? with
    | none => rw [hx] at h1; cases h1
    | some r =>
      rw [hx] at h1
      simp only at h1 ⊢
      cases ha : im.dispatchTo p a with
      | panic w => rw [ha] at h1; cases h1
      | ret b =>
        obtain ⟨imb, eb⟩ := b
        rw [ha] at h1
        simp only [Exec.bind] at h1 ⊢
        cases hb : imb.dispatchAll p rest with
        | panic w => rw [hb] at h1; cases h1
        | ret c =>
          obtain ⟨imc, ec⟩ := c
          rw [hb] at h1
          simp only [Exec.ret.injEq, Prod.mk.injEq] at h1
          obtain ⟨rfl, rfl⟩ := h1
          rw [ih imb ec hb]
          simp [List.append_assoc]

theorem sendStops_snoc (done : List Nat) (w : Nat) (rs rs1 rs2 : List Worker) (im : Inner) (h1 : sendStops done rs = (rs1, true))
    (h2 : stopTo w { im with runners := rs1 } = .ret ({ im with runners := rs2 }, [])) : sendStops (done ++ [w]) rs = (rs2, true) := by
  induction done generalizing rs with
  | nil =>
    simp only [sendStops, Prod.mk.injEq, and_true] at h1
    subst h1
    simp only [List.nil_append, sendStops]
    simp only [stopTo] at h2
    cases hr : rs[w]? with
    | none =>
      rw [hr] at h2
      simp only [Exec.ret.injEq, Prod.mk.injEq, Inner.mk.injEq, true_and, and_true] at h2
      simp [h2]
    | some r =>
      rw [hr] at h2
      simp only at h2 ⊢
      split at h2
      · rename_i ha
        simp only [Exec.ret.injEq, Prod.mk.injEq, Inner.mk.injEq, true_and, and_true] at h2
        rw [if_pos ha, h2]
      · cases h2
  | cons a rest ih =>
    simp only [List.cons_append, sendStops] at h1 ⊢
    cases hr : rs[a]? with
    | none => rw [hr] at h1; exact ih rs h1
    | some r =>
      rw [hr] at h1
      simp only at h1 ⊢
      split at h1
      · rename_i ha
        rw [if_pos ha]
        exact ih _ h1
      · cases h1

/-- If every send succeeds, in whatever order, every worker has been told. -/
theorem sendStops_all (order : List Nat) (rs rs1 : List Worker) (ho : order.Perm (List.range rs.length)) (h : sendStops order rs = (rs1, true)) :
    (∀ r ∈ rs, r.status = .alive) ∧ rs1 = rs.map fun r => { r with inbox := r.inbox ++ [.stop] } := by
  have hnd : order.Nodup := ho.nodup_iff.2 List.nodup_range
  have hok := (sendStops_ok order rs hnd).1 (by rw [h])
  have hal : ∀ (w : Nat) (r : Worker), rs[w]? = some r → r.status = .alive := fun w r hr =>
    hok w (ho.mem_iff.2 (List.mem_range.2 (List.getElem?_eq_some_iff.1 hr).1)) r hr
  refine ⟨?_, ?_⟩
  · intro r hr
    obtain ⟨w, hw, rfl⟩ := List.getElem_of_mem hr
    exact hal w _ (List.getElem?_eq_getElem hw)
  · have e : rs1 = (sendStops order rs).1 := by rw [h]
    rw [e]
    apply List.ext_getElem?
    intro w
    cases hr : rs[w]? with
    | none =>
      rw [List.getElem?_map, hr, List.getElem?_eq_none]
      · rfl
      · rw [sendStops_length]; exact List.getElem?_eq_none_iff.1 hr
    | some r =>
      obtain ⟨a, b, rfl⟩ := List.append_of_mem (ho.mem_iff.2 (List.mem_range.2 (List.getElem?_eq_some_iff.1 hr).1))
      rw [(sendStops_at a b w _ r hnd hr).1 (fun v _ x hx => hal v x hx), List.getElem?_map, hr]
      rfl

/-! ### The relation -/

/-- Amid a message: `q` is reached from a state `q0` of the coarse model by part of the message, leaving `imk` and the events `evk`, and
steps `ws` of others. `nc` says that no job panics. -/
def Mid (p : Profile) (n ql : Nat) (nc : Prop) (q : Queue) (tr : List QEvent) (q0 : Queue) (m : InnerMsg) (imk : Inner) (evk : List QEvent) : Prop :=
  ∃ steps ws rest, (qRun p (Queue.new n ql) steps).1 = q0 ∧ q0.status = .running ∧ q0.mailbox = m :: rest ∧
    Moves p { q0 with mailbox := rest, inner := imk } ws ∧
    (qRun p { q0 with mailbox := rest, inner := imk } ws).1 = q ∧
    SameParts tr ((qRun p (Queue.new n ql) steps).2 ++ (evk ++ (qRun p { q0 with mailbox := rest, inner := imk } ws).2)) ∧
    (nc → noCrash steps ∧ noCrash ws)

/-- How far the manager thread has come with the message. -/
def Prog (p : Profile) (q0 : Queue) (m : InnerMsg) (imk : Inner) (evk : List QEvent) : Doing → Prop
  | .dispatching names none =>
    ∃ name, m = .dispatch name ∧ ((names = [name] ∧ imk = q0.inner ∧ evk = []) ∨ (names = [] ∧ q0.inner.dispatchTo p name = .ret (imk, evk)))
  | .dispatching names (some (ip, job)) =>
    m = .schedule ip job ∧ q0.inner.queues.length ≠ q0.inner.queueLength ∧
      ∃ done, List.range q0.inner.runners.length = done ++ names ∧ (enqueued q0.inner ip job).dispatchAll p done = .ret (imk, evk)
  | .stopping names =>
    m = .stop ∧ evk = [] ∧ ∃ done rs, (done ++ names).Perm (List.range q0.inner.runners.length) ∧
      sendStops done q0.inner.runners = (rs, true) ∧ imk = { q0.inner with runners := rs }

/-- How a state between or amid messages corresponds to the coarse model. -/
def FRel (p : Profile) (n ql : Nat) (nc : Prop) (f : FQueue) (tr : List QEvent) : Prop :=
  match f.doing with
  | none => (nc → Healthy f.q) ∧
    (Healthy f.q → ∃ steps, (qRun p (Queue.new n ql) steps).1 = f.q ∧ SameParts tr (qRun p (Queue.new n ql) steps).2 ∧ (nc → noCrash steps))
  | some d => ∃ q0 m imk evk, Mid p n ql nc f.q tr q0 m imk evk ∧ Prog p q0 m imk evk d

theorem prog_disp {p : Profile} {q0 : Queue} {m : InnerMsg} {imk : Inner} {evk : List QEvent} {d : Doing} (hi : IInv q0.inner)
    (h : Prog p q0 m imk evk d) : TurnsOnly evk ∧
      (∀ names reply, d = .dispatching names reply → (∀ name, m = .dispatch name → q0.inner.ips ≠ []) →
        IInv imk ∧ imk.ips ≠ [] ∧ ∃ im ev k, im.runners = q0.inner.runners ∧ Disp im imk ev k) := by
  cases d with
  | stopping names =>
    obtain ⟨-, rfl, -⟩ := h
    exact ⟨⟨rfl, fun _ => rfl⟩, fun _ _ e => by cases e⟩
  | dispatching names reply =>
    cases reply with
    | none =>
      obtain ⟨name, hm, (⟨-, rfl, rfl⟩ | ⟨-, hd⟩)⟩ := h
      · exact ⟨⟨rfl, fun _ => rfl⟩, fun _ _ _ hn => ⟨hi, hn name hm, _, _, _, rfl, Disp.refl _⟩⟩
      · have d := dispatchTo_disp p q0.inner hi name imk evk hd
        exact ⟨disp_turnsOnly d, fun _ _ _ hn => ⟨d.iinv hi, by rw [d.ips]; exact hn name hm, _, _, _, rfl, d⟩⟩
    | some a =>
      obtain ⟨ip, job⟩ := a
      obtain ⟨hm, -, done, -, hd⟩ := h
      obtain ⟨a1, -, a3, -⟩ := enqueued_spec q0.inner hi ip job
      have d := dispatchAll_disp p done _ a1 imk evk hd
      exact ⟨disp_turnsOnly d, fun _ _ _ _ => ⟨d.iinv a1, by rw [d.ips]; exact enqueued_ne q0.inner hi ip job, _, _, _, a3, d⟩⟩

theorem unhealthy_step (p : Profile) (q : Queue) (s : QStep) (h : ¬ Healthy q) : ¬ Healthy (qStep p q s).1 := by
  unfold Healthy at *
  have hs : q.status = .panicked ∨ q.status = .aborted := by
    cases hst : q.status <;> simp [hst] at h <;> simp
  suffices (qStep p q s).1.status = q.status by rw [this]; exact h
  unfold qStep
  rcases hs with hs | hs
  · have hl : q.listening = false := by simp [Queue.listening, hs]
    rw [if_neg (by rw [hs]; simp)]
    cases s with
    | submit ip job => simp [hl]
    | close => simp [hl]
    | manage => simp [Queue.manage, hs]
    | joined => simp [hs]
    | take w => simp only [Queue.take]; split; · rfl
                split; · split <;> rfl
                rfl
    | finish w => simp only [Queue.finish]; split; · rfl
                  split; · rfl
                  split <;> rfl
    | crash w => simp only [Queue.crash]; split; · rfl
                 split <;> rfl
  · rw [if_pos hs]

theorem qRun_one (p : Profile) (q : Queue) (s : QStep) : qRun p q [s] = qStep p q s := by simp [qRun]

theorem noCrash_append {a b : List QStep} (ha : noCrash a) (hb : noCrash b) : noCrash (a ++ b) := fun w hm =>
  (List.mem_append.1 hm).elim (ha w) (hb w)

/-- A state of the coarse model, reached by one more step, is a state between messages. -/
theorem frel_coarse (p : Profile) (n ql : Nat) (nc : Prop) (q : Queue) (tr : List QEvent) (steps : List QStep)
    (h1 : (qRun p (Queue.new n ql) steps).1 = q) (h2 : SameParts tr (qRun p (Queue.new n ql) steps).2) (h3 : nc → noCrash steps) :
    FRel p n ql nc { q := q, doing := none } tr :=
  ⟨fun hn => by rw [← h1]; exact (hinv_new p n ql steps (h3 hn)).ok, fun _ => ⟨steps, h1, h2, h3⟩⟩

/-- Between messages, anything but the manager thread. -/
theorem frel_other_none (p : Profile) (n ql : Nat) (nc : Prop) (q : Queue) (tr : List QEvent) (s : QStep) (hc : nc → ∀ w, s ≠ .crash w)
    (h : FRel p n ql nc { q := q, doing := none } tr) :
    FRel p n ql nc { q := (qStep p q s).1, doing := none } (tr ++ (qStep p q s).2) := by
  obtain ⟨h1, h2⟩ := h
  by_cases hq : Healthy q
  · obtain ⟨steps, a, b, c⟩ := h2 hq
    have ha : (qRun p (Queue.new n ql) steps).1 = q := a
    refine frel_coarse p n ql nc _ _ (steps ++ [s]) ?_ ?_ ?_
    · rw [qRun_append, qRun_one, ha]
    · rw [qRun_append, qRun_one, ha]; exact sameParts_append b (sameParts_refl _)
    · intro hn
      refine noCrash_append (c hn) ?_
      intro w hm
      exact hc hn w (List.mem_singleton.1 hm).symm
  · exact ⟨fun hn => absurd (h1 hn) hq, fun hh => absurd hh (unhealthy_step p q s hq)⟩

/-- Amid a message, anything but the manager thread. -/
theorem frel_other_some (p : Profile) (n ql : Nat) (nc : Prop) (q : Queue) (d : Doing) (tr : List QEvent) (s : QStep) (hs : s ≠ .manage)
    (hc : nc → ∀ w, s ≠ .crash w) (h : FRel p n ql nc { q := q, doing := some d } tr) :
    FRel p n ql nc { q := (qStep p q s).1, doing := some d } (tr ++ (qStep p q s).2) := by
  obtain ⟨q0, m, imk, evk, ⟨steps, ws, rest, a1, a2, a3, a4, a5, a6, a7⟩, hp⟩ := h
  simp only at a5 a6
  have hl : ({ q0 with mailbox := rest, inner := imk } : Queue).listening = true := by simp [Queue.listening, a2]
  have hst : q.status = .running := by rw [← a5, (moves_frame p _ ws hl a4).1]; exact a2
  by_cases ha : Acts q s
  · refine ⟨q0, m, imk, evk, ⟨steps, ws ++ [s], rest, a1, a2, a3, ?_, ?_, ?_, ?_⟩, hp⟩
    · rw [moves_snoc, a5]; exact ⟨a4, ha⟩
    · rw [qRun_append, qRun_one, a5]
    · rw [qRun_append, qRun_one, a5]
      have := sameParts_append a6 (sameParts_refl (qStep p q s).2)
      simpa [List.append_assoc] using this
    · intro hn
      refine ⟨(a7 hn).1, noCrash_append (a7 hn).2 ?_⟩
      intro w hm
      exact hc hn w (List.mem_singleton.1 hm).symm
  · rw [noact_step p q s hst hs ha, List.append_nil]
    exact ⟨q0, m, imk, evk, ⟨steps, ws, rest, a1, a2, a3, a4, a5, a6, a7⟩, hp⟩

/-- A message is received. -/
theorem frel_receive (p : Profile) (n ql : Nat) (nc : Prop) (f : FQueue) (tr : List QEvent) (order : List Nat) (ho : order.Perm (List.range n))
    (h : FRel p n ql nc f tr) : FRel p n ql nc (f.receive order).1 (tr ++ (f.receive order).2) := by
  unfold FQueue.receive
  split
  case isFalse => simpa using h
  case isTrue hd =>
    obtain ⟨q, d⟩ := f
    obtain ⟨rfl, hr⟩ := hd
    simp only at hr ⊢
    have h' := h
    obtain ⟨h1, h2⟩ := h
    obtain ⟨steps, a, b, c⟩ := h2 (by simp [Healthy, hr])
    have ha : (qRun p (Queue.new n ql) steps).1 = q := a
    clear a
    have hn : q.inner.runners.length = n := by rw [← ha]; exact (qinv_new p n ql steps).nrun
    have mid : ∀ m rest imk d, q.mailbox = m :: rest → Prog p q m imk [] d →
        FRel p n ql nc { q := { q with mailbox := rest, inner := imk }, doing := some d } (tr ++ []) := by
      intro m rest imk d hm hp
      refine ⟨q, m, imk, [], ⟨steps, [], rest, ha, hr, hm, trivial, rfl, ?_, fun hc => ⟨c hc, fun _ => by simp⟩⟩, hp⟩
      simpa [qRun] using b
    cases hm : q.mailbox with
    | nil => simpa using h'
    | cons m rest =>
      cases m with
      | stop => exact mid _ rest q.inner _ hm ⟨rfl, rfl, [], q.inner.runners, by simpa [hn] using ho, rfl, rfl⟩
      | dispatch name => exact mid _ rest q.inner _ hm ⟨name, rfl, .inl ⟨rfl, rfl, rfl⟩⟩
      | schedule ip job =>
        simp only
        split
        · rename_i hf
          refine frel_coarse p n ql nc _ _ (steps ++ [.manage]) ?_ ?_ ?_
          · rw [qRun_append, qRun_one, ha]
            simp [qStep, hr, Queue.manage, hm, Inner.schedule, hf]
          · rw [qRun_append, qRun_one, ha]
            refine sameParts_append b ?_
            simp only [qStep, hr, Queue.manage, hm, Inner.schedule, hf, reduceCtorEq, if_false, if_true]
            exact sameParts_refl _
          · exact fun hn => noCrash_append (c hn) (by intro w; simp)
        · rename_i hf
          exact mid _ rest (enqueued q.inner ip job) _ hm ⟨rfl, hf, [], rfl, rfl⟩

/-- The manager thread goes on. -/
theorem frel_go (p : Profile) (n ql : Nat) (nc : Prop) (f : FQueue) (tr : List QEvent) (h : FRel p n ql nc f tr) :
    FRel p n ql nc (f.go p).1 (tr ++ (f.go p).2) := by
  obtain ⟨q, d⟩ := f
  cases d with
  | none => simpa [FQueue.go] using h
  | some d =>
    obtain ⟨q0, m, imk, evk, ⟨steps, ws, rest, a1, a2, a3, a4, a5, a6, a7⟩, hp⟩ := h
    simp only at a5 a6
    have hl : ({ q0 with mailbox := rest, inner := imk } : Queue).listening = true := by simp [Queue.listening, a2]
    obtain ⟨f1, rs, f2⟩ := moves_frame p _ ws hl a4
    have hst : q.status = .running := by rw [← a5, f1]; exact a2
    have hi : QInv n ql q0 (qRun p (Queue.new n ql) steps).2 := by rw [← a1]; exact qinv_new p n ql steps
    have hw := moves_events p _ ws hl a4
    obtain ⟨ht, hdisp⟩ := prog_disp hi.inv hp
    have hfresh0 : nc → ∀ w, Fresh q0 w := by
      intro hn w r hr
      have hh := hinv_new p n ql steps (a7 hn).1
      have hL := linv_new p n ql steps
      rw [a1] at hh hL
      exact ⟨allAlive hh hL a2 r (List.mem_of_getElem? hr), (hL.run a2 w r hr).2⟩
    -- the manager thread does one thing more, which commutes with what others did
    have one : ∀ (op : Inner → Exec (Inner × List QEvent)) name im2 e2 d', Sends op name → TurnsOnly e2 → op q.inner = .ret (im2, e2) →
        (∀ im1, op imk = .ret (im1, e2) → Prog p q0 m im1 (evk ++ e2) d') →
        FRel p n ql nc { q := { q with inner := im2 }, doing := some d' } (tr ++ e2) := by
      intro op name im2 e2 d' hs he hop hpr
      rw [← a5] at hop
      obtain ⟨im1, b1, b2, b3⟩ := commute_run p hs _ ws hl a4 im2 e2 hop
      refine ⟨q0, m, im1, evk ++ e2, ⟨steps, ws, rest, a1, a2, a3, b3, ?_, ?_, a7⟩, hpr im1 b1⟩
      · simp only at b2 ⊢
        rw [b2, ← a5]
      · simp only at b2 ⊢
        rw [b2]
        exact sameParts_turns a6 he hw
    -- the message is done with
    have fin : ∀ ev, q0.manage p = ({ q0 with mailbox := rest, inner := imk }, ev) →
        SameParts (tr ++ (ev.filter isAnswer)) ((qRun p (Queue.new n ql) steps).2 ++ (ev ++ (qRun p { q0 with mailbox := rest, inner := imk } ws).2)) →
        FRel p n ql nc { q := q, doing := none } (tr ++ ev.filter isAnswer) := by
      intro ev hm hs
      have hstep : qStep p q0 .manage = ({ q0 with mailbox := rest, inner := imk }, ev) := by simp [qStep, a2, hm]
      refine frel_coarse p n ql nc _ _ (steps ++ ([.manage] ++ ws)) ?_ ?_ ?_
      · rw [qRun_append, qRun_append, qRun_one, a1, hstep, a5]
      · rw [qRun_append, qRun_append, qRun_one, a1, hstep]; exact hs
      · exact fun hn => noCrash_append (a7 hn).1 (noCrash_append (by intro w; simp) (a7 hn).2)
    -- without crashes nothing goes wrong
    have dead : ∀ q' : Queue, ¬ Healthy q' → ¬ nc → FRel p n ql nc { q := q', doing := none } (tr ++ []) :=
      fun q' hq' hn => ⟨fun h => absurd h hn, fun h => absurd h hq'⟩
    cases d with
    | dispatching names reply =>
      cases names with
      | nil =>
        cases reply with
        | none =>
          obtain ⟨name, rfl, (⟨e, -⟩ | ⟨-, hd⟩)⟩ := hp
          · cases e
          · have := fin evk (by simp [Queue.manage, a2, a3, hd]) (by rw [ht.1, List.append_nil]; exact a6)
            rw [ht.1] at this
            exact this
        | some a =>
          obtain ⟨ip, job⟩ := a
          obtain ⟨rfl, hf, done, hdn, hd⟩ := hp
          rw [List.append_nil] at hdn
          have hrun := (enqueued_spec q0.inner hi.inv ip job).2.2.1
          have hsch : q0.inner.schedule p ip job = .ret (imk, .accepted ip job :: evk) := by
            rw [schedule_eq, if_neg hf, Inner.dispatch, hrun, hdn, hd]; rfl
          have hfl : (QEvent.accepted ip job :: evk).filter isAnswer = [.accepted ip job] := by
            simp [isAnswer, List.filter_cons, ht.1]
          have := fin (.accepted ip job :: evk) (by simp [Queue.manage, a2, a3, hsch]) (by rw [hfl]; exact sameParts_answer ip job a6 ht hw)
          rw [hfl] at this
          exact this
      | cons name names =>
        obtain ⟨i1, i2, im, ev, k, i3, i4⟩ := hdisp _ _ rfl (fun name e => hi.mail name (by rw [a3, e]; simp))
        have hIq : IInv q.inner := by rw [← a5, f2]; exact ⟨i1.keys, i1.nd, i1.cur⟩
        have hlen : imk.runners.length = q0.inner.runners.length := by rw [i4.len, i3]
        simp only [FQueue.go]
        cases hop : q.inner.dispatchTo p name with
        | panic w =>
          refine dead _ ?_ ?_
          · simp only [Queue.managerPanics, Healthy]
            split <;> simp
          · intro hn
            have hfr : ∀ w, Fresh { q0 with mailbox := rest, inner := imk } w := disp_fresh i3 i4 (hfresh0 hn)
            have hal : AllAlive q.inner := fresh_alive fun w => by
              rw [← a5]; exact moves_fresh p _ ws hl a4 (a7 hn).2 w (hfr w)
            obtain ⟨_, _, e⟩ := dispatchTo_ret p q.inner hIq (by rw [← a5, f2]; exact i2) hal name
            rw [e] at hop; cases hop
        | ret b =>
          obtain ⟨im2, e2⟩ := b
          refine one (fun im => im.dispatchTo p name) name im2 e2 _ (dispatchTo_sends p name) (disp_turnsOnly (dispatchTo_disp p _ hIq name im2 e2 hop)) hop ?_
          intro im1 h1
          cases reply with
          | none =>
            obtain ⟨nm, rfl, (⟨e, rfl, rfl⟩ | ⟨e, -⟩)⟩ := hp
            · cases e
              exact ⟨_, rfl, .inr ⟨rfl, h1⟩⟩
            · cases e
          | some a =>
            obtain ⟨ip, job⟩ := a
            obtain ⟨rfl, hf, done, hdn, hd⟩ := hp
            refine ⟨rfl, hf, done ++ [name], by simpa using hdn, dispatchAll_snoc p done name _ imk im1 evk e2 hd ?_ h1⟩
            have : name ∈ List.range q0.inner.runners.length := by rw [hdn]; simp
            rw [List.mem_range, ← hlen] at this
            rw [List.getElem?_eq_getElem this]; simp
    | stopping names =>
      obtain ⟨rfl, rfl, done, rs', hperm, hsd, rfl⟩ := hp
      cases names with
      | nil =>
        rw [List.append_nil] at hperm
        obtain ⟨b1, rfl⟩ := sendStops_all done _ _ hperm hsd
        have hg : q0.someGone = false := by
          simp only [Queue.someGone, List.any_eq_false, bne_iff_ne, ne_eq, Decidable.not_not]
          exact b1
        simp only [FQueue.go]
        have hstep : qStep p q0 .manage = ({ q0 with mailbox := rest, status := .stopping, inner := { q0.inner with runners := q0.inner.runners.map fun r => { r with inbox := r.inbox ++ [.stop] } } }, []) := by
          simp [qStep, a2, Queue.manage, a3, hg]
        have hrun := stopping_run p _ ws (by exact a2) a4
        simp only at hrun a5
        refine frel_coarse p n ql nc _ _ (steps ++ ([.manage] ++ ws)) ?_ ?_ ?_
        · rw [qRun_append, qRun_append, qRun_one, a1, hstep]
          simp only
          rw [hrun, a5]
        · rw [qRun_append, qRun_append, qRun_one, a1, hstep]
          simp only
          rw [hrun, List.append_nil]
          exact a6
        · exact fun hn => noCrash_append (a7 hn).1 (noCrash_append (by intro w; simp) (a7 hn).2)
      | cons w names =>
        have hgo : (FQueue.mk q (some (.stopping (w :: names)))).go p =
            match stopTo w q.inner with
            | .ret (im, ev) => ({ q := { q with inner := im }, doing := some (.stopping names) }, ev)
            | .panic _ => ({ q := { q with status := .panicked }, doing := none }, []) := by
          simp only [FQueue.go, stopTo]
          cases q.inner.runners[w]? with
          | none => rfl
          | some r => simp only [Queue.setWorker]; split <;> rfl
        rw [hgo]
        cases hop : stopTo w q.inner with
        | panic x =>
          refine dead _ (by simp [Healthy]) ?_
          intro hn
          have hnd : (done ++ w :: names).Nodup := hperm.nodup_iff.2 List.nodup_range
          have hwd : w ∉ done := fun hm => (List.nodup_append.1 hnd).2.2 w hm w (by simp) rfl
          have hf0 : Fresh { q0 with mailbox := rest, inner := { q0.inner with runners := rs' } } w := by
            intro r hr
            have : rs' = (sendStops done q0.inner.runners).1 := by rw [hsd]
            simp only [this, sendStops_out done _ w hwd] at hr
            exact hfresh0 hn w r hr
          have hfq := moves_fresh p _ ws hl a4 (a7 hn).2 w hf0
          rw [a5] at hfq
          simp only [stopTo] at hop
          split at hop
          · cases hop
          · rename_i r hr
            rw [if_pos (hfq r hr).1] at hop; cases hop
        | ret b =>
          obtain ⟨im2, e2⟩ := b
          have he2 : e2 = [] := by
            simp only [stopTo] at hop
            split at hop
            · simp only [Exec.ret.injEq, Prod.mk.injEq] at hop; exact hop.2.symm
            · split at hop
              · simp only [Exec.ret.injEq, Prod.mk.injEq] at hop; exact hop.2.symm
              · cases hop
          subst he2
          refine one (stopTo w) w im2 [] _ (stopTo_sends w) ⟨rfl, fun _ => rfl⟩ hop ?_
          intro im1 h1
          have hx : ∃ rs2, im1 = { q0.inner with runners := rs2 } := by
            simp only [stopTo] at h1
            split at h1
            · simp only [Exec.ret.injEq, Prod.mk.injEq] at h1; exact ⟨_, h1.1.symm⟩
            · split at h1
              · simp only [Exec.ret.injEq, Prod.mk.injEq] at h1; exact ⟨_, h1.1.symm⟩
              · cases h1
          obtain ⟨rs2, rfl⟩ := hx
          exact ⟨rfl, rfl, done ++ [w], rs2, by simpa using hperm, sendStops_snoc done w _ rs' rs2 q0.inner hsd h1, rfl⟩

theorem frel_step (p : Profile) (n ql : Nat) (nc : Prop) (f : FQueue) (tr : List QEvent) (s : FStep)
    (ho : ∀ order, s = .receive order → order.Perm (List.range n)) (hc : nc → ∀ w, s ≠ .other (.crash w)) (h : FRel p n ql nc f tr) :
    FRel p n ql nc (fStep p f s).1 (tr ++ (fStep p f s).2) := by
  cases s with
  | receive order => exact frel_receive p n ql nc f tr order (ho _ rfl) h
  | go => exact frel_go p n ql nc f tr h
  | other s =>
    by_cases hs : s = .manage
    · subst hs; simpa [fStep] using h
    · have e : fStep p f (.other s) = ({ f with q := (qStep p f.q s).1 }, (qStep p f.q s).2) := by
        cases s <;> first | rfl | exact absurd rfl hs
      rw [e]
      have hc' : nc → ∀ w, s ≠ .crash w := fun hn w e => hc hn w (by rw [e])
      obtain ⟨q, d⟩ := f
      cases d with
      | none => exact frel_other_none p n ql nc q tr s hc' h
      | some d => exact frel_other_some p n ql nc q d tr s hs hc' h

theorem frel_run (p : Profile) (n ql : Nat) (nc : Prop) (steps : List FStep) (f : FQueue) (tr : List QEvent) (ho : OrdersOf n steps)
    (hc : nc → noCrashFine steps) (h : FRel p n ql nc f tr) : FRel p n ql nc (fRun p f steps).1 (tr ++ (fRun p f steps).2) := by
  induction steps generalizing f tr with
  | nil => simpa [fRun] using h
  | cons s r ih =>
    simp only [fRun]
    rw [← List.append_assoc]
    exact ih _ _ (fun o hm => ho o (List.mem_cons_of_mem _ hm)) (fun hn w hm => hc hn w (List.mem_cons_of_mem _ hm))
      (frel_step p n ql nc f tr s (fun o e => ho o (by simp [e])) (fun hn w e => hc hn w (by simp [e])) h)

theorem frel_new (p : Profile) (n ql : Nat) (nc : Prop) : FRel p n ql nc (FQueue.new n ql) [] :=
  frel_coarse p n ql nc _ _ [] rfl (sameParts_refl _) (fun _ w => by simp)

end MCap
