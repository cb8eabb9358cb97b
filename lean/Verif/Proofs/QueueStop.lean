import Verif.Proofs.QueueHealth

namespace MCap
open Spec

/-! ### Shutting down terminates -/

theorem sum_set {α : Type} (f : α → Nat) (l : List α) (w : Nat) (r r' : α) (h : l[w]? = some r) :
    ((l.set w r').map f).sum + f r = (l.map f).sum + f r' := by
  induction l generalizing w with
  | nil => simp at h
  | cons a t ih =>
    cases w with
    | zero => simp at h; subst h; simp; omega
    | succ w => simp at h; have := ih w h; simp only [List.set_cons_succ, List.map_cons, List.sum_cons]; omega

/-- Work left on a worker. -/
def workLeft (r : Worker) : Nat := 2 * r.inbox.length + (r.running.elim 0 fun _ => 1)

def allWorkLeft (q : Queue) : Nat := (q.inner.runners.map workLeft).sum

/-- Everything known about a crash-free run. -/
structure Good (n ql : Nat) (q : Queue) (tr : List QEvent) : Prop where
  qi : QInv n ql q tr
  li : LInv q
  hi : HInv q

theorem good_step (p : Profile) {n ql : Nat} {q : Queue} {tr : List QEvent} (h : Good n ql q tr) (s : QStep) (hs : ∀ w, s ≠ .crash w) :
    Good n ql (qStep p q s).1 (tr ++ (qStep p q s).2) :=
  ⟨qinv_step p h.qi s, linv_shape q tr _ _ h.qi h.li (qinv_shape p h.qi s), hinv_step p h.qi h.li h.hi s hs⟩

theorem good_new (p : Profile) (n ql : Nat) (steps : List QStep) (hs : noCrash steps) :
    Good n ql (qRun p (Queue.new n ql) steps).1 (qRun p (Queue.new n ql) steps).2 :=
  ⟨qinv_new p n ql steps, linv_new p n ql steps, hinv_new p n ql steps hs⟩

theorem stopping_ends (p : Profile) (k : Nat) {n ql : Nat} {q : Queue} {tr : List QEvent} (h : Good n ql q tr) (hst : q.status = .stopping)
    (hk : allWorkLeft q ≤ k) : ∃ steps, (∀ s ∈ steps, internal s = true) ∧ (qRun p q steps).1.status = .stopped := by
  induction k generalizing q tr with
  | zero =>
    by_cases ha : ∃ (w : Nat) (r : Worker), q.inner.runners[w]? = some r ∧ r.status = .alive
    · obtain ⟨w, r, hr, hal⟩ := ha
      obtain ⟨js, hjs⟩ := h.li.stp hst w r hr hal
      have := sum_set workLeft q.inner.runners w r { r with inbox := [], running := none } hr
      have h2 : workLeft { r with inbox := [], running := none } = 0 := rfl
      have h3 : 2 ≤ workLeft r := by simp [workLeft, hjs]; omega
      simp only [allWorkLeft] at hk
      omega
    · refine ⟨[.joined], by simp [internal], ?_⟩
      have hall : (q.inner.runners.all fun r => r.status != .alive) = true := by
        simp only [List.all_eq_true, bne_iff_ne]
        intro r hr e
        obtain ⟨w, hw, rfl⟩ := List.getElem_of_mem hr
        exact ha ⟨w, _, List.getElem?_eq_getElem hw, e⟩
      have hnc : (q.inner.runners.any fun r => decide (r.status = .crashed)) = false := by
        simp only [List.any_eq_false, decide_eq_true_eq]
        exact h.hi.alive
      simp [qRun, qStep, hst, hall, hnc]
  | succ k ih =>
    by_cases ha : ∃ (w : Nat) (r : Worker), q.inner.runners[w]? = some r ∧ r.status = .alive
    · obtain ⟨w, r, hr, hal⟩ := ha
      have hab : ¬ q.status = .aborted := by rw [hst]; simp
      cases hrun : r.running with
      | some job =>
        have g := good_step p h (.finish w) (by simp)
        have hl : q.listening = true := by simp [Queue.listening, hst]
        have e1 : (qStep p q (.finish w)).1 =
            { q.setWorker w { r with running := none } with mailbox := q.mailbox ++ [.dispatch w] } := by
          simp [qStep, hab, Queue.finish, hr, hrun, hl]
        have hm : allWorkLeft (qStep p q (.finish w)).1 ≤ k := by
          have := sum_set workLeft q.inner.runners w r { r with running := none } hr
          have h2 : workLeft r = workLeft { r with running := none } + 1 := by simp [workLeft, hrun]
          simp only [allWorkLeft, e1, Queue.setWorker] at hk ⊢
          omega
        obtain ⟨steps, hs1, hs2⟩ := ih g (by rw [e1]; exact hst) hm
        exact ⟨.finish w :: steps, by simpa [internal] using hs1, hs2⟩
      | none =>
        obtain ⟨js, hjs⟩ := h.li.stp hst w r hr hal
        have g := good_step p h (.take w) (by simp)
        have hdec : (qStep p q (.take w)).1.status = .stopping ∧ allWorkLeft (qStep p q (.take w)).1 ≤ k := by
          cases js with
          | nil =>
            have e1 : (qStep p q (.take w)).1 = q.setWorker w { r with inbox := [], status := .exited } := by
              simp [qStep, hab, Queue.take, hr, hal, hrun, hjs]
            have := sum_set workLeft q.inner.runners w r { r with inbox := [], status := .exited } hr
            have h2 : workLeft r = 2 := by simp [workLeft, hrun, hjs]
            have h3 : workLeft { r with inbox := [], status := .exited } = 0 := by simp [workLeft, hrun]
            rw [e1]
            refine ⟨hst, ?_⟩
            simp only [allWorkLeft, Queue.setWorker] at hk ⊢
            omega
          | cons j js =>
            have e1 : (qStep p q (.take w)).1 = q.setWorker w { r with inbox := js.map .prove ++ [.stop], running := some j } := by
              simp [qStep, hab, Queue.take, hr, hal, hrun, hjs]
            have := sum_set workLeft q.inner.runners w r { r with inbox := js.map .prove ++ [.stop], running := some j } hr
            have h2 : workLeft r = workLeft { r with inbox := js.map .prove ++ [.stop], running := some j } + 1 := by
              simp [workLeft, hrun, hjs]; omega
            rw [e1]
            refine ⟨hst, ?_⟩
            simp only [allWorkLeft, Queue.setWorker] at hk ⊢
            omega
        obtain ⟨steps, hs1, hs2⟩ := ih g hdec.1 hdec.2
        exact ⟨.take w :: steps, by simpa [internal] using hs1, hs2⟩
    · refine ⟨[.joined], by simp [internal], ?_⟩
      have hall : (q.inner.runners.all fun r => r.status != .alive) = true := by
        simp only [List.all_eq_true, bne_iff_ne]
        intro r hr e
        obtain ⟨w, hw, rfl⟩ := List.getElem_of_mem hr
        exact ha ⟨w, _, List.getElem?_eq_getElem hw, e⟩
      have hnc : (q.inner.runners.any fun r => decide (r.status = .crashed)) = false := by
        simp only [List.any_eq_false, decide_eq_true_eq]
        exact h.hi.alive
      simp [qRun, qStep, hst, hall, hnc]

theorem closing_ends (p : Profile) (k : Nat) {n ql : Nat} {q : Queue} {tr : List QEvent} (h : Good n ql q tr) (hst : q.status = .running)
    (hc : q.closed = true) (hk : q.mailbox.length ≤ k) :
    ∃ steps, (∀ s ∈ steps, internal s = true) ∧ (qRun p q steps).1.status = .stopped := by
  induction k generalizing q tr with
  | zero =>
    have := h.hi.wait hc hst
    have e : q.mailbox = [] := List.eq_nil_of_length_eq_zero (by omega)
    rw [e] at this; simp at this
  | succ k ih =>
    have hw := h.hi.wait hc hst
    cases hm : q.mailbox with
    | nil => rw [hm] at hw; simp at hw
    | cons m rest =>
      have g := good_step p h .manage (by simp)
      obtain ⟨h1, h2, h3⟩ := manage_alive p h.qi (allAlive h.hi h.li hst) hst m rest hm
      have e : (qStep p q .manage).1 = (q.manage p).1 := by
        simp [qStep, hst]
      by_cases hms : m = .stop
      · rw [if_pos hms] at h3
        obtain ⟨steps, hs1, hs2⟩ := stopping_ends p _ g (by rw [e]; exact h3) (Nat.le_refl _)
        exact ⟨.manage :: steps, by simpa [internal] using hs1, hs2⟩
      · rw [if_neg hms] at h3
        obtain ⟨steps, hs1, hs2⟩ := ih g (by rw [e]; exact h3) (by rw [e, h2]; exact hc)
          (by rw [e, h1]; rw [hm] at hk; simpa using hk)
        exact ⟨.manage :: steps, by simpa [internal] using hs1, hs2⟩

/-! ### Stranded jobs -/

/-- Nothing in flight. -/
def Idle (q : Queue) : Prop :=
  q.status = .running ∧ q.mailbox = [] ∧ ∀ (w : Nat) (r : Worker), q.inner.runners[w]? = some r → r.inbox = [] ∧ r.running = none

theorem idle_step (p : Profile) {q : Queue} (h : Idle q) (s : QStep) (hs : internal s = true) : qStep p q s = (q, []) := by
  obtain ⟨h1, h2, h3⟩ := h
  have hab : ¬ q.status = .aborted := by rw [h1]; simp
  cases s with
  | submit ip job => simp [internal] at hs
  | manage => simp [qStep, Queue.manage, h2]
  | take w =>
    simp only [qStep, hab, if_false, Queue.take]
    cases hr : q.inner.runners[w]? with
    | none => rfl
    | some r => simp [(h3 w r hr).1]
  | finish w =>
    simp only [qStep, hab, if_false, Queue.finish]
    cases hr : q.inner.runners[w]? with
    | none => rfl
    | some r => simp [(h3 w r hr).2]
  | crash w => simp [internal] at hs
  | close => simp [internal] at hs
  | joined => simp [qStep, h1]

theorem idle_run (p : Profile) {q : Queue} (h : Idle q) (steps : List QStep) (hs : ∀ s ∈ steps, internal s = true) : qRun p q steps = (q, []) := by
  induction steps with
  | nil => rfl
  | cons s r ih =>
    simp [qRun, idle_step p h s (hs s (by simp)), ih (fun s hm => hs s (List.mem_cons_of_mem _ hm))]

/-! ### Few clients -/

/-- As many workers as clients: nothing waits. -/
def FewInv (n : Nat) (q : Queue) : Prop := q.inner.ips.length ≤ n → ∀ ip, waitingOf q ip = []

theorem disp_count {im im' : Inner} {ev : List QEvent} {k : Nat} (d : Disp im im' ev k) (hi : IInv im) (ip : String) (hip : ip ∈ im.ips) (m : Nat)
    (hm : im.ips.length * m ≤ k) : m ≤ (turns ev).count ip := by
  have hn : im.ips ≠ [] := by intro e; rw [e] at hip; simp at hip
  have h1 : (turns ev).map some = around im.ips (im.cur + 1) k := (d.rot hi hn).2
  rw [← count_map_some, h1]
  exact around_ge im.ips hi.nd _ _ _ ip hip hm

theorem few_shape {n ql : Nat} (q : Queue) (tr : List QEvent) (q' : Queue) (ev : List QEvent) (hi : QInv n ql q tr) (h : FewInv n q)
    (s : Shape q q' ev) : FewInv n q' := by
  have hsame : q'.inner.ips = q.inner.ips → q'.inner.queues = q.inner.queues → FewInv n q' := by
    intro e1 e2
    unfold FewInv
    rw [e1]; intro hl ip
    simpa [waitingOf, e2] using h hl ip
  cases s with
  | quiet h1 => exact hsame (by rw [h1]) (by rw [h1])
  | stop h1 h2 h3 h4 => exact hsame (by rw [h4]) (by rw [h4])
  | disp ev k h1 h2 h3 d =>
    intro hl ip
    rw [d.ips] at hl
    have := d.wait ip
    have h0 : (q.inner.queues.get ip).getD [] = [] := h hl ip
    rw [h0] at this
    have := (List.append_eq_nil_iff.1 this.symm).2
    exact this
  | refused ip job h1 h2 h3 h4 => exact hsame (by rw [h4]) (by rw [h4])
  | sched ip job ev h1 h2 h3 d =>
    obtain ⟨a1, a2, a3, a4, a5, a6, a7⟩ := enqueued_spec q.inner hi.inv ip job
    intro hl ip'
    rw [d.ips] at hl
    have hl0 : q.inner.ips.length ≤ n := by
      refine Nat.le_trans ?_ hl
      rw [a2]; split <;> simp
    have h0 : (q.inner.queues.get ip').getD [] = [] := h hl0 ip'
    have hw := a6 ip'
    rw [h0, List.nil_append] at hw
    have hs := d.srv ip'
    rw [hw] at hs
    have hz : ((q'.inner.queues.get ip').getD []).length = 0 := by
      by_cases e : ip = ip'
      · subst e
        rw [if_pos rfl] at hs
        have hmem : ip ∈ (enqueued q.inner ip job).ips := by rw [a2]; split <;> simp_all
        have := disp_count d a1 ip hmem 1 (by rw [hi.nrun]; omega)
        simp at hs; omega
      · rw [if_neg e] at hs; simpa using hs
    exact List.eq_nil_of_length_eq_zero hz
  | worker w r r' ev h1 h2 h3 m h5 => exact hsame (by rw [h2]) (by rw [h2])

theorem few_new (p : Profile) (n ql : Nat) (steps : List QStep) : FewInv n (qRun p (Queue.new n ql) steps).1 :=
  qrun_induct p (fun q _ => FewInv n q) few_shape (Queue.new n ql) [] (qinv_init n ql) (fun _ _ => rfl) steps

end MCap

namespace MCap
open Spec

/-! ### Order on a worker, crashed or not -/

def OrderInv (q : Queue) (tr : List QEvent) : Prop :=
  StartInv q tr ∧ ∀ w, ranBy w tr <+: startedBy w tr ∧ startedBy w tr <+: handedTo w tr

theorem order_shape {n ql : Nat} (q : Queue) (tr : List QEvent) (q' : Queue) (ev : List QEvent) (hi : QInv n ql q tr) (h : OrderInv q tr)
    (s : Shape q q' ev) : OrderInv q' (tr ++ ev) := by
  refine ⟨start_shape q tr q' ev hi h.1 s, ?_⟩
  intro w
  obtain ⟨h1, h2⟩ := h.2 w
  rw [ranBy_append, startedBy_append, handedTo_append]
  have keep : ∀ ev : List QEvent, ranBy w ev = [] → startedBy w ev = [] →
      ranBy w tr ++ ranBy w ev <+: startedBy w tr ++ startedBy w ev ∧ startedBy w tr ++ startedBy w ev <+: handedTo w tr ++ handedTo w ev := by
    intro ev e1 e2
    rw [e1, e2, List.append_nil, List.append_nil]
    exact ⟨h1, h2.trans (List.prefix_append _ _)⟩
  cases s with
  | quiet a1 => exact keep [] rfl rfl
  | stop a1 a2 a3 a4 => exact keep [] rfl rfl
  | disp ev k a1 a2 a3 d => exact keep ev ((disp_events d).2.2.2 w) (disp_started d w)
  | refused ip job a1 a2 a3 a4 => exact keep _ rfl rfl
  | sched ip job ev a1 a2 a3 d => exact keep _ ((disp_events d).2.2.2 w) (disp_started d w)
  | worker w' r r' ev a1 a2 a3 m a5 =>
    by_cases e : w' = w
    · subst e
      cases m with
      | stop rest b1 b2 b3 => exact keep [] rfl rfl
      | start job rest b1 b2 b3 =>
        have hs := h.1 w' r a1 (by simp [b1])
        have hw := hi.wrk w' r a1 (by simp [b1])
        rw [b2] at hs hw
        rw [b3] at hw
        have e1 : ranBy w' [.started w' job] = [] := rfl
        have e2 : startedBy w' [.started w' job] = [job] := by simp [startedBy]
        have e3 : handedTo w' [.started w' job] = [] := rfl
        have e4 : jobsIn (.prove job :: rest) = job :: jobsIn rest := rfl
        rw [e1, e2, e3, hs, hw, e4]
        simp
      | finish job b1 =>
        have hs := h.1 w' r a1 (by rw [hi.act w' r a1 (by simp [b1])]; simp)
        rw [b1] at hs
        have e1 : ranBy w' [.ran w' job] = [job] := by simp [ranBy]
        have e2 : startedBy w' [.ran w' job] = [] := rfl
        have e3 : handedTo w' [.ran w' job] = [] := rfl
        rw [e1, e2, e3, List.append_nil, List.append_nil]
        exact ⟨by rw [hs]; simp, h2⟩
      | finishExit job b1 =>
        have hs := h.1 w' r a1 (by rw [hi.act w' r a1 (by simp [b1])]; simp)
        rw [b1] at hs
        have e1 : ranBy w' [.ran w' job] = [job] := by simp [ranBy]
        have e2 : startedBy w' [.ran w' job] = [] := rfl
        have e3 : handedTo w' [.ran w' job] = [] := rfl
        rw [e1, e2, e3, List.append_nil, List.append_nil]
        exact ⟨by rw [hs]; simp, h2⟩
      | crash job b1 => exact keep _ rfl rfl
    · cases m <;> exact keep _ (by simp [ranBy, e]) (by simp [startedBy, e])

theorem order_new (p : Profile) (n ql : Nat) (steps : List QStep) (w : Nat) :
    ranBy w (qRun p (Queue.new n ql) steps).2 <+: startedBy w (qRun p (Queue.new n ql) steps).2 ∧
    startedBy w (qRun p (Queue.new n ql) steps).2 <+: handedTo w (qRun p (Queue.new n ql) steps).2 := by
  have h0 : OrderInv (Queue.new n ql) [] := by
    refine ⟨?_, fun w => ⟨List.prefix_refl _, List.prefix_refl _⟩⟩
    intro w r h _
    simp only [Queue.new, Inner.new, List.getElem?_replicate] at h
    split at h <;> cases h
    rfl
  have := (qrun_induct p OrderInv order_shape (Queue.new n ql) [] (qinv_init n ql) h0 steps).2 w
  simpa using this

/-! ### One client only -/

theorem single_dispatch (p : Profile) (ip : String) (names : List Nat) (im : Inner) (h1 : im.ips = [ip]) (h2 : im.queues = [(ip, [])])
    (h3 : im.cur = 0) (hn : ∀ n ∈ names, n < im.runners.length) : im.dispatchAll p names = .ret (im, names.map fun _ => .served ip) := by
  induction names with
  | nil => rfl
  | cons name rest ih =>
    have hlt := hn name (by simp)
    have e1 : im.dispatchTo p name = .ret (im, [.served ip]) := by
      have : ({ im with cur := 0 } : Inner) = im := by rw [← h3]
      simp [Inner.dispatchTo, List.getElem?_eq_getElem hlt, Inner.advance, usizeSub, h1, Inner.serve, h2, AMap.get]
      rwa [h1, h2] at this
    unfold Inner.dispatchAll
    rw [List.getElem?_eq_getElem hlt]
    simp [e1, ih (fun n hm => hn n (List.mem_cons_of_mem _ hm))]

end MCap

namespace MCap
open Spec

theorem waits_bounded (p : Profile) {n ql : Nat} {q : Queue} {tr : List QEvent} (h : QInv n ql q tr) (more : List QStep) (ip : String) (k : Nat)
    (hs : ∀ ip ∈ acceptedIps (qRun p q more).2, ip ∈ acceptedIps tr) (hk : k ≤ (waitingOf q ip).length)
    (ht : distinctClients tr * k ≤ (turns (qRun p q more).2).length) : (waitingOf q ip).take k <+: handedOf ip (qRun p q more).2 := by
  have h' := qinv_run p h more
  have hrot := rot_run p h more
  have hlen : k ≤ (handedOf ip (qRun p q more).2).length := by
    cases k with
    | zero => omega
    | succ k =>
      have hsame := ips_same h h' hs
      have hmem : ip ∈ q.inner.ips := by
        rw [← h.inv.keys]
        cases hg : q.inner.queues.get ip with
        | some l => exact List.mem_map.2 ⟨_, AMap.mem_of_get hg, rfl⟩
        | none => simp [waitingOf, hg] at hk
      have hne : q.inner.ips ≠ [] := by intro e; rw [e] at hmem; simp at hmem
      have hta := turns_around p h more hsame hne
      have hc : k + 1 ≤ (turns (qRun p q more).2).count ip := by
        rw [← count_map_some, hta]
        exact around_ge _ h.inv.nd _ _ _ ip hmem (by rw [← distinct_eq h]; exact ht)
      have := hrot.got ip
      omega
  have hf := h'.fifo ip
  rw [acceptedOf_append, handedOf_append, h.fifo ip, List.append_assoc, List.append_assoc] at hf
  have hf := List.append_cancel_left hf
  have hp : (waitingOf q ip).take k <+: waitingOf q ip ++ acceptedOf ip (qRun p q more).2 :=
    (List.take_prefix _ _).trans (List.prefix_append _ _)
  rw [hf] at hp
  exact List.prefix_of_prefix_length_le hp (List.prefix_append _ _) (by simp; omega)

end MCap
