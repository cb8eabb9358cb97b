import Verif.Props.QueueLive
import Verif.Spec.QueueDrop

/-!
# C127 Dropping the queue, whatever the order of the workers
-/

namespace MCap
open Spec

theorem sendStops_length (order : List Nat) (rs : List Worker) : (sendStops order rs).1.length = rs.length := by
  induction order generalizing rs with
  | nil => rfl
  | cons w ws ih =>
    unfold sendStops
    split
    · exact ih rs
    · split
      · rw [ih, List.length_set]
      · rfl

/-- Workers that are not in the order are left alone. -/
theorem sendStops_out (order : List Nat) (rs : List Worker) (w : Nat) (h : w ∉ order) : (sendStops order rs).1[w]? = rs[w]? := by
  induction order generalizing rs with
  | nil => rfl
  | cons v ws ih =>
    rw [List.mem_cons, not_or] at h
    unfold sendStops
    split
    · exact ih rs h.2
    · split
      · rw [ih _ h.2, List.getElem?_set_ne (fun e => h.1 e.symm)]
      · rfl

/-- All sends succeed if and only if none of the workers is gone. -/
theorem sendStops_ok (order : List Nat) (rs : List Worker) (hd : order.Nodup) :
    (sendStops order rs).2 = true ↔ ∀ w ∈ order, ∀ r, rs[w]? = some r → r.status = .alive := by
  induction order generalizing rs with
  | nil => simp [sendStops]
  | cons v ws ih =>
    rw [List.nodup_cons] at hd
    unfold sendStops
    split
    · rename_i hv
      rw [ih rs hd.2]
      simp [hv]
    · rename_i r hv
      split
      · rename_i hal
        rw [ih _ hd.2]
        constructor
        · intro h w hw x hx
          rcases List.mem_cons.1 hw with rfl | hw
          · rw [hv] at hx; cases hx; exact hal
          · exact h w hw x (by rw [List.getElem?_set_ne (fun e : v = w => hd.1 (by rw [e]; exact hw))]; exact hx)
        · intro h w hw x hx
          rw [List.getElem?_set_ne (fun e : v = w => hd.1 (by rw [e]; exact hw))] at hx
          exact h w (List.mem_cons_of_mem _ hw) x hx
      · rename_i hal
        simp only [Bool.false_eq_true, false_iff]
        intro h
        exact hal (h v (List.mem_cons_self ..) r hv)

/-- What a worker in the order gets. -/
theorem sendStops_at (a b : List Nat) (w : Nat) (rs : List Worker) (r : Worker) (hd : (a ++ w :: b).Nodup) (hr : rs[w]? = some r) :
    ((∀ v ∈ a ++ [w], ∀ x, rs[v]? = some x → x.status = .alive) → (sendStops (a ++ w :: b) rs).1[w]? = some { r with inbox := r.inbox ++ [.stop] }) ∧
    (∀ v ∈ a ++ [w], ∀ x, rs[v]? = some x → x.status ≠ .alive → (sendStops (a ++ w :: b) rs).1[w]? = some r) := by
  induction a generalizing rs with
  | nil =>
    have hlt := (List.getElem?_eq_some_iff.1 hr).1
    simp only [List.nil_append, List.nodup_cons] at hd
    simp only [List.nil_append, List.mem_singleton, forall_eq, sendStops, hr, Option.some.injEq, forall_eq']
    constructor
    · intro hal
      rw [if_pos hal, sendStops_out _ _ _ hd.1, List.getElem?_set_self hlt]
    · intro hal
      rw [if_neg hal]; exact hr
  | cons v a ih =>
    simp only [List.cons_append, List.nodup_cons] at hd
    have hvw : v ≠ w := fun e => hd.1 (by simp [e])
    simp only [List.cons_append, sendStops]
    cases hv : rs[v]? with
    | none =>
      simp only
      obtain ⟨i1, i2⟩ := ih rs hd.2 hr
      refine ⟨fun h => i1 fun u hu => h u (List.mem_cons_of_mem _ hu), fun u hu x hx => ?_⟩
      rcases List.mem_cons.1 hu with rfl | hu
      · rw [hv] at hx; cases hx
      · exact i2 u hu x hx
    | some y =>
      simp only
      by_cases hal : y.status = .alive
      · rw [if_pos hal]
        obtain ⟨i1, i2⟩ := ih (rs.set v { y with inbox := y.inbox ++ [.stop] }) hd.2 (by rw [List.getElem?_set_ne hvw]; exact hr)
        have hne : ∀ u ∈ a ++ [w], v ≠ u := by
          intro u hu e
          subst e
          rcases List.mem_append.1 hu with hu | hu
          · exact hd.1 (List.mem_append_left _ hu)
          · exact hvw (List.mem_singleton.1 hu)
        refine ⟨fun h => i1 fun u hu x hx => ?_, fun u hu x hx => ?_⟩
        · rw [List.getElem?_set_ne (hne u hu)] at hx
          exact h u (List.mem_cons_of_mem _ hu) x hx
        · rcases List.mem_cons.1 hu with rfl | hu
          · rw [hv] at hx; cases hx; exact fun h => absurd hal h
          · exact i2 u hu x (by rw [List.getElem?_set_ne (hne u hu)]; exact hx)
      · rw [if_neg hal]
        refine ⟨fun h => absurd (h v (List.mem_cons_self ..) y hv) hal, fun u _ x _ _ => hr⟩

/-- C127. The drop panics if and only if a worker is gone, in whatever order they come. -/
theorem C127_panics_iff (order : List Nat) (q : Queue) (ho : IsOrder order q) :
    ((q.stopIn order).status = .panicked ↔ ∃ w r, q.inner.runners[w]? = some r ∧ ¬ ThreadLives q w) ∧
    ((q.stopIn order).status = .panicked ∨ (q.stopIn order).status = .stopping) := by
  have hok := sendStops_ok order q.inner.runners (ho.nodup_iff.2 List.nodup_range)
  have hall : (∀ w ∈ order, ∀ r, q.inner.runners[w]? = some r → r.status = .alive) ↔ ¬ ∃ w r, q.inner.runners[w]? = some r ∧ ¬ ThreadLives q w := by
    constructor
    · rintro h ⟨w, r, hr, hn⟩
      exact hn ⟨r, hr, h w (ho.mem_iff.2 (List.mem_range.2 (List.getElem?_eq_some_iff.1 hr).1)) r hr⟩
    · intro h w _ r hr
      cases hs : r.status with
      | alive => rfl
      | _ => exact absurd ⟨w, r, hr, by rintro ⟨x, hx, ha⟩; rw [hr] at hx; cases hx; rw [hs] at ha; cases ha⟩ h
  rw [hall] at hok
  simp only [Queue.stopIn]
  by_cases h : (sendStops order q.inner.runners).2 = true
  · rw [if_pos h]
    exact ⟨⟨(by intro h; cases h), fun hg => absurd hg (hok.1 h)⟩, .inr rfl⟩
  · rw [if_neg h]
    exact ⟨⟨fun _ => Classical.not_not.1 (fun hg => h (hok.2 hg)), fun _ => rfl⟩, .inl rfl⟩

/-- C127. A worker is told to stop, after the jobs it was given, if and only if it and all that come before it are still there; nothing else
about it changes. -/
theorem C127_told_iff (order : List Nat) (q : Queue) (ho : IsOrder order q) (a b : List Nat) (w : Nat) (r : Worker) (he : order = a ++ w :: b)
    (hr : q.inner.runners[w]? = some r) :
    ((∀ v ∈ a ++ [w], ThreadLives q v) → (q.stopIn order).inner.runners[w]? = some { r with inbox := r.inbox ++ [.stop] }) ∧
    ((∃ v ∈ a ++ [w], ¬ ThreadLives q v) → (q.stopIn order).inner.runners[w]? = some r) := by
  have hd : (a ++ w :: b).Nodup := he ▸ ho.nodup_iff.2 List.nodup_range
  obtain ⟨h1, h2⟩ := sendStops_at a b w q.inner.runners r hd hr
  subst he
  refine ⟨fun h => h1 fun v hv x hx => ?_, ?_⟩
  · obtain ⟨y, hy, hal⟩ := h v hv
    rw [hx] at hy; cases hy; exact hal
  · rintro ⟨v, hv, hn⟩
    have hlt : v < q.inner.runners.length := by
      refine List.mem_range.1 (ho.mem_iff.1 ?_)
      rcases List.mem_append.1 hv with hv | hv
      · exact List.mem_append_left _ hv
      · rw [List.mem_singleton.1 hv]; simp
    exact h2 v hv _ (List.getElem?_eq_getElem hlt) fun hal => hn ⟨_, List.getElem?_eq_getElem hlt, hal⟩

theorem sendStops_alive (order : List Nat) (q : Queue) (ho : IsOrder order q)
    (hal : ∀ (w : Nat) (r : Worker), q.inner.runners[w]? = some r → r.status = .alive) :
    (sendStops order q.inner.runners).2 = true ∧
    (sendStops order q.inner.runners).1 = q.inner.runners.map fun r => { r with inbox := r.inbox ++ [.stop] } := by
  refine ⟨(sendStops_ok order _ (ho.nodup_iff.2 List.nodup_range)).2 fun w _ => hal w, ?_⟩
  apply List.ext_getElem?
  intro w
  cases hr : q.inner.runners[w]? with
  | none =>
    rw [List.getElem?_map, hr, List.getElem?_eq_none]
    · rfl
    · rw [sendStops_length]; exact List.getElem?_eq_none_iff.1 hr
  | some r =>
    obtain ⟨a, b, rfl⟩ := List.append_of_mem (ho.mem_iff.2 (List.mem_range.2 (List.getElem?_eq_some_iff.1 hr).1))
    rw [(sendStops_at a b w _ r (ho.nodup_iff.2 List.nodup_range) hr).1 (fun v _ x hx => hal v x hx), List.getElem?_map, hr]
    rfl

/-- C127. If every worker is still there, all are told `Stop`, in whatever order: the queue is the same afterwards. -/
theorem C127_all_told (order order' : List Nat) (q : Queue) (ho : IsOrder order q) (ho' : IsOrder order' q)
    (hal : ∀ w, w < q.inner.runners.length → ThreadLives q w) :
    q.stopIn order = q.stopIn order' ∧ (q.stopIn order).status = .stopping ∧
    (q.stopIn order).inner.runners = q.inner.runners.map fun r => { r with inbox := r.inbox ++ [.stop] } := by
  have h : ∀ (w : Nat) (r : Worker), q.inner.runners[w]? = some r → r.status = .alive := by
    intro w r hr
    obtain ⟨x, hx, ha⟩ := hal w (List.getElem?_eq_some_iff.1 hr).1
    rw [hr] at hx
    cases hx
    exact ha
  obtain ⟨h1, h2⟩ := sendStops_alive order q ho h
  obtain ⟨h3, h4⟩ := sendStops_alive order' q ho' h
  refine ⟨?_, ?_, ?_⟩ <;> simp [Queue.stopIn, h1, h2, h3, h4]

/-- Three workers, two orders. -/
example : IsOrder [2, 0, 1] (Queue.new 3 5) ∧ IsOrder [0, 1, 2] (Queue.new 3 5) ∧
    ∀ w, w < (Queue.new 3 5).inner.runners.length → ThreadLives (Queue.new 3 5) w := by
  refine ⟨?_, List.Perm.refl _, ?_⟩
  · unfold IsOrder
    decide
  · intro w hw
    have : w < 3 := hw
    match w, this with
    | 0, _ => exact ⟨_, rfl, rfl⟩
    | 1, _ => exact ⟨_, rfl, rfl⟩
    | 2, _ => exact ⟨_, rfl, rfl⟩

/-- C127. As long as no job panics, the order makes no difference: all workers are told. -/
theorem C127_order_irrelevant (p : Profile) (n ql : Nat) (steps : List QStep) (hc : noCrash steps) (order : List Nat)
    (hs : AboutToStop (qFrom p n ql steps).1) (ho : IsOrder order (qFrom p n ql steps).1) :
    (qFrom p n ql (steps ++ [.manage])).1 = (qFrom p n ql steps).1.stopIn order ∧ (qFrom p n ql (steps ++ [.manage])).1.status = .stopping := by
  have hlive : (qFrom p n ql (steps ++ [.manage])).1.status ≠ .panicked :=
    (C53_manager_never_panics p n ql (steps ++ [.manage]) (by intro w hw; rcases List.mem_append.1 hw with h | h; exact hc w h; simp at h)).1
  have happ : (qFrom p n ql (steps ++ [.manage])).1 = ((qFrom p n ql steps).1.manage p).1 := by
    unfold qFrom
    rw [qRun_append]
    have hne : (qRun p (Queue.new n ql) steps).1.status ≠ .aborted := by
      have := hs.1
      unfold qFrom at this
      rw [this]; decide
    simp only [qRun, qStep, hne, if_false]
  rw [happ] at hlive ⊢
  generalize (qFrom p n ql steps).1 = q at *
  obtain ⟨hrun, rest, hmb⟩ := hs
  have hm : (q.manage p).1 = if q.someGone then { q with mailbox := rest, status := .panicked } else
      { q with mailbox := rest, status := .stopping, inner := { q.inner with runners := q.inner.runners.map fun r => { r with inbox := r.inbox ++ [.stop] } } } := by
    simp only [Queue.manage, hrun, hmb, if_true]
    split <;> rfl
  rw [hm] at hlive ⊢
  by_cases hg : q.someGone = true
  · rw [if_pos hg] at hlive
    exact absurd rfl hlive
  rw [if_neg hg]
  have hal : ∀ (w : Nat) (r : Worker), q.inner.runners[w]? = some r → r.status = .alive := by
    intro w r hr
    by_cases h : r.status = .alive
    · exact h
    · exact absurd (List.any_eq_true.2 ⟨r, List.mem_of_getElem? hr, by simpa using h⟩) hg
  obtain ⟨hok, hrs⟩ := sendStops_alive order q ho hal
  refine ⟨?_, rfl⟩
  simp only [Queue.stopIn, hok, if_true, hrs, hmb, List.tail_cons]

/-- What a step does to worker `w` when the manager thread handles no more messages. -/
theorem told_step (p : Profile) (q : Queue) (s : QStep) (w : Nat) (r : Worker) (hs : q.status ≠ .running ∧ q.status ≠ .aborted)
    (hr : q.inner.runners[w]? = some r) (h : r.status = .alive → .stop ∈ r.inbox) :
    ((qStep p q s).1.status ≠ .running ∧ (qStep p q s).1.status ≠ .aborted) ∧
    ∃ r', (qStep p q s).1.inner.runners[w]? = some r' ∧ (r'.status = .alive → .stop ∈ r'.inbox) := by
  have same : (q.status ≠ .running ∧ q.status ≠ .aborted) ∧ ∃ r', q.inner.runners[w]? = some r' ∧ (r'.status = .alive → .stop ∈ r'.inbox) := ⟨hs, r, hr, h⟩
  have hlt := (List.getElem?_eq_some_iff.1 hr).1
  have set : ∀ (q' : Queue) (v : Nat) (y : Worker), q'.status = q.status → q'.inner.runners = q.inner.runners.set v y →
      (v = w → y.status = .alive → .stop ∈ y.inbox) →
      (q'.status ≠ .running ∧ q'.status ≠ .aborted) ∧ ∃ r', q'.inner.runners[w]? = some r' ∧ (r'.status = .alive → .stop ∈ r'.inbox) := by
    intro q' v y h1 h2 h3
    rw [h1, h2]
    refine ⟨hs, ?_⟩
    by_cases e : v = w
    · subst e
      exact ⟨y, List.getElem?_set_self hlt, h3 rfl⟩
    · exact ⟨r, by rw [List.getElem?_set_ne e]; exact hr, h⟩
  unfold qStep
  split
  · exact same
  cases s with
  | submit ip j => simp only; split <;> exact same
  | manage => simp only [Queue.manage, if_neg hs.1]; exact same
  | take v =>
    simp only [Queue.take]
    split
    · exact same
    rename_i x hx
    split
    · split
      · exact same
      · exact set _ v _ rfl rfl (fun _ h => by cases h)
      · rename_i job rest hi
        refine set _ v _ rfl rfl ?_
        rintro rfl ha
        rw [hr] at hx; cases hx
        have := h ha
        rw [hi] at this
        simpa using this
    · exact same
  | finish v =>
    simp only [Queue.finish]
    split
    · exact same
    rename_i x hx
    split
    · exact same
    split
    · refine set _ v _ rfl rfl ?_
      rintro rfl ha
      rw [hr] at hx; cases hx
      exact h ha
    · exact set _ v _ rfl rfl (fun _ h => by cases h)
  | crash v =>
    simp only [Queue.crash]
    split
    · exact same
    split
    · exact same
    · exact set _ v _ rfl rfl (fun _ h => by cases h)
  | close => simp only; split <;> exact same
  | joined =>
    simp only
    repeat' split
    all_goals first | exact same | exact ⟨(by simp), r, hr, h⟩

/-- C127. A worker that is told ends: it has, when nothing is left to be done. -/
theorem C127_told_ends (p : Profile) (order : List Nat) (q : Queue) (ho : IsOrder order q) (a b : List Nat) (w : Nat) (he : order = a ++ w :: b)
    (hl : ∀ v ∈ a ++ [w], ThreadLives q v) (later : List QStep) (hrest : QueueAtRest p (qRun p (q.stopIn order) later).1) :
    ¬ ThreadLives (qRun p (q.stopIn order) later).1 w := by
  obtain ⟨r, hr, -⟩ := hl w (by simp)
  have h0 := (C127_told_iff order q ho a b w r he hr).1 hl
  have hrun : ∀ (later : List QStep) (q : Queue) (r : Worker), q.status ≠ .running ∧ q.status ≠ .aborted → q.inner.runners[w]? = some r →
      (r.status = .alive → .stop ∈ r.inbox) → (qRun p q later).1.status ≠ .aborted ∧
      ∃ r', (qRun p q later).1.inner.runners[w]? = some r' ∧ (r'.status = .alive → .stop ∈ r'.inbox) := by
    intro later
    induction later with
    | nil => exact fun q r hs hr h => ⟨hs.2, r, hr, h⟩
    | cons s l ih =>
      intro q r hs hr h
      obtain ⟨h1, r', h2, h3⟩ := told_step p q s w r hs hr h
      exact ih _ r' h1 h2 h3
  obtain ⟨hna, r', h1, h2⟩ := hrun later (q.stopIn order) _
    (by rcases (C127_panics_iff order q ho).2 with h | h <;> rw [h] <;> decide) h0 (fun _ => by simp)
  rintro ⟨x, hx, hal⟩
  rw [h1] at hx; cases hx
  have hst := h2 hal
  generalize (qRun p (q.stopIn order) later).1 = z at *
  have hlt := (List.getElem?_eq_some_iff.1 h1).1
  have setne : ∀ (q' : Queue) (y : Worker), q'.inner.runners = z.inner.runners.set w y → y ≠ r' → q' ≠ z := by
    rintro q' y e hy rfl
    have : q'.inner.runners[w]? = some y := by rw [e]; exact List.getElem?_set_self hlt
    rw [h1] at this
    exact hy (Option.some.inj this).symm
  cases hrun : r'.running with
  | some j =>
    have hf := hrest (.finish w) rfl
    simp only [qStep, hna, if_false, Queue.finish, h1, hrun] at hf
    split at hf
    · exact setne _ _ rfl (fun e => by have := congrArg Worker.running e; rw [hrun] at this; cases this) hf
    · exact setne _ _ rfl (fun e => by have := congrArg Worker.running e; rw [hrun] at this; cases this) hf
  | none =>
    have ht := hrest (.take w) rfl
    simp only [qStep, hna, if_false, Queue.take, h1, hrun, hal, and_self, if_true] at ht
    cases hi : r'.inbox with
    | nil => rw [hi] at hst; cases hst
    | cons m rest =>
      rw [hi] at ht
      cases m with
      | stop => exact setne _ _ rfl (fun e => by have := congrArg Worker.status e; rw [hal] at this; cases this) ht
      | prove j => exact setne _ _ rfl (fun e => by have := congrArg Worker.running e; rw [hrun] at this; cases this) ht

/-- C127. An idle worker that comes after one that is gone is never told, and its thread never ends. -/
theorem C127_untold_spins (p : Profile) (order : List Nat) (q : Queue) (ho : IsOrder order q) (a b : List Nat) (w v : Nat)
    (he : order = a ++ w :: b) (hv : v ∈ a) (hg : ¬ ThreadLives q v) (hi : IdleWorker q w) (later : List QStep) :
    (q.stopIn order).status = .panicked ∧ ThreadLives (qRun p (q.stopIn order) later).1 w := by
  obtain ⟨r, hr, h1, h2, h3⟩ := hi
  have hlt : v < q.inner.runners.length := List.mem_range.1 (ho.mem_iff.1 (by rw [he]; exact List.mem_append_left _ hv))
  have hp : (q.stopIn order).status = .panicked :=
    (C127_panics_iff order q ho).1.2 ⟨v, _, List.getElem?_eq_getElem hlt, hg⟩
  have hw := (C127_told_iff order q ho a b w r he hr).2 ⟨v, List.mem_append_left _ hv, hg⟩
  have hsp : r = Worker.spawn := by cases r; simp only at h1 h2 h3; subst h1 h2 h3; rfl
  rw [hsp] at hw
  exact ⟨hp, Worker.spawn, orphan_spins p w later _ hp hw, rfl⟩

/-- Three workers of which the first is gone, told in the order 2, 0, 1: the third ends, the second spins. -/
def exDropQueue : Queue := (qFrom ⟨true⟩ 3 9 [.submit "a" 1, .manage, .take 0, .crash 0, .close]).1

theorem exDropQueue_gone : ¬ ThreadLives exDropQueue 0 := by
  rintro ⟨r, hr, hal⟩
  have : exDropQueue.inner.runners[0]? = some ⟨[], none, .crashed⟩ := by decide
  rw [this] at hr; cases hr; cases hal

example : AboutToStop exDropQueue ∧ IsOrder [2, 0, 1] exDropQueue ∧ (exDropQueue.stopIn [2, 0, 1]).status = .panicked ∧
    ¬ ThreadLives exDropQueue 0 ∧ IdleWorker exDropQueue 1 ∧ ThreadLives exDropQueue 2 :=
  ⟨⟨by decide, [], by decide⟩, by unfold IsOrder; decide, by decide, exDropQueue_gone,
    ⟨Worker.spawn, by decide, rfl, rfl, rfl⟩, ⟨Worker.spawn, by decide, rfl⟩⟩

example : ((qRun ⟨true⟩ (exDropQueue.stopIn [2, 0, 1]) [.take 2, .take 1]).1.inner.runners.map (·.status)) = [.crashed, .alive, .exited] := by decide

/-- With no job that panics. -/
example : noCrash [.submit "a" 1, .manage, .close] ∧ AboutToStop (qFrom ⟨true⟩ 2 9 [.submit "a" 1, .manage, .close]).1 ∧
    IsOrder [1, 0] (qFrom ⟨true⟩ 2 9 [.submit "a" 1, .manage, .close]).1 :=
  ⟨by simp [noCrash], ⟨by decide, [], by decide⟩, by unfold IsOrder; decide⟩

end MCap
