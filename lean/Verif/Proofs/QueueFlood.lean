import Verif.Proofs.QueueStop

/-! ### One client submitting many jobs -/

namespace MCap
open Spec

/-- One client, nothing waiting, worker 0 in state `r`, the others fresh. -/
def floodInner (n ql : Nat) (ip : String) (r : Worker) : Inner :=
  { queues := [(ip, [])], runners := r :: List.replicate n Worker.spawn, ips := [ip], cur := 0, queueLength := ql }

/-- Worker with one more job. -/
def withJob (r : Worker) (j : Nat) : Worker := { r with inbox := r.inbox ++ [.prove j] }

/-- Events of accepting and dispatching one job of the only client. -/
def floodEvents (n : Nat) (ip : String) (j : Nat) : List QEvent :=
  .accepted ip j :: ([.served ip, .handed 0 ip j] ++ ((List.range n).map Nat.succ).map fun _ => .served ip)

theorem flood_dispatch (p : Profile) (n ql : Nat) (ip : String) (r : Worker) (hr : r.status = .alive) (j : Nat) :
    ({ floodInner n ql ip r with queues := [(ip, [j])] } : Inner).dispatch p =
      .ret (floodInner n ql ip (withJob r j), [.served ip, .handed 0 ip j] ++ ((List.range n).map Nat.succ).map fun _ => .served ip) := by
  have hrange : List.range (n + 1) = 0 :: (List.range n).map Nat.succ := List.range_succ_eq_map
  have hd := single_dispatch p ip ((List.range n).map Nat.succ) (floodInner n ql ip (withJob r j)) rfl rfl rfl (by
    intro x hx
    simp only [List.mem_map, List.mem_range] at hx
    obtain ⟨a, ha, rfl⟩ := hx
    simp [floodInner]; omega)
  have ht : ({ floodInner n ql ip r with queues := [(ip, [j])] } : Inner).dispatchTo p 0 =
      .ret (floodInner n ql ip (withJob r j), [.served ip, .handed 0 ip j]) := by
    simp [floodInner, withJob, Inner.dispatchTo, Inner.advance, usizeSub, Inner.serve, AMap.get, AMap.insert, hr]
  have hlen : ({ floodInner n ql ip r with queues := [(ip, [j])] } : Inner).runners.length = n + 1 := by simp [floodInner]
  have h0 : ({ floodInner n ql ip r with queues := [(ip, [j])] } : Inner).runners[0]? = some r := rfl
  unfold Inner.dispatch
  rw [hlen, hrange]
  unfold Inner.dispatchAll
  rw [h0, ht]
  simp only [Exec.bind]
  rw [hd]

theorem flood_first (p : Profile) (n ql : Nat) (hq : 1 ≤ ql) (ip : String) (j : Nat) :
    (Inner.new (n + 1) ql).schedule p ip j = .ret (floodInner n ql ip (withJob Worker.spawn j), floodEvents n ip j) := by
  have hl : ¬ (0 = ql) := by omega
  have : (Inner.new (n + 1) ql).schedule p ip j =
      (({ floodInner n ql ip Worker.spawn with queues := [(ip, [j])] } : Inner).dispatch p).bind fun (im', ev) =>
        .ret (im', .accepted ip j :: ev) := by
    simp [Inner.schedule, Inner.new, hl, AMap.get, AMap.insert, floodInner, List.replicate_succ]
  rw [this, flood_dispatch p n ql ip _ rfl]
  rfl

theorem flood_next (p : Profile) (n ql : Nat) (hq : 2 ≤ ql) (ip : String) (r : Worker) (hr : r.status = .alive) (j : Nat) :
    (floodInner n ql ip r).schedule p ip j = .ret (floodInner n ql ip (withJob r j), floodEvents n ip j) := by
  have hl : ¬ (1 = ql) := by omega
  have : (floodInner n ql ip r).schedule p ip j =
      (({ floodInner n ql ip r with queues := [(ip, [j])] } : Inner).dispatch p).bind fun (im', ev) =>
        .ret (im', .accepted ip j :: ev) := by
    simp [Inner.schedule, hl, AMap.get, AMap.insert, floodInner]
  rw [this, flood_dispatch p n ql ip _ hr]
  rfl

/-- Submit and handle the jobs one after the other. -/
def flood (ip : String) (js : List Nat) : List QStep := js.flatMap fun j => [.submit ip j, .manage]

def floodQueue (n ql : Nat) (ip : String) (r : Worker) : Queue :=
  { inner := floodInner n ql ip r, mailbox := [], status := .running, closed := false }

theorem flood_run (p : Profile) (n ql : Nat) (hq : 2 ≤ ql) (ip : String) (js : List Nat) (r : Worker) (hr : r.status = .alive) :
    qRun p (floodQueue n ql ip r) (flood ip js) =
      (floodQueue n ql ip { r with inbox := r.inbox ++ js.map .prove }, js.flatMap (floodEvents n ip)) := by
  induction js generalizing r with
  | nil => simp [flood, qRun]
  | cons j rest ih =>
    have e : flood ip (j :: rest) = .submit ip j :: .manage :: flood ip rest := rfl
    have h1 : qStep p (floodQueue n ql ip r) (.submit ip j) = ({ floodQueue n ql ip r with mailbox := [.schedule ip j] }, []) := by
      simp [qStep, floodQueue, Queue.listening]
    have h2 : qStep p { floodQueue n ql ip r with mailbox := [.schedule ip j] } .manage =
        (floodQueue n ql ip (withJob r j), floodEvents n ip j) := by
      simp [qStep, floodQueue, Queue.manage, flood_next p n ql hq ip r hr j]
    rw [e]
    simp only [qRun, h1, h2]
    rw [ih (withJob r j) hr]
    simp [withJob, List.append_assoc]

theorem flood_new (p : Profile) (n ql : Nat) (hq : 2 ≤ ql) (ip : String) (j : Nat) (js : List Nat) :
    qRun p (Queue.new (n + 1) ql) (flood ip (j :: js)) =
      (floodQueue n ql ip { inbox := (j :: js).map .prove, running := none, status := .alive }, (j :: js).flatMap (floodEvents n ip)) := by
  have e : flood ip (j :: js) = .submit ip j :: .manage :: flood ip js := rfl
  have h1 : qStep p (Queue.new (n + 1) ql) (.submit ip j) = ({ Queue.new (n + 1) ql with mailbox := [.schedule ip j] }, []) := by
    simp [qStep, Queue.new, Queue.listening]
  have h2 : qStep p { Queue.new (n + 1) ql with mailbox := [.schedule ip j] } .manage =
      (floodQueue n ql ip (withJob Worker.spawn j), floodEvents n ip j) := by
    simp [qStep, floodQueue, Queue.manage, Queue.new, flood_first p n ql (by omega) ip j]
  rw [e]
  simp only [qRun, h1, h2]
  rw [flood_run p n ql hq ip js (withJob Worker.spawn j) rfl]
  simp [withJob, Worker.spawn]

theorem flood_trace (n : Nat) (ip : String) (js : List Nat) :
    handedTo 0 (js.flatMap (floodEvents n ip)) = js ∧ acceptedOf ip (js.flatMap (floodEvents n ip)) = js ∧
    (∀ w, startedBy w (js.flatMap (floodEvents n ip)) = []) ∧ (∀ ip', ip' ≠ ip → acceptedOf ip' (js.flatMap (floodEvents n ip)) = [] ∧
      handedOf ip' (js.flatMap (floodEvents n ip)) = []) := by
  have hs : ∀ l : List Nat, ∀ ip' w, handedTo w (l.map fun _ => QEvent.served ip) = [] ∧ acceptedOf ip' (l.map fun _ => QEvent.served ip) = [] ∧
      startedBy w (l.map fun _ => QEvent.served ip) = [] ∧ handedOf ip' (l.map fun _ => QEvent.served ip) = [] := by
    intro l ip' w
    simp [handedTo, acceptedOf, startedBy, handedOf]
  induction js with
  | nil => simp [handedTo, acceptedOf, startedBy, handedOf]
  | cons j rest ih =>
    obtain ⟨i1, i2, i3, i4⟩ := ih
    rw [List.flatMap_cons]
    have e1 : handedTo 0 (floodEvents n ip j) = [j] := by
      have : handedTo 0 (floodEvents n ip j) = j :: handedTo 0 (((List.range n).map Nat.succ).map fun _ => QEvent.served ip) := rfl
      rw [this, (hs _ ip 0).1]
    have e2 : acceptedOf ip (floodEvents n ip j) = [j] := by
      have : acceptedOf ip (floodEvents n ip j) =
          (if ip = ip then some j else none).toList ++ acceptedOf ip (((List.range n).map Nat.succ).map fun _ => QEvent.served ip) := by
        simp [acceptedOf, floodEvents]
      rw [this, (hs _ ip 0).2.1]; simp
    refine ⟨?_, ?_, ?_, ?_⟩
    · rw [handedTo_append, e1, i1]; rfl
    · rw [acceptedOf_append, e2, i2]; rfl
    · intro w
      rw [startedBy_append, i3]
      have : startedBy w (floodEvents n ip j) = startedBy w (((List.range n).map Nat.succ).map fun _ => QEvent.served ip) := rfl
      rw [this, (hs _ ip w).2.2.1]; rfl
    · intro ip' hne
      have hne' : ¬ ip = ip' := fun e => hne e.symm
      rw [acceptedOf_append, handedOf_append, (i4 ip' hne).1, (i4 ip' hne).2]
      have a1 : acceptedOf ip' (floodEvents n ip j) = acceptedOf ip' (((List.range n).map Nat.succ).map fun _ => QEvent.served ip) := by
        simp [acceptedOf, floodEvents, hne']
      have a2 : handedOf ip' (floodEvents n ip j) = handedOf ip' (((List.range n).map Nat.succ).map fun _ => QEvent.served ip) := by
        simp [handedOf, floodEvents, hne']
      rw [a1, a2, (hs _ ip' 0).2.1, (hs _ ip' 0).2.2.2]
      exact ⟨rfl, rfl⟩

/-- Nothing waiting: dispatching hands over nothing. -/
theorem disp_none {im im' : Inner} {ev : List QEvent} {k : Nat} (d : Disp im im' ev k) (h : ∀ ip, (im.queues.get ip).getD [] = []) (w : Nat) :
    handedTo w ev = [] := by
  simp only [handedTo, List.filterMap_eq_nil_iff]
  intro e he
  rcases d.only e he with ⟨_, rfl⟩ | ⟨w', ip, j, rfl⟩
  · rfl
  · exfalso
    have h1 := d.wait ip
    rw [h ip] at h1
    have h2 := (List.append_eq_nil_iff.1 h1.symm).1
    simp only [handedOf, List.filterMap_eq_nil_iff] at h2
    have := h2 _ he
    simp at this

/-- A second client's first job goes to the end of worker 0's inbox. -/
theorem flood_other (p : Profile) (n ql : Nat) (hq : 3 ≤ ql) (ip ip' : String) (hne : ip ≠ ip') (r : Worker) (hr : r.status = .alive) (b : Nat) :
    ∃ q' ev, qRun p (floodQueue n ql ip r) [.submit ip' b, .manage] = (q', .accepted ip' b :: .served ip' :: .handed 0 ip' b :: ev) ∧
      (∀ w, handedTo w ev = []) ∧ (∀ i, acceptedOf i ev = []) := by
  have h1 : qStep p (floodQueue n ql ip r) (.submit ip' b) = ({ floodQueue n ql ip r with mailbox := [.schedule ip' b] }, []) := by
    simp [qStep, floodQueue, Queue.listening]
  let im0 : Inner := { floodInner n ql ip r with queues := [(ip, []), (ip', [b])], ips := [ip, ip'] }
  let im1 : Inner := { floodInner n ql ip (withJob r b) with queues := [(ip, []), (ip', [])], ips := [ip, ip'], cur := 1 }
  have hl : ¬ (1 = ql) := by omega
  have hs : (floodInner n ql ip r).schedule p ip' b = (im0.dispatch p).bind fun (im', ev) => .ret (im', .accepted ip' b :: ev) := by
    simp [Inner.schedule, floodInner, hl, AMap.get, AMap.insert, hne, im0]
  have ht : im0.dispatchTo p 0 = .ret (im1, [.served ip', .handed 0 ip' b]) := by
    simp [im0, im1, floodInner, withJob, Inner.dispatchTo, Inner.advance, usizeSub, Inner.serve, AMap.get, AMap.insert, hr, hne]
  have hinv : IInv im1 := by
    refine ⟨rfl, ?_, .inr (by simp [im1])⟩
    simp [im1, hne]
  have halive : AllAlive im1 := by
    intro x hx
    simp only [im1, floodInner, List.mem_cons, List.mem_replicate] at hx
    rcases hx with rfl | ⟨_, rfl⟩
    · exact hr
    · rfl
  obtain ⟨im2, ev2, h2⟩ := dispatchAll_ret p ((List.range n).map Nat.succ) im1 hinv (by simp [im1]) halive (by
    intro x hx
    simp only [List.mem_map, List.mem_range] at hx
    obtain ⟨a, ha, rfl⟩ := hx
    simp [im1, floodInner]; omega)
  have hd : im0.dispatch p = .ret (im2, [.served ip', .handed 0 ip' b] ++ ev2) := by
    have hrange : List.range (n + 1) = 0 :: (List.range n).map Nat.succ := List.range_succ_eq_map
    have hlen : im0.runners.length = n + 1 := by simp [im0, floodInner]
    have h0 : im0.runners[0]? = some r := rfl
    unfold Inner.dispatch
    rw [hlen, hrange]
    unfold Inner.dispatchAll
    rw [h0, ht]
    simp only [Exec.bind]
    rw [h2]
  have d := dispatchAll_disp p _ im1 hinv im2 ev2 h2
  refine ⟨{ floodQueue n ql ip r with inner := im2 }, ev2, ?_, ?_, ?_⟩
  · have h3 : qStep p { floodQueue n ql ip r with mailbox := [.schedule ip' b] } .manage =
        ({ floodQueue n ql ip r with inner := im2 }, .accepted ip' b :: ([.served ip', .handed 0 ip' b] ++ ev2)) := by
      have : ({ floodQueue n ql ip r with mailbox := [.schedule ip' b] } : Queue).inner.schedule p ip' b =
          .ret (im2, .accepted ip' b :: ([.served ip', .handed 0 ip' b] ++ ev2)) := by
        show (floodInner n ql ip r).schedule p ip' b = _
        rw [hs, hd]; rfl
      simp [qStep, Queue.manage, floodQueue]
      simp [floodQueue] at this
      rw [this]
    simp only [qRun, h1, h3]
    simp
  · refine disp_none d ?_
    intro i
    simp only [im1, AMap.get]
    split
    · rfl
    · split <;> rfl
  · exact (disp_events d).2.2.1

/-! ### A queue that grows: one worker, two clients, one of them submitting -/

def growInner (cur : Nat) (l : List Nat) (inbox : List WorkerMsg) : Inner :=
  { queues := [("B", []), ("A", l)], runners := [{ inbox := inbox, running := none, status := .alive }], ips := ["B", "A"], cur := cur,
    queueLength := 3 }

def growQueue (l : List Nat) (inbox : List WorkerMsg) : Queue :=
  { inner := growInner 1 l inbox, mailbox := [], status := .running, closed := false }

theorem grow_two (p : Profile) (l : List Nat) (inbox : List WorkerMsg) :
    ∃ l' inbox', (qRun p (growQueue l inbox) (flood "A" [7, 7])).1 = growQueue l' inbox' ∧ l'.length = l.length + 1 := by
  have h1 : (growInner 1 l inbox).schedule p "A" 7 = .ret (growInner 0 (l ++ [7]) inbox, [.accepted "A" 7, .served "B"]) := by
    simp [growInner, Inner.schedule, AMap.get, AMap.insert, Inner.dispatch, Inner.dispatchAll, Inner.dispatchTo, Inner.advance, usizeSub,
      Inner.serve, List.range_succ]
  cases l with
  | nil =>
    have h2 : (growInner 0 [7] inbox).schedule p "A" 7 =
        .ret (growInner 1 [7] (inbox ++ [.prove 7]), [.accepted "A" 7, .served "A", .handed 0 "A" 7]) := by
      simp [growInner, Inner.schedule, AMap.get, AMap.insert, Inner.dispatch, Inner.dispatchAll, Inner.dispatchTo, Inner.advance, usizeSub,
        Inner.serve, List.range_succ]
    refine ⟨[7], inbox ++ [.prove 7], ?_, by simp⟩
    simp only [List.nil_append] at h1
    simp [flood, qRun, qStep, growQueue, Queue.listening, Queue.manage, h1, h2]
  | cons a rest =>
    have h2 : (growInner 0 (a :: rest ++ [7]) inbox).schedule p "A" 7 =
        .ret (growInner 1 (rest ++ [7, 7]) (inbox ++ [.prove a]), [.accepted "A" 7, .served "A", .handed 0 "A" a]) := by
      simp [growInner, Inner.schedule, AMap.get, AMap.insert, Inner.dispatch, Inner.dispatchAll, Inner.dispatchTo, Inner.advance, usizeSub,
        Inner.serve, List.range_succ]
    refine ⟨rest ++ [7, 7], inbox ++ [.prove a], ?_, by simp⟩
    simp only [List.cons_append] at h1 h2
    simp [flood, qRun, qStep, growQueue, Queue.listening, Queue.manage, h1, h2]

theorem grow_many (p : Profile) (k : Nat) (l : List Nat) (inbox : List WorkerMsg) :
    ∃ steps, (∀ s ∈ steps, s = .submit "A" 7 ∨ s = .manage) ∧
      ∃ l' inbox', (qRun p (growQueue l inbox) steps).1 = growQueue l' inbox' ∧ l'.length = l.length + k := by
  induction k generalizing l inbox with
  | zero => exact ⟨[], by simp, l, inbox, rfl, rfl⟩
  | succ k ih =>
    obtain ⟨l1, i1, e1, hl1⟩ := grow_two p l inbox
    obtain ⟨steps, hs, l2, i2, e2, hl2⟩ := ih l1 i1
    refine ⟨flood "A" [7, 7] ++ steps, ?_, l2, i2, ?_, by omega⟩
    · intro s hm
      rcases List.mem_append.1 hm with hm | hm
      · simp [flood] at hm; rcases hm with h | h | h | h <;> simp [h]
      · exact hs s hm
    · rw [qRun_append]; simp only; rw [e1]; exact e2

end MCap
