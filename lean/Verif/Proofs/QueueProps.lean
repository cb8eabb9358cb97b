import Verif.Proofs.QueueRun

namespace MCap
open Spec

theorem qinv_shape (p : Profile) {n ql : Nat} {q : Queue} {tr : List QEvent} (h : QInv n ql q tr) (s : QStep) :
    Shape q (qStep p q s).1 (qStep p q s).2 := shape_step p q h.inv h.mail s

/-- Induction over a run, along the invariant. -/
theorem qrun_induct (p : Profile) {n ql : Nat} (P : Queue → List QEvent → Prop)
    (hs : ∀ q tr q' ev, QInv n ql q tr → P q tr → Shape q q' ev → P q' (tr ++ ev))
    (q : Queue) (tr : List QEvent) (h : QInv n ql q tr) (h0 : P q tr) (steps : List QStep) :
    P (qRun p q steps).1 (tr ++ (qRun p q steps).2) := by
  induction steps generalizing q tr with
  | nil => simpa [qRun] using h0
  | cons s r ih =>
    have := ih _ _ (qinv_step p h s) (hs q tr _ _ h h0 (qinv_shape p h s))
    simpa [qRun, List.append_assoc] using this

theorem disp_started {im im' : Inner} {ev : List QEvent} {k : Nat} (d : Disp im im' ev k) (w : Nat) : startedBy w ev = [] := by
  simp only [startedBy, List.filterMap_eq_nil_iff]
  intro e he; rcases d.only e he with ⟨_, rfl⟩ | ⟨_, _, _, rfl⟩ <;> rfl

/-! ### Counting -/

def CountInv (q : Queue) (tr : List QEvent) : Prop :=
  ∀ j, (acceptedJobs tr).count j = (handedJobs tr).count j + (waitingJobs q).count j

theorem move_events {w : Nat} {r r' : Worker} {ev : List QEvent} (m : WorkerMove w r r' ev) :
    acceptedJobs ev = [] ∧ handedJobs ev = [] ∧ acceptedIps ev = [] ∧ turns ev = [] ∧
    (∀ ip, acceptedOf ip ev = []) ∧ (∀ ip, handedOf ip ev = []) ∧ (∀ w, handedTo w ev = []) := by
  cases m <;> exact ⟨rfl, rfl, rfl, rfl, fun _ => rfl, fun _ => rfl, fun _ => rfl⟩

theorem count_shape {n ql : Nat} (q : Queue) (tr : List QEvent) (q' : Queue) (ev : List QEvent) (hi : QInv n ql q tr) (h : CountInv q tr)
    (s : Shape q q' ev) : CountInv q' (tr ++ ev) := by
  intro j
  have hj := h j
  rw [acceptedJobs_append, handedJobs_append, List.count_append, List.count_append, hj]
  cases s with
  | quiet h1 => simp [acceptedJobs, handedJobs, waitingJobs, h1]
  | stop h1 h2 h3 h4 => simp [acceptedJobs, handedJobs, waitingJobs, h4]
  | disp ev k h1 h2 h3 d =>
    have := d.cnt j
    rw [(disp_events d).2.1]
    simp only [waitingJobs, List.count_nil] at this ⊢
    omega
  | refused ip job h1 h2 h3 h4 => simp [acceptedJobs, handedJobs, waitingJobs, h4]
  | sched ip job ev h1 h2 h3 d =>
    have h1 := d.cnt j
    have h2 := (enqueued_spec q.inner hi.inv ip job).2.2.2.2.2.2 j
    have h3 : acceptedJobs (.accepted ip job :: ev) = [job] := by
      have : acceptedJobs (.accepted ip job :: ev) = job :: acceptedJobs ev := rfl
      rw [this, (disp_events d).2.1]
    have h4 : handedJobs (.accepted ip job :: ev) = handedJobs ev := rfl
    rw [h3, h4]
    simp only [waitingJobs] at *
    omega
  | worker w r r' ev h1 h2 h3 m h5 =>
    obtain ⟨e1, e2, -⟩ := move_events m
    simp [e1, e2, waitingJobs, h2]

theorem count_new (p : Profile) (n ql : Nat) (steps : List QStep) :
    CountInv (qRun p (Queue.new n ql) steps).1 (qRun p (Queue.new n ql) steps).2 := by
  have := qrun_induct p CountInv count_shape (Queue.new n ql) [] (qinv_init n ql) (fun _ => rfl) steps
  simpa using this

theorem disp_handed_lt {im im' : Inner} {ev : List QEvent} {k : Nat} (d : Disp im im' ev k) (w : Nat) (ip : String) (j : Nat)
    (h : .handed w ip j ∈ ev) : w < im.runners.length := by
  by_cases hlt : w < im.runners.length
  · exact hlt
  · have := d.out w (by omega)
    simp only [handedTo, List.filterMap_eq_nil_iff] at this
    have := this _ h
    simp at this

/-- Every job handed over goes to one of the `n` workers. -/
theorem handed_lt {n ql : Nat} {q : Queue} {tr : List QEvent} (h : QInv n ql q tr) (w : Nat) (ip : String) (j : Nat)
    (hm : .handed w ip j ∈ tr) : w < n := by
  by_cases hlt : w < n
  · exact hlt
  · have := h.out w (by omega)
    simp only [handedTo, List.filterMap_eq_nil_iff] at this
    have := this _ hm
    simp at this

/-- Handed jobs, worker by worker. -/
theorem handed_sum (n : Nat) (tr : List QEvent) (h : ∀ w ip j, .handed w ip j ∈ tr → w < n) (j : Nat) :
    (handedJobs tr).count j = ((List.range n).map fun w => (handedTo w tr).count j).sum := by
  induction tr with
  | nil =>
    simp only [handedJobs, handedTo, List.filterMap_nil, List.count_nil]
    clear h
    induction n with
    | zero => rfl
    | succ m ih => rw [List.range_succ, List.map_append, List.sum_append, ← ih]; rfl
  | cons e r ih =>
    have ih := ih (fun w ip j hm => h w ip j (List.mem_cons_of_mem _ hm))
    have hskip : (∀ w ip j, e ≠ .handed w ip j) → handedJobs (e :: r) = handedJobs r ∧ ∀ w, handedTo w (e :: r) = handedTo w r := by
      intro hne
      cases e <;> first | exact ⟨rfl, fun _ => rfl⟩ | exact absurd rfl (hne _ _ _)
    cases e with
    | handed w ip j' =>
      have hw := h w ip j' (by simp)
      have h1 : handedJobs (.handed w ip j' :: r) = j' :: handedJobs r := rfl
      have h2 : ∀ w', handedTo w' (.handed w ip j' :: r) = if w = w' then j' :: handedTo w' r else handedTo w' r := by
        intro w'; simp only [handedTo, List.filterMap_cons]; split <;> simp_all
      rw [h1, List.count_cons, ih]
      have key : ∀ m, w < m → ((List.range m).map fun w' => (handedTo w' (.handed w ip j' :: r)).count j).sum =
          ((List.range m).map fun w' => (handedTo w' r).count j).sum + if j' == j then 1 else 0 := by
        intro m
        induction m with
        | zero => omega
        | succ m ihm =>
          intro hlt
          rw [List.range_succ, List.map_append, List.map_append, List.sum_append, List.sum_append]
          simp only [List.map_cons, List.map_nil, List.sum_cons, List.sum_nil, Nat.add_zero]
          by_cases e : w = m
          · have hz : ∀ l : List Nat, (∀ x ∈ l, x ≠ w) → (l.map fun w' => (handedTo w' (.handed w ip j' :: r)).count j) =
                l.map fun w' => (handedTo w' r).count j := by
              intro l hl
              apply List.map_congr_left
              intro a ha
              rw [h2, if_neg (fun e => hl a ha e.symm)]
            rw [hz _ (fun x hx => by have := List.mem_range.1 hx; omega), h2, if_pos e, List.count_cons]
            omega
          · rw [ihm (by omega), h2, if_neg e]; omega
      exact (key n hw).symm
    | _ => obtain ⟨a, b⟩ := hskip (by intros; simp); simp only [a, b]; exact ih

/-! ### Starting -/

def StartInv (q : Queue) (tr : List QEvent) : Prop :=
  ∀ (w : Nat) (r : Worker), q.inner.runners[w]? = some r → r.status ≠ .crashed → startedBy w tr = ranBy w tr ++ r.running.toList

theorem disp_back {im im' : Inner} {ev : List QEvent} {k : Nat} (d : Disp im im' ev k) (w : Nat) (r' : Worker) (h : im'.runners[w]? = some r') :
    ∃ r, im.runners[w]? = some r ∧ r' = { r with inbox := r.inbox ++ (handedTo w ev).map .prove } := by
  have hlt : w < im.runners.length := by
    rw [← d.len]
    by_cases hlt : w < im'.runners.length
    · exact hlt
    · rw [List.getElem?_eq_none (by omega)] at h; cases h
  refine ⟨_, List.getElem?_eq_getElem hlt, ?_⟩
  have := d.wrk w _ (List.getElem?_eq_getElem hlt)
  rw [h] at this
  injection this

theorem set_back {l : List Worker} {w w' : Nat} {r x : Worker} (h : (l.set w r)[w']? = some x) :
    (w = w' ∧ x = r) ∨ (w ≠ w' ∧ l[w']? = some x) := by
  rw [List.getElem?_set] at h
  by_cases e : w = w'
  · left
    rw [if_pos e] at h
    split at h <;> simp_all
  · right; rw [if_neg e] at h; exact ⟨e, h⟩

theorem start_shape {n ql : Nat} (q : Queue) (tr : List QEvent) (q' : Queue) (ev : List QEvent) (hi : QInv n ql q tr) (h : StartInv q tr)
    (s : Shape q q' ev) : StartInv q' (tr ++ ev) := by
  intro w x hx hc
  rw [startedBy_append, ranBy_append]
  cases s with
  | quiet h1 =>
    rw [h1] at hx
    simpa [startedBy, ranBy] using h w x hx hc
  | stop h1 h2 h3 h4 =>
    rw [h4] at hx
    simp only [List.getElem?_map, Option.map_eq_some_iff] at hx
    obtain ⟨r0, hr0, rfl⟩ := hx
    simpa [startedBy, ranBy] using h w r0 hr0 hc
  | disp ev k h1 h2 h3 d =>
    obtain ⟨r, hr, rfl⟩ := disp_back d w x hx
    rw [disp_started d, (disp_events d).2.2.2]
    simpa using h w r hr hc
  | refused ip job h1 h2 h3 h4 =>
    rw [h4] at hx
    simpa [startedBy, ranBy] using h w x hx hc
  | sched ip job ev h1 h2 h3 d =>
    obtain ⟨r, hr, rfl⟩ := disp_back d w x hx
    rw [(enqueued_spec q.inner hi.inv ip job).2.2.1] at hr
    have e1 : startedBy w (.accepted ip job :: ev) = startedBy w ev := rfl
    have e2 : ranBy w (.accepted ip job :: ev) = ranBy w ev := rfl
    rw [e1, e2, disp_started d, (disp_events d).2.2.2]
    simpa using h w r hr hc
  | worker w' r r' ev h1 h2 h3 m h5 =>
    rw [h2] at hx
    rcases set_back hx with ⟨rfl, rfl⟩ | ⟨hne, hx⟩
    · cases m with
      | stop rest a1 a2 a3 => simpa [startedBy, ranBy] using h w' r h1 (by simp [a1])
      | start job rest a1 a2 a3 =>
        have := h w' r h1 (by simp [a1])
        rw [a2] at this
        simp [startedBy, ranBy] at this ⊢
        exact this
      | finish job a1 =>
        have := h w' r h1 hc
        rw [a1] at this
        simp [startedBy, ranBy] at this ⊢
        exact this
      | finishExit job a1 =>
        have := h w' r h1 (by rw [hi.act w' r h1 (by simp [a1])]; simp)
        rw [a1] at this
        simp [startedBy, ranBy] at this ⊢
        exact this
      | crash job a1 => simp at hc
    · have h6 := h w x hx hc
      cases m <;> simp [startedBy, ranBy, hne] at h6 ⊢ <;> exact h6

theorem start_new (p : Profile) (n ql : Nat) (steps : List QStep) :
    StartInv (qRun p (Queue.new n ql) steps).1 (qRun p (Queue.new n ql) steps).2 := by
  have h0 : StartInv (Queue.new n ql) [] := by
    intro w r h _
    simp only [Queue.new, Inner.new, List.getElem?_replicate] at h
    split at h <;> cases h
    rfl
  have := qrun_induct p StartInv start_shape (Queue.new n ql) [] (qinv_init n ql) h0 steps
  simpa using this

/-! ### Admission -/

/-- Every answer so far was right. -/
def Admission (ql : Nat) (tr : List QEvent) : Prop :=
  (∀ a b ip j, tr = a ++ .refused ip j :: b → distinctClients a = ql) ∧
  (∀ a b ip j, tr = a ++ .accepted ip j :: b → distinctClients a < ql)

/-- Where an event of a concatenation is. -/
theorem append_split {α : Type} {x y a b : List α} {e : α} (h : x ++ y = a ++ e :: b) :
    (∃ c, x = a ++ e :: c ∧ b = c ++ y) ∨ (∃ c, a = x ++ c ∧ y = c ++ e :: b) := by
  rcases List.append_eq_append_iff.1 h with ⟨c, h1, h2⟩ | ⟨c, h1, h2⟩
  · right; exact ⟨c, h1, h2⟩
  · cases c with
    | nil => right; exact ⟨[], by simpa using h1.symm, by simpa using h2.symm⟩
    | cons d c =>
      simp only [List.cons_append, List.cons.injEq] at h2
      obtain ⟨rfl, rfl⟩ := h2
      left; exact ⟨c, h1, rfl⟩

theorem distinct_eq {n ql : Nat} {q : Queue} {tr : List QEvent} (h : QInv n ql q tr) : distinctClients tr = q.inner.ips.length := by
  rw [h.ipsEq]; rfl

theorem admission_shape {n ql : Nat} (q : Queue) (tr : List QEvent) (q' : Queue) (ev : List QEvent) (hi : QInv n ql q tr) (h : Admission ql tr)
    (s : Shape q q' ev) : Admission ql (tr ++ ev) := by
  have hq : ∀ {ev : List QEvent}, (∀ ip j, .refused ip j ∉ ev) → (∀ ip j, .accepted ip j ∉ ev) → Admission ql (tr ++ ev) := by
    intro ev h1 h2
    constructor
    · intro a b ip j e
      rcases append_split e with ⟨c, e1, -⟩ | ⟨c, -, e2⟩
      · exact h.1 a c ip j e1
      · exact absurd (by rw [e2]; simp) (h1 ip j)
    · intro a b ip j e
      rcases append_split e with ⟨c, e1, -⟩ | ⟨c, -, e2⟩
      · exact h.2 a c ip j e1
      · exact absurd (by rw [e2]; simp) (h2 ip j)
  cases s with
  | quiet h1 => exact hq (by simp) (by simp)
  | stop h1 h2 h3 h4 => exact hq (by simp) (by simp)
  | disp ev k h1 h2 h3 d =>
    refine hq ?_ ?_ <;>
    · intro ip j hm; rcases d.only _ hm with ⟨_, e⟩ | ⟨_, _, _, e⟩ <;> cases e
  | refused ip job h1 h2 h3 h4 =>
    constructor
    · intro a b ip' j e
      rcases append_split e with ⟨c, e1, -⟩ | ⟨c, e1, e2⟩
      · exact h.1 a c ip' j e1
      · have : c = [] := by
          cases c with
          | nil => rfl
          | cons _ c => simp at e2
        subst this
        rw [e1, List.append_nil, distinct_eq hi, ← keys_length _ hi.inv, h3, hi.qlen]
    · intro a b ip' j e
      rcases append_split e with ⟨c, e1, -⟩ | ⟨c, e1, e2⟩
      · exact h.2 a c ip' j e1
      · cases c with
          | nil => simp at e2
          | cons _ c => simp at e2
  | sched ip job ev h1 h2 h3 d =>
    have hno : ∀ e ∈ ev, (∀ ip j, e ≠ .refused ip j) ∧ ∀ ip j, e ≠ .accepted ip j := by
      intro e he
      rcases d.only e he with ⟨_, rfl⟩ | ⟨_, _, _, rfl⟩ <;> simp
    constructor
    · intro a b ip' j e
      rcases append_split e with ⟨c, e1, -⟩ | ⟨c, e1, e2⟩
      · exact h.1 a c ip' j e1
      · cases c with
          | nil => simp at e2
          | cons _ c =>
            simp only [List.cons_append, List.cons.injEq] at e2
            exact absurd rfl ((hno _ (by rw [e2.2]; simp)).1 ip' j)
    · intro a b ip' j e
      rcases append_split e with ⟨c, e1, -⟩ | ⟨c, e1, e2⟩
      · exact h.2 a c ip' j e1
      · cases c with
          | nil =>
            rw [e1, List.append_nil, distinct_eq hi]
            have := hi.len
            rw [keys_length _ hi.inv, hi.qlen] at h3
            omega
          | cons _ c =>
            simp only [List.cons_append, List.cons.injEq] at e2
            exact absurd rfl ((hno _ (by rw [e2.2]; simp)).2 ip' j)
  | worker w r r' ev h1 h2 h3 m h5 =>
    cases m <;> exact hq (by simp) (by simp)

theorem admission_new (p : Profile) (n ql : Nat) (steps : List QStep) : Admission ql (qRun p (Queue.new n ql) steps).2 := by
  have := qrun_induct p (fun _ tr => Admission ql tr) admission_shape (Queue.new n ql) [] (qinv_init n ql)
    ⟨by simp, by simp⟩ steps
  simpa using this

/-! ### Rotation -/

/-- From `q` on, events `ev`: clients are only added, and as long as none is, turns go around. -/
structure Rot (q q' : Queue) (ev : List QEvent) : Prop where
  pre : q.inner.ips <+: q'.inner.ips
  rot : q'.inner.ips = q.inner.ips → q.inner.ips ≠ [] →
    q'.inner.cur = (q.inner.cur + (turns ev).length) % q.inner.ips.length ∧
    (turns ev).map some = (List.range (turns ev).length).map fun i => q.inner.ips[(q.inner.cur + 1 + i) % q.inner.ips.length]?
  keep : ∀ ip, (waitingOf q ip).length ≤ (handedOf ip ev).length + (waitingOf q' ip).length
  got : ∀ ip, min (waitingOf q ip).length ((turns ev).count ip) ≤ (handedOf ip ev).length

theorem rot_still {q q' : Queue} {ev : List QEvent} (hi : IInv q.inner) (h1 : q'.inner.ips = q.inner.ips) (h2 : q'.inner.cur = q.inner.cur)
    (h4 : q'.inner.queues = q.inner.queues) (h3 : turns ev = []) : Rot q q' ev where
  pre := by rw [h1]; exact List.prefix_refl _
  rot _ hn := by
    rw [h2, h3]
    exact ⟨by rw [List.length_nil, Nat.add_zero, Nat.mod_eq_of_lt (hi.lt hn)], rfl⟩
  keep ip := by simp [waitingOf, h4]
  got ip := by simp [h3]

theorem disp_turns_length {im im' : Inner} {ev : List QEvent} {k : Nat} (d : Disp im im' ev k) (hi : IInv im) (hn : im.ips ≠ []) :
    (turns ev).length = k := by
  have := congrArg List.length (d.rot hi hn).2
  simpa using this

theorem disp_got {im im' : Inner} {ev : List QEvent} {k : Nat} (d : Disp im im' ev k) (ip : String) :
    (handedOf ip ev).length = min ((im.queues.get ip).getD []).length ((turns ev).count ip) := by
  have h1 := congrArg List.length (d.wait ip)
  have h2 := d.srv ip
  rw [List.length_append] at h1
  omega

theorem rot_shape {q q' : Queue} {ev : List QEvent} (hi : IInv q.inner) (s : Shape q q' ev) : Rot q q' ev := by
  cases s with
  | quiet h1 => exact rot_still hi (by rw [h1]) (by rw [h1]) (by rw [h1]) rfl
  | stop h1 h2 h3 h4 => exact rot_still hi (by rw [h4]) (by rw [h4]) (by rw [h4]) rfl
  | disp ev k h1 h2 h3 d =>
    refine ⟨by rw [d.ips]; exact List.prefix_refl _, fun _ hn => ?_, fun ip => ?_, fun ip => ?_⟩
    · rw [disp_turns_length d hi hn]
      exact d.rot hi hn
    · have := congrArg List.length (d.wait ip)
      rw [List.length_append] at this
      exact Nat.le_of_eq this
    · exact Nat.le_of_eq (disp_got d ip).symm
  | refused ip job h1 h2 h3 h4 => exact rot_still hi (by rw [h4]) (by rw [h4]) (by rw [h4]) rfl
  | sched ip job ev h1 h2 h3 d =>
    obtain ⟨a1, a2, a3, a4, a5, a6, a7⟩ := enqueued_spec q.inner hi ip job
    refine ⟨?_, ?_, ?_, ?_⟩
    · rw [d.ips, a2]; split
      · exact List.prefix_refl _
      · exact List.prefix_append _ _
    · intro he hn
      rw [d.ips] at he
      have e1 : turns (.accepted ip job :: ev) = turns ev := rfl
      have hn' : (enqueued q.inner ip job).ips ≠ [] := by rw [he]; exact hn
      rw [e1, disp_turns_length d a1 hn']
      have := d.rot a1 hn'
      rwa [he, a5] at this
    · intro ip'
      have e1 : handedOf ip' (.accepted ip job :: ev) = handedOf ip' ev := rfl
      have := congrArg List.length (d.wait ip')
      rw [a6, List.length_append, List.length_append] at this
      rw [e1]
      simp only [waitingOf]
      omega
    · intro ip'
      have e1 : handedOf ip' (.accepted ip job :: ev) = handedOf ip' ev := rfl
      have e2 : turns (.accepted ip job :: ev) = turns ev := rfl
      have := disp_got d ip'
      rw [a6, List.length_append] at this
      rw [e1, e2]
      simp only [waitingOf]
      omega
  | worker w r r' ev h1 h2 h3 m h5 =>
    obtain ⟨-, -, -, e4, -⟩ := move_events m
    exact rot_still hi (by rw [h2]) (by rw [h2]) (by rw [h2]) e4

theorem prefix_antisymm {α : Type} {a b : List α} (h : a <+: b) (h' : b <+: a) : a = b :=
  h.eq_of_length_le h'.length_le

theorem Rot.trans {a b c : Queue} {ev ev' : List QEvent} (d : Rot a b ev) (e : Rot b c ev') : Rot a c (ev ++ ev') where
  pre := d.pre.trans e.pre
  rot h hn := by
    have hb : b.inner.ips = a.inner.ips := prefix_antisymm (by rw [← h]; exact e.pre) d.pre
    obtain ⟨d1, d2⟩ := d.rot hb hn
    obtain ⟨e1, e2⟩ := e.rot (by rw [h, hb]) (by rw [hb]; exact hn)
    rw [hb] at e1 e2
    rw [turns_append, List.length_append]
    constructor
    · rw [e1, d1, Nat.mod_add_mod, Nat.add_assoc]
    · rw [List.map_append, d2, e2, d1, List.range_add, List.map_append]
      congr 1
      simp only [List.map_map]
      apply List.map_congr_left
      intro i _
      simp only [Function.comp]
      congr 1
      rw [Nat.add_assoc, Nat.mod_add_mod]
      congr 1
      omega
  keep ip := by
    have h1 := d.keep ip
    have h2 := e.keep ip
    rw [handedOf_append, List.length_append]
    omega
  got ip := by
    have h1 := d.keep ip
    have h2 := d.got ip
    have h3 := e.got ip
    rw [handedOf_append, List.length_append, turns_append, List.count_append]
    omega

theorem rot_run (p : Profile) {n ql : Nat} {q : Queue} {tr : List QEvent} (h : QInv n ql q tr) (steps : List QStep) :
    Rot q (qRun p q steps).1 (qRun p q steps).2 := by
  induction steps generalizing q tr with
  | nil => exact rot_still h.inv rfl rfl rfl rfl
  | cons s r ih => exact (rot_shape h.inv (qinv_shape p h s)).trans (ih (qinv_step p h s))

end MCap
