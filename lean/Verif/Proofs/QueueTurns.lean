import Verif.Proofs.QueueStop

namespace MCap
open Spec

/-! ### Counting turns -/

theorem completions_append (a b : List QEvent) : completions (a ++ b) = completions a + completions b := by simp [completions]
theorem answersTo_append (ip : String) (j : Nat) (a b : List QEvent) : answersTo ip j (a ++ b) = answersTo ip j a + answersTo ip j b := by
  simp only [answersTo, List.count_append]; omega

theorem disp_quiet {im im' : Inner} {ev : List QEvent} {k : Nat} (d : Disp im im' ev k) :
    completions ev = 0 ∧ acceptedJobs ev = [] ∧ ∀ ip j, answersTo ip j ev = 0 := by
  have h := d.only
  refine ⟨?_, ?_, ?_⟩
  · simp only [completions, List.length_eq_zero_iff, List.filter_eq_nil_iff]
    intro e he; rcases h e he with ⟨_, rfl⟩ | ⟨_, _, _, rfl⟩ <;> simp
  · simp only [acceptedJobs, List.filterMap_eq_nil_iff]
    intro e he; rcases h e he with ⟨_, rfl⟩ | ⟨_, _, _, rfl⟩ <;> rfl
  · intro ip j
    simp only [answersTo, Nat.add_eq_zero_iff, List.count_eq_zero]
    constructor
    · intro hm; rcases h _ hm with ⟨_, e⟩ | ⟨_, _, _, e⟩ <;> cases e
    · intro hm; rcases h _ hm with ⟨_, e⟩ | ⟨_, _, _, e⟩ <;> cases e

/-- Turns taken, requests for turns and what they were asked for. -/
structure TInv (n : Nat) (q : Queue) (tr : List QEvent) : Prop where
  names : ∀ w, InnerMsg.dispatch w ∈ q.mailbox → w < n
  turns : q.listening = true → (turns tr).length + requests q = n * (acceptedJobs tr).length + completions tr

theorem tinv_same {n : Nat} {q q' : Queue} {tr : List QEvent} (h : TInv n q tr) (hm : q'.mailbox = q.mailbox)
    (hl : q'.listening = true → q.listening = true) : TInv n q' tr :=
  ⟨fun w hw => h.names w (hm ▸ hw), fun l => by have := h.turns (hl l); simpa [requests, hm] using this⟩

theorem tinv_manage (p : Profile) {n ql : Nat} {q : Queue} {tr : List QEvent} (hi : QInv n ql q tr) (h : TInv n q tr) :
    TInv n (q.manage p).1 (tr ++ (q.manage p).2) := by
  unfold Queue.manage
  split
  · rename_i hrun
    have hlis : q.listening = true := by simp [Queue.listening, hrun]
    cases hm : q.mailbox with
    | nil => simpa using h
    | cons m rest =>
      have hsub : ∀ w, InnerMsg.dispatch w ∈ rest → w < n := fun w hw => h.names w (by rw [hm]; exact List.mem_cons_of_mem _ hw)
      have ht := h.turns hlis
      cases m with
      | stop =>
        simp only
        split
        · simp only [List.append_nil]
          exact ⟨hsub, fun l => by simp [Queue.listening] at l⟩
        · simp only [List.append_nil]
          refine ⟨hsub, fun _ => ?_⟩
          simp only [requests, hm, List.filter_cons] at ht ⊢
          simpa using ht
      | dispatch name =>
        simp only
        cases hd : q.inner.dispatchTo p name with
        | panic w =>
          simp only [List.append_nil]
          refine ⟨hsub, fun l => ?_⟩
          simp only [Queue.managerPanics, Queue.listening] at l
          split at l <;> simp at l
        | ret a =>
          obtain ⟨im, ev⟩ := a
          have d := dispatchTo_disp p q.inner hi.inv name im ev hd
          rw [if_pos (by rw [hi.nrun]; exact h.names name (by rw [hm]; simp))] at d
          have hn := hi.mail name (by rw [hm]; simp)
          obtain ⟨c1, c2, -⟩ := disp_quiet d
          refine ⟨hsub, fun _ => ?_⟩
          have := disp_turns_length d hi.inv hn
          simp only [turns_append, acceptedJobs_append, completions_append, c1, c2, List.append_nil, List.length_append]
          simp only [requests, hm, List.filter_cons] at ht ⊢
          simp only [if_true, List.length_cons] at ht
          omega
      | schedule ip job =>
        simp only
        cases hd : q.inner.schedule p ip job with
        | panic w =>
          simp only [List.append_nil]
          refine ⟨hsub, fun l => ?_⟩
          simp only [Queue.managerPanics, Queue.listening] at l
          split at l <;> simp at l
        | ret a =>
          obtain ⟨im, ev⟩ := a
          refine ⟨hsub, fun _ => ?_⟩
          have e1 : requests q = requests { q with mailbox := rest, inner := im } := by
            simp [requests, hm]
          rcases schedule_cases p q.inner im hi.inv ip job ev hd with ⟨-, rfl, rfl⟩ | ⟨hl, ev', rfl, d⟩
          · rw [← e1]
            simpa [turns_append, acceptedJobs_append, completions_append, turns, acceptedJobs, completions] using ht
          · obtain ⟨c1, c2, -⟩ := disp_quiet d
            have hi' := (enqueued_spec q.inner hi.inv ip job).1
            have := disp_turns_length d hi' (enqueued_ne _ hi.inv _ _)
            rw [← e1]
            have t1 : (turns (tr ++ .accepted ip job :: ev')).length = (turns tr).length + n := by
              rw [turns_append, List.length_append]
              have : (turns (.accepted ip job :: ev')).length = (turns ev').length := by simp [turns]
              rw [this, disp_turns_length d hi' (enqueued_ne _ hi.inv _ _), hi.nrun]
            have t2 : (acceptedJobs (tr ++ .accepted ip job :: ev')).length = (acceptedJobs tr).length + 1 := by
              rw [acceptedJobs_append]
              have : acceptedJobs (.accepted ip job :: ev') = job :: acceptedJobs ev' := by simp [acceptedJobs]
              rw [this, c2]; simp
            have t3 : completions (tr ++ .accepted ip job :: ev') = completions tr := by
              rw [completions_append]
              have : completions (.accepted ip job :: ev') = completions ev' := by simp [completions]
              rw [this, c1]; rfl
            rw [t1, t2, t3, Nat.mul_add, Nat.mul_one]
            omega
  · simpa using h

theorem tinv_step (p : Profile) {n ql : Nat} {q : Queue} {tr : List QEvent} (hi : QInv n ql q tr) (h : TInv n q tr) (s : QStep) :
    TInv n (qStep p q s).1 (tr ++ (qStep p q s).2) := by
  unfold qStep
  split
  · simpa using h
  cases s with
  | submit ip job =>
    simp only
    split
    · simp only [List.append_nil]
      refine ⟨fun w hw => h.names w (by simpa using hw), fun l => ?_⟩
      have := h.turns l
      simpa [requests] using this
    · simpa using h
  | manage => exact tinv_manage p hi h
  | take w =>
    simp only [Queue.take]
    split
    · simpa using h
    · split
      · split
        · simpa using h
        · simp only [List.append_nil]; exact tinv_same h rfl id
        · have e : ∀ j, turns (tr ++ [.started w j]) = turns tr ∧ acceptedJobs (tr ++ [.started w j]) = acceptedJobs tr ∧
              completions (tr ++ [.started w j]) = completions tr := fun j => by
            simp [turns_append, acceptedJobs_append, completions_append, turns, acceptedJobs, completions]
          refine ⟨h.names, fun l => ?_⟩
          obtain ⟨e1, e2, e3⟩ := e _
          rw [e1, e2, e3]
          exact h.turns l
      · simpa using h
  | finish w =>
    simp only [Queue.finish]
    split
    · simpa using h
    · rename_i r hr
      have hw : w < n := by
        rw [← hi.nrun]
        by_cases hlt : w < q.inner.runners.length
        · exact hlt
        · rw [List.getElem?_eq_none (by omega)] at hr; cases hr
      split
      · simpa using h
      · rename_i job _
        have e : turns (tr ++ [.ran w job]) = turns tr ∧ acceptedJobs (tr ++ [.ran w job]) = acceptedJobs tr ∧
            completions (tr ++ [.ran w job]) = completions tr + 1 := by
          simp [turns_append, acceptedJobs_append, completions_append, turns, acceptedJobs, completions]
        obtain ⟨e1, e2, e3⟩ := e
        split
        · rename_i hl
          refine ⟨?_, fun _ => ?_⟩
          · intro x hx
            simp only [List.mem_append, List.mem_singleton, InnerMsg.dispatch.injEq] at hx
            rcases hx with hx | rfl
            · exact h.names x hx
            · exact hw
          · rw [e1, e2, e3]
            have := h.turns hl
            simp only [requests, List.filter_append, List.length_append] at this ⊢
            simp
            omega
        · rename_i hl
          exact ⟨h.names, fun l => absurd l hl⟩
  | crash w =>
    simp only [Queue.crash]
    split
    · simpa using h
    · split
      · simpa using h
      · rename_i job _
        have e : turns (tr ++ [.crashedOn w job]) = turns tr ∧ acceptedJobs (tr ++ [.crashedOn w job]) = acceptedJobs tr ∧
            completions (tr ++ [.crashedOn w job]) = completions tr := by
          simp [turns_append, acceptedJobs_append, completions_append, turns, acceptedJobs, completions]
        obtain ⟨e1, e2, e3⟩ := e
        refine ⟨h.names, fun l => ?_⟩
        rw [e1, e2, e3]
        exact h.turns l
  | close =>
    simp only
    split
    · simp only [List.append_nil]
      refine ⟨fun w hw => h.names w (by simpa using hw), fun l => ?_⟩
      have := h.turns l
      simpa [requests] using this
    · simpa using h
  | joined =>
    simp only
    split
    · rename_i hst
      have hl : q.listening = true := by simp [Queue.listening, hst]
      split
      · simp only [List.append_nil]; exact tinv_same h rfl (fun _ => hl)
      · split
        · simp only [List.append_nil]; exact tinv_same h rfl (fun _ => hl)
        · simpa using h
    · simpa using h

theorem tinv_run (p : Profile) {n ql : Nat} (steps : List QStep) {q : Queue} {tr : List QEvent} (hi : QInv n ql q tr) (h : TInv n q tr) :
    TInv n (qRun p q steps).1 (tr ++ (qRun p q steps).2) := by
  induction steps generalizing q tr with
  | nil => simpa [qRun] using h
  | cons s r ih =>
    have := ih (qinv_step p hi s) (tinv_step p hi h s)
    simpa [qRun, List.append_assoc] using this

theorem tinv_new (p : Profile) (n ql : Nat) (steps : List QStep) :
    TInv n (qRun p (Queue.new n ql) steps).1 (qRun p (Queue.new n ql) steps).2 := by
  have h0 : TInv n (Queue.new n ql) [] := ⟨by simp [Queue.new], fun _ => by simp [turns, requests, Queue.new, acceptedJobs, completions]⟩
  simpa using tinv_run p steps (qinv_init n ql) h0

/-! ### Submissions sent before the manager is dropped -/

/-- Submissions of `job` by `ip` the manager has not handled yet. -/
def pendingSubs (ip : String) (j : Nat) (q : Queue) : Nat := q.mailbox.count (.schedule ip j)

/-- Effect of a step without a crash on the answers. -/
theorem answers_step (p : Profile) {n ql : Nat} {q : Queue} {tr : List QEvent} (g : Good n ql q tr) (s : QStep) (hs : ∀ w, s ≠ .crash w)
    (hsub : ∀ ip j, s ≠ .submit ip j) (hcl : s ≠ .close) (ip : String) (j : Nat) :
    answersTo ip j (qStep p q s).2 + pendingSubs ip j (qStep p q s).1 = pendingSubs ip j q ∧ (qStep p q s).1.closed = q.closed := by
  have hnab := g.hi.ok.2
  unfold qStep
  rw [if_neg hnab]
  cases s with
  | submit a b => exact absurd rfl (hsub a b)
  | crash w => exact absurd rfl (hs w)
  | close => exact absurd rfl hcl
  | manage =>
    simp only
    unfold Queue.manage
    split
    · rename_i hrun
      have ha := allAlive g.hi g.li hrun
      have hg : q.someGone = false := by
        simp only [Queue.someGone, List.any_eq_false, bne_iff_ne, ne_eq, Decidable.not_not]
        exact ha
      cases hm : q.mailbox with
      | nil => simp [answersTo, pendingSubs]
      | cons m rest =>
        cases m with
        | stop => simp [hg, answersTo, pendingSubs, hm, List.count_cons]
        | dispatch name =>
          simp only
          obtain ⟨im, ev, hd⟩ := dispatchTo_ret p q.inner g.qi.inv (g.qi.mail name (by rw [hm]; simp)) ha name
          have d := dispatchTo_disp p q.inner g.qi.inv name im ev hd
          rw [hd]
          simp [(disp_quiet d).2.2, pendingSubs, hm, List.count_cons]
        | schedule ip' job =>
          simp only
          obtain ⟨im, ev, hd⟩ := schedule_ret p q.inner g.qi.inv ha ip' job
          rw [hd]
          rcases schedule_cases p q.inner im g.qi.inv ip' job ev hd with ⟨-, rfl, rfl⟩ | ⟨hl, ev', rfl, d⟩
          · simp only [pendingSubs, hm, List.count_cons, answersTo, List.count_nil]
            refine ⟨?_, trivial⟩
            by_cases e : ip' = ip ∧ job = j
            · obtain ⟨rfl, rfl⟩ := e; simp; omega
            · have : ¬ (ip' = ip ∧ job = j) := e
              simp [this]
          · have hz := (disp_quiet d).2.2 ip j
            simp only [answersTo, Nat.add_eq_zero_iff] at hz
            simp only [pendingSubs, hm, List.count_cons, answersTo, hz.1, hz.2]
            refine ⟨?_, trivial⟩
            by_cases e : ip' = ip ∧ job = j
            · obtain ⟨rfl, rfl⟩ := e; simp; omega
            · have : ¬ (ip' = ip ∧ job = j) := e
              simp [this]
    · simp [answersTo]
  | take w =>
    simp only [Queue.take]
    split
    · simp [answersTo]
    · split
      · split
        · simp [answersTo]
        · simp [answersTo, pendingSubs, Queue.setWorker]
        · simp [answersTo, pendingSubs, Queue.setWorker, List.count_cons]
      · simp [answersTo]
  | finish w =>
    simp only [Queue.finish]
    split
    · simp [answersTo]
    · split
      · simp [answersTo]
      · split
        · simp [answersTo, pendingSubs, Queue.setWorker, List.count_cons, List.count_append]
        · simp [answersTo, pendingSubs, Queue.setWorker, List.count_cons]
  | joined =>
    simp only
    split
    · split
      · simp [answersTo, pendingSubs]
      · split <;> simp [answersTo, pendingSubs]
    · simp [answersTo]

/-- The manager has not been dropped. -/
structure OpenQ (q : Queue) : Prop where
  op : q.closed = false
  run : q.status = .running
  stop : InnerMsg.stop ∉ q.mailbox

/-- The manager has been dropped; nothing was submitted afterwards. -/
structure ClosedQ (q : Queue) : Prop where
  cl : q.closed = true
  run : q.status = .running → ∃ a b, q.mailbox = a ++ .stop :: b ∧ InnerMsg.stop ∉ a ∧ ∀ ip j, InnerMsg.schedule ip j ∉ b
  done : q.status ≠ .running → ∀ ip j, InnerMsg.schedule ip j ∉ q.mailbox

/-- How a step without crash, submission or drop changes mailbox and status. -/
theorem mail_moves (p : Profile) {n ql : Nat} {q : Queue} {tr : List QEvent} (g : Good n ql q tr) (s : QStep) (hs : ∀ w, s ≠ .crash w)
    (hsub : ∀ ip j, s ≠ .submit ip j) (hcl : s ≠ .close) :
    ((qStep p q s).1.status = q.status ∧ ∃ e, (qStep p q s).1.mailbox = q.mailbox ++ e ∧ ∀ m ∈ e, ∃ w, m = .dispatch w) ∨
    (q.status = .running ∧ ∃ m rest, q.mailbox = m :: rest ∧ (qStep p q s).1.mailbox = rest ∧
      (qStep p q s).1.status = (if m = .stop then .stopping else .running)) ∨
    (q.status ≠ .running ∧ (qStep p q s).1.status ≠ .running ∧ (qStep p q s).1.mailbox = q.mailbox) := by
  have hnab := g.hi.ok.2
  have hid : q.status = q.status ∧ ∃ e, q.mailbox = q.mailbox ++ e ∧ ∀ m ∈ e, ∃ w, m = InnerMsg.dispatch w := ⟨rfl, [], by simp⟩
  unfold qStep
  rw [if_neg hnab]
  cases s with
  | submit a b => exact absurd rfl (hsub a b)
  | crash w => exact absurd rfl (hs w)
  | close => exact absurd rfl hcl
  | manage =>
    simp only
    by_cases hr : q.status = .running
    · cases hm : q.mailbox with
      | nil =>
        left
        have : q.manage p = (q, []) := by unfold Queue.manage; rw [if_pos hr, hm]
        rw [this]; exact ⟨rfl, [], by simp [hm]⟩
      | cons m rest =>
        obtain ⟨h1, h2, h3⟩ := manage_alive p g.qi (allAlive g.hi g.li hr) hr m rest hm
        exact .inr (.inl ⟨hr, m, rest, rfl, h1, h3⟩)
    · left
      have : q.manage p = (q, []) := by unfold Queue.manage; rw [if_neg hr]
      rw [this]; exact hid
  | take w =>
    left
    simp only [Queue.take]
    split
    · exact hid
    · split
      · split <;> exact hid
      · exact hid
  | finish w =>
    left
    simp only [Queue.finish]
    split
    · exact hid
    · split
      · exact hid
      · split
        · exact ⟨rfl, [.dispatch w], rfl, by simp⟩
        · exact hid
  | joined =>
    simp only
    split
    · rename_i hst
      have hne : q.status ≠ .running := by rw [hst]; simp
      split
      · exact .inr (.inr ⟨hne, by simp, rfl⟩)
      · split
        · exact .inr (.inr ⟨hne, by simp, rfl⟩)
        · exact .inl hid
    · exact .inl hid

theorem open_run (p : Profile) {n ql : Nat} (steps : List QStep) {q : Queue} {tr : List QEvent} (g : Good n ql q tr) (ho : OpenQ q)
    (hc : noCrash steps) (hcl : QStep.close ∉ steps) :
    OpenQ (qRun p q steps).1 ∧ ∀ ip j, answersTo ip j (qRun p q steps).2 + pendingSubs ip j (qRun p q steps).1 =
      pendingSubs ip j q + steps.count (.submit ip j) := by
  induction steps generalizing q tr with
  | nil => exact ⟨ho, fun ip j => by simp [qRun, answersTo]⟩
  | cons s r ih =>
    have hc' : noCrash r := fun w h => hc w (List.mem_cons_of_mem _ h)
    have hs : ∀ w, s ≠ .crash w := fun w e => hc w (by rw [e]; simp)
    have hne : s ≠ .close := fun e => hcl (by rw [e]; simp)
    have g' := good_step p g s hs
    have key : OpenQ (qStep p q s).1 ∧ ∀ ip j, answersTo ip j (qStep p q s).2 + pendingSubs ip j (qStep p q s).1 =
        pendingSubs ip j q + [s].count (.submit ip j) := by
      by_cases hsb : ∃ ip j, s = .submit ip j
      · obtain ⟨ip, j, rfl⟩ := hsb
        have e : qStep p q (.submit ip j) = ({ q with mailbox := q.mailbox ++ [.schedule ip j] }, []) := by
          unfold qStep
          rw [if_neg g.hi.ok.2]
          simp only
          rw [if_pos ⟨ho.op, by simp [Queue.listening, ho.run]⟩]
        rw [e]
        refine ⟨⟨ho.op, ho.run, by simpa using ho.stop⟩, fun ip' j' => ?_⟩
        by_cases e' : ip = ip' ∧ j = j'
        · obtain ⟨rfl, rfl⟩ := e'; simp [answersTo, pendingSubs]
        · simp [answersTo, pendingSubs, List.count_cons, List.count_append, e']
      · have hsub : ∀ ip j, s ≠ .submit ip j := fun ip j e => hsb ⟨ip, j, e⟩
        constructor
        · have hclosed := (answers_step p g s hs hsub hne "" 0).2
          rcases mail_moves p g s hs hsub hne with ⟨h1, e, h2, h3⟩ | ⟨h1, m, rest, h2, h3, h4⟩ | ⟨h1, -, -⟩
          · refine ⟨hclosed.trans ho.op, h1.trans ho.run, ?_⟩
            rw [h2]
            intro hm
            rcases List.mem_append.1 hm with hm | hm
            · exact ho.stop hm
            · obtain ⟨w, hw⟩ := h3 _ hm; cases hw
          · have hm : m ≠ .stop := fun e => ho.stop (by rw [h2, e]; simp)
            refine ⟨hclosed.trans ho.op, by rw [h4, if_neg hm], ?_⟩
            rw [h3]
            exact fun h => ho.stop (by rw [h2]; exact List.mem_cons_of_mem _ h)
          · exact absurd ho.run h1
        · intro ip j
          rw [(answers_step p g s hs hsub hne ip j).1]
          have : ¬ s = .submit ip j := hsub ip j
          simp [List.count_cons, this]
    obtain ⟨i1, i2⟩ := ih g' key.1 hc' (fun h => hcl (List.mem_cons_of_mem _ h))
    refine ⟨i1, fun ip j => ?_⟩
    have k2 := key.2 ip j
    have i2 := i2 ip j
    have : (s :: r).count (.submit ip j) = [s].count (.submit ip j) + r.count (.submit ip j) := by
      rw [show s :: r = [s] ++ r from rfl, List.count_append]
    rw [this]
    simp only [qRun, answersTo_append]
    omega

theorem closed_run (p : Profile) {n ql : Nat} (steps : List QStep) {q : Queue} {tr : List QEvent} (g : Good n ql q tr) (ho : ClosedQ q)
    (hc : noCrash steps) :
    ClosedQ (qRun p q steps).1 ∧ ∀ ip j, answersTo ip j (qRun p q steps).2 + pendingSubs ip j (qRun p q steps).1 = pendingSubs ip j q := by
  induction steps generalizing q tr with
  | nil => exact ⟨ho, fun ip j => by simp [qRun, answersTo]⟩
  | cons s r ih =>
    have hc' : noCrash r := fun w h => hc w (List.mem_cons_of_mem _ h)
    have hs : ∀ w, s ≠ .crash w := fun w e => hc w (by rw [e]; simp)
    have g' := good_step p g s hs
    have key : ClosedQ (qStep p q s).1 ∧ ∀ ip j, answersTo ip j (qStep p q s).2 + pendingSubs ip j (qStep p q s).1 = pendingSubs ip j q := by
      by_cases hsb : (∃ ip j, s = .submit ip j) ∨ s = .close
      · have e : qStep p q s = (q, []) := by
          unfold qStep
          rw [if_neg g.hi.ok.2]
          rcases hsb with ⟨ip, j, rfl⟩ | rfl
          · simp only; rw [if_neg (by rw [ho.cl]; simp)]
          · simp only; rw [if_neg (by rw [ho.cl]; simp)]
        rw [e]
        exact ⟨ho, fun ip j => by simp [answersTo]⟩
      · have hsub : ∀ ip j, s ≠ .submit ip j := fun ip j e => hsb (.inl ⟨ip, j, e⟩)
        have hne : s ≠ .close := fun e => hsb (.inr e)
        refine ⟨?_, fun ip j => (answers_step p g s hs hsub hne ip j).1⟩
        have hclosed := (answers_step p g s hs hsub hne "" 0).2
        rcases mail_moves p g s hs hsub hne with ⟨h1, e, h2, h3⟩ | ⟨h1, m, rest, h2, h3, h4⟩ | ⟨h1, h2, h3⟩
        · have hd : ∀ ip j, InnerMsg.schedule ip j ∉ e := fun ip j hm => by obtain ⟨w, hw⟩ := h3 _ hm; cases hw
          refine ⟨hclosed.trans ho.cl, ?_, ?_⟩
          · intro hr
            obtain ⟨a, b, hab, ha, hb⟩ := ho.run (h1 ▸ hr)
            refine ⟨a, b ++ e, by rw [h2, hab]; simp, ha, fun ip j hm => ?_⟩
            rcases List.mem_append.1 hm with hm | hm
            · exact hb ip j hm
            · exact hd ip j hm
          · intro hr ip j hm
            rw [h2] at hm
            rcases List.mem_append.1 hm with hm | hm
            · exact ho.done (h1 ▸ hr) ip j hm
            · exact hd ip j hm
        · obtain ⟨a, b, hab, ha, hb⟩ := ho.run h1
          refine ⟨hclosed.trans ho.cl, ?_, ?_⟩
          · intro hr
            rw [h4] at hr
            split at hr
            · cases hr
            · rename_i hm
              cases a with
              | nil => rw [hab] at h2; simp only [List.nil_append, List.cons.injEq] at h2; exact absurd h2.1.symm hm
              | cons x a' =>
                rw [hab] at h2
                simp only [List.cons_append, List.cons.injEq] at h2
                exact ⟨a', b, by rw [h3, ← h2.2], fun h => ha (List.mem_cons_of_mem _ h), hb⟩
          · intro hr ip j hmem
            rw [h4] at hr
            split at hr
            · rename_i hm
              rw [h3] at hmem
              cases a with
              | nil =>
                rw [hab] at h2
                simp only [List.nil_append, List.cons.injEq] at h2
                exact hb ip j (h2.2 ▸ hmem)
              | cons x a' =>
                rw [hab] at h2
                simp only [List.cons_append, List.cons.injEq] at h2
                exact absurd (by rw [h2.1, hm]; simp) ha
            · exact absurd rfl hr
        · exact ⟨hclosed.trans ho.cl, fun hr => absurd hr h2, fun _ ip j hm => ho.done h1 ip j (h3 ▸ hm)⟩
    obtain ⟨i1, i2⟩ := ih g' key.1 hc'
    refine ⟨i1, fun ip j => ?_⟩
    have k2 := key.2 ip j
    have i2 := i2 ip j
    simp only [qRun, answersTo_append]
    omega

/-! ### After the manager thread panicked -/

theorem orphan_step (p : Profile) {n ql : Nat} {q : Queue} {tr : List QEvent} (hi : QInv n ql q tr) (h : q.status = .panicked) (s : QStep)
    (w : Nat) :
    (qStep p q s).1.status = .panicked ∧
    (((ranBy w (qStep p q s).2) = [] ∧ ((∀ r, q.inner.runners[w]? = some r → r.status ≠ .alive) →
        ∀ r, (qStep p q s).1.inner.runners[w]? = some r → r.status ≠ .alive)) ∨
     ((ranBy w (qStep p q s).2).length = 1 ∧ (∃ r, q.inner.runners[w]? = some r ∧ r.status = .alive) ∧
        ∀ r, (qStep p q s).1.inner.runners[w]? = some r → r.status ≠ .alive)) := by
  have hid : q.status = .panicked ∧ (((ranBy w ([] : List QEvent)) = [] ∧ ((∀ r, q.inner.runners[w]? = some r → r.status ≠ .alive) →
        ∀ r, q.inner.runners[w]? = some r → r.status ≠ .alive)) ∨
     ((ranBy w ([] : List QEvent)).length = 1 ∧ (∃ r, q.inner.runners[w]? = some r ∧ r.status = .alive) ∧
        ∀ r, q.inner.runners[w]? = some r → r.status ≠ .alive)) := ⟨h, .inl ⟨rfl, id⟩⟩
  have hlis : ¬ q.listening = true := by simp [Queue.listening, h]
  unfold qStep
  rw [if_neg (by rw [h]; simp)]
  cases s with
  | submit ip j => simp only; rw [if_neg (fun e => hlis e.2)]; exact hid
  | manage =>
    simp only [Queue.manage]; rw [if_neg (by rw [h]; simp)]; exact hid
  | close => simp only; rw [if_neg (fun e => hlis e.2)]; exact hid
  | joined => simp only; rw [if_neg (by rw [h]; simp)]; exact hid
  | take w' =>
    simp only [Queue.take]
    split
    · exact hid
    · rename_i r hr
      split
      · rename_i hal
        have hset : ∀ (x : Worker) (hx : (∀ r, q.inner.runners[w]? = some r → r.status ≠ .alive) ) (y : Worker),
            (q.setWorker w' x).inner.runners[w]? = some y → y.status ≠ .alive := by
          intro x hx y hy
          rcases set_back hy with ⟨rfl, -⟩ | ⟨-, hy⟩
          · exact absurd hal.1 (hx r hr)
          · exact hx y hy
        split
        · exact hid
        · exact ⟨h, .inl ⟨rfl, hset _⟩⟩
        · exact ⟨h, .inl ⟨rfl, hset _⟩⟩
      · exact hid
  | finish w' =>
    simp only [Queue.finish]
    split
    · exact hid
    · rename_i r hr
      split
      · exact hid
      · rename_i job hj
        rw [if_neg hlis]
        refine ⟨h, ?_⟩
        have hal := hi.act w' r hr (by rw [hj]; simp)
        by_cases e : w' = w
        · subst e
          right
          refine ⟨by simp [ranBy], ⟨r, hr, hal⟩, fun y hy => ?_⟩
          rcases set_back hy with ⟨-, rfl⟩ | ⟨h1, -⟩
          · simp
          · exact absurd rfl h1
        · left
          refine ⟨by simp [ranBy, e], fun hx y hy => ?_⟩
          rcases set_back hy with ⟨h1, -⟩ | ⟨-, hy⟩
          · exact absurd h1 e
          · exact hx y hy
  | crash w' =>
    simp only [Queue.crash]
    split
    · exact hid
    · rename_i r hr
      split
      · exact hid
      · refine ⟨h, .inl ⟨rfl, fun hx y hy => ?_⟩⟩
        rcases set_back hy with ⟨-, rfl⟩ | ⟨-, hy⟩
        · simp
        · exact hx y hy

theorem orphan_run (p : Profile) {n ql : Nat} (steps : List QStep) {q : Queue} {tr : List QEvent} (hi : QInv n ql q tr)
    (h : q.status = .panicked) (w : Nat) :
    (qRun p q steps).1.status = .panicked ∧ (ranBy w (qRun p q steps).2).length ≤ 1 ∧
    ((∀ r, q.inner.runners[w]? = some r → r.status ≠ .alive) → ranBy w (qRun p q steps).2 = []) := by
  induction steps generalizing q tr with
  | nil => exact ⟨h, by simp [qRun, ranBy], fun _ => rfl⟩
  | cons s r ih =>
    obtain ⟨h1, h2⟩ := orphan_step p hi h s w
    obtain ⟨i1, i2, i3⟩ := ih (qinv_step p hi s) h1
    refine ⟨i1, ?_, ?_⟩
    · simp only [qRun, ranBy_append, List.length_append]
      rcases h2 with ⟨e, -⟩ | ⟨e, -, hd⟩
      · rw [e]; simpa using i2
      · rw [e, i3 hd]; simp
    · intro hx
      simp only [qRun, ranBy_append]
      rcases h2 with ⟨e, hd⟩ | ⟨-, ⟨x, hr, ha⟩, -⟩
      · rw [e, i3 (hd hx)]; rfl
      · exact absurd ha (hx x hr)

end MCap
