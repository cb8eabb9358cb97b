import Verif.Proofs.SystemAnswer

namespace MCap
open Spec

/-! ### The addresses in the queue are addresses of callers -/

theorem nodup_subset_length {α : Type} [DecidableEq α] : ∀ (l m : List α), l.Nodup → (∀ x ∈ l, x ∈ m) → l.length ≤ m.length
  | [], _, _, _ => Nat.zero_le _
  | a :: l, m, hn, hs => by
    have ha : a ∈ m := hs a List.mem_cons_self
    have hn := List.nodup_cons.1 hn
    have := nodup_subset_length l (m.erase a) hn.2 (by
      intro x hx
      refine (List.mem_erase_of_ne ?_).2 (hs x (List.mem_cons_of_mem _ hx))
      rintro rfl; exact hn.1 hx)
    have hl := List.length_erase_of_mem ha
    have : 0 < m.length := List.length_pos_of_mem ha
    simp only [List.length_cons]
    omega

/-- Where messages and answers of the queue come from. -/
def MailFrom (q q' : Queue) (s : QStep) (ev : List QEvent) : Prop :=
  ∀ ip j, (InnerMsg.schedule ip j ∈ q'.mailbox → InnerMsg.schedule ip j ∈ q.mailbox ∨ s = .submit ip j) ∧
    (QEvent.accepted ip j ∈ ev ∨ QEvent.refused ip j ∈ ev → InnerMsg.schedule ip j ∈ q.mailbox)

theorem mail_from (p : Profile) {n ql : Nat} {q : Queue} {tr : List QEvent} (hi : QInv n ql q tr) (s : QStep) :
    MailFrom q (qStep p q s).1 s (qStep p q s).2 := by
  have hidle : MailFrom q q s [] := fun ip j => ⟨.inl, by simp⟩
  have hdisp : ∀ {im im' : Inner} {ev : List QEvent} {k : Nat}, Disp im im' ev k → ∀ ip j, ¬ (QEvent.accepted ip j ∈ ev ∨ QEvent.refused ip j ∈ ev) := by
    intro im im' ev k d ip j h
    rcases h with h | h <;> rcases d.only _ h with ⟨_, e⟩ | ⟨_, _, _, e⟩ <;> cases e
  unfold qStep
  split
  · exact hidle
  cases s with
  | submit ip job =>
    simp only
    split
    · intro ip' j
      refine ⟨?_, by simp⟩
      intro h
      rcases List.mem_append.1 h with h | h
      · exact .inl h
      · simp at h; obtain ⟨rfl, rfl⟩ := h; exact .inr rfl
    · exact hidle
  | manage =>
    simp only [Queue.manage]
    split
    · cases hm : q.mailbox with
      | nil => exact hidle
      | cons m rest =>
        have hrest : ∀ (q' : Queue) (ev : List QEvent), q'.mailbox = rest → (∀ ip j, ¬ (QEvent.accepted ip j ∈ ev ∨ QEvent.refused ip j ∈ ev)) →
            MailFrom q q' .manage ev := by
          intro q' ev h1 h2 ip j
          rw [h1, hm]
          exact ⟨fun h => .inl (List.mem_cons_of_mem _ h), fun h => absurd h (h2 ip j)⟩
        cases m with
        | stop =>
          simp only
          split <;> exact hrest _ _ rfl (by simp)
        | dispatch name =>
          simp only
          cases hd : q.inner.dispatchTo p name with
          | panic w => exact hrest _ _ rfl (by simp)
          | ret a =>
            obtain ⟨im, ev⟩ := a
            obtain ⟨k, d⟩ := dispatchTo_dispk p q.inner hi.inv name im ev hd
            exact hrest _ _ rfl (hdisp d)
        | schedule ip job =>
          simp only
          cases hd : q.inner.schedule p ip job with
          | panic w => exact hrest _ _ rfl (by simp)
          | ret a =>
            obtain ⟨im, ev⟩ := a
            rcases schedule_cases p q.inner im hi.inv ip job ev hd with ⟨-, rfl, rfl⟩ | ⟨hl, ev', rfl, d⟩
            · intro ip' j
              rw [hm]
              refine ⟨fun h => .inl (List.mem_cons_of_mem _ h), ?_⟩
              intro h
              simp at h
              rw [h.1, h.2]; exact List.mem_cons_self
            · intro ip' j
              rw [hm]
              refine ⟨fun h => .inl (List.mem_cons_of_mem _ h), ?_⟩
              intro h
              have : ip' = ip ∧ j = job := by
                rcases h with h | h <;> rcases List.mem_cons.1 h with e | h
                · simpa using e
                · exact absurd (.inl h) (hdisp d ip' j)
                · cases e
                · exact absurd (.inr h) (hdisp d ip' j)
              rw [this.1, this.2]; exact List.mem_cons_self
    · exact hidle
  | take w =>
    simp only [Queue.take]
    split
    · exact hidle
    · split
      · split
        · exact hidle
        · exact fun ip j => ⟨.inl, by simp⟩
        · exact fun ip j => ⟨.inl, by simp⟩
      · exact hidle
  | finish w =>
    simp only [Queue.finish]
    split
    · exact hidle
    · split
      · exact hidle
      · split
        · exact fun ip j => ⟨fun h => .inl (by simpa using h), by simp⟩
        · exact fun ip j => ⟨.inl, by simp⟩
  | crash w =>
    simp only [Queue.crash]
    split
    · exact hidle
    · split
      · exact hidle
      · exact fun ip j => ⟨.inl, by simp⟩
  | close =>
    simp only
    split
    · exact fun ip j => ⟨fun h => .inl (by simpa using h), by simp⟩
    · exact hidle
  | joined =>
    simp only
    split
    · split
      · exact fun ip j => ⟨.inl, by simp⟩
      · split
        · exact fun ip j => ⟨.inl, by simp⟩
        · exact hidle
    · exact hidle

/-- The jobs of the queue are those of `verify_pow` calls, under the address these were called with. -/
structure AddrInv (s : Sys) (log : List SEvent) : Prop where
  mail : ∀ ip j, InnerMsg.schedule ip j ∈ s.queue.mailbox → ∃ work, .call j (.verify work ip) ∈ log
  acc : ∀ ip j, .queue (.accepted ip j) ∈ log ∨ .queue (.refused ip j) ∈ log → ∃ work, .call j (.verify work ip) ∈ log

theorem local_noqueue {lib : PowLib} {i : Nat} {c c' : Call} {ev : List SEvent} (m : Local lib i c c' ev) (e : QEvent) : .queue e ∉ ev := by
  cases m <;> simp

theorem addr_move {lib : PowLib} {p : Profile} {n ql : Nat} {s s' : Sys} {log ev : List SEvent} (hq : QInv n ql s.queue (queueTrace log))
    (hc : ∀ (i : Nat) (c : Call), s.calls[i]? = some c → .call i c.api ∈ log) (h : AddrInv s log) (m : Move lib p s s' ev) : AddrInv s' (log ++ ev) := by
  have hsame : ∀ (s' : Sys) (ev : List SEvent), s'.queue = s.queue → (∀ e, .queue e ∉ ev) → AddrInv s' (log ++ ev) := by
    intro s' ev h1 h2
    refine ⟨?_, ?_⟩
    · intro ip j hm
      rw [h1] at hm
      exact (h.mail ip j hm).imp fun _ h => List.mem_append_left _ h
    · intro ip j hm
      have : .queue (.accepted ip j) ∈ log ∨ .queue (.refused ip j) ∈ log :=
        hm.imp (fun hm => (List.mem_append.1 hm).elim (fun h => h) fun x => absurd x (h2 _))
          (fun hm => (List.mem_append.1 hm).elim (fun h => h) fun x => absurd x (h2 _))
      exact (h.acc ip j this).imp fun _ h => List.mem_append_left _ h
  have hqueue : ∀ (s' : Sys) (qs : QStep), s'.queue = (qStep p s.queue qs).1 →
      (∀ ip j, qs = .submit ip j → ∃ work, .call j (.verify work ip) ∈ log) → AddrInv s' (log ++ (qStep p s.queue qs).2.map .queue) := by
    intro s' qs h1 h2
    have hf := mail_from p hq qs
    refine ⟨?_, ?_⟩
    · intro ip j hm
      rw [h1] at hm
      have : ∃ work, .call j (.verify work ip) ∈ log := by
        rcases (hf ip j).1 hm with hm | hm
        · exact h.mail ip j hm
        · exact h2 ip j hm
      exact this.imp fun _ h => List.mem_append_left _ h
    · intro ip j hm
      have : ∃ work, .call j (.verify work ip) ∈ log := by
        rcases hm with hm | hm <;> rcases List.mem_append.1 hm with hm | hm
        · exact h.acc ip j (.inl hm)
        · exact h.mail ip j ((hf ip j).2 (.inl (by simpa using hm)))
        · exact h.acc ip j (.inr hm)
        · exact h.mail ip j ((hf ip j).2 (.inr (by simpa using hm)))
      exact this.imp fun _ h => List.mem_append_left _ h
  cases m with
  | idle => exact hsame s [] rfl (by simp)
  | «local» i c c' ev hi m => exact hsame _ _ rfl (local_noqueue m)
  | start a hcl => exact hsame _ _ rfl (by simp)
  | cache i c m k hi h2 => exact hsame _ _ rfl (by simp)
  | submit i c work ip cfg hi h1 h2 hk hl hq hcl =>
    refine hqueue _ _ rfl ?_
    intro ip' j e
    cases e
    exact ⟨work, h1 ▸ hc i c hi⟩
  | panic i c cfg work ip hi h1 h2 hl hq hcl => exact hsame _ _ rfl (by simp)
  | queue qs hm =>
    refine hqueue _ _ rfl ?_
    rintro ip j rfl
    simp [Sys.mayStep] at hm
  | shutdown hs => exact hqueue _ _ rfl (by simp)
  | expire k => exact hsame _ _ rfl (by simp)
  | tick d => exact hsame _ _ rfl (by simp)

/-- Induction over the executions, with everything known about the states on the way. -/
theorem run_induct (lib : PowLib) (p : Profile) (n ql now : Nat) (P : Sys → List SEvent → Prop)
    (h0 : P (Sys.new n ql now) [])
    (h1 : ∀ steps s' ev, P (sysRun lib p (Sys.new n ql now) steps).1 (sysRun lib p (Sys.new n ql now) steps).2 →
      Move lib p (sysRun lib p (Sys.new n ql now) steps).1 s' ev → P s' ((sysRun lib p (Sys.new n ql now) steps).2 ++ ev))
    (steps : List SStep) : P (sysRun lib p (Sys.new n ql now) steps).1 (sysRun lib p (Sys.new n ql now) steps).2 := by
  suffices h : ∀ (r d : List SStep), P (sysRun lib p (Sys.new n ql now) d).1 (sysRun lib p (Sys.new n ql now) d).2 →
      P (sysRun lib p (Sys.new n ql now) (d ++ r)).1 (sysRun lib p (Sys.new n ql now) (d ++ r)).2 by
    simpa using h steps [] h0
  intro r
  induction r with
  | nil => intro d hd; simpa using hd
  | cons st r ih =>
    intro d hd
    have := ih (d ++ [st]) (by
      have := h1 d _ _ hd (sysStep_move lib p _ st)
      rw [sysRun_append]
      simpa [sysRun] using this)
    simpa using this

theorem addr_new (lib : PowLib) (p : Profile) (n ql now : Nat) (steps : List SStep) :
    AddrInv (sysRun lib p (Sys.new n ql now) steps).1 (sysRun lib p (Sys.new n ql now) steps).2 :=
  run_induct lib p n ql now AddrInv ⟨by simp [Sys.new, Queue.new], by simp⟩
    (fun d _ _ h m => addr_move (sys_qinv lib p n ql now d).1 (fun i c hc => ((facts lib p n ql now d).si.calls i c hc).1) h m) steps

theorem mem_acceptedIps {tr : List QEvent} {ip : String} : ip ∈ acceptedIps tr ↔ ∃ j, .accepted ip j ∈ tr := by
  simp only [acceptedIps, List.mem_filterMap]
  constructor
  · rintro ⟨x, hx, h⟩
    cases x <;> simp at h
    subst h; exact ⟨_, hx⟩
  · rintro ⟨j, h⟩; exact ⟨_, h, rfl⟩

/-- At least as many workers as addresses of callers: nothing waits in the queues of the clients. -/
theorem few_addresses (lib : PowLib) (p : Profile) (n ql now : Nat) (steps : List SStep)
    (h : (addresses (sysRun lib p (Sys.new n ql now) steps).2).length ≤ n) (ip : String) :
    waitingOf (sysRun lib p (Sys.new n ql now) steps).1.queue ip = [] := by
  have hq := (sys_qinv lib p n ql now steps).1
  have ha := addr_new lib p n ql now steps
  obtain ⟨qs, h1, -⟩ := queue_run lib p (Sys.new n ql now) steps
  have hf := few_new p n ql qs
  rw [show Queue.new n ql = (Sys.new n ql now).queue from rfl, h1] at hf
  refine hf (Nat.le_trans ?_ h) ip
  refine nodup_subset_length _ _ hq.inv.nd ?_
  intro x hx
  rw [hq.ipsEq, List.mem_eraseDups, mem_acceptedIps] at hx
  obtain ⟨j, hj⟩ := hx
  obtain ⟨work, hw⟩ := ha.acc x j (.inl (mem_queueTrace.1 hj))
  rw [addresses, List.mem_eraseDups, List.mem_filterMap]
  exact ⟨_, hw, rfl⟩

/-! ### Nothing comes from a cancelled call -/

/-- A cancelled call stays cancelled and says nothing more. -/
structure GoneInv (s : Sys) (log : List SEvent) : Prop where
  gone : ∀ i, .cancelled i ∈ log → ∃ c, s.calls[i]? = some c ∧ c.live = false
  quiet : ∀ pre e post, log = pre ++ e :: post → ∀ i, .cancelled i ∈ pre → (∀ a r, e ≠ .ret i a r) ∧ e ≠ .panicked i ∧ e ≠ .cancelled i

theorem local_live {lib : PowLib} {i : Nat} {c c' : Call} {ev : List SEvent} (m : Local lib i c c' ev) :
    (c.live = false → c'.live = false) ∧
    (∀ e ∈ ev, ∀ j, (∃ a r, e = .ret j a r) ∨ e = .panicked j ∨ e = .cancelled j → j = i ∧ c.live = true) ∧
    (∀ j, .cancelled j ∈ ev → c'.live = false) ∧
    (∀ pre e post, ev = pre ++ e :: post → ∀ j, .cancelled j ∉ pre) := by
  have hone : ∀ (x : SEvent) pre e post, [x] = pre ++ e :: post → ∀ j, SEvent.cancelled j ∉ pre := by
    intro x pre e post h
    cases pre with
    | nil => simp
    | cons a b => simp at h
  cases m with
  | masterErr id a r h1 h2 hl h3 =>
    refine ⟨by simp [hl], ?_, by simp, ?_⟩
    · intro e he j hj
      simp at he
      rcases he with rfl | rfl <;> simp at hj
      exact ⟨hj.symm, hl⟩
    · intro pre e post h j hj
      rcases pre with _ | ⟨a, _ | ⟨b, pre⟩⟩ <;> simp at h hj
      · rw [← h.1] at hj; cases hj
  | masterOk id r g h1 h2 hl => exact ⟨by simp [hl], by simp, by simp, hone _⟩
  | retPow r cfg h2 hl => exact ⟨by simp [hl], by simp [hl], by simp, hone _⟩
  | notFound work ip h1 h2 hl => exact ⟨by simp [hl], by simp [hl], by simp, hone _⟩
  | wrongKey work ip cfg h1 h2 hk hl => exact ⟨by simp [hl], by simp [hl], by simp, hone _⟩
  | stored r t d h2 hl => exact ⟨by simp [hl], by simp [hl], by simp, hone _⟩
  | checked b h2 hl => exact ⟨by simp [hl], by simp [hl], by simp, hone _⟩
  | accepted cfg h2 hl => exact ⟨by simp [hl], by simp, by simp, by simp⟩
  | refused cfg h2 hl => exact ⟨by simp [hl], by simp [hl], by simp, hone _⟩
  | lost cfg h2 hl => exact ⟨by simp [hl], by simp [hl], by simp, hone _⟩
  | pollNone cfg job ch h2 hj hr hl => exact ⟨by simp [hl], by simp, by simp, by simp⟩
  | pollBad cfg job ch h2 hj hr hl => exact ⟨by simp [hl], by simp [hl], by simp, hone _⟩
  | pollGood cfg job ch g h2 hj hr hl => exact ⟨by simp [hl], by simp, by simp, by simp⟩
  | gone m k r h2 hl hr => exact ⟨by simp [hl], by simp [hl], by simp, hone _⟩
  | work job ch hj hf => exact ⟨fun h => h, by simp, by simp, by simp⟩
  | cancel hl hd => exact ⟨by simp, by simp [hl], by simp, hone _⟩

theorem gone_ext {s s' : Sys} {log ev : List SEvent} (h : GoneInv s log)
    (h1 : ∀ (i : Nat) (c : Call), s.calls[i]? = some c → c.live = false → ∃ c' : Call, s'.calls[i]? = some c' ∧ c'.live = false)
    (h2 : ∀ e ∈ ev, ∀ j, (∃ a r, e = .ret j a r) ∨ e = .panicked j ∨ e = .cancelled j → ∃ c : Call, s.calls[j]? = some c ∧ c.live = true)
    (h3 : ∀ j, .cancelled j ∈ ev → ∃ c' : Call, s'.calls[j]? = some c' ∧ c'.live = false)
    (h4 : ∀ pre e post, ev = pre ++ e :: post → ∀ j, .cancelled j ∉ pre) : GoneInv s' (log ++ ev) := by
  refine ⟨?_, ?_⟩
  · intro i hi
    rcases List.mem_append.1 hi with hi | hi
    · obtain ⟨c, hc, hl⟩ := h.gone i hi
      exact h1 i c hc hl
    · exact h3 i hi
  · intro pre e post hs i hi
    rcases append_split hs with ⟨c, e1, -⟩ | ⟨c, e1, e2⟩
    · exact h.quiet pre e c e1 i hi
    · rw [e1] at hi
      rcases List.mem_append.1 hi with hi | hi
      · obtain ⟨d, hd, hl⟩ := h.gone i hi
        have : ∀ (x : (∃ a r, e = .ret i a r) ∨ e = .panicked i ∨ e = .cancelled i), False := by
          intro x
          obtain ⟨d', hd', hl'⟩ := h2 e (by rw [e2]; simp) i x
          rw [hd] at hd'
          cases hd'
          rw [hl] at hl'; cases hl'
        exact ⟨fun a r e => this (.inl ⟨a, r, e⟩), fun e => this (.inr (.inl e)), fun e => this (.inr (.inr e))⟩
      · exact absurd hi (h4 c e post e2 i)

theorem gone_move {lib : PowLib} {p : Profile} {s s' : Sys} {log ev : List SEvent} (h : GoneInv s log) (m : Move lib p s s' ev) :
    GoneInv s' (log ++ ev) := by
  have hset : ∀ (q : Queue) (w : CacheWorld) (i : Nat) (c c' : Call), s.calls[i]? = some c → (c.live = false → c'.live = false) →
      ∀ (j : Nat) (d : Call), s.calls[j]? = some d → d.live = false →
        ∃ d' : Call, (({ s with queue := q, cache := w } : Sys).setCall i c').calls[j]? = some d' ∧ d'.live = false := by
    intro q w i c c' hc hl j d hd hld
    simp only [Sys.setCall, List.getElem?_set]
    by_cases e : i = j
    · subst e
      rw [hc] at hd
      cases hd
      exact ⟨c', by simp [lt_of_some hc], hl hld⟩
    · exact ⟨d, by simp [e, hd], hld⟩
  have hsettle : ∀ (q : Queue) (ev : List QEvent), ∀ (j : Nat) (d : Call), s.calls[j]? = some d → d.live = false →
        ∃ d' : Call, (s.calls.mapIdx (Call.settle q ev))[j]? = some d' ∧ d'.live = false := by
    intro q ev j d hd hl
    exact ⟨Call.settle q ev j d, by simp [hd], by rw [settle_live]; exact hl⟩
  have hq : ∀ (ev : List QEvent) (x : SEvent), x ∈ ev.map SEvent.queue → ∃ e, x = .queue e := by
    intro ev x hx
    obtain ⟨e, -, rfl⟩ := List.mem_map.1 hx
    exact ⟨e, rfl⟩
  cases m with
  | idle => exact gone_ext h (fun i c hc hl => ⟨c, hc, hl⟩) (by simp) (by simp) (by simp)
  | «local» i c c' ev hi m =>
    obtain ⟨a1, a2, a3, a4⟩ := local_live m
    refine gone_ext h (hset s.queue s.cache i c c' hi a1) ?_ ?_ a4
    · intro e he j hj
      obtain ⟨rfl, hl⟩ := a2 e he j hj
      exact ⟨c, hi, hl⟩
    · intro j hj
      obtain ⟨rfl, -⟩ := a2 _ hj j (.inr (.inr rfl))
      exact ⟨c', by simp [Sys.setCall, lt_of_some hi], a3 _ hj⟩
  | start a hcl =>
    refine gone_ext h ?_ (by simp) (by simp) ?_
    · intro i c hc hl
      exact ⟨c, by simp [List.getElem?_append_left (lt_of_some hc), hc], hl⟩
    · intro pre e post hs j hj
      cases pre with
      | nil => simp at hj
      | cons a b => simp at hs
  | cache i c m k hi h2 =>
    refine gone_ext h (hset s.queue _ i c _ hi (fun h => h)) (by simp) (by simp) ?_
    intro pre e post hs j hj
    cases pre with
    | nil => simp at hj
    | cons a b => simp at hs
  | submit i c work ip cfg hi h1 h2 hk hl hcl hst =>
    refine gone_ext h (hset _ s.cache i c _ hi (fun h => h)) ?_ ?_ ?_
    · intro e he j hj
      obtain ⟨x, rfl⟩ := hq _ _ he
      simp at hj
    · intro j hj; obtain ⟨x, e⟩ := hq _ _ hj; cases e
    · intro pre e post hs j hj
      have : SEvent.cancelled j ∈ (qStep p s.queue (.submit ip i)).2.map SEvent.queue := by rw [hs]; simp [hj]
      obtain ⟨x, e⟩ := hq _ _ this; cases e
  | panic i c cfg work ip hi h1 h2 hl hcl hst =>
    refine gone_ext h (hset s.queue s.cache i c _ hi (fun h => h)) ?_ (by simp) ?_
    · intro e he j hj
      simp at he
      subst he
      simp at hj
      subst hj
      exact ⟨c, hi, hl⟩
    · intro pre e post hs j hj
      cases pre with
      | nil => simp at hj
      | cons a b => simp at hs
  | queue qs hm =>
    refine gone_ext h (hsettle _ _) ?_ ?_ ?_
    · intro e he j hj
      obtain ⟨x, rfl⟩ := hq _ _ he
      simp at hj
    · intro j hj; obtain ⟨x, e⟩ := hq _ _ hj; cases e
    · intro pre e post hs j hj
      have : SEvent.cancelled j ∈ (qStep p s.queue qs).2.map SEvent.queue := by rw [hs]; simp [hj]
      obtain ⟨x, e⟩ := hq _ _ this; cases e
  | shutdown hs =>
    refine gone_ext h (hsettle _ _) ?_ ?_ ?_
    · intro e he j hj
      obtain ⟨x, rfl⟩ := hq _ _ he
      simp at hj
    · intro j hj; obtain ⟨x, e⟩ := hq _ _ hj; cases e
    · intro pre e post hs j hj
      have : SEvent.cancelled j ∈ (qStep p s.queue .close).2.map SEvent.queue := by rw [hs]; simp [hj]
      obtain ⟨x, e⟩ := hq _ _ this; cases e
  | expire k =>
    refine gone_ext h (fun i c hc hl => ⟨c, hc, hl⟩) ?_ ?_ ?_
    · intro e he j hj
      obtain ⟨x, -, rfl⟩ := List.mem_map.1 he
      simp at hj
    · intro j hj; simp at hj
    · intro pre e post hs j hj
      have : SEvent.cancelled j ∈ (cacheStep s.cache (.fire k)).2.map (fun (m, r) => SEvent.cache none m r) := by rw [hs]; simp [hj]
      simp at this
  | tick d => exact gone_ext h (fun i c hc hl => ⟨c, hc, hl⟩) (by simp) (by simp) (by simp)

theorem gone_new (lib : PowLib) (p : Profile) (n ql now : Nat) (steps : List SStep) :
    GoneInv (sysRun lib p (Sys.new n ql now) steps).1 (sysRun lib p (Sys.new n ql now) steps).2 :=
  run_induct lib p n ql now GoneInv ⟨by simp, by simp⟩ (fun _ _ _ h m => gone_move h m) steps

end MCap
