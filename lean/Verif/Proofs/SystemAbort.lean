import Verif.Proofs.SystemAnswer

namespace MCap
open Spec

/-! ### A call never finds the manager thread gone -/

/-- A call has found the manager thread gone. -/
def tellsGone : SEvent → Bool
  | .panicked _ => true
  | .ret _ _ (.verify (.error .recvError)) => true
  | _ => false

structure GInv (s : Sys) (log : List SEvent) : Prop where
  wait : s.queue.status ≠ .aborted → ∀ (i : Nat) (c : Call) (cfg : CachedPoWConfig), s.calls[i]? = some c → c.live = true → c.pc = .awaitAdd cfg →
    ∃ ip, InnerMsg.schedule ip i ∈ s.queue.mailbox
  lost : s.queue.status ≠ .aborted → ∀ (i : Nat) (c : Call) (cfg : CachedPoWConfig), s.calls[i]? = some c → c.live = true → c.pc ≠ .answered cfg .lost
  log : ∀ e ∈ log, tellsGone e = false

theorem ginv_set {s : Sys} {log ev : List SEvent} (h : GInv s log) {i : Nat} {c c' : Call} (hc : s.calls[i]? = some c)
    (h1 : ∀ cfg, c'.live = true → c'.pc = .awaitAdd cfg → c.pc = .awaitAdd cfg ∧ c.live = true)
    (h2 : ∀ cfg, c'.live = true → c'.pc = .answered cfg .lost → c.pc = .answered cfg .lost ∧ c.live = true)
    (hev : ∀ e ∈ ev, tellsGone e = false) (w : CacheWorld) : GInv (({ s with cache := w } : Sys).setCall i c') (log ++ ev) := by
  have hget : ∀ (j : Nat) (d : Call), (s.calls.set i c')[j]? = some d → (j = i ∧ d = c') ∨ s.calls[j]? = some d := by
    intro j d hd
    rw [List.getElem?_set] at hd
    split at hd
    · rename_i e
      subst e
      simp [lt_of_some hc] at hd
      exact .inl ⟨rfl, hd.symm⟩
    · exact .inr hd
  refine ⟨?_, ?_, ?_⟩
  · intro hna j d cfg hd hl hp
    rcases hget j d hd with ⟨rfl, rfl⟩ | hd
    · exact h.wait hna j c cfg hc (h1 cfg hl hp).2 (h1 cfg hl hp).1
    · exact h.wait hna j d cfg hd hl hp
  · intro hna j d cfg hd hl hp
    rcases hget j d hd with ⟨rfl, rfl⟩ | hd
    · exact h.lost hna j c cfg hc (h2 cfg hl hp).2 (h2 cfg hl hp).1
    · exact h.lost hna j d cfg hd hl hp
  · intro e he
    rcases List.mem_append.1 he with he | he
    · exact h.log e he
    · exact hev e he

theorem ginv_queue {p : Profile} {n ql : Nat} {s : Sys} {log : List SEvent} (hq : QInv n ql s.queue (queueTrace log))
    (h : GInv s log) (hna : s.queue.status ≠ .aborted) (qs : QStep)
    (hopen : ∀ (i : Nat) (c : Call), s.calls[i]? = some c → c.live = true → c.pc ≠ .done → (qStep p s.queue qs).1.closed = false)
    (hut : Untold (qStep p s.queue qs).1) :
    GInv { s with queue := (qStep p s.queue qs).1, calls := s.calls.mapIdx (Call.settle (qStep p s.queue qs).1 (qStep p s.queue qs).2) }
      (log ++ (qStep p s.queue qs).2.map .queue) := by
  have key : (qStep p s.queue qs).1.status ≠ .aborted → ∀ (i : Nat) (c : Call) (cfg : CachedPoWConfig), s.calls[i]? = some c → c.live = true →
      c.pc = .awaitAdd cfg →
      (∃ ip, InnerMsg.schedule ip i ∈ (qStep p s.queue qs).1.mailbox) ∨ ∃ ip, .accepted ip i ∈ (qStep p s.queue qs).2 ∨ .refused ip i ∈ (qStep p s.queue qs).2 := by
    intro hna' i c cfg hc hl hp
    obtain ⟨ip, hm⟩ := h.wait hna i c cfg hc hl hp
    rcases answer_any p hq qs ip i hm with x | x | x | x
    · exact .inl ⟨ip, x⟩
    · exact .inr ⟨ip, .inl x⟩
    · exact .inr ⟨ip, .inr x⟩
    · exact absurd x hna'
  refine ⟨?_, ?_, ?_⟩
  · intro hna' i c cfg hc hl hp
    simp only [List.getElem?_mapIdx, Option.map_eq_some_iff] at hc
    obtain ⟨c0, hc0, rfl⟩ := hc
    rw [settle_live] at hl
    have h0 : c0.pc = .awaitAdd cfg := by
      rcases settle_pc (qStep p s.queue qs).1 (qStep p s.queue qs).2 i c0 with e | ⟨cfg', -, ⟨e, -⟩ | ⟨e, -⟩ | ⟨e, -⟩⟩
      · rw [← e]; exact hp
      all_goals rw [hp] at e; cases e
    rcases key hna' i c0 cfg hc0 hl h0 with x | ⟨ip, x⟩
    · exact x
    · exfalso
      obtain ⟨a, b, -⟩ := settle_awaits _ _ i c0 cfg h0 hp
      rcases x with x | x
      · exact a ⟨ip, x⟩
      · exact b ⟨ip, x⟩
  · intro hna' i c cfg hc hl hp
    simp only [List.getElem?_mapIdx, Option.map_eq_some_iff] at hc
    obtain ⟨c0, hc0, rfl⟩ := hc
    rw [settle_live] at hl
    rcases settle_pc (qStep p s.queue qs).1 (qStep p s.queue qs).2 i c0 with e | ⟨cfg', h0, ⟨e, -⟩ | ⟨e, -⟩ | ⟨e, hx⟩⟩
    · rw [e] at hp; exact h.lost hna i c0 cfg hc0 hl hp
    · rw [hp] at e; cases e
    · rw [hp] at e; cases e
    · obtain ⟨a, b⟩ := settle_lost _ _ i c0 cfg hp (by rw [h0]; simp)
      rcases key hna' i c0 cfg' hc0 hl h0 with ⟨ip, x⟩ | ⟨ip, x | x⟩
      · have hcl := hopen i c0 hc0 hl (by rw [h0]; simp)
        have hrun : (qStep p s.queue qs).1.status = .running := by
          rcases (hut hcl).2 with e | e
          · exact e
          · exact absurd e hna'
        exact not_held hx (.inl ⟨by simp [Queue.listening, hrun], .inl ⟨ip, x⟩⟩)
      · exact a ⟨ip, x⟩
      · exact b ⟨ip, x⟩
  · intro e he
    rcases List.mem_append.1 he with he | he
    · exact h.log e he
    · obtain ⟨x, -, rfl⟩ := List.mem_map.1 he
      rfl

theorem ginv_step {lib : PowLib} {p : Profile} {n ql : Nat} {s : Sys} {log : List SEvent} (hq : QInv n ql s.queue (queueTrace log))
    (hji : JInv lib s log) (hut : Untold s.queue) (h : GInv s log) (st : SStep) :
    GInv (sysStep lib p s st).1 (log ++ (sysStep lib p s st).2) := by
  by_cases hna : s.queue.status = .aborted
  · unfold sysStep
    rw [if_pos hna, List.append_nil]
    exact h
  have hmove := sysStep_move lib p s st
  generalize (sysStep lib p s st).1 = s' at *
  generalize (sysStep lib p s st).2 = ev at *
  have hover : ∀ (i : Nat) (c c' : Call) (ev : List SEvent), s.calls[i]? = some c → c'.pc = .done → (∀ e ∈ ev, tellsGone e = false) →
      GInv (s.setCall i c') (log ++ ev) := by
    intro i c c' ev hc hd hev
    exact ginv_set h hc (by intro cfg _ hp; rw [hd] at hp; cases hp) (by intro cfg _ hp; rw [hd] at hp; cases hp) hev s.cache
  have hopen : ∀ (i : Nat) (c : Call), s.calls[i]? = some c → c.live = true → c.pc ≠ .done → s.queue.closed = false := by
    intro i c hc hl hd
    cases hx : s.queue.closed with
    | false => rfl
    | true => exact absurd (hji.fin hx i c hc hl) hd
  cases hmove with
  | idle => rw [List.append_nil]; exact h
  | «local» i c c' _ hc m =>
    cases m with
    | masterErr id a r h1 h2 hl h3 =>
      refine hover i c _ _ hc rfl ?_
      rcases h3 with ⟨-, rfl⟩ | ⟨-, rfl⟩ | ⟨e, -, rfl⟩ | ⟨-, rfl⟩ <;> simp [tellsGone]
    | masterOk id r g h1 h2 hl =>
      exact ginv_set h hc (by intro cfg _ hp; cases hp) (by intro cfg _ hp; cases hp) (by simp [tellsGone]) s.cache
    | retPow => exact hover i c _ _ hc rfl (by simp [tellsGone])
    | notFound => exact hover i c _ _ hc rfl (by simp [tellsGone])
    | wrongKey => exact hover i c _ _ hc rfl (by simp [tellsGone])
    | stored => exact hover i c _ _ hc rfl (by simp [tellsGone])
    | checked => exact hover i c _ _ hc rfl (by simp [tellsGone])
    | accepted cfg h2 hl =>
      exact ginv_set h hc (by intro cfg _ hp; cases hp) (by intro cfg _ hp; cases hp) (by simp) s.cache
    | refused => exact hover i c _ _ hc rfl (by simp [tellsGone])
    | lost cfg h2 hl => exact absurd h2 (h.lost hna i c cfg hc hl)
    | pollNone cfg job ch h2 hj hr hl =>
      refine ginv_set (ev := []) h hc ?_ ?_ (by simp) s.cache <;> exact fun _ hl hp => ⟨hp, hl⟩
    | pollBad cfg job ch h2 hj hr hl => exact hover i c _ _ hc rfl (by simp [tellsGone])
    | pollGood cfg job ch g h2 hj hr hl =>
      exact ginv_set h hc (by intro cfg _ hp; cases hp) (by intro cfg _ hp; cases hp) (by simp) s.cache
    | gone m k r h2 hl hr =>
      refine hover i c _ _ hc rfl ?_
      subst hr
      cases c.api <;> simp [tellsGone]
    | work job ch hj hf =>
      refine ginv_set (ev := []) h hc ?_ ?_ (by simp) s.cache <;> exact fun _ hl hp => ⟨hp, hl⟩
    | cancel hl hd =>
      exact ginv_set h hc (by intro cfg hl; cases hl) (by intro cfg hl; cases hl) (by simp [tellsGone]) s.cache
  | start a hcl =>
    have hnew : ∀ (j : Nat) (d : Call), (s.calls ++ [Call.start a])[j]? = some d → s.calls[j]? = some d ∨ d = Call.start a := by
      intro j d hd
      rw [List.getElem?_append] at hd
      split at hd
      · exact .inl hd
      · right
        have := List.mem_of_getElem? hd
        simpa using this
    refine ⟨?_, ?_, ?_⟩
    · intro hna i c cfg hc hl hp
      rcases hnew i c hc with hc | rfl
      · exact h.wait hna i c cfg hc hl hp
      · cases a <;> cases hp
    · intro hna i c cfg hc hl hp
      rcases hnew i c hc with hc | rfl
      · exact h.lost hna i c cfg hc hl hp
      · cases a <;> cases hp
    · intro e he
      rcases List.mem_append.1 he with he | he
      · exact h.log e he
      · simp at he; subst he; rfl
  | cache i c m k hc h2 =>
    exact ginv_set h hc (by intro cfg _ hp; cases hp) (by intro cfg _ hp; cases hp) (by simp [tellsGone]) _
  | submit i c work ip cfg hc h1 h2 hk hl hlis hcl =>
    have hst : qStep p s.queue (.submit ip i) = ({ s.queue with mailbox := s.queue.mailbox ++ [.schedule ip i] }, []) := by
      unfold qStep
      rw [if_neg hcl]
      simp only
      rw [if_pos ⟨hopen i c hc hl (by rw [h2]; simp), hlis⟩]
    rw [hst]
    refine ⟨?_, ?_, ?_⟩
    · intro hna j d cfg hd hl hp
      simp only [Sys.setCall] at hd ⊢
      rw [List.getElem?_set] at hd
      split at hd
      · rename_i e
        subst e
        exact ⟨ip, by simp⟩
      · obtain ⟨ip', hm⟩ := h.wait hna j d cfg hd hl hp
        exact ⟨ip', List.mem_append_left _ hm⟩
    · intro hna j d cfg hd hl hp
      simp only [Sys.setCall] at hd
      rw [List.getElem?_set] at hd
      split at hd
      · rename_i e
        subst e
        simp [lt_of_some hc] at hd
        subst hd
        cases hp
      · exact h.lost hna j d cfg hd hl hp
    · simpa using h.log
  | panic i c cfg work ip hc h1 h2 hl hlis hcl =>
    exfalso
    have hcl := hopen i c hc hl (by rw [h2]; simp)
    rcases (hut hcl).2 with e | e
    · simp [Queue.listening, e] at hlis
    · exact hna e
  | queue qs hm =>
    refine ginv_queue hq h hna qs ?_ (untold_step p hq qs hut)
    intro i c hc hl hd
    rw [closed_only p s.queue qs (by rintro rfl; cases hm)]
    exact hopen i c hc hl hd
  | shutdown hs =>
    refine ginv_queue hq h hna .close ?_ (untold_step p hq .close hut)
    intro i c hc hl hd
    exact absurd (hs c (List.mem_of_getElem? hc) hl) hd
  | expire k =>
    refine ⟨h.wait, h.lost, ?_⟩
    intro e he
    rcases List.mem_append.1 he with he | he
    · exact h.log e he
    · obtain ⟨x, -, rfl⟩ := List.mem_map.1 he
      rfl
  | tick d => rw [List.append_nil]; exact ⟨h.wait, h.lost, h.log⟩

theorem ginv_new (lib : PowLib) (p : Profile) (n ql now : Nat) (steps : List SStep) :
    GInv (sysRun lib p (Sys.new n ql now) steps).1 (sysRun lib p (Sys.new n ql now) steps).2 := by
  suffices h : ∀ (later done : List SStep), GInv (sysRun lib p (Sys.new n ql now) done).1 (sysRun lib p (Sys.new n ql now) done).2 →
      GInv (sysRun lib p (Sys.new n ql now) (done ++ later)).1 (sysRun lib p (Sys.new n ql now) (done ++ later)).2 by
    have := h steps [] ⟨by intro _ i c cfg hc; simp [sysRun, Sys.new] at hc, by intro _ i c cfg hc; simp [sysRun, Sys.new] at hc, by simp [sysRun]⟩
    simpa using this
  intro later
  induction later with
  | nil => intro done h; rw [List.append_nil]; exact h
  | cons st r ih =>
    intro done h
    rw [List.append_cons]
    apply ih
    rw [sysRun_append]
    simp only [sysRun, List.append_nil]
    exact ginv_step (sys_qinv lib p n ql now done).1 (jinv_new lib p n ql now done) (untold_new lib p n ql now done) h st

end MCap
