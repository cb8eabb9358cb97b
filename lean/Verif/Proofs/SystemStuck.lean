import Verif.Proofs.SystemAddr

namespace MCap
open Spec

/-! ### A call that polls for a stranded job -/

/-- Nothing in flight; every call but perhaps `i` is over; call `i`, if not over, polls an empty channel whose sender lives. -/
structure Rest (i : Nat) (s : Sys) : Prop where
  idle : Idle s.queue
  settled : ∀ (j : Nat) (c : Call), s.calls[j]? = some c → c.settle s.queue [] j = c
  calls : ∀ (j : Nat) (c : Call), s.calls[j]? = some c → c.pc = .done ∨ (j = i ∧ c.live = true ∧ ∃ cfg job ch, c.pc = .polling cfg ∧
    c.job = some (job, ch) ∧ ch.reading = .none ∧ ch.buf = [] ∧ ∀ b, ch.pc ≠ .dropped b)

/-- Call `i` is not over. -/
structure Stuck (i : Nat) (s : Sys) : Prop where
  rest : Rest i s
  here : ∃ c, s.calls[i]? = some c ∧ c.live = true ∧ c.pc ≠ .done

theorem mapIdx_same {α : Type} (f : Nat → α → α) (l : List α) (h : ∀ (j : Nat) (a : α), l[j]? = some a → f j a = a) : l.mapIdx f = l := by
  apply List.ext_getElem?
  intro j
  rw [List.getElem?_mapIdx]
  cases hj : l[j]? with
  | none => rfl
  | some a => simp [h j a hj]

/-- Nothing but a new call or its cancellation gets it out of there. -/
theorem stuck_step (lib : PowLib) (p : Profile) {i : Nat} {s : Sys} (h : Rest i s) (st : SStep) (h1 : ∀ a, st ≠ .call a) (h2 : st ≠ .cancel i)
    (h3 : st = .shutdown → Stuck i s) :
    ∃ w, (sysStep lib p s st).1 = { s with cache := w } ∧ (goesOn st = true → w = s.cache) ∧
      ∀ e ∈ (sysStep lib p s st).2, ∃ m r, e = .cache none m r := by
  have hnab : ¬ s.queue.status = .aborted := by rw [h.idle.1]; simp
  have hidle : ∃ w, ((s, []) : Sys × List SEvent).1 = { s with cache := w } ∧ (goesOn st = true → w = s.cache) ∧ ∀ e ∈ ((s, []) : Sys × List SEvent).2, ∃ m r, e = .cache none m r :=
    ⟨s.cache, rfl, fun _ => rfl, by simp⟩
  have hqueue : ∀ qs, qStep p s.queue qs = (s.queue, []) →
      ∃ w, ({ s with queue := (qStep p s.queue qs).1,
                     calls := s.calls.mapIdx (Call.settle (qStep p s.queue qs).1 (qStep p s.queue qs).2) } : Sys) = { s with cache := w } ∧ (goesOn st = true → w = s.cache) ∧
        ∀ e ∈ (qStep p s.queue qs).2.map SEvent.queue, ∃ m r, e = .cache none m r := by
    intro qs e
    rw [e]
    refine ⟨s.cache, ?_, fun _ => rfl, by simp⟩
    rw [mapIdx_same _ _ h.settled]
  unfold sysStep
  rw [if_neg hnab]
  cases st with
  | call a => exact absurd rfl (h1 a)
  | master j a g =>
    cases hc : s.calls[j]? with
    | none => simpa [hc] using hidle
    | some c =>
      simp only [hc]
      rcases h.calls j c hc with hp | ⟨-, -, cfg, -, -, hp, -⟩ <;> rw [hp] <;> cases c.api <;> exact hidle
  | cache j =>
    cases hc : s.calls[j]? with
    | none => simpa [hc] using hidle
    | some c =>
      simp only [hc]
      rcases h.calls j c hc with hp | ⟨-, -, cfg, -, -, hp, -⟩ <;> rw [hp] <;> exact hidle
  | cacheGone j =>
    cases hc : s.calls[j]? with
    | none => simpa [hc] using hidle
    | some c =>
      simp only [hc]
      split
      · unfold Sys.onCacheGone
        rcases h.calls j c hc with hp | ⟨-, -, cfg, -, -, hp, -⟩ <;> rw [hp] <;> exact hidle
      · exact hidle
  | resume j =>
    cases hc : s.calls[j]? with
    | none => simpa [hc] using hidle
    | some c =>
      simp only [hc]
      split
      · unfold Sys.onResume
        rcases h.calls j c hc with hp | ⟨-, -, cfg, -, -, hp, -⟩ <;> rw [hp] <;> exact hidle
      · exact hidle
  | poll j g =>
    cases hc : s.calls[j]? with
    | none => simpa [hc] using hidle
    | some c =>
      simp only [hc]
      split
      · unfold Sys.onPoll
        rcases h.calls j c hc with hp | ⟨rfl, hl, cfg, job, ch, hp, hj, hr, hb, hd⟩
        · rw [hp]; exact hidle
        · have e : ch.poll = ch := by
            unfold VerdictChannel.poll
            split
            · rw [hb]
              cases hx : ch.pc with
              | dropped b => exact absurd hx (hd b)
              | _ => rfl
            · rfl
          rw [hp, hj]
          simp only [e, hr]
          refine ⟨s.cache, ?_, fun _ => rfl, by simp⟩
          have e2 : ({ c with pc := .polling cfg, job := some (job, ch) } : Call) = c := by rw [← hj, ← hp]
          rw [e2]
          have e3 : s.calls.set j c = s.calls := by
            apply List.ext_getElem?
            intro k
            rw [List.getElem?_set]
            split
            · rename_i e; subst e; rw [hc]; simp [lt_of_some hc]
            · rfl
          simp [Sys.setCall, e3]
      · exact hidle
  | queue qs =>
    simp only
    split
    · rename_i hm
      cases hi : internal qs with
      | true => exact hqueue qs (idle_step p h.idle qs hi)
      | false =>
        cases qs with
        | crash w =>
          refine hqueue _ ?_
          simp only [qStep, hnab, if_false, Queue.crash]
          cases hr : s.queue.inner.runners[w]? with
          | none => rfl
          | some r => simp [(h.idle.2.2 w r hr).2]
        | submit ip j => simp [Sys.mayStep] at hm
        | close => simp [Sys.mayStep] at hm
        | _ => simp [internal] at hi
    · exact hidle
  | work w =>
    simp only
    have : s.onWork w = s := by
      unfold Sys.onWork
      cases hr : s.queue.inner.runners[w]? with
      | none => rfl
      | some r =>
        obtain ⟨ib, rn, sts⟩ := r
        have := (h.idle.2.2 w _ hr).2
        (try simp only at this)
        subst this
        rfl
    rw [this]; exact hidle
  | fire k => exact ⟨_, rfl, by simp [goesOn], by intro e he; simp only [List.mem_map] at he; obtain ⟨⟨m, r⟩, -, rfl⟩ := he; exact ⟨m, r, rfl⟩⟩
  | tick d => exact ⟨_, rfl, by simp [goesOn], by simp⟩
  | cancel j =>
    cases hc : s.calls[j]? with
    | none => simpa [hc] using hidle
    | some c =>
      simp only [hc]
      rcases h.calls j c hc with hp | ⟨rfl, -⟩
      · rw [if_neg (by simp [hp])]; exact hidle
      · exact absurd rfl h2
  | shutdown =>
    simp only
    obtain ⟨c, hc, hl, hp⟩ := (h3 rfl).here
    rw [if_neg]
    · exact hidle
    · intro hall
      have := List.all_eq_true.1 hall c (List.mem_of_getElem? hc)
      simp [hl, hp] at this

theorem stuck_run (lib : PowLib) (p : Profile) {i : Nat} (later : List SStep) (h1 : ∀ a, .call a ∉ later) (h2 : .cancel i ∉ later) {s : Sys}
    (h : Stuck i s) : ∀ e ∈ (sysRun lib p s later).2, ∃ m r, e = .cache none m r := by
  induction later generalizing s with
  | nil => simp [sysRun]
  | cons st r ih =>
    obtain ⟨w, e1, -, e2⟩ := stuck_step lib p h.rest st (fun a e => h1 a (by rw [e]; simp)) (fun e => h2 (by rw [e]; simp)) (fun _ => h)
    intro e he
    rcases List.mem_append.1 (show e ∈ (sysStep lib p s st).2 ++ (sysRun lib p (sysStep lib p s st).1 r).2 from he) with he | he
    · exact e2 e he
    · rw [e1] at he
      exact ih (fun a hm => h1 a (List.mem_cons_of_mem _ hm)) (fun hm => h2 (List.mem_cons_of_mem _ hm))
        (s := { s with cache := w }) ⟨⟨h.rest.idle, h.rest.settled, h.rest.calls⟩, h.here⟩ e he

theorem rest_quiescent (lib : PowLib) (p : Profile) {i : Nat} {s : Sys} (h : Rest i s) : Quiescent lib p s := by
  intro st hst
  obtain ⟨w, e1, e2, -⟩ := stuck_step lib p h st (by rintro a rfl; cases hst) (by rintro rfl; cases hst) (by rintro rfl; cases hst)
  rw [e1, e2 hst]

/-- The parts of a call that can be compared. -/
def Call.view (c : Call) : Api × Pc × Bool × Option VerdictChannel := (c.api, c.pc, c.live, c.job.map (·.2))

theorem rest_of (i : Nat) (s : Sys) (h1 : Idle s.queue)
    (h2 : ∀ j < s.calls.length, ∃ v, (s.calls.map Call.view)[j]? = some v ∧
      ((v.2.1 = .done ∧ (v.2.2.2 = none ∨ ∃ ch b, v.2.2.2 = some ch ∧ ch.pc = .dropped b)) ∨
       (j = i ∧ v.2.2.1 = true ∧ s.queue.holds j = true ∧ ∃ cfg ch, v.2.1 = .polling cfg ∧ v.2.2.2 = some ch ∧ ch.reading = .none ∧ ch.buf = [] ∧
         ch.pc = .start))) : Rest i s := by
  have hv : ∀ (j : Nat) (c : Call), s.calls[j]? = some c →
      ((c.pc = .done ∧ (c.job = none ∨ ∃ q ch b, c.job = some (q, ch) ∧ ch.pc = .dropped b)) ∨
       (j = i ∧ c.live = true ∧ s.queue.holds j = true ∧ ∃ cfg q ch, c.pc = .polling cfg ∧ c.job = some (q, ch) ∧ ch.reading = .none ∧ ch.buf = [] ∧
         ch.pc = .start)) := by
    intro j c hc
    obtain ⟨v, hv, h⟩ := h2 j (lt_of_some hc)
    rw [List.getElem?_map, hc] at hv
    simp at hv
    subst hv
    unfold Call.view at h
    simp only at h
    rcases h with ⟨a, b⟩ | ⟨a, b, c', cfg, ch, d, e, f⟩
    · left
      refine ⟨a, ?_⟩
      rcases b with b | ⟨ch, x, b, hb⟩
      · left; simpa using b
      · right
        cases hj : c.job with
        | none => rw [hj] at b; simp at b
        | some qc => obtain ⟨q, ch'⟩ := qc; rw [hj] at b; simp at b; subst b; exact ⟨q, ch', x, rfl, hb⟩
    · right
      refine ⟨a, b, c', cfg, ?_⟩
      cases hj : c.job with
      | none => rw [hj] at e; simp at e
      | some qc => obtain ⟨q, ch'⟩ := qc; rw [hj] at e; simp at e; subst e; exact ⟨q, ch', d, rfl, f⟩
  refine ⟨h1, ?_, ?_⟩
  · intro j c hc
    unfold Call.settle
    rcases hv j c hc with ⟨a, b⟩ | ⟨rfl, b, c', cfg, q, ch, d, e, f⟩
    · rw [a]
      obtain ⟨api, pc, live, job⟩ := c
      simp only at a
      subst a
      simp only
      split
      · rfl
      · rcases b with b | ⟨q, ch, x, b, hb⟩
        · simp only at b; subst b; rfl
        · simp only at b; subst b; simp [Call.release, hb]
    · rw [d, if_pos c']
      simp only
      rw [← d]
  · intro j c hc
    rcases hv j c hc with ⟨a, b⟩ | ⟨rfl, b, c', cfg, q, ch, d, e, f, g, h⟩
    · exact .inl a
    · exact .inr ⟨rfl, b, cfg, q, ch, d, e, f, g, by simp [h]⟩

end MCap
