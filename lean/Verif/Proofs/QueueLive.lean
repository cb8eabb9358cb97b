import Verif.Proofs.QueueProps
import Verif.Proofs.Rotation

namespace MCap
open Spec

/-! ### Turns -/

theorem turns_around (p : Profile) {n ql : Nat} {q : Queue} {tr : List QEvent} (h : QInv n ql q tr) (steps : List QStep)
    (hs : (qRun p q steps).1.inner.ips = q.inner.ips) (hn : q.inner.ips ≠ []) :
    (turns (qRun p q steps).2).map some = around q.inner.ips (q.inner.cur + 1) (turns (qRun p q steps).2).length :=
  ((rot_run p h steps).rot hs hn).2

/-- No new client in a segment: the list of clients stays. -/
theorem ips_same {n ql : Nat} {q q' : Queue} {tr ev : List QEvent} (h : QInv n ql q tr) (h' : QInv n ql q' (tr ++ ev))
    (hs : ∀ ip ∈ acceptedIps ev, ip ∈ acceptedIps tr) : q'.inner.ips = q.inner.ips := by
  rw [h'.ipsEq, h.ipsEq, acceptedIps_append, List.eraseDups_append]
  have : (acceptedIps ev).removeAll (acceptedIps tr) = [] := by
    simp only [List.removeAll, List.filter_eq_nil_iff]
    intro a ha; simp [hs a ha]
  rw [this]; simp

/-! ### Shutting down -/

/-- Invariant of shutting down. -/
structure LInv (q : Queue) : Prop where
  run : q.status = .running → ∀ (w : Nat) (r : Worker), q.inner.runners[w]? = some r → r.status ≠ .exited ∧ .stop ∉ r.inbox
  stp : q.status = .stopping → ∀ (w : Nat) (r : Worker), q.inner.runners[w]? = some r → r.status = .alive →
    ∃ js : List Nat, r.inbox = js.map .prove ++ [.stop]
  ext : q.status ≠ .panicked → q.status ≠ .aborted → ∀ (w : Nat) (r : Worker), q.inner.runners[w]? = some r → r.status = .exited → r.inbox = []
  fin : q.status = .stopped → ∀ (w : Nat) (r : Worker), q.inner.runners[w]? = some r → r.status = .exited

theorem linv_disp {im : Inner} {q q' : Queue} {ev : List QEvent} {k : Nat} (h : LInv q) (him : im.runners = q.inner.runners)
    (h1 : q.status = .running) (h2 : q'.status = .running) (d : Disp im q'.inner ev k) : LInv q' := by
  refine ⟨?_, ?_, ?_, ?_⟩
  · intro _ w x hx
    obtain ⟨r, hr, rfl⟩ := disp_back d w x hx
    rw [him] at hr
    obtain ⟨a, b⟩ := h.run h1 w r hr
    refine ⟨a, ?_⟩
    simp [b]
  · intro e; rw [h2] at e; cases e
  · intro _ _ w x hx he
    obtain ⟨r, hr, rfl⟩ := disp_back d w x hx
    rw [him] at hr
    exact absurd he (h.run h1 w r hr).1
  · intro e; rw [h2] at e; cases e

theorem linv_shape {n ql : Nat} (q : Queue) (tr : List QEvent) (q' : Queue) (ev : List QEvent) (hi : QInv n ql q tr) (h : LInv q)
    (s : Shape q q' ev) : LInv q' := by
  cases s with
  | quiet h1 h2 h3 =>
    rcases h2 with h2 | ⟨h2, h2'⟩
    · exact ⟨by rw [h2, h1]; exact h.run, by rw [h2, h1]; exact h.stp, by rw [h2, h1]; exact h.ext, by rw [h2, h1]; exact h.fin⟩
    · have hf : q'.status = .stopped → ∀ (w : Nat) (r : Worker), q.inner.runners[w]? = some r → r.status = .exited := by
        intro e w r hr
        rcases h3 e with h3 | h3
        · exact h.fin h3 w r hr
        · exact h3.2 r (List.mem_of_getElem? hr)
      refine ⟨fun e => absurd e h2, fun e => absurd e h2', ?_, by rw [h1]; exact hf⟩
      intro a b
      have hst : q'.status = .stopped := by cases hs : q'.status <;> simp_all
      rw [h1]
      intro w r hr he
      rcases h3 hst with h3 | h3
      · exact h.ext (by rw [h3]; simp) (by rw [h3]; simp) w r hr he
      · exact h.ext (by rw [h3.1]; simp) (by rw [h3.1]; simp) w r hr he
  | stop h1 h2 h3 h4 =>
    refine ⟨by rw [h2]; simp, ?_, ?_, by rw [h2]; simp⟩
    · intro _ w x hx ha
      rw [h4] at hx
      simp only [List.getElem?_map, Option.map_eq_some_iff] at hx
      obtain ⟨r0, hr0, rfl⟩ := hx
      obtain ⟨a, b⟩ := h.run h1 w r0 hr0
      refine ⟨jobsIn r0.inbox, ?_⟩
      simp only
      congr 1
      have : ∀ l : List WorkerMsg, .stop ∉ l → l = (jobsIn l).map .prove := by
        intro l
        induction l with
        | nil => intro _; rfl
        | cons m r ih =>
          intro hm
          cases m with
          | stop => simp at hm
          | prove j =>
            have h5 : jobsIn (.prove j :: r) = j :: jobsIn r := rfl
            rw [h5, List.map_cons, ← ih (fun e => hm (List.mem_cons_of_mem _ e))]
      exact this _ b
    · intro _ _ w x hx he
      rw [h4] at hx
      simp only [List.getElem?_map, Option.map_eq_some_iff] at hx
      obtain ⟨r0, hr0, rfl⟩ := hx
      exact absurd he (h.run h1 w r0 hr0).1
  | disp ev k h1 h2 h3 d => exact linv_disp h rfl h1 h2 d
  | refused ip job h1 h2 h3 h4 =>
    have e : q'.status = q.status := by rw [h1, h2]
    exact ⟨by rw [e, h4]; exact h.run, by rw [e, h4]; exact h.stp, by rw [e, h4]; exact h.ext, by rw [e, h4]; exact h.fin⟩
  | sched ip job ev h1 h2 h3 d => exact linv_disp h (enqueued_spec q.inner hi.inv ip job).2.2.1 h1 h2 d
  | worker w r r' ev h1 h2 h3 m h5 =>
    have hact := hi.act w r h1
    refine ⟨?_, ?_, ?_, ?_⟩
    · rw [h3]
      intro e w' x hx
      rw [h2] at hx
      rcases set_back hx with ⟨rfl, rfl⟩ | ⟨_, hx⟩
      · obtain ⟨a, b⟩ := h.run e w r h1
        cases m with
        | stop rest a1 a2 a3 => rw [a3] at b; simp at b
        | start job rest a1 a2 a3 => rw [a3] at b; simp at b; simp [a1, b]
        | finish job a1 => exact ⟨a, b⟩
        | finishExit job a1 =>
          have := h5 (hact (by simp [a1])) (by simp [a1]) rfl
          simp [Queue.listening, e] at this
        | crash job a1 => simp
      · exact h.run e w' x hx
    · rw [h3]
      intro e w' x hx ha
      rw [h2] at hx
      rcases set_back hx with ⟨rfl, rfl⟩ | ⟨_, hx⟩
      · cases m with
        | stop rest a1 a2 a3 => simp at ha
        | start job rest a1 a2 a3 =>
          obtain ⟨js, hjs⟩ := h.stp e w r h1 a1
          rw [a3] at hjs
          cases js with
          | nil => simp at hjs
          | cons j js => exact ⟨js, by simp at hjs; exact hjs.2⟩
        | finish job a1 => exact h.stp e w r h1 ha
        | finishExit job a1 => simp at ha
        | crash job a1 => simp at ha
      · exact h.stp e w' x hx ha
    · rw [h3]
      intro e e' w' x hx he
      rw [h2] at hx
      rcases set_back hx with ⟨rfl, rfl⟩ | ⟨_, hx⟩
      · cases m with
        | stop rest a1 a2 a3 =>
          cases hs : q.status with
          | running => have := (h.run hs w r h1).2; rw [a3] at this; simp at this
          | stopping =>
            obtain ⟨js, hjs⟩ := h.stp hs w r h1 a1
            rw [a3] at hjs
            cases js with
            | nil => simpa using hjs
            | cons j js => simp at hjs
          | stopped => have := h.fin hs w r h1; rw [a1] at this; cases this
          | panicked => exact absurd hs e
          | aborted => exact absurd hs e'
        | start job rest a1 a2 a3 => simp [a1] at he
        | finish job a1 => rw [hact (by simp [a1])] at he; cases he
        | finishExit job a1 =>
          have := h5 (hact (by simp [a1])) (by simp [a1]) rfl
          cases hs : q.status with
          | running => simp [Queue.listening, hs] at this
          | stopping => simp [Queue.listening, hs] at this
          | stopped => have := h.fin hs w r h1; rw [hact (by simp [a1])] at this; cases this
          | panicked => exact absurd hs e
          | aborted => exact absurd hs e'
        | crash job a1 => simp at he
      · exact h.ext e e' w' x hx he
    · rw [h3]
      intro e w' x hx
      rw [h2] at hx
      rcases set_back hx with ⟨rfl, rfl⟩ | ⟨_, hx⟩
      · have hf := h.fin e w r h1
        cases m with
        | stop rest a1 a2 a3 => rfl
        | start job rest a1 a2 a3 => rw [a1] at hf; cases hf
        | finish job a1 => exact hf
        | finishExit job a1 => rfl
        | crash job a1 => rw [hact (by simp [a1])] at hf; cases hf
      · exact h.fin e w' x hx

theorem linv_init (n ql : Nat) : LInv (Queue.new n ql) := by
  have key : ∀ (w : Nat) (r : Worker), (Queue.new n ql).inner.runners[w]? = some r → r = Worker.spawn := by
    intro w r h
    simp only [Queue.new, Inner.new, List.getElem?_replicate] at h
    split at h <;> cases h
    rfl
  refine ⟨?_, by simp [Queue.new], ?_, by simp [Queue.new]⟩
  · intro _ w r h; rw [key w r h]; simp [Worker.spawn]
  · intro _ _ w r h he; rw [key w r h] at he; simp [Worker.spawn] at he

theorem linv_new (p : Profile) (n ql : Nat) (steps : List QStep) : LInv (qRun p (Queue.new n ql) steps).1 := by
  exact qrun_induct p (fun q _ => LInv q) linv_shape (Queue.new n ql) [] (qinv_init n ql) (linv_init n ql) steps

end MCap
