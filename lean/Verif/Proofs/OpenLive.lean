import Verif.Proofs.OpenSystem
import Verif.Proofs.SystemAddr
import Verif.Proofs.SystemAnswer

/-!
# Whatever the cache: when nothing goes on any more
-/

namespace MCap
open Spec

/-- What holds whatever the cache is, with what liveness needs. -/
structure LiveInv (lib : PowLib) (p : Profile) (n ql : Nat) (s : Sys) (log : List SEvent) : Prop where
  inv : OpenInv lib p n ql s log
  rx : RInv s
  held : VInv s
  made : DInv s log
  addr : AddrInv s log

theorem liveInv_swap {lib : PowLib} {p : Profile} {n ql : Nat} {s t : Sys} {log : List SEvent} (h : LiveInv lib p n ql s log)
    (hq : t.queue = s.queue) (hc : t.calls = s.calls) : LiveInv lib p n ql t log := by
  refine ⟨openInv_swap h.inv hq hc, ?_, ?_, ?_, ?_⟩
  · have := h.rx
    exact ⟨by rw [hc]; exact this.rx, by rw [hc, hq]; exact this.held⟩
  · have := h.held
    exact ⟨by rw [hc, hq]; exact this.job, by rw [hc, hq]; exact this.wait⟩
  · have := h.made
    exact ⟨by rw [hc]; exact this.made, by rw [hc]; exact this.gone, by rw [hc]; exact this.over⟩
  · exact ⟨by rw [hq]; exact h.addr.mail, h.addr.acc⟩

theorem openInv_qinv {lib : PowLib} {p : Profile} {n ql : Nat} {s : Sys} {log : List SEvent} (h : OpenInv lib p n ql s log) :
    QInv n ql s.queue (queueTrace log) ∧ Untold s.queue := by
  obtain ⟨qs, h1, -⟩ := h.queue
  have a := qinv_new p n ql qs
  have hut := untold_run p qs (qinv_init n ql) (fun _ => by simp [Queue.new])
  rw [h1] at a hut
  exact ⟨a, hut⟩

theorem liveInv_step {lib : PowLib} {p : Profile} {n ql : Nat} {s : Sys} {log : List SEvent} (h : LiveInv lib p n ql s log) (st : SStep) :
    LiveInv lib p n ql (sysStep lib p s st).1 (log ++ (sysStep lib p s st).2) :=
  have hm := sysStep_move lib p s st
  ⟨openInv_step h.inv st, rinv_move (openInv_qinv h.inv).1 h.rx hm, vinv_move h.inv.ji h.held hm, dinv_move h.made hm,
    addr_move (openInv_qinv h.inv).1 (fun i c hc => (h.inv.calls i c hc).1) h.addr hm⟩

theorem liveInv_new (lib : PowLib) (p : Profile) (n ql now : Nat) : LiveInv lib p n ql (Sys.new n ql now) [] :=
  ⟨openInv_new lib p n ql now, rinv_new lib p n ql now [], vinv_new lib p n ql now [], dinv_new lib p n ql now [],
    ⟨by simp [Sys.new, Queue.new], by simp⟩⟩

theorem liveInv_run (lib : PowLib) (p : Profile) (n ql now : Nat) (steps : List OStep) :
    ∃ m, Masked lib (openRun lib p (Sys.new n ql now) steps).2 m ∧ LiveInv lib p n ql (openRun lib p (Sys.new n ql now) steps).1 m := by
  have := openRun_inv (lib := lib) (p := p) (P := fun s log => ∃ m, Masked lib log m ∧ LiveInv lib p n ql s m) (by
    rintro s log x ⟨m, hm, hi⟩
    obtain ⟨w, st, h1, h2, h3⟩ := open_sim lib p s x
    exact ⟨m ++ (sysStep lib p { s with cache := w } st).2, masked_extend hm hi.inv.calls h3,
      liveInv_swap (liveInv_step (liveInv_swap (t := { s with cache := w }) hi rfl rfl) st) h1 h2⟩) steps (Sys.new n ql now) []
    ⟨[], .nil, liveInv_new lib p n ql now⟩
  simpa using this

/-- Some return of a call in the masked log is one in the log. -/
theorem masked_ret {lib : PowLib} {log : List OEvent} {m : List SEvent} (h : Masked lib log m) {i : Nat} {a : Api} {r : Ret}
    (hr : .ret i a r ∈ m) : ∃ r', .api (.ret i a r') ∈ log := by
  induction h with
  | nil => cases hr
  | api e _ _ ih =>
    rcases List.mem_append.1 hr with hr | hr
    · obtain ⟨r', h⟩ := ih hr; exact ⟨r', List.mem_append_left _ h⟩
    · simp only [List.mem_singleton] at hr
      subst hr
      exact ⟨r, by simp⟩
  | fail j b msg k e _ _ _ ih =>
    rcases List.mem_append.1 hr with hr | hr
    · obtain ⟨r', h⟩ := ih hr; exact ⟨r', List.mem_append_left _ h⟩
    · simp only [List.mem_singleton, SEvent.ret.injEq] at hr
      obtain ⟨rfl, rfl, -⟩ := hr
      exact ⟨a.fails e, by simp⟩

/-- Whatever the cache, if the process is still there, no live call waits for the cache or for the master, and nothing else goes on by
itself: a call made has returned or was cancelled, or it is a `verify_pow` whose job waits in its client's queue while the manager thread
runs. -/
theorem open_quiescent (lib : PowLib) (p : Profile) (n ql now : Nat) (os : List OStep) {s : Sys} {log : List OEvent}
    (ho : openRun lib p (Sys.new n ql now) os = (s, log))
    (hq : ∀ st, goesOn st = true → (∀ j, st ≠ .cache j) → (sysStep lib p s st).1 = s) (hnab : ¬ s.queue.status = .aborted)
    (A : ∀ (j : Nat) (d : Call), s.calls[j]? = some d → d.live = true → ∀ m k, d.pc ≠ .awaitCache m k)
    (M : ∀ (j : Nat) (d : Call), s.calls[j]? = some d → d.live = true → d.pc ≠ .awaitMaster)
    {i : Nat} {a : Api} (hi : .api (.call i a) ∈ log) :
    (∃ r, .api (.ret i a r) ∈ log) ∨ .api (.cancelled i) ∈ log ∨
    ((∃ work ip, a = .verify work ip) ∧ s.queue.status = .running ∧ i ∈ waitingJobs s.queue) := by
  obtain ⟨m, hm, hv⟩ := liveInv_run lib p n ql now os
  rw [ho] at hm hv
  simp only at hm hv
  obtain ⟨c, hc, rfl⟩ := hv.made.made i a ((masked_mem hm (by simp)).2 hi)
  obtain ⟨qi, hut⟩ := openInv_qinv hv.inv
  cases hl : c.live with
  | false => exact .inr (.inl ((masked_mem hm (by simp)).1 (hv.made.gone i c hc hl)))
  | true =>
    have hallow : ∀ i a msg r, .cache (some (i, a)) msg r ∈ m → msg.allows r = true := by
      intro i a msg r hev
      obtain ⟨pre, post, hs⟩ := List.append_of_mem hev
      exact (hv.inv.why pre _ post hs).2.1
    rcases quiescent_core hq hnab A hv.inv.calls hv.inv.ui hv.inv.ji (by
        intro i a v r hev
        have := hallow _ _ _ _ hev
        cases r <;> simp [CacheMsg.allows] at this
        exact ⟨_, rfl⟩) (by
        intro i a v r hev
        have := hallow _ _ _ _ hev
        cases r <;> simp [CacheMsg.allows] at this
        exact ⟨_, rfl⟩) hv.rx hv.held hut qi i c hc hl with h | h | ⟨⟨cfg, h0⟩, h1, h2⟩
    · rcases hv.made.over i c hc h with h | ⟨r, h⟩
      · cases hv.inv.gi.log _ h
      · exact .inl (masked_ret hm h)
    · exact absurd h (M i c hc hl)
    · refine .inr (.inr ⟨?_, h1, h2⟩)
      have := (hv.inv.calls i c hc).2
      rw [h0] at this
      obtain ⟨⟨work, ip, -, e, -⟩, -⟩ := this
      exact ⟨work, ip, e⟩

/-- Whatever the cache: with at least as many workers as addresses of callers nothing waits in the queues of the clients. -/
theorem open_few (lib : PowLib) (p : Profile) (n ql now : Nat) (os : List OStep) {s : Sys} {log : List OEvent}
    (ho : openRun lib p (Sys.new n ql now) os = (s, log)) (ips : List String) (hi : ∀ i work ip, .api (.call i (.verify work ip)) ∈ log → ip ∈ ips)
    (hn : ips.length ≤ n) : waitingJobs s.queue = [] := by
  obtain ⟨m, hm, hv⟩ := liveInv_run lib p n ql now os
  rw [ho] at hm hv
  simp only at hm hv
  have hq := (openInv_qinv hv.inv).1
  obtain ⟨qs, h1, -⟩ := hv.inv.queue
  have hf := few_new p n ql qs
  rw [h1] at hf
  have hw : ∀ ip, waitingOf s.queue ip = [] := by
    refine fun ip => hf (Nat.le_trans (nodup_subset_length _ _ hq.inv.nd ?_) hn) ip
    intro x hx
    rw [hq.ipsEq, List.mem_eraseDups, mem_acceptedIps] at hx
    obtain ⟨j, hj⟩ := hx
    obtain ⟨work, hw⟩ := hv.addr.acc x j (.inl (mem_queueTrace.1 hj))
    exact hi j work x ((masked_mem hm (by simp)).1 hw)
  rw [waitingJobs, List.flatMap_eq_nil_iff]
  rintro ⟨ip, jobs⟩ he
  have := hw ip
  rw [waitingOf, AMap.get_of_mem (by rw [hq.inv.keys]; exact hq.inv.nd) he] at this
  simpa using this

/-- Whatever the cache: the process goes on unless a job panics. -/
theorem open_alive (lib : PowLib) (p : Profile) (n ql now : Nat) (os : List OStep) {s : Sys} {log : List OEvent}
    (ho : openRun lib p (Sys.new n ql now) os = (s, log)) (hc : ∀ w j, .api (.queue (.crashedOn w j)) ∉ log) : s.queue.status ≠ .aborted := by
  obtain ⟨m, hm, hv⟩ := liveInv_run lib p n ql now os
  rw [ho] at hm hv
  simp only at hm hv
  obtain ⟨qs, h1, h2⟩ := hv.inv.queue
  have hh := hinv_new p n ql qs (by
    intro w hw
    obtain ⟨j, hj⟩ := h2 w hw
    exact hc w j ((masked_mem hm (by simp)).1 (mem_queueTrace.1 hj)))
  rw [h1] at hh
  exact hh.ok.2

end MCap
