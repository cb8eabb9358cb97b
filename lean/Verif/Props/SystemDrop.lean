import Verif.Proofs.SystemDrop
import Verif.Props.SystemLive
import Verif.Props.OpenSystem

/-!
# C120: dropping the System comes to its end
-/

namespace MCap
open Spec

/-! ## C120 Dropping the System comes to its end -/

/-- C120. When every call has returned, was cancelled or panicked, and the manager thread is there, the `System` can be dropped. -/
theorem C120_drop_goes_ahead (lib : PowLib) (p : Profile) (n ql now : Nat) (steps : List SStep) (hu : Unused (logOf lib p n ql now steps))
    (hr : (stateOf lib p n ql now steps).queue.status = .running) : (stateOf lib p n ql now (steps ++ [.shutdown])).queue.closed = true := by
  have e : stateOf lib p n ql now (steps ++ [.shutdown]) = (sysStep lib p (stateOf lib p n ql now steps) .shutdown).1 := by
    rw [stateOf, sysRun_append]; rfl
  rw [e]
  refine shutdown_core ?_ (by simp [Queue.listening, hr])
  intro c hm
  obtain ⟨k, hk, rfl⟩ := List.getElem_of_mem hm
  have hk' := List.getElem?_eq_getElem hk
  have hcall := ((facts lib p n ql now steps).si.calls k _ hk').1
  obtain ⟨c', hc', ho⟩ := overInv_new lib p n ql now steps k (by
    rcases hu k _ hcall with ⟨r, h⟩ | h | h
    · exact ⟨_, h, rfl⟩
    · exact ⟨_, h, rfl⟩
    · exact ⟨_, h, rfl⟩)
  rw [hk'] at hc'; cases hc'
  exact ho

/-- C120. Whatever the schedule, after the `System` was dropped only boundedly many steps change anything, new calls or not. When its threads
have nothing left to do the drop has returned or panicked, or the process was aborted. -/
theorem C120_drop_ends (lib : PowLib) (p : Profile) (n ql now : Nat) (steps : List SStep) (hc : (stateOf lib p n ql now steps).queue.closed = true) :
    (∃ N, ∀ later, changes lib p (stateOf lib p n ql now steps) later ≤ N) ∧
    (WoundUp lib p (stateOf lib p n ql now steps) → (stateOf lib p n ql now steps).queue.status ≠ .aborted →
      DropReturned (stateOf lib p n ql now steps).queue ∨ DropPanicked (stateOf lib p n ql now steps).queue) := by
  refine ⟨⟨sysW (stateOf lib p n ql now steps), fun later => ?_⟩, fun hw hnab => ?_⟩
  · rw [closed_changes lib p later _ hc]
    refine changes_le lib p n ql now _ steps ?_
    intro a h
    have := (List.mem_filter.1 h).2
    cases this
  · obtain ⟨qs, hq, -⟩ := queue_run lib p (Sys.new n ql now) steps
    have hs := stopWaits_new p n ql qs
    have e : (Sys.new n ql now).queue = Queue.new n ql := rfl
    rw [e] at hq
    rw [hq] at hs
    obtain ⟨qi, li, -⟩ := sys_qinv lib p n ql now steps
    rcases drop_core hw hnab hc ((facts lib p n ql now steps).ji.fin hc) (rinv_new lib p n ql now steps) qi li hs with h | h
    · exact .inl ⟨hc, h⟩
    · exact .inr ⟨hc, h⟩

/-- C120. If no job panicked, dropping the `System` does not panic; when its threads have nothing left to do it has returned, and no thread is left. -/
theorem C120_drop_is_clean (lib : PowLib) (p : Profile) (n ql now : Nat) (steps : List SStep) (hn : ¬ SomeCrash (logOf lib p n ql now steps)) :
    ¬ DropPanicked (stateOf lib p n ql now steps).queue ∧
    ((stateOf lib p n ql now steps).queue.closed = true → WoundUp lib p (stateOf lib p n ql now steps) →
      DropReturned (stateOf lib p n ql now steps).queue) ∧
    (DropReturned (stateOf lib p n ql now steps).queue → ∀ w, ¬ ThreadLives (stateOf lib p n ql now steps).queue w) := by
  obtain ⟨qi, li, hh⟩ := sys_qinv lib p n ql now steps
  have hh := hh hn
  refine ⟨fun h => hh.ok.1 h.2, fun hc hw => ?_, fun h w hl => ?_⟩
  · rcases (C120_drop_ends lib p n ql now steps hc).2 hw hh.ok.2 with h | h
    · exact h
    · exact absurd h.2 hh.ok.1
  · obtain ⟨r, hr, hal⟩ := hl
    have := li.fin h.2 w r hr
    rw [hal] at this; cases this

/-- C120 with an arbitrary back end: the `System` can be dropped. -/
theorem C120_open_goes_ahead (lib : PowLib) (p : Profile) (n ql now : Nat) (os : List OStep) (hu : UnusedO (openRun lib p (Sys.new n ql now) os).2)
    (hr : (openRun lib p (Sys.new n ql now) os).1.queue.status = .running) :
    (openRun lib p (Sys.new n ql now) (os ++ [.sys .shutdown])).1.queue.closed = true := by
  have e : (openRun lib p (Sys.new n ql now) (os ++ [.sys .shutdown])).1 = (sysStep lib p (openRun lib p (Sys.new n ql now) os).1 .shutdown).1 := by
    rw [openRun_append]; rfl
  rw [e]
  refine shutdown_core ?_ (by simp [Queue.listening, hr])
  obtain ⟨m, hm, hv⟩ := liveInv_run lib p n ql now os
  intro c hmem
  obtain ⟨k, hk, rfl⟩ := List.getElem_of_mem hmem
  have hk' := List.getElem?_eq_getElem hk
  have hcall := (masked_mem hm (by simp)).1 (hv.inv.calls k _ hk').1
  obtain ⟨c', hc', ho⟩ := overInvO_new lib p n ql now os k (by
    rcases hu k _ hcall with ⟨r, h⟩ | h | h
    · exact ⟨_, h, rfl⟩
    · exact ⟨_, h, rfl⟩
    · exact ⟨_, h, rfl⟩)
  rw [hk'] at hc'; cases hc'
  exact ho

/-- C120 with an arbitrary back end: when the threads have nothing left to do after the `System` was dropped, the drop has returned or panicked,
or the process was aborted; if no job panicked, it has returned, and no thread is left. -/
theorem C120_open_drop_ends (lib : PowLib) (p : Profile) (n ql now : Nat) (os : List OStep)
    (hc : (openRun lib p (Sys.new n ql now) os).1.queue.closed = true) (hw : WoundUp lib p (openRun lib p (Sys.new n ql now) os).1) :
    ((openRun lib p (Sys.new n ql now) os).1.queue.status ≠ .aborted →
      DropReturned (openRun lib p (Sys.new n ql now) os).1.queue ∨ DropPanicked (openRun lib p (Sys.new n ql now) os).1.queue) ∧
    ((∀ w j, .api (.queue (.crashedOn w j)) ∉ (openRun lib p (Sys.new n ql now) os).2) →
      DropReturned (openRun lib p (Sys.new n ql now) os).1.queue ∧ ∀ w, ¬ ThreadLives (openRun lib p (Sys.new n ql now) os).1.queue w) := by
  obtain ⟨m, hm, hv⟩ := liveInv_run lib p n ql now os
  obtain ⟨qs, h1, h2⟩ := hv.inv.queue
  have hs := stopWaits_new p n ql qs
  have qi := qinv_new p n ql qs
  have li := linv_new p n ql qs
  rw [h1] at hs qi li
  have key := fun hnab => drop_core hw hnab hc (hv.inv.ji.fin hc) hv.rx qi li hs
  refine ⟨fun hnab => ?_, fun hno => ?_⟩
  · rcases key hnab with h | h
    · exact .inl ⟨hc, h⟩
    · exact .inr ⟨hc, h⟩
  · have hh := hinv_new p n ql qs (by
      intro w hw
      obtain ⟨j, hj⟩ := h2 w hw
      exact hno w j ((masked_mem hm (by simp)).1 (mem_queueTrace.1 hj)))
    rw [h1] at hh
    rcases key hh.ok.2 with h | h
    · refine ⟨⟨hc, h⟩, ?_⟩
      rintro w ⟨r, hr, hal⟩
      have := li.fin h w r hr
      rw [hal] at this; cases this
    · exact absurd h hh.ok.1

/-- A visitor gives up while its job is at work; the `System` is dropped; the worker, whose verdict nobody reads any more, comes to its end, and
so does the drop. -/
def exDrop : List SStep := exHonest.take 11 ++ [.cancel 1, .shutdown, .queue .manage, .work 0, .work 0, .work 0, .work 0, .queue (.finish 0),
  .queue (.take 0), .queue .joined]

example : DropReturned (stateOf sysLib ⟨true⟩ 1 5 0 exDrop).queue ∧
    ¬ DropReturned (stateOf sysLib ⟨true⟩ 1 5 0 (exDrop.take 19)).queue ∧ (stateOf sysLib ⟨true⟩ 1 5 0 (exDrop.take 13)).queue.closed = true := by
  refine ⟨⟨by decide +kernel, by decide +kernel⟩, fun h => absurd h.2 (by decide +kernel), by decide +kernel⟩

/-- The job panics instead: the drop panics. -/
example : DropPanicked (stateOf sysLib ⟨true⟩ 1 5 0 (exHonest.take 11 ++ [.cancel 1, .shutdown, .queue .manage, .queue (.crash 0), .queue .joined])).queue :=
  ⟨by decide +kernel, by decide +kernel⟩

end MCap
