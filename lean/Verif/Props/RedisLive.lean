import Verif.Proofs.RedisSettle
import Verif.Props.RedisService
import Verif.Props.SystemLive

/-!
# C117: on Redis, every call is answered
-/

namespace MCap
open Spec

/-! ## C117 On Redis, every call is answered -/

/-- C117. Left alone, the service does only finitely many things more, whatever the order, and whatever fails, is cancelled, panics or is shut
down meanwhile. -/
theorem C117_finitely_many_steps (lib : PowLib) (p : Profile) (n ql now : Nat) (conns : List Nat) (steps : List ZStep) :
    ∃ k, ∀ later, (∀ st ∈ later, alone st = true) → changesZ lib p (zState lib p n ql now conns steps) later ≤ k :=
  ⟨_, fun later h => changesZ_le lib p n ql now conns later steps h⟩

/-- C117. While the process is there and the `System` was not dropped, every function can be called, and each call is one of its own. -/
theorem C117_calls_begin (lib : PowLib) (p : Profile) (n ql now : Nat) (conns : List Nat) (steps : List ZStep)
    (ha : (zState lib p n ql now conns steps).sys.queue.status ≠ .aborted) (hc : (zState lib p n ql now conns steps).sys.queue.closed = false) (a : Api) :
    ∃ i, zLog lib p n ql now conns (steps ++ [.sys (.call a)]) = zLog lib p n ql now conns steps ++ [.sys (.api (.call i a))] ∧
      ∀ b, .sys (.api (.call i b)) ∉ zLog lib p n ql now conns steps := by
  refine ⟨(zState lib p n ql now conns steps).sys.calls.length, ?_, ?_⟩
  · have e : zLog lib p n ql now conns (steps ++ [.sys (.call a)]) =
        zLog lib p n ql now conns steps ++ (zRun lib p (zState lib p n ql now conns steps) [.sys (.call a)]).2 := by
      rw [zLog, zRun_append]
    rw [e]
    simp [zRun, zStep, RService.direct, RService.onSys, openStep, SStep.noCache, sysStep, ha, hc]
  · intro b h
    obtain ⟨os, ho⟩ := (zinv_run lib p n ql now conns steps).sys
    have := ((open_made lib p n ql now os).1 (zState lib p n ql now conns steps).sys.calls.length b).1 (by rw [ho]; exact mem_atCalls.2 h)
    rw [ho] at this
    simp [apis, zState] at this

example : (zState sysLib ⟨true⟩ 1 5 0 [0, 1] exRedis).sys.queue.status ≠ .aborted ∧ (zState sysLib ⟨true⟩ 1 5 0 [0, 1] exRedis).sys.queue.closed = false := by
  decide +kernel

/-- C117. From every state the service can come to rest by what goes on by itself. -/
theorem C117_settles (lib : PowLib) (p : Profile) (n ql now : Nat) (conns : List Nat) (steps : List ZStep) :
    ∃ later, (∀ st ∈ later, goesOnZ st = true) ∧ QuiescentZ lib p (zState lib p n ql now conns (steps ++ later)) :=
  settlesZ lib p n ql now conns _ steps (Nat.le_refl _)

/-- C117. At rest, with the process still there, every `get_pow` and every validation has returned or was cancelled, whatever has failed or
panicked before; and so has every `verify_pow`, but for those whose job waits in the queue of its client while the manager thread runs. -/
theorem C117_answered (lib : PowLib) (p : Profile) (n ql now : Nat) (conns : List Nat) (steps : List ZStep) (h2 : 2 ≤ conns.length)
    (hq : QuiescentZ lib p (zState lib p n ql now conns steps)) (hab : (zState lib p n ql now conns steps).sys.queue.status ≠ .aborted)
    (i : Nat) (a : Api) (hi : .sys (.api (.call i a)) ∈ zLog lib p n ql now conns steps) :
    (∃ r, .sys (.api (.ret i a r)) ∈ zLog lib p n ql now conns steps) ∨ .sys (.api (.cancelled i)) ∈ zLog lib p n ql now conns steps ∨
    ((∃ work ip, a = .verify work ip) ∧ (zState lib p n ql now conns steps).sys.queue.status = .running ∧
      i ∈ waitingJobs (zState lib p n ql now conns steps).sys.queue) :=
  quiescentZ lib p n ql now conns steps h2 hq hab hi

/-- C117. If no job has panicked and there are at least as many workers as clients, at rest every call has returned or was cancelled. -/
theorem C117_answered_with_enough_workers (lib : PowLib) (p : Profile) (n ql now : Nat) (conns : List Nat) (steps : List ZStep)
    (h2 : 2 ≤ conns.length) (hq : QuiescentZ lib p (zState lib p n ql now conns steps)) (hc : ¬ SomeCrashZ (zLog lib p n ql now conns steps))
    (hn : (addressesZ (zLog lib p n ql now conns steps)).length ≤ n) (i : Nat) (a : Api)
    (hi : .sys (.api (.call i a)) ∈ zLog lib p n ql now conns steps) :
    (∃ r, .sys (.api (.ret i a r)) ∈ zLog lib p n ql now conns steps) ∨ .sys (.api (.cancelled i)) ∈ zLog lib p n ql now conns steps := by
  obtain ⟨os, ho⟩ := (zinv_run lib p n ql now conns steps).sys
  have hab := open_alive lib p n ql now os ho (fun w j h => hc ⟨w, j, mem_atCalls.1 h⟩)
  rcases C117_answered lib p n ql now conns steps h2 hq hab i a hi with h | h | ⟨-, -, h⟩
  · exact .inl h
  · exact .inr h
  · have := open_few lib p n ql now os ho (addressesZ (zLog lib p n ql now conns steps)) (by
      intro i work ip h
      rw [addressesZ, List.mem_eraseDups, List.mem_filterMap]
      exact ⟨_, mem_atCalls.1 h, rfl⟩) hn
    rw [show waitingJobs (zState lib p n ql now conns steps).sys.queue = [] from this] at h
    cases h

/-! ### Examples -/

/-- Nothing to do for the calls, the queue and the actors, and no command on its way. -/
theorem rest_quiescentZ (lib : PowLib) (p : Profile) (v : RService) {k : Nat} (h : Rest k v.sys)
    (h1 : ∀ c ∈ v.sys.calls, c.pc = .done)
    (h2 : ∀ x ∈ v.net.sys.actors, x.inbox = [] ∧ x.busy = none) (h3 : v.net.wire = []) : QuiescentZ lib p v := by
  have hnab : ¬ v.sys.queue.status = .aborted := by rw [h.idle.1]; simp
  have hreq : ∀ (i : Nat) (c : Call), v.sys.calls[i]? = some c → RService.request c = none := by
    intro i c hc
    have := h1 c (List.mem_of_getElem? hc)
    unfold RService.request
    rw [this]
    cases c.api <;> rfl
  have hs : ∀ st, RService.direct st = true → goesOn st = true → (zStep lib p v (.sys st)).1 = v := by
    intro st hd hg
    have := rest_quiescent lib p h st hg
    simp only [zStep, if_neg hnab, hd, if_true, RService.onSys, openStep, noCache_of_direct hd]
    rw [this]
  intro st hst
  cases st with
  | sys st =>
    cases st with
    | queue q => cases q <;> first | exact hs _ rfl rfl | cases hst
    | _ => first | exact hs _ rfl rfl | cases hst
  | ask i =>
    simp only [zStep, if_neg hnab]
    split
    · rename_i c hc hw
      rw [hreq i c hc]
    · rfl
  | hear i g =>
    simp only [zStep, if_neg hnab]
    split
    · rename_i c id hc hw
      rw [hreq i c hc]
    · rfl
  | net st =>
    cases st with
    | take a =>
      have : rStep v.net.sys (.take a) = (v.net.sys, []) := by
        simp only [rStep]
        cases ha : v.net.sys.actors[a]? with
        | none => rfl
        | some x =>
          have := (h2 x (List.mem_of_getElem? ha)).1
          simp [this]
      simp [zStep, hnab, RService.othersMay, nStep, this, RService.absorb, RNet.newCommand]
    | serve k r => simp [zStep, hnab, RService.othersMay, nStep, h3, RService.absorb]
    | deliver a k =>
      have : nStep v.net (.deliver a k) = (v.net, []) := by
        simp only [nStep]
        split
        · rename_i x _ hx
          rw [(h2 x (List.mem_of_getElem? hx)).2]
          rfl
        · rfl
      simp [zStep, hnab, RService.othersMay, this, RService.absorb]
    | _ => cases hst
  | cancel i => cases hst

/-- Challenges, a token, its validation, two broken connections: after some more messages to the manager, and after the server has carried out
the two commands whose replies nobody waits for, the service is at rest. -/
def exRedisRest : List ZStep :=
  exRedis ++ [.sys (.queue .manage), .sys (.queue .manage), .net (.serve 0 exReply), .net (.serve 0 (.ok .nil))]

theorem exRedisRest_rest : QuiescentZ sysLib ⟨true⟩ (zState sysLib ⟨true⟩ 1 5 0 [0, 1] exRedisRest) := by
  have e1 : (zState sysLib ⟨true⟩ 1 5 0 [0, 1] exRedisRest).sys.queue =
      { inner := { queues := [("ip", [])], runners := [Worker.spawn], ips := ["ip"], cur := 0, queueLength := 5 },
        mailbox := [], status := .running, closed := false } := by decide +kernel
  have e2 : (zState sysLib ⟨true⟩ 1 5 0 [0, 1] exRedisRest).sys.calls.map Call.view =
      [(.get "site", .done, true, none),
       (.verify exWork "ip", .done, true, some { pc := .dropped true, buf := [], rxAlive := false, reading := .verdict true }),
       (.validate ⟨exDrawn2, "site"⟩, .done, true, none), (.validate ⟨exDrawn2, "site"⟩, .done, true, none),
       (.get "site", .done, true, none), (.validate ⟨exDrawn2, "site"⟩, .done, true, none)] := by decide +kernel
  have e3 : (zState sysLib ⟨true⟩ 1 5 0 [0, 1] exRedisRest).sys.calls.length = 6 := by rw [← List.length_map Call.view, e2]; rfl
  refine rest_quiescentZ _ _ _ (rest_of 9 _ ?_ ?_) ?_ ?_ (by decide +kernel)
  · rw [e1]
    refine ⟨rfl, rfl, ?_⟩
    intro w r h
    cases w with
    | zero => simp at h; subst h; exact ⟨rfl, rfl⟩
    | succ w => simp at h
  · intro j hj
    rw [e3] at hj
    rw [e2]
    match j, hj with
    | 0, _ => exact ⟨_, rfl, .inl ⟨rfl, .inl rfl⟩⟩
    | 1, _ => exact ⟨_, rfl, .inl ⟨rfl, .inr ⟨_, _, rfl, rfl⟩⟩⟩
    | 2, _ => exact ⟨_, rfl, .inl ⟨rfl, .inl rfl⟩⟩
    | 3, _ => exact ⟨_, rfl, .inl ⟨rfl, .inl rfl⟩⟩
    | 4, _ => exact ⟨_, rfl, .inl ⟨rfl, .inl rfl⟩⟩
    | 5, _ => exact ⟨_, rfl, .inl ⟨rfl, .inl rfl⟩⟩
  · intro c hc
    have : c.view ∈ (zState sysLib ⟨true⟩ 1 5 0 [0, 1] exRedisRest).sys.calls.map Call.view := List.mem_map_of_mem hc
    rw [e2] at this
    simp only [List.mem_cons, Call.view, Prod.mk.injEq, List.not_mem_nil, or_false] at this
    rcases this with h | h | h | h | h | h <;> exact h.2.1
  · decide +kernel

/-- The hypotheses of the claim, with broken connections; the token was given out. -/
example : QuiescentZ sysLib ⟨true⟩ (zState sysLib ⟨true⟩ 1 5 0 [0, 1] exRedisRest) ∧ ¬ SomeCrashZ (zLog sysLib ⟨true⟩ 1 5 0 [0, 1] exRedisRest) ∧
    (addressesZ (zLog sysLib ⟨true⟩ 1 5 0 [0, 1] exRedisRest)).length ≤ 1 ∧
    .sys (.api (.call 1 (.verify exWork "ip"))) ∈ zLog sysLib ⟨true⟩ 1 5 0 [0, 1] exRedisRest ∧
    .sys (.api (.ret 1 (.verify exWork "ip") (.verify (.ok (exDrawn2, 50))))) ∈ zLog sysLib ⟨true⟩ 1 5 0 [0, 1] exRedisRest := by
  refine ⟨exRedisRest_rest, ?_, by decide +kernel, mem_atCalls.1 (by decide +kernel), mem_atCalls.1 (by decide +kernel)⟩
  rintro ⟨w, j, h⟩
  have : (zLog sysLib ⟨true⟩ 1 5 0 [0, 1] exRedisRest).all (fun | .sys (.api (.queue (.crashedOn _ _))) => false | _ => true) = true := by
    decide +kernel
  rw [List.all_eq_true] at this
  simpa using this _ h

/-- Calls on their way: something goes on, and then comes to rest. -/
example : ∃ later, (∀ st ∈ later, goesOnZ st = true) ∧ QuiescentZ sysLib ⟨true⟩ (zState sysLib ⟨true⟩ 1 5 0 [0, 1] (exRedis.take 14 ++ later)) :=
  C117_settles sysLib ⟨true⟩ 1 5 0 [0, 1] (exRedis.take 14)

example : ¬ QuiescentZ sysLib ⟨true⟩ (zState sysLib ⟨true⟩ 1 5 0 [0, 1] (exRedis.take 14)) := by
  intro h
  have := congrArg (fun v => v.net.wire.length) (h (.net (.take 0)) rfl)
  exact absurd this (by decide +kernel)

end MCap
