import Verif.Proofs.SystemStuck
import Verif.Proofs.SystemHonest
import Verif.Props.System

/-!
# C60, C63: calls are answered

Liveness is stated without fairness: whatever the schedule, only finitely many of its steps change anything before the next call comes
(`changes`), and when nothing is left to go on by itself (`Quiescent`) the calls have been answered.
-/

namespace MCap
open Spec

/-- The state an execution leads to. -/
abbrev stateOf (lib : PowLib) (p : Profile) (n ql now : Nat) (steps : List SStep) : Sys := (sysRun lib p (Sys.new n ql now) steps).1

/-! ### C63 -/

/-- C63, first half: without further calls, after any execution, the steps of every schedule which change anything are bounded in
number by what is there to be done. Missing from C63: the end of it may find a call waiting for ever, see the refutation. -/
theorem C63_finitely_many_steps_partial (lib : PowLib) (p : Profile) (n ql now : Nat) (steps : List SStep) :
    ∃ N, ∀ later, (∀ a, .call a ∉ later) → changes lib p (stateOf lib p n ql now steps) later ≤ N :=
  ⟨sysW (stateOf lib p n ql now steps), fun later h => changes_le lib p n ql now later steps h⟩

/-- C63: while the process is there and the `System` was not dropped, every function can be called, and each call is one of its own. -/
theorem C63_calls_begin (lib : PowLib) (p : Profile) (n ql now : Nat) (steps : List SStep) (ha : (stateOf lib p n ql now steps).queue.status ≠ .aborted)
    (hc : (stateOf lib p n ql now steps).queue.closed = false) (a : Api) :
    ∃ i, logOf lib p n ql now (steps ++ [.call a]) = logOf lib p n ql now steps ++ [.call i a] ∧ ∀ b, .call i b ∉ logOf lib p n ql now steps := by
  refine ⟨(stateOf lib p n ql now steps).calls.length, ?_, ?_⟩
  · have e : logOf lib p n ql now (steps ++ [.call a]) = logOf lib p n ql now steps ++ (sysRun lib p (stateOf lib p n ql now steps) [.call a]).2 := by
      rw [logOf, sysRun_append]
    rw [e]
    simp [sysRun, sysStep, ha, hc]
  · intro b h
    obtain ⟨c, hci, -⟩ := (dinv_new lib p n ql now steps).made _ b h
    simp at hci

example : (stateOf sysLib ⟨true⟩ 1 5 0 exHonest).queue.status ≠ .aborted ∧ (stateOf sysLib ⟨true⟩ 1 5 0 exHonest).queue.closed = false := by
  decide +kernel

/-- C63: from every state, the calls, threads and actors in it can go on until nothing is left to be done. -/
theorem C63_settles_partial (lib : PowLib) (p : Profile) (n ql now : Nat) (steps : List SStep) :
    ∃ later, (∀ st ∈ later, goesOn st = true) ∧ Quiescent lib p (stateOf lib p n ql now (steps ++ later)) :=
  settles lib p n ql now _ steps (Nat.le_refl _)

/-- C63, second half: when nothing goes on any more, and no job has crashed, every `verify_pow` has returned, or was cancelled, or its
job waits in the queue of its client. -/
theorem C63_answered_unless_waiting_partial (lib : PowLib) (p : Profile) (n ql now : Nat) (steps : List SStep)
    (hq : Quiescent lib p (stateOf lib p n ql now steps)) (hc : ¬ SomeCrash (logOf lib p n ql now steps)) (i : Nat) (work : Work) (ip : String)
    (hi : .call i (.verify work ip) ∈ logOf lib p n ql now steps) :
    (∃ r, .ret i (.verify work ip) r ∈ logOf lib p n ql now steps) ∨ .cancelled i ∈ logOf lib p n ql now steps ∨
    i ∈ waitingJobs (stateOf lib p n ql now steps).queue := by
  have hd := dinv_new lib p n ql now steps
  have hf := facts lib p n ql now steps
  obtain ⟨c, hci, ha⟩ := hd.made i _ hi
  cases hl : c.live with
  | false => exact .inr (.inl (hd.gone i c hci hl))
  | true =>
    rcases quiescent_calls lib p n ql now steps hq hc i c hci hl with h | h | h
    · rcases hd.over i c hci h with h | ⟨r, h⟩
      · obtain ⟨pre, post, hs⟩ := List.append_of_mem h
        obtain ⟨w, j, hm⟩ := hf.ji.why pre _ post hs
        exact absurd ⟨w, j, by rw [logOf, hs]; exact List.mem_append_left _ hm⟩ hc
      · rw [ha] at h; exact .inl ⟨r, h⟩
    · have := (hf.si.calls i c hci).2
      rw [h] at this
      obtain ⟨id, e⟩ := this
      rw [ha] at e; cases e
    · exact .inr (.inr h)

/-- C63 holds for systems with at least as many workers as clients: when nothing goes on any more, and no job has crashed, every
`verify_pow` has returned or was cancelled. -/
theorem C63_answered_with_enough_workers_partial (lib : PowLib) (p : Profile) (n ql now : Nat) (steps : List SStep)
    (hq : Quiescent lib p (stateOf lib p n ql now steps)) (hc : ¬ SomeCrash (logOf lib p n ql now steps))
    (hn : (addresses (logOf lib p n ql now steps)).length ≤ n) (i : Nat) (work : Work) (ip : String)
    (hi : .call i (.verify work ip) ∈ logOf lib p n ql now steps) :
    (∃ r, .ret i (.verify work ip) r ∈ logOf lib p n ql now steps) ∨ .cancelled i ∈ logOf lib p n ql now steps := by
  rcases C63_answered_unless_waiting_partial lib p n ql now steps hq hc i work ip hi with h | h | h
  · exact .inl h
  · exact .inr h
  · exfalso
    obtain ⟨⟨ip', jobs⟩, he, hj⟩ := List.mem_flatMap.1 h
    have hi := (sys_qinv lib p n ql now steps).1.inv
    have := few_addresses lib p n ql now steps hn ip'
    rw [waitingOf, AMap.get_of_mem (by rw [hi.keys]; exact hi.nd) he] at this
    simp only [Option.getD_some] at this
    rw [show jobs = [] from this] at hj
    cases hj

/-- C63 in the presence of panicking jobs: when nothing goes on any more and the process has not been aborted, every call has returned
or was cancelled, except a `get_pow` the master has not answered and a `verify_pow` whose job waits in the queue of its
client while the manager thread runs. No call waits for a job that is gone, nor for an answer of a thread that is gone. Missing from
C63: the last case. -/
theorem C63_despite_crashes_partial (lib : PowLib) (p : Profile) (n ql now : Nat) (steps : List SStep)
    (hq : Quiescent lib p (stateOf lib p n ql now steps)) (ha : (stateOf lib p n ql now steps).queue.status ≠ .aborted) (i : Nat) (a : Api)
    (hi : .call i a ∈ logOf lib p n ql now steps) :
    (∃ r, .ret i a r ∈ logOf lib p n ql now steps) ∨ .cancelled i ∈ logOf lib p n ql now steps ∨
    ((∃ id, a = .get id) ∧ ∀ m, .master i m ∉ logOf lib p n ql now steps) ∨
    ((∃ work ip, a = .verify work ip) ∧ (stateOf lib p n ql now steps).queue.status = .running ∧
      i ∈ waitingJobs (stateOf lib p n ql now steps).queue) := by
  have hd := dinv_new lib p n ql now steps
  have hf := facts lib p n ql now steps
  obtain ⟨c, hci, hapi⟩ := hd.made i _ hi
  cases hl : c.live with
  | false => exact .inr (.inl (hd.gone i c hci hl))
  | true =>
    rcases quiescent_any lib p n ql now steps hq ha i c hci hl with h | h | ⟨⟨cfg, h0⟩, h1, h2⟩
    · rcases hd.over i c hci h with h | ⟨r, h⟩
      · exact absurd h (C75_no_panic lib p n ql now steps i).1
      · rw [hapi] at h; exact .inl ⟨r, h⟩
    · have := (hf.si.calls i c hci).2
      rw [h] at this
      obtain ⟨id, e⟩ := this
      refine .inr (.inr (.inl ⟨⟨id, by rw [← hapi, e]⟩, ?_⟩))
      intro m hm
      have := (hf.ai.calls i c hci .master).2 (by rw [h]; rfl)
      have := List.countP_eq_zero.1 this _ hm
      simp [askOf] at this
    · refine .inr (.inr (.inr ⟨?_, h1, h2⟩))
      have := (hf.si.calls i c hci).2
      rw [h0] at this
      obtain ⟨⟨work, ip, -, e, -⟩, -⟩ := this
      exact ⟨work, ip, by rw [← hapi, e]⟩

/-- The worker crashes on the visitor's job; the visitor's call finds the channel disconnected and returns. -/
def exLost : List SStep := exHonest.take 11 ++ [.queue (.crash 0), .poll 1 (fun _ => 1)]

theorem exLost_rest : Rest 9 (stateOf sysLib ⟨true⟩ 1 5 0 exLost) := by
  have e1 : (stateOf sysLib ⟨true⟩ 1 5 0 exLost).queue =
      { inner := { queues := [("ip", [])], runners := [{ Worker.spawn with status := .crashed }], ips := ["ip"], cur := 0, queueLength := 5 },
        mailbox := [], status := .running, closed := false } := by decide
  have e2 : (stateOf sysLib ⟨true⟩ 1 5 0 exLost).calls.map Call.view =
      [(.get "site", .done, true, none),
       (.verify exWork "ip", .done, true, some { pc := .dropped false, buf := [], rxAlive := false, reading := .disconnected })] := by decide
  have e3 : (stateOf sysLib ⟨true⟩ 1 5 0 exLost).calls.length = 2 := by rw [← List.length_map Call.view, e2]; rfl
  refine rest_of _ _ ?_ ?_
  · rw [e1]
    refine ⟨rfl, rfl, ?_⟩
    intro w r h
    cases w with
    | zero => simp at h; subst h; exact ⟨rfl, rfl⟩
    | succ w => simp at h
  · intro j hj
    rw [e3] at hj
    rw [e2]
    match j, hj with
    | 0, _ => exact ⟨_, rfl, .inl ⟨rfl, .inl rfl⟩⟩
    | 1, _ => exact ⟨_, rfl, .inl ⟨rfl, .inr ⟨_, _, rfl, rfl⟩⟩⟩

/-- The hypotheses of `C63_despite_crashes_partial` in a run with a crash. -/
example : Quiescent sysLib ⟨true⟩ (stateOf sysLib ⟨true⟩ 1 5 0 exLost) ∧ SomeCrash (logOf sysLib ⟨true⟩ 1 5 0 exLost) ∧
    (stateOf sysLib ⟨true⟩ 1 5 0 exLost).queue.status ≠ .aborted ∧ .call 1 (.verify exWork "ip") ∈ logOf sysLib ⟨true⟩ 1 5 0 exLost :=
  ⟨rest_quiescent _ _ exLost_rest, ⟨0, 1, by decide⟩, by decide, by decide⟩

/-- The honest visitor's system, one worker and one client, comes to rest after one more message to the manager. -/
def exRest : List SStep := exHonest ++ [.queue .manage]

theorem exRest_rest : Rest 9 (stateOf sysLib ⟨true⟩ 1 5 0 exRest) := by
  have e1 : (stateOf sysLib ⟨true⟩ 1 5 0 exRest).queue =
      { inner := { queues := [("ip", [])], runners := [Worker.spawn], ips := ["ip"], cur := 0, queueLength := 5 },
        mailbox := [], status := .running, closed := false } := by decide
  have e2 : (stateOf sysLib ⟨true⟩ 1 5 0 exRest).calls.map Call.view =
      [(.get "site", .done, true, none),
       (.verify exWork "ip", .done, true, some { pc := .dropped true, buf := [], rxAlive := false, reading := .verdict true }),
       (.validate ⟨exDrawn2, "site"⟩, .done, true, none)] := by decide
  have e3 : (stateOf sysLib ⟨true⟩ 1 5 0 exRest).calls.length = 3 := by rw [← List.length_map Call.view, e2]; rfl
  refine rest_of _ _ ?_ ?_
  · rw [e1]
    refine ⟨rfl, rfl, ?_⟩
    intro w r h
    cases w with
    | zero => simp at h; subst h; exact ⟨rfl, rfl⟩
    | succ w => simp at h
  · intro j hj
    rw [e3] at hj
    rw [e2]
    match j, hj with
    | 0, _ => exact ⟨_, rfl, .inl ⟨rfl, .inl rfl⟩⟩
    | 1, _ => exact ⟨_, rfl, .inl ⟨rfl, .inr ⟨_, _, rfl, rfl⟩⟩⟩
    | 2, _ => exact ⟨_, rfl, .inl ⟨rfl, .inl rfl⟩⟩

example : Quiescent sysLib ⟨true⟩ (stateOf sysLib ⟨true⟩ 1 5 0 exRest) ∧ ¬ SomeCrash (logOf sysLib ⟨true⟩ 1 5 0 exRest) ∧
    (addresses (logOf sysLib ⟨true⟩ 1 5 0 exRest)).length ≤ 1 ∧ .call 1 (.verify exWork "ip") ∈ logOf sysLib ⟨true⟩ 1 5 0 exRest := by
  refine ⟨rest_quiescent _ _ exRest_rest, ?_, by decide, by decide⟩
  rintro ⟨w, j, h⟩
  have : (logOf sysLib ⟨true⟩ 1 5 0 exRest).any (fun | .queue (.crashedOn _ _) => true | _ => false) = false := by decide
  rw [List.any_eq_false] at this
  simpa using this _ h

/-- Visitors A and B are served; then A comes again. -/
def exStuck : List SStep :=
  [.call (.get "site"), .master 0 (.reply (.ok (some ⟨30, 50⟩))) (fun _ => 0), .cache 0, .resume 0,
   .call (.get "site"), .master 1 (.reply (.ok (some ⟨30, 50⟩))) (fun _ => 1), .cache 1, .resume 1,
   .call (.get "site"), .master 2 (.reply (.ok (some ⟨30, 50⟩))) (fun _ => 2), .cache 2, .resume 2,
   .call (.verify exWork "A"), .cache 3, .resume 3, .queue .manage, .resume 3, .queue (.take 0), .work 0, .work 0, .work 0,
   .poll 3 (fun _ => 3), .queue (.finish 0), .queue .manage, .cache 3, .resume 3,
   .call (.verify { exWork with string := exDrawn2, result := exDrawn2 } "B"), .cache 4, .resume 4, .queue .manage, .resume 4,
   .queue (.take 0), .work 0, .work 0, .work 0, .poll 4 (fun _ => 4), .queue (.finish 0), .queue .manage, .cache 4, .resume 4,
   .call (.verify { exWork with string := getRandom 32 (fun _ => 2), result := getRandom 32 (fun _ => 2) } "A"), .cache 5, .resume 5,
   .queue .manage, .resume 5]

/-- The work of the second submission of A. -/
def exWork3 : Work := { exWork with string := getRandom 32 (fun _ => 2), result := getRandom 32 (fun _ => 2) }

theorem exStuck_stuck : Stuck 5 (stateOf sysLib ⟨true⟩ 1 9 0 exStuck) := by
  have e1 : (stateOf sysLib ⟨true⟩ 1 9 0 exStuck).queue =
      { inner := { queues := [("A", [5]), ("B", [])], runners := [Worker.spawn], ips := ["A", "B"], cur := 1, queueLength := 9 },
        mailbox := [], status := .running, closed := false } := by decide
  have e2 : (stateOf sysLib ⟨true⟩ 1 9 0 exStuck).calls.map Call.view =
      [(.get "site", .done, true, none), (.get "site", .done, true, none), (.get "site", .done, true, none),
       (.verify exWork "A", .done, true, some { pc := .dropped true, buf := [], rxAlive := false, reading := .verdict true }),
       (.verify { exWork with string := exDrawn2, result := exDrawn2 } "B", .done, true,
         some { pc := .dropped true, buf := [], rxAlive := false, reading := .verdict true }),
       (.verify exWork3 "A", .polling ⟨"site", 50, 30⟩, true, some VerdictChannel.new)] := by decide
  have e3 : (stateOf sysLib ⟨true⟩ 1 9 0 exStuck).calls.length = 6 := by rw [← List.length_map Call.view, e2]; rfl
  refine ⟨rest_of _ _ ?_ ?_, ?_⟩
  · rw [e1]
    refine ⟨rfl, rfl, ?_⟩
    intro w r h
    cases w with
    | zero => simp at h; subst h; exact ⟨rfl, rfl⟩
    | succ w => simp at h
  · intro j hj
    rw [e3] at hj
    rw [e2]
    match j, hj with
    | 0, _ => exact ⟨_, rfl, .inl ⟨rfl, .inl rfl⟩⟩
    | 1, _ => exact ⟨_, rfl, .inl ⟨rfl, .inl rfl⟩⟩
    | 2, _ => exact ⟨_, rfl, .inl ⟨rfl, .inl rfl⟩⟩
    | 3, _ => exact ⟨_, rfl, .inl ⟨rfl, .inr ⟨_, _, rfl, rfl⟩⟩⟩
    | 4, _ => exact ⟨_, rfl, .inl ⟨rfl, .inr ⟨_, _, rfl, rfl⟩⟩⟩
    | 5, _ => exact ⟨_, rfl, .inr ⟨rfl, rfl, by rw [e1]; decide, _, _, rfl, rfl, rfl, rfl, rfl⟩⟩
  · have h5 : 5 < (stateOf sysLib ⟨true⟩ 1 9 0 exStuck).calls.length := by rw [e3]; omega
    refine ⟨_, List.getElem?_eq_getElem h5, ?_⟩
    have hv : ((stateOf sysLib ⟨true⟩ 1 9 0 exStuck).calls.map Call.view)[5]? =
        some ((stateOf sysLib ⟨true⟩ 1 9 0 exStuck).calls[5].view) := by rw [List.getElem?_map, List.getElem?_eq_getElem h5]; rfl
    rw [e2] at hv
    simp [Call.view] at hv
    obtain ⟨-, hp, hl, -⟩ := hv
    exact ⟨hl.symm ▸ rfl, by rw [← hp]; simp⟩

theorem exStuck_silent (later : List SStep) (h1 : ∀ a, .call a ∉ later) (h2 : .cancel 5 ∉ later) (a : Api) (r : Ret) :
    .ret 5 a r ∉ logOf sysLib ⟨true⟩ 1 9 0 (exStuck ++ later) := by
  unfold logOf
  rw [sysRun_append]
  simp only [List.mem_append]
  rintro (h | h)
  · have : (logOf sysLib ⟨true⟩ 1 9 0 exStuck).any (fun | .ret 5 _ _ => true | _ => false) = false := by decide
    rw [List.any_eq_false] at this
    simpa using this _ h
  · obtain ⟨m, r', e⟩ := stuck_run sysLib ⟨true⟩ later h1 h2 exStuck_stuck _ h
    cases e

/-- C63 is refuted: one worker; A and B are served, then A's second proof is accepted when it is the turn of B. Without a further call
its `verify_pow` never returns, whatever happens, unless it is cancelled: everything is idle, and the call polls for ever. -/
theorem C63_always_answers_refuted :
    ∃ steps i work ip, .call i (.verify work ip) ∈ logOf sysLib ⟨true⟩ 1 9 0 steps ∧
      ∀ later, (∀ a, .call a ∉ later) → .cancel i ∉ later → ∀ a r, .ret i a r ∉ logOf sysLib ⟨true⟩ 1 9 0 (steps ++ later) :=
  ⟨exStuck, 5, exWork3, "A", by decide, exStuck_silent⟩

/-! ### C60 -/

/-- C60 is refuted: in the same run, A's second proof is a right solution, for the right key, of a challenge A obtained, no clock has
ticked, the challenge was found in the cache and the queue took the job; but no token ever comes without a further call. -/
theorem C60_honest_client_succeeds_refuted :
    ∃ steps g i id pc work ip, .ret g (.get id) (.get (.ok (some pc))) ∈ logOf sysLib ⟨true⟩ 1 9 0 steps ∧
      .call i (.verify work ip) ∈ logOf sysLib ⟨true⟩ 1 9 0 steps ∧
      work.string = pc.string ∧ work.key = id ∧ Solves sysLib work pc.difficultyFactor ∧ (∀ d, .tick d ∉ steps) ∧
      .cache (some (i, .verify work ip)) (.retrivePow ⟨work.string, id⟩) (.config (some ⟨id, pc.difficultyFactor, 30⟩)) ∈
        logOf sysLib ⟨true⟩ 1 9 0 steps ∧
      .queue (.accepted ip i) ∈ logOf sysLib ⟨true⟩ 1 9 0 steps ∧
      ∀ later, (∀ a, .call a ∉ later) → .cancel i ∉ later → ∀ a r, .ret i a r ∉ logOf sysLib ⟨true⟩ 1 9 0 (steps ++ later) :=
  ⟨exStuck, 2, 5, "site", ⟨getRandom 32 (fun _ => 2), 50, "salt"⟩, exWork3, "A", by decide, by decide, by decide, by decide,
    ⟨by decide, by decide⟩, by simp [exStuck], by decide, by decide, exStuck_silent⟩

/-- C60, in part. Call `g`, a `get_pow(id)`, returned the challenge `pc`; call `i`, `verify_pow(work, ip)`, comes with a solution of it for `id`, and
reaches the cache while the challenge is still there: nobody has touched it since it was stored. Then the answer of call `i`, if it
comes, is a token together with the quoted difficulty, and the token is in the cache for `id`; provided no job crashed, the queue did not
refuse and the cache is not gone. -/
theorem C60_solution_gets_token_partial (lib : PowLib) (p : Profile) (n ql now : Nat) (steps : List SStep) (g i : Nat) (id : String) (pc : PoWConfig)
    (c : CachePoW) (api : Api) (work : Work) (ip : String) (rp rq : CacheReply) (v : VerifyCaptchaResult) (a b post : List SEvent)
    (hlog : logOf lib p n ql now steps =
      a ++ .cache (some (g, api)) (.cachePow c) rp :: (b ++ .cache (some (i, .verify work ip)) (.retrivePow v) rq :: post))
    (hret : .ret g (.get id) (.get (.ok (some pc))) ∈ logOf lib p n ql now steps)
    (hb : untouched pc.string b)
    (hs : work.string = pc.string) (hk : work.key = id) (hsol : Solves lib work pc.difficultyFactor)
    (hcrash : ¬ SomeCrash (logOf lib p n ql now steps)) (href : ∀ ip', .queue (.refused ip' i) ∉ logOf lib p n ql now steps)
    (hgone : .cacheGone i ∉ steps) (r : Ret) (hr : .ret i (.verify work ip) r ∈ logOf lib p n ql now steps) :
    ∃ t, r = .verify (.ok (t, pc.difficultyFactor)) ∧ Minted (logOf lib p n ql now steps) i work ip t id := by
  have h := facts lib p n ql now steps
  /- what was stored is what was returned -/
  obtain ⟨x, y, hx, -, ⟨dur, hiss⟩, -⟩ := explained_mem h.si.why hret
  have e := asked_once h.ai (i := g) (k := .pow) (x := .cache (some (g, api)) (.cachePow c) rp)
    (y := .cache (some (g, .get id))
      (.cachePow { string := pc.string, difficultyFactor := pc.difficultyFactor, duration := dur, key := id }) .done)
    (by rw [show (sysRun lib p (Sys.new n ql now) steps).2 = _ from hlog]; simp) (by rw [hx]; exact List.mem_append_left _ hiss) rfl rfl
  simp at e
  obtain ⟨-, rfl, -⟩ := e
  /- so it is found -/
  have hf : Found (logOf lib p n ql now steps) i work ip { key := id, difficultyFactor := pc.difficultyFactor, duration := dur } := by
    obtain ⟨hv, hrq, -⟩ := C62_lookup lib p n ql now steps i work ip v rq (a ++ .cache (some (g, api)) (.cachePow _) rp :: b) post
      (by rw [hlog]; simp; rfl)
    rw [hs, stored_untouched a b _ _ _ hb] at hrq
    unfold Found
    rw [← hv, ← hrq, hlog]
    simp
  /- every other answer is excluded -/
  obtain ⟨pre, post', hp, hw⟩ := explained_mem h.si.why hr
  cases r with
  | get _ => exact hw.elim
  | validate _ => exact hw.elim
  | verify r =>
    have hpl : logOf lib p n ql now steps = pre ++ .ret i (.verify work ip) (.verify r) :: post' := hp
    have hin : ∀ e ∈ pre, e ∈ logOf lib p n ql now steps := by intro e he; rw [hpl]; exact List.mem_append_left _ he
    have onef : ∀ r', .cache (some (i, .verify work ip)) (.retrivePow { token := work.string, key := work.key }) r' ∈ pre →
        r' = .config (some { key := id, difficultyFactor := pc.difficultyFactor, duration := dur }) :=
      fun r' h' => (looked_once h.ui (hin _ h') hf).2.2
    cases r with
    | ok td =>
      obtain ⟨t, d⟩ := td
      obtain ⟨-, ⟨dur', hm⟩, ⟨cfg, hf', -, hd⟩, -⟩ := hw
      have := onef _ hf'
      simp at this
      subst this
      exact ⟨t, by rw [← hd], dur', by rw [hk] at hm; exact hin _ hm⟩
    | error e =>
      exfalso
      have hj := h.ji.why pre _ post' hpl
      obtain ⟨-, ⟨rfl, hm⟩ | ⟨rfl, cfg, hf', hk'⟩ | ⟨rfl, ip', hm⟩ | ⟨rfl, -⟩ | rfl | rfl⟩ := hw
      · have := onef _ hm; simp at this
      · have := onef _ hf'
        simp at this
        subst this
        exact hk' hk.symm
      · exact href ip' (hin _ hm)
      · rcases hj with ⟨w, j, hm⟩ | ⟨cfg, hf', -, hn⟩
        · exact hcrash ⟨w, j, hin _ hm⟩
        · have := onef _ hf'
          simp at this
          subst this
          exact hn hsol
      · obtain ⟨w, j, hm⟩ := hj
        exact hcrash ⟨w, j, hin _ hm⟩
      · exact hgone (mailbox_run lib p _ steps i _ _ (.inl rfl) hr)

/-- C60, in part. And the answer does come, if the job is handed to a worker: when nothing goes on any more, call `i` has returned it, unless its
job waits in the queue of its client (C63) or the call was cancelled. -/
theorem C60_token_arrives_partial (lib : PowLib) (p : Profile) (n ql now : Nat) (steps : List SStep) (g i : Nat) (id : String) (pc : PoWConfig)
    (c : CachePoW) (api : Api) (work : Work) (ip : String) (rp rq : CacheReply) (v : VerifyCaptchaResult) (a b post : List SEvent)
    (hlog : logOf lib p n ql now steps =
      a ++ .cache (some (g, api)) (.cachePow c) rp :: (b ++ .cache (some (i, .verify work ip)) (.retrivePow v) rq :: post))
    (hret : .ret g (.get id) (.get (.ok (some pc))) ∈ logOf lib p n ql now steps)
    (hb : untouched pc.string b)
    (hs : work.string = pc.string) (hk : work.key = id) (hsol : Solves lib work pc.difficultyFactor)
    (hcrash : ¬ SomeCrash (logOf lib p n ql now steps)) (href : ∀ ip', .queue (.refused ip' i) ∉ logOf lib p n ql now steps)
    (hgone : .cacheGone i ∉ steps) (hq : Quiescent lib p (stateOf lib p n ql now steps)) (hcan : .cancelled i ∉ logOf lib p n ql now steps)
    (hwait : i ∉ waitingJobs (stateOf lib p n ql now steps).queue) :
    ∃ t, .ret i (.verify work ip) (.verify (.ok (t, pc.difficultyFactor))) ∈ logOf lib p n ql now steps ∧
      Minted (logOf lib p n ql now steps) i work ip t id := by
  have hcall : .call i (.verify work ip) ∈ logOf lib p n ql now steps := by
    have := (facts lib p n ql now steps).si.why (a ++ .cache (some (g, api)) (.cachePow c) rp :: b)
      (.cache (some (i, .verify work ip)) (.retrivePow v) rq) post (by rw [show (sysRun lib p (Sys.new n ql now) steps).2 = _ from hlog]; simp)
    rw [hlog]
    have := this.1
    simp only [List.mem_append, List.mem_cons] at this ⊢
    rcases this with h | h | h
    · exact .inl h
    · cases h
    · exact .inr (.inr (.inl h))
  rcases C63_answered_unless_waiting_partial lib p n ql now steps hq hcrash i work ip hcall with ⟨r, hr⟩ | h | h
  · obtain ⟨t, rfl, hm⟩ := C60_solution_gets_token_partial lib p n ql now steps g i id pc c api work ip rp rq v a b post hlog hret hb hs hk hsol hcrash
      href hgone r hr
    exact ⟨t, hr, hm⟩
  · exact absurd h hcan
  · exact absurd h hwait

/-- C60. A token, stored for `id` and not touched since, is accepted for `id`: the answer to call `k`, if it comes, is `true`, unless the
cache is gone. -/
theorem C60_token_validates (lib : PowLib) (p : Profile) (n ql now : Nat) (steps : List SStep) (k : Nat) (sender : Option (Nat × Api))
    (t id : String) (duration : Nat) (rp rq : CacheReply) (m : CacheMsg) (a b post : List SEvent)
    (hlog : logOf lib p n ql now steps = a ++ .cache sender (.cacheResult { token := t, key := id, duration := duration }) rp ::
      (b ++ .cache (some (k, .validate ⟨t, id⟩)) m rq :: post))
    (hb : untouchedToken t b) (hgone : .cacheGone k ∉ steps) :
    rq = .verdict true ∧ ∀ r, .ret k (.validate ⟨t, id⟩) r ∈ logOf lib p n ql now steps → r = .validate (.ok true) := by
  have h := facts lib p n ql now steps
  have hw := h.si.why (a ++ .cache sender (.cacheResult { token := t, key := id, duration := duration }) rp :: b) _ post (by
    rw [show (sysRun lib p (Sys.new n ql now) steps).2 = _ from hlog]; simp; rfl)
  obtain ⟨-, rfl, hv⟩ := hw
  have hst := storedToken_untouched a b sender { token := t, key := id, duration := duration } rp hb
  simp only at hst hv
  rw [hst] at hv
  simp at hv
  refine ⟨hv, ?_⟩
  intro r hr
  obtain ⟨pre, post', hp, hw⟩ := explained_mem h.si.why hr
  cases r with
  | get _ => exact hw.elim
  | verify _ => exact hw.elim
  | validate r =>
    cases r with
    | ok x =>
      obtain ⟨-, hx⟩ := hw
      have := asked_once h.ai (i := k) (k := .chk) (x := .cache (some (k, .validate ⟨t, id⟩)) (.verify ⟨t, id⟩) (.verdict x))
        (y := .cache (some (k, .validate ⟨t, id⟩)) (.verify ⟨t, id⟩) rq) (by rw [hp]; exact List.mem_append_left _ hx)
        (by rw [show (sysRun lib p (Sys.new n ql now) steps).2 = _ from hlog]; simp) rfl rfl
      rw [hv] at this
      simp at this
      rw [this]
    | error e =>
      obtain ⟨-, rfl⟩ := hw
      exact absurd (mailbox_run lib p _ steps k _ _ (.inr rfl) hr) hgone

/-- C60, in time. A challenge is stored whose string was not stored before (a fresh random string); then, as long as less than its
duration has passed, nothing but the calls themselves touches it. -/
theorem C60_challenge_in_time (lib : PowLib) (p : Profile) (n ql now : Nat) (s1 s2 : List SStep) (g : Nat) (api : Api) (c : CachePoW)
    (rp : CacheReply) (h1 : (sysStep lib p (stateOf lib p n ql now s1) (.cache g)).2 = [.cache (some (g, api)) (.cachePow c) rp])
    (hfresh : ∀ sender c' r, .cache sender (.cachePow c') r ∈ logOf lib p n ql now s1 → c'.string ≠ c.string)
    (halone : ∀ sender m r, .cache (some sender) m r ∈ (sysRun lib p (stateOf lib p n ql now (s1 ++ [.cache g])) s2).2 →
      challengeOf m ≠ some c.string)
    (htime : (stateOf lib p n ql now (s1 ++ .cache g :: s2)).cache.now < (stateOf lib p n ql now s1).cache.now + c.duration) :
    logOf lib p n ql now (s1 ++ .cache g :: s2) = logOf lib p n ql now s1 ++ .cache (some (g, api)) (.cachePow c) rp ::
      (sysRun lib p (stateOf lib p n ql now (s1 ++ [.cache g])) s2).2 ∧
    untouched c.string (sysRun lib p (stateOf lib p n ql now (s1 ++ [.cache g])) s2).2 := by
  have hst := timers_stored lib p n ql now s1
  have e1 : stateOf lib p n ql now (s1 ++ [.cache g]) = (sysStep lib p (stateOf lib p n ql now s1) (.cache g)).1 := by
    unfold stateOf; rw [sysRun_append]; rfl
  have e2 : stateOf lib p n ql now (s1 ++ .cache g :: s2) = (sysRun lib p (stateOf lib p n ql now (s1 ++ [.cache g])) s2).1 := by
    rw [e1]; unfold stateOf; rw [sysRun_append]; rfl
  have e3 : logOf lib p n ql now (s1 ++ .cache g :: s2) = logOf lib p n ql now s1 ++ ((sysStep lib p (stateOf lib p n ql now s1) (.cache g)).2 ++
      (sysRun lib p (stateOf lib p n ql now (s1 ++ [.cache g])) s2).2) := by
    rw [e1]; unfold logOf; rw [sysRun_append]; rfl
  refine ⟨by rw [e3, h1]; rfl, ?_⟩
  rw [e2] at htime
  refine untouched_run challengeOf (.inl rfl) lib p c.string ((stateOf lib p n ql now s1).cache.now + c.duration) s2 _ ?_ halone htime
  rw [e1]
  have hno : ∀ t ∈ (stateOf lib p n ql now s1).cache.timers, challengeOf t.msg ≠ some c.string := by
    intro t ht hx
    rcases hst t ht with ⟨c', sd, r, e, hm⟩ | ⟨c', sd, r, e, hm⟩
    · rw [e] at hx; exact hfresh sd c' r hm (by simpa [challengeOf] using hx)
    · rw [e] at hx; simp [challengeOf] at hx
  intro t ht hx
  rw [cache_after (sysStep_move lib p (stateOf lib p n ql now s1) (.cache g)) h1, cacheHandle_tasks] at ht
  rcases List.mem_append.1 ht with ht | ht
  · exact absurd hx (hno t ht)
  · simp at ht; subst ht; exact Nat.le_refl _

/-- C60, in time: the same of tokens. -/
theorem C60_token_in_time (lib : PowLib) (p : Profile) (n ql now : Nat) (s1 s2 : List SStep) (i : Nat) (api : Api) (c : CacheResult)
    (rp : CacheReply) (h1 : (sysStep lib p (stateOf lib p n ql now s1) (.cache i)).2 = [.cache (some (i, api)) (.cacheResult c) rp])
    (hfresh : ∀ sender c' r, .cache sender (.cacheResult c') r ∈ logOf lib p n ql now s1 → c'.token ≠ c.token)
    (halone : ∀ sender m r, .cache (some sender) m r ∈ (sysRun lib p (stateOf lib p n ql now (s1 ++ [.cache i])) s2).2 →
      tokenOf m ≠ some c.token)
    (htime : (stateOf lib p n ql now (s1 ++ .cache i :: s2)).cache.now < (stateOf lib p n ql now s1).cache.now + c.duration) :
    logOf lib p n ql now (s1 ++ .cache i :: s2) = logOf lib p n ql now s1 ++ .cache (some (i, api)) (.cacheResult c) rp ::
      (sysRun lib p (stateOf lib p n ql now (s1 ++ [.cache i])) s2).2 ∧
    untouchedToken c.token (sysRun lib p (stateOf lib p n ql now (s1 ++ [.cache i])) s2).2 := by
  have hst := timers_stored lib p n ql now s1
  have e1 : stateOf lib p n ql now (s1 ++ [.cache i]) = (sysStep lib p (stateOf lib p n ql now s1) (.cache i)).1 := by
    unfold stateOf; rw [sysRun_append]; rfl
  have e2 : stateOf lib p n ql now (s1 ++ .cache i :: s2) = (sysRun lib p (stateOf lib p n ql now (s1 ++ [.cache i])) s2).1 := by
    rw [e1]; unfold stateOf; rw [sysRun_append]; rfl
  have e3 : logOf lib p n ql now (s1 ++ .cache i :: s2) = logOf lib p n ql now s1 ++ ((sysStep lib p (stateOf lib p n ql now s1) (.cache i)).2 ++
      (sysRun lib p (stateOf lib p n ql now (s1 ++ [.cache i])) s2).2) := by
    rw [e1]; unfold logOf; rw [sysRun_append]; rfl
  refine ⟨by rw [e3, h1]; rfl, ?_⟩
  rw [e2] at htime
  refine untouched_run tokenOf (.inr rfl) lib p c.token ((stateOf lib p n ql now s1).cache.now + c.duration) s2 _ ?_ halone htime
  rw [e1]
  have hno : ∀ t ∈ (stateOf lib p n ql now s1).cache.timers, tokenOf t.msg ≠ some c.token := by
    intro t ht hx
    rcases hst t ht with ⟨c', sd, r, e, hm⟩ | ⟨c', sd, r, e, hm⟩
    · rw [e] at hx; simp [tokenOf] at hx
    · rw [e] at hx; exact hfresh sd c' r hm (by simpa [tokenOf] using hx)
  intro t ht hx
  rw [cache_after (sysStep_move lib p (stateOf lib p n ql now s1) (.cache i)) h1, cacheHandle_tasks] at ht
  rcases List.mem_append.1 ht with ht | ht
  · exact absurd hx (hno t ht)
  · simp at ht; subst ht; exact Nat.le_refl _

/-- C60. Validations are always answered, crashes or not: when nothing goes on any more and the process has not been aborted, each one
has returned or was cancelled. -/
theorem C60_validation_arrives (lib : PowLib) (p : Profile) (n ql now : Nat) (steps : List SStep)
    (hq : Quiescent lib p (stateOf lib p n ql now steps)) (ha : (stateOf lib p n ql now steps).queue.status ≠ .aborted)
    (k : Nat) (v : VerifyCaptchaResult) (hk : .call k (.validate v) ∈ logOf lib p n ql now steps) :
    (∃ r, .ret k (.validate v) r ∈ logOf lib p n ql now steps) ∨ .cancelled k ∈ logOf lib p n ql now steps := by
  rcases C63_despite_crashes_partial lib p n ql now steps hq ha k _ hk with h | h | ⟨⟨id, e⟩, -⟩ | ⟨⟨work, ip, e⟩, -⟩
  · exact .inl h
  · exact .inr h
  · cases e
  · cases e

/-- The log of the honest visitor, cut at the messages the theorems are about. -/
theorem exHonest_cut : logOf sysLib ⟨true⟩ 1 5 0 exRest =
    [.call 0 (.get "site"), .master 0 (.reply (.ok (some ⟨30, 50⟩)))] ++
      .cache (some (0, .get "site")) (.cachePow ⟨exDrawn, 50, 30, "site"⟩) .done ::
    ([.ret 0 (.get "site") (.get (.ok (some ⟨exDrawn, 50, "salt"⟩))), .call 1 (.verify exWork "ip")] ++
      .cache (some (1, .verify exWork "ip")) (.retrivePow ⟨exDrawn, "site"⟩) (.config (some ⟨"site", 50, 30⟩)) ::
    ([.queue (.accepted "ip" 1), .queue (.served "ip"), .queue (.handed 0 "ip" 1), .queue (.started 0 1), .queue (.ran 0 1)] ++
      .cache (some (1, .verify exWork "ip")) (.cacheResult ⟨exDrawn2, "site", 30⟩) .done ::
    ([.ret 1 (.verify exWork "ip") (.verify (.ok (exDrawn2, 50))), .call 2 (.validate ⟨exDrawn2, "site"⟩)] ++
      .cache (some (2, .validate ⟨exDrawn2, "site"⟩)) (.verify ⟨exDrawn2, "site"⟩) (.verdict true) ::
    [.ret 2 (.validate ⟨exDrawn2, "site"⟩) (.validate (.ok true)), .queue (.served "ip")]))) := by decide

theorem exRest_no_crash : ¬ SomeCrash (logOf sysLib ⟨true⟩ 1 5 0 exRest) := by
  rintro ⟨w, j, h⟩
  have : (logOf sysLib ⟨true⟩ 1 5 0 exRest).any (fun | .queue (.crashedOn _ _) => true | _ => false) = false := by decide
  rw [List.any_eq_false] at this
  simpa using this _ h

/-- The honest visitor meets the hypotheses of `C60_solution_gets_token_partial` and `C60_token_arrives_partial`. -/
example : ∃ t, .ret 1 (.verify exWork "ip") (.verify (.ok (t, 50))) ∈ logOf sysLib ⟨true⟩ 1 5 0 exRest ∧
    Minted (logOf sysLib ⟨true⟩ 1 5 0 exRest) 1 exWork "ip" t "site" := by
  refine C60_token_arrives_partial sysLib ⟨true⟩ 1 5 0 exRest 0 1 "site" ⟨exDrawn, 50, "salt"⟩ _ _ exWork "ip" _ _ _ _ _ _ exHonest_cut (by decide)
    ?_ rfl rfl ⟨by decide, by decide⟩ exRest_no_crash ?_ (by simp [exRest, exHonest]) (rest_quiescent _ _ exRest_rest) (by decide) (by decide)
  · intro sender m r h; simp at h
  · intro ip' h; rw [exHonest_cut] at h; simp at h

/-- And those of `C60_token_validates` and `C60_validation_arrives`. -/
example : (∀ r, .ret 2 (.validate ⟨exDrawn2, "site"⟩) r ∈ logOf sysLib ⟨true⟩ 1 5 0 exRest → r = .validate (.ok true)) ∧
    ((∃ r, .ret 2 (.validate ⟨exDrawn2, "site"⟩) r ∈ logOf sysLib ⟨true⟩ 1 5 0 exRest) ∨ .cancelled 2 ∈ logOf sysLib ⟨true⟩ 1 5 0 exRest) := by
  refine ⟨(C60_token_validates sysLib ⟨true⟩ 1 5 0 exRest 2 _ exDrawn2 "site" 30 .done (.verdict true) (.verify ⟨exDrawn2, "site"⟩) _ _ _ (by
      rw [exHonest_cut, ← List.cons_append, ← List.append_assoc, ← List.cons_append, ← List.append_assoc]) ?_ (by simp [exRest, exHonest])).2,
    C60_validation_arrives sysLib ⟨true⟩ 1 5 0 exRest (rest_quiescent _ _ exRest_rest) (by decide) 2 _ (by decide)⟩
  intro sender m r h; simp at h

/-- The honest visitor is in time: 29 seconds pass before the solution comes. -/
example : untouched exDrawn (sysRun sysLib ⟨true⟩ (stateOf sysLib ⟨true⟩ 1 5 0
    (exHonest.take 2 ++ [.cache 0])) [.resume 0, .tick 29, .fire 0, .call (.verify exWork "ip")]).2 := by
  refine (C60_challenge_in_time sysLib ⟨true⟩ 1 5 0 (exHonest.take 2) [.resume 0, .tick 29, .fire 0, .call (.verify exWork "ip")] 0
    (.get "site") ⟨exDrawn, 50, 30, "site"⟩ .done (by decide) ?_ ?_ (by decide)).2
  · intro sender c' r h
    rw [show logOf sysLib ⟨true⟩ 1 5 0 (exHonest.take 2) = [.call 0 (.get "site"), .master 0 (.reply (.ok (some ⟨30, 50⟩)))] by decide] at h
    simp at h
  · intro sender m r h
    rw [show (sysRun sysLib ⟨true⟩ (stateOf sysLib ⟨true⟩ 1 5 0 (exHonest.take 2 ++ [.cache 0]))
      [.resume 0, .tick 29, .fire 0, .call (.verify exWork "ip")]).2 =
      [.ret 0 (.get "site") (.get (.ok (some ⟨exDrawn, 50, "salt"⟩))), .call 1 (.verify exWork "ip")] by decide] at h
    simp at h

/-- And so is the validation. -/
example : untouchedToken exDrawn2 (sysRun sysLib ⟨true⟩ (stateOf sysLib ⟨true⟩ 1 5 0
    (exHonest.take 17 ++ [.cache 1])) [.resume 1, .tick 29, .fire 0]).2 := by
  refine (C60_token_in_time sysLib ⟨true⟩ 1 5 0 (exHonest.take 17) [.resume 1, .tick 29, .fire 0] 1
    (.verify exWork "ip") ⟨exDrawn2, "site", 30⟩ .done (by decide) ?_ ?_ (by decide)).2
  · intro sender c' r h
    have : (logOf sysLib ⟨true⟩ 1 5 0 (exHonest.take 17)).any (fun | .cache _ (.cacheResult _) _ => true | _ => false) = false := by decide
    rw [List.any_eq_false] at this
    simpa using this _ h
  · intro sender m r h
    have : (sysRun sysLib ⟨true⟩ (stateOf sysLib ⟨true⟩ 1 5 0 (exHonest.take 17 ++ [.cache 1])) [.resume 1, .tick 29, .fire 0]).2.any
      (fun | .cache (some _) _ _ => true | _ => false) = false := by decide
    rw [List.any_eq_false] at this
    simpa using this _ h

/-! ### C62, C75: further facts about calls -/

/-- C62. Jobs are queued, or refused, under the address the call was made with. -/
theorem C62_own_address (lib : PowLib) (p : Profile) (n ql now : Nat) (steps : List SStep) (i : Nat) (work : Work) (ip ip' : String)
    (hi : .call i (.verify work ip) ∈ logOf lib p n ql now steps)
    (h : .queue (.accepted ip' i) ∈ logOf lib p n ql now steps ∨ .queue (.refused ip' i) ∈ logOf lib p n ql now steps) : ip' = ip := by
  have hd := dinv_new lib p n ql now steps
  obtain ⟨work', hw⟩ := (addr_new lib p n ql now steps).acc ip' i h
  obtain ⟨c, hc, ha⟩ := hd.made _ _ hi
  obtain ⟨c', hc', ha'⟩ := hd.made _ _ hw
  rw [hc] at hc'
  cases hc'
  rw [ha] at ha'
  cases ha'
  rfl

example : .call 1 (.verify exWork "ip") ∈ logOf sysLib ⟨true⟩ 1 5 0 exRest ∧ .queue (.accepted "ip" 1) ∈ logOf sysLib ⟨true⟩ 1 5 0 exRest := by
  decide

/-- C75. A call that was cancelled neither returns nor panics afterwards. -/
theorem C75_nothing_after_cancel (lib : PowLib) (p : Profile) (n ql now : Nat) (steps : List SStep) (pre post : List SEvent) (e : SEvent)
    (hlog : logOf lib p n ql now steps = pre ++ e :: post) (i : Nat) (hi : .cancelled i ∈ pre) : (∀ a r, e ≠ .ret i a r) ∧ e ≠ .panicked i :=
  let h := (gone_new lib p n ql now steps).quiet pre e post hlog i hi
  ⟨h.1, h.2.1⟩

/-- Call 0 is cancelled while the master has not answered; the answer comes, and call 1 goes on. -/
example : logOf sysLib ⟨true⟩ 1 5 0 [.call (.get "site"), .cancel 0, .call (.validate ⟨"t", "site"⟩), .cache 1, .resume 1] =
    [.call 0 (.get "site"), .cancelled 0, .call 1 (.validate ⟨"t", "site"⟩),
     .cache (some (1, .validate ⟨"t", "site"⟩)) (.verify ⟨"t", "site"⟩) (.verdict false)] ++
    .ret 1 (.validate ⟨"t", "site"⟩) (.validate (.ok false)) :: [] := by decide

end MCap
