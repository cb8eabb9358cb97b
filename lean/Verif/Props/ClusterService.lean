import Verif.Proofs.ClusterService
import Verif.Props.RedisLive
import Verif.Props.RedisLost
import Verif.Props.RedisPayment

/-!
# C130 A whole service on a Redis cluster
-/

namespace MCap
open Spec

/-- The log of an execution on a cluster. -/
abbrev cLog (lib : PowLib) (p : Profile) (thread : Nat → Nat) (n ql now : Nat) (conns : List Nat) (steps : List ZStep) : List ZEvent :=
  (cRun lib p thread (RService.new n ql now conns) steps).2

/-- The state after it. -/
abbrev cState (lib : PowLib) (p : Profile) (thread : Nat → Nat) (n ql now : Nat) (conns : List Nat) (steps : List ZStep) : RService :=
  (cRun lib p thread (RService.new n ql now conns) steps).1

/-- C130. What happens on a cluster could have happened on a single server, by a part of the steps: whatever C100 to C119 say of all executions
there holds here. -/
theorem C130_as_single (lib : PowLib) (p : Profile) (thread : Nat → Nat) (n ql now : Nat) (conns : List Nat) (steps : List ZStep) :
    ∃ steps', List.Sublist steps' steps ∧ cLog lib p thread n ql now conns steps = zLog lib p n ql now conns steps' ∧
      cState lib p thread n ql now conns steps = zState lib p n ql now conns steps' := by
  obtain ⟨l, h1, h2⟩ := cRun_single lib p thread steps (RService.new n ql now conns)
  exact ⟨l, h1, congrArg Prod.snd h2, congrArg Prod.fst h2⟩

/-- C130. A token is validated at most as often as callers are told that it is valid, and that is at most as often as it was asked to be stored. -/
theorem C130_single_use (lib : PowLib) (p : Profile) (thread : Nat → Nat) (n ql now : Nat) (conns : List Nat) (steps : List ZStep) (κ : String) :
    validated κ (cLog lib p thread n ql now conns steps) ≤ toldValid κ (atRedis (cLog lib p thread n ql now conns steps)) ∧
    toldValid κ (atRedis (cLog lib p thread n ql now conns steps)) ≤ askedToStore κ (atRedis (cLog lib p thread n ql now conns steps)) := by
  obtain ⟨s, -, h, -⟩ := C130_as_single lib p thread n ql now conns steps
  rw [h]
  exact C101_single_use lib p n ql now conns s κ

/-- C130. Whatever the service accepts was paid for. -/
theorem C130_paid (lib : PowLib) (p : Profile) (thread : Nat → Nat) (n ql now : Nat) (conns : List Nat) (steps : List ZStep) (v : Nat)
    (msg : VerifyCaptchaResult) (h : AcceptedOnRedis (cLog lib p thread n ql now conns steps) v msg) :
    ∃ pay, PaidOnRedis lib (cLog lib p thread n ql now conns steps) v msg pay := by
  obtain ⟨s, -, e, -⟩ := C130_as_single lib p thread n ql now conns steps
  rw [e] at h ⊢
  exact C116_paid lib p n ql now conns s v msg h

/-- C130. No borrow panics, even if the cache and the master share a connection. -/
theorem C130_no_borrow_panic (lib : PowLib) (p : Profile) (thread : Nat → Nat) (n ql now : Nat) (conns : List Nat)
    (ht : SharedOnThread thread conns) (steps : List ZStep) (a i : Nat) :
    .net (.actor (.crashed a i .alreadyBorrowed)) ∉ cLog lib p thread n ql now conns steps := by
  intro h
  exact c_noBorrow lib p thread n ql now conns ht steps a i (mem_atActors.2 (mem_atRedis.2 h))

/-- C130. A thread waits for the reply: after an actor has sent a command, the next thing any actor of its thread does is to end this request. -/
theorem C130_uninterrupted (lib : PowLib) (p : Profile) (thread : Nat → Nat) (n ql now : Nat) (conns : List Nat) (steps : List ZStep) (t : Nat)
    (pre : List REvent) (a i : Nat) (c : RCommand) (e : REvent) (post : List REvent)
    (h : onThread thread t (cLog lib p thread n ql now conns steps) = pre ++ .started a i c :: e :: post) :
    (∃ m ans, e = .answered a i m ans) ∨ ∃ w, e = .crashed a i w :=
  (threadInv_run lib p thread n ql now conns steps).good t pre a i c e post h

/-- C130. From every state the service can come to rest by what goes on by itself, however few threads there are. -/
theorem C130_settles (lib : PowLib) (p : Profile) (thread : Nat → Nat) (n ql now : Nat) (conns : List Nat) (steps : List ZStep) :
    ∃ later, (∀ st ∈ later, goesOnZ st = true) ∧ QuiescentC lib p thread (cState lib p thread n ql now conns (steps ++ later)) :=
  settlesC lib p thread n ql now conns _ steps (Nat.le_refl _)

/-- C130. At rest every `get_pow` and every validation has returned or was cancelled, and so has every `verify_pow`, but for those whose job waits
in the queue of its client: threads that wait for the cluster do not block each other for good. -/
theorem C130_answered (lib : PowLib) (p : Profile) (thread : Nat → Nat) (n ql now : Nat) (conns : List Nat) (steps : List ZStep) (h2 : 2 ≤ conns.length)
    (hq : QuiescentC lib p thread (cState lib p thread n ql now conns steps))
    (hab : (cState lib p thread n ql now conns steps).sys.queue.status ≠ .aborted)
    (i : Nat) (a : Api) (hi : .sys (.api (.call i a)) ∈ cLog lib p thread n ql now conns steps) :
    (∃ r, .sys (.api (.ret i a r)) ∈ cLog lib p thread n ql now conns steps) ∨ .sys (.api (.cancelled i)) ∈ cLog lib p thread n ql now conns steps ∨
    ((∃ work ip, a = .verify work ip) ∧ (cState lib p thread n ql now conns steps).sys.queue.status = .running ∧
      i ∈ waitingJobs (cState lib p thread n ql now conns steps).sys.queue) := by
  obtain ⟨s, -, e1, e2⟩ := C130_as_single lib p thread n ql now conns steps
  rw [e2] at hq hab
  rw [e1] at hi
  rw [e1, e2]
  exact C117_answered lib p n ql now conns s h2 (quiescentC_single lib p thread n ql now conns s hq) hab i a hi

/-- C130. If a call fails with `RecvError`, the server carried out its request, and the client could not bear the reply; or the request was to
store the token, and the connection failed. -/
theorem C130_recv_error (lib : PowLib) (p : Profile) (thread : Nat → Nat) (n ql now : Nat) (conns : List Nat) (ht : SharedOnThread thread conns)
    (steps : List ZStep) (i : Nat) (api : Api)
    (pre post : List ZEvent) (hlog : cLog lib p thread n ql now conns steps = pre ++ .sys (.api (.ret i api (api.fails .recvError))) :: post) :
    ∃ a m id, SendsTo api a m ∧ .asked i id ∈ pre ∧ .net (.actor (.sent a id m)) ∈ pre ∧
      (∀ b m' ans, .net (.actor (.answered b id m' ans)) ∉ cLog lib p thread n ql now conns steps) ∧
      ((∃ r t, .net (.served id m r t) ∈ pre ∧ Unbearable m r) ∨
       (.net (.actor (.started a id m.command)) ∈ pre ∧ ∃ c e, m = .cacheResult c ∧ .net (.fail a e) ∈ steps)) := by
  obtain ⟨s, hs, e, -⟩ := C130_as_single lib p thread n ql now conns steps
  obtain ⟨a, m, id, h1, h2, h3, h4, h5⟩ := C118_recv_error lib p n ql now conns s i api pre post (by rw [← e]; exact hlog)
  refine ⟨a, m, id, h1, h2, h3, by rw [e]; exact h4, ?_⟩
  rcases h5 with ⟨h5, -⟩ | h5 | ⟨h5, c, x, h6, h7⟩
  · exact absurd (by rw [hlog]; simp [h5]) (C130_no_borrow_panic lib p thread n ql now conns ht steps a id)
  · exact .inl h5
  · exact .inr ⟨h5, c, x, h6, hs.subset h7⟩

/-- C130. So a validation never fails with `RecvError` on a cluster, whatever the server replies and whatever fails. -/
theorem C130_validate_no_recv_error (lib : PowLib) (p : Profile) (thread : Nat → Nat) (n ql now : Nat) (conns : List Nat)
    (ht : SharedOnThread thread conns) (steps : List ZStep) (i : Nat) (msg : VerifyCaptchaResult) :
    .sys (.api (.ret i (.validate msg) (.validate (.error .recvError)))) ∉ cLog lib p thread n ql now conns steps := by
  intro h
  obtain ⟨pre, post, hlog⟩ := List.append_of_mem h
  obtain ⟨a, m, id, ⟨-, rfl⟩, -, -, -, ⟨r, t, -, h⟩ | ⟨-, c, e, h, -⟩⟩ := C130_recv_error lib p thread n ql now conns ht steps i (.validate msg) pre post hlog
  · exact h
  · cases h

/-! ## C122 with several threads -/

/-- While the last thing a thread has done is to send a command, no actor of it takes a message. -/
theorem C122_thread_waits (lib : PowLib) (p : Profile) (thread : Nat → Nat) (n ql now : Nat) (conns : List Nat) (steps : List ZStep) (a b i : Nat)
    (c : RCommand) (ht : thread a = thread b)
    (h : (onThread thread (thread b) (cLog lib p thread n ql now conns steps)).getLast? = some (.started a i c)) :
    cLog lib p thread n ql now conns (steps ++ [.net (.take b)]) = cLog lib p thread n ql now conns steps := by
  obtain ⟨-, m, hm⟩ := (threadInv_run lib p thread n ql now conns steps).last _ a i c h
  have hf : ¬ RService.threadMay thread (cState lib p thread n ql now conns steps) (.net (.take b)) = true := by
    intro hf
    rw [RService.threadMay, threadFree_iff] at hf
    simp only [underWay] at hm
    cases hx : (cRun lib p thread (RService.new n ql now conns) steps).1.net.sys.actors[a]? with
    | none => rw [hx] at hm; cases hm
    | some x =>
      rw [hx] at hm
      simp only [Option.bind_some] at hm
      rw [hf a x hx ht] at hm
      cases hm
  rw [cLog, cRun_append]
  simp only [cRun, List.append_nil]
  rw [cStep, if_neg hf, List.append_nil]

/-- Missing: actors on the same thread. On a cluster, whatever other threads wait for, an actor whose thread waits for nothing takes its next
message: it goes to the server, or is answered at once. -/
theorem C122_other_threads_partial (lib : PowLib) (p : Profile) (thread : Nat → Nat) (n ql now : Nat) (conns : List Nat) (ht : SharedOnThread thread conns)
    (steps : List ZStep) (b : Nat) (x : RActor) (i : Nat) (m : RMsg) (rest : List (Nat × RMsg))
    (hab : (cState lib p thread n ql now conns steps).sys.queue.status ≠ .aborted)
    (hx : (cState lib p thread n ql now conns steps).net.sys.actors[b]? = some x) (hi : x.inbox = (i, m) :: rest) (hm : m.todo = false)
    (h : ∀ a j c, (onThread thread (thread b) (cLog lib p thread n ql now conns steps)).getLast? ≠ some (.started a j c)) :
    cLog lib p thread n ql now conns (steps ++ [.net (.take b)]) = cLog lib p thread n ql now conns steps ++ [.net (.actor (.started b i m.command))] ∨
    cLog lib p thread n ql now conns (steps ++ [.net (.take b)]) =
      cLog lib p thread n ql now conns steps ++ [.net (.actor (.answered b i m (.unit (.ok ()))))] := by
  have hinv := threadInv_run lib p thread n ql now conns steps
  have hfree : ∀ d y, (cState lib p thread n ql now conns steps).net.sys.actors[d]? = some y → thread d = thread b → y.busy = none := by
    intro d y hy hd
    cases hb : y.busy with
    | none => rfl
    | some e =>
      have := hinv.held d e.1 e.2 (by rw [underWay, hy]; exact hb)
      rw [hd] at this
      exact absurd this (h d e.1 _)
  have hmay : RService.threadMay thread (cState lib p thread n ql now conns steps) (.net (.take b)) = true := by
    rw [RService.threadMay, threadFree_iff]; exact hfree
  have hno := C130_no_borrow_panic lib p thread n ql now conns ht (steps ++ [.net (.take b)]) b i
  rw [cLog, cRun_append] at hno ⊢
  simp only [cRun, List.append_nil] at hno ⊢
  rw [cStep, if_pos hmay] at hno ⊢
  have hs : (zStep lib p (cState lib p thread n ql now conns steps) (.net (.take b))).2 =
      (((cState lib p thread n ql now conns steps).net.sys.onTake b x i m rest).2.map NEvent.actor).map ZEvent.net := by
    have : rStep (cState lib p thread n ql now conns steps).net.sys (.take b) = (cState lib p thread n ql now conns steps).net.sys.onTake b x i m rest := by
      simp [rStep, hx, hfree b x hx rfl, hi]
    rw [zStep, if_neg hab]
    simp only [RService.othersMay, if_true, nStep, RService.absorb, this]
  rw [hs] at hno ⊢
  unfold RSys.onTake at hno ⊢
  rw [hm] at hno ⊢
  simp only [Bool.false_eq_true, if_false] at hno ⊢
  split
  · exact .inr rfl
  · rename_i him
    split
    · rename_i hin
      rw [if_neg him, if_pos hin] at hno
      simp at hno
    · exact .inl rfl

/-- Two threads, the first waits: the second goes on, the first does not. -/
example : (onThread id 1 (cLog sysLib ⟨true⟩ id 1 5 0 [0, 1] (exLostCalls.take 5))).getLast? = some (.started 1 0 (RMsg.addVisitor "site").command) ∧
    onThread id 0 (cLog sysLib ⟨true⟩ id 1 5 0 [0, 1] (exLostCalls.take 5)) = [] ∧
    (cState sysLib ⟨true⟩ id 1 5 0 [0, 1] (exLostCalls.take 5)).net.sys.actors[0]? = some ⟨true, 0, [(1, .verify ⟨"t", "site"⟩)], none⟩ ∧
    (cState sysLib ⟨true⟩ id 1 5 0 [0, 1] (exLostCalls.take 5)).sys.queue.status = .running := by decide +kernel

/-! ### Examples -/

/-- One thread, one connection. While the master waits for the visit of call 0 to be counted, the cache takes nothing; afterwards it does. -/
def exClusterCalls : List ZStep :=
  [.sys (.call (.get "site")), .ask 0, .net (.take 1), .sys (.call (.validate ⟨"t", "site"⟩)), .ask 1, .net (.take 0),
   .net (.serve 0 exReply), .net (.deliver 1 0), .net (.take 0), .hear 0 (fun _ => 0), .ask 0, .net (.serve 0 (.ok .nil)), .net (.deliver 0 0), .hear 1 (fun _ => 0),
   .sys (.resume 1), .net (.take 0), .net (.serve 0 (.ok .okay)), .net (.deliver 0 0), .hear 0 (fun _ => 0), .sys (.resume 0)]

/-- On a cluster all goes well; on a single server the cache panics, and its callers get errors. -/
example :
    (atCalls (cLog sysLib ⟨true⟩ (fun _ => 0) 1 5 0 [0, 0] exClusterCalls)).filter (fun e => match e with | .api (.ret _ _ _) => true | _ => false) =
      [.api (.ret 1 (.validate ⟨"t", "site"⟩) (.validate (.ok false))), .api (.ret 0 (.get "site") (.get (.ok (some ⟨exDrawn, 50, "salt"⟩))))] ∧
    (atCalls (zLog sysLib ⟨true⟩ 1 5 0 [0, 0] exClusterCalls)).filter (fun e => match e with | .api (.ret _ _ _) => true | _ => false) =
      [.api (.ret 0 (.get "site") (.get (.error .mailboxError))), .api (.ret 1 (.validate ⟨"t", "site"⟩) (.validate (.error .recvError)))] := by
  decide +kernel

example : SharedOnThread (fun _ => 0) [0, 0] ∧ SharedOnThread id [0, 1] := by
  constructor
  · intro a b c _ _; rfl
  · intro a b c ha hb
    match a, b with
    | 0, 0 => rfl
    | 1, 1 => rfl
    | 0, 1 => cases ha; cases hb
    | 1, 0 => cases ha; cases hb
    | a + 2, _ => simp at ha
    | 0, b + 2 => simp at hb
    | 1, b + 2 => simp at hb

/-- What the thread does: each command is followed by its end. -/
example : (onThread (fun _ => 0) 0 (cLog sysLib ⟨true⟩ (fun _ => 0) 1 5 0 [0, 0] exClusterCalls)).map
      (fun e => match e with | .started a i _ => (a, i, true) | .answered a i _ _ => (a, i, false) | e => (actorOf e, 100, false)) =
    [(1, 0, true), (1, 0, false), (0, 1, true), (0, 1, false), (0, 2, true), (0, 2, false)] := by decide +kernel

/-- Without one thread for the actors of a connection, a borrow would panic. -/
example : .crashed 0 1 .alreadyBorrowed ∈ atActors (atRedis (cLog sysLib ⟨true⟩ id 1 5 0 [0, 0] exClusterCalls)) := by decide +kernel

/-- A token is stored, and validated once, on a cluster with one connection and one thread. -/
example : validated (tokenKey "site" exDrawn2) (cLog sysLib ⟨true⟩ (fun _ => 0) 1 5 0 [0, 0] exRedis) = 1 ∧
    askedToStore (tokenKey "site" exDrawn2) (atRedis (cLog sysLib ⟨true⟩ (fun _ => 0) 1 5 0 [0, 0] exRedis)) = 1 ∧
    AcceptedOnRedis (cLog sysLib ⟨true⟩ (fun _ => 0) 1 5 0 [0, 0] exRedis) 2 ⟨exDrawn2, "site"⟩ :=
  ⟨by decide +kernel, by decide +kernel, mem_atCalls.1 (by decide +kernel)⟩

/-- A call that has waited for the thread: at rest it has returned. -/
example : ∃ later, (cState sysLib ⟨true⟩ (fun _ => 0) 1 5 0 [0, 0] (exClusterCalls.take 6)).net.sys.actors.map (fun x => (x.inbox.length, x.busy.isSome)) = [(1, false), (0, true)] ∧
    QuiescentC sysLib ⟨true⟩ (fun _ => 0) (cState sysLib ⟨true⟩ (fun _ => 0) 1 5 0 [0, 0] (exClusterCalls.take 6 ++ later)) := by
  obtain ⟨later, -, h⟩ := C130_settles sysLib ⟨true⟩ (fun _ => 0) 1 5 0 [0, 0] (exClusterCalls.take 6)
  exact ⟨later, by decide +kernel, h⟩

/-- Whether the threads allow all steps of a schedule. -/
def allMay (lib : PowLib) (p : Profile) (thread : Nat → Nat) : RService → List ZStep → Bool
  | _, [] => true
  | v, st :: r => v.threadMay thread st && allMay lib p thread (zStep lib p v st).1 r

theorem cRun_allMay (lib : PowLib) (p : Profile) (thread : Nat → Nat) (steps : List ZStep) (v : RService) (h : allMay lib p thread v steps = true) :
    cRun lib p thread v steps = zRun lib p v steps := by
  induction steps generalizing v with
  | nil => rfl
  | cons x r ih =>
    simp only [allMay, Bool.and_eq_true] at h
    have := ih _ h.2
    simp only [cRun, zRun, cStep, h.1, if_true, this]

theorem quiescentC_of_single (lib : PowLib) (p : Profile) (thread : Nat → Nat) (v : RService) (h : QuiescentZ lib p v) : QuiescentC lib p thread v := by
  intro st hst
  have := h st hst
  unfold cStep
  split
  · exact this
  · rfl

/-- The hypotheses of `C130_answered`: challenges, a token, its validation, two broken connections, on one thread. -/
example : QuiescentC sysLib ⟨true⟩ (fun _ => 0) (cState sysLib ⟨true⟩ (fun _ => 0) 1 5 0 [0, 1] exRedisRest) ∧
    (cState sysLib ⟨true⟩ (fun _ => 0) 1 5 0 [0, 1] exRedisRest).sys.queue.status ≠ .aborted ∧
    .sys (.api (.call 1 (.verify exWork "ip"))) ∈ cLog sysLib ⟨true⟩ (fun _ => 0) 1 5 0 [0, 1] exRedisRest := by
  have h := cRun_allMay sysLib ⟨true⟩ (fun _ => 0) exRedisRest (RService.new 1 5 0 [0, 1]) (by decide +kernel)
  rw [cState, cLog, h]
  exact ⟨quiescentC_of_single _ _ _ _ exRedisRest_rest, by decide +kernel, mem_atCalls.1 (by decide +kernel)⟩

/-- A token is stored, but its visitor gets a `RecvError`: the connection breaks. -/
example : ∃ pre post, cLog sysLib ⟨true⟩ (fun _ => 0) 1 5 0 [0, 0] exLostToken = pre ++ .sys (.api (.ret 1 (.verify exWork "ip") (.verify (.error .recvError)))) :: post :=
  List.append_of_mem (mem_atCalls.1 (by decide +kernel))

end MCap
