import Verif.Props.SystemFull
import Verif.Props.OpenSystem
import Verif.Props.ClusterService
import Verif.Proofs.OpenLive

/-!
# Property C123 with any cache and master
-/

namespace MCap
open Spec

/-- A job is accepted only after its call was made, with its address, and every call is made once. -/
structure CallsFirst (m : List SEvent) : Prop where
  acc : ∀ pre post ip j, m = pre ++ .queue (.accepted ip j) :: post → ∃ work, .call j (.verify work ip) ∈ pre
  once : ∀ pre post j a, m = pre ++ .call j a :: post → ∀ a', .call j a' ∉ pre

theorem callsFirst_step {lib : PowLib} {p : Profile} {n ql : Nat} {s : Sys} {m : List SEvent} (hi : LiveInv lib p n ql s m) (h : CallsFirst m) (st : SStep) :
    CallsFirst (m ++ (sysStep lib p s st).2) := by
  have hi' := liveInv_step hi st
  have hm := sysStep_move lib p s st
  generalize hx : sysStep lib p s st = x at hm hi'
  obtain ⟨s', ev⟩ := x
  simp only at hm hi'
  have hq : ∀ (e : SEvent), e ∈ ev → (∃ q, e = .queue q) → ∀ j a, .call j a ∉ ev := by
    rintro e he ⟨q, rfl⟩ j a hc
    cases hm with
    | start a' hq => simp at he
    | «local» i c c' ev hc' m => exact (local_dinv m).2.2.2 _ _ hc
    | _ => simp at hc
  have hs : ∀ j a, .call j a ∈ ev → ev = [.call j a] ∧ j = s.calls.length := by
    intro j a hc
    cases hm with
    | start a' hq => simp at hc; obtain ⟨rfl, rfl⟩ := hc; exact ⟨rfl, rfl⟩
    | «local» i c c' ev hc' m => exact absurd hc ((local_dinv m).2.2.2 _ _)
    | _ => simp at hc
  change CallsFirst (m ++ ev)
  constructor
  · intro pre post ip j hl
    rcases append_split hl with ⟨c, h2, -⟩ | ⟨c, h2, h3⟩
    · exact h.acc pre c ip j h2
    · obtain ⟨work, hw⟩ := hi'.addr.acc ip j (.inl (by rw [h3]; simp))
      refine ⟨work, ?_⟩
      rw [h2]
      rcases List.mem_append.1 hw with hw' | hw'
      · exact List.mem_append_left _ hw'
      · exact absurd hw' (hq (.queue (.accepted ip j)) (by rw [h3]; simp) ⟨_, rfl⟩ _ _)
  · intro pre post j a hl a' hc
    rcases append_split hl with ⟨c, h2, -⟩ | ⟨c, h2, h3⟩
    · exact h.once pre c j a h2 a' hc
    · obtain ⟨h4, h5⟩ := hs j a (by rw [h3]; simp)
      have hcn : c = [] := by
        rw [h3] at h4
        cases c with
        | nil => rfl
        | cons y c => simp at h4
      rw [h2, hcn, List.append_nil] at hc
      obtain ⟨x, hx, -⟩ := hi.made.made _ _ hc
      rw [h5] at hx
      simp at hx

theorem callsFirst_run (lib : PowLib) (p : Profile) (n ql now : Nat) (steps : List OStep) :
    ∃ m, Masked lib (openRun lib p (Sys.new n ql now) steps).2 m ∧ LiveInv lib p n ql (openRun lib p (Sys.new n ql now) steps).1 m ∧ CallsFirst m := by
  have := openRun_inv (lib := lib) (p := p) (P := fun s log => ∃ m, Masked lib log m ∧ LiveInv lib p n ql s m ∧ CallsFirst m) (by
    rintro s log x ⟨m, hm, hi, hc⟩
    obtain ⟨w, st, h1, h2, h3⟩ := open_sim lib p s x
    have hi' := liveInv_swap (t := { s with cache := w }) hi rfl rfl
    exact ⟨m ++ (sysStep lib p { s with cache := w } st).2, masked_extend hm hi.inv.calls h3,
      liveInv_swap (liveInv_step hi' st) h1 h2, callsFirst_step hi' hc st⟩) steps (Sys.new n ql now) []
    ⟨[], .nil, liveInv_new lib p n ql now, by simp, by simp⟩
  simpa using this

theorem open_admission (lib : PowLib) (p : Profile) (n ql now : Nat) (steps : List OStep) (pre post : List OEvent) (e : QEvent)
    (hlog : openLog lib p n ql now steps = pre ++ .api (.queue e) :: post) :
    (∀ ip j, e = .refused ip j → placesTaken (apiPart pre) = ql) ∧ (∀ ip j, e = .accepted ip j → placesTaken (apiPart pre) < ql) := by
  obtain ⟨m, hm, hi⟩ := oinv_run lib p n ql now steps
  obtain ⟨qs, h1, -⟩ := hi.queue
  have ha := admission_new p n ql qs
  rw [h1] at ha
  obtain ⟨h2, h3⟩ := ha
  have hq : queueTrace m = queueTrace (apiPart pre) ++ e :: queueTrace (apiPart post) := by
    rw [masked_queue hm, show (openRun lib p (Sys.new n ql now) steps).2 = _ from hlog, apiPart_append, queueTrace_append]; rfl
  rw [placesTaken_eq]
  exact ⟨fun ip j he => h2 _ _ ip j (by rw [← he]; exact hq), fun ip j he => h3 _ _ ip j (by rw [← he]; exact hq)⟩

/-- C123, with any cache and any master: a job is turned away only if as many different addresses as the queue length have had a job accepted; a
`verify_pow` returns a token only if its job was accepted while they were fewer. Missing: that places become free again. -/
theorem C123_any_cache_partial (lib : PowLib) (p : Profile) (n ql now : Nat) (steps : List OStep) :
    (∀ pre post ip i, openLog lib p n ql now steps = pre ++ .api (.queue (.refused ip i)) :: post → placesTaken (apiPart pre) = ql) ∧
    ∀ pre post i work ip t d, openLog lib p n ql now steps = pre ++ .api (.ret i (.verify work ip) (.verify (.ok (t, d)))) :: post →
      ∃ a b, pre = a ++ .api (.queue (.accepted ip i)) :: b ∧ placesTaken (apiPart a) < ql ∧ ∃ work', .api (.call i (.verify work' ip)) ∈ a := by
  refine ⟨fun pre post ip i h => (open_admission lib p n ql now steps pre post _ h).1 ip i rfl, ?_⟩
  intro pre post i work ip t d hlog
  obtain ⟨m, hm, hi, hc⟩ := callsFirst_run lib p n ql now steps
  rcases masked_split hm hlog with ⟨j, a, msg, k, err, pre', m', he, -⟩ | ⟨⟨mpre, mpost, hml, hmp⟩, -⟩
  · cases a <;> simp [Api.fails] at he
  · have hw := hi.inv.why mpre _ mpost hml
    have hw2 := hi.inv.ui.why mpre _ mpost hml
    have h0 : 0 < accN i mpre := by rw [hw2.2.1]; exact Nat.one_pos
    obtain ⟨e, he, hp⟩ := List.countP_pos_iff.1 h0
    cases e with
    | queue q =>
      cases q with
      | accepted ip' j =>
        have hj : j = i := by simpa using hp
        subst hj
        obtain ⟨ma, mb, hmab⟩ := List.append_of_mem he
        obtain ⟨work', hcall⟩ := hc.acc ma (mb ++ .ret j (.verify work ip) (.verify (.ok (t, d))) :: mpost) ip' j (by rw [hml, hmab]; simp)
        obtain ⟨c, hc1, ha1⟩ := hi.made.made j (.verify work ip) (by rw [hml]; exact List.mem_append_left _ hw.1)
        obtain ⟨c', hc2, ha2⟩ := hi.made.made j (.verify work' ip') (by rw [hml, hmab]; simp [hcall])
        rw [hc1] at hc2
        cases hc2
        rw [ha1] at ha2
        cases ha2
        obtain ⟨a, b, hab, hmask⟩ := masked_split_rev hmp (by simp) hmab
        refine ⟨a, b, hab, ?_, work, (masked_mem hmask (by simp)).1 hcall⟩
        exact (open_admission lib p n ql now steps a (b ++ .api (.ret j (.verify work ip) (.verify (.ok (t, d)))) :: post) (.accepted ip j) (by
          rw [hlog, hab]; simp)).2 ip j rfl
      | _ => simp at hp
    | _ => simp at hp

/-- C123 is refuted for every cache and every master: a `verify_pow` called after as many different addresses as the queue length have had a job
accepted never returns a token. -/
theorem C123_any_cache_locked_out_refuted (lib : PowLib) (p : Profile) (n ql now : Nat) (steps : List OStep) (i : Nat) (work : Work) (ip : String)
    (pre post : List OEvent) (hlog : openLog lib p n ql now steps = pre ++ .api (.call i (.verify work ip)) :: post)
    (hfull : placesTaken (apiPart pre) = ql) (api : Api) (t : String) (d : Nat) :
    .api (.ret i api (.verify (.ok (t, d)))) ∉ openLog lib p n ql now steps := by
  intro hr
  obtain ⟨pre', post', hlog'⟩ := List.append_of_mem hr
  obtain ⟨m, hm, hi, hc⟩ := callsFirst_run lib p n ql now steps
  have hapi : ∃ work' ip', api = .verify work' ip' := by
    rcases masked_split hm hlog' with ⟨j, a, msg, k, err, pre', m', he, -⟩ | ⟨⟨mpre, mpost, hml, hmp⟩, -⟩
    · cases a <;> simp [Api.fails] at he
    · have hw := hi.inv.why mpre _ mpost hml
      cases api with
      | get id => exact hw.elim
      | validate msg => exact hw.elim
      | verify work' ip' => exact ⟨_, _, rfl⟩
  obtain ⟨work', ip', rfl⟩ := hapi
  obtain ⟨a, b, hab, hlt, work'', hcall⟩ := (C123_any_cache_partial lib p n ql now steps).2 pre' post' i work' ip' t d hlog'
  rcases masked_split hm hlog with ⟨j, x, msg, k, err, pre', m', he, -⟩ | ⟨⟨mpre, mpost, hml, hmp⟩, -⟩
  · cases he
  · have hno : ∀ x, .api (.call i x) ∉ pre := fun x hx => hc.once mpre mpost i _ hml x ((masked_mem hmp (by simp)).2 hx)
    rw [hab, List.append_assoc] at hlog'
    rcases append_split (hlog.symm.trans hlog') with ⟨c, h1, -⟩ | ⟨c, h1, -⟩
    · exact hno _ (by rw [h1]; exact List.mem_append_left _ hcall)
    · rw [h1, apiPart_append, placesTaken_eq, queueTrace_append] at hlt
      have : distinctClients (queueTrace (apiPart pre)) ≤ distinctClients (queueTrace (apiPart pre) ++ queueTrace (apiPart c)) := by
        simp [distinctClients, acceptedIps_append, List.eraseDups_append]
      rw [placesTaken_eq] at hfull
      omega

/-- One place, taken by "ip"; the cache then loses the token and hands the challenge out again, to "ip2". -/
def exOpenFull : List OStep := exOpen.take 20 ++ [.sys (.queue .manage), .sys (.resume 2)]

/-- The example meets the hypotheses: call 2 is refused. -/
example : let log := openLog sysLib ⟨true⟩ 1 1 0 exOpenFull
    log.drop 9 = .api (.call 2 (.verify exWork "ip2")) :: log.drop 10 ∧ placesTaken (apiPart (log.take 9)) = 1 ∧
    .api (.queue (.refused "ip2" 2)) ∈ log ∧ .api (.ret 2 (.verify exWork "ip2") (.verify (.error .queueFull))) ∈ log := by decide +kernel

/-- A token is returned when there is a place. -/
example : .api (.ret 2 (.verify exWork "ip2") (.verify (.ok (exDrawn2, 20)))) ∈ openLog sysLib ⟨true⟩ 1 2 0 exOpen := by decide +kernel

/-- C123 is refuted with Redis. -/
theorem C123_redis_locked_out_refuted (lib : PowLib) (p : Profile) (n ql now : Nat) (conns : List Nat) (steps : List ZStep) (i : Nat) (work : Work)
    (ip : String) (pre post : List ZEvent) (hlog : zLog lib p n ql now conns steps = pre ++ .sys (.api (.call i (.verify work ip))) :: post)
    (hfull : placesTaken (apiPart (atCalls pre)) = ql) (api : Api) (t : String) (d : Nat) :
    .sys (.api (.ret i api (.verify (.ok (t, d))))) ∉ zLog lib p n ql now conns steps := by
  intro hr
  obtain ⟨os, ho⟩ := zlog_open hlog
  refine C123_any_cache_locked_out_refuted lib p n ql now os i work ip _ _ ho hfull api t d ?_
  have : atCalls (zLog lib p n ql now conns steps) = openLog lib p n ql now os := by
    rw [hlog, atCalls_append, openLog, ho]; rfl
  rw [← this]
  exact mem_atCalls.2 hr

theorem zRun_call (lib : PowLib) (p : Profile) (v : RService) (a : Api) (rest : List ZStep) (h1 : v.sys.queue.status = .running)
    (h2 : v.sys.queue.closed = false) : ∃ post, (zRun lib p v (.sys (.call a) :: rest)).2 = .sys (.api (.call v.sys.calls.length a)) :: post := by
  simp [zRun, zStep, RService.direct, RService.onSys, openStep, SStep.noCache, sysStep, h1, h2]

/-- One place: a visitor gets a token; the site hands out a second challenge, which is solved from another address. -/
def exRedisFull : List ZStep := [.sys (.call (.verify exWork "ip2")), .ask 2, .net (.take 0), .net (.serve 0 exReply), .net (.deliver 0 0), .hear 2 (fun _ => 0),
  .sys (.resume 2), .sys (.queue .manage), .sys (.queue .manage), .sys (.resume 2)]

/-- The example meets the hypotheses; the second caller is told `QueueFull`. -/
example : placesTaken (apiPart (atCalls (zLog sysLib ⟨true⟩ 1 1 0 [0, 1] (exRedis.take 34)))) = 1 ∧
    (∃ post, zLog sysLib ⟨true⟩ 1 1 0 [0, 1] (exRedis.take 34 ++ exRedisFull) =
      zLog sysLib ⟨true⟩ 1 1 0 [0, 1] (exRedis.take 34) ++ .sys (.api (.call 2 (.verify exWork "ip2"))) :: post) ∧
    .api (.ret 1 (.verify exWork "ip") (.verify (.ok (exDrawn2, 50)))) ∈ atCalls (zLog sysLib ⟨true⟩ 1 1 0 [0, 1] (exRedis.take 34 ++ exRedisFull)) ∧
    .api (.ret 2 (.verify exWork "ip2") (.verify (.error .queueFull))) ∈ atCalls (zLog sysLib ⟨true⟩ 1 1 0 [0, 1] (exRedis.take 34 ++ exRedisFull)) := by
  refine ⟨by decide +kernel, ?_, by decide +kernel, by decide +kernel⟩
  have hl : (zState sysLib ⟨true⟩ 1 1 0 [0, 1] (exRedis.take 34)).sys.calls.length = 2 := by decide +kernel
  obtain ⟨post, h⟩ := zRun_call sysLib ⟨true⟩ (zState sysLib ⟨true⟩ 1 1 0 [0, 1] (exRedis.take 34)) (.verify exWork "ip2") exRedisFull.tail
    (by decide +kernel) (by decide +kernel)
  rw [hl] at h
  refine ⟨post, ?_⟩
  rw [← h, show (.sys (.call (.verify exWork "ip2")) :: exRedisFull.tail : List ZStep) = exRedisFull from rfl]
  generalize exRedis.take 34 = s1
  generalize exRedisFull = s2
  rw [zLog, zRun_append]

/-- C123 is refuted with a Redis cluster. -/
theorem C123_cluster_locked_out_refuted (lib : PowLib) (p : Profile) (thread : Nat → Nat) (n ql now : Nat) (conns : List Nat) (steps : List ZStep) (i : Nat)
    (work : Work) (ip : String) (pre post : List ZEvent)
    (hlog : cLog lib p thread n ql now conns steps = pre ++ .sys (.api (.call i (.verify work ip))) :: post)
    (hfull : placesTaken (apiPart (atCalls pre)) = ql) (api : Api) (t : String) (d : Nat) :
    .sys (.api (.ret i api (.verify (.ok (t, d))))) ∉ cLog lib p thread n ql now conns steps := by
  obtain ⟨s, -, e, -⟩ := C130_as_single lib p thread n ql now conns steps
  rw [e] at hlog ⊢
  exact C123_redis_locked_out_refuted lib p n ql now conns s i work ip pre post hlog hfull api t d

/-- On a cluster with one thread the run is the same. -/
example : cLog sysLib ⟨true⟩ (fun _ => 0) 1 1 0 [0, 1] (exRedis.take 34 ++ exRedisFull) = zLog sysLib ⟨true⟩ 1 1 0 [0, 1] (exRedis.take 34 ++ exRedisFull) := by
  rw [cLog, cRun_allMay sysLib ⟨true⟩ (fun _ => 0) _ (RService.new 1 1 0 [0, 1]) (by decide +kernel)]

end MCap
