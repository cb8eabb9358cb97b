import Verif.Proofs.RedisLive
import Verif.Props.Contract
import Verif.Props.SystemLive
import Verif.Spec.OpenLive

/-!
# C133: with any cache and master that answer, calls are answered and honest clients succeed
-/

namespace MCap
open Spec

/-- The state an execution leads to. -/
abbrev openState (lib : PowLib) (p : Profile) (n ql now : Nat) (steps : List OStep) : Sys := (openRun lib p (Sys.new n ql now) steps).1

theorem openStep_snoc (lib : PowLib) (p : Profile) (n ql now : Nat) (done : List OStep) (x : OStep) :
    (openStep lib p (openState lib p n ql now done) x).1 = openState lib p n ql now (done ++ [x]) := by
  rw [openState, openState, openRun_append]; rfl

theorem open_timers (lib : PowLib) (p : Profile) (n ql now : Nat) (steps : List OStep) : (openState lib p n ql now steps).cache.timers = [] :=
  openRun_inv (P := fun s _ => s.cache.timers = []) (fun s log x h => by rw [open_cache]; exact h) steps (Sys.new n ql now) [] rfl

theorem open_less (lib : PowLib) (p : Profile) (s : Sys) (ht : s.cache.timers = []) (x : OStep) (hx : ∀ a, x ≠ .sys (.call a)) :
    (openStep lib p s x).1 = s ∨ sysW (openStep lib p s x).1 < sysW s := by
  cases x with
  | sys st =>
    simp only [openStep]
    split
    · rename_i hn
      exact direct_less lib p s st ht hn (fun a e => hx a (by rw [e]))
    · exact .inl rfl
  | cache i a =>
    by_cases hab : s.queue.status = .aborted
    · left; simp only [openStep, if_pos hab]
    cases hc : s.calls[i]? with
    | none => left; simp only [openStep, if_neg hab, hc]
    | some c =>
      by_cases h : (∃ m k, c.pc = .awaitCache m k) ∧ c.live = true
      · obtain ⟨⟨m, k, hp⟩, hl⟩ := h
        by_cases hal : ∀ r, a = .ok r → m.allows r = true
        · exact .inr (answer_less lib p s a hab hc hp hl hal)
        · left
          obtain ⟨r, hr⟩ := Classical.not_forall.1 hal
          obtain ⟨e, hno⟩ := Classical.not_imp.1 hr
          subst e
          simp only [openStep, if_neg hab, hc, hp, hl, Sys.onCacheAnswer]
          rw [if_neg hno]
      · left
        simp only [openStep, if_neg hab, hc]
        split
        · rename_i m k h1 h2
          exact absurd ⟨⟨m, k, h1⟩, h2⟩ h
        · rfl

theorem changesO_le (lib : PowLib) (p : Profile) (n ql now : Nat) (later done : List OStep) (h : ∀ a, .sys (.call a) ∉ later) :
    changesO lib p (openState lib p n ql now done) later ≤ sysW (openState lib p n ql now done) := by
  induction later generalizing done with
  | nil => exact Nat.zero_le _
  | cons st r ih =>
    have hr := ih (done ++ [st]) (fun a ha => h a (List.mem_cons_of_mem _ ha))
    have hw := open_less lib p _ (open_timers lib p n ql now done) st (fun a e => h a (by rw [← e]; simp))
    unfold changesO
    rw [openStep_snoc] at hw ⊢
    rcases hw with hw | hw
    · rw [if_pos hw]
      rw [hw] at hr ⊢; omega
    · split <;> omega

theorem notCall_of_goesO {st : OStep} (h : goesOnO st = true) : ∀ a, st ≠ .sys (.call a) := by
  rintro a rfl
  cases h

theorem settlesO (lib : PowLib) (p : Profile) (n ql now : Nat) (k : Nat) (done : List OStep) (h : sysW (openState lib p n ql now done) ≤ k) :
    ∃ later, (∀ st ∈ later, goesOnO st = true) ∧ QuiescentO lib p (openState lib p n ql now (done ++ later)) := by
  induction k generalizing done with
  | zero =>
    refine ⟨[], by simp, ?_⟩
    rw [List.append_nil]
    intro st hst
    rcases open_less lib p _ (open_timers lib p n ql now done) st (notCall_of_goesO hst) with hw | hw
    · exact hw
    · omega
  | succ k ih =>
    by_cases hq : QuiescentO lib p (openState lib p n ql now done)
    · exact ⟨[], by simp, by rw [List.append_nil]; exact hq⟩
    · obtain ⟨st, hst⟩ := Classical.not_forall.1 hq
      obtain ⟨hst, hne⟩ := Classical.not_imp.1 hst
      rcases open_less lib p _ (open_timers lib p n ql now done) st (notCall_of_goesO hst) with hw | hw
      · exact absurd hw hne
      · rw [openStep_snoc] at hw
        obtain ⟨later, h1, h2⟩ := ih (done ++ [st]) (by omega)
        refine ⟨st :: later, ?_, by simpa using h2⟩
        intro x hx
        rcases List.mem_cons.1 hx with rfl | hx
        · exact hst
        · exact h1 x hx

/-- C133. Whatever the cache and the master, without new calls only boundedly many steps of any schedule change anything. -/
theorem C133_finitely_many_steps (lib : PowLib) (p : Profile) (n ql now : Nat) (steps : List OStep) :
    ∃ N, ∀ later, (∀ a, .sys (.call a) ∉ later) → changesO lib p (openState lib p n ql now steps) later ≤ N :=
  ⟨sysW (openState lib p n ql now steps), fun later h => changesO_le lib p n ql now later steps h⟩

/-- C133. From every state the system can come to rest. -/
theorem C133_settles (lib : PowLib) (p : Profile) (n ql now : Nat) (steps : List OStep) :
    ∃ later, (∀ st ∈ later, goesOnO st = true) ∧ QuiescentO lib p (openState lib p n ql now (steps ++ later)) :=
  settlesO lib p n ql now _ steps (Nat.le_refl _)

/-- C133. At rest, with the process still there, every `get_pow` and every validation has returned or was cancelled, whatever has failed or
panicked before; and so has every `verify_pow`, but for those whose job waits in the queue of its client while the manager thread runs. -/
theorem C133_answered (lib : PowLib) (p : Profile) (n ql now : Nat) (steps : List OStep) (hq : QuiescentO lib p (openState lib p n ql now steps))
    (hab : (openState lib p n ql now steps).queue.status ≠ .aborted) (i : Nat) (a : Api) (hi : .api (.call i a) ∈ openLog lib p n ql now steps) :
    (∃ r, .api (.ret i a r) ∈ openLog lib p n ql now steps) ∨ .api (.cancelled i) ∈ openLog lib p n ql now steps ∨
    ((∃ work ip, a = .verify work ip) ∧ (openState lib p n ql now steps).queue.status = .running ∧
      i ∈ waitingJobs (openState lib p n ql now steps).queue) := by
  refine open_quiescent lib p n ql now steps rfl ?_ hab ?_ ?_ hi
  · intro st hst hne
    have := hq (.sys st) (by cases st <;> first | exact absurd rfl (hne _) | (rename_i x; cases x <;> first | rfl | cases hst) | rfl | cases hst)
    simp only [openStep] at this
    rwa [if_pos (by cases st <;> first | exact absurd rfl (hne _) | rfl | cases hst)] at this
  · intro j d hd hl m k hp
    have h1 := hq (.cache j (.error .mailboxError)) rfl
    have h2 := answer_less lib p _ (.error .mailboxError) hab hd hp hl (by simp)
    rw [h1] at h2
    exact Nat.lt_irrefl _ h2
  · intro j d hd hl hp
    have h1 := hq (.sys (.master j .mailboxError (fun _ => 0))) rfl
    obtain ⟨m, hm, hv⟩ := liveInv_run lib p n ql now steps
    have := (hv.inv.calls j d hd).2
    rw [hp] at this
    obtain ⟨id, e⟩ := this
    have h2 := master_less lib p _ (m := .addVisitor id) .mailboxError (fun _ => 0) hab hd (by simp [RService.request, hp, hl, e])
    rw [h1] at h2
    exact Nat.lt_irrefl _ h2

/-- C133. If no job has panicked and there are at least as many workers as clients, at rest every call has returned or was cancelled. -/
theorem C133_answered_with_enough_workers (lib : PowLib) (p : Profile) (n ql now : Nat) (steps : List OStep)
    (hq : QuiescentO lib p (openState lib p n ql now steps)) (hc : ¬ SomeCrashO (openLog lib p n ql now steps))
    (hn : (addressesO (openLog lib p n ql now steps)).length ≤ n) (i : Nat) (a : Api) (hi : .api (.call i a) ∈ openLog lib p n ql now steps) :
    (∃ r, .api (.ret i a r) ∈ openLog lib p n ql now steps) ∨ .api (.cancelled i) ∈ openLog lib p n ql now steps := by
  have hab := open_alive lib p n ql now steps rfl (fun w j h => hc ⟨w, j, h⟩)
  rcases C133_answered lib p n ql now steps hq hab i a hi with h | h | ⟨-, -, h⟩
  · exact .inl h
  · exact .inr h
  · have := open_few lib p n ql now steps rfl (addressesO (openLog lib p n ql now steps)) (by
      intro i work ip h
      rw [addressesO, List.mem_eraseDups, List.mem_filterMap]
      exact ⟨_, h, rfl⟩) hn
    rw [show waitingJobs (openState lib p n ql now steps).queue = [] from this] at h
    cases h

/-- C133. A `get_pow` call to which the master told a difficulty returns a challenge of this difficulty, which the cache has stored for this
site and the time told, unless the cache failed it. -/
theorem C133_gets_challenge (lib : PowLib) (p : Profile) (n ql now : Nat) (steps : List OStep) (i : Nat) (id : String) (res : AddVisitorResult) (r : Ret)
    (hm : .api (.master i (.reply (.ok (some res)))) ∈ openLog lib p n ql now steps) (hf : ∀ msg e, .failed i msg e ∉ openLog lib p n ql now steps)
    (hr : .api (.ret i (.get id) r) ∈ openLog lib p n ql now steps) :
    ∃ cfg : PoWConfig, r = .get (.ok (some cfg)) ∧ cfg.difficultyFactor = res.difficultyFactor ∧ cfg.salt = lib.salt ∧
      .api (.cache (some (i, .get id))
        (.cachePow { string := cfg.string, difficultyFactor := res.difficultyFactor, duration := res.duration, key := id }) .done) ∈ openLog lib p n ql now steps := by
  obtain ⟨pre, post, hlog⟩ := List.append_of_mem hr
  have hmem : ∀ {e}, e ∈ pre → e ∈ openLog lib p n ql now steps := fun h => by rw [hlog]; exact List.mem_append_left _ h
  obtain ⟨m, hmask, hi⟩ := oinv_run lib p n ql now steps
  have honce : ∀ x, .api (.master i x) ∈ pre → x = .reply (.ok (some res)) := by
    intro x hx
    have := asked_once hi.ai (i := i) (k := .master) ((masked_mem hmask (by simp)).2 (hmem hx)) ((masked_mem hmask (by simp)).2 hm) rfl rfl
    injection this
  have hout := C99_get_outcome lib p n ql now steps i id r pre post hlog
  cases r with
  | get r =>
    cases r with
    | error e =>
      rcases hout with ⟨-, h⟩ | ⟨-, h⟩ | ⟨s, res', -, h⟩
      · cases honce _ h
      · cases honce _ h
      · exact absurd (hmem h) (hf _ _)
    | ok o =>
      cases o with
      | none =>
        rcases hout with h | ⟨e, h⟩
        · cases honce _ h
        · cases honce _ h
      | some cfg =>
        obtain ⟨h1, -, res', h2, h3, h4⟩ := hout
        cases honce _ h2
        exact ⟨cfg, rfl, h3, h1, hmem h4⟩
  | _ => exact hout.elim

/-- C133. A `verify_pow` call to which the cache handed out the challenge of its work, for its site, returns a token and the difficulty handed out,
if the work solves it, the queue did not refuse the job, no job panicked, and the cache failed no request of the call. The cache has stored the
token for this site and the time handed out. -/
theorem C133_gets_token (lib : PowLib) (p : Profile) (n ql now : Nat) (steps : List OStep) (i : Nat) (work : Work) (ip : String) (d duration : Nat) (r : Ret)
    (hh : .api (.cache (some (i, .verify work ip)) (.retrivePow { token := work.string, key := work.key })
      (.config (some { key := work.key, difficultyFactor := d, duration := duration }))) ∈ openLog lib p n ql now steps)
    (hsol : Solves lib work d) (hc : ¬ SomeCrashO (openLog lib p n ql now steps)) (hq : ∀ ip', .api (.queue (.refused ip' i)) ∉ openLog lib p n ql now steps)
    (hf : ∀ msg e, .failed i msg e ∉ openLog lib p n ql now steps) (hr : .api (.ret i (.verify work ip) r) ∈ openLog lib p n ql now steps) :
    ∃ token, r = .verify (.ok (token, d)) ∧
      .api (.cache (some (i, .verify work ip)) (.cacheResult { token := token, key := work.key, duration := duration }) .done) ∈ openLog lib p n ql now steps := by
  obtain ⟨pre, post, hlog⟩ := List.append_of_mem hr
  have hmem : ∀ {e}, e ∈ pre → e ∈ openLog lib p n ql now steps := fun h => by rw [hlog]; exact List.mem_append_left _ h
  obtain ⟨m, hmask, hi⟩ := oinv_run lib p n ql now steps
  have honce : ∀ x, .api (.cache (some (i, .verify work ip)) (.retrivePow { token := work.string, key := work.key }) x) ∈ pre →
      x = .config (some { key := work.key, difficultyFactor := d, duration := duration }) := by
    intro x hx
    exact (looked_once hi.ui ((masked_mem hmask (by simp)).2 (hmem hx)) ((masked_mem hmask (by simp)).2 hh)).2.2
  have hout := C99_verify_outcome lib p n ql now steps i work ip r pre post hlog
  cases r with
  | verify r =>
    cases r with
    | ok o =>
      obtain ⟨token, d'⟩ := o
      obtain ⟨cfg, a, b, c, h1, h2, h3, -, -⟩ := hout
      have := honce (.config (some cfg)) (by rw [h1]; simp)
      injection this with this
      injection this with this
      subst this
      cases h3
      exact ⟨token, rfl, hmem (by rw [h1]; simp)⟩
    | error e =>
      exfalso
      rcases hout with ⟨-, h⟩ | ⟨cfg, h, h'⟩ | h | ⟨t, cfg, h, -⟩
      · cases honce _ h
      · have := honce (.config (some cfg)) (mem_apiPart.1 h)
        injection this with this
        injection this with this
        subst this
        rcases h' with ⟨-, h'⟩ | ⟨-, -, ip', h'⟩ | ⟨-, -, h' | ⟨w, j, h'⟩⟩
        · exact h' rfl
        · exact hq ip' (hmem h')
        · exact h' hsol
        · exact hc ⟨w, j, hmem (mem_apiPart.1 h')⟩
      · exact hf _ _ (hmem h)
      · exact hf _ _ (hmem h)
  | _ => exact hout.elim

/-- C133. And they do return: at rest, unless the call was cancelled or the job waits in the queue of its client. -/
theorem C133_token_arrives (lib : PowLib) (p : Profile) (n ql now : Nat) (steps : List OStep) (i : Nat) (work : Work) (ip : String) (d duration : Nat)
    (hcall : .api (.call i (.verify work ip)) ∈ openLog lib p n ql now steps)
    (hh : .api (.cache (some (i, .verify work ip)) (.retrivePow { token := work.string, key := work.key })
      (.config (some { key := work.key, difficultyFactor := d, duration := duration }))) ∈ openLog lib p n ql now steps)
    (hsol : Solves lib work d) (hc : ¬ SomeCrashO (openLog lib p n ql now steps)) (hq : ∀ ip', .api (.queue (.refused ip' i)) ∉ openLog lib p n ql now steps)
    (hf : ∀ msg e, .failed i msg e ∉ openLog lib p n ql now steps) (hrest : QuiescentO lib p (openState lib p n ql now steps))
    (hcan : .api (.cancelled i) ∉ openLog lib p n ql now steps) (hwait : i ∉ waitingJobs (openState lib p n ql now steps).queue) :
    ∃ token, .api (.ret i (.verify work ip) (.verify (.ok (token, d)))) ∈ openLog lib p n ql now steps ∧
      .api (.cache (some (i, .verify work ip)) (.cacheResult { token := token, key := work.key, duration := duration }) .done) ∈ openLog lib p n ql now steps := by
  have hab := open_alive lib p n ql now steps rfl (fun w j h => hc ⟨w, j, h⟩)
  rcases C133_answered lib p n ql now steps hrest hab i _ hcall with ⟨r, h⟩ | h | ⟨-, -, h⟩
  · obtain ⟨token, rfl, h'⟩ := C133_gets_token lib p n ql now steps i work ip d duration r hh hsol hc hq hf h
    exact ⟨token, h, h'⟩
  · exact absurd h hcan
  · exact absurd h hwait

/-- C133. A validation returns what the cache said, if the cache did not fail it. -/
theorem C133_validation (lib : PowLib) (p : Profile) (n ql now : Nat) (steps : List OStep) (i : Nat) (msg : VerifyCaptchaResult) (b : Bool) (r : Ret)
    (hh : .api (.cache (some (i, .validate msg)) (.verify msg) (.verdict b)) ∈ openLog lib p n ql now steps)
    (hf : ∀ msg e, .failed i msg e ∉ openLog lib p n ql now steps) (hr : .api (.ret i (.validate msg) r) ∈ openLog lib p n ql now steps) :
    r = .validate (.ok b) := by
  obtain ⟨pre, post, hlog⟩ := List.append_of_mem hr
  have hmem : ∀ {e}, e ∈ pre → e ∈ openLog lib p n ql now steps := fun h => by rw [hlog]; exact List.mem_append_left _ h
  obtain ⟨m, hmask, hi⟩ := oinv_run lib p n ql now steps
  have hout := C99_validate_outcome lib p n ql now steps i msg r pre post hlog
  cases r with
  | validate r =>
    cases r with
    | error e => exact absurd (hmem hout) (hf _ _)
    | ok b' =>
      have := asked_once hi.ai (i := i) (k := .chk) ((masked_mem hmask (by simp)).2 (hmem hout)) ((masked_mem hmask (by simp)).2 hh) rfl rfl
      injection this with _ _ this
      injection this with this
      rw [this]
  | _ => exact hout.elim

/-- C133. While the process is there and the `System` was not dropped, every function can be called, and each call is one of its own. -/
theorem C133_calls_begin (lib : PowLib) (p : Profile) (n ql now : Nat) (steps : List OStep) (ha : (openState lib p n ql now steps).queue.status ≠ .aborted)
    (hc : (openState lib p n ql now steps).queue.closed = false) (a : Api) :
    ∃ i, openLog lib p n ql now (steps ++ [.sys (.call a)]) = openLog lib p n ql now steps ++ [.api (.call i a)] ∧
      ∀ b, .api (.call i b) ∉ openLog lib p n ql now steps := by
  refine ⟨(openState lib p n ql now steps).calls.length, ?_, ?_⟩
  · have e : openLog lib p n ql now (steps ++ [.sys (.call a)]) =
        openLog lib p n ql now steps ++ (openRun lib p (openState lib p n ql now steps) [.sys (.call a)]).2 := by
      rw [openLog, openRun_append]
    rw [e]
    simp [openRun, openStep, SStep.noCache, sysStep, ha, hc]
  · intro b h
    have := ((open_made lib p n ql now steps).1 _ b).1 h
    simp [apis] at this

example : (openState sysLib ⟨true⟩ 1 5 0 exKeeps).queue.status ≠ .aborted ∧ (openState sysLib ⟨true⟩ 1 5 0 exKeeps).queue.closed = false := by
  decide +kernel

/-! ### Examples -/

theorem rest_quiescentO (lib : PowLib) (p : Profile) (s : Sys) {k : Nat} (h : Rest k s) (h1 : ∀ c ∈ s.calls, c.pc = .done) : QuiescentO lib p s := by
  have hnab : ¬ s.queue.status = .aborted := by rw [h.idle.1]; simp
  have hs : ∀ st, goesOn st = true → st.noCache = true → (openStep lib p s (.sys st)).1 = s := by
    intro st hg hn
    simp only [openStep, hn, if_true]
    exact rest_quiescent lib p h st hg
  intro st hst
  cases st with
  | cache i a =>
    cases hc : s.calls[i]? with
    | none => simp only [openStep, if_neg hnab, hc]
    | some c => simp only [openStep, if_neg hnab, hc, h1 c (List.mem_of_getElem? hc)]
  | sys st =>
    cases st with
    | queue q => cases q <;> first | exact hs _ rfl rfl | cases hst
    | master i x g =>
      simp only [openStep, SStep.noCache, if_true, sysStep, if_neg hnab]
      cases hc : s.calls[i]? with
      | none => rfl
      | some c => simp [h1 c (List.mem_of_getElem? hc)]
    | _ => first | exact hs _ rfl rfl | cases hst

/-- `exKeeps`, after the manager thread has read its mailbox. -/
def exOpenRest : List OStep := exKeeps ++ [.sys (.queue .manage), .sys (.queue .manage)]

theorem exOpenRest_rest : QuiescentO sysLib ⟨true⟩ (openState sysLib ⟨true⟩ 1 5 0 exOpenRest) := by
  have e1 : (openState sysLib ⟨true⟩ 1 5 0 exOpenRest).queue =
      { inner := { queues := [("ip", [])], runners := [Worker.spawn], ips := ["ip"], cur := 0, queueLength := 5 },
        mailbox := [], status := .running, closed := false } := by decide +kernel
  have e2 : (openState sysLib ⟨true⟩ 1 5 0 exOpenRest).calls.map Call.view =
      [(.get "site", .done, true, none),
       (.verify exWork "ip", .done, true, some { pc := .dropped true, buf := [], rxAlive := false, reading := .verdict true }),
       (.validate ⟨exDrawn2, "site"⟩, .done, true, none)] := by decide +kernel
  have e3 : (openState sysLib ⟨true⟩ 1 5 0 exOpenRest).calls.length = 3 := by rw [← List.length_map Call.view, e2]; rfl
  refine rest_quiescentO _ _ _ (rest_of 9 _ ?_ ?_) ?_
  · rw [e1]
    refine ⟨rfl, rfl, ?_⟩
    intro w r h
    cases w with
    | zero => simp at h; subst h; exact ⟨rfl, rfl⟩
    | succ w => simp at h
  · intro j hj
    rw [e3] at hj
    rw [e2]
    match j, hj with
    | 0, _ => exact ⟨_, rfl, .inl ⟨rfl, .inl rfl⟩⟩
    | 1, _ => exact ⟨_, rfl, .inl ⟨rfl, .inr ⟨_, _, rfl, rfl⟩⟩⟩
    | 2, _ => exact ⟨_, rfl, .inl ⟨rfl, .inl rfl⟩⟩
  · intro c hc
    have : c.view ∈ (openState sysLib ⟨true⟩ 1 5 0 exOpenRest).calls.map Call.view := List.mem_map_of_mem hc
    rw [e2] at this
    simp only [List.mem_cons, Call.view, Prod.mk.injEq, List.not_mem_nil, or_false] at this
    rcases this with h | h | h <;> exact h.2.1

theorem no_crashO {log : List OEvent} (h : log.any (fun | .api (.queue (.crashedOn _ _)) => true | _ => false) = false) : ¬ SomeCrashO log := by
  rintro ⟨w, j, hm⟩
  rw [List.any_eq_false] at h
  simpa using h _ hm

theorem no_failO {log : List OEvent} (i : Nat) (h : log.any (fun | .failed _ _ _ => true | _ => false) = false) : ∀ msg e, .failed i msg e ∉ log := by
  intro msg e hm
  rw [List.any_eq_false] at h
  simpa using h _ hm

theorem no_refusalO {log : List OEvent} (i : Nat) (h : log.any (fun | .api (.queue (.refused _ _)) => true | _ => false) = false) :
    ∀ ip, .api (.queue (.refused ip i)) ∉ log := by
  intro ip hm
  rw [List.any_eq_false] at h
  simpa using h _ hm

/-- The hypotheses of all of these are met: the visitor gets a challenge and a token, and the site is told that it is good. -/
example : let log := openLog sysLib ⟨true⟩ 1 5 0 exOpenRest
    QuiescentO sysLib ⟨true⟩ (openState sysLib ⟨true⟩ 1 5 0 exOpenRest) ∧ ¬ SomeCrashO log ∧ (addressesO log).length ≤ 1 ∧
    (openState sysLib ⟨true⟩ 1 5 0 exOpenRest).queue.status ≠ .aborted ∧
    .api (.master 0 (.reply (.ok (some ⟨30, 50⟩)))) ∈ log ∧ .api (.ret 0 (.get "site") (.get (.ok (some ⟨exDrawn, 50, "salt"⟩)))) ∈ log ∧
    .api (.call 1 (.verify exWork "ip")) ∈ log ∧ .api (.cache (some (1, .verify exWork "ip")) (.retrivePow ⟨exWork.string, exWork.key⟩) (.config (some ⟨exWork.key, 50, 30⟩))) ∈ log ∧
    Solves sysLib exWork 50 ∧ (∀ ip, .api (.queue (.refused ip 1)) ∉ log) ∧ (∀ i msg e, .failed i msg e ∉ log) ∧ .api (.cancelled 1) ∉ log ∧
    1 ∉ waitingJobs (openState sysLib ⟨true⟩ 1 5 0 exOpenRest).queue ∧ .api (.ret 1 (.verify exWork "ip") (.verify (.ok (exDrawn2, 50)))) ∈ log ∧
    .api (.cache (some (2, .validate ⟨exDrawn2, "site"⟩)) (.verify ⟨exDrawn2, "site"⟩) (.verdict true)) ∈ log ∧
    .api (.ret 2 (.validate ⟨exDrawn2, "site"⟩) (.validate (.ok true))) ∈ log :=
  ⟨exOpenRest_rest, no_crashO (by decide +kernel), by decide +kernel, by decide +kernel, by decide +kernel, by decide +kernel, by decide +kernel,
    by decide +kernel, by unfold Solves; decide +kernel, no_refusalO 1 (by decide +kernel), fun i => no_failO i (by decide +kernel), by decide +kernel,
    by decide +kernel, by decide +kernel, by decide +kernel, by decide +kernel⟩

end MCap
