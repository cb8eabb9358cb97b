import Verif.Spec.SystemFull
import Verif.Proofs.SystemFull
import Verif.Props.SystemLive
import Verif.Props.Queue

/-!
# Property C123: verify_pow and a full queue
-/

namespace MCap
open Spec

theorem placesTaken_eq (log : List SEvent) : placesTaken log = distinctClients (queueTrace log) := by
  unfold placesTaken distinctClients acceptedIps queueTrace
  rw [List.filterMap_filterMap]
  have : (fun x : SEvent => match x with | .queue (.accepted ip _) => some ip | _ => none) = fun x : SEvent =>
      (match x with | .queue e => some e | _ => none : Option QEvent).bind fun x => match x with | .accepted i _ => some i | _ => none := by
    funext e
    cases e with
    | queue q => cases q <;> rfl
    | _ => rfl
  exact congrArg (fun f => (List.filterMap f log).eraseDups.length) this

theorem sys_admission (lib : PowLib) (p : Profile) (n ql now : Nat) (steps : List SStep) (pre post : List SEvent) (e : QEvent)
    (hlog : logOf lib p n ql now steps = pre ++ .queue e :: post) :
    (∀ ip j, e = .refused ip j → placesTaken pre = ql) ∧ (∀ ip j, e = .accepted ip j → placesTaken pre < ql) := by
  obtain ⟨qs, h1, -⟩ := queue_run lib p (Sys.new n ql now) steps
  have ha := admission_new p n ql qs
  rw [show Queue.new n ql = (Sys.new n ql now).queue from rfl, h1] at ha
  obtain ⟨h2, h3⟩ := ha
  have hq : queueTrace (sysRun lib p (Sys.new n ql now) steps).2 = queueTrace pre ++ e :: queueTrace post := by
    rw [show (sysRun lib p (Sys.new n ql now) steps).2 = _ from hlog, queueTrace_append]; rfl
  rw [placesTaken_eq]
  exact ⟨fun ip j he => h2 _ _ ip j (by rw [hq, he]), fun ip j he => h3 _ _ ip j (by rw [hq, he])⟩

theorem placesTaken_le (lib : PowLib) (p : Profile) (n ql now : Nat) (steps : List SStep) (pre post : List SEvent)
    (hlog : logOf lib p n ql now steps = pre ++ post) : placesTaken pre ≤ (addresses pre).length := by
  refine nodup_subset_length _ _ (eraseDups_nodup _) ?_
  intro x hx
  rw [List.mem_eraseDups, List.mem_filterMap] at hx
  obtain ⟨e, he, hx⟩ := hx
  cases e with
  | queue q =>
    cases q with
    | accepted ip j =>
      have hx : ip = x := by simpa using hx
      subst hx
      obtain ⟨a, b, hab⟩ := List.append_of_mem he
      obtain ⟨work, hw⟩ := accepted_after_call lib p n ql now steps a (b ++ post) ip j (by
        rw [show (sysRun lib p (Sys.new n ql now) steps).2 = _ from hlog, hab, List.append_assoc]; rfl)
      rw [addresses, List.mem_eraseDups, List.mem_filterMap]
      exact ⟨_, by rw [hab]; exact List.mem_append_left _ hw, rfl⟩
    | _ => simp at hx
  | _ => simp at hx

theorem takePlaces_calls (lib : PowLib) (site : String) (a : Nat) (ips : List String) :
    (callsIn (takePlaces lib site a ips)).length = 2 * ips.length := by
  induction ips generalizing a with
  | nil => rfl
  | cons ip r ih =>
    have : callsIn (takePlaces lib site a (ip :: r)) = callsIn (takePlace lib a site ip) ++ callsIn (takePlaces lib site (a + 2) r) := by
      simp [callsIn, takePlaces]
    rw [this, List.length_append, ih, List.length_cons]
    have : (callsIn (takePlace lib a site ip)).length = 2 := rfl
    omega

theorem takePlaces_by (lib : PowLib) (site : String) (a : Nat) (ips : List String) (work : Work) (ip : String)
    (h : .verify work ip ∈ callsIn (takePlaces lib site a ips)) : ip ∈ ips ∧ work.result = "" := by
  induction ips generalizing a with
  | nil => simp [callsIn, takePlaces] at h
  | cons x r ih =>
    have e : callsIn (takePlaces lib site a (x :: r)) = callsIn (takePlace lib a site x) ++ callsIn (takePlaces lib site (a + 2) r) := by
      simp [callsIn, takePlaces]
    rw [e, List.mem_append] at h
    rcases h with h | h
    · simp [callsIn, takePlace] at h
      obtain ⟨rfl, rfl⟩ := h
      exact ⟨by simp, rfl⟩
    · exact ⟨List.mem_cons_of_mem _ (ih _ h).1, (ih _ h).2⟩

/-- C123, what does hold: a `verify_pow` fails with `QueueFull` iff, at the moment the queue looked at its job, as many different addresses
as the queue length had had a job accepted, at any time before; it returns a token only if they were fewer. So while fewer addresses have
called `verify_pow`, none fails so. Missing: that places become free again. -/
theorem C123_full_iff_partial (lib : PowLib) (p : Profile) (n ql now : Nat) (steps : List SStep) (i : Nat) (work : Work) (ip : String)
    (r : CaptchaResult (String × Nat)) (pre post : List SEvent)
    (hlog : logOf lib p n ql now steps = pre ++ .ret i (.verify work ip) (.verify r) :: post) :
    (r = .error .queueFull ↔ ∃ a b, pre = a ++ .queue (.refused ip i) :: b) ∧
    (∀ a b, pre = a ++ .queue (.refused ip i) :: b → placesTaken a = ql ∧ ql ≤ (addresses a).length) ∧
    (∀ a b, pre = a ++ .queue (.accepted ip i) :: b → placesTaken a < ql) ∧
    (∀ t d, r = .ok (t, d) → ∃ a b, pre = a ++ .queue (.accepted ip i) :: b) := by
  have h := facts lib p n ql now steps
  have hw2 := h.ui.why pre _ post hlog
  have hcl := C62_error_classification lib p n ql now steps i work ip r pre post hlog
  have hsub : ∀ e, e ∈ pre → e ∈ logOf lib p n ql now steps := by
    intro e he; rw [hlog]; exact List.mem_append_left _ he
  have hcall : .call i (.verify work ip) ∈ pre := by
    have := h.si.why pre _ post hlog
    cases r with
    | ok td => exact this.1
    | error e => exact this.1
  have hown : ∀ ip', .queue (.accepted ip' i) ∈ pre ∨ .queue (.refused ip' i) ∈ pre → ip' = ip := fun ip' h' =>
    C62_own_address lib p n ql now steps i work ip ip' (hsub _ hcall) (h'.imp (hsub _) (hsub _))
  refine ⟨?_, ?_, ?_, ?_⟩
  · rw [hcl.2.2.1]
    constructor
    · rintro ⟨ip', hm⟩
      rw [hown ip' (.inr hm)] at hm
      exact List.append_of_mem hm
    · rintro ⟨a, b, rfl⟩; exact ⟨ip, by simp⟩
  · rintro a b rfl
    have h1 := (sys_admission lib p n ql now steps a _ (.refused ip i) (by rw [hlog, List.append_assoc]; rfl)).1 ip i rfl
    refine ⟨h1, ?_⟩
    rw [← h1]
    exact placesTaken_le lib p n ql now steps a _ (by rw [hlog, List.append_assoc])
  · rintro a b rfl
    exact (sys_admission lib p n ql now steps a _ (.accepted ip i) (by rw [hlog, List.append_assoc]; rfl)).2 ip i rfl
  · rintro t d rfl
    have h0 : 0 < accN i pre := by rw [hw2.2.1]; exact Nat.one_pos
    obtain ⟨e, he, hp⟩ := List.countP_pos_iff.1 h0
    cases e with
    | queue q =>
      cases q with
      | accepted ip' j =>
        have hj : j = i := by simpa using hp
        subst hj
        rw [hown ip' (.inl he)] at he
        exact List.append_of_mem he
      | _ => simp at hp
    | _ => simp at hp

/-- With one place in the queue: a visitor solves a challenge, gets a token and has it validated; then asks for another challenge and
solves it too. -/
def exTwice : List SStep :=
  exHonest ++ [.queue .manage, .tick 100, .call (.get "site"), .master 3 (.reply (.ok (some ⟨30, 50⟩))) (fun _ => 0), .cache 3, .resume 3,
    .call (.verify exWork "ip"), .cache 4, .resume 4, .queue .manage, .resume 4]

/-- The second solution is refused, though nobody is waiting. -/
example : let log := logOf sysLib ⟨true⟩ 1 1 0 exTwice
    log.drop 21 = [.call 4 (.verify exWork "ip"),
      .cache (some (4, .verify exWork "ip")) (.retrivePow ⟨exDrawn, "site"⟩) (.config (some ⟨"site", 50, 30⟩)),
      .queue (.refused "ip" 4)] ++ .ret 4 (.verify exWork "ip") (.verify (.error .queueFull)) :: [] ∧
    placesTaken (log.take 23) = 1 ∧ .ret 1 (.verify exWork "ip") (.verify (.ok (exDrawn2, 50))) ∈ log ∧
    (stateOf sysLib ⟨true⟩ 1 1 0 exTwice).queue.mailbox = [] := by decide

/-- C123 is refuted: once as many different addresses as the queue length have had a job accepted, no `verify_pow` called from then on
ever returns a token, to whatever address, whatever happens later and however much time passes. -/
theorem C123_locked_out_refuted (lib : PowLib) (p : Profile) (n ql now : Nat) (steps : List SStep)
    (hfull : placesTaken (logOf lib p n ql now steps) = ql) (later : List SStep) (i : Nat) (work : Work) (ip : String)
    (hc : .call i (.verify work ip) ∈ (sysRun lib p (stateOf lib p n ql now steps) later).2) (api : Api) (t : String) (d : Nat) :
    .ret i api (.verify (.ok (t, d))) ∉ logOf lib p n ql now (steps ++ later) := by
  intro hr
  have hcalls : (stateOf lib p n ql now steps).calls.length ≤ i := call_fresh lib p _ later i _ hc
  have hrun : logOf lib p n ql now (steps ++ later) =
      logOf lib p n ql now steps ++ (sysRun lib p (stateOf lib p n ql now steps) later).2 := by
    simp only [logOf, stateOf, sysRun_append]
  obtain ⟨pre, post, hlog⟩ := List.append_of_mem hr
  have hw := (facts lib p n ql now (steps ++ later)).si.why pre _ post hlog
  cases api with
  | get id => exact hw
  | validate msg => exact hw
  | verify work' ip' =>
    obtain ⟨-, -, hlt, hacc⟩ := C123_full_iff_partial lib p n ql now (steps ++ later) i work' ip' _ pre post hlog
    obtain ⟨a, b, hab⟩ := hacc t d rfl
    have h1 := hlt a b hab
    have h2 : accN i (logOf lib p n ql now steps) = 0 := ((facts lib p n ql now steps).ui.fresh i hcalls).1
    have h3 : logOf lib p n ql now steps ++ (sysRun lib p (stateOf lib p n ql now steps) later).2 =
        a ++ .queue (.accepted ip' i) :: (b ++ .ret i (.verify work' ip') (.verify (.ok (t, d))) :: post) := by
      rw [← hrun, hlog, hab, List.append_assoc]; rfl
    rcases append_split h3 with ⟨c, h4, -⟩ | ⟨c, h4, -⟩
    · have := List.countP_eq_zero.1 h2 (.queue (.accepted ip' i)) (by rw [h4]; simp)
      simp at this
    · rw [h4, placesTaken_eq, queueTrace_append] at h1
      have : distinctClients (queueTrace (logOf lib p n ql now steps)) ≤ distinctClients (queueTrace (logOf lib p n ql now steps) ++ queueTrace c) := by
        simp [distinctClients, acceptedIps_append, List.eraseDups_append]
      rw [placesTaken_eq] at hfull
      omega

example : placesTaken (logOf sysLib ⟨true⟩ 1 1 0 exHonest) = 1 ∧
    .call 4 (.verify exWork "ip") ∈ (sysRun sysLib ⟨true⟩ (stateOf sysLib ⟨true⟩ 1 1 0 exHonest) (exTwice.drop exHonest.length)).2 := by decide

/-- C123 is refuted: this state is two calls per place away. Whatever the queue length, one `get_pow` and one `verify_pow` with a made-up
proof from each of as many different addresses are enough; no `verify_pow` called after that ever returns a token. -/
theorem C123_few_calls_refuted (lib : PowLib) (p : Profile) (n ql now : Nat) (ips : List String) (hn : ips.Nodup) (hl : ips.length = ql) :
    ∃ steps, (callsIn steps).length = 2 * ql ∧ (∀ work ip, .verify work ip ∈ callsIn steps → ip ∈ ips ∧ work.result = "") ∧
      ∀ later i work ip, .call i (.verify work ip) ∈ (sysRun lib p (stateOf lib p n ql now steps) later).2 →
        ∀ api t d, .ret i api (.verify (.ok (t, d))) ∉ logOf lib p n ql now (steps ++ later) := by
  have hrun := takePlaces_run lib p n ql now "site" ips [] rfl rfl rfl (by rintro ⟨w, j, h⟩; simp [sysRun] at h) hn
    (by intro ip _; simp [sysRun, queueTrace, acceptedIps]) (by rw [hl]; simp [sysRun, queueTrace, acceptedIps, distinctClients])
  simp only [List.nil_append] at hrun
  refine ⟨takePlaces lib "site" 0 ips, ?_, ?_, ?_⟩
  · rw [← hl, takePlaces_calls]
  · intro work ip h; exact takePlaces_by lib "site" 0 ips work ip h
  · intro later i work ip hc api t d
    refine C123_locked_out_refuted lib p n ql now _ ?_ later i work ip hc api t d
    have h0 : distinctClients (queueTrace (sysRun lib p (Sys.new n ql now) []).2) = 0 := rfl
    have h1 := hrun.1
    rw [h0, Nat.zero_add, hl] at h1
    rw [placesTaken_eq]
    exact h1

example : (["a", "b", "c"] : List String).Nodup := by decide

end MCap
