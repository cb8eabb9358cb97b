import Verif.Proofs.SystemThread
import Verif.Props.SystemLive

/-!
# C84: calls sharing one thread

The loop of `verify_pow` (src/system.rs:162-175) polls its channel without awaiting anything, so a thread in it runs nothing else. The
library's own tests, and programs built on it, run calls and actors on the single-threaded runtimes of actix.
-/

namespace MCap
open Spec

/-! ### Checking examples -/

/-- `Spins`, computed. -/
def spinsNow (c : Call) : Bool := c.live && (match c.pc with | .polling _ => true | _ => false)

/-- `OneThread`, computed. -/
def oneThreadNow (lib : PowLib) (p : Profile) : Sys → List SStep → Bool
  | _, [] => true
  | s, st :: r => (List.range s.calls.length).all (fun i => (!((s.calls[i]?).any spinsNow)) || elsewhere st ||
      (match st with | .poll j _ => j == i | _ => false)) && oneThreadNow lib p (sysStep lib p s st).1 r

theorem oneThread_of (lib : PowLib) (p : Profile) (steps : List SStep) (s : Sys) (h : oneThreadNow lib p s steps = true) :
    OneThread lib p s steps := by
  induction steps generalizing s with
  | nil => trivial
  | cons st r ih =>
    rw [oneThreadNow, Bool.and_eq_true, List.all_eq_true] at h
    refine ⟨?_, ih _ h.2⟩
    rintro i ⟨c, cfg, h1, h2, h3⟩
    have := h.1 i (by rw [List.mem_range]; exact lt_of_some h1)
    rw [h1] at this
    simp only [Option.any_some, spinsNow, h2, h3, Bool.and_self, Bool.not_true, Bool.false_or, Bool.or_eq_true] at this
    rcases this with h | h
    · exact .inl h
    · right
      cases st with
      | poll j g => simp at h; subst h; exact ⟨g, rfl⟩
      | _ => simp at h

theorem stuck_jam {i : Nat} {s : Sys} (h : Stuck i s) : Jam i s := by
  obtain ⟨c, hc, hl, hp⟩ := h.here
  refine ⟨h.rest.idle.1, h.rest.idle.2.1, h.rest.settled, ?_, ?_⟩
  · intro w r hr
    exact .inl ⟨(h.rest.idle.2.2 w r hr).2, (h.rest.idle.2.2 w r hr).1⟩
  · rcases h.rest.calls i c hc with e | ⟨-, -, cfg, job, ch, h1, h2, h3, h4, h5⟩
    · exact absurd e hp
    · exact ⟨c, cfg, job, ch, hc, hl, h1, h2, h3, h4, h5⟩

theorem settle_same (q : Queue) (j : Nat) (c : Call) (h1 : ∀ cfg, c.pc ≠ .awaitAdd cfg)
    (h2 : q.holds j = true ∨ c.job = none) : c.settle q [] j = c := by
  unfold Call.settle
  obtain ⟨api, pc, live, job⟩ := c
  cases pc with
  | awaitAdd cfg => exact absurd rfl (h1 cfg)
  | _ =>
    simp only
    split
    · rfl
    · rename_i hn
      rcases h2 with h | h
      · exact absurd h hn
      · simp only at h; subst h; rfl

theorem spins_with {i : Nat} {s : Sys} (w : CacheWorld) (h : Spins s i) : Spins ({ s with cache := w } : Sys) i := h

/-! ### C84 -/

/-- C84 is refuted: one worker; A and B are served one after the other, then A's second proof is accepted when it is the turn of B. On a
single-threaded runtime nothing happens ever again: the call is in its loop for ever, and no other call or message is served. Nothing
but right proofs was submitted. -/
theorem C84_thread_hangs_refuted :
    ∃ steps i, OneThread sysLib ⟨true⟩ (Sys.new 1 9 0) steps ∧ AtMostOneFlaw sysLib (logOf sysLib ⟨true⟩ 1 9 0 steps) ∧
      ∀ later, OneThread sysLib ⟨true⟩ (Sys.new 1 9 0) (steps ++ later) →
        Spins (stateOf sysLib ⟨true⟩ 1 9 0 (steps ++ later)) i ∧ logOf sysLib ⟨true⟩ 1 9 0 (steps ++ later) = logOf sysLib ⟨true⟩ 1 9 0 steps := by
  refine ⟨exStuck, 5, oneThread_of _ _ _ _ (by decide), ?_, ?_⟩
  · intro i work ip cfg h
    have hall : (logOf sysLib ⟨true⟩ 1 9 0 exStuck).all (fun
        | .cache (some (_, .verify work _)) _ (.config (some _)) => sysLib.isValidProof work.toProof work.string
        | _ => true) = true := by decide
    exact .inr (List.all_eq_true.1 hall _ h)
  · intro later h
    have hj := stuck_jam exStuck_stuck
    rw [oneThread_append] at h
    obtain ⟨w, e⟩ := jam_run sysLib ⟨true⟩ later hj h.2 (fun _ _ w r hr => (exStuck_stuck.rest.idle.2.2 w r hr).2)
    unfold stateOf logOf
    rw [sysRun_append, e]
    refine ⟨?_, by simp⟩
    exact spins_with w (jam_spins hj)

/-- A proof with two flaws: nonce too small, result wrong. -/
def exThreadBad : Work := { string := exDrawn, result := "no", nonce := 0, key := "site" }

/-- A right one. -/
def exThreadGood : Work := { exWork with string := exDrawn2, result := exDrawn2 }

/-- Client A submits the two proofs at the same time. The worker is blocked sending its third verdict on the bad one, which nobody has
begun to read; meanwhile the other call enters its loop. -/
def exThreadJam : List SStep :=
  [.call (.get "site"), .master 0 (.reply (.ok (some ⟨30, 50⟩))) (fun _ => 0), .cache 0, .resume 0,
   .call (.get "site"), .master 1 (.reply (.ok (some ⟨30, 50⟩))) (fun _ => 1), .cache 1, .resume 1,
   .call (.verify exThreadBad "A"), .call (.verify exThreadGood "A"), .cache 2, .cache 3, .resume 2, .resume 3, .queue .manage, .queue .manage,
   .queue (.take 0), .work 0, .work 0, .work 0, .work 0, .resume 3]

theorem exThreadJam_jam : Jam 3 (stateOf sysLib ⟨true⟩ 1 9 0 exThreadJam) := by
  have e1 : (stateOf sysLib ⟨true⟩ 1 9 0 exThreadJam).queue =
      { inner := { queues := [("A", [])], runners := [{ inbox := [.prove 3], running := some 2, status := .alive }], ips := ["A"], cur := 0,
                   queueLength := 9 },
        mailbox := [], status := .running, closed := false } := by decide
  have e2 : (stateOf sysLib ⟨true⟩ 1 9 0 exThreadJam).calls.map Call.view =
      [(.get "site", .done, true, none), (.get "site", .done, true, none),
       (.verify exThreadBad "A", .answered ⟨"site", 50, 30⟩ .accepted, true,
         some { pc := .sendTrue, buf := [false, false], rxAlive := true, reading := .none }),
       (.verify exThreadGood "A", .polling ⟨"site", 50, 30⟩, true, some VerdictChannel.new)] := by decide
  have hv : ∀ (j : Nat) (c : Call), (stateOf sysLib ⟨true⟩ 1 9 0 exThreadJam).calls[j]? = some c →
      ((stateOf sysLib ⟨true⟩ 1 9 0 exThreadJam).calls.map Call.view)[j]? = some c.view := by
    intro j c h; rw [List.getElem?_map, h]; rfl
  have hex : ∀ j < 4, ∃ c, (stateOf sysLib ⟨true⟩ 1 9 0 exThreadJam).calls[j]? = some c := by
    intro j hj
    refine ⟨_, List.getElem?_eq_getElem (Nat.lt_of_lt_of_eq hj ?_)⟩
    rw [← List.length_map Call.view, e2]; rfl
  refine ⟨by rw [e1], by rw [e1], ?_, ?_, ?_⟩
  · intro j c hc
    have h := hv j c hc
    rw [e2] at h
    obtain ⟨api, pc, live, job⟩ := c
    match j, h with
    | 0, h => simp [Call.view] at h; obtain ⟨-, rfl, -, h⟩ := h; exact settle_same _ _ _ (by simp) (.inr (by cases job with | none => rfl | some x => simp at h))
    | 1, h => simp [Call.view] at h; obtain ⟨-, rfl, -, h⟩ := h; exact settle_same _ _ _ (by simp) (.inr (by cases job with | none => rfl | some x => simp at h))
    | 2, h => simp [Call.view] at h; obtain ⟨-, rfl, -⟩ := h; exact settle_same _ _ _ (by simp) (.inl (by rw [e1]; decide))
    | 3, h => simp [Call.view] at h; obtain ⟨-, rfl, -⟩ := h; exact settle_same _ _ _ (by simp) (.inl (by rw [e1]; decide))
    | j + 4, h => simp at h
  · intro w r hr
    rw [e1] at hr
    cases w with
    | succ w => simp at hr
    | zero =>
      simp at hr
      subst hr
      right
      obtain ⟨c, hc⟩ := hex 2 (by omega)
      have h := hv 2 c hc
      rw [e2] at h
      obtain ⟨api, pc, live, job⟩ := c
      cases job with
      | none => simp [Call.view] at h
      | some x =>
        simp [Call.view] at h
        obtain ⟨-, -, -, h⟩ := h
        refine ⟨2, _, x.1, x.2, rfl, hc, rfl, ?_, ?_⟩
        · rw [← h]; simp
        · rw [← h]; rfl
  · obtain ⟨c, hc⟩ := hex 3 (by omega)
    have h := hv 3 c hc
    rw [e2] at h
    obtain ⟨api, pc, live, job⟩ := c
    cases job with
    | none => simp [Call.view] at h
    | some x =>
      simp [Call.view] at h
      obtain ⟨-, rfl, rfl, h⟩ := h
      exact ⟨_, _, x.1, x.2, hc, rfl, rfl, rfl, by rw [← h]; rfl, by rw [← h]; rfl, by rw [← h]; simp [VerdictChannel.new]⟩

/-- C84 is refuted with as many workers as clients, too: a client submits a proof with two flaws and a right one at the same time. -/
theorem C84_bad_proof_hangs_refuted :
    ∃ steps i, OneThread sysLib ⟨true⟩ (Sys.new 1 9 0) steps ∧ (addresses (logOf sysLib ⟨true⟩ 1 9 0 steps)).length ≤ 1 ∧
      ∀ later, (∀ w, .queue (.crash w) ∉ later) → OneThread sysLib ⟨true⟩ (Sys.new 1 9 0) (steps ++ later) →
        Spins (stateOf sysLib ⟨true⟩ 1 9 0 (steps ++ later)) i ∧ logOf sysLib ⟨true⟩ 1 9 0 (steps ++ later) = logOf sysLib ⟨true⟩ 1 9 0 steps := by
  refine ⟨exThreadJam, 3, oneThread_of _ _ _ _ (by decide), by decide, ?_⟩
  intro later hcr h
  rw [oneThread_append] at h
  obtain ⟨w, e⟩ := jam_run sysLib ⟨true⟩ later exThreadJam_jam h.2 (fun v hv => absurd hv (hcr v))
  unfold stateOf logOf
  rw [sysRun_append, e]
  exact ⟨spins_with w (jam_spins exThreadJam_jam), by simp⟩

/-- What of C84 holds: with at least as many workers as clients, no job crashed and no proof with two flaws, a loop is left after finitely
many steps of itself, the manager and the workers: the steps of every schedule of these which change anything are bounded in number, and
when there is none left the call is out of its loop. Missing: fewer workers, proofs with two flaws, crashes. -/
theorem C84_leaves_loop_partial (lib : PowLib) (p : Profile) (n ql now : Nat) (steps : List SStep) (i : Nat) :
    (∃ N, ∀ later, (∀ st ∈ later, aroundLoop i st = true) → changes lib p (stateOf lib p n ql now steps) later ≤ N) ∧
    ((∀ st, aroundLoop i st = true → (sysStep lib p (stateOf lib p n ql now steps) st).1 = stateOf lib p n ql now steps) →
      ¬ SomeCrash (logOf lib p n ql now steps) → (addresses (logOf lib p n ql now steps)).length ≤ n →
      AtMostOneFlaw lib (logOf lib p n ql now steps) → ¬ Spins (stateOf lib p n ql now steps) i) := by
  refine ⟨?_, ?_⟩
  · obtain ⟨N, h⟩ := C63_finitely_many_steps_partial lib p n ql now steps
    exact ⟨N, fun later hl => h later fun a ha => by have := hl _ ha; cases this⟩
  · intro hq hc hn hflaw hs
    rcases loop_ends lib p n ql now steps i hq hc hs with h | h
    · obtain ⟨⟨ip', jobs⟩, he, hj⟩ := List.mem_flatMap.1 h
      have hi := (sys_qinv lib p n ql now steps).1.inv
      have := few_addresses lib p n ql now steps hn ip'
      rw [waitingOf, AMap.get_of_mem (by rw [hi.keys]; exact hi.nd) he] at this
      simp only [Option.getD_some] at this
      rw [show jobs = [] from this] at hj
      cases hj
    · exact h hflaw

/-- The honest visitor's system meets the hypotheses of the second half at its end. -/
example : (∀ st, aroundLoop 1 st = true → (sysStep sysLib ⟨true⟩ (stateOf sysLib ⟨true⟩ 1 5 0 exRest) st).1 = stateOf sysLib ⟨true⟩ 1 5 0 exRest) ∧
    (addresses (logOf sysLib ⟨true⟩ 1 5 0 exRest)).length ≤ 1 ∧ AtMostOneFlaw sysLib (logOf sysLib ⟨true⟩ 1 5 0 exRest) := by
  refine ⟨?_, by decide, ?_⟩
  · intro st hst
    refine rest_quiescent _ _ exRest_rest st ?_
    cases st with
    | queue q => cases q <;> first | rfl | cases hst
    | poll j g => rfl
    | work w => rfl
    | _ => cases hst
  · intro i work ip cfg h
    have hall : (logOf sysLib ⟨true⟩ 1 5 0 exRest).all (fun
        | .cache (some (_, .verify work _)) _ (.config (some _)) => sysLib.isValidProof work.toProof work.string
        | _ => true) = true := by decide
    exact .inr (List.all_eq_true.1 hall _ h)

end MCap
