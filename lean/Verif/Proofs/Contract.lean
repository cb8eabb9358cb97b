import Verif.Proofs.OpenLive
import Verif.Proofs.SystemStores
import Verif.Spec.Contract

namespace MCap
open Spec

/-! ### With any cache, each call asks at most once to store something -/

/-- Call `i` has had something stored, or failed to. -/
def storing (i : Nat) : OEvent → Bool
  | .api (.cache (some (j, _)) m _) => j == i && isStore m
  | .failed j m _ => j == i && isStore m
  | _ => false

/-- `N i` things were stored by call `i`. -/
structure NInv (s : Sys) (N : Nat → Nat) : Prop where
  le : ∀ i, N i ≤ 1
  calls : ∀ (i : Nat) (c : Call), s.calls[i]? = some c → unstored c.pc = true → N i = 0
  fresh : ∀ i, s.calls.length ≤ i → N i = 0

theorem ninv_set {s : Sys} {N N' : Nat → Nat} (h : NInv s N) (i : Nat) (c c' : Call) (hc : s.calls[i]? = some c)
    (hne : ∀ j, j ≠ i → N' j = N j) (hle : N' i ≤ 1) (hi : unstored c'.pc = true → N' i = 0) (s' : Sys)
    (hs' : s'.calls = s.calls.set i c') : NInv s' N' := by
  have hlt := lt_of_some hc
  refine ⟨?_, ?_, ?_⟩
  · intro j
    by_cases hj : j = i
    · rw [hj]; exact hle
    · rw [hne j hj]; exact h.le j
  · intro j d hd hu
    rw [hs', List.getElem?_set] at hd
    by_cases hj : j = i
    · subst hj
      simp [hlt] at hd
      subst hd
      exact hi hu
    · rw [if_neg (fun e => hj e.symm)] at hd
      rw [hne j hj]
      exact h.calls j d hd hu
  · intro j hl
    rw [hs', List.length_set] at hl
    rw [hne j (by omega)]
    exact h.fresh j hl

theorem ninv_move {lib : PowLib} {p : Profile} {s s' : Sys} {log ev : List SEvent} {N : Nat → Nat}
    (hi : ∀ (i : Nat) (c : Call), s.calls[i]? = some c → CallInv lib log i c) (h : NInv s N) (m : Move lib p s s' ev) :
    NInv s' (fun i => N i + storesN i ev) := by
  have quiet : ∀ {ev : List SEvent}, (∀ j, storesN j ev = 0) → ∀ j, N j + storesN j ev = N j := by
    intro ev he j; rw [he j, Nat.add_zero]
  have hqueue : ∀ (q : Queue) (qe : List QEvent), NInv { s with queue := q, calls := s.calls.mapIdx (Call.settle q qe) } (fun i => N i + storesN i (qe.map .queue)) := by
    intro q qe
    have e := quiet (fun j => storesN_queue j qe)
    refine ⟨fun j => by rw [e]; exact h.le j, ?_, ?_⟩
    · intro j d hd hu
      simp only [List.getElem?_mapIdx, Option.map_eq_some_iff] at hd
      obtain ⟨c0, hc0, rfl⟩ := hd
      rw [e]
      refine h.calls j c0 hc0 ?_
      rcases settle_pc q qe j c0 with e' | ⟨cfg, e', -⟩
      · rw [e'] at hu; exact hu
      · rw [e']; rfl
    · intro j hl
      simp only [List.length_mapIdx] at hl
      rw [e]; exact h.fresh j hl
  cases m with
  | idle => exact ⟨h.le, h.calls, h.fresh⟩
  | «local» i c c' _ hc m =>
    obtain ⟨l1, l2⟩ := local_stores m
    refine ninv_set h i c c' hc (fun j _ => quiet l1 j) (by rw [quiet l1]; exact h.le i) (fun hu => ?_) _ rfl
    rw [quiet l1]; exact h.calls i c hc (l2 hu)
  | start a hcl =>
    have e := quiet (ev := [SEvent.call s.calls.length a]) (fun j => rfl)
    refine ⟨fun j => by rw [e]; exact h.le j, ?_, ?_⟩
    · intro j d hd hu
      rw [e]
      rw [List.getElem?_append] at hd
      split at hd
      · exact h.calls j d hd hu
      · exact h.fresh j (by omega)
    · intro j hl
      simp at hl
      rw [e]; exact h.fresh j (by omega)
  | cache i c m k hc h2 =>
    have hp := (hi i c hc).2
    rw [h2] at hp
    have h0 := h.calls i c hc (by rw [h2]; rfl)
    refine ninv_set h i c _ hc (fun j hj => ?_) ?_ ?_ _ rfl
    · simp [storesN, Ne.symm hj]
    · rw [h0, Nat.zero_add]
      exact List.countP_le_length
    · intro hu
      rw [h0, Nat.zero_add]
      cases k with
      | storePow cfg => simp [unstored] at hu
      | storeResult t d => simp [unstored] at hu
      | retrieve => obtain ⟨work, ip, -, rfl⟩ := hp; simp [storesN, isStore]
      | check => obtain ⟨msg, -, rfl⟩ := hp; simp [storesN, isStore]
  | submit i c work ip cfg hc h1 h2 hk hl hq hcl =>
    have e := quiet (fun j => storesN_queue j (qStep p s.queue (.submit ip i)).2)
    refine ninv_set h i c _ hc (fun j _ => e j) (by rw [e]; exact h.le i) (fun _ => ?_) _ rfl
    rw [e]; exact h.calls i c hc (by rw [h2]; rfl)
  | panic i c cfg work ip hc h1 h2 hl hq hcl =>
    have e := quiet (ev := [SEvent.panicked i]) (fun j => rfl)
    exact ninv_set h i c _ hc (fun j _ => e j) (by rw [e]; exact h.le i) (by simp [Call.over, unstored]) _ rfl
  | queue qs hm => exact hqueue _ _
  | shutdown hs => exact hqueue _ _
  | expire k =>
    have e := quiet (ev := (cacheStep s.cache (.fire k)).2.map fun (m, r) => SEvent.cache none m r) (fun j => by
      simp only [storesN, List.countP_eq_zero]; intro e he; obtain ⟨y, -, rfl⟩ := List.mem_map.1 he; simp)
    exact ⟨fun j => by rw [e]; exact h.le j, fun j d hd hu => by rw [e]; exact h.calls j d hd hu, fun j hl => by rw [e]; exact h.fresh j hl⟩
  | tick d => exact ⟨h.le, h.calls, h.fresh⟩

theorem storing_api (i : Nat) (l : List SEvent) : (l.map OEvent.api).countP (storing i) = storesN i l := by
  simp only [storesN, List.countP_map]
  congr 1
  funext e
  cases e with
  | cache o m r =>
    cases o with
    | none => rfl
    | some q => obtain ⟨j, a⟩ := q; rfl
  | _ => rfl

theorem ninv_step {lib : PowLib} {p : Profile} {s : Sys} {m : List SEvent} {N : Nat → Nat}
    (hi : ∀ (i : Nat) (c : Call), s.calls[i]? = some c → CallInv lib m i c) (h : NInv s N) (x : OStep) :
    NInv (openStep lib p s x).1 (fun i => N i + (openStep lib p s x).2.countP (storing i)) := by
  have idle : NInv s (fun i => N i + ([] : List OEvent).countP (storing i)) := by simpa using ⟨h.le, h.calls, h.fresh⟩
  cases x with
  | sys st =>
    simp only [openStep]
    split
    · simp only [storing_api]
      exact ninv_move hi h (sysStep_move lib p s st)
    · exact idle
  | cache i a =>
    simp only [openStep]
    split
    · exact idle
    · split
      · rename_i c hc
        split
        · rename_i msg k hpc hl
          have hp := (hi i c hc).2
          rw [hpc] at hp
          have h0 := h.calls i c hc (by rw [hpc]; rfl)
          cases a with
          | ok r =>
            simp only [Sys.onCacheAnswer]
            split
            · refine ninv_set h i c _ hc (fun j hj => ?_) ?_ ?_ _ rfl
              · simp [storing, Ne.symm hj]
              · rw [h0, Nat.zero_add]
                exact List.countP_le_length
              · intro hu
                rw [h0, Nat.zero_add]
                cases k with
                | storePow cfg => simp [unstored] at hu
                | storeResult t d => simp [unstored] at hu
                | retrieve => obtain ⟨work, ip, -, rfl⟩ := hp; simp [storing, isStore]
                | check => obtain ⟨msg, -, rfl⟩ := hp; simp [storing, isStore]
            · exact idle
          | error e =>
            simp only [Sys.onCacheAnswer]
            refine ninv_set h i c c.over hc (fun j hj => ?_) ?_ (by simp [Call.over, unstored]) _ rfl
            · simp [storing, Ne.symm hj]
            · rw [h0, Nat.zero_add, List.countP_cons]
              have : List.countP (storing i) [OEvent.api (.ret i c.api (c.api.fails e))] = 0 := by simp [storing]
              rw [this]
              split <;> omega
        · exact idle
      · exact idle

theorem stores_once (lib : PowLib) (p : Profile) (n ql now : Nat) (steps : List OStep) (i : Nat) :
    (openRun lib p (Sys.new n ql now) steps).2.countP (storing i) ≤ 1 := by
  have := openRun_inv (lib := lib) (p := p)
    (P := fun s log => (∃ m, Masked lib log m ∧ OpenInv lib p n ql s m) ∧ NInv s (fun i => log.countP (storing i))) (by
    rintro s log x ⟨⟨m, hm, hi⟩, hn⟩
    obtain ⟨w, st, h1, h2, h3⟩ := open_sim lib p s x
    have hi' := openInv_swap (t := { s with cache := w }) hi rfl rfl
    refine ⟨⟨m ++ (sysStep lib p { s with cache := w } st).2, masked_extend hm hi.calls h3, openInv_swap (openInv_step hi' st) h1 h2⟩, ?_⟩
    have := ninv_step (p := p) hi.calls hn x
    simpa [List.countP_append] using this) steps (Sys.new n ql now) [] ⟨⟨[], .nil, openInv_new lib p n ql now⟩, by
      refine ⟨by simp, ?_, by simp⟩
      intro i c hc
      simp [Sys.new] at hc⟩
  simpa using this.2.le i

/-! ### Why something was stored -/

theorem masked_failed {lib : PowLib} {log : List OEvent} {m : List SEvent} (h : Masked lib log m) {pre post : List OEvent} {i : Nat} {msg : CacheMsg}
    {err : CaptchaError} (hl : log = pre ++ .failed i msg err :: post) :
    ∃ m' a k, Masked lib pre m' ∧ .call i a ∈ m' ∧ Pending lib m' i a msg k := by
  induction h generalizing pre post with
  | nil => simp at hl
  | api e' h hr ih =>
    rcases snoc_split hl with ⟨rfl, rfl, he⟩ | ⟨q, rfl, hl'⟩
    · cases he
    · exact ih hl'
  | @fail log m j a msg' k err' h hcall hpend ih =>
    rw [show log ++ [OEvent.failed j msg' err', .api (.ret j a (a.fails err'))] = (log ++ [OEvent.failed j msg' err']) ++ [.api (.ret j a (a.fails err'))] by simp] at hl
    rcases snoc_split hl with ⟨rfl, rfl, he⟩ | ⟨q, rfl, hl'⟩
    · cases he
    · rcases snoc_split hl' with ⟨rfl, rfl, he⟩ | ⟨q', rfl, hl''⟩
      · cases he
        exact ⟨m, a, k, h, hcall, hpend⟩
      · exact ih hl''

/-- What was stored was asked for by a call at the right point. -/
theorem store_reason {lib : PowLib} {p : Profile} {n ql now : Nat} {steps : List OStep} {pre post : List OEvent} {e : OEvent} {i : Nat} {msg : CacheMsg}
    (hl : (openRun lib p (Sys.new n ql now) steps).2 = pre ++ e :: post)
    (he : (∃ api r, e = .api (.cache (some (i, api)) msg r)) ∨ ∃ err, e = .failed i msg err) :
    ∃ m' a k, Masked lib pre m' ∧ .call i a ∈ m' ∧ Pending lib m' i a msg k := by
  obtain ⟨m, hm, hi⟩ := oinv_run lib p n ql now steps
  rcases he with ⟨api, r, rfl⟩ | ⟨err, rfl⟩
  · rcases masked_split hm hl with ⟨j, a, msg, k, err, pre', m', he, -⟩ | ⟨⟨mpre, mpost, hml, hmp⟩, -⟩
    · cases he
    · obtain ⟨h1, -, k, hk⟩ := hi.why mpre _ mpost hml
      exact ⟨mpre, api, k, hmp, h1, hk⟩
  · exact masked_failed hm hl

end MCap
