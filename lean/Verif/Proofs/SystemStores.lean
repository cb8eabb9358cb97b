import Verif.Proofs.SystemBack

namespace MCap
open Spec

/-! ### Each call stores at most one thing in the cache -/

/-- Messages that store something. -/
def isStore : CacheMsg → Bool
  | .cachePow _ => true
  | .cacheResult _ => true
  | _ => false

/-- Number of things call `i` stored. -/
def storesN (i : Nat) (log : List SEvent) : Nat :=
  log.countP fun | .cache (some (j, _)) m _ => j == i && isStore m | _ => false

/-- The call has not stored anything yet. -/
def unstored : Pc → Bool
  | .replied _ (.storePow _) => false
  | .replied _ (.storeResult _ _) => false
  | .done => false
  | _ => true

theorem storesN_append (i : Nat) (a b : List SEvent) : storesN i (a ++ b) = storesN i a + storesN i b := by simp [storesN]
theorem storesN_queue (i : Nat) (l : List QEvent) : storesN i (l.map .queue) = 0 := by
  simp only [storesN, List.countP_eq_zero]; intro e he; obtain ⟨y, -, rfl⟩ := List.mem_map.1 he; simp

structure StInv (s : Sys) (log : List SEvent) : Prop where
  le : ∀ i, storesN i log ≤ 1
  calls : ∀ (i : Nat) (c : Call), s.calls[i]? = some c → unstored c.pc = true → storesN i log = 0
  fresh : ∀ i, s.calls.length ≤ i → storesN i log = 0

theorem local_stores {lib : PowLib} {i : Nat} {c c' : Call} {ev : List SEvent} (m : Local lib i c c' ev) :
    (∀ j, storesN j ev = 0) ∧ (unstored c'.pc = true → unstored c.pc = true) := by
  cases m with
  | masterErr id a r h1 h2 hl h3 => exact ⟨fun j => rfl, by simp [Call.over, unstored]⟩
  | masterOk id r g h1 h2 hl => exact ⟨fun j => rfl, by simp [h2, unstored]⟩
  | accepted cfg h2 hl => exact ⟨fun j => rfl, by simp [h2, unstored]⟩
  | pollNone cfg job ch h2 hj hr hl => exact ⟨fun j => rfl, fun e => e⟩
  | pollGood cfg job ch g h2 hj hr hl => exact ⟨fun j => rfl, by simp [h2, unstored]⟩
  | work job ch hj hf => exact ⟨fun j => rfl, fun e => e⟩
  | cancel hl hd => exact ⟨fun j => rfl, fun e => e⟩
  | _ => exact ⟨fun j => rfl, by simp [Call.over, unstored]⟩

theorem stinv_set {s : Sys} {log ev : List SEvent} (h : StInv s log) (i : Nat) (c c' : Call) (hc : s.calls[i]? = some c)
    (hne : ∀ j, j ≠ i → storesN j ev = 0) (hle : storesN i (log ++ ev) ≤ 1) (hi : unstored c'.pc = true → storesN i (log ++ ev) = 0) (s' : Sys)
    (hs' : s'.calls = s.calls.set i c') : StInv s' (log ++ ev) := by
  have hlt := lt_of_some hc
  have other : ∀ j, j ≠ i → storesN j (log ++ ev) = storesN j log := by
    intro j hj; rw [storesN_append, hne j hj, Nat.add_zero]
  refine ⟨?_, ?_, ?_⟩
  · intro j
    by_cases hj : j = i
    · rw [hj]; exact hle
    · rw [other j hj]; exact h.le j
  · intro j d hd hu
    rw [hs', List.getElem?_set] at hd
    by_cases hj : j = i
    · subst hj
      simp [hlt] at hd
      subst hd
      exact hi hu
    · rw [if_neg (fun e => hj e.symm)] at hd
      rw [other j hj]
      exact h.calls j d hd hu
  · intro j hl
    rw [hs', List.length_set] at hl
    rw [other j (by omega)]
    exact h.fresh j hl

theorem stinv_move {lib : PowLib} {p : Profile} {s s' : Sys} {log ev : List SEvent}
    (hi : ∀ (i : Nat) (c : Call), s.calls[i]? = some c → CallInv lib log i c) (h : StInv s log) (m : Move lib p s s' ev) : StInv s' (log ++ ev) := by
  have quiet : ∀ {ev : List SEvent}, (∀ j, storesN j ev = 0) → ∀ j, storesN j (log ++ ev) = storesN j log := by
    intro ev he j; rw [storesN_append, he j, Nat.add_zero]
  have hqueue : ∀ (q : Queue) (qe : List QEvent), StInv { s with queue := q, calls := s.calls.mapIdx (Call.settle q qe) } (log ++ qe.map .queue) := by
    intro q qe
    have e := quiet (fun j => storesN_queue j qe)
    refine ⟨fun j => by rw [e]; exact h.le j, ?_, ?_⟩
    · intro j d hd hu
      simp only [List.getElem?_mapIdx, Option.map_eq_some_iff] at hd
      obtain ⟨c0, hc0, rfl⟩ := hd
      rw [e]
      refine h.calls j c0 hc0 ?_
      rcases settle_pc q qe j c0 with e' | ⟨cfg, e', -⟩
      · rw [e'] at hu; exact hu
      · rw [e']; rfl
    · intro j hl
      simp only [List.length_mapIdx] at hl
      rw [e]; exact h.fresh j hl
  cases m with
  | idle => rw [List.append_nil]; exact h
  | «local» i c c' _ hc m =>
    obtain ⟨l1, l2⟩ := local_stores m
    refine stinv_set h i c c' hc (fun j _ => l1 j) (by rw [quiet l1]; exact h.le i) (fun hu => ?_) _ rfl
    rw [quiet l1]; exact h.calls i c hc (l2 hu)
  | start a hcl =>
    have e := quiet (ev := [SEvent.call s.calls.length a]) (fun j => rfl)
    refine ⟨fun j => by rw [e]; exact h.le j, ?_, ?_⟩
    · intro j d hd hu
      rw [e]
      rw [List.getElem?_append] at hd
      split at hd
      · exact h.calls j d hd hu
      · exact h.fresh j (by omega)
    · intro j hl
      simp at hl
      rw [e]; exact h.fresh j (by omega)
  | cache i c m k hc h2 =>
    have hp := (hi i c hc).2
    rw [h2] at hp
    have h0 := h.calls i c hc (by rw [h2]; rfl)
    refine stinv_set h i c _ hc (fun j hj => ?_) ?_ ?_ _ rfl
    · simp [storesN, Ne.symm hj]
    · rw [storesN_append, h0, Nat.zero_add]
      exact List.countP_le_length
    · intro hu
      rw [storesN_append, h0, Nat.zero_add]
      cases k with
      | storePow cfg => simp [unstored] at hu
      | storeResult t d => simp [unstored] at hu
      | retrieve => obtain ⟨work, ip, -, rfl⟩ := hp; simp [storesN, isStore]
      | check => obtain ⟨msg, -, rfl⟩ := hp; simp [storesN, isStore]
  | submit i c work ip cfg hc h1 h2 hk hl hq hcl =>
    have e := quiet (fun j => storesN_queue j (qStep p s.queue (.submit ip i)).2)
    refine stinv_set h i c _ hc (fun j _ => storesN_queue j _) (by rw [e]; exact h.le i) (fun _ => ?_) _ rfl
    rw [e]; exact h.calls i c hc (by rw [h2]; rfl)
  | panic i c cfg work ip hc h1 h2 hl hq hcl =>
    have e := quiet (ev := [SEvent.panicked i]) (fun j => rfl)
    exact stinv_set h i c _ hc (fun j _ => rfl) (by rw [e]; exact h.le i) (by simp [Call.over, unstored]) _ rfl
  | queue qs hm => exact hqueue _ _
  | shutdown hs => exact hqueue _ _
  | expire k =>
    have e := quiet (ev := (cacheStep s.cache (.fire k)).2.map fun (m, r) => SEvent.cache none m r) (fun j => by
      simp only [storesN, List.countP_eq_zero]; intro e he; obtain ⟨y, -, rfl⟩ := List.mem_map.1 he; simp)
    exact ⟨fun j => by rw [e]; exact h.le j, fun j d hd hu => by rw [e]; exact h.calls j d hd hu, fun j hl => by rw [e]; exact h.fresh j hl⟩
  | tick d => rw [List.append_nil]; exact ⟨h.le, h.calls, h.fresh⟩

theorem stinv_new (lib : PowLib) (p : Profile) (n ql now : Nat) (steps : List SStep) :
    StInv (sysRun lib p (Sys.new n ql now) steps).1 (sysRun lib p (Sys.new n ql now) steps).2 := by
  suffices h : ∀ (s : Sys) (log : List SEvent), SInv lib s log → StInv s log →
      StInv (sysRun lib p s steps).1 (log ++ (sysRun lib p s steps).2) by
    have h0 := sinv_new lib p n ql now []
    have := h (Sys.new n ql now) [] h0 ⟨fun _ => Nat.zero_le _, by intro i c hc; simp [Sys.new] at hc, fun i _ => rfl⟩
    simpa using this
  induction steps with
  | nil => intro s log _ h; simpa [sysRun] using h
  | cons st r ih =>
    intro s log h1 h3
    have m := sysStep_move lib p s st
    have := ih _ _ (sinv_move h1 m) (stinv_move h1.calls h3 m)
    simpa [sysRun, List.append_assoc] using this

/-- Two occurrences of what occurs at most once are the same. -/
theorem same_place {α : Type} {f : α → Bool} {l a b a' b' : List α} {e e' : α} (h : l.countP f ≤ 1) (h1 : l = a ++ e :: b)
    (h2 : l = a' ++ e' :: b') (he : f e = true) (he' : f e' = true) : a = a' ∧ e = e' ∧ b = b' := by
  have key : ∀ {a b a' b' : List α} {e e' : α}, l = a ++ e :: b → l = a' ++ e' :: b' → f e = true → f e' = true →
      ¬ ∃ c, a = a' ++ e' :: c := by
    rintro a b a' b' e e' h1 h2 he he' ⟨c, rfl⟩
    rw [h1] at h
    simp only [List.countP_append, List.countP_cons, he, he', if_true] at h
    omega
  have hs := h1.symm.trans h2
  rcases append_split (show a ++ e :: b = a' ++ e' :: b' from hs) with ⟨c, h3, -⟩ | ⟨c, h3, h4⟩
  · exact absurd ⟨c, h3⟩ (key h1 h2 he he')
  · cases c with
    | nil => simp at h3 h4; exact ⟨h3.symm, h4.1, h4.2⟩
    | cons x c =>
      simp at h4
      exact absurd ⟨c, by rw [h3, h4.1]⟩ (key h2 h1 he' he)

end MCap
