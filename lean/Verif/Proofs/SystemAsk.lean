import Verif.Proofs.SystemJobs

namespace MCap
open Spec

/-! ### Each call makes each of its requests once -/

inductive Ask where
  | master
  | pow
  | res
  | chk
deriving DecidableEq

/-- The request an event answers. -/
def askOf : SEvent → Option (Nat × Ask)
  | .master i _ => some (i, .master)
  | .cache (some (i, _)) (.cachePow _) _ => some (i, .pow)
  | .cache (some (i, _)) (.cacheResult _) _ => some (i, .res)
  | .cache (some (i, _)) (.verify _) _ => some (i, .chk)
  | _ => none

def asks (i : Nat) (k : Ask) (log : List SEvent) : Nat := log.countP fun e => askOf e == some (i, k)

/-- Places before the answer to a request. -/
def early : Ask → Pc → Bool
  | .master, .awaitMaster => true
  | .pow, .awaitMaster => true
  | .pow, .awaitCache _ (.storePow _) => true
  | .res, .awaitCache _ .retrieve => true
  | .res, .replied _ .retrieve => true
  | .res, .awaitAdd _ => true
  | .res, .answered _ _ => true
  | .res, .polling _ => true
  | .res, .awaitCache _ (.storeResult _ _) => true
  | .chk, .awaitCache _ .check => true
  | _, _ => false

structure AInv (s : Sys) (log : List SEvent) : Prop where
  calls : ∀ (i : Nat) (c : Call), s.calls[i]? = some c → ∀ k, asks i k log ≤ 1 ∧ (early k c.pc = true → asks i k log = 0)
  fresh : ∀ i, s.calls.length ≤ i → ∀ k, asks i k log = 0

theorem asks_append (i : Nat) (k : Ask) (a b : List SEvent) : asks i k (a ++ b) = asks i k a + asks i k b := by simp [asks]

theorem asks_none (i : Nat) (k : Ask) (l : List SEvent) (h : ∀ e ∈ l, askOf e = none) : asks i k l = 0 := by
  rw [asks, List.countP_eq_zero]
  intro e he
  rw [h e he]; simp

theorem asks_queue (i : Nat) (k : Ask) (l : List QEvent) : asks i k (l.map .queue) = 0 := by
  apply asks_none
  intro e he
  obtain ⟨y, -, rfl⟩ := List.mem_map.1 he
  rfl

theorem early_settle {q : Queue} {ev : List QEvent} {i : Nat} {c : Call} {k : Ask} (h : early k (c.settle q ev i).pc = true) :
    early k c.pc = true := by
  rcases settle_pc q ev i c with e | ⟨cfg, e, ⟨e', -⟩ | ⟨e', -⟩ | ⟨e', -⟩⟩
  · rw [e] at h; exact h
  all_goals
    rw [e'] at h
    rw [e]
    cases k <;> simp [early] at h ⊢

/-- What a local move answers. -/
theorem local_asks {lib : PowLib} {i : Nat} {c c' : Call} {ev : List SEvent} (m : Local lib i c c' ev) (k : Ask) :
    (early k c'.pc = true → early k c.pc = true ∧ asks i k ev = 0) ∧ (∀ j, j ≠ i → asks j k ev = 0) ∧
    (asks i k ev = 0 ∨ asks i k ev = 1 ∧ early k c.pc = true) := by
  have hov : ∀ (c'' : Call), early k (c''.over).pc = false := by intro c''; cases k <;> rfl
  cases m with
  | masterErr id a r h1 h2 hl h3 =>
    refine ⟨by rw [hov]; simp, ?_, ?_⟩
    · intro j hj; simp [asks, askOf, Ne.symm hj]
    · cases k <;> simp [asks, askOf, h2, early]
  | masterOk id r g h1 h2 hl =>
    refine ⟨?_, ?_, ?_⟩
    · cases k <;> simp [asks, askOf, h2, early]
    · intro j hj; simp [asks, askOf, Ne.symm hj]
    · cases k <;> simp [asks, askOf, h2, early]
  | accepted cfg h2 hl => refine ⟨?_, fun _ _ => rfl, .inl rfl⟩; rw [h2]; cases k <;> simp [early, asks]
  | pollGood cfg job ch g h2 hj hr hl => refine ⟨?_, fun _ _ => rfl, .inl rfl⟩; rw [h2]; cases k <;> simp [early, asks]
  | pollNone cfg job ch h2 hj hr hl => exact ⟨fun h => ⟨h, rfl⟩, fun _ _ => rfl, .inl rfl⟩
  | work => exact ⟨fun h => ⟨h, rfl⟩, fun _ _ => rfl, .inl rfl⟩
  | cancel => exact ⟨fun h => ⟨h, rfl⟩, fun _ _ => rfl, .inl rfl⟩
  | retPow => exact ⟨by rw [hov]; simp, fun _ _ => rfl, .inl rfl⟩
  | notFound => exact ⟨by rw [hov]; simp, fun _ _ => rfl, .inl rfl⟩
  | wrongKey => exact ⟨by rw [hov]; simp, fun _ _ => rfl, .inl rfl⟩
  | stored => exact ⟨by rw [hov]; simp, fun _ _ => rfl, .inl rfl⟩
  | checked => exact ⟨by rw [hov]; simp, fun _ _ => rfl, .inl rfl⟩
  | refused => exact ⟨by rw [hov]; simp, fun _ _ => rfl, .inl rfl⟩
  | lost => exact ⟨by rw [hov]; simp, fun _ _ => rfl, .inl rfl⟩
  | pollBad => exact ⟨by rw [hov]; simp, fun _ _ => rfl, .inl rfl⟩
  | gone => exact ⟨by rw [hov]; simp, fun _ _ => rfl, .inl rfl⟩

theorem ainv_move {lib : PowLib} {p : Profile} {s s' : Sys} {log ev : List SEvent} (hi : ∀ (i : Nat) (c : Call), s.calls[i]? = some c → CallInv lib log i c) (h : AInv s log)
    (m : Move lib p s s' ev) : AInv s' (log ++ ev) := by
  have hqueue : ∀ (q : Queue) (qev : List QEvent), AInv { s with queue := q, calls := s.calls.mapIdx (Call.settle q qev) } (log ++ qev.map .queue) := by
    intro q qev
    refine ⟨?_, ?_⟩
    · intro i c hc k
      simp only [List.getElem?_mapIdx, Option.map_eq_some_iff] at hc
      obtain ⟨c0, hc0, rfl⟩ := hc
      rw [asks_append, asks_queue]
      exact ⟨(h.calls i c0 hc0 k).1, fun e => (h.calls i c0 hc0 k).2 (early_settle e)⟩
    · intro i hl k
      simp only [List.length_mapIdx] at hl
      rw [asks_append, asks_queue]
      exact h.fresh i hl k
  have hset : ∀ (i : Nat) (c c' : Call) (ev : List SEvent), s.calls[i]? = some c →
      (∀ k, early k c'.pc = true → early k c.pc = true ∧ asks i k ev = 0) → (∀ k j, j ≠ i → asks j k ev = 0) →
      (∀ k, asks i k ev = 0 ∨ asks i k ev = 1 ∧ early k c.pc = true) → ∀ s' : Sys, s'.calls = s.calls.set i c' → AInv s' (log ++ ev) := by
    intro i c c' ev hc h1 h2 h3 s' hs'
    refine ⟨?_, ?_⟩
    · intro j d hd k
      rw [hs', List.getElem?_set] at hd
      rw [asks_append]
      split at hd
      · rename_i e
        subst e
        simp [lt_of_some hc] at hd
        subst hd
        have hu := h.calls i c hc k
        refine ⟨?_, ?_⟩
        · rcases h3 k with e | ⟨e, e'⟩
          · rw [e]; exact hu.1
          · rw [e, hu.2 e']
            exact Nat.le_refl _
        · intro e
          obtain ⟨a, b⟩ := h1 k e
          rw [b, hu.2 a]
      · rename_i e
        rw [h2 k j (fun e' => e e'.symm)]
        exact h.calls j d hd k
    · intro j hl k
      rw [hs', List.length_set] at hl
      have : j ≠ i := by
        intro e; subst e
        have := lt_of_some hc; omega
      rw [asks_append, h2 k j this, h.fresh j hl k]
  cases m with
  | idle => rw [List.append_nil]; exact h
  | «local» i c c' _ hc m =>
    exact hset i c c' ev hc (fun k => (local_asks m k).1) (fun k => (local_asks m k).2.1) (fun k => (local_asks m k).2.2) _ rfl
  | start a hcl =>
    refine ⟨?_, ?_⟩
    · intro j d hd k
      rw [asks_append, show asks j k [SEvent.call s.calls.length a] = 0 from rfl]
      rw [List.getElem?_append] at hd
      split at hd
      · exact h.calls j d hd k
      · rw [h.fresh j (by omega) k]; exact ⟨Nat.zero_le _, fun _ => rfl⟩
    · intro j hl k
      simp at hl
      rw [asks_append, h.fresh j (by omega) k]; rfl
  | cache i c m k hc h2 =>
    have hp := (hi i c hc).2
    rw [h2] at hp
    refine hset i c _ _ hc ?_ ?_ ?_ _ rfl
    · intro k'
      cases k with
      | retrieve =>
        obtain ⟨work, ip, -, rfl⟩ := hp
        rw [h2]
        cases k' <;> simp [early, asks, askOf]
      | storePow cfg => cases k' <;> simp [early]
      | storeResult t d => cases k' <;> simp [early]
      | check => cases k' <;> simp [early]
    · intro k' j hj
      cases m <;> simp [asks, askOf, Ne.symm hj]
    · intro k'
      rw [h2]
      cases k with
      | retrieve => obtain ⟨work, ip, -, rfl⟩ := hp; exact .inl (by simp [asks, askOf])
      | storePow cfg => obtain ⟨_, _, _, _, _, _, _, rfl⟩ := hp; cases k' <;> simp [early, asks, askOf]
      | storeResult t d => obtain ⟨_, _, _, _, _, _, _, rfl, _⟩ := hp; cases k' <;> simp [early, asks, askOf]
      | check => obtain ⟨msg, _, rfl⟩ := hp; cases k' <;> simp [early, asks, askOf]
  | submit i c work ip cfg hc h1 h2 hk hl hlis hcl =>
    refine hset i c _ _ hc ?_ (fun k j _ => asks_queue j k _) (fun k => .inl (asks_queue i k _)) _ rfl
    intro k
    rw [h2, asks_queue]
    cases k <;> simp [early]
  | panic i c cfg work ip hc h1 h2 hl hlis hcl =>
    refine hset i c _ _ hc ?_ (fun k j _ => rfl) (fun k => .inl rfl) _ rfl
    intro k
    cases k <;> simp [early, Call.over]
  | queue qs hm => exact hqueue _ _
  | shutdown hs => exact hqueue _ _
  | expire k =>
    have e : ∀ j k', asks j k' ((cacheStep s.cache (.fire k)).2.map fun (m, r) => SEvent.cache none m r) = 0 := by
      intro j k'
      apply asks_none
      intro e he
      obtain ⟨y, -, rfl⟩ := List.mem_map.1 he
      obtain ⟨m, r⟩ := y
      cases m <;> rfl
    refine ⟨?_, ?_⟩
    · intro j d hd k'
      rw [asks_append, e j k']
      exact h.calls j d hd k'
    · intro j hl k'
      rw [asks_append, e j k']
      exact h.fresh j hl k'
  | tick d => rw [List.append_nil]; exact ⟨h.calls, h.fresh⟩

theorem ainv_new (lib : PowLib) (p : Profile) (n ql now : Nat) (steps : List SStep) :
    AInv (sysRun lib p (Sys.new n ql now) steps).1 (sysRun lib p (Sys.new n ql now) steps).2 := by
  suffices h : ∀ (s : Sys) (log : List SEvent), SInv lib s log → AInv s log →
      AInv (sysRun lib p s steps).1 (log ++ (sysRun lib p s steps).2) by
    have h0 := sinv_new lib p n ql now []
    have := h (Sys.new n ql now) [] h0 ⟨by intro i c hc; simp [Sys.new] at hc, fun i _ _ => rfl⟩
    simpa using this
  induction steps with
  | nil => intro s log _ h; simpa [sysRun] using h
  | cons st r ih =>
    intro s log h1 h3
    have m := sysStep_move lib p s st
    have := ih _ _ (sinv_move h1 m) (ainv_move h1.calls h3 m)
    simpa [sysRun, List.append_assoc] using this

theorem two_countP {α : Type} (f : α → Bool) (l : List α) (h : l.countP f ≤ 1) {x y : α} (hx : x ∈ l) (hy : y ∈ l) (h1 : f x = true)
    (h2 : f y = true) : x = y := by
  induction l with
  | nil => cases hx
  | cons a r ih =>
    rw [List.countP_cons] at h
    rcases List.mem_cons.1 hx with rfl | hx' <;> rcases List.mem_cons.1 hy with rfl | hy'
    · rfl
    · rw [if_pos h1] at h
      have : 0 < r.countP f := List.countP_pos_iff.2 ⟨y, hy', h2⟩
      omega
    · rw [if_pos h2] at h
      have : 0 < r.countP f := List.countP_pos_iff.2 ⟨x, hx', h1⟩
      omega
    · exact ih (by omega) hx' hy'

/-- A request is answered once. -/
theorem asked_once {s : Sys} {log : List SEvent} (h : AInv s log) {i : Nat} {k : Ask} {x y : SEvent} (hx : x ∈ log) (hy : y ∈ log)
    (h1 : askOf x = some (i, k)) (h2 : askOf y = some (i, k)) : x = y := by
  have hle : asks i k log ≤ 1 := by
    cases hc : s.calls[i]? with
    | some c => exact (h.calls i c hc k).1
    | none => rw [h.fresh i (List.getElem?_eq_none_iff.1 hc) k]; exact Nat.zero_le _
  exact two_countP _ log hle hx hy (by simp [h1]) (by simp [h2])

/-- The challenge is looked up once. -/
theorem looked_once {lib : PowLib} {s : Sys} {log : List SEvent} (h : UInv lib s log) {i : Nat} {a a' : Api} {v v' : VerifyCaptchaResult} {r r' : CacheReply}
    (hx : .cache (some (i, a)) (.retrivePow v) r ∈ log) (hy : .cache (some (i, a')) (.retrivePow v') r' ∈ log) :
    a = a' ∧ v = v' ∧ r = r' := by
  have hle : retrievals i log ≤ 1 := by
    cases hc : s.calls[i]? with
    | some c => exact (h.calls i c hc).look.1
    | none => rw [(h.fresh i (List.getElem?_eq_none_iff.1 hc)).2.2.2.1]; exact Nat.zero_le _
  have := two_countP _ log hle hx hy (by simp) (by simp)
  injection this with e1 e2 e3
  injection e1 with e1
  injection e1 with _ e1
  injection e2 with e2
  exact ⟨e1, e2, e3⟩

end MCap
