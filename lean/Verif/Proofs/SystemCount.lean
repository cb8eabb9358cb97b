import Verif.Proofs.SystemInv
import Verif.Proofs.QueueStop

namespace MCap
open Spec

/-! ### Counting -/

/-- Call has taken a challenge out of the cache and not yet put a token into it. -/
def phaseA : Pc → Nat
  | .replied (.config (some _)) .retrieve => 1
  | .awaitAdd _ => 1
  | .answered _ _ => 1
  | .polling _ => 1
  | .awaitCache _ (.storeResult _ _) => 1
  | _ => 0

/-- Call has put a token into the cache and not yet returned. -/
def phaseB : Pc → Nat
  | .replied _ (.storeResult _ _) => 1
  | _ => 0

/-- Call has been told that the token is good and not yet returned. -/
def phaseC : Pc → Nat
  | .replied (.verdict true) .check => 1
  | _ => 0

def ofChallenge (s : String) : Api → Bool
  | .verify work _ => work.string == s
  | _ => false

def ofToken (t : String) : Api → Bool
  | .validate msg => msg.token == t
  | _ => false

def wA (s : String) (c : Call) : Nat := if ofChallenge s c.api then phaseA c.pc else 0
def wB (s : String) (c : Call) : Nat := if ofChallenge s c.api then phaseB c.pc else 0
def wC (t : String) (c : Call) : Nat := if ofToken t c.api then phaseC c.pc else 0

def total (f : Call → Nat) (l : List Call) : Nat := (l.map f).sum

structure CInv (s : Sys) (log : List SEvent) : Prop where
  a : ∀ x, total (wA x) s.calls + tokensFor x log ≤ handedOut x (cacheTrace log)
  b : ∀ x, total (wB x) s.calls + successes x log ≤ tokensFor x log
  c : ∀ t, total (wC t) s.calls + validations t log ≤ accepted t (cacheTrace log)

theorem total_set (f : Call → Nat) (l : List Call) (i : Nat) (c c' : Call) (h : l[i]? = some c) :
    total f (l.set i c') + f c = total f l + f c' := by
  induction l generalizing i with
  | nil => simp at h
  | cons a r ih =>
    cases i with
    | zero => simp at h; subst h; simp only [total, List.set_cons_zero, List.map_cons, List.sum_cons]; omega
    | succ i =>
      have := ih i (by simpa using h)
      simp only [total, List.set_cons_succ, List.map_cons, List.sum_cons] at this ⊢
      omega

theorem total_mapIdx (f : Call → Nat) (g : Nat → Call → Call) (l : List Call) (h : ∀ i c, f (g i c) = f c) :
    total f (l.mapIdx g) = total f l := by
  unfold total
  congr 1
  apply List.ext_getElem?
  intro i
  rw [List.getElem?_map, List.getElem?_mapIdx, List.getElem?_map]
  cases l[i]? <;> simp [h]

theorem tokensFor_append (x : String) (a b : List SEvent) : tokensFor x (a ++ b) = tokensFor x a + tokensFor x b := by simp [tokensFor]
theorem successes_append (x : String) (a b : List SEvent) : successes x (a ++ b) = successes x a + successes x b := by simp [successes]
theorem validations_append (x : String) (a b : List SEvent) : validations x (a ++ b) = validations x a + validations x b := by simp [validations]

theorem counts_queue (x : String) (l : List QEvent) :
    tokensFor x (l.map .queue) = 0 ∧ successes x (l.map .queue) = 0 ∧ validations x (l.map .queue) = 0 := by
  refine ⟨?_, ?_, ?_⟩ <;>
    · simp only [tokensFor, successes, validations, List.countP_eq_zero]
      intro e he
      obtain ⟨y, -, rfl⟩ := List.mem_map.1 he
      simp

theorem settle_weight (x : String) (q : Queue) (ev : List QEvent) (i : Nat) (c : Call) :
    wA x (c.settle q ev i) = wA x c ∧ wB x (c.settle q ev i) = wB x c ∧ wC x (c.settle q ev i) = wC x c := by
  simp only [wA, wB, wC, settle_api]
  rcases settle_pc q ev i c with h | ⟨cfg, h, h' | h' | h'⟩
  · rw [h]; exact ⟨rfl, rfl, rfl⟩
  all_goals rw [h, h'.1]; exact ⟨rfl, rfl, rfl⟩

theorem weight_zero (c : Call) (h : phaseA c.pc = 0) (h' : phaseB c.pc = 0) (h'' : phaseC c.pc = 0) (x : String) :
    wA x c = 0 ∧ wB x c = 0 ∧ wC x c = 0 := by
  simp [wA, wB, wC, h, h', h'']

/-- What a local move does to the weights. -/
theorem local_weight {lib : PowLib} {i : Nat} {c c' : Call} {ev : List SEvent} (m : Local lib i c c' ev) (x : String) :
    wA x c' ≤ wA x c ∧ tokensFor x ev = 0 ∧ wB x c' + successes x ev ≤ wB x c ∧ wC x c' + validations x ev ≤ wC x c := by
  have hz : ∀ c : Call, wA x c.over = 0 ∧ wB x c.over = 0 ∧ wC x c.over = 0 := by
    intro c; exact weight_zero _ rfl rfl rfl x
  have hsame : ∀ c' : Call, c'.api = c.api → c'.pc = c.pc → ev = [] ∨ ev = [.cancelled i] →
      wA x c' ≤ wA x c ∧ tokensFor x ev = 0 ∧ wB x c' + successes x ev ≤ wB x c ∧ wC x c' + validations x ev ≤ wC x c := by
    intro c' h1 h2 h3
    have e : tokensFor x ev = 0 ∧ successes x ev = 0 ∧ validations x ev = 0 := by
      rcases h3 with rfl | rfl <;> exact ⟨rfl, rfl, rfl⟩
    simp [wA, wB, wC, h1, h2, e]
  cases m with
  | masterErr id a r h1 h2 hl h3 =>
    obtain ⟨z1, z2, z3⟩ := hz c
    rw [z1, z2, z3, h1]
    refine ⟨Nat.zero_le _, rfl, ?_, ?_⟩
    · rw [show successes x [.master i a, .ret i (.get id) r] = 0 from rfl]; exact Nat.zero_le _
    · rw [show validations x [.master i a, .ret i (.get id) r] = 0 from rfl]; exact Nat.zero_le _
  | masterOk id r g h1 h2 hl =>
    simp [wA, wB, wC, phaseA, phaseB, phaseC, h1, ofChallenge, ofToken, tokensFor, successes, validations]
  | retPow r cfg h2 hl =>
    obtain ⟨z1, z2, z3⟩ := hz c
    rw [z1, z2, z3]
    refine ⟨Nat.zero_le _, rfl, ?_, ?_⟩
    · rw [show successes x [.ret i c.api (.get (.ok (some cfg)))] = 0 from by cases c.api <;> rfl]; exact Nat.zero_le _
    · rw [show validations x [.ret i c.api (.get (.ok (some cfg)))] = 0 from by cases c.api <;> rfl]; exact Nat.zero_le _
  | notFound work ip h1 h2 hl =>
    obtain ⟨z1, z2, z3⟩ := hz c
    rw [z1, z2, z3, h1]
    exact ⟨Nat.zero_le _, rfl, Nat.zero_le _, Nat.zero_le _⟩
  | wrongKey work ip cfg h1 h2 hk hl =>
    obtain ⟨z1, z2, z3⟩ := hz c
    rw [z1, z2, z3, h1]
    exact ⟨Nat.zero_le _, rfl, Nat.zero_le _, Nat.zero_le _⟩
  | stored r t d h2 hl =>
    obtain ⟨z1, z2, z3⟩ := hz c
    rw [z1, z2, z3]
    refine ⟨Nat.zero_le _, rfl, ?_, ?_⟩
    · cases ha : c.api with
      | get id => exact Nat.zero_le _
      | validate msg => exact Nat.zero_le _
      | verify work ip =>
        simp [wB, ha, ofChallenge, h2, phaseB, successes, List.countP_cons]
    · cases c.api <;> exact Nat.zero_le _
  | checked b h2 hl =>
    obtain ⟨z1, z2, z3⟩ := hz c
    rw [z1, z2, z3]
    refine ⟨Nat.zero_le _, rfl, ?_, ?_⟩
    · cases c.api <;> exact Nat.zero_le _
    · cases ha : c.api with
      | get id => exact Nat.zero_le _
      | verify work ip => exact Nat.zero_le _
      | validate msg =>
        cases b
        · exact Nat.zero_le _
        · simp [wC, ha, ofToken, h2, phaseC, validations, List.countP_cons]
  | accepted cfg h2 hl => simp [wA, wB, wC, h2, phaseA, phaseB, phaseC, tokensFor, successes, validations]
  | refused cfg h2 hl =>
    obtain ⟨z1, z2, z3⟩ := hz c
    rw [z1, z2, z3]
    refine ⟨Nat.zero_le _, rfl, ?_, ?_⟩ <;> cases c.api <;> exact Nat.zero_le _
  | lost cfg h2 hl =>
    obtain ⟨z1, z2, z3⟩ := hz c
    rw [z1, z2, z3]
    refine ⟨Nat.zero_le _, rfl, ?_, ?_⟩ <;> cases c.api <;> exact Nat.zero_le _
  | pollNone cfg job ch h2 hj hr hl => exact hsame _ rfl rfl (.inl rfl)
  | pollBad cfg job ch h2 hj hr hl =>
    obtain ⟨z1, z2, z3⟩ := hz { c with job := some (job, ch.poll) }
    rw [z1, z2, z3]
    refine ⟨Nat.zero_le _, rfl, ?_, ?_⟩ <;> cases c.api <;> exact Nat.zero_le _
  | pollGood cfg job ch g h2 hj hr hl => simp [wA, wB, wC, h2, phaseA, phaseB, phaseC, tokensFor, successes, validations]
  | gone m k r h2 hl hr =>
    obtain ⟨z1, z2, z3⟩ := hz c
    rw [z1, z2, z3]
    cases ha : c.api with
    | get id => rw [ha] at hr; subst hr; exact ⟨Nat.zero_le _, rfl, Nat.zero_le _, Nat.zero_le _⟩
    | verify work ip => rw [ha] at hr; subst hr; exact ⟨Nat.zero_le _, rfl, Nat.zero_le _, Nat.zero_le _⟩
    | validate msg => rw [ha] at hr; subst hr; exact ⟨Nat.zero_le _, rfl, Nat.zero_le _, Nat.zero_le _⟩
  | work job ch hj hf => exact hsame _ rfl rfl (.inl rfl)
  | cancel hl hd => exact hsame _ rfl rfl (.inr rfl)

/-- What handling a pending message does to the weights. -/
theorem cache_weight {lib : PowLib} {log : List SEvent} {i : Nat} {c : Call} {m : CacheMsg} {k : Stage} (r : CacheReply)
    (h2 : c.pc = .awaitCache m k) (hp : Pending lib log i c.api m k) (x : String) :
    let ev : List SEvent := [.cache (some (i, c.api)) m r]
    wA x { c with pc := .replied r k } + tokensFor x ev ≤ wA x c + handedOut x (cacheTrace ev) ∧
    wB x { c with pc := .replied r k } + successes x ev ≤ wB x c + tokensFor x ev ∧
    wC x { c with pc := .replied r k } + validations x ev ≤ wC x c + accepted x (cacheTrace ev) := by
  cases k with
  | storePow cfg =>
    obtain ⟨id, res, a1, -, -, -, -, rfl⟩ := hp
    simp [wA, wB, wC, phaseA, phaseB, phaseC, a1, ofChallenge, ofToken, tokensFor, successes, validations]
  | retrieve =>
    obtain ⟨work, ip, a1, rfl⟩ := hp
    refine ⟨?_, ?_, ?_⟩
    · by_cases hs : work.string = x
      · cases r with
        | config o =>
          cases o <;> simp [wA, h2, a1, ofChallenge, hs, phaseA, tokensFor, handedOut, cacheTrace]
        | _ => simp [wA, h2, a1, ofChallenge, hs, phaseA, tokensFor]
      · simp [wA, a1, ofChallenge, hs, tokensFor]
    · simp [wB, phaseB, a1, successes]
    · simp [wC, a1, ofToken, validations]
  | storeResult t d =>
    obtain ⟨work, ip, cfg, a1, -, -, -, rfl, -⟩ := hp
    refine ⟨?_, ?_, ?_⟩
    · by_cases hs : work.string = x <;> simp [wA, h2, a1, ofChallenge, hs, phaseA, tokensFor]
    · by_cases hs : work.string = x <;> simp [wB, h2, a1, ofChallenge, hs, phaseB, tokensFor, successes]
    · simp [wC, a1, ofToken, validations]
  | check =>
    obtain ⟨msg, a1, rfl⟩ := hp
    refine ⟨?_, ?_, ?_⟩
    · simp [wA, a1, ofChallenge, tokensFor]
    · simp [wB, a1, ofChallenge, successes]
    · by_cases hs : msg.token = x
      · cases r with
        | verdict b => cases b <;> simp [wC, h2, a1, ofToken, hs, phaseC, validations, accepted, cacheTrace]
        | _ => simp [wC, h2, a1, ofToken, hs, phaseC, validations]
      · simp [wC, a1, ofToken, hs, validations]

theorem cinv_move {lib : PowLib} {p : Profile} {s s' : Sys} {log ev : List SEvent} (hi : ∀ (i : Nat) (c : Call), s.calls[i]? = some c → CallInv lib log i c) (h : CInv s log)
    (m : Move lib p s s' ev) : CInv s' (log ++ ev) := by
  have hq : ∀ (qs : QStep), CInv { s with queue := (qStep p s.queue qs).1, calls := s.calls.mapIdx (Call.settle (qStep p s.queue qs).1 (qStep p s.queue qs).2) }
      (log ++ (qStep p s.queue qs).2.map .queue) := by
    intro qs
    refine ⟨fun x => ?_, fun x => ?_, fun x => ?_⟩
    · rw [tokensFor_append, (counts_queue x _).1, cacheTrace_append, cacheTrace_queue, List.append_nil, total_mapIdx _ _ _ (fun i c => (settle_weight x _ _ i c).1)]
      exact h.a x
    · rw [tokensFor_append, successes_append, (counts_queue x _).1, (counts_queue x _).2.1, total_mapIdx _ _ _ (fun i c => (settle_weight x _ _ i c).2.1)]
      exact h.b x
    · rw [validations_append, (counts_queue x _).2.2, cacheTrace_append, cacheTrace_queue, List.append_nil, total_mapIdx _ _ _ (fun i c => (settle_weight x _ _ i c).2.2)]
      exact h.c x
  cases m with
  | idle => rw [List.append_nil]; exact h
  | «local» i c c' _ hc m =>
    have ht := (local_traces m).1
    refine ⟨fun x => ?_, fun x => ?_, fun x => ?_⟩
    · obtain ⟨l1, l2, l3, l4⟩ := local_weight m x
      have := total_set (wA x) s.calls i c c' hc
      have := h.a x
      rw [tokensFor_append, cacheTrace_append, ht, List.append_nil, l2]
      simp only [Sys.setCall]; omega
    · obtain ⟨l1, l2, l3, l4⟩ := local_weight m x
      have := total_set (wB x) s.calls i c c' hc
      have := h.b x
      rw [tokensFor_append, successes_append, l2]
      simp only [Sys.setCall]; omega
    · obtain ⟨l1, l2, l3, l4⟩ := local_weight m x
      have := total_set (wC x) s.calls i c c' hc
      have := h.c x
      rw [validations_append, cacheTrace_append, ht, List.append_nil]
      simp only [Sys.setCall]; omega
  | start a hq =>
    have e : ∀ x, wA x (Call.start a) = 0 ∧ wB x (Call.start a) = 0 ∧ wC x (Call.start a) = 0 := by
      intro x; cases a <;> exact weight_zero _ rfl rfl rfl x
    refine ⟨fun x => ?_, fun x => ?_, fun x => ?_⟩
    · have := h.a x
      rw [tokensFor_append, cacheTrace_append, show cacheTrace [SEvent.call s.calls.length a] = [] from rfl, List.append_nil]
      simp only [total, List.map_append, List.map_cons, List.map_nil, List.sum_append, List.sum_cons, List.sum_nil, (e x).1]
      simpa [tokensFor, total] using this
    · have := h.b x
      rw [tokensFor_append, successes_append]
      simp only [total, List.map_append, List.map_cons, List.map_nil, List.sum_append, List.sum_cons, List.sum_nil, (e x).2.1]
      simpa [tokensFor, successes, total] using this
    · have := h.c x
      rw [validations_append, cacheTrace_append, show cacheTrace [SEvent.call s.calls.length a] = [] from rfl, List.append_nil]
      simp only [total, List.map_append, List.map_cons, List.map_nil, List.sum_append, List.sum_cons, List.sum_nil, (e x).2.2]
      simpa [validations, total] using this
  | cache i c m k hc h2 =>
    have hp := (hi i c hc).2
    rw [h2] at hp
    refine ⟨fun x => ?_, fun x => ?_, fun x => ?_⟩
    · obtain ⟨w1, w2, w3⟩ := cache_weight (s.cache.handle m).2 h2 hp x
      have := total_set (wA x) s.calls i c { c with pc := .replied (s.cache.handle m).2 k } hc
      have := h.a x
      rw [tokensFor_append, cacheTrace_append, handedOut_append]
      simp only [Sys.setCall]; omega
    · obtain ⟨w1, w2, w3⟩ := cache_weight (s.cache.handle m).2 h2 hp x
      have := total_set (wB x) s.calls i c { c with pc := .replied (s.cache.handle m).2 k } hc
      have := h.b x
      rw [tokensFor_append, successes_append]
      simp only [Sys.setCall]; omega
    · obtain ⟨w1, w2, w3⟩ := cache_weight (s.cache.handle m).2 h2 hp x
      have := total_set (wC x) s.calls i c { c with pc := .replied (s.cache.handle m).2 k } hc
      have := h.c x
      rw [validations_append, cacheTrace_append, accepted_append]
      simp only [Sys.setCall]; omega
  | submit i c work ip cfg hc h1 h2 hk hl hq hcl =>
    refine ⟨fun x => ?_, fun x => ?_, fun x => ?_⟩
    · have e := total_set (wA x) s.calls i c { c with pc := .awaitAdd cfg, job := some ({ pow := lib, work := work.toProof, string := work.string, difficultyFactor := cfg.difficultyFactor }, VerdictChannel.new) } hc
      have := h.a x
      rw [tokensFor_append, (counts_queue x _).1, cacheTrace_append, cacheTrace_queue, List.append_nil]
      have w : wA x { c with pc := .awaitAdd cfg, job := some ({ pow := lib, work := work.toProof, string := work.string, difficultyFactor := cfg.difficultyFactor }, VerdictChannel.new) } = wA x c := by
        simp [wA, h2, phaseA]
      simp only [Sys.setCall]; omega
    · have e := total_set (wB x) s.calls i c { c with pc := .awaitAdd cfg, job := some ({ pow := lib, work := work.toProof, string := work.string, difficultyFactor := cfg.difficultyFactor }, VerdictChannel.new) } hc
      have := h.b x
      rw [tokensFor_append, successes_append, (counts_queue x _).1, (counts_queue x _).2.1]
      have w : wB x { c with pc := .awaitAdd cfg, job := some ({ pow := lib, work := work.toProof, string := work.string, difficultyFactor := cfg.difficultyFactor }, VerdictChannel.new) } = wB x c := by
        simp [wB, h2, phaseB]
      simp only [Sys.setCall]; omega
    · have e := total_set (wC x) s.calls i c { c with pc := .awaitAdd cfg, job := some ({ pow := lib, work := work.toProof, string := work.string, difficultyFactor := cfg.difficultyFactor }, VerdictChannel.new) } hc
      have := h.c x
      rw [validations_append, (counts_queue x _).2.2, cacheTrace_append, cacheTrace_queue, List.append_nil]
      have w : wC x { c with pc := .awaitAdd cfg, job := some ({ pow := lib, work := work.toProof, string := work.string, difficultyFactor := cfg.difficultyFactor }, VerdictChannel.new) } = wC x c := by
        simp [wC, h2, phaseC]
      simp only [Sys.setCall]; omega
  | panic i c cfg work ip hc h1 h2 hl hq hcl =>
    have z := weight_zero c.over rfl rfl rfl
    refine ⟨fun x => ?_, fun x => ?_, fun x => ?_⟩
    · have e := total_set (wA x) s.calls i c c.over hc
      have := h.a x
      rw [(z x).1] at e
      rw [tokensFor_append, cacheTrace_append, show cacheTrace [SEvent.panicked i] = [] from rfl, List.append_nil, show tokensFor x [SEvent.panicked i] = 0 from rfl]
      simp only [Sys.setCall]; omega
    · have e := total_set (wB x) s.calls i c c.over hc
      have := h.b x
      rw [(z x).2.1] at e
      rw [tokensFor_append, successes_append, show successes x [SEvent.panicked i] = 0 from rfl, show tokensFor x [SEvent.panicked i] = 0 from rfl]
      simp only [Sys.setCall]; omega
    · have e := total_set (wC x) s.calls i c c.over hc
      have := h.c x
      rw [(z x).2.2] at e
      rw [validations_append, cacheTrace_append, show cacheTrace [SEvent.panicked i] = [] from rfl, List.append_nil, show validations x [SEvent.panicked i] = 0 from rfl]
      simp only [Sys.setCall]; omega
  | queue qs hm => exact hq qs
  | shutdown hs => exact hq .close
  | expire k =>
    have z : ∀ x, tokensFor x ((cacheStep s.cache (.fire k)).2.map fun (m, r) => SEvent.cache none m r) = 0 ∧
        successes x ((cacheStep s.cache (.fire k)).2.map fun (m, r) => SEvent.cache none m r) = 0 ∧
        validations x ((cacheStep s.cache (.fire k)).2.map fun (m, r) => SEvent.cache none m r) = 0 := by
      intro x
      refine ⟨?_, ?_, ?_⟩ <;>
        · simp only [tokensFor, successes, validations, List.countP_eq_zero]
          intro e he
          obtain ⟨y, -, rfl⟩ := List.mem_map.1 he
          simp
    refine ⟨fun x => ?_, fun x => ?_, fun x => ?_⟩
    · have := h.a x
      rw [tokensFor_append, (z x).1, cacheTrace_append, handedOut_append]
      simp only; omega
    · have := h.b x
      rw [tokensFor_append, successes_append, (z x).1, (z x).2.1]
      simp only; omega
    · have := h.c x
      rw [validations_append, (z x).2.2, cacheTrace_append, accepted_append]
      simp only; omega
  | tick d => rw [List.append_nil]; exact ⟨h.a, h.b, h.c⟩

theorem cinv_run {lib : PowLib} {p : Profile} {s : Sys} {log : List SEvent} (hi : SInv lib s log) (h : CInv s log) (steps : List SStep) :
    CInv (sysRun lib p s steps).1 (log ++ (sysRun lib p s steps).2) := by
  induction steps generalizing s log with
  | nil => simpa [sysRun] using h
  | cons st r ih =>
    have := ih (sinv_move hi (sysStep_move lib p s st)) (cinv_move hi.calls h (sysStep_move lib p s st))
    simpa [sysRun, List.append_assoc] using this

end MCap
