import Verif.Proofs.MCaptcha
import Verif.Spec.Counter

namespace MCap
open Spec

/-- Decrements scheduled for after time `x`. -/
def liveDec (x : Nat) (ts : List Timer) : Nat := ((ts.filter fun t => decide (x < t.due)).map (·.dec)).sum

theorem liveDec_append (x : Nat) (a b : List Timer) : liveDec x (a ++ b) = liveDec x a + liveDec x b := by
  simp [liveDec]

theorem liveDec_le (x : Nat) (ts : List Timer) : liveDec x ts ≤ (ts.map (·.dec)).sum := by
  induction ts with
  | nil => simp [liveDec]
  | cons t ts ih =>
    unfold liveDec at *
    simp only [List.filter_cons]
    split <;> simp <;> omega

theorem liveDec_all (x : Nat) (ts : List Timer) (h : ∀ t ∈ ts, x < t.due) :
    liveDec x ts = (ts.map (·.dec)).sum := by
  unfold liveDec
  rw [List.filter_eq_self.2 (by simpa using h)]

theorem sum_eraseIdx (ts : List Timer) (i : Nat) (t : Timer) (h : ts[i]? = some t) :
    ((ts.eraseIdx i).map (·.dec)).sum + t.dec = (ts.map (·.dec)).sum := by
  induction ts generalizing i with
  | nil => simp at h
  | cons a ts ih =>
    cases i with
    | zero => simp at h; subst h; simp; omega
    | succ i =>
      simp only [List.eraseIdx_cons_succ, List.map_cons, List.sum_cons]
      have := ih i (by simpa using h)
      omega

theorem liveDec_eraseIdx (x : Nat) (ts : List Timer) (i : Nat) (t : Timer) (h : ts[i]? = some t) (hd : t.due ≤ x) :
    liveDec x (ts.eraseIdx i) = liveDec x ts := by
  induction ts generalizing i with
  | nil => simp at h
  | cons a ts ih =>
    cases i with
    | zero =>
      simp at h; subst h
      simp only [liveDec, List.eraseIdx_cons_zero, List.filter_cons]
      rw [if_neg (by simp; omega)]
    | succ i =>
      have := ih i (by simpa using h)
      simp only [liveDec, List.eraseIdx_cons_succ, List.filter_cons] at *
      split <;> simp [this]

theorem recent_cons (dur x t : Nat) (ts : List Nat) :
    recent dur x (t :: ts) = (if x < t + dur then 1 else 0) + recent dur x ts := by
  simp only [recent, List.filter_cons, decide_eq_true_eq]
  split <;> simp <;> omega

theorem le_clockAfter (now : Nat) (ops : List CStep) : now ≤ clockAfter now ops := by
  induction ops generalizing now with
  | nil => exact Nat.le_refl _
  | cons s r ih =>
    cases s with
    | tick d => exact Nat.le_trans (Nat.le_add_right _ _) (ih _)
    | req m => exact ih _
    | fire i => exact ih _

/-- What a successful fire does. -/
theorem fire_cases (now : Nat) (c : Counter) (i : Nat) :
    (c.fire now i = (c, false)) ∨
    (∃ t, c.alive = true ∧ c.timers[i]? = some t ∧ t.due ≤ now ∧
      c.fire now i = ({ c with timers := c.timers.eraseIdx i, m := c.m.decrementVisitorBy t.dec }, true)) := by
  unfold Counter.fire
  split
  · rename_i ha
    split
    · rename_i t ht
      split
      · rename_i hd
        right
        exact ⟨t, ha, ht, hd, rfl⟩
      · left; rfl
    · left; rfl
  · left; rfl

theorem send_addVisitor (p : Profile) (now : Nat) (c : Counter) (ha : c.alive = true) (hm : MValid c.m)
    (hv : c.m.visitors + 1 < u32Size) :
    ∃ m', c.m.addVisitor p = .ret m' ∧ MValid m' ∧ m'.visitors = c.m.visitors + 1 ∧ m'.duration = c.m.duration ∧
      m'.defense.levels = c.m.defense.levels ∧
      ∃ d, m'.getDifficulty = .ret d ∧
      c.send p now .addVisitor = .ret
        ({ m := m', alive := true, timers := c.timers ++ [{ due := now + c.m.duration, dec := 1 }] },
          .visitor { duration := c.m.duration, difficultyFactor := d }) := by
  obtain ⟨m', h1, hm', h2, h3, h4, _⟩ := addVisitor_mvalid p c.m hm hv
  refine ⟨m', h1, hm', h2, h3, h4, _, getDifficulty_mvalid m' hm', ?_⟩
  unfold Counter.send Counter.handleAddVisitor AddVisitorResult.new
  rw [if_pos ha]
  simp only [h1, Exec.bind, getDifficulty_mvalid m' hm', Exec.map, MCaptcha.getDuration, h3, ha]

/-- Everything that is needed about runs without restore or stop. -/
theorem plain_run (p : Profile) (ops : List CStep) (now : Nat) (c : Counter) (ha : c.alive = true) (hm : MValid c.m)
    (hp : ∀ s ∈ ops, plain s = true) (hv : c.m.visitors + (visitTimes now ops).length < u32Size) :
    ∃ now' c' os, crun p now c ops = .ret (now', c', os) ∧ now' = clockAfter now ops ∧ c'.alive = true ∧
      MValid c'.m ∧ c'.m.duration = c.m.duration ∧ c'.m.defense.levels = c.m.defense.levels ∧
      (∀ x, now' ≤ x → liveDec x c'.timers = liveDec x c.timers + recent c.m.duration x (visitTimes now ops)) ∧
      scheduled c' + c.m.visitors ≤ c'.m.visitors + scheduled c ∧
      (scheduled c ≤ c.m.visitors → scheduled c' + c.m.visitors = c'.m.visitors + scheduled c) ∧
      visitsAnswered os = (visitTimes now ops).length ∧
      ((∀ t ∈ c.timers, t.dec = 1) → (∀ t ∈ c'.timers, t.dec = 1) ∧
        scheduled c' + expiries os = scheduled c + visitsAnswered os) := by
  induction ops generalizing now c with
  | nil =>
    refine ⟨now, c, [], rfl, rfl, ha, hm, rfl, rfl, ?_, Nat.le_of_eq (Nat.add_comm _ _), fun _ => Nat.add_comm _ _, rfl, ?_⟩
    · intro x _; simp [visitTimes, recent]
    · intro h; exact ⟨h, by simp [expiries, visitsAnswered]⟩
  | cons s r ih =>
    have hp' : ∀ s ∈ r, plain s = true := fun s hs => hp s (List.mem_cons_of_mem _ hs)
    have hs : plain s = true := hp s List.mem_cons_self
    cases s with
    | tick d =>
      obtain ⟨now', c', os, h1, h2, h3, h4, h5, h6, h7, h8, h9, h10, h11⟩ := ih (now + d) c ha hm hp' hv
      refine ⟨now', c', .clock :: os, ?_, h2, h3, h4, h5, h6, h7, h8, h9, ?_, ?_⟩
      · simp [crun, cstep, h1]
      · simpa [visitsAnswered, visitTimes] using h10
      · intro h
        simpa [visitsAnswered, expiries] using h11 h
    | fire i =>
      rcases fire_cases now c i with hf | ⟨t, -, ht, hd, hf⟩
      · obtain ⟨now', c', os, h1, h2, h3, h4, h5, h6, h7, h8, h9, h10, h11⟩ := ih now c ha hm hp' hv
        refine ⟨now', c', .expired false :: os, ?_, h2, h3, h4, h5, h6, h7, h8, h9, ?_, ?_⟩
        · simp [crun, cstep, h1, hf]
        · simpa [visitsAnswered, visitTimes] using h10
        · intro h
          simpa [visitsAnswered, expiries] using h11 h
      · let c1 : Counter := { c with timers := c.timers.eraseIdx i, m := c.m.decrementVisitorBy t.dec }
        have hmd : c1.m = { c.m with visitors := c.m.visitors - t.dec } := decrement_eq _ _
        have hm1 : MValid c1.m := decrement_mvalid _ _ hm
        have hv1 : c1.m.visitors + (visitTimes now r).length < u32Size := by
          rw [hmd]; simp only [visitTimes] at hv ⊢; omega
        obtain ⟨now', c', os, h1, h2, h3, h4, h5, h6, h7, h8, h9, h10, h11⟩ := ih now c1 ha hm1 hp' hv1
        have hsum : scheduled c1 + t.dec = scheduled c := sum_eraseIdx _ _ _ ht
        have hvis : c1.m.visitors = c.m.visitors - t.dec := by rw [hmd]
        have hdur : c1.m.duration = c.m.duration := by rw [hmd]
        refine ⟨now', c', .expired true :: os, ?_, h2, h3, h4, ?_, ?_, ?_, ?_, ?_, ?_, ?_⟩
        · simp [crun, cstep, hf, c1, h1]
        · rw [h5, hdur]
        · rw [h6, hmd]
        · intro x hx
          have hxn : now ≤ x := Nat.le_trans (Nat.le_trans (le_clockAfter now r) (Nat.le_of_eq h2.symm)) hx
          rw [h7 x hx, hdur]
          congr 1
          exact liveDec_eraseIdx x _ i t ht (by omega)
        · omega
        · intro h; have := h9 (by omega); omega
        · simpa [visitsAnswered, visitTimes] using h10
        · intro h
          have hd1 : t.dec = 1 := h t (List.mem_of_getElem? ht)
          obtain ⟨ha, hb⟩ := h11 (fun t' ht' => h t' (List.mem_of_mem_eraseIdx ht'))
          refine ⟨ha, ?_⟩
          have e1 : expiries (.expired true :: os) = expiries os + 1 := by simp [expiries]
          have e2 : visitsAnswered (.expired true :: os) = visitsAnswered os := by simp [visitsAnswered]
          omega
    | req msg =>
      cases msg with
      | setInternalData m => simp [plain] at hs
      | stop => simp [plain] at hs
      | getCurrentVisitorCount =>
        obtain ⟨now', c', os, h1, h2, h3, h4, h5, h6, h7, h8, h9, h10, h11⟩ := ih now c ha hm hp' hv
        refine ⟨now', c', .reply (.count c.m.visitors) :: os, ?_, h2, h3, h4, h5, h6, h7, h8, h9, ?_, ?_⟩
        · simp [crun, cstep, Counter.send, ha, h1, Counter.handleGetCurrentVisitorCount, MCaptcha.getVisitors]
        · simpa [visitsAnswered, visitTimes] using h10
        · intro h
          simpa [visitsAnswered, expiries] using h11 h
      | getInternalData =>
        obtain ⟨now', c', os, h1, h2, h3, h4, h5, h6, h7, h8, h9, h10, h11⟩ := ih now c ha hm hp' hv
        refine ⟨now', c', .reply (.data c.m) :: os, ?_, h2, h3, h4, h5, h6, h7, h8, h9, ?_, ?_⟩
        · simp [crun, cstep, Counter.send, ha, h1, Counter.handleGetInternalData]
        · simpa [visitsAnswered, visitTimes] using h10
        · intro h
          simpa [visitsAnswered, expiries] using h11 h
      | addVisitor =>
        have hv0 : c.m.visitors + 1 + (visitTimes now r).length < u32Size := by
          simp only [visitTimes, List.length_cons] at hv; omega
        obtain ⟨m', g1, g2, g3, g4, g5, d, _, g6⟩ := send_addVisitor p now c ha hm (by omega)
        let c1 : Counter := { m := m', alive := true, timers := c.timers ++ [{ due := now + c.m.duration, dec := 1 }] }
        obtain ⟨now', c', os, h1, h2, h3, h4, h5, h6, h7, h8, h9, h10, h11⟩ :=
          ih now c1 rfl g2 hp' (by show m'.visitors + _ < _; rw [g3]; exact hv0)
        have hsum : scheduled c1 = scheduled c + 1 := by simp [scheduled, c1]
        have hvis : c1.m.visitors = c.m.visitors + 1 := g3
        have hdur : c1.m.duration = c.m.duration := g4
        refine ⟨now', c', .reply (.visitor { duration := c.m.duration, difficultyFactor := d }) :: os, ?_, h2, h3, h4, ?_, ?_, ?_, ?_, ?_, ?_, ?_⟩
        · simp [crun, cstep, g6, c1, h1]
        · rw [h5, hdur]
        · rw [h6]; exact g5
        · intro x hx
          rw [h7 x hx, hdur, visitTimes, recent_cons]
          have : liveDec x c1.timers = liveDec x c.timers + (if x < now + c.m.duration then 1 else 0) := by
            show liveDec x (c.timers ++ _) = _
            rw [liveDec_append]
            congr 1
            simp only [liveDec, List.filter_cons, decide_eq_true_eq]
            split <;> simp
          omega
        · omega
        · intro h; have := h9 (by omega); omega
        · have e2 : ∀ x, visitsAnswered (.reply (.visitor x) :: os) = visitsAnswered os + 1 := by
            intro x; simp [visitsAnswered]
          rw [e2, h10, visitTimes]; rfl
        · intro h
          obtain ⟨ha, hb⟩ := h11 (by
            intro t ht
            rcases List.mem_append.1 ht with ht | ht
            · exact h t ht
            · simp at ht; subst ht; rfl)
          refine ⟨ha, ?_⟩
          have e1 : ∀ x, expiries (.reply x :: os) = expiries os := by intro x; simp [expiries]
          have e2 : ∀ x, visitsAnswered (.reply (.visitor x) :: os) = visitsAnswered os + 1 := by
            intro x; simp [visitsAnswered]
          rw [e1, e2]; omega

/-- The count never exceeds the decrements still scheduled, whatever the schedule. -/
theorem scheduled_bound (p : Profile) (ops : List CStep) (now now' : Nat) (c c' : Counter) (os : List CObs)
    (h : crun p now c ops = .ret (now', c', os)) (hs : c.alive = true → c.m.visitors ≤ scheduled c) :
    c'.alive = true → c'.m.visitors ≤ scheduled c' := by
  induction ops generalizing now c os with
  | nil => simp only [crun] at h; cases h; exact hs
  | cons s r ih =>
    simp only [crun] at h
    cases hst : cstep p now c s with
    | panic w => rw [hst] at h; cases h
    | ret res =>
      obtain ⟨n1, c1, o1⟩ := res
      rw [hst] at h
      simp only [Exec.bind] at h
      cases hr : crun p n1 c1 r with
      | panic w => rw [hr] at h; cases h
      | ret res2 =>
        obtain ⟨n2, c2, os2⟩ := res2
        rw [hr] at h
        simp only [Exec.map, Exec.ret.injEq, Prod.mk.injEq] at h
        obtain ⟨rfl, rfl, rfl⟩ := h
        refine ih n1 c1 os2 hr ?_
        cases s with
        | tick d => simp only [cstep, Exec.ret.injEq, Prod.mk.injEq] at hst; rw [← hst.2.1]; exact hs
        | fire i =>
          simp only [cstep, Exec.ret.injEq, Prod.mk.injEq] at hst
          rw [← hst.2.1]
          rcases fire_cases now c i with hf | ⟨t, ha, ht, hd, hf⟩
          · rw [hf]; exact hs
          · rw [hf]
            intro _
            have := hs ha
            have hsum := sum_eraseIdx _ _ _ ht
            simp only [scheduled, decrement_eq] at *
            omega
        | req msg =>
          simp only [cstep] at hst
          unfold Counter.send at hst
          by_cases ha : c.alive = true
          · rw [if_pos ha] at hst
            cases msg with
            | addVisitor =>
              simp only [Counter.handleAddVisitor] at hst
              cases hav : c.m.addVisitor p with
              | panic w => rw [hav] at hst; cases hst
              | ret m1 =>
                rw [hav] at hst
                simp only [Exec.bind] at hst
                cases hr1 : AddVisitorResult.new m1 with
                | panic w => rw [hr1] at hst; cases hst
                | ret r1 =>
                  rw [hr1] at hst
                  simp only [Exec.map, Exec.ret.injEq, Prod.mk.injEq] at hst
                  rw [← hst.2.1]
                  intro _
                  have := hs ha
                  have hle : m1.visitors ≤ c.m.visitors + 1 := addVisitor_visitors_le p _ _ hav
                  simp only [scheduled, List.map_append, List.sum_append, List.map_cons, List.map_nil,
                    List.sum_cons, List.sum_nil] at *
                  omega
            | getCurrentVisitorCount =>
              simp only [Exec.map, Exec.ret.injEq, Prod.mk.injEq] at hst; rw [← hst.2.1]; exact hs
            | getInternalData =>
              simp only [Exec.map, Exec.ret.injEq, Prod.mk.injEq] at hst; rw [← hst.2.1]; exact hs
            | setInternalData m =>
              simp only [Exec.map, Exec.ret.injEq, Prod.mk.injEq] at hst
              rw [← hst.2.1]
              intro _
              simp [scheduled, Counter.handleSetInternalData, MCaptcha.getVisitors]
            | stop =>
              simp only [Exec.map, Exec.ret.injEq, Prod.mk.injEq] at hst
              rw [← hst.2.1]
              simp [Counter.handleStop]
          · rw [if_neg ha] at hst
            simp only [Exec.map, Exec.ret.injEq, Prod.mk.injEq] at hst
            rw [← hst.2.1]; exact hs

end MCap
