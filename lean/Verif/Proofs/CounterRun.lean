import Verif.Proofs.Counter

/-!
# Runs of a counter, step by step
-/

namespace MCap
open Spec

/-- A step of a run, and the rest of it. -/
theorem crun_cons_inv {p : Profile} {now : Nat} {c : Counter} {s : CStep} {r : List CStep} {n2 : Nat} {c2 : Counter} {os : List CObs}
    (h : crun p now c (s :: r) = .ret (n2, c2, os)) :
    ∃ n1 c1 o os', cstep p now c s = .ret (n1, c1, o) ∧ crun p n1 c1 r = .ret (n2, c2, os') ∧ os = o :: os' := by
  simp only [crun] at h
  cases hs : cstep p now c s with
  | panic _ => rw [hs] at h; cases h
  | ret x =>
    obtain ⟨n1, c1, o⟩ := x
    rw [hs] at h
    simp only [Exec.bind] at h
    cases hr : crun p n1 c1 r with
    | panic _ => rw [hr] at h; cases h
    | ret y =>
      obtain ⟨a, b, os'⟩ := y
      rw [hr] at h
      simp only [Exec.map, Exec.ret.injEq, Prod.mk.injEq] at h
      obtain ⟨rfl, rfl, rfl⟩ := h
      exact ⟨n1, c1, o, os', rfl, hr, rfl⟩

/-- What a plain step does to the captcha and the timers of a counter. -/
theorem cstep_plain {p : Profile} {now n1 : Nat} {c c1 : Counter} {o : CObs} {s : CStep} (hs : plain s = true)
    (h : cstep p now c s = .ret (n1, c1, o)) :
    (c1.m = c.m ∧ c1.timers = c.timers ∧ (s = .req .addVisitor → c.alive = false)) ∨
    (s = .req .addVisitor ∧ c.m.addVisitor p = .ret c1.m ∧ c1.timers = c.timers ++ [{ due := now + c.m.duration, dec := 1 }]) ∨
    (∃ i t, s = .fire i ∧ c.timers[i]? = some t ∧ c1.m = c.m.decrementVisitorBy t.dec ∧ c1.timers = c.timers.eraseIdx i) := by
  cases s with
  | tick d => cases h; exact .inl ⟨rfl, rfl, by simp⟩
  | fire i =>
    simp only [cstep, Exec.ret.injEq, Prod.mk.injEq] at h
    obtain ⟨-, hc, -⟩ := h
    rcases fire_cases now c i with hf | ⟨t, -, ht, -, hf⟩
    · rw [hf] at hc; subst hc; exact .inl ⟨rfl, rfl, by simp⟩
    · rw [hf] at hc; subst hc; exact .inr (.inr ⟨i, t, rfl, ht, rfl, rfl⟩)
  | req m =>
    simp only [cstep] at h
    cases hm : c.send p now m with
    | panic _ => rw [hm] at h; cases h
    | ret z =>
      obtain ⟨z1, z2⟩ := z
      rw [hm] at h
      simp only [Exec.map, Exec.ret.injEq, Prod.mk.injEq] at h
      obtain ⟨-, rfl, -⟩ := h
      unfold Counter.send at hm
      split at hm
      · cases m with
        | addVisitor =>
          simp only [Counter.handleAddVisitor, AddVisitorResult.new] at hm
          cases ha : c.m.addVisitor p with
          | panic _ => rw [ha] at hm; cases hm
          | ret m' =>
            rw [ha] at hm
            simp only [Exec.bind] at hm
            cases hd : m'.getDifficulty with
            | panic _ => rw [hd] at hm; cases hm
            | ret d => rw [hd] at hm; cases hm; exact .inr (.inl ⟨rfl, rfl, rfl⟩)
        | getCurrentVisitorCount => cases hm; exact .inl ⟨rfl, rfl, by simp⟩
        | getInternalData => cases hm; exact .inl ⟨rfl, rfl, by simp⟩
        | setInternalData m => cases hs
        | stop => cases hs
      · rename_i hal; cases hm; exact .inl ⟨rfl, rfl, fun _ => by simpa using hal⟩

theorem cstep_clock {p : Profile} {now n1 : Nat} {c c1 : Counter} {o : CObs} {s : CStep} (r : List CStep)
    (h : cstep p now c s = .ret (n1, c1, o)) : visitTimes now (s :: r) = (if s = .req .addVisitor then [now] else []) ++ visitTimes n1 r := by
  cases s with
  | tick d => cases h; rfl
  | fire i => cases h; rfl
  | req m =>
    simp only [cstep] at h
    cases hm : c.send p now m with
    | panic _ => rw [hm] at h; cases h
    | ret z =>
      rw [hm] at h
      simp only [Exec.map, Exec.ret.injEq, Prod.mk.injEq] at h
      obtain ⟨rfl, -, -⟩ := h
      cases m <;> rfl

/-- Every timer of a plain run was set by a visit, a duration before it is due. -/
theorem timer_due (p : Profile) (ops : List CStep) (hp : ∀ s ∈ ops, plain s = true) (now : Nat) (c : Counter) (hm : MValid c.m) {n1 : Nat} {c1 : Counter}
    {os : List CObs} (h : crun p now c ops = .ret (n1, c1, os)) :
    ∀ t ∈ c1.timers, t ∈ c.timers ∨ ∃ v ∈ visitTimes now ops, t.due = v + c.m.duration := by
  induction ops generalizing now c os with
  | nil => cases h; exact fun t ht => .inl ht
  | cons s r ih =>
    obtain ⟨n', c', o, os', hs, hr, -⟩ := crun_cons_inv h
    have hp' : ∀ s ∈ r, plain s = true := fun s hs => hp s (List.mem_cons_of_mem _ hs)
    rw [cstep_clock r hs]
    intro t ht
    rcases cstep_plain (hp s List.mem_cons_self) hs with ⟨e1, e2, e3⟩ | ⟨e0, e1, e2⟩ | ⟨i, t', e0, e1, e2, e3⟩
    · rcases ih hp' n' c' (by rw [e1]; exact hm) hr t ht with h | ⟨v, hv, h⟩
      · rw [e2] at h; exact .inl h
      · rw [e1] at h; exact .inr ⟨v, List.mem_append_right _ hv, h⟩
    · obtain ⟨hm', hd', -, -⟩ := addVisitor_ret p c.m c'.m hm e1
      rcases ih hp' n' c' hm' hr t ht with h | ⟨v, hv, h⟩
      · rw [e2] at h
        rcases List.mem_append.1 h with h | h
        · exact .inl h
        · simp only [List.mem_singleton] at h
          subst h
          exact .inr ⟨now, by simp [e0], rfl⟩
      · rw [hd'] at h; exact .inr ⟨v, List.mem_append_right _ hv, h⟩
    · have hmv : MValid c'.m := by
        rw [e2, decrement_eq]
        exact ⟨hm.defense, Nat.lt_of_le_of_lt (Nat.sub_le _ _) hm.count, hm.duration⟩
      rcases ih hp' n' c' hmv hr t ht with h | ⟨v, hv, h⟩
      · rw [e3] at h; exact .inl (List.mem_of_mem_eraseIdx h)
      · rw [e2, decrement_eq] at h; exact .inr ⟨v, List.mem_append_right _ hv, h⟩

end MCap
