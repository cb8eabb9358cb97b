import Verif.Proofs.ServiceSettle

/-!
# Every schedule without new calls does only boundedly much for the calls of a service
-/

namespace MCap
open Spec

/-- The task brings a request of a call of the API to a counter. -/
def isApiFwd : Task → Bool
  | .forward tag _ => tag % 2 == 0
  | _ => false

theorem onTheWay_eq (v : Service) : onTheWay v = v.world.tasks.filter isApiFwd := by
  unfold onTheWay
  congr 1

theorem filter_apiFwd_quiet (l : List Task) (h : ∀ t ∈ l, ∀ T, T % 2 = 0 → isFwd T t = false) : l.filter isApiFwd = [] := by
  rw [List.filter_eq_nil_iff]
  intro t ht hf
  cases t with
  | forward tag a =>
    simp only [isApiFwd, beq_iff_eq] at hf
    have := h _ ht tag hf
    simp [isFwd] at this
  | _ => cases hf

theorem filter_eraseIdx_le {α : Type} (q : α → Bool) (l : List α) (k : Nat) :
    (l.eraseIdx k).filter q = l.filter q ∨ ((l.eraseIdx k).filter q).length < (l.filter q).length := by
  induction l generalizing k with
  | nil => simp
  | cons a r ih =>
    cases k with
    | zero =>
      simp only [List.eraseIdx_cons_zero, List.filter_cons]
      split
      · right; simp
      · exact .inl rfl
    | succ k =>
      simp only [List.eraseIdx_cons_succ, List.filter_cons]
      split
      · rcases ih k with h | h
        · exact .inl (by rw [h])
        · right; simp only [List.length_cons]; omega
      · exact ih k

/-- A step of the master and of others leaves the requests of calls alone or brings one home. -/
theorem world_fwd (p : Profile) (w : World) (s s' : WStep) (hs : Service.others s = some s') :
    (wstep p w s').tasks.filter isApiFwd = w.tasks.filter isApiFwd ∨
      ((wstep p w s').tasks.filter isApiFwd).length < (w.tasks.filter isApiFwd).length := by
  cases s with
  | tick d => cases hs
  | fire a i =>
    simp only [Service.others, Option.some.injEq] at hs
    subst hs
    left
    simp only [wstep]
    split <;> rfl
  | direct t a msg =>
    simp only [Service.others, Option.some.injEq] at hs
    subst hs
    left
    obtain ⟨-, e1, -⟩ := sendCounter_master p w a msg
    have e1 : (wstep p w (.direct (2 * t + 1) a msg)).tasks = w.tasks := e1
    rw [e1]
  | req t msg =>
    simp only [Service.others, Option.some.injEq] at hs
    subst hs
    left
    simp only [wstep]
    split
    · rfl
    · obtain ⟨extra, ans, e1, -, -, e4, -⟩ := handle_eff w (2 * t + 1) msg
      rw [e1, List.filter_append, filter_apiFwd_quiet extra, List.append_nil]
      intro t' ht T hT
      cases hx : isFwd T t' with
      | false => rfl
      | true => have := (e4 _ ht).1 T hx; omega
  | run k =>
    simp only [Service.others, Option.some.injEq] at hs
    subst hs
    simp only [wstep, World.runAt]
    split
    · exact .inl rfl
    · rename_i t ht
      obtain ⟨cr, extra, ans, e⟩ := runTask_eff p { w with tasks := w.tasks.eraseIdx k } t
      have e1 := e.tasks
      have e2 := e.quiet
      have e3 := e.gone
      have hx : extra.filter isApiFwd = [] :=
        filter_apiFwd_quiet _ fun t' ht T _ => (e2 t' (List.mem_append_left _ ht)).1 T
      have hle := filter_eraseIdx_le isApiFwd w.tasks k
      cases cr with
      | true =>
        split
        · rename_i w' hh
          rw [hh] at e1
          simp only [if_true] at e1
          rw [e1]
          cases hf : w.tasks.filter isApiFwd with
          | nil => exact .inl rfl
          | cons a r => right; simp
        · rename_i w' t' hh
          rw [hh] at e3
          exact absurd (e3 rfl) (by simp)
      | false =>
        simp only [Bool.false_eq_true, if_false] at e1
        split
        · rename_i w' hh
          rw [hh] at e1
          simp only at e1
          rw [e1, List.filter_append, hx, List.append_nil]
          exact hle
        · rename_i w' t' hh
          rw [hh] at e1 e2
          simp only at e1
          have ht' : [t'].filter isApiFwd = [] :=
            filter_apiFwd_quiet _ fun t0 h0 T _ => (e2 t0 (List.mem_append_right _ (by simpa using h0))).1 T
          rw [e1, ← List.singleton_append, List.filter_append, List.filter_append, ht', hx, List.append_nil, List.nil_append]
          exact hle

theorem countP_notin_lt (l : List Nat) (asked : List Nat) (i : Nat) (hi : i ∈ l) (hn : i ∉ asked) :
    l.countP (fun j => decide (j ∉ i :: asked)) < l.countP (fun j => decide (j ∉ asked)) := by
  induction l with
  | nil => cases hi
  | cons a r ih =>
    have hle : ∀ l : List Nat, l.countP (fun j => decide (j ∉ i :: asked)) ≤ l.countP (fun j => decide (j ∉ asked)) := by
      intro l
      apply List.countP_mono_left
      intro x _ hx
      simp only [decide_eq_true_eq] at hx ⊢
      exact fun h => hx (List.mem_cons_of_mem _ h)
    simp only [List.countP_cons]
    by_cases e : a = i
    · subst e
      have := hle r
      rw [if_neg (by simp), if_pos (by simpa using hn)]
      omega
    · have := ih (by rcases List.mem_cons.1 hi with h | h; exact absurd h.symm e; exact h)
      have hiff : (decide (a ∉ i :: asked)) = decide (a ∉ asked) := by simp [e]
      rw [hiff]
      omega

/-- What is left to do for the calls. -/
def serviceW (v : Service) : Nat :=
  sysW v.sys + 2 * (List.range v.sys.calls.length).countP (fun j => decide (j ∉ v.asked)) + (v.world.tasks.filter isApiFwd).length

theorem service_weight (lib : PowLib) (p : Profile) (v : Service) (st : VStep) (hc : ∀ a, st ≠ .sys (.call a)) (ht : ∀ d, st ≠ .tick d)
    (hr : ∃ n ql now ss, (sysRun lib p (Sys.new n ql now) ss).1 = v.sys) :
    ((vStep lib p v st).1.sys = v.sys ∧ (vStep lib p v st).1.asked = v.asked ∧ onTheWay (vStep lib p v st).1 = onTheWay v) ∨
      serviceW (vStep lib p v st).1 < serviceW v := by
  obtain ⟨n, ql, now, ss, hss⟩ := hr
  have hsys : ∀ y, (∀ a, y ≠ .call a) → (∀ d, y ≠ .tick d) →
      (sysStep lib p v.sys y).1 = v.sys ∨ serviceW { v with sys := (sysStep lib p v.sys y).1 } < serviceW v := by
    intro y h1 h2
    have hlen := (quiet_step lib p v.sys y h1 h2).1
    rcases step_weight lib p v.sys y h1 (by rw [← hss]; exact (sinv_new lib p n ql now ss).timers) with ⟨⟨d, e⟩, -⟩ | e | e
    · exact absurd e (h2 d)
    · exact .inl e
    · right
      simp only [serviceW, hlen]
      omega
  simp only [onTheWay_eq]
  unfold vStep
  split
  · exact .inl ⟨rfl, rfl, rfl⟩
  cases st with
  | sys s =>
    simp only
    split
    · rename_i hd
      rcases hsys s (by rintro a rfl; exact hc a rfl) (by rintro d rfl; cases hd) with e | e
      · left; exact ⟨e, rfl, rfl⟩
      · exact .inr e
    · exact .inl ⟨rfl, rfl, rfl⟩
  | world s =>
    simp only
    cases ho : Service.others s with
    | none => exact .inl ⟨rfl, rfl, rfl⟩
    | some s' =>
      rcases world_fwd p v.world s s' ho with h | h
      · exact .inl ⟨rfl, rfl, h⟩
      · right
        simp only [serviceW]
        omega
  | ask i =>
    simp only
    split
    · rename_i c hci
      split
      · rename_i id _ _
        split
        · exact .inl ⟨rfl, rfl, rfl⟩
        · rename_i hn
          right
          have hlt := countP_notin_lt (List.range v.sys.calls.length) v.asked i (List.mem_range.2 (lt_of_some hci)) hn
          have hone : ((wstep p v.world (.req (2 * i) (.addVisitor id))).tasks.filter isApiFwd).length ≤
              (v.world.tasks.filter isApiFwd).length + 1 := by
            simp only [wstep]
            split
            · exact Nat.le_succ _
            · simp only [World.handle, World.handleAddVisitor]
              split
              · exact Nat.le_succ _
              · simp only [World.spawn, List.filter_append, List.length_append]
                have := List.length_filter_le isApiFwd [Task.forward (2 * i) ‹Addr›]
                simp only [List.length_singleton] at this
                omega
          simp only [serviceW]
          omega
      · exact .inl ⟨rfl, rfl, rfl⟩
    · exact .inl ⟨rfl, rfl, rfl⟩
  | hear i g =>
    simp only
    split
    · rename_i a ha
      rcases hsys (.master i a g) (by simp) (by simp) with e | e
      · left; exact ⟨e, rfl, rfl⟩
      · exact .inr e
    · exact .inl ⟨rfl, rfl, rfl⟩
  | tick d => exact absurd rfl (ht d)

theorem tick_serviceW (lib : PowLib) (p : Profile) (v : Service) (d : Nat)
    (hr : ∃ n ql now ss, (sysRun lib p (Sys.new n ql now) ss).1 = v.sys) : serviceW (vStep lib p v (.tick d)).1 ≤ serviceW v := by
  obtain ⟨n, ql, now, ss, hss⟩ := hr
  unfold vStep
  split
  · exact Nat.le_refl _
  · rename_i hab
    have e : sysW (sysStep lib p v.sys (.tick d)).1 ≤ sysW v.sys := by
      rcases step_weight lib p v.sys (.tick d) (by simp) (by rw [← hss]; exact (sinv_new lib p n ql now ss).timers) with ⟨-, e⟩ | e | e
      · omega
      · rw [e]; exact Nat.le_refl _
      · omega
    have hl : (sysStep lib p v.sys (.tick d)).1.calls = v.sys.calls := by
      unfold sysStep
      split <;> rfl
    simp only [serviceW, hl, wstep]
    omega

theorem vChanges_le (lib : PowLib) (p : Profile) (later : List VStep) (v : Service) (h : ∀ a, .sys (.call a) ∉ later)
    (hr : ∃ n ql gc now steps, (vRun lib p (Service.new n ql gc now) steps).1 = v) : vChanges lib p v later ≤ serviceW v := by
  induction later generalizing v with
  | nil => exact Nat.zero_le _
  | cons st r ih =>
    obtain ⟨n, ql, gc, now, steps, hv⟩ := hr
    have hr' : ∃ n ql now ss, (sysRun lib p (Sys.new n ql now) ss).1 = v.sys := by
      obtain ⟨⟨ss, hss⟩, -⟩ := vreached_run lib p n ql gc now steps
      exact ⟨n, ql, now, ss, by rw [hss, hv]⟩
    have hn := ih (vStep lib p v st).1 (fun a ha => h a (List.mem_cons_of_mem _ ha))
      ⟨n, ql, gc, now, steps ++ [st], by rw [vRun_append, hv]; rfl⟩
    unfold vChanges
    by_cases ht : ∃ d, st = .tick d
    · rw [if_pos (.inr ht)]
      obtain ⟨d, rfl⟩ := ht
      have := tick_serviceW lib p v d hr'
      omega
    · rcases service_weight lib p v st (fun a e => h a (by rw [e]; simp)) (fun d e => ht ⟨d, e⟩) hr' with e | e
      · rw [if_pos (.inl e)]
        have : serviceW (vStep lib p v st).1 = serviceW v := by
          obtain ⟨e1, e2, e3⟩ := e
          rw [onTheWay_eq, onTheWay_eq] at e3
          simp only [serviceW, e1, e2, e3]
        omega
      · split <;> omega

end MCap
