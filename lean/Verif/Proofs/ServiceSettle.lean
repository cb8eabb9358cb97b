import Verif.Proofs.ServiceLife

/-!
# A service comes to rest
-/

namespace MCap
open Spec

theorem await_back {lib : PowLib} {p : Profile} {s s' : Sys} {ev : List SEvent} (m : Move lib p s s' ev) (i : Nat) (c' : Call)
    (hc' : s'.calls[i]? = some c') (hpc : c'.pc = .awaitMaster) (hlt : i < s.calls.length) :
    ∃ c, s.calls[i]? = some c ∧ c.pc = .awaitMaster := by
  have hset : ∀ (j : Nat) (c d : Call), s.calls[j]? = some c → (d.pc = .awaitMaster → c.pc = .awaitMaster) →
      (s.calls.set j d)[i]? = some c' → ∃ c, s.calls[i]? = some c ∧ c.pc = .awaitMaster := by
    intro j c d hj hd h
    rw [List.getElem?_set] at h
    split at h
    · rename_i e
      subst e
      simp only [lt_of_some hj, if_true, Option.some.injEq] at h
      subst h
      exact ⟨c, hj, hd hpc⟩
    · exact ⟨c', h, hpc⟩
  have hmap : ∀ q ev, (s.calls.mapIdx (Call.settle q ev))[i]? = some c' → ∃ c, s.calls[i]? = some c ∧ c.pc = .awaitMaster := by
    intro q ev h
    simp only [List.getElem?_mapIdx, Option.map_eq_some_iff] at h
    obtain ⟨c0, hc0, rfl⟩ := h
    refine ⟨c0, hc0, ?_⟩
    rcases settle_pc q ev i c0 with e | ⟨cfg, e, ⟨e', -⟩ | ⟨e', -⟩ | ⟨e', -⟩⟩
    · rw [← e]; exact hpc
    all_goals rw [hpc] at e'; cases e'
  cases m with
  | idle => exact ⟨c', hc', hpc⟩
  | «local» j c d _ hj m =>
    refine hset j c d hj ?_ hc'
    intro hd
    cases m with
    | pollNone cfg job ch h2 hj hr hl => exact hd
    | work job ch hj hf => exact hd
    | cancel hl hd' => exact hd
    | masterErr id a r h1 h2 hl h3 => exact h2
    | masterOk id r g h1 h2 hl => exact h2
    | _ => cases hd
  | start a hq =>
    simp only at hc'
    rw [List.getElem?_append_left hlt] at hc'
    exact ⟨c', hc', hpc⟩
  | cache j c m k hj h2 => exact hset j c _ hj (by simp) hc'
  | submit j c work ip cfg hj h1 h2 hk hl hlis hcl => exact hset j c _ hj (by simp) hc'
  | panic j c cfg work ip hj h1 h2 hl hlis hcl => exact hset j c c.over hj (by simp [Call.over]) hc'
  | queue qs hm => exact hmap _ _ hc'
  | shutdown hs => exact hmap _ _ hc'
  | expire k => exact ⟨c', hc', hpc⟩
  | tick d => exact ⟨c', hc', hpc⟩

/-- Every call that waits for the master has its request handled. -/
def AllAsked (v : Service) : Prop := ∀ (i : Nat) (c : Call), v.sys.calls[i]? = some c → c.pc = .awaitMaster → i ∈ v.asked

def NoFwd (v : Service) : Prop := ∀ tag a, .forward tag a ∉ v.world.tasks

theorem ask_all (lib : PowLib) (p : Profile) (L : List Nat) (v : Service) (hna : v.sys.queue.status ≠ .aborted)
    (hget : ∀ (i : Nat) (c : Call), v.sys.calls[i]? = some c → c.pc = .awaitMaster → ∃ id, c.api = .get id) :
    (vRun lib p v (L.map .ask)).1.sys = v.sys ∧ (∀ i ∈ v.asked, i ∈ (vRun lib p v (L.map .ask)).1.asked) ∧
      ∀ i ∈ L, ∀ c, v.sys.calls[i]? = some c → c.pc = .awaitMaster → i ∈ (vRun lib p v (L.map .ask)).1.asked := by
  induction L generalizing v with
  | nil => exact ⟨rfl, fun _ h => h, by simp⟩
  | cons j L ih =>
    have h1 : (vStep lib p v (.ask j)).1.sys = v.sys ∧ (∀ i ∈ v.asked, i ∈ (vStep lib p v (.ask j)).1.asked) ∧
        ∀ c, v.sys.calls[j]? = some c → c.pc = .awaitMaster → j ∈ (vStep lib p v (.ask j)).1.asked := by
      unfold vStep
      rw [if_neg hna]
      cases hc : v.sys.calls[j]? with
      | none => simp only [hc]; exact ⟨trivial, fun _ h => h, by simp⟩
      | some c =>
        simp only [hc]
        by_cases hp : c.pc = .awaitMaster
        · obtain ⟨id, hid⟩ := hget j c hc hp
          simp only [hid, hp]
          split
          · rename_i hin; exact ⟨rfl, fun _ h => h, fun _ _ _ => hin⟩
          · exact ⟨rfl, fun _ h => List.mem_cons_of_mem _ h, fun _ _ _ => List.mem_cons_self⟩
        · split
          · rename_i h; exact absurd h hp
          · exact ⟨rfl, fun _ h => h, fun d hd hdp => by cases hd; exact absurd hdp hp⟩
    obtain ⟨e1, e2, e3⟩ := h1
    obtain ⟨g1, g2, g3⟩ := ih (vStep lib p v (.ask j)).1 (by rw [e1]; exact hna) (by rw [e1]; exact hget)
    rw [e1] at g1 g3
    simp only [List.map_cons, vRun]
    refine ⟨g1, fun i h => g2 i (e2 i h), ?_⟩
    intro i hi c hc hp
    rcases List.mem_cons.1 hi with rfl | hi
    · exact g2 _ (e3 c hc hp)
    · exact g3 i hi c hc hp

def isForward : Task → Bool
  | .forward _ _ => true
  | _ => false

theorem not_forward_of_quiet {t : Task} (h : ∀ T, isFwd T t = false) : isForward t = false := by
  cases t with
  | forward T a => have := h T; simp [isFwd] at this
  | _ => rfl

theorem countP_eraseIdx_add {α : Type} (q : α → Bool) (l : List α) (k : Nat) (x : α) (h : l[k]? = some x) :
    (l.eraseIdx k).countP q + (if q x then 1 else 0) = l.countP q := by
  induction l generalizing k with
  | nil => simp at h
  | cons a r ih =>
    cases k with
    | zero =>
      simp only [List.getElem?_cons_zero, Option.some.injEq] at h
      subst h
      simp [List.countP_cons]
    | succ k =>
      simp only [List.getElem?_cons_succ] at h
      have := ih k h
      simp only [List.eraseIdx_cons_succ, List.countP_cons]
      omega

theorem drain_forwards (lib : PowLib) (p : Profile) (k : Nat) (v : Service) (hna : v.sys.queue.status ≠ .aborted)
    (hk : v.world.tasks.countP isForward ≤ k) :
    ∃ later, (∀ st ∈ later, vGoesOn st = true) ∧ NoFwd (vRun lib p v later).1 ∧ (vRun lib p v later).1.sys = v.sys ∧
      (vRun lib p v later).1.asked = v.asked := by
  induction k generalizing v with
  | zero =>
    refine ⟨[], by simp, ?_, rfl, rfl⟩
    intro tag a h
    have := List.countP_eq_zero.1 (Nat.le_zero.1 hk) _ h
    simp [isForward] at this
  | succ k ih =>
    by_cases h : NoFwd v
    · exact ⟨[], by simp, h, rfl, rfl⟩
    · have : ∃ T a, .forward T a ∈ v.world.tasks := by
        apply Classical.byContradiction
        intro hn
        exact h fun T a hm => hn ⟨T, a, hm⟩
      obtain ⟨T, a, hm⟩ := this
      obtain ⟨j, hj⟩ := List.getElem?_of_mem hm
      have hst : vStep lib p v (.world (.run j)) = ({ v with world := wstep p v.world (.run j) }, Service.worldEvents p v.world (.run j)) := by
        unfold vStep
        rw [if_neg hna]
        rfl
      have hless : (wstep p v.world (.run j)).tasks.countP isForward ≤ k := by
        have hcnt := countP_eraseIdx_add isForward v.world.tasks j _ hj
        rw [show isForward (Task.forward T a) = true from rfl, if_pos rfl] at hcnt
        obtain ⟨cr, extra, ans, e⟩ := runTask_eff p { v.world with tasks := v.world.tasks.eraseIdx j } (.forward T a)
        have hcr := (e.fwd T a rfl).2
        have ht := e.tasks
        have hq := e.quiet
        have hx : ∀ l : List Task, (∀ t ∈ l, ∀ T, isFwd T t = false) → l.countP isForward = 0 := by
          intro l hl
          rw [List.countP_eq_zero]
          intro t ht
          rw [not_forward_of_quiet (hl t ht)]
          simp
        rw [hcr] at ht
        simp only [Bool.false_eq_true, if_false] at ht
        simp only [wstep, World.runAt, hj]
        split
        · rename_i w' hh
          rw [hh] at ht hq
          simp only at ht
          rw [ht, List.countP_append, hx extra fun t h => (hq t (List.mem_append_left _ h)).1]
          omega
        · rename_i w' t' hh
          rw [hh] at ht hq
          simp only at ht ⊢
          rw [ht, List.countP_cons, List.countP_append, hx extra fun t h => (hq t (List.mem_append_left _ h)).1,
            not_forward_of_quiet (hq t' (List.mem_append_right _ (by simp))).1]
          simp
          omega
      obtain ⟨later, l1, l2, l3, l4⟩ := ih (vStep lib p v (.world (.run j))).1 (by rw [hst]; exact hna) (by rw [hst]; exact hless)
      refine ⟨.world (.run j) :: later, ?_, l2, ?_, ?_⟩
      · intro st h
        rcases List.mem_cons.1 h with rfl | h
        · rfl
        · exact l1 st h
      · simp only [vRun]; rw [l3, hst]
      · simp only [vRun]; rw [l4, hst]

theorem settle_rest (lib : PowLib) (p : Profile) (k : Nat) (v : Service) (hw : sysW v.sys ≤ k) (ha : AllAsked v) (hf : NoFwd v)
    (hreach : ∃ n ql now ss, (sysRun lib p (Sys.new n ql now) ss).1 = v.sys) :
    ∃ later, (∀ st ∈ later, vGoesOn st = true) ∧
      (Settled lib p (vRun lib p v later).1 ∨ (vRun lib p v later).1.sys.queue.status = .aborted) := by
  induction k generalizing v with
  | zero | succ k ih =>
    all_goals
    by_cases hab : v.sys.queue.status = .aborted
    · exact ⟨[], by simp, .inr hab⟩
    obtain ⟨n, ql, now, ss, hss⟩ := hreach
    have hask : ∀ i, (vStep lib p v (.ask i)).1 = v := by
      intro i
      unfold vStep
      rw [if_neg hab]
      simp only
      split
      · rename_i c hc
        split
        · rename_i id _ hp
          rw [if_pos (ha i c hc hp)]
        · rfl
      · rfl
    by_cases hst : Settled lib p v
    · exact ⟨[], by simp, .inl hst⟩
    · -- some step changes the system
      have hex : ∃ x y, vGoesOn x = true ∧ (∀ a, y ≠ .call a) ∧ (∀ d, y ≠ .tick d) ∧ (sysStep lib p v.sys y).1 ≠ v.sys ∧
          (vStep lib p v x).1 = { v with sys := (sysStep lib p v.sys y).1 } := by
        by_cases hq : Quiescent lib p v.sys
        · have hh : ¬ ∀ i g, (vStep lib p v (.hear i g)).1 = v := fun hh => hst ⟨hq, hask, hh, hf⟩
          obtain ⟨i, hi⟩ := Classical.not_forall.1 hh
          obtain ⟨g, hg⟩ := Classical.not_forall.1 hi
          unfold vStep at hg
          rw [if_neg hab] at hg
          simp only at hg
          cases hans : v.heard i with
          | none => rw [hans] at hg; exact absurd rfl hg
          | some a =>
            rw [hans] at hg
            refine ⟨.hear i g, .master i a g, rfl, by simp, by simp, ?_, ?_⟩
            · intro e; apply hg; simp only; rw [e]
            · unfold vStep; rw [if_neg hab]; simp only [hans]
        · obtain ⟨st, h1⟩ := Classical.not_forall.1 hq
          obtain ⟨h1, h2⟩ := Classical.not_imp.1 h1
          refine ⟨.sys st, st, h1, by rintro a rfl; simp [goesOn] at h1, by rintro a rfl; simp [goesOn] at h1, h2, ?_⟩
          unfold vStep
          rw [if_neg hab]
          have : Service.direct st = true := by cases st <;> first | rfl | simp [goesOn] at h1
          simp only [this, if_true]
      obtain ⟨x, y, hx, hy1, hy2, hne, he⟩ := hex
      have hlen := quiet_step lib p v.sys y hy1 hy2
      have hwt := step_weight lib p v.sys y hy1 (by rw [← hss]; exact (sinv_new lib p n ql now ss).timers)
      have hlt : sysW (sysStep lib p v.sys y).1 < sysW v.sys := by
        rcases hwt with ⟨⟨d, e⟩, -⟩ | e | e
        · exact absurd e (hy2 d)
        · exact absurd e hne
        · exact e
      first
      | omega
      | have hlen' : (sysStep lib p v.sys y).1.calls.length = v.sys.calls.length := hlen.1
        obtain ⟨later, l1, l2⟩ := ih (vStep lib p v x).1 (by rw [he]; show sysW (sysStep lib p v.sys y).1 ≤ k; omega)
          (by
            rw [he]
            intro i c hc hp
            obtain ⟨d, hd, hdp⟩ := await_back (sysStep_move lib p v.sys y) i c hc hp (by rw [← hlen']; exact lt_of_some hc)
            exact ha i d hd hdp)
          (by rw [he]; exact hf)
          ⟨n, ql, now, ss ++ [y], by rw [he, sysRun_append]; simp only [sysRun]; rw [hss]⟩
        refine ⟨x :: later, ?_, l2⟩
        intro st h
        rcases List.mem_cons.1 h with rfl | h
        · exact hx
        · exact l1 st h

theorem settle_run (lib : PowLib) (p : Profile) (n ql gc now : Nat) (steps : List VStep) :
    ∃ later, (∀ st ∈ later, vGoesOn st = true) ∧
      (Settled lib p (vRun lib p (Service.new n ql gc now) (steps ++ later)).1 ∨
        (vRun lib p (Service.new n ql gc now) (steps ++ later)).1.sys.queue.status = .aborted) := by
  obtain ⟨⟨ss, hss⟩, -⟩ := vreached_run lib p n ql gc now steps
  generalize hv : (vRun lib p (Service.new n ql gc now) steps).1 = v at *
  have happ : ∀ l, (vRun lib p (Service.new n ql gc now) (steps ++ l)).1 = (vRun lib p v l).1 := by
    intro l; rw [vRun_append, hv]
  by_cases hab : v.sys.queue.status = .aborted
  · exact ⟨[], by simp, .inr (by rw [happ]; exact hab)⟩
  have hsys : (sysRun lib p (Sys.new n ql now) ss).1 = v.sys := by rw [hss]
  have hget : ∀ (i : Nat) (c : Call), v.sys.calls[i]? = some c → c.pc = .awaitMaster → ∃ id, c.api = .get id := by
    intro i c hc hp
    have := ((sinv_new lib p n ql now ss).calls i c (by rw [hsys]; exact hc)).2
    rw [hp] at this
    exact this
  obtain ⟨a1, -, a3⟩ := ask_all lib p (List.range v.sys.calls.length) v hab hget
  obtain ⟨l1, b1, b2, b3, b4⟩ := drain_forwards lib p _ (vRun lib p v ((List.range v.sys.calls.length).map .ask)).1 (by rw [a1]; exact hab) (Nat.le_refl _)
  obtain ⟨l2, c1, c2⟩ := settle_rest lib p _ (vRun lib p (vRun lib p v ((List.range v.sys.calls.length).map .ask)).1 l1).1 (Nat.le_refl _)
    (by
      intro i c hc hp
      rw [b3, a1] at hc
      rw [b4]
      exact a3 i (List.mem_range.2 (lt_of_some hc)) c hc hp)
    b2 ⟨n, ql, now, ss, by rw [b3, a1]; exact hsys⟩
  refine ⟨(List.range v.sys.calls.length).map .ask ++ (l1 ++ l2), ?_, ?_⟩
  · intro st h
    rcases List.mem_append.1 h with h | h
    · obtain ⟨i, -, rfl⟩ := List.mem_map.1 h
      rfl
    · rcases List.mem_append.1 h with h | h
      · exact b1 st h
      · exact c1 st h
  · rw [happ, vRun_append, vRun_append]
    exact c2

end MCap
