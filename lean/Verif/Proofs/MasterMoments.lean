import Verif.Proofs.ServiceTasks
import Verif.Proofs.MasterRace
import Verif.Proofs.MasterGc
import Verif.Proofs.MasterSeen
import Verif.Proofs.MasterRestore
import Verif.Spec.MasterMoments

/-!
# Backups, restores and collections in between other requests
-/

namespace MCap
open Spec

/-! ### how far a count can grow -/

/-- The counter counts at most `n`. -/
def CountAt (a : Addr) (n : Nat) (w : World) : Prop := ∃ c, w.counters[a]? = some c ∧ c.m.visitors ≤ n

/-- How many visitors a message adds. -/
def feeding : CounterMsg → Nat
  | .addVisitor => 1
  | .setInternalData m => m.visitors
  | _ => 0

theorem u32Succ_le (p : Profile) (n v : Nat) (h : u32Succ p n = .ret v) : v ≤ n + 1 := by
  unfold u32Succ at h
  split at h
  · injection h with h; omega
  · split at h
    · cases h
    · injection h with h; omega

theorem addVisitor_le (p : Profile) (m m' : MCaptcha) (h : m.addVisitor p = .ret m') : m'.visitors ≤ m.visitors + 1 := by
  unfold MCaptcha.addVisitor at h
  cases hu : u32Succ p m.visitors with
  | panic e => rw [hu] at h; cases h
  | ret v =>
    have hv := u32Succ_le p _ _ hu
    rw [hu] at h
    simp only [Exec.bind] at h
    cases hl : m.defense.currentLevel with
    | panic e => rw [hl] at h; cases h
    | ret l =>
      rw [hl] at h
      simp only at h
      split at h
      · cases ht : m.defense.tightenUp p with
        | panic e => rw [ht] at h; cases h
        | ret d => rw [ht] at h; injection h with h; rw [← h]; exact hv
      · injection h with h; rw [← h]; exact hv

theorem count_send (p : Profile) (w : World) (a b : Addr) (n : Nat) (msg : CounterMsg) (h : CountAt a n w) :
    CountAt a (n + if b = a then feeding msg else 0) (w.sendCounter p b msg).1 := by
  obtain ⟨c, hc, hz⟩ := h
  by_cases hb : b = a
  · subst hb
    rw [if_pos rfl]
    have hlt := (List.getElem?_eq_some_iff.1 hc).1
    cases msg with
    | getCurrentVisitorCount => rw [(sendCounter_read p w b).1]; exact ⟨c, hc, hz⟩
    | getInternalData => rw [(sendCounter_read p w b).2]; exact ⟨c, hc, hz⟩
    | addVisitor =>
      unfold World.sendCounter CountAt
      rw [hc]
      by_cases ha : c.alive = true
      · simp only [Counter.send, ha, if_true, feeding]
        unfold Counter.handleAddVisitor
        cases hm : c.m.addVisitor p with
        | panic e => simp only [Exec.bind, Exec.map]; rw [List.getElem?_set_self hlt]; exact ⟨_, rfl, by simp only; omega⟩
        | ret m' =>
          have := addVisitor_le p _ _ hm
          simp only [Exec.bind]
          cases hr : AddVisitorResult.new m' with
          | panic e => simp only [Exec.map]; rw [List.getElem?_set_self hlt]; exact ⟨_, rfl, by simp only; omega⟩
          | ret r => simp only [Exec.map]; rw [List.getElem?_set_self hlt]; exact ⟨_, rfl, by simp only; omega⟩
      · simp only [Counter.send, ha, if_false, Bool.false_eq_true]
        rw [List.getElem?_set_self hlt]
        exact ⟨_, rfl, by omega⟩
    | setInternalData m =>
      unfold World.sendCounter CountAt
      rw [hc]
      by_cases ha : c.alive = true
      · simp only [Counter.send, ha, if_true, feeding, Counter.handleSetInternalData]
        rw [List.getElem?_set_self hlt]
        exact ⟨_, rfl, by simp only; omega⟩
      · simp only [Counter.send, ha, if_false, Bool.false_eq_true]
        rw [List.getElem?_set_self hlt]
        exact ⟨_, rfl, by omega⟩
    | stop =>
      unfold World.sendCounter CountAt
      rw [hc]
      by_cases ha : c.alive = true
      · simp only [Counter.send, ha, if_true]
        rw [List.getElem?_set_self hlt]
        exact ⟨_, rfl, hz⟩
      · simp only [Counter.send, ha, if_false, Bool.false_eq_true]
        rw [List.getElem?_set_self hlt]
        exact ⟨_, rfl, hz⟩
  · rw [if_neg hb]
    exact ⟨c, by rw [(sendCounter_master p w b msg).2.2.2.2.2.2 a (fun e => hb e.symm)]; exact hc, hz⟩

theorem count_append (a : Addr) (n : Nat) (w w' : World) (h : CountAt a n w) (cs : List Counter)
    (he : w'.counters = w.counters ++ cs) : CountAt a n w' := by
  obtain ⟨c, hc, hz⟩ := h
  refine ⟨c, ?_, hz⟩
  rw [he, List.getElem?_append_left (List.getElem?_eq_some_iff.1 hc).1]; exact hc

theorem CountAt.mono {a : Addr} {n k : Nat} {w : World} (h : CountAt a n w) (hk : n ≤ k) : CountAt a k w := by
  obtain ⟨c, hc, hz⟩ := h
  exact ⟨c, hc, Nat.le_trans hz hk⟩

theorem count_wstep (p : Profile) (w : World) (s : WStep) (a : Addr) (n : Nat) (h : CountAt a n w) :
    CountAt a (n + fedBy w a s) (wstep p w s) := by
  cases s with
  | req tag msg =>
    simp only [wstep]
    split
    · exact h
    · obtain ⟨cs, hcs⟩ := handle_counters w tag msg
      exact count_append a n w _ h cs hcs
  | run i =>
    simp only [wstep, World.runAt]
    cases ht : w.tasks[i]? with
    | none => exact h.mono (Nat.le_add_right _ _)
    | some t =>
      simp only [fedBy, ht]
      have key : CountAt a (n + taskFeeds a t) (({ w with tasks := w.tasks.eraseIdx i } : World).runTask p t).1 := by
        rcases runTask_counters p { w with tasks := w.tasks.eraseIdx i } t with ⟨b, msg, h1, h2⟩ | ⟨h1, cs, h2⟩
        · have hz := count_send p { w with tasks := w.tasks.eraseIdx i } a b n msg h
          have hw : (if b = a then feeding msg else 0) ≤ taskFeeds a t := by
            cases t with
            | gcWait due => cases h1
            | gcPoll rest =>
              cases rest with
              | nil => cases h1
              | cons e rest => obtain ⟨i, r, x⟩ := e; simp only [Task.talk] at h1; cases h1; simp [feeding, taskFeeds]
            | gcStop i x rest => simp only [Task.talk] at h1; cases h1; simp [feeding, taskFeeds]
            | gcRemove i rest => cases h1
            | forward tag x => simp only [Task.talk] at h1; cases h1; simp [feeding, taskFeeds]
            | stop tag x => simp only [Task.talk] at h1; cases h1; simp [feeding, taskFeeds]
            | collect tag rest acc =>
              cases rest with
              | nil => cases h1
              | cons e rest => obtain ⟨i, r, x⟩ := e; simp only [Task.talk] at h1; cases h1; simp [feeding, taskFeeds]
            | restoreNew i m => cases h1
            | restoreOld x m => simp only [Task.talk] at h1; cases h1; simp [feeding, taskFeeds]
          obtain ⟨c, hc, hz'⟩ := hz
          exact ⟨c, by rw [h2]; exact hc, Nat.le_trans hz' (Nat.add_le_add_left hw n)⟩
        · exact (count_append a n _ _ h cs h2).mono (Nat.le_add_right _ _)
      split
      · rename_i w' hq; rw [hq] at key; exact key
      · rename_i w' t' hq; rw [hq] at key; exact key
  | direct tag b msg =>
    have := count_send p w a b n msg h
    cases msg <;> simpa [fedBy, feeding, wstep, CountAt, World.answer] using this
  | tick d => exact h
  | fire b i =>
    obtain ⟨c, hc, hz⟩ := h
    simp only [wstep, fedBy]
    cases hb : w.counters[b]? with
    | none => exact ⟨c, hc, hz⟩
    | some cb =>
      unfold CountAt
      simp only [List.getElem?_set]
      by_cases e : b = a
      · subst e
        rw [hc] at hb; cases hb
        rw [if_pos rfl, if_pos (List.getElem?_eq_some_iff.1 hc).1]
        refine ⟨_, rfl, ?_⟩
        rcases fire_cases w.now c i with hf | ⟨t, _, _, _, hf⟩
        · rw [hf]; exact hz
        · rw [hf]; simp only [decrement_eq]; omega
      · rw [if_neg e]; exact ⟨c, hc, hz⟩

theorem count_wrun (p : Profile) (steps : List WStep) (w : World) (a : Addr) (n : Nat) (h : CountAt a n w) :
    CountAt a (n + fedIn p a w steps) (wrun p w steps) := by
  induction steps generalizing w n with
  | nil => exact h
  | cons s r ih =>
    have := ih _ _ (count_wstep p w s a n h)
    simpa [fedIn, wrun, Nat.add_assoc] using this

/-! ### tasks wait until they are run -/

theorem task_mem_eraseIdx_of_ne {ts : List Task} {i : Nat} {t u : Task} (hi : ts[i]? = some u) (hne : t ≠ u) (ht : t ∈ ts) :
    t ∈ ts.eraseIdx i := by
  induction ts generalizing i with
  | nil => cases ht
  | cons x r ih =>
    cases i with
    | zero =>
      simp at hi; subst hi
      rcases List.mem_cons.1 ht with h | h
      · exact absurd h hne
      · exact h
    | succ i =>
      simp only [List.getElem?_cons_succ] at hi
      rcases List.mem_cons.1 ht with h | h
      · subst h; exact List.mem_cons_self
      · exact List.mem_cons_of_mem _ (ih hi h)

theorem task_stays (p : Profile) (w : World) (s : WStep) (t : Task) (ht : t ∈ w.tasks) :
    t ∈ (wstep p w s).tasks ∨ (wstep p w s).crashed = true ∨ ∃ i, s = .run i ∧ w.tasks[i]? = some t := by
  cases s with
  | tick d => exact .inl ht
  | fire a i =>
    refine .inl ?_
    simp only [wstep]
    split <;> exact ht
  | direct tag a msg =>
    refine .inl ?_
    simp only [wstep, World.answer, (sendCounter_master p w a msg).2.1]
    exact ht
  | req tag msg =>
    refine .inl ?_
    simp only [wstep]
    split
    · exact ht
    · obtain ⟨extra, ans, h1, -⟩ := handle_eff w tag msg
      rw [h1]; exact List.mem_append_left _ ht
  | run i =>
    cases hi : w.tasks[i]? with
    | none => exact .inl (by simp only [wstep, World.runAt, hi]; exact ht)
    | some u =>
      by_cases hne : t = u
      · subst hne; exact .inr (.inr ⟨i, rfl, hi⟩)
      · have hm := task_mem_eraseIdx_of_ne hi hne ht
        obtain ⟨cr, extra, ans, h⟩ := runTask_eff p { w with tasks := w.tasks.eraseIdx i } u
        simp only [wstep, World.runAt, hi]
        have h1 := h.tasks
        have h2 := h.crashed
        generalize ({ w with tasks := w.tasks.eraseIdx i } : World).runTask p u = q at h1 h2
        obtain ⟨w', o⟩ := q
        cases cr with
        | true => right; left; cases o <;> simpa using h2
        | false =>
          left
          simp only [if_false, Bool.false_eq_true] at h1
          cases o with
          | none => simp only; rw [h1]; exact List.mem_append_left _ hm
          | some t' => simp only; rw [h1]; exact List.mem_cons_of_mem _ (List.mem_append_left _ hm)

theorem reachable_step {p : Profile} {w : World} (h : Reachable p w) (s : WStep) : Reachable p (wstep p w s) := by
  obtain ⟨now, gc, steps, rfl⟩ := h
  refine ⟨now, gc, steps ++ [s], ?_⟩
  have : ∀ (steps : List WStep) (w : World), wstep p (wrun p w steps) s = wrun p w (steps ++ [s]) := by
    intro steps
    induction steps with
    | nil => intro w; rfl
    | cons x r ih => intro w; exact ih _
  exact this _ _

theorem task_stays_run (p : Profile) (steps : List WStep) (w : World) (hw : Reachable p w) (t : Task) (ht : t ∈ w.tasks) :
    t ∈ (wrun p w steps).tasks ∨ (wrun p w steps).crashed = true ∨
      ∃ x i y, steps = x ++ .run i :: y ∧ (wrun p w x).tasks[i]? = some t := by
  induction steps generalizing w with
  | nil => exact .inl ht
  | cons s r ih =>
    have hr := reachable_step hw s
    rcases task_stays p w s t ht with h | h | ⟨i, rfl, h⟩
    · rcases ih _ hr h with h | h | ⟨x, i, y, rfl, h⟩
      · exact .inl h
      · exact .inr (.inl h)
      · exact .inr (.inr ⟨s :: x, i, y, rfl, h⟩)
    · exact .inr (.inl (crashed_wrun p r _ h (tasks_of_crashed p _ hr h)).1)
    · exact .inr (.inr ⟨[], i, r, rfl, h⟩)

theorem restoreLoop_mem (w : World) (data : List (SiteId × MCaptcha)) (id : SiteId) (m : MCaptcha) (h : (id, m) ∈ data) :
    (match lookup w id with
      | none => Task.restoreNew id m
      | some a => Task.restoreOld a m) ∈ (w.restoreLoop data).tasks := by
  have grow : ∀ (data : List (SiteId × MCaptcha)) (w : World) (t : Task), t ∈ w.tasks → t ∈ (w.restoreLoop data).tasks := by
    intro data w t ht
    obtain ⟨ts, h1, -⟩ := restoreLoop_shape w data
    rw [h1]; exact List.mem_append_left _ ht
  induction data generalizing w with
  | nil => cases h
  | cons e r ih =>
    obtain ⟨name, mm⟩ := e
    have hl := lookup_getSite w name
    rcases List.mem_cons.1 h with h | h
    · cases h
      simp only [World.restoreLoop]
      have ha := getSite_addr w.master id
      split
      · rename_i s hs
        rw [hs] at ha
        have : lookup w id = none := by simp only [lookup]; exact ha.symm
        rw [this]
        exact grow _ _ _ (by simp [World.spawn])
      · rename_i s b hs
        rw [hs] at ha
        have : lookup w id = some b := by simp only [lookup]; exact ha.symm
        rw [this]
        exact grow _ _ _ (by simp [World.spawn])
    · simp only [World.restoreLoop]
      split
      · rename_i s hs
        rw [hs] at hl
        have := ih (({ w with master := s } : World).spawn (.restoreNew name mm)) h
        rwa [show lookup (({ w with master := s } : World).spawn (.restoreNew name mm)) = lookup w from hl] at this
      · rename_i s b hs
        rw [hs] at hl
        have := ih (({ w with master := s } : World).spawn (.restoreOld b mm)) h
        rwa [show lookup (({ w with master := s } : World).spawn (.restoreOld b mm)) = lookup w from hl] at this

theorem counters_len_wrun (p : Profile) (steps : List WStep) (w : World) :
    w.counters.length ≤ (wrun p w steps).counters.length := by
  have mono : ∀ s t : RegState, RegStep s t → s.2 ≤ t.2 := by
    intro s t h
    induction h with
    | same => exact Nat.le_refl _
    | mark => exact Nat.le_refl _
    | add => exact Nat.le_succ _
    | del => exact Nat.le_refl _
    | mv => exact Nat.le_refl _
    | trans _ _ h1 h2 => exact Nat.le_trans h1 h2
  induction steps generalizing w with
  | nil => exact Nat.le_refl _
  | cons s r ih => exact Nat.le_trans (mono _ _ (reg_wstep p w s)) (ih _)

theorem puts_restoreNew (p : Profile) (v : World) (i : Nat) (id : SiteId) (m : MCaptcha) (h : v.tasks[i]? = some (.restoreNew id m)) :
    PutsInPlace p none id m v i := by
  simp only [PutsInPlace, wstep, World.runAt, h, World.runTask]
  have hl := lookup_addSite ({ v with tasks := v.tasks.eraseIdx i } : World) id m
  simp only [siteCounter, hl, Reg.put, if_true, Option.bind_some]
  simp [World.handleAddSite]

theorem puts_restoreOld (p : Profile) (v : World) (i : Nat) (id : SiteId) (a : Addr) (m : MCaptcha)
    (h : v.tasks[i]? = some (.restoreOld a m)) (ha : a < v.counters.length) : PutsInPlace p (some a) id m v i := by
  have hc : v.counters[a]? = some v.counters[a] := List.getElem?_eq_getElem ha
  refine ⟨v.counters[a], hc, ?_⟩
  have := sendCounter_restore p ({ v with tasks := v.tasks.eraseIdx i } : World) a m v.counters[a] hc
  simp only [wstep, World.runAt, h, World.runTask]
  rw [this]
  simp only [restored, Counter.handleSetInternalData]
  rw [List.getElem?_set_self ha]

end MCap
