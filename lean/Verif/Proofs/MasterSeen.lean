import Verif.Proofs.MasterIso
import Verif.Proofs.MasterGc

namespace MCap
open Spec

/-! ### which sites were looked up -/

/-- The marks stored in a registry. -/
def Master.marks (s : Master) : Marks := fun id => (s.sites.get id).map (·.1)

theorem marks_getSite (s : Master) (id : SiteId) : (s.getSite id).1.marks = s.marks.look id := by
  funext k
  unfold Master.getSite
  cases h : s.sites.get id with
  | none =>
    simp only [Master.marks, Marks.look]
    split
    · rename_i e; subst e; rw [h]; rfl
    · rfl
  | some e =>
    obtain ⟨r, a⟩ := e
    simp only [Master.marks, Marks.look, AMap.get_insert]
    by_cases e : k = id
    · subst e; rw [if_pos rfl, if_pos rfl, h]; rfl
    · rw [if_neg e, if_neg (fun h => e h.symm)]

theorem marks_addSite (s : Master) (a : Addr) (id : SiteId) : (s.addSite a id).marks = s.marks.fresh id := by
  funext k
  simp only [Master.marks, Master.addSite, Marks.fresh, AMap.get_insert]
  by_cases e : k = id
  · subst e; rw [if_pos rfl, if_pos rfl]; rfl
  · rw [if_neg e, if_neg (fun h => e h.symm)]

theorem marks_erase (s : Master) (id : SiteId) : ({ s with sites := s.sites.erase id } : Master).marks = s.marks.drop id := by
  funext k
  simp only [Master.marks, Marks.drop, AMap.get_erase]
  by_cases e : k = id
  · subst e; rw [if_pos rfl, if_pos rfl]; rfl
  · rw [if_neg e, if_neg (fun h => e h.symm)]

theorem marks_rename (s : Master) (a b : SiteId) :
    (s.rename a b).marks = if (s.marks a).isSome then (s.marks.drop a).fresh b else s.marks := by
  unfold Master.rename
  cases h : s.sites.get a with
  | none =>
    have : (s.marks a).isSome = false := by simp [Master.marks, h]
    rw [if_neg (by simp [this])]
    simp only [erase_of_get_none _ _ h]
  | some e =>
    obtain ⟨r, x⟩ := e
    have : (s.marks a).isSome = true := by simp [Master.marks, h]
    rw [if_pos this, ← marks_erase, ← marks_addSite]

theorem marks_restoreLoop (w : World) (data : List (SiteId × MCaptcha)) :
    (w.restoreLoop data).master.marks = data.foldl (fun f e => f.look e.1) w.master.marks := by
  induction data generalizing w with
  | nil => rfl
  | cons e r ih =>
    obtain ⟨name, m⟩ := e
    have h := marks_getSite w.master name
    simp only [World.restoreLoop, List.foldl_cons]
    rw [← h]
    split <;> rename_i hq <;> rw [ih, hq] <;> rfl

theorem marks_removeCaptcha (w : World) (tag : Option Nat) (id : SiteId) :
    (w.handleRemoveCaptcha tag id).master.marks = w.master.marks.drop id := by
  rw [← marks_erase]
  unfold World.handleRemoveCaptcha Master.rmSite
  split
  · rename_i hq; injection hq with h1 h2; subst h1; rfl
  · rename_i hq; injection hq with h1 h2; subst h1; split <;> rfl

theorem marks_handle (w : World) (tag : Nat) (msg : MasterMsg) (r : List MasterMsg) :
    marksAfter w.master.marks (msg :: r) = marksAfter (w.handle tag msg).master.marks r := by
  cases msg with
  | cleanUp => rfl
  | getInternalData => rfl
  | setInternalData data => simp only [marksAfter]; rw [← marks_restoreLoop]; rfl
  | getSite id => simp only [marksAfter]; rw [← marks_getSite]; rfl
  | addVisitor id =>
    simp only [marksAfter, World.handle, World.handleAddVisitor]
    rw [← marks_getSite]
    split <;> rfl
  | addSite id m => simp only [marksAfter]; rw [← marks_addSite w.master w.counters.length]; rfl
  | removeCaptcha id => simp only [marksAfter]; rw [← marks_removeCaptcha w (some tag)]; rfl
  | rename a b => simp only [marksAfter]; rw [← marks_rename]; rfl

theorem marks_runTask (p : Profile) (w : World) (t : Task) (r : List MasterMsg) :
    marksAfter w.master.marks
      ((match t with
        | .gcRemove id _ => [.removeCaptcha id]
        | .restoreNew id m => [.addSite id m]
        | .gcWait due => if due ≤ w.now then [.cleanUp] else []
        | _ => []) ++ r) = marksAfter (w.runTask p t).1.master.marks r := by
  have send : ∀ a msg (w' : World), w'.master = (w.sendCounter p a msg).1.master →
      marksAfter w.master.marks r = marksAfter w'.master.marks r := by
    intro a msg w' h1
    rw [h1, (sendCounter_master p w a msg).1]
  cases t with
  | gcWait due =>
    simp only [World.runTask]
    split <;> rfl
  | gcPoll rest =>
    cases rest with
    | nil => rfl
    | cons e rest =>
      obtain ⟨i, f, a⟩ := e
      simp only [List.nil_append, World.runTask]
      split
      · rename_i w' n h
        split <;> exact send a .getCurrentVisitorCount _ (by rw [h])
      · rename_i w' _ _ h
        exact send a .getCurrentVisitorCount _ (by rw [h]; rfl)
  | gcStop id a rest =>
    simp only [List.nil_append, World.runTask]
    split
    · rename_i w' h
      exact send a .stop _ (by rw [h])
    · rename_i w' _ _ h
      exact send a .stop _ (by rw [h]; rfl)
  | gcRemove id rest =>
    simp only [List.cons_append, List.nil_append, marksAfter, World.runTask]
    rw [← marks_removeCaptcha w none]
  | forward tag a =>
    simp only [List.nil_append, World.runTask]
    split
    · rename_i w' _ h
      exact send a .addVisitor _ (by rw [h]; rfl)
    · rename_i w' _ _ h
      exact send a .addVisitor _ (by rw [h]; rfl)
  | stop tag a =>
    simp only [List.nil_append, World.runTask]
    split
    · rename_i h; exact send a .stop _ (by rw [h]; rfl)
    · rename_i h; exact send a .stop _ (by rw [h]; rfl)
    · rename_i h; exact send a .stop _ (by rw [h])
  | collect tag rest acc =>
    cases rest with
    | nil => rfl
    | cons e rest =>
      obtain ⟨i, f, a⟩ := e
      simp only [List.nil_append, World.runTask]
      split
      · rename_i h; exact send a .getInternalData _ (by rw [h])
      · rename_i h; exact send a .getInternalData _ (by rw [h])
  | restoreNew id m =>
    simp only [List.cons_append, List.nil_append, marksAfter, World.runTask]
    rw [← marks_addSite w.master w.counters.length]; rfl
  | restoreOld a m =>
    exact send a (.setInternalData m) _ rfl

theorem marks_wstep (p : Profile) (w : World) (s : WStep) (r : List MasterMsg) :
    marksAfter w.master.marks (handled w s ++ r) = marksAfter (wstep p w s).master.marks r := by
  cases s with
  | tick d => rfl
  | direct tag a msg =>
    simp only [handled, List.nil_append, wstep]
    rw [← (sendCounter_master p w a msg).1]; rfl
  | fire a i =>
    simp only [handled, List.nil_append, wstep]
    split <;> rfl
  | req tag msg =>
    simp only [handled, wstep]
    split
    · rfl
    · exact marks_handle w tag msg r
  | run i =>
    simp only [handled, wstep, World.runAt]
    cases ht : w.tasks[i]? with
    | none => rfl
    | some t =>
      have h := marks_runTask p { w with tasks := w.tasks.eraseIdx i } t r
      refine Eq.trans (Eq.trans ?_ h) ?_
      · cases t <;> rfl
      · simp only
        split <;> rename_i hq <;> rw [hq]

theorem marks_wrun (p : Profile) (steps : List WStep) (w : World) :
    (wrun p w steps).master.marks = marksAfter w.master.marks (handledAll p w steps) := by
  induction steps generalizing w with
  | nil => rfl
  | cons s r ih =>
    simp only [handledAll, wrun]
    rw [ih, ← marks_wstep]

/-! ### how many collectors there are -/

/-- Number of collectors among tasks. -/
def collectors (ts : List Task) : Nat := (ts.filter collector).length

theorem collectors_append (a b : List Task) : collectors (a ++ b) = collectors a + collectors b := by
  simp [collectors]

theorem collectors_cons (t : Task) (b : List Task) :
    collectors (t :: b) = (if collector t then 1 else 0) + collectors b := by
  simp only [collectors, List.filter_cons]
  split <;> simp; omega

theorem collectors_eraseIdx (ts : List Task) (i : Nat) (t : Task) (h : ts[i]? = some t) :
    collectors ts = (if collector t then 1 else 0) + collectors (ts.eraseIdx i) := by
  induction ts generalizing i with
  | nil => simp at h
  | cons x r ih =>
    cases i with
    | zero =>
      simp only [List.getElem?_cons_zero, Option.some.injEq] at h
      subst h
      rw [collectors_cons, List.eraseIdx_cons_zero]
    | succ i =>
      simp only [List.getElem?_cons_succ] at h
      rw [List.eraseIdx_cons_succ, collectors_cons, collectors_cons, ih i h]
      omega

theorem collectors_restoreLoop (w : World) (data : List (SiteId × MCaptcha)) :
    collectors (w.restoreLoop data).tasks = collectors w.tasks ∧ (w.restoreLoop data).crashed = w.crashed := by
  induction data generalizing w with
  | nil => exact ⟨rfl, rfl⟩
  | cons e r ih =>
    obtain ⟨name, m⟩ := e
    simp only [World.restoreLoop]
    split
    · rename_i s hq
      obtain ⟨h1, h2⟩ := ih ({ w with master := s }.spawn (.restoreNew name m))
      refine ⟨h1.trans ?_, h2⟩
      simp [World.spawn, collectors_append, collectors, collector]
    · rename_i s a hq
      obtain ⟨h1, h2⟩ := ih ({ w with master := s }.spawn (.restoreOld a m))
      refine ⟨h1.trans ?_, h2⟩
      simp [World.spawn, collectors_append, collectors, collector]

theorem collectors_removeCaptcha (w : World) (tag : Option Nat) (id : SiteId) :
    collectors (w.handleRemoveCaptcha tag id).tasks = collectors w.tasks ∧
      (w.handleRemoveCaptcha tag id).crashed = w.crashed := by
  unfold World.handleRemoveCaptcha Master.rmSite
  split
  · refine ⟨?_, rfl⟩
    simp [World.spawn, collectors_append, collectors, collector]
  · split <;> exact ⟨rfl, rfl⟩

theorem collectors_handle (w : World) (tag : Nat) (msg : MasterMsg) :
    collectors (w.handle tag msg).tasks = collectors w.tasks + (if asksCleanUp (.req tag msg) then 1 else 0) ∧
      (w.handle tag msg).crashed = w.crashed := by
  cases msg with
  | cleanUp => exact ⟨collectors_append _ _, rfl⟩
  | getInternalData => exact ⟨by simp [World.handle, World.handleGetInternalData, World.spawn, collectors, collector, asksCleanUp], rfl⟩
  | setInternalData data => exact collectors_restoreLoop w data
  | getSite id => exact ⟨rfl, rfl⟩
  | addVisitor id =>
    simp only [World.handle, World.handleAddVisitor]
    split
    · exact ⟨rfl, rfl⟩
    · exact ⟨by simp [World.spawn, collectors, collector, asksCleanUp], rfl⟩
  | addSite id m => exact ⟨rfl, rfl⟩
  | removeCaptcha id => exact collectors_removeCaptcha w (some tag) id
  | rename a b => exact ⟨rfl, rfl⟩

/-- A task keeps the number of collectors, itself included, unless it crashes the master. -/
theorem collectors_runTask (p : Profile) (w : World) (t : Task) (hc : (w.runTask p t).1.crashed = false) :
    collectors (w.runTask p t).1.tasks + (match (w.runTask p t).2 with | some t' => if collector t' then 1 else 0 | none => 0)
      = collectors w.tasks + (if collector t then 1 else 0) ∧ w.crashed = false := by
  have send : ∀ a msg, (w.sendCounter p a msg).1.tasks = w.tasks ∧ (w.sendCounter p a msg).1.crashed = w.crashed := by
    intro a msg
    obtain ⟨_, h1, _, h2, _⟩ := sendCounter_master p w a msg
    exact ⟨h1, h2⟩
  cases t with
  | gcWait due =>
    simp only [World.runTask] at hc ⊢
    split at hc <;> rename_i h
    · rw [if_pos h]; exact ⟨collectors_append _ _, hc⟩
    · rw [if_neg h]; exact ⟨rfl, hc⟩
  | gcPoll rest =>
    cases rest with
    | nil => exact ⟨rfl, hc⟩
    | cons e rest =>
      obtain ⟨i, f, a⟩ := e
      have hs := send a .getCurrentVisitorCount
      simp only [World.runTask] at hc ⊢
      cases hq : w.sendCounter p a .getCurrentVisitorCount with
      | mk w' r =>
        rw [hq] at hc hs
        obtain ⟨e1, e2⟩ : w'.tasks = w.tasks ∧ w'.crashed = w.crashed := hs
        cases r with
        | count n =>
          simp only at hc ⊢
          split at hc <;> rename_i h
          · rw [if_pos h]; exact ⟨by simp only [e1]; rfl, e2 ▸ hc⟩
          · rw [if_neg h]; exact ⟨by simp only [e1]; rfl, e2 ▸ hc⟩
        | _ => cases hc
  | gcStop id a rest =>
    have hs := send a .stop
    simp only [World.runTask] at hc ⊢
    cases hq : w.sendCounter p a .stop with
    | mk w' r =>
      rw [hq] at hc hs
      obtain ⟨e1, e2⟩ : w'.tasks = w.tasks ∧ w'.crashed = w.crashed := hs
      cases r with
      | done => exact ⟨by simp only [e1]; rfl, e2 ▸ hc⟩
      | _ => cases hc
  | gcRemove id rest =>
    obtain ⟨h1, h2⟩ := collectors_removeCaptcha w none id
    simp only [World.runTask] at hc ⊢
    exact ⟨by rw [h1]; rfl, h2 ▸ hc⟩
  | forward tag a =>
    have hs := send a .addVisitor
    simp only [World.runTask] at hc ⊢
    cases hq : w.sendCounter p a .addVisitor with
    | mk w' r =>
      rw [hq] at hc hs
      obtain ⟨e1, e2⟩ : w'.tasks = w.tasks ∧ w'.crashed = w.crashed := hs
      cases r <;> exact ⟨by simp only [World.answer, e1]; rfl, e2 ▸ hc⟩
  | stop tag a =>
    have hs := send a .stop
    simp only [World.runTask] at hc ⊢
    cases hq : w.sendCounter p a .stop with
    | mk w' r =>
      rw [hq] at hc hs
      obtain ⟨e1, e2⟩ : w'.tasks = w.tasks ∧ w'.crashed = w.crashed := hs
      cases r <;> cases tag <;> exact ⟨by simp only [World.answer, e1]; rfl, e2 ▸ hc⟩
  | collect tag rest acc =>
    cases rest with
    | nil => exact ⟨rfl, hc⟩
    | cons e rest =>
      obtain ⟨i, f, a⟩ := e
      have hs := send a .getInternalData
      simp only [World.runTask] at hc ⊢
      cases hq : w.sendCounter p a .getInternalData with
      | mk w' r =>
        rw [hq] at hc hs
        obtain ⟨e1, e2⟩ : w'.tasks = w.tasks ∧ w'.crashed = w.crashed := hs
        cases r <;> exact ⟨by simp only [e1]; rfl, e2 ▸ hc⟩
  | restoreNew id m => exact ⟨rfl, hc⟩
  | restoreOld a m =>
    have hs := send a (.setInternalData m)
    simp only [World.runTask] at hc ⊢
    exact ⟨by rw [hs.1]; rfl, hs.2 ▸ hc⟩

theorem collectors_wstep (p : Profile) (w : World) (s : WStep) (hc : (wstep p w s).crashed = false) :
    collectors (wstep p w s).tasks = collectors w.tasks + (if asksCleanUp s then 1 else 0) ∧ w.crashed = false := by
  cases s with
  | tick d => exact ⟨rfl, hc⟩
  | direct tag a msg =>
    obtain ⟨_, h1, _, h2, _⟩ := sendCounter_master p w a msg
    simp only [wstep, World.answer] at hc ⊢
    exact ⟨by rw [h1]; rfl, h2 ▸ hc⟩
  | fire a i =>
    simp only [wstep] at hc ⊢
    cases h : w.counters[a]? with
    | none => rw [h] at hc; exact ⟨rfl, hc⟩
    | some c => rw [h] at hc; exact ⟨rfl, hc⟩
  | req tag msg =>
    simp only [wstep] at hc ⊢
    by_cases h : w.crashed = true
    · rw [if_pos h] at hc
      exact absurd hc (by simp [World.answer, h])
    · rw [if_neg h] at hc ⊢
      exact ⟨(collectors_handle w tag msg).1, by simpa using h⟩
  | run i =>
    simp only [wstep, World.runAt] at hc ⊢
    cases ht : w.tasks[i]? with
    | none => rw [ht] at hc; exact ⟨rfl, hc⟩
    | some t =>
      rw [ht] at hc
      have hk := collectors_eraseIdx _ _ _ ht
      have h := collectors_runTask p { w with tasks := w.tasks.eraseIdx i } t
      simp only at hc h ⊢
      cases hq : ({ w with tasks := w.tasks.eraseIdx i } : World).runTask p t with
      | mk w' o =>
        rw [hq] at hc h
        cases o with
        | none =>
          obtain ⟨h1, h2⟩ := h hc
          refine ⟨?_, h2⟩
          simp only [asksCleanUp, Bool.false_eq_true, if_false] at h1 ⊢
          omega
        | some t' =>
          obtain ⟨h1, h2⟩ := h hc
          refine ⟨?_, h2⟩
          simp only [asksCleanUp, Bool.false_eq_true, if_false, collectors_cons] at h1 ⊢
          omega

theorem collectors_wrun (p : Profile) (steps : List WStep) (w : World) (hc : (wrun p w steps).crashed = false) :
    collectors (wrun p w steps).tasks = collectors w.tasks + (steps.filter asksCleanUp).length ∧ w.crashed = false := by
  induction steps generalizing w with
  | nil => exact ⟨rfl, hc⟩
  | cons s r ih =>
    simp only [wrun] at hc ⊢
    obtain ⟨h1, h2⟩ := ih _ hc
    obtain ⟨h3, h4⟩ := collectors_wstep p w s h2
    refine ⟨?_, h4⟩
    rw [h1, h3, List.filter_cons]
    split <;> simp; omega

/-! ### a crash is final -/

/-- A task that crashes the master leaves nothing behind. -/
theorem runTask_crash (p : Profile) (w : World) (t : Task) (h0 : w.crashed = false)
    (hc : (w.runTask p t).1.crashed = true) : (w.runTask p t).1.tasks = [] ∧ (w.runTask p t).2 = none := by
  have send : ∀ a msg w' r, w.sendCounter p a msg = (w', r) → w'.crashed = false := by
    intro a msg w' r h
    have := (sendCounter_master p w a msg).2.2.2.1
    rw [h] at this; exact this.trans h0
  have no : ∀ {b : Bool}, b = false → b = true → False := by intro b h1 h2; rw [h1] at h2; cases h2
  cases t with
  | gcWait due =>
    simp only [World.runTask] at hc
    split at hc <;> exact absurd hc (fun h => no h0 h)
  | gcPoll rest =>
    cases rest with
    | nil => exact absurd hc (fun h => no h0 h)
    | cons e rest =>
      obtain ⟨i, f, a⟩ := e
      simp only [World.runTask] at hc ⊢
      cases hq : w.sendCounter p a .getCurrentVisitorCount with
      | mk w' r =>
        rw [hq] at hc
        have hs := send _ _ _ _ hq
        cases r with
        | count n =>
          simp only at hc
          split at hc <;> exact absurd hc (fun h => no hs h)
        | _ => exact ⟨rfl, rfl⟩
  | gcStop id a rest =>
    simp only [World.runTask] at hc ⊢
    cases hq : w.sendCounter p a .stop with
    | mk w' r =>
      rw [hq] at hc
      have hs := send _ _ _ _ hq
      cases r with
      | done => exact absurd hc (fun h => no hs h)
      | _ => exact ⟨rfl, rfl⟩
  | gcRemove id rest =>
    simp only [World.runTask, (collectors_removeCaptcha w none id).2] at hc
    exact absurd hc (fun h => no h0 h)
  | forward tag a =>
    simp only [World.runTask] at hc
    cases hq : w.sendCounter p a .addVisitor with
    | mk w' r =>
      rw [hq] at hc
      have hs := send _ _ _ _ hq
      cases r <;> exact absurd hc (fun h => no hs h)
  | stop tag a =>
    simp only [World.runTask] at hc
    cases hq : w.sendCounter p a .stop with
    | mk w' r =>
      rw [hq] at hc
      have hs := send _ _ _ _ hq
      cases r <;> cases tag <;> exact absurd hc (fun h => no hs h)
  | collect tag rest acc =>
    cases rest with
    | nil => exact absurd hc (fun h => no h0 h)
    | cons e rest =>
      obtain ⟨i, f, a⟩ := e
      simp only [World.runTask] at hc
      cases hq : w.sendCounter p a .getInternalData with
      | mk w' r =>
        rw [hq] at hc
        have hs := send _ _ _ _ hq
        cases r <;> exact absurd hc (fun h => no hs h)
  | restoreNew id m => exact absurd hc (fun h => no h0 h)
  | restoreOld a m =>
    have := (sendCounter_master p w a (.setInternalData m)).2.2.2.1
    simp only [World.runTask, this] at hc
    exact absurd hc (fun h => no h0 h)


theorem crashed_wstep (p : Profile) (w : World) (s : WStep) (hc : w.crashed = true) (ht : w.tasks = []) :
    (wstep p w s).crashed = true ∧ (wstep p w s).tasks = [] ∧ (wstep p w s).master = w.master := by
  cases s with
  | tick d => exact ⟨hc, ht, rfl⟩
  | direct tag a msg =>
    obtain ⟨h0, h1, _, h2, _⟩ := sendCounter_master p w a msg
    simp only [wstep, World.answer]
    exact ⟨h2.trans hc, h1.trans ht, h0⟩
  | fire a i =>
    simp only [wstep]
    split <;> exact ⟨hc, ht, rfl⟩
  | req tag msg =>
    simp only [wstep, hc, if_true]
    exact ⟨hc, ht, rfl⟩
  | run i =>
    simp only [wstep, World.runAt, ht, List.getElem?_nil]
    exact ⟨hc, trivial, trivial⟩

theorem crashed_wrun (p : Profile) (steps : List WStep) (w : World) (hc : w.crashed = true) (ht : w.tasks = []) :
    (wrun p w steps).crashed = true ∧ (wrun p w steps).tasks = [] ∧ (wrun p w steps).master = w.master := by
  induction steps generalizing w with
  | nil => exact ⟨hc, ht, rfl⟩
  | cons s r ih =>
    obtain ⟨h1, h2, h3⟩ := crashed_wstep p w s hc ht
    obtain ⟨g1, g2, g3⟩ := ih (wstep p w s) h1 h2
    exact ⟨g1, g2, g3.trans h3⟩

/-- A crashed master has no tasks. -/
theorem tasks_of_crashed_step (p : Profile) (w : World) (s : WStep) (h : w.crashed = true → w.tasks = [])
    (hc : (wstep p w s).crashed = true) : (wstep p w s).tasks = [] := by
  by_cases hw : w.crashed = true
  · exact (crashed_wstep p w s hw (h hw)).2.1
  · have hw' : w.crashed = false := by simpa using hw
    have send : ∀ (w : World) a msg, (w.sendCounter p a msg).1.crashed = w.crashed := fun w a msg =>
      (sendCounter_master p w a msg).2.2.2.1
    cases s with
    | tick d => exact absurd hc hw
    | direct tag a msg =>
      simp only [wstep, World.answer, send] at hc
      exact absurd hc hw
    | fire a i =>
      simp only [wstep] at hc
      split at hc <;> exact absurd hc hw
    | req tag msg =>
      simp only [wstep, hw, if_false, Bool.false_eq_true, (collectors_handle w tag msg).2] at hc
    | run i =>
      simp only [wstep, World.runAt] at hc ⊢
      cases ht : w.tasks[i]? with
      | none => rw [ht] at hc; exact absurd hc hw
      | some t =>
        rw [ht] at hc
        have key := runTask_crash p { w with tasks := w.tasks.eraseIdx i } t hw'
        simp only at hc ⊢
        cases hq : ({ w with tasks := w.tasks.eraseIdx i } : World).runTask p t with
        | mk w' o =>
          rw [hq] at hc key
          cases o with
          | none => exact (key hc).1
          | some t' => exact absurd (key hc).2 (by simp)

theorem tasks_of_crashed (p : Profile) (w : World) (hw : Reachable p w) (hc : w.crashed = true) : w.tasks = [] := by
  obtain ⟨now, gc, steps, rfl⟩ := hw
  have key : ∀ (steps : List WStep) (w : World), (w.crashed = true → w.tasks = []) →
      (wrun p w steps).crashed = true → (wrun p w steps).tasks = [] := by
    intro steps
    induction steps with
    | nil => intro w h hc; exact h hc
    | cons s r ih => intro w h hc; exact ih _ (tasks_of_crashed_step p w s h) hc
  exact key steps _ (fun h => by cases h) hc

/-! ### a whole pass -/

/-- Moving a freshly spawned task to the front does not change what running it does. -/
theorem run_last (p : Profile) (w : World) (t : Task) :
    wstep p (w.spawn t) (.run w.tasks.length) = wstep p { w with tasks := t :: w.tasks } (.run 0) := by
  simp only [wstep, World.runAt, World.spawn, List.getElem?_concat_length,
    List.eraseIdx_append_of_length_le (Nat.le_refl _), Nat.sub_self, List.eraseIdx_cons_zero, List.append_nil,
    List.getElem?_cons_zero]

/-- A pass over the whole registry that nothing interferes with. -/
theorem gc_whole (p : Profile) (w : World) (hwf : RegWF w.reg) (hc : w.crashed = false)
    (hal : ∀ id a, lookup w id = some a → ∃ c, w.counters[a]? = some c ∧ c.alive = true) (ts : List Task) :
    ∃ k w', wrun p { w with tasks := .gcPoll (iterByKey w.master.sites) :: ts } (List.replicate (k + 1) (.run 0)) = w' ∧
      w'.crashed = false ∧ w'.tasks.head? = some (.gcWait (w.now + w.master.gc)) ∧
      (∀ id, idle w id → lookup w' id = none ∧
        ∀ a, lookup w id = some a → ∃ c, w'.counters[a]? = some c ∧ c.alive = false) ∧
      (∀ id, ¬ idle w id → lookup w' id = lookup w id ∧ visited w' id = visited w id ∧
        siteCounter w' id = siteCounter w id) := by
  have hperm := iterByKey_perm w.master.sites
  have hmem : ∀ e ∈ iterByKey w.master.sites, w.master.sites.get e.1 = some e.2 := fun e he =>
    AMap.get_of_mem hwf.nodup (hperm.subset he)
  have hmem' : ∀ id r a, w.master.sites.get id = some (r, a) → (id, (r, a)) ∈ iterByKey w.master.sites := fun id r a h =>
    hperm.symm.subset (AMap.mem_of_get h)
  let w0 : World := { w with tasks := .gcPoll (iterByKey w.master.sites) :: ts }
  obtain ⟨k, stops, w', hrun, h1, h2, h3, h4, h5, h6, h7, h8, h9⟩ := gc_pass p (iterByKey w.master.sites) w0 ts rfl
    ((hperm.map _).nodup_iff.2 hwf.nodup) hmem hwf (fun e he => hal e.1 e.2.2 (lookup_of_get w e.1 e.2.1 e.2.2 (hmem e he)))
  have hidle : ∀ e ∈ iterByKey w.master.sites, (idleEntry w0 e ↔ idle w e.1) := by
    intro e he
    have hg := hmem e he
    simp only [idleEntry, idle, visited, siteCounter, lookup, hg, Option.map_some, Option.bind_some]
    exact Iff.rfl
  cases k with
  | zero =>
    have : w'.tasks = w0.tasks := by rw [← hrun]; rfl
    rw [h1] at this
    cases this
  | succ k =>
    refine ⟨k, w', hrun, h3.trans hc, by rw [h1]; rfl, ?_, ?_⟩
    · intro id hid
      obtain ⟨c, hcn, _⟩ := hid.2
      simp only [siteCounter, Option.bind_eq_some_iff] at hcn
      obtain ⟨a, hla, hcc⟩ := hcn
      obtain ⟨r, hg⟩ := get_of_lookup w id a hla
      have he := hmem' id r a hg
      have hie : idleEntry w0 (id, (r, a)) := (hidle _ he).2 hid
      refine ⟨?_, ?_⟩
      · simp only [lookup, h6 id ⟨_, he, rfl, hie⟩, Option.map_none]
      · intro a' ha'
        rw [hla] at ha'; cases ha'
        exact ⟨c.handleStop, by rw [h8 a ⟨_, he, rfl, hie⟩]; show (w.counters[a]?).map _ = _; rw [hcc]; rfl, rfl⟩
    · intro id hid
      have hn : ¬ ∃ e ∈ iterByKey w.master.sites, e.1 = id ∧ idleEntry w0 e := by
        rintro ⟨e, he, rfl, hie⟩
        exact hid ((hidle e he).1 hie)
      have hg := h7 id hn
      have hl : lookup w' id = lookup w id := by simp only [lookup, hg]; rfl
      refine ⟨hl, by simp only [visited, hg]; rfl, ?_⟩
      simp only [siteCounter, hl]
      cases hla : lookup w id with
      | none => rfl
      | some a =>
        simp only [Option.bind_some]
        refine h9 a ?_
        rintro ⟨e, he, hea, hie⟩
        obtain ⟨r, hga⟩ := get_of_lookup w id a hla
        have := hwf.inj e.1 id e.2.1 r a (by rw [← hea]; exact hmem e he) hga
        exact hid (this ▸ (hidle e he).1 hie)

end MCap
