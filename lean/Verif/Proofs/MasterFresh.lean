import Verif.Proofs.MasterRace

/-!
# Registrations that nobody looked up

Two invariants of the master: tasks only know counters that exist, and a fresh registration is left alone by every task as long
as no collection that saw an earlier registration of the same name is under way.
-/

namespace MCap
open Spec

/-! ### tasks know existing counters -/

/-- All counters of a snapshot exist. -/
def listBelow (n : Nat) (rest : List (SiteId × (Bool × Addr))) : Prop := ∀ e ∈ rest, e.2.2 < n

/-- All counters a task knows exist. -/
def taskBelow (n : Nat) : Task → Prop
  | .gcWait _ => True
  | .gcPoll rest => listBelow n rest
  | .gcStop _ b rest => b < n ∧ listBelow n rest
  | .gcRemove _ rest => listBelow n rest
  | .forward _ b => b < n
  | .stop _ b => b < n
  | .collect _ rest _ => listBelow n rest
  | .restoreNew _ _ => True
  | .restoreOld b _ => b < n

theorem taskBelow.mono {n k : Nat} (h : n ≤ k) {t : Task} (ht : taskBelow n t) : taskBelow k t := by
  have hl : ∀ rest, listBelow n rest → listBelow k rest := fun rest hr e he => Nat.lt_of_lt_of_le (hr e he) h
  cases t with
  | gcWait _ => trivial
  | gcPoll rest => exact hl _ ht
  | gcStop _ b rest => exact ⟨Nat.lt_of_lt_of_le ht.1 h, hl _ ht.2⟩
  | gcRemove _ rest => exact hl _ ht
  | forward _ b => exact Nat.lt_of_lt_of_le ht h
  | stop _ b => exact Nat.lt_of_lt_of_le ht h
  | collect _ rest _ => exact hl _ ht
  | restoreNew _ _ => trivial
  | restoreOld b _ => exact Nat.lt_of_lt_of_le ht h

/-- Registry and tasks know existing counters only. -/
structure Below (w : World) : Prop where
  wf : RegWF w.reg
  tasks : ∀ t ∈ w.tasks, taskBelow w.counters.length t

theorem below_snapshot {w : World} (h : RegWF w.reg) : listBelow w.counters.length (iterByKey w.master.sites) := by
  rintro ⟨i, r, a⟩ he
  exact h.bound i r a (AMap.get_of_mem h.nodup ((iterByKey_perm _).subset he))

theorem below_restoreLoop (data : List (SiteId × MCaptcha)) (w : World) (h : Below w) : Below (w.restoreLoop data) := by
  induction data generalizing w with
  | nil => exact h
  | cons e r ih =>
    obtain ⟨name, m⟩ := e
    have hreg := reg_getSite w name
    have hga := getSite_addr w.master name
    simp only [World.restoreLoop]
    split
    · rename_i s hs
      rw [hs] at hreg
      refine ih _ ⟨RegWF.step hreg h.wf, ?_⟩
      intro t ht
      rcases List.mem_append.1 ht with ht | ht
      · exact h.tasks t ht
      · simp only [List.mem_singleton] at ht; subst ht; trivial
    · rename_i s b hs
      rw [hs] at hreg hga
      refine ih _ ⟨RegWF.step hreg h.wf, ?_⟩
      intro t ht
      rcases List.mem_append.1 ht with ht | ht
      · exact h.tasks t ht
      · simp only [List.mem_singleton] at ht; subst ht
        obtain ⟨⟨r', a'⟩, h3, h4⟩ := Option.map_eq_some_iff.1 hga.symm
        simp only at h4; subst h4
        exact h.wf.bound _ _ _ h3

theorem below_removeCaptcha (w : World) (tag : Option Nat) (i : SiteId) (h : Below w) :
    ∀ t ∈ (w.handleRemoveCaptcha tag i).tasks, taskBelow (w.handleRemoveCaptcha tag i).counters.length t := by
  simp only [World.handleRemoveCaptcha, Master.rmSite]
  split
  · rename_i s r b hs
    simp only [Prod.mk.injEq] at hs
    intro t ht
    rcases List.mem_append.1 ht with ht | ht
    · exact h.tasks t ht
    · simp only [List.mem_singleton] at ht; subst ht; exact h.wf.bound _ _ _ hs.2
  · split <;> exact h.tasks

theorem below_handle (w : World) (tag : Nat) (msg : MasterMsg) (h : Below w) : Below (w.handle tag msg) := by
  refine ⟨RegWF.step (reg_handle w tag msg) h.wf, ?_⟩
  have app : ∀ t', taskBelow w.counters.length t' → ∀ t ∈ w.tasks ++ [t'], taskBelow w.counters.length t := by
    intro t' ht' t ht
    rcases List.mem_append.1 ht with ht | ht
    · exact h.tasks t ht
    · simp only [List.mem_singleton] at ht; subst ht; exact ht'
  cases msg with
  | addVisitor i =>
    have hga := getSite_addr w.master i
    simp only [World.handle, World.handleAddVisitor]
    split
    · exact h.tasks
    · rename_i b hb
      rw [hb] at hga
      obtain ⟨⟨r', a'⟩, h3, h4⟩ := Option.map_eq_some_iff.1 hga.symm
      simp only at h4; subst h4
      exact app _ (h.wf.bound _ _ _ h3)
  | addSite i m => exact fun t ht => taskBelow.mono (by simp [World.handle, World.handleAddSite, World.answer]) (h.tasks t ht)
  | rename i j => exact h.tasks
  | removeCaptcha i => exact below_removeCaptcha w (some tag) i h
  | getSite i => exact h.tasks
  | cleanUp => exact app _ (below_snapshot h.wf)
  | getInternalData => exact app _ (below_snapshot h.wf)
  | setInternalData data => exact (below_restoreLoop data w h).tasks

theorem below_runTask (p : Profile) (w : World) (t : Task) (h : Below w) (ht : taskBelow w.counters.length t) :
    (∀ x ∈ (w.runTask p t).1.tasks, taskBelow (w.runTask p t).1.counters.length x) ∧
    ∀ t', (w.runTask p t).2 = some t' → taskBelow (w.runTask p t).1.counters.length t' := by
  have send : ∀ a msg, (∀ x ∈ (w.sendCounter p a msg).1.tasks, taskBelow (w.sendCounter p a msg).1.counters.length x) ∧
      (w.sendCounter p a msg).1.counters.length = w.counters.length := by
    intro a msg
    obtain ⟨_, e2, _, _, _, e6, _⟩ := sendCounter_master p w a msg
    rw [e2, e6]
    exact ⟨h.tasks, rfl⟩
  cases t with
  | gcWait due =>
    simp only [World.runTask]
    split
    · refine ⟨?_, fun t' h' => (by cases h')⟩
      intro x hx
      rcases List.mem_append.1 hx with hx | hx
      · exact h.tasks x hx
      · simp only [List.mem_singleton] at hx; subst hx; exact below_snapshot h.wf
    · exact ⟨h.tasks, fun t' h' => by cases h'; trivial⟩
  | gcPoll rest =>
    cases rest with
    | nil => exact ⟨h.tasks, fun t' h' => by cases h'; trivial⟩
    | cons e rest =>
      obtain ⟨i, f, a⟩ := e
      have hrest : listBelow w.counters.length rest := fun e he => ht e (List.mem_cons_of_mem _ he)
      have ha : a < w.counters.length := ht (i, f, a) List.mem_cons_self
      obtain ⟨g1, g2⟩ := send a .getCurrentVisitorCount
      simp only [World.runTask]
      split
      · rename_i w' n hq
        rw [hq] at g1 g2
        simp only at g1 g2
        split
        · exact ⟨g1, fun t' h' => by cases h'; exact ⟨g2.symm ▸ ha, g2.symm ▸ hrest⟩⟩
        · exact ⟨g1, fun t' h' => by cases h'; exact (g2.symm ▸ hrest : listBelow _ rest)⟩
      · exact ⟨by simp [World.crash], fun t' h' => (by cases h')⟩
  | gcStop i a rest =>
    obtain ⟨g1, g2⟩ := send a .stop
    simp only [World.runTask]
    split
    · rename_i w' hq
      rw [hq] at g1 g2
      simp only at g1 g2
      exact ⟨g1, fun t' h' => by cases h'; exact (g2.symm ▸ ht.2 : listBelow _ rest)⟩
    · exact ⟨by simp [World.crash], fun t' h' => (by cases h')⟩
  | gcRemove i rest =>
    refine ⟨below_removeCaptcha w none i h, fun t' h' => ?_⟩
    cases h'
    have : (w.handleRemoveCaptcha none i).counters = w.counters := removeCaptcha_counters w none i
    simp only [World.runTask, this]
    exact ht
  | forward tag a =>
    obtain ⟨g1, g2⟩ := send a .addVisitor
    simp only [World.runTask]
    split <;> (rename_i hq; rw [hq] at g1; exact ⟨g1, fun t' h' => (by cases h')⟩)
  | stop tag a =>
    obtain ⟨g1, g2⟩ := send a .stop
    simp only [World.runTask]
    split <;> (rename_i hq; rw [hq] at g1; exact ⟨g1, fun t' h' => (by cases h')⟩)
  | collect tag rest acc =>
    cases rest with
    | nil => exact ⟨h.tasks, fun t' h' => (by cases h')⟩
    | cons e rest =>
      obtain ⟨i, f, a⟩ := e
      have hrest : listBelow w.counters.length rest := fun e he => ht e (List.mem_cons_of_mem _ he)
      obtain ⟨g1, g2⟩ := send a .getInternalData
      simp only [World.runTask]
      split <;> (
        rename_i hq
        rw [hq] at g1 g2
        simp only at g1 g2
        exact ⟨g1, fun t' h' => by cases h'; exact (g2.symm ▸ hrest : listBelow _ rest)⟩)
  | restoreNew i m =>
    refine ⟨fun x hx => taskBelow.mono ?_ (h.tasks x hx), fun t' h' => (by cases h')⟩
    simp [World.runTask, World.handleAddSite]
  | restoreOld a m =>
    obtain ⟨g1, g2⟩ := send a (.setInternalData m)
    exact ⟨g1, fun t' h' => (by cases h')⟩

theorem below_wstep (p : Profile) (w : World) (s : WStep) (h : Below w) : Below (wstep p w s) := by
  refine ⟨RegWF.step (reg_wstep p w s) h.wf, ?_⟩
  cases s with
  | req tag msg =>
    simp only [wstep]
    split
    · exact h.tasks
    · exact (below_handle w tag msg h).tasks
  | run i =>
    simp only [wstep, World.runAt]
    cases ht : w.tasks[i]? with
    | none => exact h.tasks
    | some t =>
      have h' : Below { w with tasks := w.tasks.eraseIdx i } := ⟨h.wf, fun t ht => h.tasks t (List.mem_of_mem_eraseIdx ht)⟩
      obtain ⟨g1, g2⟩ := below_runTask p _ t h' (h.tasks t (List.mem_of_getElem? ht))
      simp only
      split
      · rename_i w' hq
        rw [hq] at g1
        exact g1
      · rename_i w' t' hq
        rw [hq] at g1 g2
        intro x hx
        rcases List.mem_cons.1 hx with rfl | hx
        · exact g2 _ rfl
        · exact g1 x hx
  | direct tag a msg =>
    obtain ⟨_, e2, _, _, _, e6, _⟩ := sendCounter_master p w a msg
    show ∀ t ∈ (w.sendCounter p a msg).1.tasks, taskBelow (w.sendCounter p a msg).1.counters.length t
    rw [e2, e6]
    exact h.tasks
  | tick d => exact h.tasks
  | fire a i =>
    simp only [wstep]
    split
    · exact h.tasks
    · simpa using h.tasks

theorem below_reachable (p : Profile) (w : World) (h : Reachable p w) : Below w := by
  obtain ⟨now, gc, steps, rfl⟩ := h
  have key : ∀ (steps : List WStep) (w : World), Below w → Below (wrun p w steps) := by
    intro steps
    induction steps with
    | nil => exact fun w h => h
    | cons s r ih => exact fun w h => ih _ (below_wstep p w s h)
  exact key steps _ ⟨wf_init now gc, by simp [World.init, taskBelow]⟩

/-! ### a fresh registration is left alone -/

/-- Entries of a snapshot for `id`, or for its counter, are marked as not looked up. -/
def freshList (id : SiteId) (a : Addr) (rest : List (SiteId × (Bool × Addr))) : Prop :=
  ∀ e ∈ rest, e.1 = id ∨ e.2.2 = a → e.2.1 = false

/-- Tasks that leave the fresh registration of `id` with counter `a` alone. -/
def freshTask (id : SiteId) (a : Addr) : Task → Prop
  | .gcWait _ => True
  | .gcPoll rest => freshList id a rest
  | .gcStop i b rest => i ≠ id ∧ b ≠ a ∧ freshList id a rest
  | .gcRemove i rest => i ≠ id ∧ freshList id a rest
  | .forward _ b => b ≠ a
  | .stop _ b => b ≠ a
  | .collect _ _ _ => True
  | .restoreNew i _ => i ≠ id
  | .restoreOld b _ => b ≠ a

theorem freshTask.idle {id : SiteId} {a : Addr} {t : Task} (h : freshTask id a t) : actsOn id a t = false := by
  cases t with
  | gcWait _ => rfl
  | gcPoll _ => rfl
  | gcStop i b rest => simpa [actsOn] using h.2.1
  | gcRemove i rest => simpa [actsOn] using h.1
  | forward _ b => simpa [actsOn, freshTask] using h
  | stop _ b => simpa [actsOn, freshTask] using h
  | collect _ _ _ => rfl
  | restoreNew i _ => simpa [actsOn, freshTask] using h
  | restoreOld b _ => simpa [actsOn, freshTask] using h

/-- `id` was registered with counter `a` and not looked up since, and no task will touch it. -/
structure FreshReg (id : SiteId) (a : Addr) (c : Counter) (w : World) : Prop where
  wf : RegWF w.reg
  reg : w.master.sites.get id = some (false, a)
  counter : w.counters[a]? = some c
  tasks : ∀ t ∈ w.tasks, freshTask id a t

theorem freshReg_snapshot {id : SiteId} {a : Addr} {w : World} (hwf : RegWF w.reg)
    (hreg : w.master.sites.get id = some (false, a)) : freshList id a (iterByKey w.master.sites) := by
  rintro ⟨i, r, b⟩ he hor
  have hg : w.master.sites.get i = some (r, b) := AMap.get_of_mem hwf.nodup ((iterByKey_perm _).subset he)
  rcases hor with h1 | h1
  · simp only at h1; subst h1; rw [hreg] at hg; cases hg; rfl
  · simp only at h1; subst h1
    have := hwf.inj _ _ _ _ _ hg hreg
    subst this; rw [hreg] at hg; cases hg; rfl

/-- New tasks that leave other entries alone and are not collections are harmless. -/
theorem freshTask.of_idle {id : SiteId} {a : Addr} {t : Task} (h : actsOn id a t = false) (hc : collector t = false) :
    freshTask id a t := by
  cases t with
  | gcWait _ => trivial
  | gcPoll _ => cases hc
  | gcStop i b rest => cases hc
  | gcRemove i rest => cases hc
  | forward _ b => simpa [actsOn, freshTask] using h
  | stop _ b => simpa [actsOn, freshTask] using h
  | collect _ _ _ => trivial
  | restoreNew i _ => simpa [actsOn, freshTask] using h
  | restoreOld b _ => simpa [actsOn, freshTask] using h

theorem restoreLoop_plain (w : World) (data : List (SiteId × MCaptcha)) :
    ∀ t ∈ (w.restoreLoop data).tasks, t ∈ w.tasks ∨ collector t = false := by
  induction data generalizing w with
  | nil => exact fun t ht => Or.inl ht
  | cons e rest ih =>
    obtain ⟨name, m⟩ := e
    simp only [World.restoreLoop]
    split <;> (
      intro t ht
      rcases ih _ t ht with h1 | h1
      · rcases List.mem_append.1 h1 with h2 | h2
        · exact Or.inl h2
        · simp only [List.mem_singleton] at h2; subst h2; exact Or.inr rfl
      · exact Or.inr h1)

theorem removeCaptcha_plain (w : World) (tag : Option Nat) (i : SiteId) :
    ∀ t ∈ (w.handleRemoveCaptcha tag i).tasks, t ∈ w.tasks ∨ collector t = false := by
  simp only [World.handleRemoveCaptcha]
  split
  · intro t ht
    rcases List.mem_append.1 ht with ht | ht
    · exact Or.inl ht
    · simp only [List.mem_singleton] at ht; subst ht; exact Or.inr rfl
  · split <;> exact fun t ht => Or.inl ht

/-- Only `CleanUp` starts a collection. -/
theorem handle_plain (w : World) (tag : Nat) (msg : MasterMsg) (h : msg ≠ .cleanUp) :
    ∀ t ∈ (w.handle tag msg).tasks, t ∈ w.tasks ∨ collector t = false := by
  have app : ∀ t', collector t' = false → ∀ t ∈ w.tasks ++ [t'], t ∈ w.tasks ∨ collector t = false := by
    intro t' h' t ht
    rcases List.mem_append.1 ht with ht | ht
    · exact Or.inl ht
    · simp only [List.mem_singleton] at ht; subst ht; exact Or.inr h'
  cases msg with
  | addVisitor i =>
    simp only [World.handle, World.handleAddVisitor]
    split
    · exact fun t ht => Or.inl ht
    · exact app _ rfl
  | addSite i m => exact fun t ht => Or.inl ht
  | rename i j => exact fun t ht => Or.inl ht
  | removeCaptcha i => exact removeCaptcha_plain w (some tag) i
  | getSite i => exact fun t ht => Or.inl ht
  | cleanUp => exact absurd rfl h
  | getInternalData => exact app _ rfl
  | setInternalData data => exact restoreLoop_plain w data

theorem freshReg_handle {id : SiteId} {a : Addr} {c : Counter} (w : World) (tag : Nat) (msg : MasterMsg)
    (h : FreshReg id a c w) (hn : namesSite id msg = false) : ∀ t ∈ (w.handle tag msg).tasks, freshTask id a t := by
  by_cases hm : msg = .cleanUp
  · subst hm
    intro t ht
    rcases List.mem_append.1 ht with ht | ht
    · exact h.tasks t ht
    · simp only [List.mem_singleton] at ht; subst ht; exact freshReg_snapshot h.wf h.reg
  · intro t ht
    rcases handle_plain w tag msg hm t ht with h1 | h1
    · exact h.tasks t h1
    · rcases handle_tasks w tag msg id false a h.wf h.reg hn t ht with h2 | h2
      · exact h.tasks t h2
      · exact freshTask.of_idle h2 h1

/-- A harmless task leaves harmless tasks behind. -/
theorem freshReg_runTask {id : SiteId} {a : Addr} {c : Counter} (p : Profile) (w : World) (t : Task) (h : FreshReg id a c w)
    (ht : freshTask id a t) :
    (∀ x ∈ (w.runTask p t).1.tasks, freshTask id a x) ∧ ∀ t', (w.runTask p t).2 = some t' → freshTask id a t' := by
  have send : ∀ b msg, ∀ x ∈ (w.sendCounter p b msg).1.tasks, freshTask id a x := by
    intro b msg
    obtain ⟨_, e2, _, _, _, _, _⟩ := sendCounter_master p w b msg
    rw [e2]
    exact h.tasks
  cases t with
  | gcWait due =>
    simp only [World.runTask]
    split
    · refine ⟨?_, fun t' h' => (by cases h')⟩
      intro x hx
      rcases List.mem_append.1 hx with hx | hx
      · exact h.tasks x hx
      · simp only [List.mem_singleton] at hx; subst hx; exact freshReg_snapshot h.wf h.reg
    · exact ⟨h.tasks, fun t' h' => by cases h'; trivial⟩
  | gcPoll rest =>
    cases rest with
    | nil => exact ⟨h.tasks, fun t' h' => by cases h'; trivial⟩
    | cons e rest =>
      obtain ⟨i, f, b⟩ := e
      have hrest : freshList id a rest := fun e he => ht e (List.mem_cons_of_mem _ he)
      have hhd := ht (i, f, b) List.mem_cons_self
      simp only at hhd
      have g1 := send b .getCurrentVisitorCount
      simp only [World.runTask]
      split
      · rename_i w' n hq
        rw [hq] at g1
        split
        · rename_i hz
          refine ⟨g1, fun t' h' => ?_⟩
          cases h'
          simp only [Bool.and_eq_true] at hz
          refine ⟨fun e => ?_, fun e => ?_, hrest⟩
          · rw [hhd (Or.inl e)] at hz; cases hz.2
          · rw [hhd (Or.inr e)] at hz; cases hz.2
        · exact ⟨g1, fun t' h' => by cases h'; exact hrest⟩
      · exact ⟨by simp [World.crash], fun t' h' => (by cases h')⟩
  | gcStop i b rest =>
    have g1 := send b .stop
    simp only [World.runTask]
    split
    · rename_i w' hq
      rw [hq] at g1
      exact ⟨g1, fun t' h' => by cases h'; exact ⟨ht.1, ht.2.2⟩⟩
    · exact ⟨by simp [World.crash], fun t' h' => (by cases h')⟩
  | gcRemove i rest =>
    refine ⟨?_, fun t' h' => by cases h'; exact ht.2⟩
    intro x hx
    simp only [World.runTask, World.handleRemoveCaptcha, Master.rmSite] at hx
    split at hx
    · rename_i s r b hs
      simp only [Prod.mk.injEq] at hs
      rcases List.mem_append.1 hx with hx | hx
      · exact h.tasks x hx
      · simp only [List.mem_singleton] at hx; subst hx
        intro hba
        subst hba
        exact ht.1 (h.wf.inj _ _ _ _ _ hs.2 h.reg)
    · exact h.tasks x hx
  | forward tag b =>
    have g1 := send b .addVisitor
    simp only [World.runTask]
    split <;> (rename_i hq; rw [hq] at g1; exact ⟨g1, fun t' h' => (by cases h')⟩)
  | stop tag b =>
    have g1 := send b .stop
    simp only [World.runTask]
    split <;> (rename_i hq; rw [hq] at g1; exact ⟨g1, fun t' h' => (by cases h')⟩)
  | collect tag rest acc =>
    cases rest with
    | nil => exact ⟨h.tasks, fun t' h' => (by cases h')⟩
    | cons e rest =>
      obtain ⟨i, f, b⟩ := e
      have g1 := send b .getInternalData
      simp only [World.runTask]
      split <;> (
        rename_i hq
        rw [hq] at g1
        exact ⟨g1, fun t' h' => by cases h'; trivial⟩)
  | restoreNew i m => exact ⟨h.tasks, fun t' h' => (by cases h')⟩
  | restoreOld b m => exact ⟨send b (.setInternalData m), fun t' h' => (by cases h')⟩

theorem freshReg_tasks {id : SiteId} {a : Addr} {m : MCaptcha} (p : Profile) (w : World) (s : WStep)
    (h : FreshReg id a (Counter.start m) w) (hs : leavesAlone id a s = true) : ∀ t ∈ (wstep p w s).tasks, freshTask id a t := by
  cases s with
  | req tag msg =>
    have hn : namesSite id msg = false := by simpa [leavesAlone] using hs
    simp only [wstep]
    split
    · exact h.tasks
    · exact freshReg_handle w tag msg h hn
  | run i =>
    simp only [wstep, World.runAt]
    cases ht : w.tasks[i]? with
    | none => exact h.tasks
    | some t =>
      have h' : FreshReg id a (Counter.start m) { w with tasks := w.tasks.eraseIdx i } :=
        ⟨h.wf, h.reg, h.counter, fun t ht => h.tasks t (List.mem_of_mem_eraseIdx ht)⟩
      obtain ⟨g1, g2⟩ := freshReg_runTask p _ t h' (h.tasks t (List.mem_of_getElem? ht))
      simp only
      split
      · rename_i w' hq
        rw [hq] at g1
        exact g1
      · rename_i w' t' hq
        rw [hq] at g1 g2
        intro x hx
        rcases List.mem_cons.1 hx with rfl | hx
        · exact g2 _ rfl
        · exact g1 x hx
  | direct tag b msg =>
    obtain ⟨_, e2, _, _, _, _, _⟩ := sendCounter_master p w b msg
    show ∀ t ∈ (w.sendCounter p b msg).1.tasks, freshTask id a t
    rw [e2]
    exact h.tasks
  | tick d => exact h.tasks
  | fire b i =>
    simp only [wstep]
    split <;> exact h.tasks

theorem freshReg_wstep {id : SiteId} {a : Addr} {m : MCaptcha} (p : Profile) (w : World) (s : WStep)
    (h : FreshReg id a (Counter.start m) w) (hs : leavesAlone id a s = true) :
    FreshReg id a (Counter.start m) (wstep p w s) := by
  have hlt : a < w.counters.length := (List.getElem?_eq_some_iff.1 h.counter).1
  have hview : view (wstep p w s) id a = view w id a := by
    by_cases hf : ∃ i, s = .fire a i
    · obtain ⟨i, rfl⟩ := hf
      have hfire : ((Counter.start m).fire w.now i).1 = Counter.start m := by simp [Counter.fire, Counter.start]
      simp only [wstep, h.counter, hfire, view]
      rw [List.getElem?_set_self hlt]
    · refine view_wstep p w s id a hlt ?_
      cases s with
      | req tag msg => simpa [leavesAlone, concernsOthers] using hs
      | run i => exact fun t ht => (h.tasks t (List.mem_of_getElem? ht)).idle
      | direct tag b msg => simpa [leavesAlone, concernsOthers] using hs
      | tick d => trivial
      | fire b i => exact fun e => hf ⟨i, by rw [e]⟩
  simp only [view, Prod.mk.injEq] at hview
  exact ⟨RegWF.step (reg_wstep p w s) h.wf, hview.1.trans h.reg, hview.2.trans h.counter, freshReg_tasks p w s h hs⟩

theorem freshReg_wrun {id : SiteId} {a : Addr} {m : MCaptcha} (p : Profile) (steps : List WStep) (w : World)
    (h : FreshReg id a (Counter.start m) w) (hs : ∀ s ∈ steps, leavesAlone id a s = true) :
    FreshReg id a (Counter.start m) (wrun p w steps) := by
  induction steps generalizing w with
  | nil => exact h
  | cons s r ih =>
    exact ih _ (freshReg_wstep p w s h (hs s List.mem_cons_self)) (fun s hs' => hs s (List.mem_cons_of_mem _ hs'))

/-- Right after the registration. -/
theorem freshReg_added (p : Profile) (w : World) (hw : Reachable p w) (hc : w.crashed = false) (tag : Nat) (id : SiteId)
    (m : MCaptcha) (hn : ∀ t ∈ w.tasks, aimsAt id t = false) :
    FreshReg id w.counters.length (Counter.start m) (wstep p w (.req tag (.addSite id m))) := by
  have hb := below_reachable p w hw
  have e : wstep p w (.req tag (.addSite id m)) = (w.handleAddSite id m).answer tag .unit := by
    simp only [wstep, hc, if_false, Bool.false_eq_true]; rfl
  refine ⟨RegWF.step (reg_wstep p w _) hb.wf, ?_, ?_, ?_⟩
  · rw [e]; exact AMap.get_insert_self _ _ _
  · rw [e]; simp [World.answer, World.handleAddSite]
  · rw [e]
    intro t ht
    have htm : t ∈ w.tasks := ht
    have h1 := hn t htm
    have h2 := hb.tasks t htm
    have hl : ∀ rest : List (SiteId × (Bool × Addr)), (rest.any fun e => e.1 == id && e.2.1) = false →
        listBelow w.counters.length rest → freshList id w.counters.length rest := by
      intro rest g1 g2 e he hor
      rcases hor with h3 | h3
      · simp only [List.any_eq_false, Bool.and_eq_true, beq_iff_eq, not_and] at g1
        simpa using g1 e he h3
      · exact absurd h3 (Nat.ne_of_lt (g2 e he))
    cases t with
    | gcWait _ => trivial
    | gcPoll rest => exact hl rest h1 h2
    | gcStop i b rest =>
      simp only [aimsAt, Bool.or_eq_false_iff, beq_eq_false_iff_ne] at h1
      exact ⟨h1.1, Nat.ne_of_lt h2.1, hl rest h1.2 h2.2⟩
    | gcRemove i rest =>
      simp only [aimsAt, Bool.or_eq_false_iff, beq_eq_false_iff_ne] at h1
      exact ⟨h1.1, hl rest h1.2 h2⟩
    | forward _ b => exact Nat.ne_of_lt h2
    | stop _ b => exact Nat.ne_of_lt h2
    | collect _ _ _ => trivial
    | restoreNew i _ => simpa [aimsAt, freshTask] using h1
    | restoreOld b _ => exact Nat.ne_of_lt h2

end MCap
