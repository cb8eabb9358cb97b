import Verif.Proofs.Master

namespace MCap
open Spec

/-! ### isolation -/

theorem sendCounter_master (p : Profile) (w : World) (a : Addr) (msg : CounterMsg) :
    (w.sendCounter p a msg).1.master = w.master ∧ (w.sendCounter p a msg).1.tasks = w.tasks ∧
    (w.sendCounter p a msg).1.now = w.now ∧ (w.sendCounter p a msg).1.crashed = w.crashed ∧
    (w.sendCounter p a msg).1.answers = w.answers ∧
    (w.sendCounter p a msg).1.counters.length = w.counters.length ∧
    ∀ b, b ≠ a → (w.sendCounter p a msg).1.counters[b]? = w.counters[b]? := by
  obtain ⟨c, h⟩ := sendCounter_eq p w a msg
  rw [h]
  refine ⟨rfl, rfl, rfl, rfl, rfl, by simp, ?_⟩
  intro b hb
  simp only
  rw [List.getElem?_set_ne (fun e => hb e.symm)]

/-- Site entry and counter of `id`/`a`. -/
def view (w : World) (id : SiteId) (a : Addr) : Option (Bool × Addr) × Option Counter :=
  (w.master.sites.get id, w.counters[a]?)

theorem view_sendCounter (p : Profile) (w : World) (b : Addr) (msg : CounterMsg) (id : SiteId) (a : Addr) (h : b ≠ a) :
    view (w.sendCounter p b msg).1 id a = view w id a := by
  obtain ⟨h1, _, _, _, _, _, h7⟩ := sendCounter_master p w b msg
  simp only [view, h1, h7 a (fun e => h e.symm)]

/-- Reads do not change a counter. -/
theorem sendCounter_read (p : Profile) (w : World) (b : Addr) :
    (w.sendCounter p b .getCurrentVisitorCount).1 = w ∧ (w.sendCounter p b .getInternalData).1 = w := by
  have key : ∀ c, w.counters[b]? = some c → w.counters.set b c = w.counters := by
    intro c hc
    obtain ⟨hlt, he⟩ := List.getElem?_eq_some_iff.1 hc
    rw [← he, List.set_getElem_self]
  constructor <;> unfold World.sendCounter
  · cases hc : w.counters[b]? with
    | none => rfl
    | some c =>
      simp only [Counter.send]
      by_cases ha : c.alive = true
      · simp only [ha, if_true]; rw [key c hc]
      · simp only [ha, if_false, Bool.false_eq_true]; rw [key c hc]
  · cases hc : w.counters[b]? with
    | none => rfl
    | some c =>
      simp only [Counter.send]
      by_cases ha : c.alive = true
      · simp only [ha, if_true]; rw [key c hc]
      · simp only [ha, if_false, Bool.false_eq_true]; rw [key c hc]

theorem view_removeCaptcha (w : World) (tag : Option Nat) (i id : SiteId) (a : Addr) (h : i ≠ id) :
    view (w.handleRemoveCaptcha tag i) id a = view w id a := by
  unfold World.handleRemoveCaptcha Master.rmSite
  split
  · rename_i s r b hs
    simp only [Prod.mk.injEq] at hs
    rw [← hs.1]
    simp only [view, World.spawn]
    rw [AMap.get_erase_ne _ _ _ h]
  · rename_i s hs
    simp only [Prod.mk.injEq] at hs
    rw [← hs.1]
    split <;> simp only [view, World.answer] <;> rw [AMap.get_erase_ne _ _ _ h]

theorem view_addSite (w : World) (i id : SiteId) (m : MCaptcha) (a : Addr) (h : i ≠ id) (hb : a < w.counters.length) :
    view (w.handleAddSite i m) id a = view w id a := by
  simp only [view, World.handleAddSite, Master.addSite]
  rw [AMap.get_insert_ne _ _ _ _ h, List.getElem?_append_left hb]

theorem view_runTask (p : Profile) (w : World) (t : Task) (id : SiteId) (a : Addr) (hb : a < w.counters.length)
    (h : actsOn id a t = false) : view (w.runTask p t).1 id a = view w id a := by
  cases t with
  | gcWait due => simp only [World.runTask]; split <;> rfl
  | gcPoll rest =>
    cases rest with
    | nil => rfl
    | cons e rest =>
      obtain ⟨i, r, b⟩ := e
      have hs := (sendCounter_read p w b).1
      simp only [World.runTask]
      split
      · rename_i w' n hh
        rw [hh] at hs; simp only at hs; subst hs
        split <;> rfl
      · rename_i w' r hr hh
        rw [hh] at hs; simp only at hs; subst hs
        rfl
  | gcStop i b rest =>
    have hne : b ≠ a := by simpa [actsOn] using h
    have hs := view_sendCounter p w b .stop id a hne
    simp only [World.runTask]
    split
    · rename_i w' hh; rw [hh] at hs; exact hs
    · rename_i w' r hr hh; rw [hh] at hs; exact hs
  | gcRemove i rest =>
    have hne : i ≠ id := by simpa [actsOn] using h
    exact view_removeCaptcha w none i id a hne
  | forward tag b =>
    have hne : b ≠ a := by simpa [actsOn] using h
    have hs := view_sendCounter p w b .addVisitor id a hne
    simp only [World.runTask]
    split
    · rename_i w' r hh; rw [hh] at hs; exact hs
    · rename_i w' r hr hh; rw [hh] at hs; exact hs
  | stop tag b =>
    have hne : b ≠ a := by simpa [actsOn] using h
    have hs := view_sendCounter p w b .stop id a hne
    simp only [World.runTask]
    split
    · rename_i w' t hh; rw [hh] at hs; exact hs
    · rename_i w' r t hr hh; rw [hh] at hs; exact hs
    · rename_i w' r hh; rw [hh] at hs; exact hs
  | collect tag rest acc =>
    cases rest with
    | nil => rfl
    | cons e rest =>
      obtain ⟨i, r, b⟩ := e
      have hs := (sendCounter_read p w b).2
      simp only [World.runTask]
      split
      · rename_i w' m hh; rw [hh] at hs; simp only at hs; subst hs; rfl
      · rename_i w' r hr hh; rw [hh] at hs; simp only at hs; subst hs; rfl
  | restoreNew i m =>
    have hne : i ≠ id := by simpa [actsOn] using h
    exact view_addSite w i id m a hne hb
  | restoreOld b m =>
    have hne : b ≠ a := by simpa [actsOn] using h
    exact view_sendCounter p w b (.setInternalData m) id a hne

theorem get_getSite (s : Master) (i id : SiteId) (h : i ≠ id) : (s.getSite i).1.sites.get id = s.sites.get id := by
  unfold Master.getSite
  split
  · exact AMap.get_insert_ne _ _ _ _ h
  · rfl

theorem view_restoreLoop (w : World) (data : List (SiteId × MCaptcha)) (id : SiteId) (a : Addr)
    (h : ∀ e ∈ data, e.1 ≠ id) : view (w.restoreLoop data) id a = view w id a := by
  induction data generalizing w with
  | nil => rfl
  | cons e r ih =>
    obtain ⟨name, m⟩ := e
    have hne : name ≠ id := h _ List.mem_cons_self
    have hg := get_getSite w.master name id hne
    have ih' := fun w => ih w (fun e he => h e (List.mem_cons_of_mem _ he))
    simp only [World.restoreLoop]
    split
    · rename_i s hs
      rw [hs] at hg
      rw [ih']
      simp only [view, World.spawn] at hg ⊢
      rw [hg]
    · rename_i s b hs
      rw [hs] at hg
      rw [ih']
      simp only [view, World.spawn] at hg ⊢
      rw [hg]

theorem view_handle (w : World) (tag : Nat) (msg : MasterMsg) (id : SiteId) (a : Addr) (hb : a < w.counters.length)
    (h : namesSite id msg = false) : view (w.handle tag msg) id a = view w id a := by
  cases msg with
  | addVisitor i =>
    have hne : i ≠ id := by simpa [namesSite] using h
    have hg := get_getSite w.master i id hne
    simp only [World.handle, World.handleAddVisitor]
    split <;> simp only [view, World.answer, World.spawn, hg]
  | addSite i m =>
    have hne : i ≠ id := by simpa [namesSite] using h
    exact view_addSite w i id m a hne hb
  | rename i j =>
    have hne : i ≠ id ∧ j ≠ id := by simpa [namesSite] using h
    simp only [World.handle, World.handleRename, view, World.answer, Master.rename]
    split
    · simp only [Master.addSite]
      rw [AMap.get_insert_ne _ _ _ _ hne.2, AMap.get_erase_ne _ _ _ hne.1]
    · rw [AMap.get_erase_ne _ _ _ hne.1]
  | removeCaptcha i =>
    have hne : i ≠ id := by simpa [namesSite] using h
    exact view_removeCaptcha w (some tag) i id a hne
  | getSite i =>
    have hne : i ≠ id := by simpa [namesSite] using h
    have hg := get_getSite w.master i id hne
    simp only [World.handle, World.handleGetSite, view, World.answer, hg]
  | cleanUp => rfl
  | getInternalData => rfl
  | setInternalData data =>
    refine view_restoreLoop w data id a ?_
    intro e he
    simp only [namesSite, List.any_eq_false, beq_iff_eq] at h
    exact h e he

theorem view_wstep (p : Profile) (w : World) (s : WStep) (id : SiteId) (a : Addr) (hb : a < w.counters.length)
    (h : concernsOthers w id a s) : view (wstep p w s) id a = view w id a := by
  cases s with
  | req tag msg =>
    simp only [wstep]
    split
    · rfl
    · exact view_handle w tag msg id a hb h
  | run i =>
    simp only [wstep, World.runAt]
    split
    · rfl
    · rename_i t ht
      have := view_runTask p { w with tasks := w.tasks.eraseIdx i } t id a hb (h t ht)
      split
      · rename_i w' hh; rw [hh] at this; exact this
      · rename_i w' t' hh; rw [hh] at this; exact this
  | direct tag b msg => exact view_sendCounter p w b msg id a h
  | tick d => rfl
  | fire b i =>
    simp only [wstep]
    split
    · rfl
    · simp only [view]
      rw [List.getElem?_set_ne h]

/-! ### tasks spawned by requests about other sites act on other sites -/

theorem restoreLoop_tasks (w : World) (data : List (SiteId × MCaptcha)) (id : SiteId) (r : Bool) (a : Addr)
    (hwf : RegWF w.reg) (hl : w.master.sites.get id = some (r, a)) (h : ∀ e ∈ data, e.1 ≠ id) :
    ∀ t ∈ (w.restoreLoop data).tasks, t ∈ w.tasks ∨ actsOn id a t = false := by
  induction data generalizing w with
  | nil => intro t ht; exact Or.inl ht
  | cons e rest ih =>
    obtain ⟨name, m⟩ := e
    have hne : name ≠ id := h _ List.mem_cons_self
    have hg := get_getSite w.master name id hne
    have hga := getSite_addr w.master name
    have hreg := reg_getSite w name
    have ih' := fun w h1 h2 => ih w h1 h2 (fun e he => h e (List.mem_cons_of_mem _ he))
    simp only [World.restoreLoop]
    split
    · rename_i s hs
      rw [hs] at hg hreg
      simp only at hg
      intro t ht
      rcases ih' (({ w with master := s } : World).spawn (.restoreNew name m)) (RegWF.step hreg hwf) (by
        simp only [World.spawn]; rw [hg]; exact hl) t ht with h1 | h1
      · rcases List.mem_append.1 h1 with h2 | h2
        · exact Or.inl h2
        · simp only [List.mem_singleton] at h2; subst h2
          exact Or.inr (by simpa [actsOn] using hne)
      · exact Or.inr h1
    · rename_i s b hs
      rw [hs] at hg hreg hga
      simp only at hg hga
      intro t ht
      rcases ih' (({ w with master := s } : World).spawn (.restoreOld b m)) (RegWF.step hreg hwf) (by
        simp only [World.spawn]; rw [hg]; exact hl) t ht with h1 | h1
      · rcases List.mem_append.1 h1 with h2 | h2
        · exact Or.inl h2
        · simp only [List.mem_singleton] at h2; subst h2
          refine Or.inr ?_
          simp only [actsOn, beq_eq_false_iff_ne, ne_eq]
          intro hba
          subst hba
          obtain ⟨⟨r', a'⟩, h3, h4⟩ := Option.map_eq_some_iff.1 hga.symm
          simp only at h4; subst h4
          exact hne (hwf.inj _ _ _ _ _ h3 hl)
      · exact Or.inr h1

theorem handle_tasks (w : World) (tag : Nat) (msg : MasterMsg) (id : SiteId) (r : Bool) (a : Addr)
    (hwf : RegWF w.reg) (hl : w.master.sites.get id = some (r, a)) (h : namesSite id msg = false) :
    ∀ t ∈ (w.handle tag msg).tasks, t ∈ w.tasks ∨ actsOn id a t = false := by
  have app : ∀ (ts : List Task) t', actsOn id a t' = false → ∀ t ∈ ts ++ [t'], t ∈ ts ∨ actsOn id a t = false := by
    intro ts t' h t ht
    rcases List.mem_append.1 ht with ht | ht
    · exact Or.inl ht
    · simp only [List.mem_singleton] at ht; subst ht; exact Or.inr h
  have neaddr : ∀ i b, i ≠ id → (w.master.sites.get i).map (·.2) = some b → b ≠ a := by
    intro i b hi hb hba
    subst hba
    obtain ⟨⟨r', a'⟩, h3, h4⟩ := Option.map_eq_some_iff.1 hb
    simp only at h4; subst h4
    exact hi (hwf.inj _ _ _ _ _ h3 hl)
  cases msg with
  | addVisitor i =>
    have hne : i ≠ id := by simpa [namesSite] using h
    have hga := getSite_addr w.master i
    simp only [World.handle, World.handleAddVisitor]
    split
    · intro t ht; exact Or.inl ht
    · rename_i b hb
      rw [hb] at hga
      exact app _ _ (by simpa [actsOn] using neaddr i b hne hga.symm)
  | addSite i m => intro t ht; exact Or.inl ht
  | rename i j => intro t ht; exact Or.inl ht
  | removeCaptcha i =>
    have hne : i ≠ id := by simpa [namesSite] using h
    simp only [World.handle, World.handleRemoveCaptcha, Master.rmSite]
    split
    · rename_i s r b hs
      simp only [Prod.mk.injEq] at hs
      exact app _ _ (by simpa [actsOn] using neaddr i b hne (by rw [hs.2]; rfl))
    · intro t ht; exact Or.inl ht
  | getSite i => intro t ht; exact Or.inl ht
  | cleanUp => exact app _ _ rfl
  | getInternalData => exact app _ _ rfl
  | setInternalData data =>
    refine restoreLoop_tasks w data id r a hwf hl ?_
    intro e he
    simp only [namesSite, List.any_eq_false, beq_iff_eq] at h
    exact h e he

/-! ### dead counters stay dead -/

theorem sendCounter_dead (p : Profile) (w : World) (a b : Addr) (msg : CounterMsg) (c : Counter)
    (hc : w.counters[a]? = some c) (hd : c.alive = false) : (w.sendCounter p b msg).1.counters[a]? = some c := by
  by_cases hba : b = a
  · subst hba
    unfold World.sendCounter
    rw [hc]
    simp only [Counter.send, hd, if_false, Bool.false_eq_true]
    obtain ⟨hlt, he⟩ := List.getElem?_eq_some_iff.1 hc
    rw [List.getElem?_set_self hlt]
  · rw [(sendCounter_master p w b msg).2.2.2.2.2.2 a (fun e => hba e.symm)]
    exact hc

theorem restoreLoop_counters (w : World) (data : List (SiteId × MCaptcha)) :
    (w.restoreLoop data).counters = w.counters := by
  induction data generalizing w with
  | nil => rfl
  | cons e r ih =>
    obtain ⟨n, m⟩ := e
    simp only [World.restoreLoop]
    split <;> rw [ih] <;> rfl

theorem handle_counters (w : World) (tag : Nat) (msg : MasterMsg) :
    ∃ cs, (w.handle tag msg).counters = w.counters ++ cs := by
  cases msg with
  | addVisitor i =>
    simp only [World.handle, World.handleAddVisitor]
    split <;> exact ⟨[], (List.append_nil _).symm⟩
  | addSite i m => exact ⟨_, rfl⟩
  | rename i j => exact ⟨[], (List.append_nil _).symm⟩
  | removeCaptcha i =>
    simp only [World.handle, World.handleRemoveCaptcha]
    split <;> exact ⟨[], (List.append_nil _).symm⟩
  | getSite i => exact ⟨[], (List.append_nil _).symm⟩
  | cleanUp => exact ⟨[], (List.append_nil _).symm⟩
  | getInternalData => exact ⟨[], (List.append_nil _).symm⟩
  | setInternalData data =>
    refine ⟨[], ?_⟩
    simp only [World.handle, World.handleSetInternalData, World.answer, restoreLoop_counters, List.append_nil]

theorem removeCaptcha_counters (w : World) (tag : Option Nat) (id : SiteId) :
    (w.handleRemoveCaptcha tag id).counters = w.counters := by
  unfold World.handleRemoveCaptcha
  split
  · rfl
  · split <;> rfl

/-- Which counter a task talks to next, with what. -/
def Task.talk : Task → Option (Addr × CounterMsg)
  | .gcWait _ => none
  | .gcPoll [] => none
  | .gcPoll ((_, (_, a)) :: _) => some (a, .getCurrentVisitorCount)
  | .gcStop _ a _ => some (a, .stop)
  | .gcRemove _ _ => none
  | .forward _ a => some (a, .addVisitor)
  | .stop _ a => some (a, .stop)
  | .collect _ [] _ => none
  | .collect _ ((_, (_, a)) :: _) _ => some (a, .getInternalData)
  | .restoreNew _ _ => none
  | .restoreOld a m => some (a, .setInternalData m)

/-- Counters after a task's action: what the counter it talks to made of it, plus a new counter for `restoreNew`. -/
theorem runTask_counters (p : Profile) (w : World) (t : Task) :
    (∃ a msg, t.talk = some (a, msg) ∧ (w.runTask p t).1.counters = (w.sendCounter p a msg).1.counters) ∨
    (t.talk = none ∧ ∃ cs, (w.runTask p t).1.counters = w.counters ++ cs) := by
  cases t with
  | gcWait due =>
    right; refine ⟨rfl, [], ?_⟩
    simp only [World.runTask]; split <;> exact (List.append_nil _).symm
  | gcPoll rest =>
    cases rest with
    | nil => right; exact ⟨rfl, [], (List.append_nil _).symm⟩
    | cons e rest =>
      obtain ⟨i, r, b⟩ := e
      left; refine ⟨b, .getCurrentVisitorCount, rfl, ?_⟩
      simp only [World.runTask]
      split
      · rename_i w' n hh; rw [hh]; split <;> rfl
      · rename_i w' r hr hh; rw [hh]; rfl
  | gcStop i b rest =>
    left; refine ⟨b, .stop, rfl, ?_⟩
    simp only [World.runTask]
    split
    · rename_i w' hh; rw [hh]
    · rename_i w' r hr hh; rw [hh]; rfl
  | gcRemove i rest =>
    right; refine ⟨rfl, [], ?_⟩
    simp only [World.runTask, removeCaptcha_counters, List.append_nil]
  | forward tag b =>
    left; refine ⟨b, .addVisitor, rfl, ?_⟩
    simp only [World.runTask]
    split
    · rename_i w' r hh; rw [hh]; rfl
    · rename_i w' r hr hh; rw [hh]; rfl
  | stop tag b =>
    left; refine ⟨b, .stop, rfl, ?_⟩
    simp only [World.runTask]
    split
    · rename_i w' t hh; rw [hh]; rfl
    · rename_i w' r t hr hh; rw [hh]; rfl
    · rename_i w' r hh; rw [hh]
  | collect tag rest acc =>
    cases rest with
    | nil => right; exact ⟨rfl, [], (List.append_nil _).symm⟩
    | cons e rest =>
      obtain ⟨i, r, b⟩ := e
      left; refine ⟨b, .getInternalData, rfl, ?_⟩
      simp only [World.runTask]
      split
      · rename_i w' m hh; rw [hh]
      · rename_i w' r hr hh; rw [hh]
  | restoreNew i m => right; exact ⟨rfl, _, rfl⟩
  | restoreOld b m => left; exact ⟨b, _, rfl, rfl⟩

theorem dead_wstep (p : Profile) (w : World) (s : WStep) (a : Addr) (c : Counter)
    (hc : w.counters[a]? = some c) (hd : c.alive = false) : (wstep p w s).counters[a]? = some c := by
  have app : ∀ cs, (w.counters ++ cs)[a]? = some c := by
    intro cs
    rw [List.getElem?_append_left (List.getElem?_eq_some_iff.1 hc).1]; exact hc
  cases s with
  | req tag msg =>
    simp only [wstep]
    split
    · exact hc
    · obtain ⟨cs, h⟩ := handle_counters w tag msg
      rw [h]; exact app cs
  | run i =>
    simp only [wstep, World.runAt]
    split
    · exact hc
    · rename_i t ht
      have key : (World.runTask p { w with tasks := w.tasks.eraseIdx i } t).1.counters[a]? = some c := by
        rcases runTask_counters p { w with tasks := w.tasks.eraseIdx i } t with ⟨b, msg, _, h⟩ | ⟨_, cs, h⟩
        · rw [h]; exact sendCounter_dead p _ a b msg c hc hd
        · rw [h]; exact app cs
      split
      · rename_i w' hh; rw [hh] at key; exact key
      · rename_i w' t' hh; rw [hh] at key; exact key
  | direct tag b msg => exact sendCounter_dead p w a b msg c hc hd
  | tick d => exact hc
  | fire b i =>
    simp only [wstep]
    split
    · exact hc
    · rename_i c' hc'
      by_cases hba : b = a
      · subst hba
        rw [hc] at hc'; injection hc' with hc'; subst hc'
        have : c.fire w.now i = (c, false) := by unfold Counter.fire; simp [hd]
        rw [this]
        simp only
        obtain ⟨hlt, he⟩ := List.getElem?_eq_some_iff.1 hc
        rw [List.getElem?_set_self hlt]
      · simp only
        rw [List.getElem?_set_ne hba]; exact hc

theorem dead_wrun (p : Profile) (steps : List WStep) (w : World) (a : Addr) (c : Counter)
    (hc : w.counters[a]? = some c) (hd : c.alive = false) : (wrun p w steps).counters[a]? = some c := by
  induction steps generalizing w with
  | nil => exact hc
  | cons s r ih => exact ih _ (dead_wstep p w s a c hc hd)

end MCap
