import Verif.Proofs.MasterCalm

namespace MCap
open Spec

/-! ### Sites that were never looked up -/

/-- Snapshot entries for `id` are marked as never looked up. -/
def unreadList (id : SiteId) (rest : List (SiteId × (Bool × Addr))) : Prop := ∀ e ∈ rest, e.1 = id → e.2.1 = false

/-- Tasks that will not make garbage collection remove `id`, and that do not re-register it. -/
def unreadTask (id : SiteId) : Task → Prop
  | .gcPoll rest => unreadList id rest
  | .gcStop i _ rest => i ≠ id ∧ unreadList id rest
  | .gcRemove i rest => i ≠ id ∧ unreadList id rest
  | .restoreNew i _ => i ≠ id
  | _ => True

/-- The site was never looked up. -/
structure Unread (id : SiteId) (w : World) : Prop where
  nodup : RegWF w.reg
  reg : ∀ r a, w.master.sites.get id = some (r, a) → r = false
  tasks : ∀ t ∈ w.tasks, unreadTask id t

theorem unread_snapshot {id : SiteId} {w : World} (h : Unread id w) : unreadList id (iterByKey w.master.sites) := by
  rintro ⟨i, r, a⟩ he rfl
  exact h.reg r a (AMap.get_of_mem h.nodup.nodup ((iterByKey_perm _).subset he))

theorem unread_append {id : SiteId} {ts : List Task} {t : Task} (h : ∀ t ∈ ts, unreadTask id t) (ht : unreadTask id t) :
    ∀ x ∈ ts ++ [t], unreadTask id x := by
  intro x hx
  rcases List.mem_append.1 hx with hx | hx
  · exact h x hx
  · simp only [List.mem_singleton] at hx; subst hx; exact ht

theorem unread_removeCaptcha {id i : SiteId} {w : World} (tag : Option Nat) (h : Unread id w) :
    Unread id (w.handleRemoveCaptcha tag i) := by
  have hg : ∀ r a, (w.master.sites.erase i).get id = some (r, a) → r = false := by
    intro r a hg
    rw [AMap.get_erase] at hg
    split at hg
    · cases hg
    · exact h.reg r a hg
  have hwf := RegWF.step (RegStep.del _ _ i) h.nodup
  simp only [World.handleRemoveCaptcha, Master.rmSite]
  split
  · rename_i s r a hs
    simp only [Prod.mk.injEq] at hs
    rw [← hs.1]
    exact ⟨hwf, hg, unread_append h.tasks trivial⟩
  · rename_i s hs
    simp only [Prod.mk.injEq] at hs
    rw [← hs.1]
    split <;> exact ⟨hwf, hg, h.tasks⟩

theorem unread_addSite {id i : SiteId} {w : World} (m : MCaptcha) (h : Unread id w) :
    Unread id (w.handleAddSite i m) := by
  refine ⟨?_, ?_, h.tasks⟩
  · have : (w.handleAddSite i m).reg = (w.master.sites.insert i (false, w.counters.length), w.counters.length + 1) := by
      simp [World.reg, World.handleAddSite, Master.addSite]
    rw [this]; exact RegWF.step (RegStep.add _ _ i) h.nodup
  · intro r a hg
    simp only [World.handleAddSite, Master.addSite, AMap.get_insert] at hg
    split at hg
    · cases hg; rfl
    · exact h.reg r a hg

/-- Worlds that differ only in counters (keeping their number), answers and crash flag. -/
theorem Unread.same {id : SiteId} {w w' : World} (h : Unread id w) (h1 : w'.master = w.master)
    (h2 : w'.counters.length = w.counters.length) (h3 : ∀ t ∈ w'.tasks, unreadTask id t) : Unread id w' := by
  refine ⟨?_, by rw [h1]; exact h.reg, h3⟩
  have : w'.reg = w.reg := by simp [World.reg, h1, h2]
  rw [this]; exact h.nodup

theorem unread_getSite {id i : SiteId} {w : World} (h : Unread id w) (hi : i ≠ id) :
    Unread id { w with master := (w.master.getSite i).1 } := by
  refine ⟨RegWF.step (reg_getSite w i) h.nodup, ?_, h.tasks⟩
  intro r a hg
  rw [show (({ w with master := (w.master.getSite i).1 } : World)).master = (w.master.getSite i).1 from rfl,
    get_getSite _ _ _ hi] at hg
  exact h.reg r a hg

theorem unread_restoreLoop {id : SiteId} (data : List (SiteId × MCaptcha)) (w : World) (h : Unread id w)
    (hd : ∀ e ∈ data, e.1 ≠ id) : Unread id (w.restoreLoop data) := by
  induction data generalizing w with
  | nil => exact h
  | cons e r ih =>
    obtain ⟨name, m⟩ := e
    have hne : name ≠ id := hd _ List.mem_cons_self
    have hg := unread_getSite h hne
    have ih' := fun w hw => ih w hw (fun e he => hd e (List.mem_cons_of_mem _ he))
    simp only [World.restoreLoop]
    split
    · rename_i s hs
      rw [hs] at hg
      exact ih' _ (hg.same rfl rfl (unread_append hg.tasks hne))
    · rename_i s b hs
      rw [hs] at hg
      exact ih' _ (hg.same rfl rfl (unread_append hg.tasks trivial))

theorem unread_handle {id : SiteId} (w : World) (tag : Nat) (msg : MasterMsg) (h : Unread id w)
    (hl : looksUp id (.req tag msg) = false) : Unread id (w.handle tag msg) := by
  cases msg with
  | addVisitor i =>
    have hne : i ≠ id := by simpa [looksUp] using hl
    have hg := unread_getSite h hne
    simp only [World.handle, World.handleAddVisitor]
    split
    · exact hg.same rfl rfl hg.tasks
    · exact hg.same rfl rfl (unread_append hg.tasks trivial)
  | addSite i m => exact (unread_addSite m h).same rfl rfl h.tasks
  | rename a b =>
    have hwf : RegWF (w.handle tag (.rename a b)).reg := RegWF.step (reg_handle w tag _) h.nodup
    refine ⟨hwf, ?_, h.tasks⟩
    intro r x hg
    simp only [World.handle, World.handleRename, World.answer, Master.rename] at hg
    split at hg
    · simp only [Master.addSite, AMap.get_insert, AMap.get_erase] at hg
      split at hg
      · cases hg; rfl
      · split at hg
        · cases hg
        · exact h.reg r x hg
    · rw [AMap.get_erase] at hg
      split at hg
      · cases hg
      · exact h.reg r x hg
  | removeCaptcha i => exact unread_removeCaptcha (some tag) h
  | getSite i =>
    have hne : i ≠ id := by simpa [looksUp] using hl
    have hg := unread_getSite h hne
    exact hg.same rfl rfl hg.tasks
  | cleanUp => exact h.same rfl rfl (unread_append h.tasks (unread_snapshot h))
  | getInternalData => exact h.same rfl rfl (unread_append h.tasks trivial)
  | setInternalData data =>
    have hd : ∀ e ∈ data, e.1 ≠ id := by
      intro e he hc
      simp only [looksUp, List.any_eq_false] at hl
      exact hl e he (by simp [hc])
    have := unread_restoreLoop data w h hd
    exact this.same rfl rfl this.tasks

/-- A harmless task keeps the site unread, and leaves what it denotes alone. -/
theorem unread_runTask {id : SiteId} (p : Profile) (w : World) (t : Task) (h : Unread id w) (ht : unreadTask id t) :
    Unread id (w.runTask p t).1 ∧ (∀ t', (w.runTask p t).2 = some t' → unreadTask id t') ∧
    (w.runTask p t).1.master.sites.get id = w.master.sites.get id := by
  have send : ∀ a msg (w' : World), w'.master = (w.sendCounter p a msg).1.master →
      w'.counters.length = (w.sendCounter p a msg).1.counters.length →
      (∀ t ∈ w'.tasks, t ∈ (w.sendCounter p a msg).1.tasks) →
      Unread id w' ∧ w'.master.sites.get id = w.master.sites.get id := by
    intro a msg w' h1 h2 h3
    obtain ⟨e1, e2, _, _, _, e6, _⟩ := sendCounter_master p w a msg
    refine ⟨h.same (by rw [h1, e1]) (by rw [h2, e6]) ?_, by rw [h1, e1]⟩
    intro t ht
    have := h3 t ht
    rw [e2] at this
    exact h.tasks t this
  cases t with
  | gcWait due =>
    simp only [World.runTask]
    split
    · exact ⟨h.same rfl rfl (unread_append h.tasks (unread_snapshot h)), fun t' h' => by simp at h', rfl⟩
    · exact ⟨h, fun t' h' => by cases h'; trivial, rfl⟩
  | gcPoll rest =>
    cases rest with
    | nil => exact ⟨h, fun t' h' => by cases h'; trivial, rfl⟩
    | cons e rest =>
      obtain ⟨i, f, a⟩ := e
      have hrest : unreadList id rest := fun e he => ht e (List.mem_cons_of_mem _ he)
      simp only [World.runTask]
      split
      · rename_i w' n hq
        obtain ⟨g1, g2⟩ := send a .getCurrentVisitorCount w' (by rw [hq]) (by rw [hq]) (by rw [hq]; exact fun _ h => h)
        split
        · rename_i hz
          refine ⟨g1, fun t' h' => ?_, g2⟩
          cases h'
          refine ⟨?_, hrest⟩
          rintro rfl
          have := ht (i, f, a) List.mem_cons_self rfl
          simp only at this
          subst this
          simp at hz
        · exact ⟨g1, fun t' h' => by cases h'; exact hrest, g2⟩
      · rename_i w' _ _ hq
        obtain ⟨g1, g2⟩ := send a .getCurrentVisitorCount w'.crash (by rw [hq]; rfl) (by rw [hq]; rfl)
          (by simp [World.crash])
        exact ⟨g1, fun t' h' => (by cases h'), g2⟩
  | gcStop i a rest =>
    simp only [World.runTask]
    split
    · rename_i w' hq
      obtain ⟨g1, g2⟩ := send a .stop w' (by rw [hq]) (by rw [hq]) (by rw [hq]; exact fun _ h => h)
      exact ⟨g1, fun t' h' => by cases h'; exact ht, g2⟩
    · rename_i w' _ _ hq
      obtain ⟨g1, g2⟩ := send a .stop w'.crash (by rw [hq]; rfl) (by rw [hq]; rfl) (by simp [World.crash])
      exact ⟨g1, fun t' h' => (by cases h'), g2⟩
  | gcRemove i rest =>
    refine ⟨unread_removeCaptcha none h, fun t' h' => by cases h'; exact ht.2, ?_⟩
    have := view_removeCaptcha w none i id 0 ht.1
    exact congrArg (·.1) this
  | forward tag a =>
    simp only [World.runTask]
    split
    · rename_i w' r hq
      obtain ⟨g1, g2⟩ := send a .addVisitor (w'.answer tag (.visitor (some r))) (by rw [hq]; rfl) (by rw [hq]; rfl)
        (by rw [hq]; exact fun _ h => h)
      exact ⟨g1, fun t' h' => (by cases h'), g2⟩
    · rename_i w' _ _ hq
      obtain ⟨g1, g2⟩ := send a .addVisitor (w'.answer tag (.error .mailboxError)) (by rw [hq]; rfl) (by rw [hq]; rfl)
        (by rw [hq]; exact fun _ h => h)
      exact ⟨g1, fun t' h' => (by cases h'), g2⟩
  | stop tag a =>
    simp only [World.runTask]
    split
    · rename_i w' t hq
      obtain ⟨g1, g2⟩ := send a .stop (w'.answer t .unit) (by rw [hq]; rfl) (by rw [hq]; rfl)
        (by rw [hq]; exact fun _ h => h)
      exact ⟨g1, fun t' h' => (by cases h'), g2⟩
    · rename_i w' _ t _ hq
      obtain ⟨g1, g2⟩ := send a .stop (w'.answer t (.error .mailboxError)) (by rw [hq]; rfl) (by rw [hq]; rfl)
        (by rw [hq]; exact fun _ h => h)
      exact ⟨g1, fun t' h' => (by cases h'), g2⟩
    · rename_i w' _ hq
      obtain ⟨g1, g2⟩ := send a .stop w' (by rw [hq]) (by rw [hq]) (by rw [hq]; exact fun _ h => h)
      exact ⟨g1, fun t' h' => (by cases h'), g2⟩
  | collect tag rest acc =>
    cases rest with
    | nil => exact ⟨h.same rfl rfl h.tasks, fun t' h' => (by cases h'), rfl⟩
    | cons e rest =>
      obtain ⟨i, f, a⟩ := e
      simp only [World.runTask]
      split
      · rename_i w' m hq
        obtain ⟨g1, g2⟩ := send a .getInternalData w' (by rw [hq]) (by rw [hq]) (by rw [hq]; exact fun _ h => h)
        exact ⟨g1, fun t' h' => by cases h'; trivial, g2⟩
      · rename_i w' _ _ hq
        obtain ⟨g1, g2⟩ := send a .getInternalData w' (by rw [hq]) (by rw [hq]) (by rw [hq]; exact fun _ h => h)
        exact ⟨g1, fun t' h' => by cases h'; trivial, g2⟩
  | restoreNew i m =>
    refine ⟨unread_addSite m h, fun t' h' => (by cases h'), ?_⟩
    simp only [World.runTask, World.handleAddSite, Master.addSite]
    exact AMap.get_insert_ne _ _ _ _ ht
  | restoreOld a m =>
    obtain ⟨g1, g2⟩ := send a (.setInternalData m) _ rfl rfl (fun _ h => h)
    exact ⟨g1, fun t' h' => (by cases h'), g2⟩

theorem unread_run {id : SiteId} (p : Profile) (w : World) (i : Nat) (h : Unread id w) :
    Unread id (wstep p w (.run i)) ∧ lookup (wstep p w (.run i)) id = lookup w id := by
  simp only [wstep, World.runAt]
  cases ht : w.tasks[i]? with
  | none => exact ⟨h, rfl⟩
  | some t =>
    have h' : Unread id { w with tasks := w.tasks.eraseIdx i } :=
      h.same rfl rfl (fun t ht => h.tasks t (List.mem_of_mem_eraseIdx ht))
    obtain ⟨g1, g2, g3⟩ := unread_runTask p _ t h' (h.tasks t (List.mem_of_getElem? ht))
    simp only
    split
    · rename_i w' hq
      rw [hq] at g1 g3
      exact ⟨g1, by simp only [lookup, g3]⟩
    · rename_i w' t' hq
      rw [hq] at g1 g2 g3
      refine ⟨g1.same rfl rfl ?_, by simp only [lookup, g3]⟩
      intro x hx
      rcases List.mem_cons.1 hx with rfl | hx
      · exact g2 _ rfl
      · exact g1.tasks x hx

theorem unread_wstep {id : SiteId} (p : Profile) (w : World) (s : WStep) (h : Unread id w) (hl : looksUp id s = false) :
    Unread id (wstep p w s) := by
  cases s with
  | req tag msg =>
    simp only [wstep]
    split
    · exact h.same rfl rfl h.tasks
    · exact unread_handle w tag msg h hl
  | run i => exact (unread_run p w i h).1
  | direct tag a msg =>
    obtain ⟨e1, e2, _, _, _, e6, _⟩ := sendCounter_master p w a msg
    refine h.same (w' := (w.sendCounter p a msg).1.answer tag _) e1 e6 ?_
    intro t ht
    have ht' : t ∈ (w.sendCounter p a msg).1.tasks := ht
    rw [e2] at ht'
    exact h.tasks t ht'
  | tick d => exact h.same rfl rfl h.tasks
  | fire a i =>
    simp only [wstep]
    split
    · exact h
    · exact h.same rfl (by simp) h.tasks

theorem unread_wrun {id : SiteId} (p : Profile) (steps : List WStep) (w : World) (h : Unread id w)
    (hl : ∀ s ∈ steps, looksUp id s = false) : Unread id (wrun p w steps) := by
  induction steps generalizing w with
  | nil => exact h
  | cons s r ih =>
    exact ih _ (unread_wstep p w s h (hl s List.mem_cons_self)) (fun s hs => hl s (List.mem_cons_of_mem _ hs))

theorem unread_init (id : SiteId) (now gc : Nat) : Unread id (World.init now gc) :=
  ⟨wf_init now gc, by intro r a h; simp [World.init, Master.new] at h, by simp [World.init, unreadTask]⟩

/-! ### Counters nobody visits stay at zero -/

/-- The counter counts nobody. -/
def ZeroAt (a : Addr) (w : World) : Prop := ∃ c, w.counters[a]? = some c ∧ c.m.visitors = 0

/-- A message that does not make the counter count anybody. -/
def unfeeding : CounterMsg → Bool
  | .addVisitor => false
  | .setInternalData _ => false
  | _ => true

theorem zero_send (p : Profile) (w : World) (a b : Addr) (msg : CounterMsg) (h : ZeroAt a w)
    (hf : b = a → unfeeding msg = true) : ZeroAt a (w.sendCounter p b msg).1 := by
  obtain ⟨c, hc, hz⟩ := h
  by_cases hb : b = a
  · subst hb
    have hm := hf rfl
    have hlt := (List.getElem?_eq_some_iff.1 hc).1
    cases msg with
    | addVisitor => cases hm
    | setInternalData m => cases hm
    | getCurrentVisitorCount => rw [(sendCounter_read p w b).1]; exact ⟨c, hc, hz⟩
    | getInternalData => rw [(sendCounter_read p w b).2]; exact ⟨c, hc, hz⟩
    | stop =>
      unfold World.sendCounter ZeroAt
      rw [hc]
      by_cases ha : c.alive = true
      · simp only [Counter.send, ha, if_true]
        rw [List.getElem?_set_self hlt]
        exact ⟨_, rfl, hz⟩
      · simp only [Counter.send, ha, if_false, Bool.false_eq_true]
        rw [List.getElem?_set_self hlt]
        exact ⟨_, rfl, hz⟩
  · exact ⟨c, by rw [(sendCounter_master p w b msg).2.2.2.2.2.2 a (fun e => hb e.symm)]; exact hc, hz⟩

theorem zero_append (a : Addr) (w w' : World) (h : ZeroAt a w) (cs : List Counter)
    (he : w'.counters = w.counters ++ cs) : ZeroAt a w' := by
  obtain ⟨c, hc, hz⟩ := h
  refine ⟨c, ?_, hz⟩
  rw [he, List.getElem?_append_left (List.getElem?_eq_some_iff.1 hc).1]; exact hc

theorem zero_wstep (p : Profile) (w : World) (s : WStep) (a : Addr) (h : ZeroAt a w) (hf : feeds w a s = false) :
    ZeroAt a (wstep p w s) := by
  cases s with
  | req tag msg =>
    simp only [wstep]
    split
    · exact h
    · obtain ⟨cs, hcs⟩ := handle_counters w tag msg
      exact zero_append a w _ h cs hcs
  | run i =>
    simp only [wstep, World.runAt]
    cases ht : w.tasks[i]? with
    | none => exact h
    | some t =>
      simp only [feeds, ht] at hf
      have key : ZeroAt a (({ w with tasks := w.tasks.eraseIdx i } : World).runTask p t).1 := by
        rcases runTask_counters p { w with tasks := w.tasks.eraseIdx i } t with ⟨b, msg, h1, h2⟩ | ⟨h1, cs, h2⟩
        · have hz : ZeroAt a (World.sendCounter p { w with tasks := w.tasks.eraseIdx i } b msg).1 := by
            refine zero_send p _ a b msg h ?_
            rintro rfl
            cases t with
            | gcWait due => cases h1
            | gcPoll rest =>
              cases rest with
              | nil => cases h1
              | cons e rest => obtain ⟨i, r, x⟩ := e; simp only [Task.talk] at h1; cases h1; rfl
            | gcStop i x rest => simp only [Task.talk] at h1; cases h1; rfl
            | gcRemove i rest => cases h1
            | forward tag x => simp only [Task.talk] at h1; cases h1; simp at hf
            | stop tag x => simp only [Task.talk] at h1; cases h1; rfl
            | collect tag rest acc =>
              cases rest with
              | nil => cases h1
              | cons e rest => obtain ⟨i, r, x⟩ := e; simp only [Task.talk] at h1; cases h1; rfl
            | restoreNew i m => cases h1
            | restoreOld x m => simp only [Task.talk] at h1; cases h1; simp at hf
          obtain ⟨c, hc, hz'⟩ := hz
          exact ⟨c, by rw [h2]; exact hc, hz'⟩
        · exact zero_append a _ _ h cs h2
      simp only
      split
      · rename_i w' hq; rw [hq] at key; exact key
      · rename_i w' t' hq; rw [hq] at key; exact key
  | direct tag b msg =>
    refine zero_send p w a b msg h ?_
    rintro rfl
    cases msg <;> simp_all [feeds, unfeeding]
  | tick d => exact h
  | fire b i =>
    obtain ⟨c, hc, hz⟩ := h
    simp only [wstep]
    cases hb : w.counters[b]? with
    | none => exact ⟨c, hc, hz⟩
    | some cb =>
      unfold ZeroAt
      simp only [List.getElem?_set]
      by_cases e : b = a
      · subst e
        rw [hc] at hb; cases hb
        rw [if_pos rfl, if_pos (List.getElem?_eq_some_iff.1 hc).1]
        refine ⟨_, rfl, ?_⟩
        rcases fire_cases w.now c i with hf | ⟨t, _, _, _, hf⟩
        · rw [hf]; exact hz
        · rw [hf]; simp only [decrement_eq]; omega
      · rw [if_neg e]; exact ⟨c, hc, hz⟩

theorem zero_wrun (p : Profile) (steps : List WStep) (w : World) (a : Addr) (h : ZeroAt a w)
    (hf : neverFed p a w steps) : ZeroAt a (wrun p w steps) := by
  induction steps generalizing w with
  | nil => exact h
  | cons s r ih => exact ih _ (zero_wstep p w s a h hf.1) hf.2

end MCap
