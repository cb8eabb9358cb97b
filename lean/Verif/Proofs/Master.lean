import Verif.Proofs.AMap
import Verif.Proofs.Counter
import Verif.Spec.Master

namespace MCap
open Spec

/-! ### sending to a counter touches only that counter -/

theorem sendCounter_eq (p : Profile) (w : World) (a : Addr) (msg : CounterMsg) :
    ∃ c, (w.sendCounter p a msg).1 = { w with counters := w.counters.set a c } := by
  unfold World.sendCounter
  split
  · rename_i h
    refine ⟨Counter.start { visitors := 0, defense := { levels := [], cur := 0 }, duration := 0 }, ?_⟩
    rw [List.set_eq_of_length_le (List.getElem?_eq_none_iff.1 h)]
  · split
    · exact ⟨_, rfl⟩
    · exact ⟨_, rfl⟩

/-! ### how the registry can change -/

/-- Registry contents and number of counters. -/
abbrev RegState := AMap SiteId (Bool × Addr) × Nat

/-- Ways the registry changes. -/
inductive RegStep : RegState → RegState → Prop where
  | same (s : RegState) : RegStep s s
  | mark (m : AMap SiteId (Bool × Addr)) (n : Nat) (id : SiteId) (r : Bool) (a : Addr) (h : m.get id = some (r, a)) :
      RegStep (m, n) (m.insert id (true, a), n)
  | add (m : AMap SiteId (Bool × Addr)) (n : Nat) (id : SiteId) : RegStep (m, n) (m.insert id (false, n), n + 1)
  | del (m : AMap SiteId (Bool × Addr)) (n : Nat) (id : SiteId) : RegStep (m, n) (m.erase id, n)
  | mv (m : AMap SiteId (Bool × Addr)) (n : Nat) (id id' : SiteId) (r : Bool) (a : Addr) (h : m.get id = some (r, a)) :
      RegStep (m, n) ((m.erase id).insert id' (false, a), n)
  | trans {a b c : RegState} : RegStep a b → RegStep b c → RegStep a c

/-- Registry part of a world. -/
def World.reg (w : World) : RegState := (w.master.sites, w.counters.length)

theorem reg_sendCounter (p : Profile) (w : World) (a : Addr) (msg : CounterMsg) :
    (w.sendCounter p a msg).1.reg = w.reg := by
  obtain ⟨c, h⟩ := sendCounter_eq p w a msg
  rw [h]; simp [World.reg]

theorem getSite_none (s : Master) (id : SiteId) (h : s.sites.get id = none) : s.getSite id = (s, none) := by
  unfold Master.getSite; rw [h]

theorem getSite_some (s : Master) (id : SiteId) (r : Bool) (a : Addr) (h : s.sites.get id = some (r, a)) :
    s.getSite id = ({ s with sites := s.sites.insert id (true, a) }, some a) := by
  unfold Master.getSite; rw [h]

theorem reg_getSite (w : World) (id : SiteId) :
    RegStep w.reg ((w.master.getSite id).1.sites, w.counters.length) := by
  unfold Master.getSite
  split
  · rename_i r a h
    exact RegStep.mark _ _ id r a h
  · exact RegStep.same _

theorem reg_restoreLoop (w : World) (data : List (SiteId × MCaptcha)) :
    RegStep w.reg (w.restoreLoop data).reg := by
  induction data generalizing w with
  | nil => exact RegStep.same _
  | cons e r ih =>
    obtain ⟨name, m⟩ := e
    have hg := reg_getSite w name
    simp only [World.restoreLoop]
    split
    · rename_i s hs
      rw [hs] at hg
      exact RegStep.trans hg (ih (({ w with master := s } : World).spawn (.restoreNew name m)))
    · rename_i s a hs
      rw [hs] at hg
      exact RegStep.trans hg (ih (({ w with master := s } : World).spawn (.restoreOld a m)))

theorem erase_of_get_none {ν : Type} (m : AMap SiteId ν) (k : SiteId) (h : m.get k = none) : m.erase k = m := by
  unfold AMap.erase
  rw [List.filter_eq_self]
  intro e he
  have := (AMap.get_none_iff m k).1 h
  simp only [decide_eq_true_eq]
  intro hc
  exact this (List.mem_map.2 ⟨e, he, hc⟩)

theorem reg_handle (w : World) (tag : Nat) (msg : MasterMsg) : RegStep w.reg (w.handle tag msg).reg := by
  cases msg with
  | addVisitor id =>
    have hg := reg_getSite w id
    simp only [World.handle, World.handleAddVisitor]
    split
    all_goals exact hg
  | addSite id m =>
    simp only [World.handle, World.handleAddSite, World.reg, World.answer, List.length_append, List.length_singleton,
      Master.addSite]
    exact RegStep.add _ _ id
  | rename a b =>
    simp only [World.handle, World.handleRename, World.reg, World.answer, Master.rename]
    split
    · rename_i r c h
      exact RegStep.mv _ _ a b r c h
    · rename_i h
      rw [erase_of_get_none _ _ h]
      exact RegStep.same _
  | removeCaptcha id =>
    simp only [World.handle, World.handleRemoveCaptcha, Master.rmSite]
    split
    · rename_i s r a h
      simp only [Prod.mk.injEq] at h
      rw [← h.1]
      exact RegStep.del _ _ id
    · rename_i s h
      simp only [Prod.mk.injEq] at h
      rw [← h.1]
      exact RegStep.del _ _ id
  | getSite id => exact reg_getSite w id
  | cleanUp => exact RegStep.same _
  | getInternalData => exact RegStep.same _
  | setInternalData data => exact reg_restoreLoop w data

theorem reg_runTask (p : Profile) (w : World) (t : Task) : RegStep w.reg (w.runTask p t).1.reg := by
  cases t with
  | gcWait due => simp only [World.runTask]; split <;> exact RegStep.same _
  | gcPoll rest =>
    cases rest with
    | nil => exact RegStep.same _
    | cons e rest =>
      obtain ⟨id, r, a⟩ := e
      have hs := reg_sendCounter p w a .getCurrentVisitorCount
      simp only [World.runTask]
      split
      · rename_i w' n h
        rw [h] at hs
        split <;> exact hs ▸ RegStep.same _
      · rename_i w' r h hn
        rw [hn] at hs
        exact hs ▸ RegStep.same _
  | gcStop id a rest =>
    have hs := reg_sendCounter p w a .stop
    simp only [World.runTask]
    split
    · rename_i w' h; rw [h] at hs; exact hs ▸ RegStep.same _
    · rename_i w' r hr h; rw [h] at hs; exact hs ▸ RegStep.same _
  | gcRemove id rest =>
    simp only [World.runTask, World.handleRemoveCaptcha, Master.rmSite]
    split
    · rename_i s r a h
      simp only [Prod.mk.injEq] at h
      rw [← h.1]
      exact RegStep.del _ _ id
    · rename_i s h
      simp only [Prod.mk.injEq] at h
      rw [← h.1]
      exact RegStep.del _ _ id
  | forward tag a =>
    have hs := reg_sendCounter p w a .addVisitor
    simp only [World.runTask]
    split
    · rename_i w' r h; rw [h] at hs; exact hs ▸ RegStep.same _
    · rename_i w' r hr h; rw [h] at hs; exact hs ▸ RegStep.same _
  | stop tag a =>
    have hs := reg_sendCounter p w a .stop
    simp only [World.runTask]
    split
    · rename_i w' t h; rw [h] at hs; exact hs ▸ RegStep.same _
    · rename_i w' r t hr h; rw [h] at hs; exact hs ▸ RegStep.same _
    · rename_i w' r h; rw [h] at hs; exact hs ▸ RegStep.same _
  | collect tag rest acc =>
    cases rest with
    | nil => exact RegStep.same _
    | cons e rest =>
      obtain ⟨id, r, a⟩ := e
      have hs := reg_sendCounter p w a .getInternalData
      simp only [World.runTask]
      split
      · rename_i w' m h; rw [h] at hs; exact hs ▸ RegStep.same _
      · rename_i w' r hr h; rw [h] at hs; exact hs ▸ RegStep.same _
  | restoreNew id m =>
    simp only [World.runTask, World.handleAddSite, World.reg, List.length_append, List.length_singleton,
      Master.addSite]
    exact RegStep.add _ _ id
  | restoreOld a m =>
    have hs := reg_sendCounter p w a (.setInternalData m)
    simp only [World.runTask]
    exact hs ▸ RegStep.same _

theorem reg_wstep (p : Profile) (w : World) (s : WStep) : RegStep w.reg (wstep p w s).reg := by
  cases s with
  | req tag msg =>
    simp only [wstep]
    split
    · exact RegStep.same _
    · exact reg_handle w tag msg
  | run i =>
    simp only [wstep, World.runAt]
    split
    · exact RegStep.same _
    · rename_i t _
      have := reg_runTask p { w with tasks := w.tasks.eraseIdx i } t
      split
      · rename_i w' h; rw [h] at this; exact this
      · rename_i w' t' h; rw [h] at this; exact this
  | direct tag a msg =>
    have hs := reg_sendCounter p w a msg
    simp only [wstep]
    exact hs ▸ RegStep.same _
  | tick d => exact RegStep.same _
  | fire a i =>
    simp only [wstep]
    split
    · exact RegStep.same _
    · simp only [World.reg, List.length_set]; exact RegStep.same _

/-! ### registry invariant -/

/-- Keys are distinct, addresses exist and no two sites share a counter. -/
structure RegWF (s : RegState) : Prop where
  nodup : s.1.keys.Nodup
  bound : ∀ id r a, s.1.get id = some (r, a) → a < s.2
  inj : ∀ id id' r r' a, s.1.get id = some (r, a) → s.1.get id' = some (r', a) → id = id'

theorem RegWF.step {s t : RegState} (h : RegStep s t) (hs : RegWF s) : RegWF t := by
  induction h with
  | same s => exact hs
  | trans _ _ ih1 ih2 => exact ih2 (ih1 hs)
  | mark m n id r a hg =>
    have key : ∀ id' r' a', (m.insert id (true, a)).get id' = some (r', a') → ∃ r'', m.get id' = some (r'', a') := by
      intro id' r' a' h
      rw [AMap.get_insert] at h
      split at h
      · rename_i e; subst e; cases h; exact ⟨r, hg⟩
      · exact ⟨r', h⟩
    refine ⟨AMap.nodup_insert _ _ _ hs.nodup, ?_, ?_⟩
    · intro id' r' a' h
      obtain ⟨r'', h'⟩ := key id' r' a' h
      exact hs.bound _ _ _ h'
    · intro i j r1 r2 a' h1 h2
      obtain ⟨_, h1'⟩ := key i r1 a' h1
      obtain ⟨_, h2'⟩ := key j r2 a' h2
      exact hs.inj _ _ _ _ _ h1' h2'
  | add m n id =>
    refine ⟨AMap.nodup_insert _ _ _ hs.nodup, ?_, ?_⟩
    · intro id' r' a' h
      simp only [AMap.get_insert] at h
      split at h
      · cases h; exact Nat.lt_succ_self _
      · exact Nat.lt_succ_of_lt (hs.bound _ _ _ h)
    · intro i j r1 r2 a' h1 h2
      simp only [AMap.get_insert] at h1 h2
      split at h1 <;> split at h2
      · rename_i e1 e2; exact e1.symm.trans e2
      · cases h1; have := hs.bound _ _ _ h2; simp at this
      · cases h2; have := hs.bound _ _ _ h1; simp at this
      · exact hs.inj _ _ _ _ _ h1 h2
  | del m n id =>
    refine ⟨AMap.nodup_erase _ _ hs.nodup, ?_, ?_⟩
    · intro id' r' a' h
      simp only [AMap.get_erase] at h
      split at h
      · cases h
      · exact hs.bound _ _ _ h
    · intro i j r1 r2 a' h1 h2
      simp only [AMap.get_erase] at h1 h2
      split at h1 <;> split at h2
      · cases h1
      · cases h1
      · cases h2
      · exact hs.inj _ _ _ _ _ h1 h2
  | mv m n id id2 r a hg =>
    have key : ∀ id' r' a', ((m.erase id).insert id2 (false, a)).get id' = some (r', a') →
        (id' = id2 ∧ a' = a) ∨ (id' ≠ id ∧ m.get id' = some (r', a')) := by
      intro id' r' a' h
      rw [AMap.get_insert] at h
      split at h
      · rename_i e; cases h; exact Or.inl ⟨e.symm, rfl⟩
      · rw [AMap.get_erase] at h
        split at h
        · cases h
        · rename_i e; exact Or.inr ⟨fun e' => e e'.symm, h⟩
    refine ⟨AMap.nodup_insert _ _ _ (AMap.nodup_erase _ _ hs.nodup), ?_, ?_⟩
    · intro id' r' a' h
      rcases key _ _ _ h with ⟨_, rfl⟩ | ⟨_, h'⟩
      · exact hs.bound _ _ _ hg
      · exact hs.bound _ _ _ h'
    · intro i j r1 r2 a' h1 h2
      rcases key _ _ _ h1 with ⟨e1, f1⟩ | ⟨n1, g1⟩ <;> rcases key _ _ _ h2 with ⟨e2, f2⟩ | ⟨n2, g2⟩
      · rw [e1, e2]
      · subst f1; exact absurd (hs.inj _ _ _ _ _ g2 hg) n2
      · subst f2; exact absurd (hs.inj _ _ _ _ _ g1 hg) n1
      · exact hs.inj _ _ _ _ _ g1 g2

theorem wf_wrun (p : Profile) (steps : List WStep) (w : World) (h : RegWF w.reg) : RegWF (wrun p w steps).reg := by
  induction steps generalizing w with
  | nil => exact h
  | cons s r ih => exact ih _ (RegWF.step (reg_wstep p w s) h)

theorem wf_init (now gc : Nat) : RegWF (World.init now gc).reg :=
  ⟨by simp [World.reg, World.init, Master.new, AMap.keys],
   by intro id r a h; simp [World.reg, World.init, Master.new] at h,
   by intro i j r1 r2 a h; simp [World.reg, World.init, Master.new] at h⟩

theorem wf_reachable (p : Profile) (w : World) (h : Reachable p w) : RegWF w.reg := by
  obtain ⟨now, gc, steps, rfl⟩ := h
  exact wf_wrun p steps _ (wf_init now gc)

/-! ### lookup -/

theorem lookup_def (w : World) : lookup w = fun id => (w.master.sites.get id).map (·.2) := rfl

theorem lookup_of_get (w : World) (id : SiteId) (r : Bool) (a : Addr) (h : w.master.sites.get id = some (r, a)) :
    lookup w id = some a := by simp [lookup, h]

theorem get_of_lookup (w : World) (id : SiteId) (a : Addr) (h : lookup w id = some a) :
    ∃ r, w.master.sites.get id = some (r, a) := by
  simp only [lookup, Option.map_eq_some_iff] at h
  obtain ⟨⟨r, a'⟩, h, rfl⟩ := h
  exact ⟨r, h⟩

theorem get_none_of_lookup (w : World) (id : SiteId) (h : lookup w id = none) : w.master.sites.get id = none := by
  simpa [lookup] using h

/-- Looking a site up does not change what any id denotes. -/
theorem getSite_lookup (s : Master) (id k : SiteId) :
    ((s.getSite id).1.sites.get k).map (·.2) = (s.sites.get k).map (·.2) := by
  unfold Master.getSite
  split
  · rename_i r a h
    simp only [AMap.get_insert]
    split
    · rename_i e; subst e; rw [h]; rfl
    · rfl
  · rfl

theorem getSite_addr (s : Master) (id : SiteId) : (s.getSite id).2 = (s.sites.get id).map (·.2) := by
  unfold Master.getSite
  split <;> simp_all

theorem lookup_getSite (w : World) (id : SiteId) :
    (fun k => ((w.master.getSite id).1.sites.get k).map (·.2)) = lookup w := by
  funext k; exact getSite_lookup w.master id k

theorem lookup_sendCounter (p : Profile) (w : World) (a : Addr) (msg : CounterMsg) :
    lookup (w.sendCounter p a msg).1 = lookup w ∧
    (w.sendCounter p a msg).1.counters.length = w.counters.length := by
  obtain ⟨c, h⟩ := sendCounter_eq p w a msg
  rw [h]; simp [lookup_def]

theorem lookup_restoreLoop (w : World) (data : List (SiteId × MCaptcha)) :
    lookup (w.restoreLoop data) = lookup w ∧ (w.restoreLoop data).counters.length = w.counters.length := by
  induction data generalizing w with
  | nil => exact ⟨rfl, rfl⟩
  | cons e r ih =>
    obtain ⟨name, m⟩ := e
    have hl := lookup_getSite w name
    simp only [World.restoreLoop]
    split
    all_goals
      rename_i hs
      rw [hs] at hl
      exact ⟨(ih _).1.trans hl, (ih _).2⟩

theorem lookup_erase (w : World) (id : SiteId) :
    (fun k => ((w.master.sites.erase id).get k).map (·.2)) = Reg.del (lookup w) id := by
  funext k
  simp only [Reg.del, AMap.get_erase, lookup]
  by_cases e : k = id
  · subst e; simp
  · rw [if_neg e, if_neg (fun h => e h.symm)]

theorem lookup_removeCaptcha (w : World) (tag : Option Nat) (id : SiteId) :
    lookup (w.handleRemoveCaptcha tag id) = Reg.del (lookup w) id ∧
    (w.handleRemoveCaptcha tag id).counters.length = w.counters.length := by
  have hl := lookup_erase w id
  simp only [World.handleRemoveCaptcha, Master.rmSite]
  split
  · rename_i s r a h
    simp only [Prod.mk.injEq] at h
    rw [← hl, ← h.1]; exact ⟨rfl, rfl⟩
  · rename_i s h
    simp only [Prod.mk.injEq] at h
    rw [← hl, ← h.1]
    split <;> exact ⟨rfl, rfl⟩

theorem lookup_addSite (w : World) (id : SiteId) (m : MCaptcha) :
    lookup (w.handleAddSite id m) = Reg.put (lookup w) id w.counters.length ∧
    (w.handleAddSite id m).counters.length = w.counters.length + 1 := by
  refine ⟨?_, by simp [World.handleAddSite]⟩
  funext k
  simp only [World.handleAddSite, lookup, Master.addSite, Reg.put, AMap.get_insert]
  by_cases e : k = id
  · subst e; simp
  · rw [if_neg e, if_neg (fun h => e h.symm)]

theorem lookup_rename (w : World) (a b : SiteId) :
    (fun k => ((w.master.rename a b).sites.get k).map (·.2)) = Reg.mv (lookup w) a b := by
  funext k
  simp only [Master.rename]
  cases hg : w.master.sites.get a with
  | none =>
    simp only [Reg.mv, lookup, hg, Option.map_none]
    rw [erase_of_get_none _ _ hg]
  | some e =>
    obtain ⟨r0, c⟩ := e
    simp only [Reg.mv, lookup, hg, Option.map_some, Master.addSite, AMap.get_insert, AMap.get_erase]
    by_cases e : k = b
    · subst e; simp
    · have e' : ¬ b = k := fun h => e h.symm
      by_cases g : k = a
      · subst g; simp [e, e']
      · have g' : ¬ a = k := fun h => g h.symm
        simp [e, e', g, g']

/-- Registry effect of a message. -/
theorem lookup_handle (w : World) (tag : Nat) (msg : MasterMsg) (r : List MasterMsg) :
    regAfter (lookup w) w.counters.length (msg :: r) =
      regAfter (lookup (w.handle tag msg)) (w.handle tag msg).counters.length r := by
  cases msg with
  | cleanUp => rfl
  | getInternalData => rfl
  | setInternalData data =>
    obtain ⟨h1, h2⟩ := lookup_restoreLoop w data
    simp only [regAfter, World.handle, World.handleSetInternalData]
    rw [← h1, ← h2]; rfl
  | getSite id =>
    simp only [regAfter]
    rw [← lookup_getSite w id]; rfl
  | addVisitor id =>
    have hl := lookup_getSite w id
    simp only [regAfter, World.handle, World.handleAddVisitor]
    rw [← hl]
    split <;> rfl
  | addSite id m =>
    obtain ⟨h1, h2⟩ := lookup_addSite w id m
    simp only [regAfter]
    rw [← h1, ← h2]; rfl
  | removeCaptcha id =>
    obtain ⟨h1, h2⟩ := lookup_removeCaptcha w (some tag) id
    simp only [regAfter]
    rw [← h1]; simp only [World.handle, h2]
  | rename a b =>
    simp only [regAfter]
    rw [← lookup_rename w a b]; rfl

/-- Registry effect of a task. -/
theorem lookup_runTask (p : Profile) (w : World) (t : Task) (r : List MasterMsg) :
    regAfter (lookup w) w.counters.length
      ((match t with
        | .gcRemove id _ => [.removeCaptcha id]
        | .restoreNew id m => [.addSite id m]
        | .gcWait due => if due ≤ w.now then [.cleanUp] else []
        | _ => []) ++ r) =
      regAfter (lookup (w.runTask p t).1) (w.runTask p t).1.counters.length r := by
  have send : ∀ a msg (w' : World), w'.master = (w.sendCounter p a msg).1.master →
      w'.counters.length = (w.sendCounter p a msg).1.counters.length →
      regAfter (lookup w) w.counters.length r = regAfter (lookup w') w'.counters.length r := by
    intro a msg w' h1 h2
    obtain ⟨g1, g2⟩ := lookup_sendCounter p w a msg
    rw [h2, g2, ← g1]
    simp only [lookup_def, h1]
  cases t with
  | gcWait due =>
    simp only [World.runTask]
    split <;> rfl
  | gcPoll rest =>
    cases rest with
    | nil => rfl
    | cons e rest =>
      obtain ⟨i, f, a⟩ := e
      simp only [List.nil_append, World.runTask]
      split
      · rename_i w' n h
        split <;> exact send a .getCurrentVisitorCount _ (by rw [h]) (by rw [h])
      · rename_i w' _ _ h
        exact send a .getCurrentVisitorCount _ (by rw [h]; rfl) (by rw [h]; rfl)
  | gcStop id a rest =>
    simp only [List.nil_append, World.runTask]
    split
    · rename_i w' h
      exact send a .stop _ (by rw [h]) (by rw [h])
    · rename_i w' _ _ h
      exact send a .stop _ (by rw [h]; rfl) (by rw [h]; rfl)
  | gcRemove id rest =>
    obtain ⟨h1, h2⟩ := lookup_removeCaptcha w none id
    simp only [List.cons_append, List.nil_append, regAfter, World.runTask]
    rw [← h1, ← h2]
  | forward tag a =>
    simp only [List.nil_append, World.runTask]
    split
    · rename_i w' _ h
      exact send a .addVisitor _ (by rw [h]; rfl) (by rw [h]; rfl)
    · rename_i w' _ _ h
      exact send a .addVisitor _ (by rw [h]; rfl) (by rw [h]; rfl)
  | stop tag a =>
    simp only [List.nil_append, World.runTask]
    split
    · rename_i h; exact send a .stop _ (by rw [h]; rfl) (by rw [h]; rfl)
    · rename_i h; exact send a .stop _ (by rw [h]; rfl) (by rw [h]; rfl)
    · rename_i h; exact send a .stop _ (by rw [h]) (by rw [h])
  | collect tag rest acc =>
    cases rest with
    | nil => rfl
    | cons e rest =>
      obtain ⟨i, f, a⟩ := e
      simp only [List.nil_append, World.runTask]
      split
      · rename_i h; exact send a .getInternalData _ (by rw [h]) (by rw [h])
      · rename_i h; exact send a .getInternalData _ (by rw [h]) (by rw [h])
  | restoreNew id m =>
    obtain ⟨h1, h2⟩ := lookup_addSite w id m
    simp only [List.cons_append, List.nil_append, regAfter, World.runTask]
    rw [← h1, ← h2]
  | restoreOld a m =>
    exact send a (.setInternalData m) _ rfl rfl

/-- Registry effect of a step. -/
theorem lookup_wstep (p : Profile) (w : World) (s : WStep) (r : List MasterMsg) :
    regAfter (lookup w) w.counters.length (handled w s ++ r) =
      regAfter (lookup (wstep p w s)) (wstep p w s).counters.length r := by
  cases s with
  | tick d => rfl
  | direct tag a msg =>
    obtain ⟨h1, h2⟩ := lookup_sendCounter p w a msg
    simp only [handled, List.nil_append, wstep]
    rw [← h1, ← h2]; rfl
  | fire a i =>
    simp only [handled, List.nil_append, wstep]
    split
    · rfl
    · simp only [List.length_set]; rfl
  | req tag msg =>
    simp only [handled, wstep]
    split
    · rfl
    · exact lookup_handle w tag msg r
  | run i =>
    simp only [handled, wstep, World.runAt]
    cases ht : w.tasks[i]? with
    | none => rfl
    | some t =>
      have h := lookup_runTask p { w with tasks := w.tasks.eraseIdx i } t r
      refine Eq.trans (Eq.trans ?_ h) ?_
      · cases t <;> rfl
      · simp only
        split <;> rename_i hq <;> rw [hq] <;> rfl

theorem lookup_wrun (p : Profile) (steps : List WStep) (w : World) :
    lookup (wrun p w steps) = regAfter (lookup w) w.counters.length (handledAll p w steps) := by
  induction steps generalizing w with
  | nil => rfl
  | cons s r ih =>
    simp only [handledAll, wrun]
    rw [ih, ← lookup_wstep]

end MCap
