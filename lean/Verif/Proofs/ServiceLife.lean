import Verif.Proofs.ServiceCounter

/-!
# Every run of a service keeps its counters accounted for
-/

namespace MCap
open Spec

theorem sendCounter_counters (p : Profile) (w : World) (ts : List Task) (a : Addr) (msg : CounterMsg) :
    (({ w with tasks := ts } : World).sendCounter p a msg).1.counters = (w.sendCounter p a msg).1.counters := by
  unfold World.sendCounter
  cases h : w.counters[a]? with
  | none => simp only [h]
  | some c => simp only [h]; split <;> rfl

theorem restoreLoop_clock (w : World) (data : List (SiteId × MCaptcha)) : (w.restoreLoop data).now = w.now := by
  induction data generalizing w with
  | nil => rfl
  | cons e r ih =>
    obtain ⟨n, m⟩ := e
    simp only [World.restoreLoop]
    split <;> rw [ih] <;> rfl

theorem removeCaptcha_clock (w : World) (tag : Option Nat) (id : SiteId) : (w.handleRemoveCaptcha tag id).now = w.now := by
  unfold World.handleRemoveCaptcha
  split
  · rfl
  · split <;> rfl

theorem handle_clock (w : World) (tag : Nat) (msg : MasterMsg) : (w.handle tag msg).now = w.now := by
  cases msg with
  | addVisitor i => simp only [World.handle, World.handleAddVisitor]; split <;> rfl
  | removeCaptcha i => exact removeCaptcha_clock _ _ _
  | setInternalData data => simp only [World.handle, World.handleSetInternalData, World.answer, restoreLoop_clock]
  | _ => rfl

theorem handle_same (w : World) (tag : Nat) (msg : MasterMsg) (h : ∀ id m, msg ≠ .addSite id m) : (w.handle tag msg).counters = w.counters := by
  cases msg with
  | addVisitor i => simp only [World.handle, World.handleAddVisitor]; split <;> rfl
  | addSite i m => exact absurd rfl (h i m)
  | removeCaptcha i => exact removeCaptcha_counters _ _ _
  | setInternalData data => simp only [World.handle, World.handleSetInternalData, World.answer, restoreLoop_counters]
  | _ => rfl

theorem runTask_clock (p : Profile) (w : World) (t : Task) : (w.runTask p t).1.now = w.now := by
  have hs : ∀ a msg, (w.sendCounter p a msg).1.now = w.now := fun a msg => (sendCounter_master p w a msg).2.2.1
  cases t with
  | gcWait due => simp only [World.runTask]; split <;> rfl
  | gcPoll rest =>
    cases rest with
    | nil => rfl
    | cons e rest =>
      obtain ⟨i, r, b⟩ := e
      have := hs b .getCurrentVisitorCount
      simp only [World.runTask]
      split
      · rename_i hh; rw [hh] at this; split <;> exact this
      · rename_i hh; rw [hh] at this; exact this
  | gcStop i b rest =>
    have := hs b .stop
    simp only [World.runTask]
    split <;> (rename_i hh; rw [hh] at this; exact this)
  | gcRemove i rest => exact removeCaptcha_clock _ _ _
  | forward tag b =>
    have := hs b .addVisitor
    simp only [World.runTask]
    split <;> (rename_i hh; rw [hh] at this; exact this)
  | stop tag b =>
    have := hs b .stop
    simp only [World.runTask]
    split <;> (rename_i hh; rw [hh] at this; exact this)
  | collect tag rest acc =>
    cases rest with
    | nil => rfl
    | cons e rest =>
      obtain ⟨i, r, b⟩ := e
      have := hs b .getInternalData
      simp only [World.runTask]
      split <;> (rename_i hh; rw [hh] at this; exact this)
  | restoreNew i m => rfl
  | restoreOld b m => exact hs _ _

theorem runTask_quiet (p : Profile) (w : World) (t : Task) (h : t.talk = none) (hn : ∀ id m, t ≠ .restoreNew id m) :
    (w.runTask p t).1.counters = w.counters := by
  cases t with
  | gcWait due => simp only [World.runTask]; split <;> rfl
  | gcPoll rest =>
    cases rest with
    | nil => rfl
    | cons e rest => cases h
  | gcRemove i rest => exact removeCaptcha_counters _ _ _
  | collect tag rest acc =>
    cases rest with
    | nil => rfl
    | cons e rest => cases h
  | restoreNew i m => exact absurd rfl (hn i m)
  | gcStop i b rest => cases h
  | forward tag b => cases h
  | stop tag b => cases h
  | restoreOld b m => cases h

/-- The counters and the log fit, and so does every answer so far. -/
def CAcc (p : Profile) (w : World) (log : List VEvent) : Prop := CLife p w log ∧ ∀ pre e post, log = pre ++ e :: post → CWhy p pre e

theorem cacc_quiet {p : Profile} {w w' : World} {log : List VEvent} (h : CAcc p w log) (ev : List VEvent) (hc : w'.counters = w.counters)
    (hn : w'.now = w.now) (hr : registrations ev = []) (he : ∀ who a t m r, .counter who a t m r ∉ ev) : CAcc p w' (log ++ ev) := by
  refine ⟨clife_quiet h.1 ev hc hn hr he, prefix_extend h.2 ev ?_⟩
  intro ev1 e ev2 hs
  cases e with
  | counter who a t m r => exact absurd (by rw [hs]; simp) (he who a t m r)
  | _ => trivial

theorem cacc_world {p : Profile} {w : World} {log : List VEvent} (h : CAcc p w log) (s : WStep) :
    CAcc p (wstep p w s) (log ++ Service.worldEvents p w s) := by
  cases s with
  | tick d =>
    have e : Service.worldEvents p w (.tick d) = [] := rfl
    rw [e, List.append_nil]
    exact ⟨clife_tick h.1 d, h.2⟩
  | fire a i =>
    have e : Service.worldEvents p w (.fire a i) = [] := rfl
    rw [e, List.append_nil]
    exact ⟨clife_fire h.1 a i, h.2⟩
  | direct t a msg =>
    have e : Service.worldEvents p w (.direct t a msg) = [.counter none a w.now msg (w.sendCounter p a msg).2] := rfl
    rw [e]
    have := clife_send (p := p) (w' := wstep p w (.direct t a msg)) h.1 none a msg rfl (sendCounter_master p w a msg).2.2.1
    exact ⟨this.1, prefix_snoc h.2 _ this.2⟩
  | req t msg =>
    by_cases hcr : w.crashed = true
    · have e : Service.worldEvents p w (.req t msg) = [] := by simp [Service.worldEvents, Service.toCounter, Service.toMaster, hcr]
      rw [e, List.append_nil]
      have hw : wstep p w (.req t msg) = w.answer t .mailboxError := by simp [wstep, hcr]
      rw [hw]
      simpa using cacc_quiet (w' := w.answer t .mailboxError) h [] rfl rfl rfl (by simp)
    · have e : Service.worldEvents p w (.req t msg) = [.master msg] := by simp [Service.worldEvents, Service.toCounter, Service.toMaster, hcr]
      have hw : wstep p w (.req t msg) = w.handle t msg := by simp [wstep, hcr]
      rw [e, hw]
      by_cases hm : ∃ id m, msg = .addSite id m
      · obtain ⟨id, m, rfl⟩ := hm
        exact ⟨clife_add h.1 id m rfl rfl, prefix_snoc h.2 _ trivial⟩
      · refine cacc_quiet h _ (handle_same w t msg fun id m e => hm ⟨id, m, e⟩) (handle_clock w t msg) ?_ (by simp)
        cases msg with
        | addSite id m => exact absurd ⟨id, m, rfl⟩ hm
        | _ => rfl
  | run k =>
    cases ht : w.tasks[k]? with
    | none =>
      have e : Service.worldEvents p w (.run k) = [] := by simp [Service.worldEvents, Service.toCounter, Service.toMaster, ht]
      rw [e, List.append_nil]
      have hw : wstep p w (.run k) = w := by simp [wstep, World.runAt, ht]
      rw [hw]; exact h
    | some t =>
      have hcs : (wstep p w (.run k)).counters = (({ w with tasks := w.tasks.eraseIdx k } : World).runTask p t).1.counters := by
        simp only [wstep, World.runAt, ht]
        split <;> (rename_i hh; rw [hh])
      have hck : (wstep p w (.run k)).now = w.now := by
        have := runTask_clock p ({ w with tasks := w.tasks.eraseIdx k } : World) t
        simp only [wstep, World.runAt, ht]
        split <;> (rename_i hh; rw [hh] at this; exact this)
      rcases runTask_counters p ({ w with tasks := w.tasks.eraseIdx k } : World) t with ⟨a, msg, htalk, hc⟩ | ⟨htalk, -⟩
      · rw [sendCounter_counters] at hc
        have e : ∃ who, Service.worldEvents p w (.run k) = [.counter who a w.now msg (w.sendCounter p a msg).2] := by
          simp only [Service.worldEvents, Service.toCounter, Service.toMaster, ht]
          cases t with
          | gcPoll rest =>
            cases rest with
            | nil => cases htalk
            | cons e rest => obtain ⟨i, r, b⟩ := e; cases htalk; exact ⟨_, rfl⟩
          | collect tag rest acc =>
            cases rest with
            | nil => cases htalk
            | cons e rest => obtain ⟨i, r, b⟩ := e; cases htalk; exact ⟨_, rfl⟩
          | gcWait due => cases htalk
          | gcRemove i rest => cases htalk
          | restoreNew i m => cases htalk
          | gcStop i b rest => cases htalk; exact ⟨_, rfl⟩
          | forward tag b => cases htalk; exact ⟨_, rfl⟩
          | stop tag b => cases htalk; exact ⟨_, rfl⟩
          | restoreOld b m => cases htalk; exact ⟨_, rfl⟩
        obtain ⟨who, e⟩ := e
        rw [e]
        have := clife_send (p := p) (w' := wstep p w (.run k)) h.1 who a msg (by rw [hcs, hc]) hck
        exact ⟨this.1, prefix_snoc h.2 _ this.2⟩
      · by_cases hn : ∃ id m, t = .restoreNew id m
        · obtain ⟨id, m, rfl⟩ := hn
          have e : Service.worldEvents p w (.run k) = [.master (.addSite id m)] := by
            simp [Service.worldEvents, Service.toCounter, Service.toMaster, ht]
          rw [e]
          exact ⟨clife_add h.1 id m (by rw [hcs]; rfl) hck, prefix_snoc h.2 _ trivial⟩
        · have hq := runTask_quiet p ({ w with tasks := w.tasks.eraseIdx k } : World) t htalk fun id m e => hn ⟨id, m, e⟩
          refine cacc_quiet h _ (by rw [hcs, hq]) hck ?_ ?_
          · simp only [Service.worldEvents, Service.toCounter, Service.toMaster, ht]
            cases t with
            | gcPoll rest =>
              cases rest with
              | nil => rfl
              | cons e rest => cases htalk
            | collect tag rest acc =>
              cases rest with
              | nil => rfl
              | cons e rest => cases htalk
            | gcWait due => simp only; split <;> rfl
            | gcRemove i rest => rfl
            | restoreNew i m => exact absurd ⟨i, m, rfl⟩ hn
            | gcStop i b rest => cases htalk
            | forward tag b => cases htalk
            | stop tag b => cases htalk
            | restoreOld b m => cases htalk
          · intro who a t' m r hm
            simp only [Service.worldEvents, Service.toCounter, Service.toMaster, ht] at hm
            cases t with
            | gcPoll rest =>
              cases rest with
              | nil => simp at hm
              | cons e rest => cases htalk
            | collect tag rest acc =>
              cases rest with
              | nil => simp at hm
              | cons e rest => cases htalk
            | gcWait due => simp only at hm; split at hm <;> simp at hm
            | gcRemove i rest => simp at hm
            | restoreNew i m => simp at hm
            | gcStop i b rest => cases htalk
            | forward tag b => cases htalk
            | stop tag b => cases htalk
            | restoreOld b m => cases htalk

theorem cacc_step {lib : PowLib} {p : Profile} {v : Service} {log : List VEvent} (h : CAcc p v.world log) (x : VStep) :
    CAcc p (vStep lib p v x).1.world (log ++ (vStep lib p v x).2) := by
  have h0 : CAcc p v.world (log ++ []) := by rw [List.append_nil]; exact h
  have hapi : ∀ (ev : List SEvent), CAcc p v.world (log ++ ev.map .api) := by
    intro ev
    refine cacc_quiet h _ rfl rfl ?_ (by simp)
    rw [registrations, masterMsgs_api]; rfl
  unfold vStep
  split
  · exact h0
  cases x with
  | sys s =>
    simp only
    split
    · exact hapi _
    · exact h0
  | hear i g =>
    simp only
    split
    · exact hapi _
    · exact h0
  | world s =>
    simp only
    split
    · exact cacc_world h _
    · exact h0
  | tick d => exact cacc_world (p := p) h (.tick d)
  | ask i =>
    simp only
    split
    · split
      · rename_i id _ _
        split
        · exact h0
        · have hq : ∀ (x : WStep), x = .req (2 * i) (.addVisitor id) → (wstep p v.world x).counters = v.world.counters ∧
              (wstep p v.world x).now = v.world.now := by
            rintro _ rfl
            simp only [wstep]
            split
            · exact ⟨rfl, rfl⟩
            · exact ⟨handle_same _ _ _ (by simp), handle_clock _ _ _⟩
          obtain ⟨h1, h2⟩ := hq _ rfl
          refine cacc_quiet h _ h1 h2 ?_ ?_
          · split <;> rfl
          · intro who a t m r hm
            split at hm <;> simp at hm
      · exact h0
    · exact h0

theorem cacc_run (lib : PowLib) (p : Profile) (n ql gc now : Nat) (steps : List VStep) :
    CAcc p (vRun lib p (Service.new n ql gc now) steps).1.world (vRun lib p (Service.new n ql gc now) steps).2 := by
  have h0 : CAcc p (Service.new n ql gc now).world [] :=
    ⟨{ len := rfl
       life := by intro a c h; simp [Service.new, World.init] at h
       conf := by intro a c h; simp [Service.new, World.init] at h
       fresh := by intro a who t m r h; simp at h }, by intro pre e post h; simp at h⟩
  have h := vRun_inv (lib := lib) (p := p) (P := fun v log => CAcc p v.world log)
    (fun v log x h => cacc_step h x) steps (Service.new n ql gc now) [] h0
  simpa using h

end MCap
