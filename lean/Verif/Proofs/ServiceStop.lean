import Verif.Spec.ServiceStop
import Verif.Proofs.ServiceLife

/-!
# Why counters are gone
-/

namespace MCap
open Spec

/-- What a step of the master, its tasks and its counters does to the counters. -/
theorem world_kinds (p : Profile) (w : World) (s : WStep) :
    ((wstep p w s).counters = w.counters ∧ (wstep p w s).now = w.now ∧ registrations (Service.worldEvents p w s) = [] ∧
      ∀ who a t m r, .counter who a t m r ∉ Service.worldEvents p w s) ∨
    (∃ d, s = .tick d) ∨ (∃ a i, s = .fire a i) ∨
    (∃ who a msg, Service.worldEvents p w s = [.counter who a w.now msg (w.sendCounter p a msg).2] ∧
      (wstep p w s).counters = (w.sendCounter p a msg).1.counters ∧ (wstep p w s).now = w.now) ∨
    ∃ id m, Service.worldEvents p w s = [.master (.addSite id m)] ∧ (wstep p w s).counters = w.counters ++ [Counter.start m] ∧
      (wstep p w s).now = w.now := by
  cases s with
  | tick d => exact .inr (.inl ⟨d, rfl⟩)
  | fire a i => exact .inr (.inr (.inl ⟨a, i, rfl⟩))
  | direct t a msg => exact .inr (.inr (.inr (.inl ⟨none, a, msg, rfl, rfl, (sendCounter_master p w a msg).2.2.1⟩)))
  | req t msg =>
    by_cases hcr : w.crashed = true
    · have e : Service.worldEvents p w (.req t msg) = [] := by simp [Service.worldEvents, Service.toCounter, Service.toMaster, hcr]
      have hw : wstep p w (.req t msg) = w.answer t .mailboxError := by simp [wstep, hcr]
      rw [e, hw]
      exact .inl ⟨rfl, rfl, rfl, by simp⟩
    · have e : Service.worldEvents p w (.req t msg) = [.master msg] := by simp [Service.worldEvents, Service.toCounter, Service.toMaster, hcr]
      have hw : wstep p w (.req t msg) = w.handle t msg := by simp [wstep, hcr]
      rw [e, hw]
      by_cases hm : ∃ id m, msg = .addSite id m
      · obtain ⟨id, m, rfl⟩ := hm
        exact .inr (.inr (.inr (.inr ⟨id, m, rfl, rfl, rfl⟩)))
      · refine .inl ⟨handle_same w t msg fun id m e => hm ⟨id, m, e⟩, handle_clock w t msg, ?_, by simp⟩
        cases msg with
        | addSite id m => exact absurd ⟨id, m, rfl⟩ hm
        | _ => rfl
  | run k =>
    cases ht : w.tasks[k]? with
    | none =>
      have e : Service.worldEvents p w (.run k) = [] := by simp [Service.worldEvents, Service.toCounter, Service.toMaster, ht]
      have hw : wstep p w (.run k) = w := by simp [wstep, World.runAt, ht]
      rw [e, hw]
      exact .inl ⟨rfl, rfl, rfl, by simp⟩
    | some t =>
      have hcs : (wstep p w (.run k)).counters = (({ w with tasks := w.tasks.eraseIdx k } : World).runTask p t).1.counters := by
        simp only [wstep, World.runAt, ht]
        split <;> (rename_i hh; rw [hh])
      have hck : (wstep p w (.run k)).now = w.now := by
        have := runTask_clock p ({ w with tasks := w.tasks.eraseIdx k } : World) t
        simp only [wstep, World.runAt, ht]
        split <;> (rename_i hh; rw [hh] at this; exact this)
      rcases runTask_counters p ({ w with tasks := w.tasks.eraseIdx k } : World) t with ⟨a, msg, htalk, hc⟩ | ⟨htalk, -⟩
      · rw [sendCounter_counters] at hc
        have e : ∃ who, Service.worldEvents p w (.run k) = [.counter who a w.now msg (w.sendCounter p a msg).2] := by
          simp only [Service.worldEvents, Service.toCounter, Service.toMaster, ht]
          cases t with
          | gcPoll rest =>
            cases rest with
            | nil => cases htalk
            | cons e rest => obtain ⟨i, r, b⟩ := e; cases htalk; exact ⟨_, rfl⟩
          | collect tag rest acc =>
            cases rest with
            | nil => cases htalk
            | cons e rest => obtain ⟨i, r, b⟩ := e; cases htalk; exact ⟨_, rfl⟩
          | gcWait due => cases htalk
          | gcRemove i rest => cases htalk
          | restoreNew i m => cases htalk
          | gcStop i b rest => cases htalk; exact ⟨_, rfl⟩
          | forward tag b => cases htalk; exact ⟨_, rfl⟩
          | stop tag b => cases htalk; exact ⟨_, rfl⟩
          | restoreOld b m => cases htalk; exact ⟨_, rfl⟩
        obtain ⟨who, e⟩ := e
        exact .inr (.inr (.inr (.inl ⟨who, a, msg, e, by rw [hcs, hc], hck⟩)))
      · by_cases hn : ∃ id m, t = .restoreNew id m
        · obtain ⟨id, m, rfl⟩ := hn
          have e : Service.worldEvents p w (.run k) = [.master (.addSite id m)] := by
            simp [Service.worldEvents, Service.toCounter, Service.toMaster, ht]
          exact .inr (.inr (.inr (.inr ⟨id, m, e, by rw [hcs]; rfl, hck⟩)))
        · have hq := runTask_quiet p ({ w with tasks := w.tasks.eraseIdx k } : World) t htalk fun id m e => hn ⟨id, m, e⟩
          refine .inl ⟨by rw [hcs, hq], hck, ?_, ?_⟩
          · simp only [Service.worldEvents, Service.toCounter, Service.toMaster, ht]
            cases t with
            | gcPoll rest =>
              cases rest with
              | nil => rfl
              | cons e rest => cases htalk
            | collect tag rest acc =>
              cases rest with
              | nil => rfl
              | cons e rest => cases htalk
            | gcWait due => simp only; split <;> rfl
            | gcRemove i rest => rfl
            | restoreNew i m => exact absurd ⟨i, m, rfl⟩ hn
            | gcStop i b rest => cases htalk
            | forward tag b => cases htalk
            | stop tag b => cases htalk
            | restoreOld b m => cases htalk
          · intro who a t' m r hm
            simp only [Service.worldEvents, Service.toCounter, Service.toMaster, ht] at hm
            cases t with
            | gcPoll rest =>
              cases rest with
              | nil => simp at hm
              | cons e rest => cases htalk
            | collect tag rest acc =>
              cases rest with
              | nil => simp at hm
              | cons e rest => cases htalk
            | gcWait due => simp only at hm; split at hm <;> simp at hm
            | gcRemove i rest => simp at hm
            | restoreNew i m => simp at hm
            | gcStop i b rest => cases htalk
            | forward tag b => cases htalk
            | stop tag b => cases htalk
            | restoreOld b m => cases htalk

/-! ### Counters do not die by themselves -/

theorem stoppedIn_mono {a : Addr} {log : List VEvent} (ev : List VEvent) (h : StoppedIn a log) : StoppedIn a (log ++ ev) := by
  obtain ⟨who, t, h⟩ := h
  exact ⟨who, t, List.mem_append_left _ h⟩

theorem sound_left {a : Addr} {n : Nat} {log ev : List VEvent} (h : Sound a n (log ++ ev)) : Sound a n log := by
  obtain ⟨h1, h2⟩ := h
  refine ⟨fun m hm => h1 m (configured_mono ev hm), ?_⟩
  rw [countedAt_append, List.length_append] at h2
  omega

/-- A sound counter that lives can count a visitor; one that is dead has been stopped. -/
def DeadInv (w : World) (log : List VEvent) : Prop :=
  ∀ (a : Nat) (c : Counter) (n : Nat), w.counters[a]? = some c → Sound a n log →
    (c.alive = true → MValid c.m ∧ c.m.visitors ≤ n + (countedAt a log).length) ∧ (c.alive = false → StoppedIn a log)

def DeadWhy (pre : List VEvent) : VEvent → Prop
  | .counter _ a _ .addVisitor .mailboxError => ∀ n, Sound a n pre → a < (registrations pre).length → StoppedIn a pre
  | _ => True

structure DAcc (p : Profile) (w : World) (log : List VEvent) : Prop where
  len : w.counters.length = (registrations log).length
  dead : DeadInv w log
  why : ∀ pre e post, log = pre ++ e :: post → DeadWhy pre e

theorem countedAt_le (a : Addr) (log ev : List VEvent) : (countedAt a log).length ≤ (countedAt a (log ++ ev)).length := by
  rw [countedAt_append, List.length_append]; omega

theorem dacc_quiet {p : Profile} {w w' : World} {log : List VEvent} (h : DAcc p w log) (ev : List VEvent) (hc : w'.counters = w.counters)
    (hr : registrations ev = []) (he : ∀ who a t m r, .counter who a t m r ∉ ev) : DAcc p w' (log ++ ev) where
  len := by rw [hc, registrations_append, hr, List.append_nil]; exact h.len
  dead a c n hac hs := by
    obtain ⟨h1, h2⟩ := h.dead a c n (by rw [← hc]; exact hac) (sound_left hs)
    have := countedAt_le a log ev
    exact ⟨fun ha => ⟨(h1 ha).1, by have := (h1 ha).2; omega⟩, fun ha => stoppedIn_mono ev (h2 ha)⟩
  why := by
    refine prefix_extend h.why ev ?_
    intro ev1 e ev2 hs
    cases e with
    | counter who a t m r => exact absurd (by rw [hs]; simp) (he who a t m r)
    | _ => trivial

theorem dacc_send {p : Profile} {w w' : World} {log : List VEvent} (h : DAcc p w log) (who : Option Nat) (a : Addr) (msg : CounterMsg)
    (hc : w'.counters = (w.sendCounter p a msg).1.counters) :
    DAcc p w' (log ++ [.counter who a w.now msg (w.sendCounter p a msg).2]) := by
  have hreg : registrations [VEvent.counter who a w.now msg (w.sendCounter p a msg).2] = [] := rfl
  refine ⟨by rw [hc, (sendCounter_master p w a msg).2.2.2.2.2.1, registrations_append, hreg, List.append_nil]; exact h.len, ?_,
    prefix_snoc h.why _ ?_⟩
  · intro b c' n hb hs
    rw [hc] at hb
    have hle := countedAt_le b log [.counter who a w.now msg (w.sendCounter p a msg).2]
    by_cases hba : b = a
    · subst hba
      have hlt : b < w.counters.length := by
        rw [← (sendCounter_master p w b msg).2.2.2.2.2.1]; exact lt_of_some hb
      have hget := List.getElem?_eq_getElem hlt
      generalize hcc : w.counters[b] = c at hget
      obtain ⟨hal, hdd⟩ := h.dead b c n hget (sound_left hs)
      have hrep : (w.sendCounter p b msg).2 = match c.send p w.now msg with | .ret (_, r) => r | .panic _ => .mailboxError := by
        unfold World.sendCounter; rw [hget]; simp only; split <;> (rename_i hh; rw [hh])
      have hcnt : c' = match c.send p w.now msg with | .ret (c1, _) => c1 | .panic _ => { c with alive := false, timers := [] } := by
        unfold World.sendCounter at hb
        rw [hget] at hb
        simp only at hb
        split at hb <;> (rename_i hh; simp only [List.getElem?_set_self hlt, Option.some.injEq] at hb; rw [← hb, hh])
      by_cases hca : c.alive = true
      · obtain ⟨hmv, hvis⟩ := hal hca
        cases msg with
        | addVisitor =>
          have hs2 := (sound_left hs).2
          obtain ⟨m', -, hm', hv', -, -, d, -, hsend⟩ := send_addVisitor p w.now c hca hmv (by simp only [u32Size]; omega)
          rw [hsend] at hcnt hrep
          simp only at hcnt hrep
          subst hcnt
          rw [hrep]
          refine ⟨fun _ => ⟨hm', ?_⟩, fun h => by cases h⟩
          rw [countedAt_append, List.length_append]
          simp only [hv', countedAt, List.filterMap_cons, if_true, List.filterMap_nil, List.length_cons, List.length_nil]
          simp only [countedAt] at hvis
          omega
        | getCurrentVisitorCount =>
          simp only [Counter.send, hca, if_true] at hcnt
          subst hcnt
          exact ⟨fun _ => ⟨hmv, by omega⟩, fun hf => by rw [hca] at hf; cases hf⟩
        | getInternalData =>
          simp only [Counter.send, hca, if_true] at hcnt
          subst hcnt
          exact ⟨fun _ => ⟨hmv, by omega⟩, fun hf => by rw [hca] at hf; cases hf⟩
        | setInternalData m =>
          simp only [Counter.send, hca, if_true] at hcnt hrep
          subst hcnt
          rw [hrep] at hs ⊢
          obtain ⟨hm1, hm2⟩ := hs.1 m (.inr ⟨who, w.now, by simp⟩)
          refine ⟨fun _ => ⟨hm1, ?_⟩, fun hf => ?_⟩
          · show m.visitors ≤ _
            omega
          · simp only [Counter.handleSetInternalData] at hf
            rw [hca] at hf; cases hf
        | stop =>
          simp only [Counter.send, hca, if_true] at hcnt hrep
          subst hcnt
          rw [hrep]
          exact ⟨fun hf => Bool.noConfusion hf, fun _ => ⟨who, w.now, by simp⟩⟩
      · have hcf : c.alive = false := by simpa using hca
        simp only [Counter.send, hcf, Bool.false_eq_true, if_false] at hcnt
        subst hcnt
        exact ⟨fun hf => absurd hf hca, fun _ => stoppedIn_mono _ (hdd hcf)⟩
    · rw [(sendCounter_master p w a msg).2.2.2.2.2.2 b hba] at hb
      obtain ⟨h1, h2⟩ := h.dead b c' n hb (sound_left hs)
      exact ⟨fun ha => ⟨(h1 ha).1, by have := (h1 ha).2; omega⟩, fun ha => stoppedIn_mono _ (h2 ha)⟩
  · cases msg <;> try trivial
    cases hr : (w.sendCounter p a .addVisitor).2 <;> try trivial
    intro n hs hlt
    rw [← h.len] at hlt
    have hget := List.getElem?_eq_getElem hlt
    generalize hcc : w.counters[a] = c at hget
    obtain ⟨hal, hdd⟩ := h.dead a c n hget hs
    by_cases hca : c.alive = true
    · obtain ⟨hmv, hvis⟩ := hal hca
      have hs2 := hs.2
      obtain ⟨m', -, -, -, -, -, d, -, hsend⟩ := send_addVisitor p w.now c hca hmv (by simp only [u32Size]; omega)
      unfold World.sendCounter at hr
      rw [hget] at hr
      simp [hsend] at hr
    · exact hdd (by simpa using hca)

theorem dacc_world {p : Profile} {w : World} {log : List VEvent} (h : DAcc p w log) (s : WStep) :
    DAcc p (wstep p w s) (log ++ Service.worldEvents p w s) := by
  rcases world_kinds p w s with ⟨h1, -, h3, h4⟩ | ⟨d, rfl⟩ | ⟨a, i, rfl⟩ | ⟨who, a, msg, h1, h2, -⟩ | ⟨id, m, h1, h2, -⟩
  · exact dacc_quiet h _ h1 h3 h4
  · have e : Service.worldEvents p w (.tick d) = [] := rfl
    rw [e, List.append_nil]
    exact ⟨h.len, h.dead, h.why⟩
  · have e : Service.worldEvents p w (.fire a i) = [] := rfl
    rw [e, List.append_nil]
    refine ⟨?_, ?_, h.why⟩
    · simp only [wstep]
      split
      · exact h.len
      · simp only [List.length_set]; exact h.len
    intro b c n hb hs
    simp only [wstep] at hb
    split at hb
    · exact h.dead b c n hb hs
    · rename_i c0 hc0
      simp only [List.getElem?_set] at hb
      split at hb
      · rename_i e
        subst e
        simp only [lt_of_some hc0, if_true, Option.some.injEq] at hb
        obtain ⟨k1, k2⟩ := h.dead a c0 n hc0 hs
        subst hb
        rcases fire_cases w.now c0 i with hf | ⟨t, ha, -, -, hf⟩
        · rw [hf]; exact ⟨k1, k2⟩
        · rw [hf]
          obtain ⟨hm, hv⟩ := k1 ha
          refine ⟨fun _ => ⟨decrement_mvalid _ _ hm, ?_⟩, fun hx => ?_⟩
          · show (c0.m.decrementVisitorBy t.dec).visitors ≤ _
            rw [decrement_eq]
            show c0.m.visitors - t.dec ≤ _
            omega
          · simp only at hx
            rw [ha] at hx; cases hx
      · exact h.dead b c n hb hs
  · rw [h1]; exact dacc_send h who a msg h2
  · rw [h1]
    have hreg : registrations [VEvent.master (.addSite id m)] = [(id, m)] := rfl
    refine ⟨by rw [h2, registrations_append, hreg, List.length_append, List.length_append, h.len]; rfl, ?_, prefix_snoc h.why _ trivial⟩
    intro a c n hac hs
    rw [h2] at hac
    have hle := countedAt_le a log [.master (.addSite id m)]
    by_cases hlt : a < w.counters.length
    · rw [List.getElem?_append_left hlt] at hac
      obtain ⟨k1, k2⟩ := h.dead a c n hac (sound_left hs)
      exact ⟨fun ha => ⟨(k1 ha).1, by have := (k1 ha).2; omega⟩, fun ha => stoppedIn_mono _ (k2 ha)⟩
    · have ha : a = w.counters.length := by
        have := lt_of_some hac
        simp at this
        omega
      subst ha
      simp at hac
      subst hac
      refine ⟨fun _ => ?_, fun hf => by cases hf⟩
      obtain ⟨hm, hv⟩ := hs.1 m (.inl ⟨id, by rw [registrations_append, hreg, h.len]; simp⟩)
      exact ⟨hm, by show m.visitors ≤ _; omega⟩

theorem dacc_step {lib : PowLib} {p : Profile} {v : Service} {log : List VEvent} (h : DAcc p v.world log) (x : VStep) :
    DAcc p (vStep lib p v x).1.world (log ++ (vStep lib p v x).2) := by
  have h0 : DAcc p v.world (log ++ []) := by rw [List.append_nil]; exact h
  have hapi : ∀ (ev : List SEvent), DAcc p v.world (log ++ ev.map .api) := by
    intro ev
    refine dacc_quiet h _ rfl ?_ (by simp)
    rw [registrations, masterMsgs_api]; rfl
  unfold vStep
  split
  · exact h0
  cases x with
  | sys s =>
    simp only
    split
    · exact hapi _
    · exact h0
  | hear i g =>
    simp only
    split
    · exact hapi _
    · exact h0
  | world s =>
    simp only
    split
    · exact dacc_world h _
    · exact h0
  | tick d => exact dacc_world (p := p) h (.tick d)
  | ask i =>
    simp only
    split
    · split
      · rename_i id _ _
        split
        · exact h0
        · have hq : ∀ (x : WStep), x = .req (2 * i) (.addVisitor id) → (wstep p v.world x).counters = v.world.counters ∧
              (wstep p v.world x).now = v.world.now := by
            rintro _ rfl
            simp only [wstep]
            split
            · exact ⟨rfl, rfl⟩
            · exact ⟨handle_same _ _ _ (by simp), handle_clock _ _ _⟩
          obtain ⟨h1, -⟩ := hq _ rfl
          refine dacc_quiet h _ h1 ?_ ?_
          · split <;> rfl
          · intro who a t m r hm
            split at hm <;> simp at hm
      · exact h0
    · exact h0

theorem dacc_run (lib : PowLib) (p : Profile) (n ql gc now : Nat) (steps : List VStep) :
    DAcc p (vRun lib p (Service.new n ql gc now) steps).1.world (vRun lib p (Service.new n ql gc now) steps).2 := by
  have h0 : DAcc p (Service.new n ql gc now).world [] :=
    ⟨rfl, by intro a c n h; simp [Service.new, World.init] at h, by intro pre e post h; simp at h⟩
  have h := vRun_inv (lib := lib) (p := p) (P := fun v log => DAcc p v.world log)
    (fun v log x h => dacc_step h x) steps (Service.new n ql gc now) [] h0
  simpa using h

/-! ### Where the stops come from -/

theorem rmSite_addr (m : Master) (id : SiteId) {s : Master} {r : Bool} {a : Addr} (h : m.rmSite id = (s, some (r, a))) :
    (m.getSite id).2 = some a := by
  have h2 : m.sites.get id = some (r, a) := congrArg Prod.snd h
  rw [getSite_addr, h2]
  rfl

theorem removeCaptcha_origin (w : World) (tag : Option Nat) (id : SiteId) (t' : Task) (h : t' ∈ (w.handleRemoveCaptcha tag id).tasks) :
    t' ∈ w.tasks ∨ ∃ a, t' = .stop tag a ∧ (w.master.getSite id).2 = some a := by
  unfold World.handleRemoveCaptcha at h
  split at h
  · rename_i s r a hr
    simp only [World.spawn, List.mem_append, List.mem_singleton] at h
    rcases h with h | h
    · exact .inl h
    · exact .inr ⟨a, h, rmSite_addr _ _ hr⟩
  · split at h <;> exact .inl h

/-- Where a task that stops a counter comes from. -/
def Origin (w : World) (ev : List VEvent) : Task → Prop
  | .gcStop _ a _ => .counter none a w.now .getCurrentVisitorCount (.count 0) ∈ ev
  | .stop _ a => ∃ id, ev = [.master (.removeCaptcha id)] ∧ (w.master.getSite id).2 = some a
  | _ => True

theorem restoreLoop_origin (w : World) (data : List (SiteId × MCaptcha)) (t' : Task) (h : t' ∈ (w.restoreLoop data).tasks) :
    t' ∈ w.tasks ∨ (∃ id m, t' = .restoreNew id m) ∨ ∃ a m, t' = .restoreOld a m := by
  induction data generalizing w with
  | nil => exact .inl h
  | cons e r ih =>
    obtain ⟨name, m⟩ := e
    simp only [World.restoreLoop] at h
    split at h
    · rcases ih _ h with h | h
      · simp only [World.spawn, List.mem_append, List.mem_singleton] at h
        rcases h with h | h
        · exact .inl h
        · exact .inr (.inl ⟨_, _, h⟩)
      · exact .inr h
    · rcases ih _ h with h | h
      · simp only [World.spawn, List.mem_append, List.mem_singleton] at h
        rcases h with h | h
        · exact .inl h
        · exact .inr (.inr ⟨_, _, h⟩)
      · exact .inr h

theorem handle_origin (w : World) (tag : Nat) (msg : MasterMsg) (t' : Task) (h : t' ∈ (w.handle tag msg).tasks) :
    t' ∈ w.tasks ∨ Origin w [.master msg] t' := by
  cases msg with
  | addVisitor id =>
    simp only [World.handle, World.handleAddVisitor] at h
    split at h
    · exact .inl h
    · simp only [World.spawn, List.mem_append, List.mem_singleton] at h
      rcases h with h | rfl
      · exact .inl h
      · exact .inr trivial
  | addSite id m => exact .inl h
  | rename a b => exact .inl h
  | getSite id => exact .inl h
  | removeCaptcha id =>
    rcases removeCaptcha_origin w (some tag) id t' h with h | ⟨a, rfl, ha⟩
    · exact .inl h
    · exact .inr ⟨id, rfl, ha⟩
  | cleanUp =>
    simp only [World.handle, World.handleCleanUp, World.spawn, World.answer, List.mem_append, List.mem_singleton] at h
    rcases h with h | rfl
    · exact .inl h
    · exact .inr trivial
  | getInternalData =>
    simp only [World.handle, World.handleGetInternalData, World.spawn, List.mem_append, List.mem_singleton] at h
    rcases h with h | rfl
    · exact .inl h
    · exact .inr trivial
  | setInternalData data =>
    rcases restoreLoop_origin w data t' h with h | ⟨_, _, rfl⟩ | ⟨_, _, rfl⟩
    · exact .inl h
    · exact .inr trivial
    · exact .inr trivial

theorem world_origin (p : Profile) (w : World) (s : WStep) (t' : Task) (h : t' ∈ (wstep p w s).tasks) :
    t' ∈ w.tasks ∨ Origin w (Service.worldEvents p w s) t' := by
  cases s with
  | tick d => exact .inl h
  | fire a i =>
    simp only [wstep] at h
    split at h <;> exact .inl h
  | direct t a msg =>
    left
    have : t' ∈ (w.sendCounter p a msg).1.tasks := h
    rwa [(sendCounter_master p w a msg).2.1] at this
  | req t msg =>
    by_cases hcr : w.crashed = true
    · have hw : wstep p w (.req t msg) = w.answer t .mailboxError := by simp [wstep, hcr]
      rw [hw] at h
      exact .inl h
    · have e : Service.worldEvents p w (.req t msg) = [.master msg] := by simp [Service.worldEvents, Service.toCounter, Service.toMaster, hcr]
      have hw : wstep p w (.req t msg) = w.handle t msg := by simp [wstep, hcr]
      rw [hw] at h
      rw [e]
      exact handle_origin w t msg t' h
  | run k =>
    cases ht : w.tasks[k]? with
    | none =>
      have hw : wstep p w (.run k) = w := by simp [wstep, World.runAt, ht]
      rw [hw] at h
      exact .inl h
    | some t =>
      have hmem : t' ∈ (({ w with tasks := w.tasks.eraseIdx k } : World).runTask p t).1.tasks ∨
          (({ w with tasks := w.tasks.eraseIdx k } : World).runTask p t).2 = some t' := by
        simp only [wstep, World.runAt, ht] at h
        split at h
        · rename_i hh; rw [hh]; exact .inl h
        · rename_i hh; rw [hh]
          rcases List.mem_cons.1 h with rfl | h
          · exact .inr rfl
          · exact .inl h
      have hin : t' ∈ w.tasks.eraseIdx k → t' ∈ w.tasks := fun h => List.mem_of_mem_eraseIdx h
      clear h
      cases t with
      | gcWait due =>
        simp only [World.runTask] at hmem
        split at hmem
        · simp only [World.handleCleanUp, World.spawn, List.mem_append, List.mem_singleton] at hmem
          rcases hmem with (h | rfl) | h
          · exact .inl (hin h)
          · exact .inr trivial
          · cases h
        · rcases hmem with h | h
          · exact .inl (hin h)
          · cases h; exact .inr trivial
      | gcPoll rest =>
        cases rest with
        | nil =>
          rcases hmem with h | h
          · exact .inl (hin h)
          · cases h; exact .inr trivial
        | cons e rest =>
          obtain ⟨i, r, b⟩ := e
          have e : Service.worldEvents p w (.run k) =
              [.counter none b w.now .getCurrentVisitorCount (w.sendCounter p b .getCurrentVisitorCount).2] := by
            simp [Service.worldEvents, Service.toCounter, Service.toMaster, ht]
          have hr := sendCounter_reply p w (w.tasks.eraseIdx k) b .getCurrentVisitorCount
          have hs := (sendCounter_master p ({ w with tasks := w.tasks.eraseIdx k } : World) b .getCurrentVisitorCount).2.1
          simp only [World.runTask] at hmem
          split at hmem
          · rename_i w' n hh
            rw [hh] at hr hs
            simp only at hr hs
            split at hmem
            · rename_i hn
              simp only [Bool.and_eq_true, beq_iff_eq] at hn
              rcases hmem with h | h
              · rw [hs] at h; exact .inl (hin h)
              · cases h
                right
                rw [e, ← hr, hn.1]
                exact List.mem_singleton.2 rfl
            · rcases hmem with h | h
              · rw [hs] at h; exact .inl (hin h)
              · cases h; exact .inr trivial
          · rcases hmem with h | h
            · simp [World.crash] at h
            · cases h
      | gcStop i b rest =>
        have hs := (sendCounter_master p ({ w with tasks := w.tasks.eraseIdx k } : World) b .stop).2.1
        simp only [World.runTask] at hmem
        split at hmem
        · rename_i w' hh
          rw [hh] at hs
          rcases hmem with h | h
          · simp only at hs h; rw [hs] at h; exact .inl (hin h)
          · cases h; exact .inr trivial
        · rcases hmem with h | h
          · simp [World.crash] at h
          · cases h
      | gcRemove i rest =>
        have e : Service.worldEvents p w (.run k) = [.master (.removeCaptcha i)] := by
          simp [Service.worldEvents, Service.toCounter, Service.toMaster, ht]
        simp only [World.runTask] at hmem
        rcases hmem with h | h
        · rcases removeCaptcha_origin _ _ _ _ h with h | ⟨a, rfl, ha⟩
          · exact .inl (hin h)
          · exact .inr ⟨i, e, ha⟩
        · cases h; exact .inr trivial
      | forward tag b =>
        have hs := (sendCounter_master p ({ w with tasks := w.tasks.eraseIdx k } : World) b .addVisitor).2.1
        simp only [World.runTask] at hmem
        split at hmem <;>
          (rename_i hh
           rw [hh] at hs
           rcases hmem with h | h
           · simp only [World.answer] at hs h; rw [hs] at h; exact .inl (hin h)
           · cases h)
      | stop tag b =>
        have hs := (sendCounter_master p ({ w with tasks := w.tasks.eraseIdx k } : World) b .stop).2.1
        simp only [World.runTask] at hmem
        split at hmem <;>
          (rename_i hh
           rw [hh] at hs
           rcases hmem with h | h
           · simp only [World.answer] at hs h; rw [hs] at h; exact .inl (hin h)
           · cases h)
      | collect tag rest acc =>
        cases rest with
        | nil =>
          rcases hmem with h | h
          · exact .inl (hin h)
          · cases h
        | cons e rest =>
          obtain ⟨i, r, b⟩ := e
          have hs := (sendCounter_master p ({ w with tasks := w.tasks.eraseIdx k } : World) b .getInternalData).2.1
          simp only [World.runTask] at hmem
          split at hmem <;>
            (rename_i hh
             rw [hh] at hs
             rcases hmem with h | h
             · simp only at hs h; rw [hs] at h; exact .inl (hin h)
             · cases h; exact .inr trivial)
      | restoreNew i m =>
        rcases hmem with h | h
        · exact .inl (hin h)
        · cases h
      | restoreOld b m =>
        have hs := (sendCounter_master p ({ w with tasks := w.tasks.eraseIdx k } : World) b (.setInternalData m)).2.1
        rcases hmem with h | h
        · simp only [World.runTask] at h; rw [hs] at h; exact .inl (hin h)
        · cases h

/-- Who sends a `Stop`. -/
theorem world_stop (p : Profile) (w : World) (s : WStep) {who : Option Nat} {a : Addr} {t : Nat} {r : CounterReply}
    (h : .counter who a t .stop r ∈ Service.worldEvents p w s) :
    (∃ T, s = .direct T a .stop) ∨ (∃ id rest, .gcStop id a rest ∈ w.tasks) ∨ ∃ tag, .stop tag a ∈ w.tasks := by
  unfold Service.worldEvents at h
  rcases List.mem_append.1 h with h | h
  · cases s with
    | tick d => simp [Service.toCounter] at h
    | fire a i => simp [Service.toCounter] at h
    | req t msg => simp [Service.toCounter] at h
    | direct T b msg =>
      simp only [Service.toCounter, List.mem_singleton, VEvent.counter.injEq] at h
      obtain ⟨-, rfl, -, rfl, -⟩ := h
      exact .inl ⟨T, rfl⟩
    | run k =>
      cases ht : w.tasks[k]? with
      | none => simp [Service.toCounter, ht] at h
      | some x =>
        have hm := List.mem_of_getElem? ht
        simp only [Service.toCounter, ht] at h
        cases x with
        | gcPoll rest =>
          cases rest with
          | nil => simp at h
          | cons e rest => simp at h
        | collect tag rest acc =>
          cases rest with
          | nil => simp at h
          | cons e rest => simp at h
        | gcStop i b rest =>
          simp only [List.mem_singleton, VEvent.counter.injEq] at h
          obtain ⟨-, rfl, -⟩ := h
          exact .inr (.inl ⟨i, rest, hm⟩)
        | stop tag b =>
          simp only [List.mem_singleton, VEvent.counter.injEq] at h
          obtain ⟨-, rfl, -⟩ := h
          exact .inr (.inr ⟨tag, hm⟩)
        | _ => simp at h
  · simp at h

/-- A counter's stop had a reason. -/
def Told (log : List VEvent) (a : Addr) : Prop := SeenIdle log a ∨ RemovedIn log a

theorem told_mono {log : List VEvent} {a : Addr} (ev : List VEvent) (h : Told log a) : Told (log ++ ev) a := by
  rcases h with ⟨t, h⟩ | ⟨x, id, y, rfl, h⟩
  · exact .inl ⟨t, List.mem_append_left _ h⟩
  · exact .inr ⟨x, id, y ++ ev, by simp, h⟩

def ToldTask (log : List VEvent) : Task → Prop
  | .gcStop _ a _ => SeenIdle log a
  | .stop _ a => RemovedIn log a
  | _ => True

theorem toldTask_mono {log : List VEvent} {t : Task} (ev : List VEvent) (h : ToldTask log t) : ToldTask (log ++ ev) t := by
  cases t with
  | gcStop i a r =>
    obtain ⟨t, h⟩ := h
    exact ⟨t, List.mem_append_left _ h⟩
  | stop tag a =>
    obtain ⟨x, id, y, rfl, h⟩ := h
    exact ⟨x, id, y ++ ev, by simp, h⟩
  | _ => trivial

def ToldWhy (pre : List VEvent) : VEvent → Prop
  | .counter _ a _ .stop _ => Told pre a
  | _ => True

structure TAcc (w : World) (log : List VEvent) : Prop where
  tasks : ∀ t ∈ w.tasks, ToldTask log t
  why : ∀ pre e post, log = pre ++ e :: post → ToldWhy pre e

theorem worldEvents_one (p : Profile) (w : World) (s : WStep) : (Service.worldEvents p w s).length ≤ 1 := by
  unfold Service.worldEvents
  cases s with
  | run k =>
    cases ht : w.tasks[k]? with
    | none => simp [Service.toCounter, Service.toMaster, ht]
    | some x =>
      cases x with
      | gcPoll rest => cases rest <;> simp [Service.toCounter, Service.toMaster, ht]
      | collect tag rest acc => cases rest <;> simp [Service.toCounter, Service.toMaster, ht]
      | gcWait due => simp only [Service.toCounter, Service.toMaster, ht]; split <;> simp
      | _ => simp [Service.toCounter, Service.toMaster, ht]
  | req t m => simp only [Service.toCounter, Service.toMaster]; split <;> simp
  | _ => simp [Service.toCounter, Service.toMaster]

theorem tacc_world {p : Profile} {w : World} {log : List VEvent} (h : TAcc w log) (s : WStep) (hs : ∀ T a, s ≠ .direct T a .stop)
    (hl : ∀ id, (w.master.getSite id).2 = regAfter (fun _ => none) 0 (masterMsgs log) id) :
    TAcc (wstep p w s) (log ++ Service.worldEvents p w s) := by
  refine ⟨?_, prefix_extend h.why _ ?_⟩
  · intro t' ht'
    rcases world_origin p w s t' ht' with ht | ho
    · exact toldTask_mono _ (h.tasks t' ht)
    · cases t' with
      | gcStop i a r => exact ⟨w.now, List.mem_append_right _ ho⟩
      | stop tag a =>
        obtain ⟨id, he, ha⟩ := ho
        exact ⟨log, id, [], by rw [he], by rw [← hl id]; exact ha⟩
      | _ => trivial
  · intro ev1 e ev2 he
    cases e with
    | counter who a t m r =>
      cases m with
      | stop =>
        have h1 := worldEvents_one p w s
        rw [he] at h1
        have : ev1 = [] := by
          cases ev1 with
          | nil => rfl
          | cons _ _ => simp at h1
        subst this
        rw [List.append_nil]
        rcases world_stop p w s (r := r) (who := who) (t := t) (a := a) (by rw [he]; simp) with ⟨T, hT⟩ | ⟨id, rest, hm⟩ | ⟨tag, hm⟩
        · exact absurd hT (hs T a)
        · exact .inl (h.tasks _ hm)
        · exact .inr (h.tasks _ hm)
      | _ => trivial
    | _ => trivial

theorem tacc_step {lib : PowLib} {p : Profile} {n ql gc now : Nat} {v : Service} {log : List VEvent}
    (hr : VReached lib p n ql gc now v log) (h : TAcc v.world log) (x : VStep) (hx : ∀ T a, x ≠ .world (.direct T a .stop)) :
    TAcc (vStep lib p v x).1.world (log ++ (vStep lib p v x).2) := by
  have hl := vreached_lookup hr
  have h0 : TAcc v.world (log ++ []) := by rw [List.append_nil]; exact h
  have hapi : ∀ (ev : List SEvent), TAcc v.world (log ++ ev.map .api) := by
    intro ev
    refine ⟨fun t ht => toldTask_mono _ (h.tasks t ht), prefix_extend h.why _ ?_⟩
    intro ev1 e ev2 he
    have : e ∈ ev.map VEvent.api := by rw [he]; simp
    obtain ⟨e', -, rfl⟩ := List.mem_map.1 this
    trivial
  unfold vStep
  split
  · exact h0
  cases x with
  | sys s =>
    simp only
    split
    · exact hapi _
    · exact h0
  | hear i g =>
    simp only
    split
    · exact hapi _
    · exact h0
  | world s =>
    simp only
    split
    · rename_i s' hs'
      refine tacc_world h s' ?_ hl
      rintro T a rfl
      cases s with
      | direct t b m =>
        simp only [Service.others, Option.some.injEq, WStep.direct.injEq] at hs'
        obtain ⟨-, rfl, rfl⟩ := hs'
        exact hx _ _ rfl
      | _ => simp [Service.others] at hs'
    · exact h0
  | tick d => exact tacc_world (p := p) h (.tick d) (by simp) hl
  | ask i =>
    simp only
    split
    · split
      · rename_i id _ _
        split
        · exact h0
        · have hw : ∀ t' ∈ (wstep p v.world (.req (2 * i) (.addVisitor id))).tasks, ∀ ev, ToldTask (log ++ ev) t' := by
            intro t' ht' ev
            by_cases hcr : v.world.crashed = true
            · have hw : wstep p v.world (.req (2 * i) (.addVisitor id)) = v.world.answer (2 * i) .mailboxError := by simp [wstep, hcr]
              rw [hw] at ht'
              exact toldTask_mono _ (h.tasks t' ht')
            · have hw : wstep p v.world (.req (2 * i) (.addVisitor id)) = v.world.handle (2 * i) (.addVisitor id) := by simp [wstep, hcr]
              rw [hw] at ht'
              simp only [World.handle, World.handleAddVisitor] at ht'
              split at ht'
              · exact toldTask_mono _ (h.tasks t' ht')
              · simp only [World.spawn, List.mem_append, List.mem_singleton] at ht'
                rcases ht' with ht' | rfl
                · exact toldTask_mono _ (h.tasks t' ht')
                · trivial
          refine ⟨fun t' ht' => hw t' ht' _, prefix_extend h.why _ ?_⟩
          intro ev1 e ev2 he
          cases e with
          | counter who a t m r =>
            exfalso
            have : VEvent.counter who a t m r ∈ ev1 ++ VEvent.counter who a t m r :: ev2 := by simp
            rw [← he] at this
            split at this <;> simp at this
          | _ => trivial
      · exact h0
    · exact h0

theorem tacc_run (lib : PowLib) (p : Profile) (n ql gc now : Nat) (steps : List VStep) (hs : OnlyMasterStops steps) :
    TAcc (vRun lib p (Service.new n ql gc now) steps).1.world (vRun lib p (Service.new n ql gc now) steps).2 := by
  have key : ∀ (steps : List VStep) (v : Service) (log : List VEvent), OnlyMasterStops steps → VReached lib p n ql gc now v log →
      TAcc v.world log → TAcc (vRun lib p v steps).1.world (log ++ (vRun lib p v steps).2) := by
    intro steps
    induction steps with
    | nil => intro v log _ _ h; simpa [vRun] using h
    | cons x r ih =>
      intro v log hs hr h
      have := ih _ _ (fun t a hm => hs t a (List.mem_cons_of_mem _ hm)) (vreached_step v log x hr)
        (tacc_step hr h x fun T a e => hs T a (by simp [e]))
      rwa [List.append_assoc] at this
  have h0 : TAcc (Service.new n ql gc now).world [] :=
    ⟨by intro t ht; simp [Service.new, World.init] at ht; subst ht; trivial, by intro pre e post h; simp at h⟩
  have := key steps (Service.new n ql gc now) [] hs ⟨⟨[], rfl⟩, [], rfl, rfl⟩ h0
  simpa using this

/-! ### Counters that are known have been registered -/

/-- Number of registrations among messages. -/
def addedIn : List MasterMsg → Nat
  | [] => 0
  | .addSite _ _ :: r => addedIn r + 1
  | _ :: r => addedIn r

theorem registrations_length (log : List VEvent) : (registrations log).length = addedIn (masterMsgs log) := by
  unfold registrations
  generalize masterMsgs log = l
  induction l with
  | nil => rfl
  | cons m r ih => cases m <;> simp [addedIn, ih]

theorem regAfter_lt (l : List MasterMsg) : ∀ (f : Reg) (n : Nat), (∀ id (a : Nat), f id = some a → a < n) →
    ∀ id (a : Nat), regAfter f n l id = some a → a < n + addedIn l := by
  induction l with
  | nil => intro f n hf id a h; exact hf id a h
  | cons m r ih =>
    intro f n hf id a h
    cases m with
    | addSite i c =>
      have := ih (f.put i n) (n + 1) (by
        intro k b hk
        simp only [Reg.put] at hk
        split at hk
        · injection hk with hk
          subst hk
          exact Nat.lt_succ_self n
        · exact Nat.lt_succ_of_lt (hf k b hk)) id a h
      simp only [addedIn]
      omega
    | removeCaptcha i =>
      exact ih (f.del i) n (by
        intro k b hk
        simp only [Reg.del] at hk
        split at hk
        · cases hk
        · exact hf k b hk) id a h
    | rename i j =>
      exact ih (f.mv i j) n (by
        intro k b hk
        cases hx : f i with
        | none => simp only [Reg.mv, hx] at hk; exact hf k b hk
        | some x =>
          simp only [Reg.mv, hx] at hk
          split at hk
          · injection hk with hk
            subst hk
            exact hf _ _ hx
          · split at hk
            · cases hk
            · exact hf k b hk) id a h
    | _ => exact ih f n hf id a h

/-- A counter that is known was registered. -/
theorem known_registered {log : List VEvent} {id : SiteId} {a : Nat} (h : regAfter (fun _ => none) 0 (masterMsgs log) id = some a) :
    a < (registrations log).length := by
  have := regAfter_lt (masterMsgs log) (fun _ => none) 0 (by simp) id a h
  rw [registrations_length]
  omega

end MCap
