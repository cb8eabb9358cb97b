import Verif.Proofs.MasterGc

namespace MCap
open Spec

/-- The counter at `a` is running. -/
def AliveAt (w : World) (a : Addr) : Prop := ∃ c, w.counters[a]? = some c ∧ c.alive = true

theorem AliveAt.lt {w : World} {a : Addr} (h : AliveAt w a) : a < w.counters.length := by
  obtain ⟨c, hc, _⟩ := h
  exact (List.getElem?_eq_some_iff.1 hc).1

/-- Running counters are usable and have room for `n` more visitors. -/
def Healthy (w : World) (n : Nat) : Prop :=
  ∀ (a : Nat) (c : Counter), w.counters[a]? = some c → c.alive = true → MValid c.m ∧ c.m.visitors + n < u32Size

theorem Healthy.mono {w : World} {n k : Nat} (h : Healthy w n) (hk : k ≤ n) : Healthy w k := by
  intro a c hc ha
  obtain ⟨h1, h2⟩ := h a c hc ha
  exact ⟨h1, by omega⟩

/-- Replacing one counter by a running usable one. -/
theorem healthy_set {w : World} {n : Nat} (h : Healthy w n) (a : Addr) (c : Counter)
    (hv : MValid c.m ∧ c.m.visitors + n < u32Size) : Healthy { w with counters := w.counters.set a c } n := by
  intro b c' hc' ha
  simp only [List.getElem?_set] at hc'
  split at hc'
  · split at hc'
    · injection hc' with hc'; subst hc'; exact hv
    · cases hc'
  · exact h b c' hc' ha

theorem alive_set {w : World} (a b : Addr) (c : Counter) (hc : c.alive = true) (h : AliveAt w b) :
    AliveAt { w with counters := w.counters.set a c } b := by
  obtain ⟨c0, h1, h2⟩ := h
  unfold AliveAt
  simp only [List.getElem?_set]
  by_cases e : a = b
  · subst e
    rw [if_pos rfl, if_pos (List.getElem?_eq_some_iff.1 h1).1]
    exact ⟨c, rfl, hc⟩
  · rw [if_neg e]; exact ⟨c0, h1, h2⟩

/-- Messages that do not stop the counter and carry only usable states with room for `n` more visitors. -/
def kindMsg (n : Nat) : CounterMsg → Prop
  | .stop => False
  | .setInternalData m => MValid m ∧ m.visitors + n < u32Size
  | _ => True

theorem send_kind (p : Profile) (w : World) (a : Addr) (msg : CounterMsg) (n : Nat) (hh : Healthy w (n + 1))
    (hk : kindMsg n msg) :
    Healthy (w.sendCounter p a msg).1 n ∧ ∀ b, AliveAt w b → AliveAt (w.sendCounter p a msg).1 b := by
  unfold World.sendCounter
  cases hc : w.counters[a]? with
  | none => exact ⟨hh.mono (Nat.le_succ n), fun b h => h⟩
  | some c =>
    have hself : w.counters.set a c = w.counters := by
      obtain ⟨hlt, he⟩ := List.getElem?_eq_some_iff.1 hc
      rw [← he, List.set_getElem_self]
    by_cases ha : c.alive = true
    · obtain ⟨hm, hv⟩ := hh a c hc ha
      cases msg with
      | addVisitor =>
        obtain ⟨m', _, g2, g3, _, _, d, _, g6⟩ := send_addVisitor p w.now c ha hm (by omega)
        simp only [g6]
        refine ⟨healthy_set (hh.mono (Nat.le_succ n)) a _ ⟨g2, ?_⟩, fun b hb => alive_set a b _ rfl hb⟩
        show m'.visitors + n < _
        omega
      | getCurrentVisitorCount =>
        simp only [Counter.send, ha, if_true, hself]
        exact ⟨hh.mono (Nat.le_succ n), fun b h => h⟩
      | getInternalData =>
        simp only [Counter.send, ha, if_true, hself]
        exact ⟨hh.mono (Nat.le_succ n), fun b h => h⟩
      | setInternalData m =>
        simp only [Counter.send, ha, if_true]
        exact ⟨healthy_set (hh.mono (Nat.le_succ n)) a _ hk, fun b hb => alive_set a b _ ha hb⟩
      | stop => exact absurd hk id
    · simp only [Counter.send, ha, if_false, Bool.false_eq_true, hself]
      exact ⟨hh.mono (Nat.le_succ n), fun b h => h⟩

theorem send_stop_others (p : Profile) (w : World) (a b : Addr) (hne : b ≠ a) (h : AliveAt w b) :
    AliveAt (w.sendCounter p a .stop).1 b := by
  obtain ⟨c, h1, h2⟩ := h
  exact ⟨c, by rw [(sendCounter_master p w a .stop).2.2.2.2.2.2 b hne]; exact h1, h2⟩

theorem send_stop_healthy (p : Profile) (w : World) (a : Addr) (n : Nat) (hh : Healthy w n) :
    Healthy (w.sendCounter p a .stop).1 n := by
  intro b c hc ha
  by_cases hba : b = a
  · subst hba
    unfold World.sendCounter at hc
    cases h0 : w.counters[b]? with
    | none => rw [h0] at hc; simp only [h0] at hc; cases hc
    | some c0 =>
      rw [h0] at hc
      have hlt := (List.getElem?_eq_some_iff.1 h0).1
      by_cases ha0 : c0.alive = true
      · simp only [Counter.send, ha0, if_true] at hc
        rw [List.getElem?_set_self hlt] at hc
        injection hc with hc; subst hc
        simp [Counter.handleStop] at ha
      · simp only [Counter.send, ha0, if_false, Bool.false_eq_true] at hc
        rw [List.getElem?_set_self hlt] at hc
        injection hc with hc; subst hc
        exact absurd ha ha0
  · rw [(sendCounter_master p w a .stop).2.2.2.2.2.2 b hba] at hc
    exact hh b c hc ha

/-- Is the task part of a garbage collection? -/
def isGc : Task → Bool
  | .gcWait _ => true
  | .gcPoll _ => true
  | .gcStop _ _ _ => true
  | .gcRemove _ _ => true
  | _ => false

/-- Sites a garbage collection task still has to talk to. -/
def gcEntries : Task → List (SiteId × Addr)
  | .gcPoll rest => rest.map fun e => (e.1, e.2.2)
  | .gcStop i a rest => (i, a) :: rest.map fun e => (e.1, e.2.2)
  | .gcRemove _ rest => rest.map fun e => (e.1, e.2.2)
  | _ => []

/-- The id a garbage collection task is about to remove. -/
def gcRemoving : Task → Option SiteId
  | .gcRemove i _ => some i
  | _ => none

/-- What must hold of the only garbage collection task. -/
structure GcOk (w : World) (g : Task) : Prop where
  gc : isGc g = true
  keys : ((gcEntries g).map (·.1)).Nodup
  addrs : ((gcEntries g).map (·.2)).Nodup
  alive : ∀ e ∈ gcEntries g, AliveAt w e.2
  own : ∀ e ∈ gcEntries g, ∀ id r, w.master.sites.get id = some (r, e.2) → id = e.1
  removing : ∀ i, gcRemoving g = some i → i ∉ (gcEntries g).map (·.1)
  registry : ∀ id r a, w.master.sites.get id = some (r, a) → AliveAt w a ∨ gcRemoving g = some id

/-- Tasks other than garbage collection: restores are usable, stops hit nobody else. -/
def otherOk (w : World) (n : Nat) (g : Task) : Task → Prop
  | .restoreNew _ m => MValid m ∧ m.visitors + n < u32Size
  | .restoreOld _ m => MValid m ∧ m.visitors + n < u32Size
  | .stop _ b => b < w.counters.length ∧ (∀ id r, w.master.sites.get id ≠ some (r, b)) ∧ b ∉ (gcEntries g).map (·.2)
  | _ => True

/-- Invariant of calm services, with room for `n` more steps. -/
structure Calm (w : World) (n : Nat) (g : Task) (os : List Task) : Prop where
  perm : w.tasks.Perm (g :: os)
  nongc : ∀ t ∈ os, isGc t = false
  wf : RegWF w.reg
  nocrash : w.crashed = false
  healthy : Healthy w n
  gcok : GcOk w g
  others : ∀ t ∈ os, otherOk w n g t

/-- Same registry contents up to flags. -/
def SameAddrs (w w' : World) : Prop :=
  ∀ id a, (∃ r, w'.master.sites.get id = some (r, a)) → ∃ r, w.master.sites.get id = some (r, a)

theorem GcOk.transfer {w w' : World} {g : Task} (h : GcOk w g) (hs : SameAddrs w w')
    (ha : ∀ b, AliveAt w b → AliveAt w' b) : GcOk w' g where
  gc := h.gc
  keys := h.keys
  addrs := h.addrs
  alive := fun e he => ha _ (h.alive e he)
  own := fun e he id r hg => by
    obtain ⟨r', h'⟩ := hs id e.2 ⟨r, hg⟩
    exact h.own e he id r' h'
  removing := h.removing
  registry := fun id r a hg => by
    obtain ⟨r', h'⟩ := hs id a ⟨r, hg⟩
    rcases h.registry id r' a h' with h1 | h1
    · exact Or.inl (ha _ h1)
    · exact Or.inr h1

theorem otherOk.transfer {w w' : World} {n k : Nat} {g : Task} {t : Task} (h : otherOk w n g t) (hk : k ≤ n)
    (hs : SameAddrs w w') (hl : w.counters.length ≤ w'.counters.length) : otherOk w' k g t := by
  cases t with
  | restoreNew i m => exact ⟨h.1, by have := h.2; omega⟩
  | restoreOld b m => exact ⟨h.1, by have := h.2; omega⟩
  | stop tag b =>
    obtain ⟨h1, h2, h3⟩ := h
    refine ⟨Nat.lt_of_lt_of_le h1 hl, ?_, h3⟩
    intro id r hg
    obtain ⟨r', h'⟩ := hs id b ⟨r, hg⟩
    exact h2 id r' h'
  | _ => trivial

/-- A step that keeps the registry (up to flags), keeps counters running and only appends harmless tasks. -/
theorem Calm.keep {w w' : World} {n : Nat} {g : Task} {os os' : List Task} (h : Calm w (n + 1) g os)
    (hp : w'.tasks.Perm (g :: os')) (hos : ∀ t ∈ os', t ∈ os ∨ (isGc t = false ∧ otherOk w' n g t))
    (hs : SameAddrs w w') (hwf : RegWF w'.reg) (hc : w'.crashed = false) (hh : Healthy w' n)
    (hal : ∀ b, AliveAt w b → AliveAt w' b) (hl : w.counters.length ≤ w'.counters.length) : Calm w' n g os' where
  perm := hp
  nongc := fun t ht => by
    rcases hos t ht with h1 | h1
    · exact h.nongc t h1
    · exact h1.1
  wf := hwf
  nocrash := hc
  healthy := hh
  gcok := h.gcok.transfer hs hal
  others := fun t ht => by
    rcases hos t ht with h1 | h1
    · exact (h.others t h1).transfer (Nat.le_succ n) hs hl
    · exact h1.2

/-- Registering a new site. -/
theorem Calm.addSite {w : World} {n : Nat} {g : Task} {os : List Task} (h : Calm w (n + 1) g os) (id : SiteId)
    (m : MCaptcha) (hm : MValid m ∧ m.visitors + n < u32Size) : Calm (w.handleAddSite id m) n g os := by
  have hal : ∀ b, AliveAt w b → AliveAt (w.handleAddSite id m) b := by
    rintro b ⟨c, h1, h2⟩
    refine ⟨c, ?_, h2⟩
    simp only [World.handleAddSite]
    rw [List.getElem?_append_left (List.getElem?_eq_some_iff.1 h1).1]; exact h1
  have hnew : AliveAt (w.handleAddSite id m) w.counters.length := by
    refine ⟨Counter.start m, ?_, rfl⟩
    simp [World.handleAddSite]
  have hget : ∀ i r a, (w.handleAddSite id m).master.sites.get i = some (r, a) →
      (i = id ∧ a = w.counters.length) ∨ w.master.sites.get i = some (r, a) := by
    intro i r a hg
    simp only [World.handleAddSite, Master.addSite, AMap.get_insert] at hg
    split at hg
    · rename_i e; cases hg; exact Or.inl ⟨e.symm, rfl⟩
    · exact Or.inr hg
  have hlen : (w.handleAddSite id m).counters.length = w.counters.length + 1 := by simp [World.handleAddSite]
  refine ⟨h.perm, h.nongc, ?_, h.nocrash, ?_, ?_, ?_⟩
  · have hr : (w.handleAddSite id m).reg = (w.master.sites.insert id (false, w.counters.length), w.counters.length + 1) := by
      simp [World.reg, World.handleAddSite, Master.addSite]
    rw [hr]
    exact RegWF.step (RegStep.add _ _ id) h.wf
  · intro a c hc ha
    simp only [World.handleAddSite, List.getElem?_append] at hc
    split at hc
    · exact (h.healthy.mono (Nat.le_succ n)) a c hc ha
    · have : c = Counter.start m := by
        rcases Nat.lt_or_ge (a - w.counters.length) 1 with h1 | h1
        · have : a - w.counters.length = 0 := by omega
          rw [this] at hc; simp at hc; exact hc.symm
        · rw [List.getElem?_eq_none (by simpa using h1)] at hc; cases hc
      subst this; exact hm
  · refine ⟨h.gcok.gc, h.gcok.keys, h.gcok.addrs, fun e he => hal _ (h.gcok.alive e he), ?_, h.gcok.removing, ?_⟩
    · intro e he i r hg
      rcases hget i r e.2 hg with ⟨_, h2⟩ | h2
      · exact absurd (h.gcok.alive e he).lt (by rw [h2]; exact Nat.lt_irrefl _)
      · exact h.gcok.own e he i r h2
    · intro i r a hg
      rcases hget i r a hg with ⟨_, rfl⟩ | h2
      · exact Or.inl hnew
      · rcases h.gcok.registry i r a h2 with h3 | h3
        · exact Or.inl (hal _ h3)
        · exact Or.inr h3
  · intro t ht
    have h0 := h.others t ht
    cases t with
    | restoreNew i m => exact ⟨h0.1, by have := h0.2; omega⟩
    | restoreOld b m => exact ⟨h0.1, by have := h0.2; omega⟩
    | stop tag b =>
      obtain ⟨h1, h2, h3⟩ := h0
      refine ⟨by rw [hlen]; exact Nat.lt_succ_of_lt h1, ?_, h3⟩
      intro i r hg
      rcases hget i r b hg with ⟨_, h5⟩ | h4
      · rw [h5] at h1; exact absurd h1 (Nat.lt_irrefl _)
      · exact h2 i r h4
    | _ => trivial

theorem sameAddrs_getSite (w : World) (id : SiteId) : SameAddrs w { w with master := (w.master.getSite id).1 } := by
  rintro i a ⟨r, hg⟩
  have := getSite_lookup w.master id i
  simp only at hg
  rw [hg] at this
  simp only [Option.map_some] at this
  obtain ⟨⟨r', a'⟩, h1, h2⟩ := Option.map_eq_some_iff.1 this.symm
  simp only at h2; subst h2
  exact ⟨r', h1⟩

theorem SameAddrs.of_eq {w w' : World} (h : w'.master.sites = w.master.sites) : SameAddrs w w' := by
  rintro i a ⟨r, hg⟩; rw [h] at hg; exact ⟨r, hg⟩

theorem SameAddrs.trans {a b c : World} (h1 : SameAddrs a b) (h2 : SameAddrs b c) : SameAddrs a c :=
  fun i x h => h1 i x (h2 i x h)

theorem sameAddrs_restoreLoop (w : World) (data : List (SiteId × MCaptcha)) : SameAddrs w (w.restoreLoop data) := by
  induction data generalizing w with
  | nil => exact SameAddrs.of_eq rfl
  | cons e r ih =>
    obtain ⟨name, m⟩ := e
    have h0 := sameAddrs_getSite w name
    simp only [World.restoreLoop]
    split
    · rename_i s hs
      rw [hs] at h0
      exact SameAddrs.trans h0 (SameAddrs.trans (SameAddrs.of_eq rfl) (ih _))
    · rename_i s b hs
      rw [hs] at h0
      exact SameAddrs.trans h0 (SameAddrs.trans (SameAddrs.of_eq rfl) (ih _))

theorem restoreLoop_shape (w : World) (data : List (SiteId × MCaptcha)) :
    ∃ ts, (w.restoreLoop data).tasks = w.tasks ++ ts ∧ (w.restoreLoop data).crashed = w.crashed ∧
      ∀ t ∈ ts, ∃ e ∈ data, t = .restoreNew e.1 e.2 ∨ ∃ b, t = .restoreOld b e.2 := by
  induction data generalizing w with
  | nil => exact ⟨[], by simp [World.restoreLoop], rfl, by simp⟩
  | cons e r ih =>
    obtain ⟨name, m⟩ := e
    simp only [World.restoreLoop]
    split
    · rename_i s hs
      obtain ⟨ts, h1, h2, h3⟩ := ih (({ w with master := s } : World).spawn (.restoreNew name m))
      refine ⟨.restoreNew name m :: ts, ?_, h2, ?_⟩
      · rw [h1]; simp [World.spawn]
      · intro t ht
        rcases List.mem_cons.1 ht with rfl | ht
        · exact ⟨_, List.mem_cons_self, Or.inl rfl⟩
        · obtain ⟨e, he, h⟩ := h3 t ht
          exact ⟨e, List.mem_cons_of_mem _ he, h⟩
    · rename_i s b hs
      obtain ⟨ts, h1, h2, h3⟩ := ih (({ w with master := s } : World).spawn (.restoreOld b m))
      refine ⟨.restoreOld b m :: ts, ?_, h2, ?_⟩
      · rw [h1]; simp [World.spawn]
      · intro t ht
        rcases List.mem_cons.1 ht with rfl | ht
        · exact ⟨_, List.mem_cons_self, Or.inr ⟨b, rfl⟩⟩
        · obtain ⟨e, he, h⟩ := h3 t ht
          exact ⟨e, List.mem_cons_of_mem _ he, h⟩

/-- Dropping some of the other tasks. -/
theorem Calm.weaken {w : World} {n : Nat} {g : Task} {os : List Task} (h : Calm w n g os) (os' : List Task)
    (ts : List Task) (hp : ts.Perm (g :: os')) (hsub : ∀ t ∈ os', t ∈ os) :
    Calm { w with tasks := ts } n g os' where
  perm := hp
  nongc := fun t ht => h.nongc t (hsub t ht)
  wf := h.wf
  nocrash := h.nocrash
  healthy := h.healthy
  gcok := h.gcok.transfer (SameAddrs.of_eq rfl) (fun _ h => h)
  others := fun t ht => (h.others t (hsub t ht)).transfer (Nat.le_refl n) (SameAddrs.of_eq rfl) (Nat.le_refl _)

theorem getElem_cons_eraseIdx_perm {α : Type} (l : List α) (i : Nat) (h : i < l.length) :
    (l[i] :: l.eraseIdx i).Perm l := by
  induction l generalizing i with
  | nil => cases h
  | cons x r ih =>
    cases i with
    | zero => exact List.Perm.refl _
    | succ j =>
      have h' : j < r.length := by simpa using h
      simp only [List.getElem_cons_succ, List.eraseIdx_cons_succ]
      exact (List.Perm.swap _ _ _).trans (List.Perm.cons x (ih j h'))

/-- Splitting the task list at the task that runs. -/
theorem perm_split {ts os : List Task} {g t : Task} {i : Nat} (hp : ts.Perm (g :: os)) (hi : ts[i]? = some t)
    (hg : isGc g = true) (hos : ∀ t ∈ os, isGc t = false) :
    (isGc t = true ∧ t = g ∧ (ts.eraseIdx i).Perm os) ∨
    (isGc t = false ∧ t ∈ os ∧ (ts.eraseIdx i).Perm (g :: os.erase t)) := by
  obtain ⟨hlt, he⟩ := List.getElem?_eq_some_iff.1 hi
  have h1 : (t :: ts.eraseIdx i).Perm ts := by
    rw [← he]; exact getElem_cons_eraseIdx_perm ts i hlt
  have h2 := h1.trans hp
  have hmem : t ∈ g :: os := h2.subset List.mem_cons_self
  cases hgc : isGc t with
  | true =>
    left
    have : t = g := by
      rcases List.mem_cons.1 hmem with h | h
      · exact h
      · rw [hos t h] at hgc; cases hgc
    subst this
    exact ⟨rfl, rfl, List.Perm.cons_inv h2⟩
  | false =>
    right
    have hne : t ≠ g := by rintro rfl; rw [hg] at hgc; cases hgc
    have hm : t ∈ os := by
      rcases List.mem_cons.1 hmem with h | h
      · exact absurd h hne
      · exact h
    refine ⟨rfl, hm, ?_⟩
    have h3 : (g :: os).Perm (t :: g :: os.erase t) :=
      (List.Perm.cons g (List.perm_cons_erase hm)).trans (List.Perm.swap t g _)
    exact List.Perm.cons_inv (h2.trans h3)

theorem mem_of_mem_erase' {os : List Task} {t x : Task} (h : x ∈ os.erase t) : x ∈ os := List.mem_of_mem_erase h

/-- A task other than garbage collection runs. -/
theorem calm_runOther (p : Profile) (w : World) (n : Nat) (g : Task) (os : List Task) (t : Task) (h : Calm w (n + 1) g os)
    (htgc : isGc t = false) (hok : otherOk w (n + 1) g t) :
    ∃ os', Calm (match w.runTask p t with
      | (w', none) => w'
      | (w', some t') => { w' with tasks := t' :: w'.tasks }) n g os' := by
  have hwf := RegWF.step (reg_runTask p w t) h.wf
  cases t with
  | gcWait due => cases htgc
  | gcPoll rest => cases htgc
  | gcStop i a rest => cases htgc
  | gcRemove i rest => cases htgc
  | forward tag a =>
    obtain ⟨h1, h2⟩ := send_kind p w a .addVisitor n h.healthy trivial
    obtain ⟨e1, e2, e3, e4, e5, e6, e7⟩ := sendCounter_master p w a .addVisitor
    refine ⟨os, ?_⟩
    have hbase : Calm (w.sendCounter p a .addVisitor).1 n g os :=
      h.keep (by rw [e2]; exact h.perm) (fun t ht => Or.inl ht) (SameAddrs.of_eq (by rw [e1]))
        (by rw [reg_sendCounter]; exact h.wf) (by rw [e4]; exact h.nocrash) h1 h2 (Nat.le_of_eq e6.symm)
    have key : (∃ ans, w.runTask p (.forward tag a) = ((w.sendCounter p a .addVisitor).1.answer tag ans, none)) := by
      simp only [World.runTask]
      split
      · rename_i w' r hq; exact ⟨.visitor (some r), by rw [hq]⟩
      · rename_i w' r _ hq; exact ⟨.error .mailboxError, by rw [hq]⟩
    obtain ⟨ans, hrun⟩ := key
    rw [hrun]
    exact ⟨hbase.perm, hbase.nongc, hbase.wf, hbase.nocrash, hbase.healthy,
      hbase.gcok.transfer (SameAddrs.of_eq rfl) (fun _ h => h),
      fun t ht => (hbase.others t ht).transfer (Nat.le_refl _) (SameAddrs.of_eq rfl) (Nat.le_refl _)⟩
  | stop tag b =>
    obtain ⟨hb, hreg, hent⟩ := hok
    obtain ⟨e1, e2, e3, e4, e5, e6, e7⟩ := sendCounter_master p w b .stop
    have hh := send_stop_healthy p w b (n + 1) h.healthy
    have hal := send_stop_others p w b
    refine ⟨os, ?_⟩
    have hbase : Calm (w.sendCounter p b .stop).1 n g os := by
      refine ⟨by rw [e2]; exact h.perm, h.nongc, ?_, by rw [e4]; exact h.nocrash, hh.mono (Nat.le_succ n), ?_, ?_⟩
      · rw [reg_sendCounter]; exact h.wf
      · refine ⟨h.gcok.gc, h.gcok.keys, h.gcok.addrs, ?_, ?_, h.gcok.removing, ?_⟩
        · intro e he
          refine hal e.2 ?_ (h.gcok.alive e he)
          rintro rfl
          exact hent (List.mem_map_of_mem he)
        · rw [e1]; exact h.gcok.own
        · rw [e1]
          intro id r a hg
          rcases h.gcok.registry id r a hg with h1 | h1
          · refine Or.inl (hal a ?_ h1)
            rintro rfl
            exact hreg id r hg
          · exact Or.inr h1
      · intro t ht
        exact (h.others t ht).transfer (Nat.le_succ n) (SameAddrs.of_eq (by rw [e1])) (Nat.le_of_eq e6.symm)
    have key : (∃ (f : World → World), (∀ v : World, (f v) = { v with answers := (f v).answers }) ∧
        w.runTask p (.stop tag b) = (f (w.sendCounter p b .stop).1, none)) := by
      simp only [World.runTask]
      split
      · rename_i w' t hq; exact ⟨fun v => v.answer t .unit, fun v => rfl, by rw [hq]⟩
      · rename_i w' r t _ hq; exact ⟨fun v => v.answer t (.error .mailboxError), fun v => rfl, by rw [hq]⟩
      · rename_i w' r hq; exact ⟨fun v => v, fun v => rfl, by rw [hq]⟩
    obtain ⟨f, hf, hrun⟩ := key
    rw [hrun]
    simp only
    rw [hf]
    exact ⟨hbase.perm, hbase.nongc, hbase.wf, hbase.nocrash, hbase.healthy,
      hbase.gcok.transfer (SameAddrs.of_eq rfl) (fun _ h => h),
      fun t ht => (hbase.others t ht).transfer (Nat.le_refl _) (SameAddrs.of_eq rfl) (Nat.le_refl _)⟩
  | collect tag rest acc =>
    cases rest with
    | nil =>
      refine ⟨os, ?_⟩
      simp only [World.runTask]
      exact h.keep h.perm (fun t ht => Or.inl ht) (SameAddrs.of_eq rfl) h.wf h.nocrash (h.healthy.mono (Nat.le_succ n))
        (fun _ h => h) (Nat.le_refl _)
    | cons e rest =>
      obtain ⟨name, r, a⟩ := e
      have hr := (sendCounter_read p w a).2
      have key : ∃ t', w.runTask p (.collect tag ((name, (r, a)) :: rest) acc) = (w, some t') ∧ isGc t' = false ∧
          ∀ w n, otherOk w n g t' := by
        simp only [World.runTask]
        split
        · rename_i w' m hq
          rw [hq] at hr; simp only at hr; subst hr
          exact ⟨_, rfl, rfl, fun _ _ => trivial⟩
        · rename_i w' r hq
          rw [hq] at hr; simp only at hr; subst hr
          exact ⟨_, rfl, rfl, fun _ _ => trivial⟩
      obtain ⟨t', hrun, hg', ho'⟩ := key
      rw [hrun]
      refine ⟨t' :: os, ?_⟩
      refine h.keep ?_ ?_ (SameAddrs.of_eq rfl) h.wf h.nocrash (h.healthy.mono (Nat.le_succ n))
        (fun _ h => h) (Nat.le_refl _)
      · exact (List.Perm.cons t' h.perm).trans (List.Perm.swap _ _ _)
      · intro t ht
        rcases List.mem_cons.1 ht with rfl | ht
        · exact Or.inr ⟨hg', ho' _ _⟩
        · exact Or.inl ht
  | restoreNew id m =>
    exact ⟨os, h.addSite id m ⟨hok.1, by have := hok.2; omega⟩⟩
  | restoreOld a m =>
    obtain ⟨h1, h2⟩ := send_kind p w a (.setInternalData m) n h.healthy ⟨hok.1, by have := hok.2; omega⟩
    obtain ⟨e1, e2, e3, e4, e5, e6, e7⟩ := sendCounter_master p w a (.setInternalData m)
    refine ⟨os, ?_⟩
    simp only [World.runTask]
    exact h.keep (by rw [e2]; exact h.perm) (fun t ht => Or.inl ht) (SameAddrs.of_eq (by rw [e1])) hwf
      (by rw [e4]; exact h.nocrash) h1 h2 (Nat.le_of_eq e6.symm)

/-- Tasks whose obligations do not get stronger when the garbage collection task changes. -/
theorem otherOk.regc {w : World} {n k : Nat} {g g' : Task} {t : Task} (h : otherOk w n g t) (hk : k ≤ n)
    (hs : ∀ b, b ∈ (gcEntries g').map (·.2) → b ∈ (gcEntries g).map (·.2)) : otherOk w k g' t := by
  cases t with
  | restoreNew i m => exact ⟨h.1, by have := h.2; omega⟩
  | restoreOld b m => exact ⟨h.1, by have := h.2; omega⟩
  | stop tag b => exact ⟨h.1, h.2.1, fun hc => h.2.2 (hs b hc)⟩
  | _ => trivial

/-- The garbage collection task takes its next action. The world `w` no longer contains it. -/
theorem calm_runGc (p : Profile) (w : World) (n : Nat) (g : Task) (os : List Task) (hp : w.tasks.Perm os)
    (h : Calm { w with tasks := g :: w.tasks } (n + 1) g os) :
    ∃ g' os', Calm (match w.runTask p g with
      | (w', none) => w'
      | (w', some t') => { w' with tasks := t' :: w'.tasks }) n g' os' := by
  have hgc := h.gcok.gc
  cases g with
  | gcWait due =>
    simp only [World.runTask]
    split
    · rename_i w' heq
      split at heq
      · injection heq with heq _
        subst heq
        have hperm := iterByKey_perm w.master.sites
        have hmem : ∀ e, e ∈ gcEntries (.gcPoll (iterByKey w.master.sites)) →
            ∃ r, w.master.sites.get e.1 = some (r, e.2) := by
          intro e he
          simp only [gcEntries, List.mem_map] at he
          obtain ⟨⟨i, r, a⟩, hx, rfl⟩ := he
          exact ⟨r, AMap.get_of_mem h.wf.nodup (hperm.subset hx)⟩
        have hkeys : ((gcEntries (.gcPoll (iterByKey w.master.sites))).map (·.1)).Nodup := by
          simp only [gcEntries, List.map_map]
          exact (hperm.map _).nodup_iff.2 h.wf.nodup
        refine ⟨.gcPoll (iterByKey w.master.sites), os, ?_, h.nongc, h.wf, h.nocrash, h.healthy.mono (Nat.le_succ n), ?_, ?_⟩
        · simp only [World.handleCleanUp, World.spawn]
          exact (List.perm_append_singleton _ _).trans (List.Perm.cons _ hp)
        · refine ⟨rfl, hkeys, ?_, ?_, ?_, fun i hi => (by cases hi), ?_⟩
          · rw [List.Nodup, List.pairwise_map] at hkeys ⊢
            refine hkeys.imp_of_mem ?_
            intro a b ha hb hne hab
            obtain ⟨r1, g1⟩ := hmem a ha
            obtain ⟨r2, g2⟩ := hmem b hb
            rw [hab] at g1
            exact hne (h.wf.inj _ _ _ _ _ g1 g2)
          · intro e he
            obtain ⟨r, hr⟩ := hmem e he
            rcases h.gcok.registry _ _ _ hr with h1 | h1
            · exact h1
            · cases h1
          · intro e he id r hg
            obtain ⟨r', hr⟩ := hmem e he
            exact h.wf.inj _ _ _ _ _ hg hr
          · intro id r a hg
            rcases h.gcok.registry _ _ _ hg with h1 | h1
            · exact Or.inl h1
            · cases h1
        · intro t ht
          have h0 := h.others t ht
          cases t with
          | restoreNew i m => exact ⟨h0.1, by have := h0.2; omega⟩
          | restoreOld b m => exact ⟨h0.1, by have := h0.2; omega⟩
          | stop tag b =>
            obtain ⟨h1, h2, h3⟩ := h0
            refine ⟨h1, h2, ?_⟩
            intro hb
            obtain ⟨e, he, rfl⟩ := List.mem_map.1 hb
            obtain ⟨r, hr⟩ := hmem e he
            exact h2 _ _ hr
          | _ => trivial
      · cases heq
    · rename_i w' t' heq
      split at heq
      · cases heq
      · injection heq with heq1 heq2
        injection heq2 with heq2
        subst heq1; subst heq2
        exact ⟨.gcWait due, os, h.perm, h.nongc, h.wf, h.nocrash, h.healthy.mono (Nat.le_succ n), h.gcok,
          fun t ht => (h.others t ht).transfer (Nat.le_succ n) (SameAddrs.of_eq rfl) (Nat.le_refl _)⟩
  | gcPoll rest =>
    cases rest with
    | nil =>
      simp only [World.runTask]
      refine ⟨.gcWait (w.now + w.master.gc), os, List.Perm.cons _ hp, h.nongc, h.wf, h.nocrash,
        h.healthy.mono (Nat.le_succ n), ⟨rfl, h.gcok.keys, h.gcok.addrs, h.gcok.alive, h.gcok.own, fun i hi => (by cases hi), ?_⟩, ?_⟩
      · intro id r a hg
        rcases h.gcok.registry _ _ _ hg with h1 | h1
        · exact Or.inl h1
        · cases h1
      · exact fun t ht => ((h.others t ht).transfer (Nat.le_succ n) (SameAddrs.of_eq rfl) (Nat.le_refl _)).regc
          (Nat.le_refl _) (fun b hb => hb)
    | cons e rest =>
      obtain ⟨i, r, a⟩ := e
      have hal : AliveAt w a := h.gcok.alive (i, a) (by simp [gcEntries])
      obtain ⟨c, hc, hca⟩ := hal
      have hs := sendCounter_alive_count p w a c hc hca
      simp only [World.runTask, hs]
      have hreg : ∀ id r a, w.master.sites.get id = some (r, a) → AliveAt w a := by
        intro id r a hg
        rcases h.gcok.registry _ _ _ hg with h1 | h1
        · exact h1
        · cases h1
      split
      · rename_i w' heq
        split at heq <;> cases heq
      · rename_i w' t' heq
        have ho := fun t ht => (h.others t ht).transfer (Nat.le_succ n) (SameAddrs.of_eq (w := { w with tasks := Task.gcPoll ((i, r, a) :: rest) :: w.tasks })
          (w' := { w with tasks := t' :: w.tasks }) rfl) (Nat.le_refl _)
        split at heq
        · injection heq with heq1 heq2
          injection heq2 with heq2
          subst heq1; subst heq2
          exact ⟨.gcStop i a rest, os, List.Perm.cons _ hp, h.nongc, h.wf, h.nocrash, h.healthy.mono (Nat.le_succ n),
            ⟨rfl, h.gcok.keys, h.gcok.addrs, h.gcok.alive, h.gcok.own, fun i hi => by (cases hi), fun id r a hg => Or.inl (hreg id r a hg)⟩,
            fun t ht => (ho t ht).regc (Nat.le_refl _) (fun b hb => hb)⟩
        · injection heq with heq1 heq2
          injection heq2 with heq2
          subst heq1; subst heq2
          have hk := h.gcok.keys
          have ha := h.gcok.addrs
          simp only [gcEntries, List.map_cons, List.nodup_cons] at hk ha
          exact ⟨.gcPoll rest, os, List.Perm.cons _ hp, h.nongc, h.wf, h.nocrash, h.healthy.mono (Nat.le_succ n),
            ⟨rfl, hk.2, ha.2, fun e he => h.gcok.alive e (List.mem_cons_of_mem _ he), fun e he => h.gcok.own e (List.mem_cons_of_mem _ he),
              fun i hi => by (cases hi), fun id r a hg => Or.inl (hreg id r a hg)⟩,
            fun t ht => (ho t ht).regc (Nat.le_refl _) (fun b hb => List.mem_cons_of_mem _ hb)⟩
  | gcStop i a rest =>
    have hal : AliveAt w a := h.gcok.alive (i, a) (by simp [gcEntries])
    obtain ⟨c, hc, hca⟩ := hal
    have hs := sendCounter_alive_stop p w a c hc hca
    obtain ⟨e1, e2, e3, e4, e5, e6, e7⟩ := sendCounter_master p w a .stop
    have hh := send_stop_healthy p w a (n + 1) h.healthy
    have hoth := send_stop_others p w a
    rw [hs] at e1 e2 e4 e6 hh hoth
    simp only at e1 e2 e4 e6 hh hoth
    simp only [World.runTask, hs]
    have hk := h.gcok.keys
    have ha := h.gcok.addrs
    simp only [gcEntries, List.map_cons, List.nodup_cons] at hk ha
    have hreg : ∀ id r b, w.master.sites.get id = some (r, b) → AliveAt w b := by
      intro id r b hg
      rcases h.gcok.registry _ _ _ hg with h1 | h1
      · exact h1
      · cases h1
    refine ⟨.gcRemove i rest, os, List.Perm.cons _ hp, h.nongc, ?_, h.nocrash, hh.mono (Nat.le_succ n),
      ⟨rfl, hk.2, ha.2, ?_, fun e he => h.gcok.own e (List.mem_cons_of_mem _ he), ?_, ?_⟩, ?_⟩
    · have := h.wf
      simpa [World.reg] using this
    · intro e he
      refine hoth e.2 ?_ (h.gcok.alive e (List.mem_cons_of_mem _ he))
      rintro rfl
      exact ha.1 (List.mem_map_of_mem he)
    · intro j hj
      injection hj with hj
      subst hj
      exact hk.1
    · intro id r b hg
      by_cases hba : b = a
      · subst hba
        exact Or.inr (congrArg some (h.gcok.own (i, b) (by simp [gcEntries]) id r hg).symm)
      · exact Or.inl (hoth b hba (hreg id r b hg))
    · intro t ht
      have h0 := (h.others t ht).regc (g' := .gcRemove i rest) (Nat.le_succ n) (fun b hb => List.mem_cons_of_mem _ hb)
      exact h0.transfer (Nat.le_refl _) (SameAddrs.of_eq rfl) (Nat.le_of_eq e6.symm)
  | gcRemove i rest =>
    have hrem := h.gcok.removing i rfl
    have hkeep : ∀ (os' : List Task) (ts : List Task), ts.Perm os' → (∀ t ∈ os', t ∈ os ∨ ∃ r b, t = .stop none b ∧ w.master.sites.get i = some (r, b)) →
        Calm { w with master := { w.master with sites := w.master.sites.erase i }, tasks := .gcPoll rest :: ts } n (.gcPoll rest) os' := by
      intro os' ts hp' hos'
      have hget : ∀ id x, (w.master.sites.erase i).get id = some x → id ≠ i ∧ w.master.sites.get id = some x := by
        intro id x hx
        rw [AMap.get_erase] at hx
        split at hx
        · cases hx
        · rename_i hne; exact ⟨fun e => hne e.symm, hx⟩
      refine ⟨List.Perm.cons _ hp', ?_, ?_, h.nocrash, h.healthy.mono (Nat.le_succ n),
        ⟨rfl, h.gcok.keys, h.gcok.addrs, h.gcok.alive, ?_, fun i hi => (by cases hi), ?_⟩, ?_⟩
      · intro t ht
        rcases hos' t ht with h1 | ⟨r, b, rfl, _⟩
        · exact h.nongc t h1
        · rfl
      · exact RegWF.step (RegStep.del _ _ i) h.wf
      · intro e he id r hg
        exact h.gcok.own e he id r (hget id _ hg).2
      · intro id r b hg
        obtain ⟨hne, hg'⟩ := hget id _ hg
        rcases h.gcok.registry _ _ _ hg' with h1 | h1
        · exact Or.inl h1
        · injection h1 with h1; exact absurd h1.symm hne
      · intro t ht
        rcases hos' t ht with h1 | ⟨r, b, rfl, hgb⟩
        · refine ((h.others t h1).regc (g' := .gcPoll rest) (Nat.le_succ n) (fun b hb => hb)).transfer (Nat.le_refl _) ?_ (Nat.le_refl _)
          rintro id a ⟨r, hg⟩
          exact ⟨r, (hget id _ hg).2⟩
        · refine ⟨h.wf.bound _ _ _ hgb, ?_, ?_⟩
          · intro id r' hg
            obtain ⟨hne, hg'⟩ := hget id _ hg
            exact hne (h.wf.inj _ _ _ _ _ hg' hgb)
          · intro hb
            obtain ⟨e, he, heb⟩ := List.mem_map.1 hb
            have := h.gcok.own e he i r (by rw [heb]; exact hgb)
            exact hrem (by rw [this]; exact List.mem_map_of_mem he)
    simp only [World.runTask, World.handleRemoveCaptcha, Master.rmSite]
    cases hg : w.master.sites.get i with
    | none =>
      exact ⟨.gcPoll rest, os, hkeep os w.tasks hp (fun t ht => Or.inl ht)⟩
    | some x =>
      obtain ⟨r, b⟩ := x
      refine ⟨Task.gcPoll rest, os ++ [Task.stop none b], hkeep (os ++ [Task.stop none b]) (w.tasks ++ [Task.stop none b]) (hp.append_right _) ?_⟩
      intro t ht
      rcases List.mem_append.1 ht with ht | ht
      · exact Or.inl ht
      · simp only [List.mem_singleton] at ht; exact Or.inr ⟨r, b, ht, hg⟩
  | _ => cases hgc

theorem Calm.same {w w' : World} {n k : Nat} {g : Task} {os : List Task} (h : Calm w n g os) (hk : k ≤ n)
    (h1 : w'.tasks = w.tasks) (h2 : w'.master.sites = w.master.sites) (h3 : w'.counters = w.counters)
    (h4 : w'.crashed = w.crashed) : Calm w' k g os := by
  have hal : ∀ b, AliveAt w b → AliveAt w' b := by
    rintro b ⟨c, hc⟩; exact ⟨c, by rw [h3]; exact hc⟩
  refine ⟨by rw [h1]; exact h.perm, h.nongc, ?_, by rw [h4]; exact h.nocrash, ?_, h.gcok.transfer (SameAddrs.of_eq h2) hal,
    fun t ht => (h.others t ht).transfer hk (SameAddrs.of_eq h2) (by rw [h3]; exact Nat.le_refl _)⟩
  · have : w'.reg = w.reg := by simp [World.reg, h2, h3]
    rw [this]; exact h.wf
  · intro a c hc ha
    rw [h3] at hc
    exact h.healthy.mono hk a c hc ha

theorem calm_step (p : Profile) (k n : Nat) (w : World) (s : WStep) (g : Task) (os : List Task)
    (h : Calm w (n + 1) g os) (hs : calm k s) (hk : k + n < u32Size) : ∃ g' os', Calm (wstep p w s) n g' os' := by
  have hwf := RegWF.step (reg_wstep p w s) h.wf
  cases s with
  | req tag msg =>
    simp only [wstep, h.nocrash, if_false, Bool.false_eq_true] at hwf ⊢
    cases msg with
    | addVisitor id =>
      have hsa := sameAddrs_getSite w id
      simp only [World.handle, World.handleAddVisitor] at hwf ⊢
      split
      · rename_i ha
        refine ⟨g, os, h.keep h.perm (fun t ht => Or.inl ht) ?_ ?_ h.nocrash (h.healthy.mono (Nat.le_succ n)) (fun _ h => h) (Nat.le_refl _)⟩
        · exact hsa
        · rw [ha] at hwf; exact hwf
      · rename_i a ha
        refine ⟨g, os ++ [Task.forward tag a], h.keep (h.perm.append_right [Task.forward tag a]) ?_ ?_ ?_ h.nocrash (h.healthy.mono (Nat.le_succ n)) (fun _ h => h) (Nat.le_refl _)⟩
        · intro t ht
          rcases List.mem_append.1 ht with ht | ht
          · exact Or.inl ht
          · simp only [List.mem_singleton] at ht; subst ht; exact Or.inr ⟨rfl, trivial⟩
        · exact hsa
        · rw [ha] at hwf; exact hwf
    | addSite id m =>
      exact ⟨g, os, (h.addSite id m ⟨hs.1, by have := hs.2; omega⟩).same (Nat.le_refl _) rfl rfl rfl rfl⟩
    | rename a b => exact absurd hs id
    | removeCaptcha i => exact absurd hs id
    | cleanUp => exact absurd hs id
    | getSite id =>
      have hsa := sameAddrs_getSite w id
      exact ⟨g, os, h.keep h.perm (fun t ht => Or.inl ht) hsa hwf h.nocrash (h.healthy.mono (Nat.le_succ n)) (fun _ h => h) (Nat.le_refl _)⟩
    | getInternalData =>
      refine ⟨g, os ++ [Task.collect tag (iterByKey w.master.sites) []], h.keep (h.perm.append_right [Task.collect tag (iterByKey w.master.sites) []]) ?_ (SameAddrs.of_eq rfl) hwf h.nocrash (h.healthy.mono (Nat.le_succ n)) (fun _ h => h) (Nat.le_refl _)⟩
      intro t ht
      rcases List.mem_append.1 ht with ht | ht
      · exact Or.inl ht
      · simp only [List.mem_singleton] at ht; subst ht; exact Or.inr ⟨rfl, trivial⟩
    | setInternalData data =>
      obtain ⟨ts, h1, h2, h3⟩ := restoreLoop_shape w data
      have hcs := restoreLoop_counters w data
      have hsa := sameAddrs_restoreLoop w data
      simp only [World.handle, World.handleSetInternalData] at hwf ⊢
      refine ⟨g, os ++ ts, h.keep ?_ ?_ hsa hwf ?_ ?_ ?_ ?_⟩
      · rw [show (World.answer (w.restoreLoop data) tag .unit).tasks = _ from h1]
        exact h.perm.append_right _
      · intro t ht
        rcases List.mem_append.1 ht with ht | ht
        · exact Or.inl ht
        · obtain ⟨e, he, h4⟩ := h3 t ht
          have := hs e he
          rcases h4 with rfl | ⟨b, rfl⟩
          · exact Or.inr ⟨rfl, this.1, by have := this.2; omega⟩
          · exact Or.inr ⟨rfl, this.1, by have := this.2; omega⟩
      · rw [show (World.answer (w.restoreLoop data) tag .unit).crashed = _ from h2]; exact h.nocrash
      · intro a c hc ha
        rw [show (World.answer (w.restoreLoop data) tag .unit).counters = _ from hcs] at hc
        exact h.healthy.mono (Nat.le_succ n) a c hc ha
      · rintro b ⟨c, hc, ha⟩
        exact ⟨c, by rw [show (World.answer (w.restoreLoop data) tag .unit).counters = _ from hcs]; exact hc, ha⟩
      · rw [show (World.answer (w.restoreLoop data) tag .unit).counters = _ from hcs]; exact Nat.le_refl _
  | run i =>
    simp only [wstep, World.runAt]
    cases ht : w.tasks[i]? with
    | none => exact ⟨g, os, h.same (Nat.le_succ n) rfl rfl rfl rfl⟩
    | some t =>
      rcases perm_split h.perm ht h.gcok.gc h.nongc with ⟨hgc, rfl, hp⟩ | ⟨hgc, hm, hp⟩
      · have h' : Calm { ({ w with tasks := w.tasks.eraseIdx i } : World) with tasks := t :: w.tasks.eraseIdx i } (n + 1) t os :=
          h.weaken os _ (List.Perm.cons _ hp) (fun _ h => h)
        exact calm_runGc p _ n t os hp h'
      · have h' := h.weaken (os.erase t) _ hp (fun _ h => List.mem_of_mem_erase h)
        have hok : otherOk { w with tasks := w.tasks.eraseIdx i } (n + 1) g t :=
          (h.others t hm).transfer (Nat.le_refl _) (SameAddrs.of_eq rfl) (Nat.le_refl _)
        obtain ⟨os', h3⟩ := calm_runOther p _ n g _ t h' hgc hok
        exact ⟨g, os', h3⟩
  | direct tag a msg =>
    have hkind : kindMsg n msg := by
      cases msg with
      | stop => exact hs
      | setInternalData m => exact ⟨hs.1, by have := hs.2; omega⟩
      | _ => trivial
    obtain ⟨h1, h2⟩ := send_kind p w a msg n h.healthy hkind
    obtain ⟨e1, e2, e3, e4, e5, e6, e7⟩ := sendCounter_master p w a msg
    exact ⟨g, os, h.keep (w' := ((w.sendCounter p a msg).1.answer tag (.counter (w.sendCounter p a msg).2)))
      (by rw [show ((w.sendCounter p a msg).1.answer tag (.counter (w.sendCounter p a msg).2)).tasks = _ from e2]; exact h.perm)
      (fun t ht => Or.inl ht) (SameAddrs.of_eq (by rw [show ((w.sendCounter p a msg).1.answer tag (.counter (w.sendCounter p a msg).2)).master = _ from e1])) hwf (by rw [show ((w.sendCounter p a msg).1.answer tag (.counter (w.sendCounter p a msg).2)).crashed = _ from e4]; exact h.nocrash) h1 h2 (Nat.le_of_eq e6.symm)⟩
  | tick d => exact ⟨g, os, h.same (Nat.le_succ n) rfl rfl rfl rfl⟩
  | fire a i =>
    simp only [wstep] at hwf ⊢
    cases hc : w.counters[a]? with
    | none => exact ⟨g, os, h.same (Nat.le_succ n) rfl rfl rfl rfl⟩
    | some c =>
      rw [hc] at hwf
      have hfa : (c.fire w.now i).1.alive = c.alive ∧ (c.alive = true → MValid c.m → MValid (c.fire w.now i).1.m ∧ (c.fire w.now i).1.m.visitors ≤ c.m.visitors) := by
        rcases fire_cases w.now c i with hf | ⟨t, h1, _, _, hf⟩
        · rw [hf]; exact ⟨rfl, fun _ hv => ⟨hv, Nat.le_refl _⟩⟩
        · rw [hf]
          refine ⟨rfl, fun _ hv => ⟨decrement_mvalid _ _ hv, ?_⟩⟩
          simp only [decrement_eq]
          omega
      refine ⟨g, os, h.keep h.perm (fun t ht => Or.inl ht) (SameAddrs.of_eq rfl) hwf h.nocrash ?_ ?_ (by simp)⟩
      · intro b c' hc' ha
        simp only [List.getElem?_set] at hc'
        split at hc'
        · rename_i hab
          split at hc'
          · injection hc' with hc'
            subst hc'
            rw [hfa.1] at ha
            obtain ⟨hv, hn⟩ := h.healthy a c hc ha
            obtain ⟨h5, h6⟩ := hfa.2 ha hv
            exact ⟨h5, by omega⟩
          · cases hc'
        · exact h.healthy.mono (Nat.le_succ n) b c' hc' ha
      · rintro b ⟨c', hc', ha⟩
        by_cases hab : a = b
        · subst hab
          rw [hc] at hc'; injection hc' with hc'; subst hc'
          refine ⟨(c.fire w.now i).1, ?_, by rw [hfa.1]; exact ha⟩
          simp only [List.getElem?_set]
          rw [if_pos trivial, if_pos (List.getElem?_eq_some_iff.1 hc).1]
        · refine ⟨c', ?_, ha⟩
          simp only [List.getElem?_set]
          rw [if_neg hab]; exact hc'

theorem calm_wrun (p : Profile) (k : Nat) (steps : List WStep) (w : World) (g : Task) (os : List Task)
    (h : Calm w steps.length g os) (hs : ∀ s ∈ steps, calm k s) (hk : k + steps.length < u32Size) :
    ∃ g' os', Calm (wrun p w steps) 0 g' os' := by
  induction steps generalizing w g os with
  | nil => exact ⟨g, os, h⟩
  | cons s r ih =>
    simp only [List.length_cons] at h hk
    obtain ⟨g', os', h'⟩ := calm_step p k r.length w s g os h (hs s List.mem_cons_self) (by omega)
    exact ih _ g' os' h' (fun s hs' => hs s (List.mem_cons_of_mem _ hs')) (by omega)

theorem calm_init (now gc n : Nat) : Calm (World.init now gc) n (.gcWait now) [] where
  perm := List.Perm.refl _
  nongc := by simp
  wf := wf_init now gc
  nocrash := rfl
  healthy := by intro a c hc; simp [World.init] at hc
  gcok := ⟨rfl, by simp [gcEntries], by simp [gcEntries], by simp [gcEntries], by simp [gcEntries], by simp [gcRemoving],
    by intro id r a h; simp [World.init, Master.new] at h⟩
  others := by simp

end MCap
