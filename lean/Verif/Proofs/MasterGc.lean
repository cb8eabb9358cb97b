import Verif.Proofs.MasterIso

namespace MCap
open Spec

theorem wrun_append (p : Profile) (w : World) (a b : List WStep) : wrun p w (a ++ b) = wrun p (wrun p w a) b := by
  induction a generalizing w with
  | nil => rfl
  | cons s r ih => exact ih _

theorem run0_some (p : Profile) (w w' : World) (t t' : Task) (ts : List Task) (ht : w.tasks = t :: ts)
    (h : ({ w with tasks := ts } : World).runTask p t = (w', some t')) :
    wstep p w (.run 0) = { w' with tasks := t' :: w'.tasks } := by
  simp only [wstep, World.runAt, ht, List.getElem?_cons_zero, List.eraseIdx_cons_zero, h]

theorem run0_none (p : Profile) (w w' : World) (t : Task) (ts : List Task) (ht : w.tasks = t :: ts)
    (h : ({ w with tasks := ts } : World).runTask p t = (w', none)) :
    wstep p w (.run 0) = w' := by
  simp only [wstep, World.runAt, ht, List.getElem?_cons_zero, List.eraseIdx_cons_zero, h]

theorem insertByKey_perm {ν : Type} (e : SiteId × ν) (l : List (SiteId × ν)) : (insertByKey e l).Perm (e :: l) := by
  induction l with
  | nil => exact List.Perm.refl _
  | cons x r ih =>
    simp only [insertByKey]
    split
    · exact List.Perm.refl _
    · exact (List.Perm.cons x ih).trans (List.Perm.swap e x r)

theorem iterByKey_perm {ν : Type} (l : List (SiteId × ν)) : (iterByKey l).Perm l := by
  induction l with
  | nil => exact List.Perm.refl _
  | cons x r ih => exact (insertByKey_perm x _).trans (List.Perm.cons x ih)

/-- An entry of a snapshot that the pass will remove. -/
def idleEntry (w : World) (e : SiteId × (Bool × Addr)) : Prop :=
  e.2.1 = true ∧ ∃ c, w.counters[e.2.2]? = some c ∧ c.m.visitors = 0

theorem sendCounter_alive_count (p : Profile) (w : World) (a : Addr) (c : Counter) (hc : w.counters[a]? = some c)
    (ha : c.alive = true) : w.sendCounter p a .getCurrentVisitorCount = (w, .count c.m.visitors) := by
  have h1 := (sendCounter_read p w a).1
  have h2 : (w.sendCounter p a .getCurrentVisitorCount).2 = .count c.m.visitors := by
    unfold World.sendCounter
    rw [hc]
    simp only [Counter.send, ha, if_true]
    rfl
  exact Prod.ext h1 h2

theorem sendCounter_alive_data (p : Profile) (w : World) (a : Addr) (c : Counter) (hc : w.counters[a]? = some c)
    (ha : c.alive = true) : w.sendCounter p a .getInternalData = (w, .data c.m) := by
  have h1 := (sendCounter_read p w a).2
  have h2 : (w.sendCounter p a .getInternalData).2 = .data c.m := by
    unfold World.sendCounter
    rw [hc]
    simp only [Counter.send, ha, if_true]
    rfl
  exact Prod.ext h1 h2

theorem sendCounter_alive_stop (p : Profile) (w : World) (a : Addr) (c : Counter) (hc : w.counters[a]? = some c)
    (ha : c.alive = true) :
    w.sendCounter p a .stop = ({ w with counters := w.counters.set a c.handleStop }, .done) := by
  unfold World.sendCounter
  rw [hc]
  simp only [Counter.send, ha, if_true]

/-- A pass over a snapshot that nothing interferes with. -/
theorem gc_pass (p : Profile) (rest : List (SiteId × (Bool × Addr))) (w : World) (ts : List Task)
    (ht : w.tasks = .gcPoll rest :: ts) (hnd : (rest.map (·.1)).Nodup)
    (hin : ∀ e ∈ rest, w.master.sites.get e.1 = some e.2) (hwf : RegWF w.reg)
    (hal : ∀ e ∈ rest, ∃ c, w.counters[e.2.2]? = some c ∧ c.alive = true) :
    ∃ k stops w', wrun p w (List.replicate k (.run 0)) = w' ∧
      w'.tasks = .gcWait (w.now + w.master.gc) :: (ts ++ stops) ∧ (∀ t ∈ stops, ∃ a, t = .stop none a) ∧
      w'.crashed = w.crashed ∧ w'.now = w.now ∧ w'.answers = w.answers ∧
      (∀ id, (∃ e ∈ rest, e.1 = id ∧ idleEntry w e) → w'.master.sites.get id = none) ∧
      (∀ id, (¬ ∃ e ∈ rest, e.1 = id ∧ idleEntry w e) → w'.master.sites.get id = w.master.sites.get id) ∧
      (∀ a, (∃ e ∈ rest, e.2.2 = a ∧ idleEntry w e) → w'.counters[a]? = (w.counters[a]?).map Counter.handleStop) ∧
      (∀ a, (¬ ∃ e ∈ rest, e.2.2 = a ∧ idleEntry w e) → w'.counters[a]? = w.counters[a]?) := by
  induction rest generalizing w ts with
  | nil =>
    refine ⟨1, [], { w with tasks := .gcWait (w.now + w.master.gc) :: ts }, ?_, ?_, ?_, rfl, rfl, rfl, ?_, ?_, ?_, ?_⟩
    · show wstep p w (.run 0) = _
      exact run0_some p w _ _ _ ts ht rfl
    · simp
    · simp
    · rintro id ⟨e, he, _⟩; cases he
    · intro id _; rfl
    · rintro a ⟨e, he, _⟩; cases he
    · intro a _; rfl
  | cons e rest ih =>
    obtain ⟨id, r, a⟩ := e
    obtain ⟨c, hc, hca⟩ := hal _ List.mem_cons_self
    simp only at hc
    simp only [List.map_cons, List.nodup_cons] at hnd
    have hget : w.master.sites.get id = some (r, a) := hin _ List.mem_cons_self
    have hin' : ∀ e ∈ rest, w.master.sites.get e.1 = some e.2 := fun e he => hin e (List.mem_cons_of_mem _ he)
    have hal' : ∀ e ∈ rest, ∃ c, w.counters[e.2.2]? = some c ∧ c.alive = true :=
      fun e he => hal e (List.mem_cons_of_mem _ he)
    have hkey : ∀ e ∈ rest, e.1 ≠ id := by
      intro e he h; exact hnd.1 (List.mem_map.2 ⟨e, he, h⟩)
    have haddr : ∀ e ∈ rest, e.2.2 ≠ a := by
      intro e he h
      have h1 := hin' e he
      obtain ⟨i, r', a'⟩ := e
      simp only at h h1; subst h
      exact hkey _ he (hwf.inj _ _ _ _ _ h1 hget)
    have hpoll : ({ w with tasks := ts } : World).runTask p (.gcPoll ((id, (r, a)) :: rest)) =
        if c.m.visitors == 0 && r then ({ w with tasks := ts }, some (.gcStop id a rest))
        else ({ w with tasks := ts }, some (.gcPoll rest)) := by
      simp only [World.runTask]
      rw [sendCounter_alive_count p { w with tasks := ts } a c hc hca]
    by_cases hidle : (c.m.visitors == 0 && r) = true
    · -- idle: poll, stop, remove
      have hi0 : c.m.visitors = 0 ∧ r = true := by simpa using hidle
      have hie : idleEntry w (id, (r, a)) := ⟨hi0.2, c, hc, hi0.1⟩
      rw [if_pos hidle] at hpoll
      have s1 := run0_some p w _ _ _ ts ht hpoll
      let w1 : World := { w with tasks := .gcStop id a rest :: ts }
      have s1' : wstep p w (.run 0) = w1 := s1
      have s2 : wstep p w1 (.run 0) = { w1 with counters := w.counters.set a c.handleStop, tasks := .gcRemove id rest :: ts } := by
        refine run0_some p w1 { w with tasks := ts, counters := w.counters.set a c.handleStop } _ (.gcRemove id rest) ts rfl ?_
        simp only [World.runTask]
        rw [sendCounter_alive_stop p { w1 with tasks := ts } a c hc hca]
      let w2 : World := { w with counters := w.counters.set a c.handleStop, tasks := .gcRemove id rest :: ts }
      let w3 : World := { w with counters := w.counters.set a c.handleStop,
                                 master := { w.master with sites := w.master.sites.erase id },
                                 tasks := .gcPoll rest :: (ts ++ [.stop none a]) }
      have s3 : wstep p w2 (.run 0) = w3 := by
        refine run0_some p w2 { w3 with tasks := ts ++ [.stop none a] } (.gcRemove id rest) _ ts rfl ?_
        · simp only [World.runTask, World.handleRemoveCaptcha, Master.rmSite, w2, hget, World.spawn, w3]
      have hcnt : ∀ b, b ≠ a → w3.counters[b]? = w.counters[b]? := by
        intro b hb
        show (w.counters.set a c.handleStop)[b]? = _
        rw [List.getElem?_set_ne (fun e => hb e.symm)]
      have hcnta : w3.counters[a]? = some c.handleStop := by
        show (w.counters.set a c.handleStop)[a]? = _
        exact List.getElem?_set_self (List.getElem?_eq_some_iff.1 hc).1
      have hreg : RegStep w.reg w3.reg := by
        have : w3.reg = (w.master.sites.erase id, w.counters.length) := by
          simp [World.reg, w3]
        rw [this]; exact RegStep.del _ _ id
      have hidl : ∀ e ∈ rest, (idleEntry w3 e ↔ idleEntry w e) := by
        intro e he
        unfold idleEntry
        rw [hcnt _ (haddr e he)]
      obtain ⟨k, stops, w', h1, h2, h3, h4, h5, h6, h7, h8, h9, h10⟩ := ih w3 (ts ++ [.stop none a]) rfl hnd.2 (by
          intro e he
          show (w.master.sites.erase id).get e.1 = _
          rw [AMap.get_erase_ne _ _ _ (fun h => hkey e he h.symm)]; exact hin' e he) (RegWF.step hreg hwf) (by
          intro e he
          rw [hcnt _ (haddr e he)]; exact hal' e he)
      refine ⟨k + 3, .stop none a :: stops, w', ?_, ?_, ?_, h4, h5, h6, ?_, ?_, ?_, ?_⟩
      · have : List.replicate (k + 3) (WStep.run 0) = [.run 0, .run 0, .run 0] ++ List.replicate k (.run 0) := rfl
        rw [this, wrun_append]
        have : wrun p w [.run 0, .run 0, .run 0] = w3 := by
          simp only [wrun, s1', s2]; exact s3
        rw [this]; exact h1
      · rw [h2]; simp only [List.append_assoc, List.singleton_append]; rfl
      · intro t ht
        rcases List.mem_cons.1 ht with rfl | ht
        · exact ⟨a, rfl⟩
        · exact h3 t ht
      · rintro i ⟨e, he, hei, hid⟩
        rcases List.mem_cons.1 he with rfl | he
        · simp only at hei; subst hei
          rw [h8 id (by rintro ⟨e, he, hei, _⟩; exact hkey e he hei)]
          exact AMap.get_erase_self _ _
        · exact h7 i ⟨e, he, hei, (hidl e he).2 hid⟩
      · intro i hn
        have hne : i ≠ id := by
          rintro rfl; exact hn ⟨_, List.mem_cons_self, rfl, hie⟩
        rw [h8 i (by rintro ⟨e, he, hei, hid⟩; exact hn ⟨e, List.mem_cons_of_mem _ he, hei, (hidl e he).1 hid⟩)]
        exact AMap.get_erase_ne _ _ _ (fun h => hne h.symm)
      · rintro b ⟨e, he, hei, hid⟩
        rcases List.mem_cons.1 he with rfl | he
        · simp only at hei; subst hei
          rw [h10 a (by rintro ⟨e, he, hei, _⟩; exact haddr e he hei), hcnta, hc]; rfl
        · have hba : b ≠ a := by rw [← hei]; exact haddr e he
          rw [h9 b ⟨e, he, hei, (hidl e he).2 hid⟩, hcnt b hba]
      · intro b hn
        have hne : b ≠ a := by
          rintro rfl; exact hn ⟨_, List.mem_cons_self, rfl, hie⟩
        rw [h10 b (by rintro ⟨e, he, hei, hid⟩; exact hn ⟨e, List.mem_cons_of_mem _ he, hei, (hidl e he).1 hid⟩)]
        exact hcnt b hne
    · -- not idle: skip
      have hni : ¬ idleEntry w (id, (r, a)) := by
        rintro ⟨h1, c', h2, h3⟩
        simp only at h1 h2
        rw [hc] at h2; injection h2 with h2; subst h2
        exact hidle (by simp [h1, h3])
      rw [if_neg hidle] at hpoll
      have s1 := run0_some p w _ _ _ ts ht hpoll
      let w1 : World := { w with tasks := .gcPoll rest :: ts }
      have s1' : wstep p w (.run 0) = w1 := s1
      obtain ⟨k, stops, w', h1, h2, h3, h4, h5, h6, h7, h8, h9, h10⟩ := ih w1 ts rfl hnd.2 hin' hwf hal'
      refine ⟨k + 1, stops, w', ?_, h2, h3, h4, h5, h6, ?_, ?_, ?_, ?_⟩
      · have : List.replicate (k + 1) (WStep.run 0) = .run 0 :: List.replicate k (.run 0) := rfl
        rw [this]
        simp only [wrun, s1']; exact h1
      · rintro i ⟨e, he, hei, hid⟩
        rcases List.mem_cons.1 he with rfl | he
        · exact absurd hid hni
        · exact h7 i ⟨e, he, hei, hid⟩
      · intro i hn
        exact h8 i (by rintro ⟨e, he, h⟩; exact hn ⟨e, List.mem_cons_of_mem _ he, h⟩)
      · rintro i ⟨e, he, hei, hid⟩
        rcases List.mem_cons.1 he with rfl | he
        · exact absurd hid hni
        · exact h9 i ⟨e, he, hei, hid⟩
      · intro i hn
        exact h10 i (by rintro ⟨e, he, h⟩; exact hn ⟨e, List.mem_cons_of_mem _ he, h⟩)

/-- Collecting the state of all sites, nothing interfering. -/
theorem collect_pass (p : Profile) (rest : List (SiteId × (Bool × Addr))) (w : World) (tag : Nat)
    (acc : AMap SiteId MCaptcha) (ts : List Task) (ht : w.tasks = .collect tag rest acc :: ts)
    (hnd : (rest.map (·.1)).Nodup)
    (hal : ∀ e ∈ rest, ∃ c, w.counters[e.2.2]? = some c ∧ c.alive = true) :
    ∃ data, wrun p w (List.replicate (rest.length + 1) (.run 0)) = { w with tasks := ts, answers := w.answers ++ [(tag, .data data)] } ∧
      (acc.keys.Nodup → data.keys.Nodup) ∧
      (∀ id, (∀ e ∈ rest, e.1 ≠ id) → data.get id = acc.get id) ∧
      (∀ e ∈ rest, data.get e.1 = (w.counters[e.2.2]?).map (·.m)) := by
  induction rest generalizing w acc with
  | nil =>
    refine ⟨acc, ?_, id, fun _ _ => rfl, ?_⟩
    · show wstep p w (.run 0) = _
      exact run0_none p w _ _ ts ht rfl
    · intro e he; cases he
  | cons e rest ih =>
    obtain ⟨id, r, a⟩ := e
    obtain ⟨c, hc, hca⟩ := hal _ List.mem_cons_self
    simp only at hc
    simp only [List.map_cons, List.nodup_cons] at hnd
    have s1 : wstep p w (.run 0) = { w with tasks := .collect tag rest (acc.insert id c.m) :: ts } := by
      refine run0_some p w { w with tasks := ts } _ _ ts ht ?_
      simp only [World.runTask]
      rw [sendCounter_alive_data p { w with tasks := ts } a c hc hca]
    obtain ⟨data, h1, h2, h3, h4⟩ := ih { w with tasks := .collect tag rest (acc.insert id c.m) :: ts }
      (acc.insert id c.m) rfl hnd.2 (fun e he => hal e (List.mem_cons_of_mem _ he))
    refine ⟨data, ?_, fun hn => h2 (AMap.nodup_insert _ _ _ hn), ?_, ?_⟩
    · have : List.replicate (((id, (r, a)) :: rest).length + 1) (WStep.run 0)
          = .run 0 :: List.replicate (rest.length + 1) (.run 0) := rfl
      rw [this]
      simp only [wrun, s1]; exact h1
    · intro i hi
      rw [h3 i (fun e he => hi e (List.mem_cons_of_mem _ he))]
      exact AMap.get_insert_ne _ _ _ _ (hi _ List.mem_cons_self)
    · intro e he
      rcases List.mem_cons.1 he with rfl | he
      · rw [h3 id (fun e he h => hnd.1 (List.mem_map.2 ⟨e, he, h⟩))]
        simp only [AMap.get_insert_self, hc, Option.map_some]
      · exact h4 e he

/-! ### restoring into a master that knows none of the sites -/

theorem restoreLoop_fresh (w : World) (data : List (SiteId × MCaptcha))
    (h : ∀ e ∈ data, w.master.sites.get e.1 = none) :
    w.restoreLoop data = { w with tasks := w.tasks ++ data.map fun e => .restoreNew e.1 e.2 } := by
  induction data generalizing w with
  | nil => simp [World.restoreLoop]
  | cons e r ih =>
    obtain ⟨name, m⟩ := e
    simp only [World.restoreLoop]
    rw [getSite_none _ _ (h _ List.mem_cons_self)]
    simp only
    rw [ih (w.spawn (.restoreNew name m)) (fun e he => h e (List.mem_cons_of_mem _ he))]
    simp [World.spawn]

/-- Running the restore tasks, which stand behind the tasks `ts`. -/
theorem restore_run (p : Profile) (data : List (SiteId × MCaptcha)) (w : World) (ts : List Task)
    (ht : w.tasks = ts ++ data.map fun e => .restoreNew e.1 e.2)
    (hnd : (data.map (·.1)).Nodup) (hwf : RegWF w.reg) :
    ∃ w', wrun p w (List.replicate data.length (.run ts.length)) = w' ∧ w'.tasks = ts ∧ w'.crashed = w.crashed ∧
      (∀ id, (∀ e ∈ data, e.1 ≠ id) → w'.master.sites.get id = w.master.sites.get id) ∧
      (∀ a, a < w.counters.length → w'.counters[a]? = w.counters[a]?) ∧
      (∀ e ∈ data, ∃ a, w'.master.sites.get e.1 = some (false, a) ∧ w'.counters[a]? = some (Counter.start e.2)) := by
  induction data generalizing w with
  | nil =>
    exact ⟨w, rfl, by simpa using ht, rfl, fun _ _ => rfl, fun _ _ => rfl, fun e he => absurd he List.not_mem_nil⟩
  | cons e r ih =>
    obtain ⟨name, m⟩ := e
    simp only [List.map_cons, List.nodup_cons] at hnd
    let w1 : World := { w with counters := w.counters ++ [Counter.start m],
                               master := w.master.addSite w.counters.length name,
                               tasks := ts ++ r.map fun e => .restoreNew e.1 e.2 }
    have s1 : wstep p w (.run ts.length) = w1 := by
      have hget : w.tasks[ts.length]? = some (.restoreNew name m) := by
        rw [ht]; simp
      simp only [wstep, World.runAt, hget, World.runTask, World.handleAddSite, w1]
      rw [ht]
      simp [List.eraseIdx_append_of_length_le]
    have hreg : RegStep w.reg w1.reg := by
      have : w1.reg = (w.master.sites.insert name (false, w.counters.length), w.counters.length + 1) := by
        simp [World.reg, w1, Master.addSite]
      rw [this]; exact RegStep.add _ _ name
    obtain ⟨w', h1, h2, h3, h4, h5, h6⟩ := ih w1 rfl hnd.2 (RegWF.step hreg hwf)
    refine ⟨w', ?_, h2, h3, ?_, ?_, ?_⟩
    · have : List.replicate ((name, m) :: r).length (WStep.run ts.length)
          = .run ts.length :: List.replicate r.length (.run ts.length) := rfl
      rw [this]
      simp only [wrun, s1]; exact h1
    · intro i hi
      rw [h4 i (fun e he => hi e (List.mem_cons_of_mem _ he))]
      exact AMap.get_insert_ne _ _ _ _ (hi _ List.mem_cons_self)
    · intro a ha
      rw [h5 a (by simp [w1]; omega)]
      exact List.getElem?_append_left ha
    · intro e he
      rcases List.mem_cons.1 he with rfl | he
      · refine ⟨w.counters.length, ?_, ?_⟩
        · rw [h4 name (fun e he h => hnd.1 (List.mem_map.2 ⟨e, he, h⟩))]
          exact AMap.get_insert_self _ _ _
        · rw [h5 _ (by simp [w1])]
          simp [w1]
      · exact h6 e he

end MCap
