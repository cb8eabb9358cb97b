import Verif.Props.Master
import Verif.Proofs.MasterFresh

/-!
# Properties C30–C34: garbage collection races and restores of the master actor
-/

namespace MCap
open Spec

/-! ## C30 -/

/-- C30 is false of the code: garbage collection has stopped the idle site "a" and is about to send `RemoveCaptcha`; a
client registers "a" afresh; the pending `RemoveCaptcha` then removes the new, never visited registration. -/
theorem C30_unvisited_survive_refuted :
    ∃ (w₀ w : World), Reachable ⟨true⟩ w₀ ∧ w = wstep ⟨true⟩ w₀ (.req 9 (.addSite "a" exM)) ∧
      lookup w "a" = some 1 ∧ visited w "a" = false ∧ (∃ c, siteCounter w "a" = some c ∧ c.alive = true) ∧
      w.tasks[0]? = some (.gcRemove "a" []) ∧ lookup (wstep ⟨true⟩ w (.run 0)) "a" = none :=
  ⟨wrun ⟨true⟩ (World.init 0 10) [.req 0 (.addSite "a" exM), .req 1 (.getSite "a"), .req 2 .cleanUp, .run 1, .run 0], _,
    ⟨0, 10, _, rfl⟩, rfl, by decide, by decide, ⟨Counter.start exM, by decide⟩, by decide, by decide⟩

/-- C30, what holds under every interleaving: if no lookup of `id` occurs in the whole history, no task of the master
(garbage collection included) ever changes what `id` denotes, and no garbage collection task targets it. What is
missing against C30: earlier registrations of the same id may have been looked up. -/
theorem C30_unvisited_survive_partial (p : Profile) (now gc : Nat) (id : SiteId) (steps : List WStep)
    (hn : ∀ s ∈ steps, looksUp id s = false) :
    let w := wrun p (World.init now gc) steps
    (∀ i, lookup (wstep p w (.run i)) id = lookup w id) ∧
    (∀ t ∈ w.tasks, (∀ rest, t ≠ .gcRemove id rest) ∧ ∀ a rest, t ≠ .gcStop id a rest) := by
  have h := unread_wrun p steps _ (unread_init id now gc) hn
  refine ⟨fun i => (unread_run p _ i h).2, fun t ht => ⟨?_, ?_⟩⟩
  · rintro rest rfl; exact (h.tasks _ ht).1 rfl
  · rintro a rest rfl; exact (h.tasks _ ht).1 rfl

/-- A history in which "a" is registered and never looked up while "b" is collected. -/
example : let steps := [.req 0 (.addSite "a" exM), .req 1 (.addSite "b" exM), .req 2 (.getSite "b"), .req 3 .cleanUp,
      .run 1, .run 0, .run 0, .run 0, .run 0]
    (∀ s ∈ steps, looksUp "a" s = false) ∧ lookup (wrun ⟨true⟩ (World.init 0 10) steps) "a" = some 0 ∧
    lookup (wrun ⟨true⟩ (World.init 0 10) steps) "b" = none := by decide

/-- C30, what holds whatever happened to the name before: if at the registration no collection under way has an earlier, looked-up
registration of `id` on its list and no restore is about to register `id`, then the new registration stays exactly as it was made, for
every interleaving of other requests, of tasks of the master (any number of collections among them), of the clock and of timers, until
a client names `id` again or talks to its counter. What is missing against C30: collections that took their list before the
registration, the race of the refutation. -/
theorem C30_fresh_registration_partial (p : Profile) (w₀ : World) (hw : Reachable p w₀) (hc : w₀.crashed = false) (tag : Nat)
    (id : SiteId) (m : MCaptcha) (hn : ∀ t ∈ w₀.tasks, aimsAt id t = false) (steps : List WStep)
    (hs : ∀ s ∈ steps, leavesAlone id w₀.counters.length s = true) :
    let w := wrun p w₀ (.req tag (.addSite id m) :: steps)
    lookup w id = some w₀.counters.length ∧ siteCounter w id = some (Counter.start m) ∧ visited w id = false := by
  have h := freshReg_wrun p steps _ (freshReg_added p w₀ hw hc tag id m hn) hs
  have hl : lookup (wrun p w₀ (.req tag (.addSite id m) :: steps)) id = some w₀.counters.length := lookup_of_get _ _ _ _ h.reg
  refine ⟨hl, ?_, ?_⟩
  · simp only [siteCounter, hl, Option.bind_some]; exact h.counter
  · simp only [visited]
    rw [show (wrun p w₀ (.req tag (.addSite id m) :: steps)).master.sites.get id = some (false, w₀.counters.length) from h.reg]

/-- "a" was looked up, collected and registered again, while "b" is on the list of a collection under way; two collections later the
new registration of "a" is still there and "b" is gone. -/
example : let w₀ := wrun ⟨true⟩ (World.init 0 10) [.req 0 (.addSite "a" exM), .req 1 (.addSite "b" exM), .req 2 (.getSite "a"),
      .req 3 (.getSite "b"), .req 4 .cleanUp, .run 1, .run 0, .run 0]
    let steps : List WStep := [.run 0, .run 0, .run 0, .run 0, .tick 10, .run 0, .run 2, .run 2, .run 2, .run 0, .run 0]
    lookup w₀ "a" = none ∧ w₀.tasks[0]? = some (.gcPoll [("b", (true, 1))]) ∧ w₀.crashed = false ∧
    (∀ t ∈ w₀.tasks, aimsAt "a" t = false) ∧ (∀ s ∈ steps, leavesAlone "a" w₀.counters.length s = true) ∧
    lookup (wrun ⟨true⟩ w₀ (.req 9 (.addSite "a" exM) :: steps)) "b" = none := by decide

/-! ## C31 -/

/-- C31 is false of the code: a visitor counted between the poll and the stop message is discarded. -/
theorem C31_no_visitors_discarded_refuted :
    ∃ (w : World), Reachable ⟨true⟩ w ∧ w.tasks[0]? = some (.gcStop "a" 0 []) ∧
      (∃ c, siteCounter w "a" = some c ∧ c.alive = true ∧ c.m.getVisitors = 1) ∧
      w.answers.getLast? = some (3, .visitor (some ⟨30, 10⟩)) ∧
      (∃ c, (wstep ⟨true⟩ w (.run 0)).counters[0]? = some c ∧ c.alive = false) ∧
      lookup (wrun ⟨true⟩ w [.run 0, .run 0]) "a" = none :=
  ⟨wrun ⟨true⟩ (World.init 0 10) [.req 0 (.addSite "a" exM), .req 1 (.getSite "a"), .req 2 .cleanUp, .run 1,
      .req 3 (.addVisitor "a"), .run 2],
    ⟨0, 10, _, rfl⟩, by decide, ⟨_, rfl, rfl, rfl⟩, by decide, ⟨_, rfl, rfl⟩, by decide⟩

/-- C31, what holds: garbage collection only decides to stop a counter whose count is 0 when polled, and if no visit and
no restore reaches that counter from then on, it still counts nobody when it is stopped, under every interleaving.
What is missing against C31: visits between the poll and the stop. -/
theorem C31_no_visitors_discarded_partial (p : Profile) (w : World) (i : Nat) (id : SiteId) (r : Bool) (a : Addr)
    (rest : List (SiteId × (Bool × Addr))) (ht : w.tasks[i]? = some (.gcPoll ((id, (r, a)) :: rest)))
    (hstop : (wstep p w (.run i)).tasks[0]? = some (.gcStop id a rest)) :
    (∃ c, w.counters[a]? = some c ∧ c.alive = true ∧ c.m.getVisitors = 0) ∧ r = true ∧
    ∀ later, neverFed p a (wstep p w (.run i)) later →
      ∃ c, (wrun p (wstep p w (.run i)) later).counters[a]? = some c ∧ c.m.getVisitors = 0 := by
  have hrd := (sendCounter_read p { w with tasks := w.tasks.eraseIdx i } a).1
  cases hca : w.counters[a]? with
  | none =>
    exfalso
    simp only [wstep, World.runAt, ht, World.runTask, World.sendCounter, hca, World.crash] at hstop
    simp at hstop
  | some c =>
    by_cases hal : c.alive = true
    · have hs := sendCounter_alive_count p { w with tasks := w.tasks.eraseIdx i } a c hca hal
      simp only [wstep, World.runAt, ht, World.runTask, hs] at hstop ⊢
      by_cases hz : (c.m.visitors == 0 && r) = true
      · rw [if_pos hz] at hstop ⊢
        simp only [Bool.and_eq_true, beq_iff_eq] at hz
        refine ⟨⟨c, rfl, hal, hz.1⟩, hz.2, ?_⟩
        intro later hl
        exact zero_wrun p later _ a ⟨c, hca, hz.1⟩ hl
      · rw [if_neg hz] at hstop
        simp at hstop
    · exfalso
      have hal' : c.alive = false := by simpa using hal
      have hself : w.counters.set a c = w.counters := by
        obtain ⟨hlt, he⟩ := List.getElem?_eq_some_iff.1 hca
        rw [← he, List.set_getElem_self]
      simp only [wstep, World.runAt, ht, World.runTask, World.sendCounter, hca, Counter.send, hal', if_false,
        Bool.false_eq_true, World.crash] at hstop
      simp at hstop

/-- The poll of an idle visited site, followed by a visit elsewhere. -/
example : let w := wrun ⟨true⟩ (World.init 0 10) [.req 0 (.addSite "a" exM), .req 1 (.addSite "b" exM),
      .req 2 (.getSite "a"), .req 3 .cleanUp]
    w.tasks[1]? = some (.gcPoll [("a", (true, 0)), ("b", (false, 1))]) ∧
    (wstep ⟨true⟩ w (.run 1)).tasks[0]? = some (.gcStop "a" 0 [("b", (false, 1))]) ∧
    neverFed ⟨true⟩ 0 (wstep ⟨true⟩ w (.run 1)) [.req 4 (.addVisitor "b"), .run 2] :=
  ⟨by decide, by decide, by decide, by decide, trivial⟩

/-! ## C32 -/

/-- C32 is false of the code: `RemoveCaptcha` between the snapshot and the poll stops a counter that the pass then
polls; the failing `unwrap` takes the master down, and every later request fails. -/
theorem C32_gc_never_crashes_refuted :
    ∃ (w : World), Reachable ⟨true⟩ w ∧ w.crashed = true ∧
      (∀ tag msg, (wstep ⟨true⟩ w (.req tag msg)).answers = w.answers ++ [(tag, .mailboxError)]) ∧
      (∃ c, siteCounter w "b" = some c ∧ c.alive = true) :=
  ⟨wrun ⟨true⟩ (World.init 0 10) [.req 0 (.addSite "a" exM), .req 1 (.addSite "b" exM), .req 2 .cleanUp,
      .req 3 (.removeCaptcha "a"), .run 2, .run 1],
    ⟨0, 10, _, rfl⟩, by decide, fun _ _ => rfl, ⟨_, rfl, rfl⟩⟩

/-- C32, a second way: a site renamed between snapshot and removal keeps a stopped counter under its new name, and the
next pass crashes on it. -/
theorem C32_rename_race_refuted :
    ∃ (w : World), Reachable ⟨true⟩ w ∧ w.crashed = false ∧
      (∃ c, siteCounter w "b" = some c ∧ c.alive = false) ∧
      (wrun ⟨true⟩ w [.req 9 .cleanUp, .run 2]).crashed = true :=
  ⟨wrun ⟨true⟩ (World.init 0 10) [.req 0 (.addSite "a" exM), .req 1 (.getSite "a"), .req 2 .cleanUp,
      .req 3 (.rename "a" "b"), .run 1, .run 0, .run 0, .run 0],
    ⟨0, 10, _, rfl⟩, by decide, ⟨_, rfl, rfl⟩, by decide⟩

/-- C32, what holds: a service that never removes or renames sites, never stops counters directly and leaves
collections to the master's own timer never crashes, under every interleaving of visits, registrations, lookups, backups,
restores, timer deliveries and garbage collection, with any number of sites. Moreover every registered counter runs,
except possibly the one garbage collection is about to remove. Missing against C32: the excluded messages. -/
theorem C32_gc_never_crashes_partial (p : Profile) (now gc k : Nat) (steps : List WStep)
    (hs : ∀ s ∈ steps, calm k s) (hk : k + steps.length < 2 ^ 32) :
    let w := wrun p (World.init now gc) steps
    w.crashed = false ∧
    ∀ id a, lookup w id = some a → (∃ c, w.counters[a]? = some c ∧ c.alive = true) ∨
      ∃ rest, Task.gcRemove id rest ∈ w.tasks := by
  obtain ⟨g, os, h⟩ := calm_wrun p k steps (World.init now gc) _ _ (calm_init now gc steps.length) hs hk
  refine ⟨h.nocrash, ?_⟩
  intro id a hl
  obtain ⟨r, hg⟩ := get_of_lookup _ id a hl
  rcases h.gcok.registry id r a hg with h1 | h1
  · exact Or.inl h1
  · right
    have hmem : g ∈ (wrun p (World.init now gc) steps).tasks := h.perm.symm.subset List.mem_cons_self
    cases g with
    | gcRemove i rest => injection h1 with h1; subst h1; exact ⟨rest, hmem⟩
    | _ => cases h1

/-- A calm schedule with two sites, visits, a backup and a collection that removes a site in the middle of it. -/
example : let steps : List WStep := [.req 0 (.addSite "a" exM), .req 1 (.addSite "b" exM), .req 2 (.getSite "b"), .run 0,
      .req 3 (.addVisitor "a"), .run 0, .req 4 .getInternalData, .run 0, .run 0, .run 0, .run 0, .tick 40, .run 0]
    (∀ s ∈ steps, calm 0 s) ∧ lookup (wrun ⟨true⟩ (World.init 0 10) steps) "b" = none := by
  refine ⟨?_, by decide⟩
  have hm := (freshM_valid _ exM_fresh).1
  intro s hs
  simp only [List.mem_cons, List.not_mem_nil, or_false] at hs
  rcases hs with rfl | rfl | rfl | rfl | rfl | rfl | rfl | rfl | rfl | rfl | rfl | rfl | rfl <;>
    first | trivial | exact ⟨hm, by decide⟩

/-! ## C33 -/

/-- C33: reading the internal data of a quiescent master of any size returns exactly the state of every registered site
(with unique keys) and changes nothing else. -/
theorem C33_backup_exact (p : Profile) (w : World) (hw : Reachable p w) (hc : w.crashed = false) (tag : Nat)
    (hal : ∀ id a, lookup w id = some a → ∃ c, w.counters[a]? = some c ∧ c.alive = true) :
    ∃ k data, wrun p w (.req tag .getInternalData :: .run w.tasks.length :: List.replicate k (.run 0)) =
        w.answer tag (.data data) ∧ data.keys.Nodup ∧
      ∀ id, data.get id = (siteCounter w id).map (·.m) := by
  have hwf := wf_reachable p w hw
  have hperm := iterByKey_perm w.master.sites
  have hmem : ∀ e ∈ iterByKey w.master.sites, w.master.sites.get e.1 = some e.2 := fun e he =>
    AMap.get_of_mem hwf.nodup (hperm.subset he)
  have hmem' : ∀ id r a, w.master.sites.get id = some (r, a) → (id, (r, a)) ∈ iterByKey w.master.sites := fun id r a h =>
    hperm.symm.subset (AMap.mem_of_get h)
  let w0 : World := { w with tasks := .collect tag (iterByKey w.master.sites) [] :: w.tasks }
  obtain ⟨data, hrun, h1, h2, h3⟩ := collect_pass p (iterByKey w.master.sites) w0 tag [] w.tasks rfl
    ((hperm.map _).nodup_iff.2 hwf.nodup)
    (fun e he => hal e.1 e.2.2 (lookup_of_get w e.1 e.2.1 e.2.2 (hmem e he)))
  refine ⟨(iterByKey w.master.sites).length, data, ?_, h1 (by simp [AMap.keys]), ?_⟩
  · have e1 : wstep p w (.req tag .getInternalData) = w.spawn (.collect tag (iterByKey w.master.sites) []) := by
      simp only [wstep, hc, if_false, Bool.false_eq_true]; rfl
    show wrun p (wstep p (wstep p w (.req tag .getInternalData)) (.run w.tasks.length)) _ = _
    rw [e1, run_last]
    exact hrun
  · intro id
    cases hg : w.master.sites.get id with
    | none =>
      rw [h2 id (fun e he hne => by have := hmem e he; rw [hne, hg] at this; cases this)]
      simp [siteCounter, lookup, hg]
    | some x =>
      obtain ⟨r, a⟩ := x
      rw [h3 _ (hmem' id r a hg)]
      simp only [siteCounter, lookup, hg, Option.map_some, Option.bind_some]
      rfl

/-- C33: restoring any such data, in whatever order the map is drained, into a master that was just started registers
exactly those sites, each with a running counter in exactly that state. -/
theorem C33_restore_exact (p : Profile) (now gc tag : Nat) (data : AMap SiteId MCaptcha) (hn : data.keys.Nodup)
    (order : List (SiteId × MCaptcha)) (ho : order.Perm data) :
    let w := wrun p (World.init now gc) (.req tag (.setInternalData order) :: List.replicate order.length (.run 1))
    w.crashed = false ∧ (∀ id, siteCounter w id = (data.get id).map Counter.start) ∧
    (∀ id, (lookup w id).isSome = (data.get id).isSome) ∧ w.tasks = [.gcWait now] ∧ w.answers = [(tag, .unit)] := by
  have hno : (order.map (·.1)).Nodup := (ho.map _).nodup_iff.2 hn
  have hl : (World.init now gc).restoreLoop order =
      { World.init now gc with tasks := [.gcWait now] ++ order.map fun e => .restoreNew e.1 e.2 } :=
    restoreLoop_fresh _ order (fun e _ => rfl)
  let w1 : World := ((World.init now gc).restoreLoop order).answer tag .unit
  have hw1 : wstep p (World.init now gc) (.req tag (.setInternalData order)) = w1 := rfl
  have hwf1 : RegWF w1.reg := by rw [← hw1]; exact RegWF.step (reg_wstep p _ _) (wf_init now gc)
  have ht1 : w1.tasks = [.gcWait now] ++ order.map fun e => .restoreNew e.1 e.2 := by
    show ((World.init now gc).restoreLoop order).tasks = _
    rw [hl]
  have hm1 : w1.master = Master.new gc := by
    show ((World.init now gc).restoreLoop order).master = _
    rw [hl]; rfl
  obtain ⟨w', hrun, g1, g2, g3, g4, g5⟩ := restore_run p order w1 [.gcWait now] ht1 hno hwf1
  have hans : w'.answers = w1.answers := by
    rw [← hrun]
    clear hrun g1 g2 g3 g4 g5
    have key : ∀ (k : Nat) (v : World), (∀ t ∈ v.tasks.tail, ∃ i m, t = .restoreNew i m) →
        (wrun p v (List.replicate k (.run 1))).answers = v.answers := by
      intro k
      induction k with
      | zero => intro v _; rfl
      | succ k ih =>
        intro v hv
        simp only [List.replicate_succ, wrun]
        have hstep : (wstep p v (.run 1)).answers = v.answers ∧
            ∀ t ∈ (wstep p v (.run 1)).tasks.tail, ∃ i m, t = .restoreNew i m := by
          simp only [wstep, World.runAt]
          cases hts : v.tasks with
          | nil => simp only [List.getElem?_nil]; rw [hts]; exact ⟨trivial, by simp⟩
          | cons x xs =>
            cases xs with
            | nil => simp only [List.getElem?_cons_succ, List.getElem?_nil]; rw [hts]; exact ⟨trivial, by simp⟩
            | cons y ys =>
              obtain ⟨i, m, rfl⟩ := hv y (by rw [hts]; simp)
              simp only [List.getElem?_cons_succ, List.getElem?_cons_zero, List.eraseIdx_cons_succ,
                List.eraseIdx_cons_zero, World.runTask, World.handleAddSite]
              exact ⟨trivial, fun t ht => hv t (by rw [hts]; simp only [List.tail_cons] at ht ⊢; exact List.mem_cons_of_mem _ ht)⟩
        rw [ih _ hstep.2, hstep.1]
    refine key _ w1 ?_
    rw [ht1]
    intro t ht
    simp only [List.singleton_append, List.tail_cons, List.mem_map] at ht
    obtain ⟨e, _, rfl⟩ := ht
    exact ⟨_, _, rfl⟩
  have e : wrun p (World.init now gc) (.req tag (.setInternalData order) :: List.replicate order.length (.run 1)) = w' := hrun
  simp only [e]
  have hcr : w1.crashed = false := by
    show ((World.init now gc).restoreLoop order).crashed = _
    rw [hl]; rfl
  have hgetm : ∀ id m, data.get id = some m → (id, m) ∈ order := fun id m h => ho.symm.subset (AMap.mem_of_get h)
  have hgetn : ∀ id, data.get id = none → ∀ e ∈ order, e.1 ≠ id := by
    intro id h e he hc
    have hmem := ho.subset he
    have h' := AMap.get_of_mem hn (k := e.1) (v := e.2) hmem
    rw [hc, h] at h'; cases h'
  have hnone : ∀ id, data.get id = none → w'.master.sites.get id = none := by
    intro id h
    rw [g3 id (hgetn id h), hm1]; rfl
  refine ⟨g2.trans hcr, ?_, ?_, g1, ?_⟩
  · intro id
    cases hd : data.get id with
    | none => simp [siteCounter, lookup, hnone id hd]
    | some m =>
      obtain ⟨a, ha, hca⟩ := g5 _ (hgetm id m hd)
      simp only at ha hca
      simp [siteCounter, lookup, ha, hca]
  · intro id
    cases hd : data.get id with
    | none => simp [lookup, hnone id hd]
    | some m =>
      obtain ⟨a, ha, hca⟩ := g5 _ (hgetm id m hd)
      simp only at ha
      simp [lookup, ha]
  · rw [hans]
    show ((World.init now gc).restoreLoop order).answers ++ _ = _
    rw [hl]; rfl

/-- A master with two sites, one of them loaded. -/
example : let w := wrun ⟨true⟩ (World.init 0 10) [.req 0 (.addSite "b" exM), .req 1 (.addSite "a" exM),
      .req 2 (.addVisitor "b"), .run 1]
    (wrun ⟨true⟩ w [.req 3 .getInternalData, .run 1, .run 0, .run 0]).answers.getLast? =
      some (3, .data [("a", exM), ("b", { exM with visitors := 1 })]) := by decide

/-! ## C34 -/

/-- C34 is false of the code: whatever state with visitors is restored into a fresh master, the new counter has no expiry
scheduled, and under every schedule of visits, queries and timer deliveries those visitors stay counted forever. -/
theorem C34_restored_visitors_expire_refuted (p : Profile) (now gc tag : Nat) (id : SiteId) (m : MCaptcha) (hm : MValid m) :
    let w := wrun p (World.init now gc) [.req tag (.setInternalData [(id, m)]), .run 1]
    siteCounter w id = some (Counter.start m) ∧ (Counter.start m).timers = [] ∧
    ∀ ops : List CStep, (∀ s ∈ ops, plain s = true) → m.visitors + (visitTimes now ops).length < 2 ^ 32 →
      ∃ now' c os, crun p now (Counter.start m) ops = .ret (now', c, os) ∧ m.getVisitors ≤ c.m.getVisitors := by
  have h := C33_restore_exact p now gc tag [(id, m)] (by simp [AMap.keys]) [(id, m)] (List.Perm.refl _)
  refine ⟨?_, rfl, ?_⟩
  · have := h.2.1 id
    simpa [AMap.get] using this
  · intro ops hp hv
    obtain ⟨now', c, os, h1, _, _, _, h5⟩ := C17_no_visitor_forgotten p m hm now ops hp hv
    exact ⟨now', c, os, h1, by omega⟩

/-- Such a state, and a schedule long past the duration of 30 seconds. -/
example : MValid { exM with visitors := 7 } ∧
    (∀ s ∈ ([.tick 100000, .fire 0, .req .addVisitor] : List CStep), plain s = true) :=
  ⟨⟨(freshM_valid _ exM_fresh).1.defense, by decide, by decide⟩, by decide⟩

/-- C34, what holds: restoring into a master that already knows the site (with a running counter whose count is covered by
scheduled decrements, as it always is for sites that started empty, C19) schedules the expiry of the restored visitors:
once the timers are due and delivered nobody is counted. Missing against C34: sites the master does not know. -/
theorem C34_restored_visitors_expire_partial (p : Profile) (w : World) (hc : w.crashed = false) (tag : Nat) (id : SiteId)
    (a : Addr) (hl : lookup w id = some a) (c : Counter) (hca : w.counters[a]? = some c) (ha : c.alive = true)
    (m : MCaptcha) :
    ∃ c', siteCounter (wrun p w [.req tag (.setInternalData [(id, m)]), .run w.tasks.length]) id = some c' ∧
      c'.m = m ∧ c'.timers = c.timers ++ [{ due := w.now + m.getDuration, dec := m.getVisitors }] ∧
      ∀ wait, (∀ t ∈ c'.timers, t.due ≤ w.now + wait) →
        ∃ c'' os, crun p w.now c' (.tick wait :: List.replicate c'.timers.length (.fire 0)) =
          .ret (w.now + wait, c'', os) ∧ c''.m.getVisitors = 0 := by
  obtain ⟨r, hg⟩ := get_of_lookup w id a hl
  refine ⟨c.handleSetInternalData w.now m, ?_, rfl, rfl, ?_⟩
  · have e : wrun p w [.req tag (.setInternalData [(id, m)]), .run w.tasks.length] =
        { w with counters := w.counters.set a (c.handleSetInternalData w.now m),
                 master := { w.master with sites := w.master.sites.insert id (true, a) },
                 answers := w.answers ++ [(tag, .unit)] } := by
      simp only [wrun, wstep, hc, if_false, Bool.false_eq_true, World.handle, World.handleSetInternalData,
        World.restoreLoop, getSite_some _ _ _ _ hg, World.spawn, World.runAt, World.answer]
      simp only [List.getElem?_concat_length, List.eraseIdx_append_of_length_le (Nat.le_refl _), Nat.sub_self,
        List.eraseIdx_cons_zero, List.append_nil, World.runTask, World.sendCounter, hca, Counter.send, ha, if_true]
    rw [e]
    simp only [siteCounter, lookup, AMap.get_insert_self, Option.map_some, Option.bind_some]
    rw [List.getElem?_set_self (List.getElem?_eq_some_iff.1 hca).1]
  · intro wait hw
    obtain ⟨c'', os, h1, h2, h3⟩ := drain_run p (w.now + wait) (c.handleSetInternalData w.now m) ha hw
    have h4 : crun p w.now (c.handleSetInternalData w.now m)
        (.tick wait :: List.replicate (c.handleSetInternalData w.now m).timers.length (.fire 0))
        = .ret (w.now + wait, c'', .clock :: os) := by simp [crun, cstep, h1]
    refine ⟨c'', _, h4, ?_⟩
    have hb : (c.handleSetInternalData w.now m).m.visitors ≤ scheduled (c.handleSetInternalData w.now m) := by
      simp only [scheduled, Counter.handleSetInternalData, List.map_append, List.sum_append, List.map_cons, List.map_nil,
        List.sum_cons, List.sum_nil, MCaptcha.getVisitors]
      omega
    have := scheduled_bound p _ _ _ _ c'' _ h4 (fun _ => hb) h3
    unfold scheduled at this
    rw [h2] at this
    simpa [MCaptcha.getVisitors] using this

example : let w := wrun ⟨true⟩ (World.init 0 10) [.req 0 (.addSite "a" exM), .req 1 (.addVisitor "a"), .run 1]
    lookup w "a" = some 0 ∧ (w.counters[0]?.map (·.alive)) = some true ∧ w.crashed = false := by decide

end MCap
