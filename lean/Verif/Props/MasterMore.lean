import Verif.Proofs.MasterRestore
import Verif.Props.Master

/-!
# Properties C87–C89: the collector goes on by itself, restoring into a running master, a crash is final
(src/master/embedded/master.rs)
-/

namespace MCap
open Spec

/-! ## C87 -/

/-- C87: in every reachable state of a running master there is one collector that was started with the master, and one more
for every `CleanUp` a client ever sent: collectors never end. -/
theorem C87_collectors_never_end (p : Profile) (now gc : Nat) (steps : List WStep)
    (hc : (wrun p (World.init now gc) steps).crashed = false) :
    ((wrun p (World.init now gc) steps).tasks.filter collector).length = 1 + (steps.filter asksCleanUp).length :=
  (collectors_wrun p steps (World.init now gc) hc).1

/-- C87: a sleeping collector needs no client. From every reachable state in which the registered counters run, waiting
until it is due and letting it run without interference removes exactly the idle sites, and puts it to sleep for
another `gc` seconds. -/
theorem C87_collection_needs_no_client (p : Profile) (w : World) (hw : Reachable p w) (hc : w.crashed = false)
    (hal : ∀ id a, lookup w id = some a → ∃ c, w.counters[a]? = some c ∧ c.alive = true)
    (i due : Nat) (hi : w.tasks[i]? = some (.gcWait due)) :
    ∃ k, let w' := wrun p w (.tick (due - w.now) :: .run i :: .run (w.tasks.length - 1) :: List.replicate k (.run 0))
      w'.crashed = false ∧ w'.tasks.head? = some (.gcWait (max due w.now + w.master.gc)) ∧
      (∀ id, idle w id → lookup w' id = none ∧
        ∀ a, lookup w id = some a → ∃ c, w'.counters[a]? = some c ∧ c.alive = false) ∧
      (∀ id, ¬ idle w id → lookup w' id = lookup w id ∧ visited w' id = visited w id ∧
        siteCounter w' id = siteCounter w id) := by
  have hlt : i < w.tasks.length := (List.getElem?_eq_some_iff.1 hi).1
  let w1 : World := { w with now := w.now + (due - w.now), tasks := w.tasks.eraseIdx i }
  have hlen : w1.tasks.length = w.tasks.length - 1 := by
    show (w.tasks.eraseIdx i).length = _
    rw [List.length_eraseIdx, if_pos hlt]
  obtain ⟨k, w', hrun, h1, h2, h3⟩ := gc_whole p w1 (wf_reachable p w hw) hc hal w1.tasks
  have hstart : wrun p w (.tick (due - w.now) :: .run i :: .run (w.tasks.length - 1) :: List.replicate k (.run 0)) = w' := by
    rw [← hrun]
    have e1 : wstep p (wstep p w (.tick (due - w.now))) (.run i) = w1.spawn (.gcPoll (iterByKey w.master.sites)) := by
      have hdue : due ≤ w.now + (due - w.now) := by omega
      simp only [wstep, World.runAt, hi, World.runTask, hdue, if_true]
      rfl
    show wrun p (wstep p (wstep p (wstep p w (.tick (due - w.now))) (.run i)) (.run (w.tasks.length - 1))) _ =
      wrun p (wstep p _ (.run 0)) _
    rw [e1, ← hlen, run_last]
  refine ⟨k, ?_⟩
  simp only [hstart]
  refine ⟨h1, ?_, h3⟩
  rw [h2]
  show some (Task.gcWait (w.now + (due - w.now) + w.master.gc)) = _
  congr 2
  omega

/-- An idle site, a collector due at 0 that has not run yet; two more requests for collection. -/
example : let w := wrun ⟨true⟩ (World.init 0 10) [.req 0 (.addSite "a" exM), .req 1 (.getSite "a")]
    w.tasks[0]? = some (.gcWait 0) ∧ visited w "a" = true ∧
    lookup (wrun ⟨true⟩ w [.tick 0, .run 0, .run 0, .run 0, .run 0, .run 0]) "a" = none ∧
    (wrun ⟨true⟩ w [.req 2 .cleanUp, .req 3 .cleanUp]).tasks =
      [.gcWait 0, .gcPoll [("a", (true, 0))], .gcPoll [("a", (true, 0))]] := by decide

/-! ## C88 -/

/-- C88: restoring a map into a running master, its tasks running without interference. Sites not in the map keep
everything. Sites in the map that were unknown get a new counter with exactly the restored state. Sites in the map that
were known keep their counter; if it runs, its state is replaced by the restored one and one more expiry is
scheduled for the restored visitors; if it was stopped, nothing is restored (and nobody is told). -/
theorem C88_restore_in_place (p : Profile) (w : World) (hw : Reachable p w) (hc : w.crashed = false) (tag : Nat)
    (data : AMap SiteId MCaptcha) (hn : data.keys.Nodup) :
    let w' := wrun p w (.req tag (.setInternalData data) :: List.replicate data.length (.run w.tasks.length))
    w'.crashed = false ∧ w'.tasks = w.tasks ∧ w'.answers = w.answers ++ [(tag, .unit)] ∧
    (∀ id, data.get id = none →
      lookup w' id = lookup w id ∧ visited w' id = visited w id ∧ siteCounter w' id = siteCounter w id) ∧
    (∀ id m, data.get id = some m → lookup w id = none →
      siteCounter w' id = some (Counter.start m) ∧ visited w' id = false) ∧
    (∀ id m a c, data.get id = some m → lookup w id = some a → w.counters[a]? = some c →
      lookup w' id = some a ∧ visited w' id = true ∧
      siteCounter w' id = some (if c.alive then
          { c with m := m, timers := c.timers ++ [{ due := w.now + m.getDuration, dec := m.getVisitors }] }
        else c)) := by
  have hwf := wf_reachable p w hw
  have hn' : (data.map (·.1)).Nodup := hn
  obtain ⟨h1, h2, h3, h4, h5, h6, h7⟩ := restoreLoop_spec w data hn'
  let w1 : World := (w.restoreLoop data).answer tag .unit
  have s1 : wstep p w (.req tag (.setInternalData data)) = w1 := by
    simp only [wstep, hc, if_false, Bool.false_eq_true]; rfl
  obtain ⟨w', hrun, g1, g2, g3, g4, g5, g6, g7, g8, g9⟩ := restoreTasks_run p data w w1 w.tasks h1 hn' hwf
    (by show _ ≤ (w.restoreLoop data).counters.length; rw [h2]; exact Nat.le_refl _)
    (by intro e _ r a _; show (w.restoreLoop data).counters[a]? = _; rw [h2])
  have hstart : wrun p w (.req tag (.setInternalData data) :: List.replicate data.length (.run w.tasks.length)) = w' := by
    simp only [wrun, s1]; exact hrun
  simp only [hstart]
  have hkeys : ∀ id, data.get id = none → id ∉ data.map (·.1) := fun id h => (AMap.get_none_iff data id).1 h
  have hmem : ∀ id m, data.get id = some m → (id, m) ∈ data := fun id m h => AMap.mem_of_get h
  have hin : ∀ id m, data.get id = some m → id ∈ data.map (·.1) := fun id m h =>
    List.mem_map.2 ⟨_, hmem id m h, rfl⟩
  have hcl : w1.counters.length = w.counters.length := by show (w.restoreLoop data).counters.length = _; rw [h2]
  have hcw : ∀ a : Addr, w1.counters[a]? = w.counters[a]? := by intro a; show (w.restoreLoop data).counters[a]? = _; rw [h2]
  have hnow : w1.now = w.now := h3
  refine ⟨?_, g1, ?_, ?_, ?_, ?_⟩
  · rw [g2]; exact h4.trans hc
  · rw [g3]; show (w.restoreLoop data).answers ++ _ = _; rw [h5]
  · intro id hid
    have hk := hkeys id hid
    have hg : w'.master.sites.get id = w.master.sites.get id := by
      rw [g6 id (fun e he h => absurd (List.mem_map.2 ⟨e, he, h⟩) hk)]
      exact h6 id hk
    have hl : lookup w' id = lookup w id := by simp only [lookup, hg]
    refine ⟨hl, by simp only [visited, hg], ?_⟩
    simp only [siteCounter, hl]
    cases hla : lookup w id with
    | none => rfl
    | some a =>
      obtain ⟨r, hga⟩ := get_of_lookup w id a hla
      simp only [Option.bind_some]
      rw [g7 a (by rw [hcl]; exact hwf.bound _ _ _ hga), hcw]
      intro e he r' h
      have := hwf.inj _ _ _ _ _ h hga
      exact hk (List.mem_map.2 ⟨e, he, this⟩)
  · intro id m hid hl
    obtain ⟨a, ha, hca⟩ := g8 (id, m) (hmem id m hid) (get_none_of_lookup w id hl)
    refine ⟨?_, ?_⟩
    · simp only [siteCounter, lookup_of_get w' id _ _ ha, Option.bind_some, hca]
    · simp only [visited, ha]
  · intro id m a c hid hl hca
    obtain ⟨r, hga⟩ := get_of_lookup w id a hl
    have hg : w'.master.sites.get id = some (true, a) := by
      rw [g6 id (fun e he h => by rw [hga]; rfl)]
      show (w.restoreLoop data).master.sites.get id = _
      rw [h7 id (hin id m hid), hga]; rfl
    refine ⟨lookup_of_get w' id _ _ hg, by simp only [visited, hg], ?_⟩
    simp only [siteCounter, lookup_of_get w' id _ _ hg, Option.bind_some]
    rw [g9 (id, m) (hmem id m hid) r a hga, hca, hnow]
    rfl

/-- One site of each kind: "a" running with a visitor, "b" stopped by a client, "c" unknown, "d" not in the map. -/
example : let w := wrun ⟨true⟩ (World.init 0 10) [.req 0 (.addSite "a" exM), .req 1 (.addSite "b" exM),
      .req 2 (.addSite "d" exM), .req 3 (.addVisitor "a"), .run 1, .direct 4 1 .stop]
    let data : AMap SiteId MCaptcha := [("a", { exM with visitors := 7 }), ("b", { exM with visitors := 8 }), ("c", { exM with visitors := 9 })]
    let w' := wrun ⟨true⟩ w (.req 5 (.setInternalData data) :: List.replicate 3 (.run w.tasks.length))
    data.keys.Nodup ∧ (siteCounter w' "a").map (fun c => (c.m.visitors, c.timers)) = some (7, [⟨30, 1⟩, ⟨30, 7⟩]) ∧
    (siteCounter w' "b").map (fun c => (c.m.visitors, c.alive)) = some (0, false) ∧
    (siteCounter w' "c").map (fun c => (c.m.visitors, c.timers)) = some (9, []) ∧
    (siteCounter w' "d").map (fun c => (c.m.visitors, c.timers)) = some (0, []) := by decide

/-! ## C89 -/

/-- C89: once a collector has crashed the master, this is final: whatever happens later, it stays crashed, runs no task,
keeps its registry, and answers every request with a mailbox error. -/
theorem C89_crash_is_final (p : Profile) (w : World) (hw : Reachable p w) (hc : w.crashed = true) (later : List WStep)
    (tag : Nat) (msg : MasterMsg) :
    let w' := wrun p w later
    w'.crashed = true ∧ w'.tasks = [] ∧ lookup w' = lookup w ∧
    wstep p w' (.req tag msg) = w'.answer tag .mailboxError := by
  obtain ⟨h1, h2, h3⟩ := crashed_wrun p later w hc (tasks_of_crashed p w hw hc)
  refine ⟨h1, h2, ?_, ?_⟩
  · simp only [lookup_def, h3]
  · simp only [wstep, h1, if_true]

/-- C89: the addresses handed out keep working: the counters do not need the master. -/
theorem C89_counters_survive (p : Profile) (w : World) (a : Addr) (c : Counter) (hca : w.counters[a]? = some c) (tag : Nat)
    (msg : CounterMsg) (c' : Counter) (r : CounterReply) (hs : c.send p w.now msg = .ret (c', r)) :
    wstep p w (.direct tag a msg) = ({ w with counters := w.counters.set a c' } : World).answer tag (.counter r) := by
  simp only [wstep, World.sendCounter, hca, hs]

/-- A crashed master (the counter of "a" was stopped by a client, the next pass unwraps the mailbox error), the counter of
"b" alive. -/
example : let w := wrun ⟨true⟩ (World.init 0 10) [.req 0 (.addSite "a" exM), .req 1 (.addSite "b" exM), .direct 2 0 .stop,
      .run 0, .run 0]
    w.crashed = true ∧ (siteCounter w "b").map (·.alive) = some true := by decide

end MCap
