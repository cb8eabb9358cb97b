import Verif.Proofs.MasterRace
import Verif.Proofs.MasterSeen
import Verif.Props.Counter

/-!
# Properties C24–C34: the master actor (src/master/embedded/master.rs)

`p` is the build profile, a `World` the master with its counters and tasks, a list of `WStep`s an arbitrary interleaving
of client messages, task actions, direct messages to counters, clock advances and timer deliveries.
-/

namespace MCap
open Spec

/-! ## C24 -/

/-- C24: in every world and under every interleaving, which ids are known and which counter each denotes is what an
abstract map gives for the messages the master handled (from clients, garbage collection or restores). -/
theorem C24_registry_is_a_map (p : Profile) (w : World) (steps : List WStep) :
    lookup (wrun p w steps) = regAfter (lookup w) w.counters.length (handledAll p w steps) :=
  lookup_wrun p steps w

/-- C24: this map is what clients see: `GetSite` answers the counter the id denotes, or nothing, and changes no binding;
`AddSite` binds the id to a new counter in the given state and answers. -/
theorem C24_map_is_observable (p : Profile) (w : World) (hc : w.crashed = false) (tag : Nat) (id : SiteId) (m : MCaptcha) :
    (let w' := wstep p w (.req tag (.getSite id))
     w'.answers = w.answers ++ [(tag, .site (lookup w id))] ∧ lookup w' = lookup w ∧ w'.counters = w.counters ∧
     w'.tasks = w.tasks) ∧
    (let w' := wstep p w (.req tag (.addSite id m))
     w'.answers = w.answers ++ [(tag, .unit)] ∧ siteCounter w' id = some (Counter.start m) ∧
     (∀ k, k ≠ id → lookup w' k = lookup w k) ∧ (∀ a, a < w.counters.length → w'.counters[a]? = w.counters[a]?) ∧
     w'.tasks = w.tasks) := by
  constructor
  · simp only [wstep, hc, if_false, Bool.false_eq_true, World.handle, World.handleGetSite, World.answer, getSite_addr]
    exact ⟨rfl, lookup_getSite w id, trivial, trivial⟩
  · simp only [wstep, hc, if_false, Bool.false_eq_true, World.handle, World.handleAddSite, World.answer, Master.addSite]
    refine ⟨trivial, ?_, ?_, ?_, trivial⟩
    · simp [siteCounter, lookup, AMap.get_insert_self]
    · intro k hk
      simp only [lookup]
      rw [AMap.get_insert_ne _ _ _ _ (fun h => hk h.symm)]
    · intro a ha
      exact List.getElem?_append_left ha

/-- C24: two ids never share a counter. -/
theorem C24_no_shared_counter (p : Profile) (w : World) (hw : Reachable p w) (i j : SiteId) (a : Addr)
    (hi : lookup w i = some a) (hj : lookup w j = some a) : i = j := by
  obtain ⟨r1, h1⟩ := get_of_lookup w i a hi
  obtain ⟨r2, h2⟩ := get_of_lookup w j a hj
  exact (wf_reachable p w hw).inj i j r1 r2 a h1 h2

/-- Two sites registered, one renamed over the other, one re-registered. -/
example : let w := wrun ⟨true⟩ (World.init 0 10) [.req 0 (.addSite "a" exM), .req 1 (.addSite "b" exM),
      .req 2 (.rename "a" "b"), .req 3 (.addVisitor "b"), .run 1, .req 4 (.addSite "a" exM)]
    lookup w "a" = some 2 ∧ lookup w "b" = some 0 ∧ lookup w "c" = none ∧
    (siteCounter w "b").map (·.m.getVisitors) = some 1 := by decide

/-! ## C25 -/

/-- C25: a step that concerns other sites leaves the site's registration, its mark and its counter alone. -/
theorem C25_sites_isolated (p : Profile) (w : World) (hw : Reachable p w) (id : SiteId) (a : Addr)
    (hl : lookup w id = some a) (s : WStep) (hs : concernsOthers w id a s) :
    lookup (wstep p w s) id = lookup w id ∧ visited (wstep p w s) id = visited w id ∧
    siteCounter (wstep p w s) id = siteCounter w id := by
  obtain ⟨r, hg⟩ := get_of_lookup w id a hl
  have hb := (wf_reachable p w hw).bound id r a hg
  have hv := view_wstep p w s id a hb hs
  simp only [view, Prod.mk.injEq] at hv
  have h1 : lookup (wstep p w s) id = lookup w id := by simp only [lookup, hv.1]
  refine ⟨h1, by simp only [visited, hv.1], ?_⟩
  simp only [siteCounter, h1, hl, Option.bind_some]
  exact hv.2

/-- C25: a message that does not name the site never creates a task that acts on it, so completing the message leaves
the site alone too. -/
theorem C25_tasks_isolated (p : Profile) (w : World) (hw : Reachable p w) (id : SiteId) (a : Addr)
    (hl : lookup w id = some a) (tag : Nat) (msg : MasterMsg) (hm : namesSite id msg = false) :
    ∀ t ∈ (wstep p w (.req tag msg)).tasks, t ∈ w.tasks ∨ actsOn id a t = false := by
  obtain ⟨r, hg⟩ := get_of_lookup w id a hl
  simp only [wstep]
  split
  · exact fun t ht => Or.inl ht
  · exact handle_tasks w tag msg id r a (wf_reachable p w hw) hg hm

/-- C25: a visit to another site, carried out completely, leaves this site's counter alone. -/
theorem C25_visit_elsewhere (p : Profile) (w : World) (hw : Reachable p w) (hc : w.crashed = false) (id i : SiteId)
    (hne : i ≠ id) (a : Addr) (hl : lookup w id = some a) (tag : Nat) :
    siteCounter (wrun p w [.req tag (.addVisitor i), .run w.tasks.length]) id = siteCounter w id := by
  have hn : namesSite id (.addVisitor i) = false := by simp [namesSite, hne]
  obtain ⟨h1, _, h3⟩ := C25_sites_isolated p w hw id a hl (.req tag (.addVisitor i)) hn
  have hw' : Reachable p (wstep p w (.req tag (.addVisitor i))) := by
    obtain ⟨now, gc, steps, rfl⟩ := hw
    exact ⟨now, gc, steps ++ [.req tag (.addVisitor i)], by rw [wrun_append]; rfl⟩
  have hts : (wstep p w (.req tag (.addVisitor i))).tasks = w.tasks ∨
      ∃ t, (wstep p w (.req tag (.addVisitor i))).tasks = w.tasks ++ [t] := by
    simp only [wstep, hc, if_false, Bool.false_eq_true, World.handle, World.handleAddVisitor]
    split
    · exact Or.inl rfl
    · exact Or.inr ⟨_, rfl⟩
  have hact := C25_tasks_isolated p w hw id a hl tag (.addVisitor i) hn
  have h4 := C25_sites_isolated p _ hw' id a (h1.trans hl) (.run w.tasks.length) (by
    intro t ht
    rcases hts with h | ⟨t', h⟩
    · rw [h, List.getElem?_eq_none (Nat.le_refl _)] at ht; cases ht
    · rw [h] at ht
      have ht2 : t = t' := by simpa using ht.symm
      rw [ht2]
      have e : t' = Task.forward tag ((w.master.getSite i).2.getD 0) := by
        simp only [wstep, hc, if_false, Bool.false_eq_true, World.handle, World.handleAddVisitor] at h
        cases ha : (w.master.getSite i).2 with
        | none =>
          rw [ha] at h
          simp only [World.answer] at h
          have := congrArg List.length h
          simp at this
        | some b =>
          rw [ha] at h
          simp only [World.spawn] at h
          have := List.append_cancel_left h
          simp at this
          simp [this]
      rw [e]
      have hga := getSite_addr w.master i
      cases ha : (w.master.getSite i).2 with
      | none =>
        rw [ha] at hga
        simp only [wstep, hc, if_false, Bool.false_eq_true, World.handle, World.handleAddVisitor, ha, World.answer] at h
        have := congrArg List.length h
        simp at this
      | some b =>
        rw [ha] at hga
        simp only [actsOn, Option.getD_some, beq_eq_false_iff_ne]
        rintro rfl
        exact hne (C24_no_shared_counter p w hw i id b hga.symm hl))
  exact h4.2.2.trans h3

example : let w := wrun ⟨true⟩ (World.init 0 10) [.req 0 (.addSite "a" exM), .req 1 (.addSite "b" exM)]
    lookup w "a" = some 0 ∧ concernsOthers w "a" 0 (.req 2 (.addVisitor "b")) ∧
    concernsOthers w "a" 0 (.run 0) := by
  refine ⟨by decide, by show namesSite _ _ = _; decide, ?_⟩
  intro t ht; cases ht; rfl

/-! ## C26 -/

/-- C26: a visit to an unregistered id is answered `Ok(None)` and changes nothing else. -/
theorem C26_unknown_site (p : Profile) (w : World) (hc : w.crashed = false) (id : SiteId) (tag : Nat)
    (hl : lookup w id = none) :
    wstep p w (.req tag (.addVisitor id)) = w.answer tag (.visitor none) := by
  have hg := get_none_of_lookup w id hl
  simp only [wstep, hc, if_false, Bool.false_eq_true, World.handle, World.handleAddVisitor, getSite_none _ _ hg]
  rw [← hc]

/-- C26: a visit to a registered id is counted by that id's counter, and the answer is the counter's reply; nothing but
that counter, the site's mark and the answer changes. -/
theorem C26_known_site (p : Profile) (w : World) (hc : w.crashed = false) (id : SiteId) (tag : Nat) (a : Addr)
    (hl : lookup w id = some a) (c : Counter) (hca : w.counters[a]? = some c) (ha : c.alive = true) (hm : MValid c.m)
    (hv : c.m.getVisitors + 1 < 2 ^ 32) :
    ∃ c' r, c.send p w.now .addVisitor = .ret (c', .visitor r) ∧
      (let w' := wrun p w [.req tag (.addVisitor id), .run w.tasks.length]
       w'.answers = w.answers ++ [(tag, .visitor (some r))] ∧ w'.counters = w.counters.set a c' ∧
       siteCounter w' id = some c' ∧ visited w' id = true ∧ lookup w' = lookup w ∧ w'.tasks = w.tasks ∧
       w'.crashed = false) := by
  obtain ⟨m', g1, g2, g3, g4, g5, d, gd, g6⟩ := send_addVisitor p w.now c ha hm hv
  obtain ⟨r0, hg⟩ := get_of_lookup w id a hl
  refine ⟨_, _, g6, ?_⟩
  have e : wrun p w [.req tag (.addVisitor id), .run w.tasks.length] =
      { w with counters := w.counters.set a ({ m := m', alive := true, timers := c.timers ++ [{ due := w.now + c.m.duration, dec := 1 }] }),
               master := { w.master with sites := w.master.sites.insert id (true, a) },
               answers := w.answers ++ [(tag, .visitor (some { duration := c.m.duration, difficultyFactor := d }))] } := by
    simp only [wrun, wstep, hc, if_false, Bool.false_eq_true, World.handle, World.handleAddVisitor,
      getSite_some _ _ _ _ hg, World.spawn, World.runAt]
    simp only [List.getElem?_concat_length, List.eraseIdx_append_of_length_le (Nat.le_refl _), Nat.sub_self,
      List.eraseIdx_cons_zero, List.append_nil, World.runTask, World.sendCounter, hca, g6, World.answer]
  simp only [e]
  have hlk : (fun k => ((w.master.sites.insert id (true, a)).get k).map (·.2)) = lookup w := by
    have := lookup_getSite w id
    rw [getSite_some _ _ _ _ hg] at this
    exact this
  refine ⟨trivial, trivial, ?_, ?_, hlk, trivial, hc⟩
  · simp only [siteCounter, lookup, AMap.get_insert_self, Option.map_some, Option.bind_some]
    rw [List.getElem?_set_self (List.getElem?_eq_some_iff.1 hca).1]
  · simp only [visited, AMap.get_insert_self]

/-- C26: if the registered counter has been stopped, the answer is an error and no counter changes. -/
theorem C26_stopped_counter (p : Profile) (w : World) (hc : w.crashed = false) (id : SiteId) (tag : Nat) (a : Addr)
    (hl : lookup w id = some a) (c : Counter) (hca : w.counters[a]? = some c) (ha : c.alive = false) :
    let w' := wrun p w [.req tag (.addVisitor id), .run w.tasks.length]
    w'.answers = w.answers ++ [(tag, .error .mailboxError)] ∧ w'.counters = w.counters := by
  obtain ⟨r0, hg⟩ := get_of_lookup w id a hl
  have hself : w.counters.set a c = w.counters := by
    obtain ⟨hlt, he⟩ := List.getElem?_eq_some_iff.1 hca
    rw [← he, List.set_getElem_self]
  simp only [wrun, wstep, hc, if_false, Bool.false_eq_true, World.handle, World.handleAddVisitor,
    getSite_some _ _ _ _ hg, World.spawn, World.runAt]
  simp only [List.getElem?_concat_length, List.eraseIdx_append_of_length_le (Nat.le_refl _), Nat.sub_self,
    List.eraseIdx_cons_zero, List.append_nil, World.runTask, World.sendCounter, hca, Counter.send, ha, if_false,
    Bool.false_eq_true, World.answer, hself, and_self]

example : let w := wrun ⟨true⟩ (World.init 0 10) [.req 0 (.addSite "a" exM)]
    lookup w "a" = some 0 ∧ w.counters[0]? = some (Counter.start exM) ∧ lookup w "b" = none := by decide

/-! ## C27 -/

/-- C27: rename moves the running counter to the new id and answers; the old id becomes unknown, a previous holder of the
new id is no longer registered, other ids are untouched, and no counter is touched. -/
theorem C27_rename_moves_counter (p : Profile) (w : World) (hc : w.crashed = false) (tag : Nat) (a b : SiteId) (x : Addr)
    (hl : lookup w a = some x) :
    let w' := wstep p w (.req tag (.rename a b))
    lookup w' b = some x ∧ (a ≠ b → lookup w' a = none) ∧ (∀ k, k ≠ a → k ≠ b → lookup w' k = lookup w k) ∧
    w'.counters = w.counters ∧ siteCounter w' b = siteCounter w a ∧ w'.tasks = w.tasks ∧
    w'.answers = w.answers ++ [(tag, .unit)] := by
  have h1 := lookup_wstep p w (.req tag (.rename a b)) []
  simp only [handled, hc, if_false, Bool.false_eq_true, List.singleton_append, regAfter] at h1
  have h2 : (wstep p w (.req tag (.rename a b))).counters = w.counters := by
    simp only [wstep, hc, if_false, Bool.false_eq_true, World.handle, World.handleRename, World.answer]
  have hmv : ∀ k, lookup (wstep p w (.req tag (.rename a b))) k = (lookup w).mv a b k := fun k => (congrFun h1 k).symm
  have hb : lookup (wstep p w (.req tag (.rename a b))) b = some x := by
    rw [hmv]; simp only [Reg.mv, hl, if_true]
  refine ⟨hb, ?_, ?_, h2, ?_, ?_, ?_⟩
  · intro hne
    rw [hmv]; simp only [Reg.mv, hl, if_neg hne, if_true]
  · intro k h3 h4
    rw [hmv]; simp only [Reg.mv, hl, if_neg h3, if_neg h4]
  · simp only [siteCounter, hb, hl, h2]
  · simp only [wstep, hc, if_false, Bool.false_eq_true, World.handle, World.handleRename, World.answer]
  · simp only [wstep, hc, if_false, Bool.false_eq_true, World.handle, World.handleRename, World.answer]

/-- C27: renaming an unknown id only answers. -/
theorem C27_rename_unknown (p : Profile) (w : World) (hc : w.crashed = false) (tag : Nat) (a b : SiteId)
    (hl : lookup w a = none) : wstep p w (.req tag (.rename a b)) = w.answer tag .unit := by
  have hg := get_none_of_lookup w a hl
  simp only [wstep, hc, if_false, Bool.false_eq_true, World.handle, World.handleRename, Master.rename, hg,
    erase_of_get_none _ _ hg]
  rw [← hc]

/-- A rename over an existing site while a visitor is counted. -/
example : let w := wrun ⟨true⟩ (World.init 0 10) [.req 0 (.addSite "a" exM), .req 1 (.addSite "b" exM),
      .req 2 (.addVisitor "a"), .run 1]
    lookup w "a" = some 0 ∧ (siteCounter w "a").map (·.timers.length) = some 1 ∧ lookup w "b" = some 1 := by decide

/-! ## C28 -/

/-- C28: removing a registered id makes it unknown, leaves other ids alone and schedules the stop message to its
counter. -/
theorem C28_remove_unregisters (p : Profile) (w : World) (hc : w.crashed = false) (tag : Nat) (id : SiteId) (a : Addr)
    (hl : lookup w id = some a) :
    let w' := wstep p w (.req tag (.removeCaptcha id))
    lookup w' id = none ∧ (∀ k, k ≠ id → lookup w' k = lookup w k) ∧ w'.counters = w.counters ∧
    w'.tasks = w.tasks ++ [.stop (some tag) a] := by
  have h1 := lookup_wstep p w (.req tag (.removeCaptcha id)) []
  simp only [handled, hc, if_false, Bool.false_eq_true, List.singleton_append, regAfter] at h1
  obtain ⟨r, hg⟩ := get_of_lookup w id a hl
  refine ⟨?_, ?_, ?_, ?_⟩
  · rw [← h1]; simp only [Reg.del, if_true]
  · intro k hk; rw [← h1]; simp only [Reg.del, if_neg hk]
  · simp only [wstep, hc, if_false, Bool.false_eq_true, World.handle, World.handleRemoveCaptcha, Master.rmSite, hg, World.spawn]
  · simp only [wstep, hc, if_false, Bool.false_eq_true, World.handle, World.handleRemoveCaptcha, Master.rmSite, hg, World.spawn]

/-- C28: whenever that task runs, in whatever world by then, the counter is stopped afterwards, and stays stopped with an
unchanged state under every later schedule. -/
theorem C28_removed_counter_stops (p : Profile) (w : World) (i : Nat) (tag : Option Nat) (a : Addr)
    (ht : w.tasks[i]? = some (.stop tag a)) (ha : a < w.counters.length) (later : List WStep) :
    ∃ c, (wstep p w (.run i)).counters[a]? = some c ∧ c.alive = false ∧
      (wrun p (wstep p w (.run i)) later).counters[a]? = some c := by
  have key : ∃ c, (wstep p w (.run i)).counters[a]? = some c ∧ c.alive = false := by
    have hcs : (wstep p w (.run i)).counters = (World.sendCounter p { w with tasks := w.tasks.eraseIdx i } a .stop).1.counters := by
      simp only [wstep, World.runAt, ht]
      rcases runTask_counters p { w with tasks := w.tasks.eraseIdx i } (.stop tag a) with ⟨b, msg, h1, h2⟩ | ⟨h1, _⟩
      · simp only [Task.talk] at h1
        cases h1
        split
        · rename_i w' hq; rw [hq] at h2; exact h2
        · rename_i w' t' hq; rw [hq] at h2; exact h2
      · cases h1
    rw [hcs]
    have hg : ({ w with tasks := w.tasks.eraseIdx i } : World).counters[a]? = some w.counters[a] :=
      List.getElem?_eq_getElem ha
    by_cases hlv : w.counters[a].alive = true
    · rw [sendCounter_alive_stop p _ a _ hg hlv]
      exact ⟨_, List.getElem?_set_self ha, rfl⟩
    · exact ⟨_, sendCounter_dead p _ a a .stop _ hg (by simpa using hlv), by simpa using hlv⟩
  obtain ⟨c, h1, h2⟩ := key
  exact ⟨c, h1, h2, dead_wrun p later _ a c h1 h2⟩

/-- C28: the removal is answered once the stop message was delivered: `Ok(())` if the counter ran, the mailbox error if it
had stopped before. -/
theorem C28_remove_answers (p : Profile) (w : World) (hc : w.crashed = false) (tag : Nat) (id : SiteId) (a : Addr)
    (hl : lookup w id = some a) (c : Counter) (hca : w.counters[a]? = some c) :
    (wrun p w [.req tag (.removeCaptcha id), .run w.tasks.length]).answers =
      w.answers ++ [(tag, if c.alive then .unit else .error .mailboxError)] := by
  obtain ⟨r, hg⟩ := get_of_lookup w id a hl
  simp only [wrun, wstep, hc, if_false, Bool.false_eq_true, World.handle, World.handleRemoveCaptcha, Master.rmSite, hg,
    World.spawn, World.runAt, List.getElem?_concat_length, World.runTask, World.sendCounter, hca, Counter.send]
  by_cases h : c.alive = true
  · simp only [h, if_true, World.answer]
  · simp only [h, if_false, Bool.false_eq_true, World.answer]

/-- C28: removing an unknown id only answers. -/
theorem C28_remove_unknown (p : Profile) (w : World) (hc : w.crashed = false) (tag : Nat) (id : SiteId)
    (hl : lookup w id = none) : wstep p w (.req tag (.removeCaptcha id)) = w.answer tag .unit := by
  have hg := get_none_of_lookup w id hl
  simp only [wstep, hc, if_false, Bool.false_eq_true, World.handle, World.handleRemoveCaptcha, Master.rmSite, hg,
    erase_of_get_none _ _ hg]
  rw [← hc]

example : let w := wrun ⟨true⟩ (World.init 0 10) [.req 0 (.addSite "a" exM), .req 1 (.removeCaptcha "a")]
    w.tasks[1]? = some (.stop (some 1) 0) ∧
    ((wstep ⟨true⟩ w (.run 1)).counters[0]?.map (·.alive)) = some false ∧
    (wstep ⟨true⟩ w (.run 1)).answers = [(0, .unit), (1, .unit)] := by decide

/-! ## C29 -/

/-- C29: from every reachable state of any size in which the registered counters run, a garbage collection pass that runs
without interference removes exactly the idle sites and stops their counters; every other site keeps its
registration, mark and counter; the master survives and the next collection is scheduled `gc` seconds ahead. -/
theorem C29_gc_removes_exactly_idle (p : Profile) (w : World) (hw : Reachable p w) (hc : w.crashed = false) (tag : Nat)
    (hal : ∀ id a, lookup w id = some a → ∃ c, w.counters[a]? = some c ∧ c.alive = true) :
    ∃ k, let w' := wrun p w (.req tag .cleanUp :: .run w.tasks.length :: List.replicate k (.run 0))
      w'.crashed = false ∧ w'.tasks.head? = some (.gcWait (w.now + w.master.gc)) ∧
      (∀ id, idle w id → lookup w' id = none ∧
        ∀ a, lookup w id = some a → ∃ c, w'.counters[a]? = some c ∧ c.alive = false) ∧
      (∀ id, ¬ idle w id → lookup w' id = lookup w id ∧ visited w' id = visited w id ∧
        siteCounter w' id = siteCounter w id) := by
  let w1 : World := w.answer tag .unit
  obtain ⟨k, w', hrun, h⟩ := gc_whole p w1 (wf_reachable p w hw) hc hal w1.tasks
  have hstart : wrun p w (.req tag .cleanUp :: .run w.tasks.length :: List.replicate k (.run 0)) = w' := by
    rw [← hrun]
    have e1 : wstep p w (.req tag .cleanUp) = w1.spawn (.gcPoll (iterByKey w.master.sites)) := by
      simp only [wstep, hc, if_false, Bool.false_eq_true]; rfl
    show wrun p (wstep p (wstep p w (.req tag .cleanUp)) (.run w1.tasks.length)) _ = wrun p (wstep p _ (.run 0)) _
    rw [e1, run_last]
    rfl
  refine ⟨k, ?_⟩
  simp only [hstart]
  exact h

/-- C29: "looked up" is a fact about the messages handled, not about a flag: in every run, a site counts as visited exactly
if it is registered and was looked up by a visit, a `GetSite` or a restore since it was last registered or renamed. -/
theorem C29_visited_is_history (p : Profile) (now gc : Nat) (steps : List WStep) (id : SiteId) :
    (visited (wrun p (World.init now gc) steps) id = true ↔
      marksAfter (fun _ => none) (handledAll p (World.init now gc) steps) id = some true) ∧
    ((lookup (wrun p (World.init now gc) steps) id).isSome =
      (marksAfter (fun _ => none) (handledAll p (World.init now gc) steps) id).isSome) := by
  have h := marks_wrun p steps (World.init now gc)
  have e : (World.init now gc).master.marks = fun _ => none := rfl
  rw [← e, ← h]
  unfold visited lookup Master.marks
  cases hg : (wrun p (World.init now gc) steps).master.sites.get id with
  | none => simp
  | some x => simp

/-- Marks after a history that registers, looks up, renames and looks up again. -/
example : marksAfter (fun _ => none) [.addSite "a" exM, .addVisitor "a", .rename "a" "b"] "b" = some false ∧
    marksAfter (fun _ => none) [.addSite "a" exM, .addVisitor "a", .rename "a" "b", .getSite "b"] "b" = some true ∧
    marksAfter (fun _ => none) [.addSite "a" exM, .addVisitor "a", .addSite "a" exM] "a" = some false := by decide

/-- Three sites: never looked up, idle, and visited with a visitor still counted. The pass removes only the second. -/
example : let w := wrun ⟨true⟩ (World.init 0 10) [.req 0 (.addSite "a" exM), .req 1 (.addSite "b" exM),
      .req 2 (.addSite "c" exM), .req 3 (.getSite "b"), .req 4 (.addVisitor "c"), .run 1]
    let w' := wrun ⟨true⟩ w (.req 5 .cleanUp :: .run w.tasks.length :: List.replicate 5 (.run 0))
    (visited w "b" = true ∧ lookup w' "b" = none) ∧ lookup w' "a" = some 0 ∧ lookup w' "c" = some 2 ∧
    w'.tasks = [.gcWait 10, .gcWait 0, .stop none 1] := by decide

end MCap
