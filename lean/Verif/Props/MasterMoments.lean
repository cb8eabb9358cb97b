import Verif.Props.MasterRace
import Verif.Proofs.MasterBackup

/-!
# Properties C31, C125 and C126: collections, restores and backups in between other requests
-/

namespace MCap
open Spec

/-! ## C31 -/

/-- C31, what holds in numbers: from the moment garbage collection decides to stop a counter until it is stopped (and after), the counter
counts at most the visitors that were added to it in between, by visits and by restores, under every interleaving. What is missing
against C31: those visitors are discarded. -/
theorem C31_discarded_bounded_partial (p : Profile) (w : World) (i : Nat) (id : SiteId) (r : Bool) (a : Addr)
    (rest : List (SiteId × (Bool × Addr))) (ht : w.tasks[i]? = some (.gcPoll ((id, (r, a)) :: rest)))
    (hstop : (wstep p w (.run i)).tasks[0]? = some (.gcStop id a rest)) (later : List WStep) :
    ∃ c, (wrun p (wstep p w (.run i)) later).counters[a]? = some c ∧
      c.m.getVisitors ≤ fedIn p a (wstep p w (.run i)) later := by
  obtain ⟨-, -, h⟩ := C31_no_visitors_discarded_partial p w i id r a rest ht hstop
  obtain ⟨c, hc, hz⟩ := h [] trivial
  obtain ⟨c', hc', hle⟩ := count_wrun p later (wstep p w (.run i)) a 0 ⟨c, hc, Nat.le_of_eq hz⟩
  exact ⟨c', hc', by rw [Nat.zero_add] at hle; exact hle⟩

/-- Two visits and a restore of three visitors reach the counter between the poll and the stop. -/
example : let w := wrun ⟨true⟩ (World.init 0 10) [.req 0 (.addSite "a" exM), .req 1 (.getSite "a"), .req 2 .cleanUp]
    let w' := wstep ⟨true⟩ w (.run 1)
    let later : List WStep := [.req 3 (.addVisitor "a"), .run 2, .req 4 (.addVisitor "a"), .run 2,
      .req 5 (.setInternalData [("a", { exM with visitors := 3 })]), .run 2]
    w.tasks[1]? = some (.gcPoll [("a", (true, 0))]) ∧ w'.tasks[0]? = some (.gcStop "a" 0 []) ∧ fedIn ⟨true⟩ 0 w' later = 5 ∧
    (siteCounter (wrun ⟨true⟩ w' later) "a").map (·.m.visitors) = some 3 := by decide

/-! ## C125 -/

/-- C125 is false of the code, of every master and every captcha: `SetInternalData` is acknowledged before anything is restored, so a
visit to the site handled next is answered as one to an unknown site. -/
theorem C125_acknowledged_in_effect_refuted (p : Profile) (w : World) (hc : w.crashed = false) (tag tag' : Nat) (id : SiteId) (m : MCaptcha)
    (hl : lookup w id = none) :
    (wrun p w [.req tag (.setInternalData [(id, m)]), .req tag' (.addVisitor id)]).answers =
      w.answers ++ [(tag, .unit), (tag', .visitor none)] := by
  have hg := getSite_none w.master id (get_none_of_lookup w id hl)
  have e1 : wstep p w (.req tag (.setInternalData [(id, m)])) = (w.spawn (.restoreNew id m)).answer tag .unit := by
    simp only [wstep, hc, if_false, Bool.false_eq_true, World.handle, World.handleSetInternalData, World.restoreLoop, hg]
    rw [← hc]
  simp only [wrun, e1]
  simp only [wstep, World.answer, World.spawn, hc, if_false, Bool.false_eq_true, World.handle, World.handleAddVisitor, hg]
  simp

/-- A master that knows one site, and another one that is restored. -/
example : let w := wrun ⟨true⟩ (World.init 0 10) [.req 0 (.addSite "a" exM)]
    w.crashed = false ∧ lookup w "b" = none ∧
    (wrun ⟨true⟩ w [.req 1 (.setInternalData [("b", exM)]), .req 2 (.addVisitor "b")]).answers =
      [(0, .unit), (1, .unit), (2, .visitor none)] := by decide

/-- C125, a second way: a client registers the site after the acknowledgement and a visitor is counted; the restore under way then
replaces the registration with its own, and the visitor is forgotten. -/
theorem C125_registration_replaced_refuted :
    ∃ (w : World) (m : MCaptcha), Reachable ⟨true⟩ w ∧
      w.answers = [(0, .unit), (1, .unit), (2, .visitor (some ⟨30, 10⟩))] ∧
      (∃ c, siteCounter w "a" = some c ∧ c.m.getDuration = 30 ∧ c.m.getVisitors = 1) ∧ m.getDuration = 77 ∧
      w.tasks[1]? = some (.restoreNew "a" m) ∧ siteCounter (wstep ⟨true⟩ w (.run 1)) "a" = some (Counter.start m) ∧
      m.getVisitors = 0 :=
  ⟨wrun ⟨true⟩ (World.init 0 10) [.req 0 (.setInternalData [("a", { exM with duration := 77 })]), .req 1 (.addSite "a" exM),
      .req 2 (.addVisitor "a"), .run 2], { exM with duration := 77 },
    ⟨0, 10, _, rfl⟩, by decide, ⟨_, rfl, rfl, rfl⟩, by decide, by decide, by decide, by decide⟩

/-- C125, what holds under every interleaving: for every captcha in an acknowledged `SetInternalData`, at every later moment the master
has crashed, or the captcha has been put in place at some earlier moment, or a task of the master will do so in its next action: under the
name of the site if it was unknown at the request, otherwise in the counter it had then, unless that one has been stopped. What is missing
against C125: until that moment, of which the client is not told, requests find the site as it was before. -/
theorem C125_acknowledged_in_effect_partial (p : Profile) (w : World) (hw : Reachable p w) (hc : w.crashed = false) (tag : Nat)
    (data : List (SiteId × MCaptcha)) (id : SiteId) (m : MCaptcha) (hd : (id, m) ∈ data) (later : List WStep) :
    let w₁ := wstep p w (.req tag (.setInternalData data))
    w₁.answers = w.answers ++ [(tag, .unit)] ∧ lookup w₁ = lookup w ∧
    ((wrun p w₁ later).crashed = true ∨ (∃ i, PutsInPlace p (lookup w id) id m (wrun p w₁ later) i) ∨
      ∃ x i y, later = x ++ .run i :: y ∧ PutsInPlace p (lookup w id) id m (wrun p w₁ x) i) := by
  intro w₁
  have hwf := wf_reachable p w hw
  have e1 : w₁ = (w.restoreLoop data).answer tag .unit := by
    show wstep p w _ = _
    simp only [wstep, hc, if_false, Bool.false_eq_true, World.handle, World.handleSetInternalData]
  obtain ⟨extra, h1, h2, h3, h4⟩ := restoreLoop_eff w data
  have hl := lookup_restoreLoop w data
  have hr : Reachable p w₁ := reachable_step hw _
  have hmem := restoreLoop_mem w data id m hd
  have hmem' : (match lookup w id with
      | none => Task.restoreNew id m
      | some a => Task.restoreOld a m) ∈ w₁.tasks := by rw [e1]; exact hmem
  have puts : ∀ u i, (wrun p w₁ u).tasks[i]? = some (match lookup w id with
      | none => Task.restoreNew id m
      | some a => Task.restoreOld a m) → PutsInPlace p (lookup w id) id m (wrun p w₁ u) i := by
    intro u i h
    cases hx : lookup w id with
    | none => rw [hx] at h; exact puts_restoreNew p _ i id m h
    | some a =>
      rw [hx] at h
      refine puts_restoreOld p _ i id a m h ?_
      obtain ⟨r, hg⟩ := get_of_lookup w id a hx
      have hb := hwf.bound id r a hg
      have hlen := counters_len_wrun p (.req tag (.setInternalData data) :: u) w
      exact Nat.lt_of_lt_of_le hb hlen
  refine ⟨by rw [e1]; simp only [World.answer, h3], by rw [e1]; exact hl.1, ?_⟩
  rcases task_stays_run p later w₁ hr _ hmem' with h | h | ⟨x, i, y, e, h⟩
  · obtain ⟨i, hi⟩ := List.getElem?_of_mem h
    exact .inr (.inl ⟨i, puts later i hi⟩)
  · exact .inl h
  · exact .inr (.inr ⟨x, i, y, e, puts x i h⟩)

/-- Two sites are restored, one of them known; a visit to each comes in between, then the restores are done. -/
example : let w := wrun ⟨true⟩ (World.init 0 10) [.req 0 (.addSite "a" exM)]
    let w₁ := wstep ⟨true⟩ w (.req 1 (.setInternalData [("a", { exM with visitors := 7 }), ("b", exM)]))
    w.crashed = false ∧ lookup w "a" = some 0 ∧ lookup w "b" = none ∧ w₁.tasks.length = 3 ∧
    (wrun ⟨true⟩ w₁ [.req 2 (.addVisitor "a"), .req 3 (.addVisitor "b"), .run 3, .run 1, .run 1]).crashed = false ∧
    (siteCounter (wrun ⟨true⟩ w₁ [.req 2 (.addVisitor "a"), .req 3 (.addVisitor "b"), .run 3, .run 1, .run 1]) "a").map (·.m.visitors) =
      some 7 ∧
    siteCounter (wrun ⟨true⟩ w₁ [.req 2 (.addVisitor "a"), .req 3 (.addVisitor "b"), .run 3, .run 1, .run 1]) "b" =
      some (Counter.start exM) := by decide

/-! ## C126 -/

/-- The schedule of the refutation: the backup reads "a", then "a" and "b" are visited, then it reads "b". -/
def exTorn : List WStep :=
  [.run 1, .req 3 (.addVisitor "a"), .run 2, .req 4 (.addVisitor "b"), .run 2, .run 0, .run 0]

/-- C126 is false of the code: the backup has no visitor of "a" and one of "b", although the visitor of "a" was counted before that of
"b"; at no moment between the request and the answer were the sites in the state of the backup. -/
theorem C126_backup_is_a_snapshot_refuted :
    ∃ (w : World) (data : AMap SiteId MCaptcha), Reachable ⟨true⟩ w ∧ w.crashed = false ∧
      (wrun ⟨true⟩ w (.req 2 .getInternalData :: exTorn)).answers.getLast? = some (2, .data data) ∧
      data = [("a", exM), ("b", { exM with visitors := 1 })] ∧
      ∀ x y, exTorn = x ++ y → ∃ id, data.get id ≠ (siteCounter (wrun ⟨true⟩ w (.req 2 .getInternalData :: x)) id).map (·.m) := by
  refine ⟨wrun ⟨true⟩ (World.init 0 10) [.req 0 (.addSite "a" exM), .req 1 (.addSite "b" exM)], _, ⟨0, 10, _, rfl⟩, by decide,
    (by decide : _ = some (2, Answer.data [("a", exM), ("b", { exM with visitors := 1 })])), rfl, ?_⟩
  intro x y e
  have hx : x = exTorn.take x.length := by rw [e]; simp
  have hlen : x.length ≤ 7 := by
    have := congrArg List.length e
    simp [exTorn] at this; omega
  have key : ∀ k, k ≤ 7 → (["a", "b"].any fun id => decide (AMap.get [("a", exM), ("b", { exM with visitors := 1 })] id ≠
      (siteCounter (wrun ⟨true⟩ (wrun ⟨true⟩ (World.init 0 10) [.req 0 (.addSite "a" exM), .req 1 (.addSite "b" exM)])
        (.req 2 .getInternalData :: exTorn.take k)) id).map (·.m))) = true := by decide
  have := key x.length hlen
  rw [← hx, List.any_eq_true] at this
  obtain ⟨id, -, h⟩ := this
  exact ⟨id, of_decide_eq_true h⟩

/-- C126, what holds under every interleaving: a backup names no site twice; each captcha in it is the state, at some moment between the
request and the answer, of the counter the site had when the backup was asked for; and a site registered then is missing only if its counter
was stopped by some such moment. What is missing against C126: the moments of different sites may differ. -/
theorem C126_backup_moments_partial (p : Profile) (now gc tag : Nat) (pre post : List WStep)
    (hs : ∀ s ∈ pre ++ post, usesTag tag s = false) (hc : (wrun p (World.init now gc) pre).crashed = false) (data : AMap SiteId MCaptcha)
    (ha : (tag, Answer.data data) ∈ (wrun p (wrun p (World.init now gc) pre) (.req tag .getInternalData :: post)).answers) :
    let w := wrun p (World.init now gc) pre
    let w₁ := wstep p w (.req tag .getInternalData)
    data.keys.Nodup ∧ ∀ id,
      (∀ m, data.get id = some m → ∃ a, lookup w id = some a ∧ AtSomeMoment p w₁ post a (fun c => c.alive = true ∧ c.m = m)) ∧
      (data.get id = none → ∀ a, lookup w id = some a → AtSomeMoment p w₁ post a (fun c => c.alive = false)) := by
  intro w w₁
  have hwf : RegWF w.reg := wf_wrun p pre _ (wf_init now gc)
  obtain ⟨seen, h1, h2, h3⟩ := backup_collected p tag now gc pre post hs hc data ha
  rw [List.append_nil] at h1
  refine ⟨h2, fun id => ⟨fun m hm => ?_, fun hn a hl => ?_⟩⟩
  · obtain ⟨r, a, hra, h⟩ := (h3 id).1 m hm
    rw [← h1] at hra
    exact ⟨a, lookup_of_get w id r a (AMap.get_of_mem hwf.nodup ((iterByKey_perm _).subset hra)), h⟩
  · obtain ⟨r, hg⟩ := get_of_lookup w id a hl
    refine (h3 id).2 hn r a ?_
    rw [← h1]
    exact (iterByKey_perm _).symm.subset (AMap.mem_of_get hg)

/-- The torn backup above, with a third site that is removed while the backup is under way and is missing from it. -/
example : let pre : List WStep := [.req 0 (.addSite "a" exM), .req 1 (.addSite "b" exM), .req 5 (.addSite "c" exM)]
    let post : List WStep := exTorn.dropLast ++ [.req 6 (.removeCaptcha "c"), .run 2, .run 0, .run 0]
    (∀ s ∈ pre ++ post, usesTag 2 s = false) ∧ (wrun ⟨true⟩ (World.init 0 10) pre).crashed = false ∧
    (wrun ⟨true⟩ (wrun ⟨true⟩ (World.init 0 10) pre) (.req 2 .getInternalData :: post)).answers.getLast? =
      some (2, .data [("a", exM), ("b", { exM with visitors := 1 })]) := by decide

end MCap
