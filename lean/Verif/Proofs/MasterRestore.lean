import Verif.Proofs.MasterSeen

namespace MCap
open Spec

/-! ### restoring into a running master -/

/-- The task a restored entry spawns. -/
def restoreTask (w : World) (e : SiteId × MCaptcha) : Task :=
  match w.master.sites.get e.1 with
  | none => .restoreNew e.1 e.2
  | some (_, a) => .restoreOld a e.2

theorem restoreLoop_spec (w : World) (data : List (SiteId × MCaptcha)) (hn : (data.map (·.1)).Nodup) :
    (w.restoreLoop data).tasks = w.tasks ++ data.map (restoreTask w) ∧
    (w.restoreLoop data).counters = w.counters ∧ (w.restoreLoop data).now = w.now ∧
    (w.restoreLoop data).crashed = w.crashed ∧ (w.restoreLoop data).answers = w.answers ∧
    (∀ id, id ∉ data.map (·.1) → (w.restoreLoop data).master.sites.get id = w.master.sites.get id) ∧
    (∀ id, id ∈ data.map (·.1) → (w.restoreLoop data).master.sites.get id = (w.master.sites.get id).map fun e => (true, e.2)) := by
  induction data generalizing w with
  | nil => simp [World.restoreLoop]
  | cons e r ih =>
    obtain ⟨name, m⟩ := e
    simp only [List.map_cons, List.nodup_cons] at hn
    have hne : ∀ e ∈ r, e.1 ≠ name := fun e he h => hn.1 (List.mem_map.2 ⟨e, he, h⟩)
    cases hg : w.master.sites.get name with
    | none =>
      simp only [World.restoreLoop]
      rw [getSite_none _ _ hg]
      simp only
      obtain ⟨h1, h2, h3, h4, h5, h6, h7⟩ := ih (w.spawn (.restoreNew name m)) hn.2
      have ht : r.map (restoreTask (w.spawn (.restoreNew name m))) = r.map (restoreTask w) := rfl
      refine ⟨?_, h2, h3, h4, h5, ?_, ?_⟩
      · rw [h1, ht]
        simp [World.spawn, restoreTask, hg]
      · intro id hi
        simp only [List.map_cons, List.mem_cons, not_or] at hi
        exact h6 id hi.2
      · intro id hi
        simp only [List.map_cons, List.mem_cons] at hi
        by_cases hr : id ∈ r.map (·.1)
        · exact h7 id hr
        · rw [h6 id hr]
          rcases hi with rfl | hi
          · show w.master.sites.get id = _; rw [hg]; rfl
          · exact absurd hi hr
    | some x =>
      obtain ⟨b, a⟩ := x
      simp only [World.restoreLoop]
      rw [getSite_some _ _ _ _ hg]
      simp only
      obtain ⟨h1, h2, h3, h4, h5, h6, h7⟩ :=
        ih ({ w with master := { w.master with sites := w.master.sites.insert name (true, a) } }.spawn (.restoreOld a m)) hn.2
      have ht : r.map (restoreTask ({ w with master := { w.master with sites := w.master.sites.insert name (true, a) } }.spawn
          (.restoreOld a m))) = r.map (restoreTask w) := by
        refine List.map_congr_left fun e he => ?_
        simp only [restoreTask, World.spawn]
        rw [AMap.get_insert_ne _ _ _ _ (fun h => hne e he h.symm)]
      refine ⟨?_, h2, h3, h4, h5, ?_, ?_⟩
      · rw [h1, ht]
        simp [World.spawn, restoreTask, hg]
      · intro id hi
        simp only [List.map_cons, List.mem_cons, not_or] at hi
        rw [h6 id hi.2]
        exact AMap.get_insert_ne _ _ _ _ (fun h => hi.1 h.symm)
      · intro id hi
        simp only [List.map_cons, List.mem_cons] at hi
        by_cases hr : id ∈ r.map (·.1)
        · rw [h7 id hr]
          have : id ≠ name := fun h => hn.1 (h ▸ hr)
          simp only [World.spawn]
          rw [AMap.get_insert_ne _ _ _ _ (fun h => this h.symm)]
        · rw [h6 id hr]
          rcases hi with rfl | hi
          · show (w.master.sites.insert id (true, a)).get id = _
            rw [AMap.get_insert_self, hg]; rfl
          · exact absurd hi hr

/-- What a restore leaves behind for an entry: a new counter, or the old one overwritten if it runs. -/
def restored (now : Nat) (m : MCaptcha) (c : Counter) : Counter :=
  if c.alive = true then c.handleSetInternalData now m else c

theorem sendCounter_restore (p : Profile) (w : World) (a : Addr) (m : MCaptcha) (c : Counter) (hc : w.counters[a]? = some c) :
    (w.sendCounter p a (.setInternalData m)).1 = { w with counters := w.counters.set a (restored w.now m c) } := by
  unfold World.sendCounter restored
  rw [hc]
  by_cases h : c.alive = true
  · simp only [Counter.send, h, if_true]
  · simp only [Counter.send, h, if_false, Bool.false_eq_true]

/-- Running the restore tasks one after the other. -/
theorem restoreTasks_run (p : Profile) (data : List (SiteId × MCaptcha)) (w₀ w : World) (ts : List Task)
    (ht : w.tasks = ts ++ data.map (restoreTask w₀)) (hn : (data.map (·.1)).Nodup) (hwf₀ : RegWF w₀.reg)
    (hlen : w₀.counters.length ≤ w.counters.length)
    (hcnt : ∀ e ∈ data, ∀ r a, w₀.master.sites.get e.1 = some (r, a) → w.counters[a]? = w₀.counters[a]?) :
    ∃ w', wrun p w (List.replicate data.length (.run ts.length)) = w' ∧ w'.tasks = ts ∧ w'.crashed = w.crashed ∧
      w'.answers = w.answers ∧ w'.now = w.now ∧ w.counters.length ≤ w'.counters.length ∧
      (∀ id, (∀ e ∈ data, e.1 = id → (w₀.master.sites.get id).isSome) → w'.master.sites.get id = w.master.sites.get id) ∧
      (∀ a, a < w.counters.length → (∀ e ∈ data, ∀ r, w₀.master.sites.get e.1 ≠ some (r, a)) →
        w'.counters[a]? = w.counters[a]?) ∧
      (∀ e ∈ data, w₀.master.sites.get e.1 = none →
        ∃ a, w'.master.sites.get e.1 = some (false, a) ∧ w'.counters[a]? = some (Counter.start e.2)) ∧
      (∀ e ∈ data, ∀ r a, w₀.master.sites.get e.1 = some (r, a) →
        w'.counters[a]? = (w₀.counters[a]?).map (restored w.now e.2)) := by
  induction data generalizing w with
  | nil =>
    exact ⟨w, rfl, by simpa using ht, rfl, rfl, rfl, Nat.le_refl _, fun _ _ => rfl, fun _ _ _ => rfl,
      fun e he => absurd he List.not_mem_nil, fun e he => absurd he List.not_mem_nil⟩
  | cons e rest ih =>
    obtain ⟨name, m⟩ := e
    simp only [List.map_cons, List.nodup_cons] at hn
    have hne : ∀ e ∈ rest, e.1 ≠ name := fun e he h => hn.1 (List.mem_map.2 ⟨e, he, h⟩)
    have hget : w.tasks[ts.length]? = some (restoreTask w₀ (name, m)) := by rw [ht]; simp
    have herase : w.tasks.eraseIdx ts.length = ts ++ rest.map (restoreTask w₀) := by
      rw [ht]; simp [List.eraseIdx_append_of_length_le]
    have hrep : List.replicate ((name, m) :: rest).length (WStep.run ts.length)
        = .run ts.length :: List.replicate rest.length (.run ts.length) := rfl
    cases hg : w₀.master.sites.get name with
    | none =>
      let w1 : World := { w with counters := w.counters ++ [Counter.start m],
                                 master := w.master.addSite w.counters.length name,
                                 tasks := ts ++ rest.map (restoreTask w₀) }
      have hrt : restoreTask w₀ (name, m) = .restoreNew name m := by simp only [restoreTask, hg]
      have s1 : wstep p w (.run ts.length) = w1 := by
        simp only [wstep, World.runAt, hget, hrt, World.runTask, World.handleAddSite, w1, herase]
      have hl1 : w1.counters.length = w.counters.length + 1 := by simp [w1]
      have hold : ∀ a, a < w.counters.length → w1.counters[a]? = w.counters[a]? := fun a ha =>
        List.getElem?_append_left ha
      obtain ⟨w', h1, h2, h3, h4, h5, h6, h7, h8, h9, h10⟩ := ih w1 rfl hn.2 (by omega) (by
        intro e he r a hga
        have hlt : a < w.counters.length := Nat.lt_of_lt_of_le (hwf₀.bound _ _ _ hga) hlen
        rw [hold a hlt]
        exact hcnt e (List.mem_cons_of_mem _ he) r a hga)
      refine ⟨w', ?_, h2, h3, h4, h5, by omega, ?_, ?_, ?_, ?_⟩
      · rw [hrep]; simp only [wrun, s1]; exact h1
      · intro id hid
        have hin : id ≠ name := by
          rintro rfl
          have := hid _ List.mem_cons_self rfl
          rw [hg] at this; cases this
        rw [h7 id (fun e he => hid e (List.mem_cons_of_mem _ he))]
        exact AMap.get_insert_ne _ _ _ _ (fun h => hin h.symm)
      · intro a ha hnot
        rw [h8 a (by omega) (fun e he => hnot e (List.mem_cons_of_mem _ he)), hold a ha]
      · intro e he hgn
        rcases List.mem_cons.1 he with rfl | he
        · refine ⟨w.counters.length, ?_, ?_⟩
          · rw [h7 name (fun e he h => absurd h (hne e he))]
            exact AMap.get_insert_self _ _ _
          · rw [h8 _ (by omega)]
            · simp [w1]
            · intro e he r hga
              have : w.counters.length < w₀.counters.length := hwf₀.bound _ _ _ hga
              omega
        · exact h9 e he hgn
      · intro e he r a hga
        rcases List.mem_cons.1 he with rfl | he
        · rw [hg] at hga; cases hga
        · exact h10 e he r a hga
    | some x =>
      obtain ⟨b, a₀⟩ := x
      have hb : a₀ < w₀.counters.length := hwf₀.bound _ _ _ hg
      have hca : w.counters[a₀]? = w₀.counters[a₀]? := hcnt _ List.mem_cons_self b a₀ hg
      have hc0 : w₀.counters[a₀]? = some w₀.counters[a₀] := List.getElem?_eq_getElem hb
      let c := w₀.counters[a₀]
      let w1 : World := { w with counters := w.counters.set a₀ (restored w.now m c),
                                 tasks := ts ++ rest.map (restoreTask w₀) }
      have hrt : restoreTask w₀ (name, m) = .restoreOld a₀ m := by simp only [restoreTask, hg]
      have s1 : wstep p w (.run ts.length) = w1 := by
        simp only [wstep, World.runAt, hget, hrt, World.runTask, herase]
        rw [sendCounter_restore p _ a₀ m c (by show w.counters[a₀]? = _; rw [hca, hc0])]
      have haddr : ∀ e ∈ rest, ∀ r a, w₀.master.sites.get e.1 = some (r, a) → a ≠ a₀ := by
        rintro e he r a hga rfl
        exact hne e he (hwf₀.inj _ _ _ _ _ hga hg)
      have hl1 : w1.counters.length = w.counters.length := by simp [w1]
      have hoth : ∀ a, a ≠ a₀ → w1.counters[a]? = w.counters[a]? := fun a ha =>
        List.getElem?_set_ne (fun h => ha h.symm)
      obtain ⟨w', h1, h2, h3, h4, h5, h6, h7, h8, h9, h10⟩ := ih w1 rfl hn.2 (by omega) (by
        intro e he r a hga
        rw [hoth a (haddr e he r a hga)]
        exact hcnt e (List.mem_cons_of_mem _ he) r a hga)
      refine ⟨w', ?_, h2, h3, h4, h5, by omega, ?_, ?_, ?_, ?_⟩
      · rw [hrep]; simp only [wrun, s1]; exact h1
      · intro id hid
        exact h7 id (fun e he => hid e (List.mem_cons_of_mem _ he))
      · intro a ha hnot
        rw [h8 a (by omega) (fun e he => hnot e (List.mem_cons_of_mem _ he))]
        refine hoth a ?_
        rintro rfl
        exact hnot _ List.mem_cons_self b hg
      · intro e he hgn
        rcases List.mem_cons.1 he with rfl | he
        · rw [hg] at hgn; cases hgn
        · exact h9 e he hgn
      · intro e he r a hga
        rcases List.mem_cons.1 he with rfl | he
        · rw [hg] at hga; cases hga
          rw [h8 a₀ (by rw [hl1]; exact Nat.lt_of_lt_of_le hb hlen) (fun e he r h => haddr e he r a₀ h rfl), hc0]
          have : a₀ < w.counters.length := Nat.lt_of_lt_of_le hb hlen
          show (w.counters.set a₀ _)[a₀]? = _
          rw [List.getElem?_set_self this]; rfl
        · exact h10 e he r a hga

end MCap
