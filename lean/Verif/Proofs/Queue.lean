import Verif.Spec.Queue
import Verif.Proofs.AMap
import Verif.Proofs.ListAux

namespace MCap
open Spec

/-! ### Traces -/

theorem acceptedOf_append (ip : String) (a b : List QEvent) : acceptedOf ip (a ++ b) = acceptedOf ip a ++ acceptedOf ip b := by
  simp [acceptedOf]
theorem handedOf_append (ip : String) (a b : List QEvent) : handedOf ip (a ++ b) = handedOf ip a ++ handedOf ip b := by
  simp [handedOf]
theorem handedTo_append (w : Nat) (a b : List QEvent) : handedTo w (a ++ b) = handedTo w a ++ handedTo w b := by
  simp [handedTo]
theorem ranBy_append (w : Nat) (a b : List QEvent) : ranBy w (a ++ b) = ranBy w a ++ ranBy w b := by
  simp [ranBy]
theorem acceptedIps_append (a b : List QEvent) : acceptedIps (a ++ b) = acceptedIps a ++ acceptedIps b := by
  simp [acceptedIps]
theorem acceptedJobs_append (a b : List QEvent) : acceptedJobs (a ++ b) = acceptedJobs a ++ acceptedJobs b := by
  simp [acceptedJobs]
theorem turns_append (a b : List QEvent) : turns (a ++ b) = turns a ++ turns b := by simp [turns]
theorem handedJobs_append (a b : List QEvent) : handedJobs (a ++ b) = handedJobs a ++ handedJobs b := by simp [handedJobs]
theorem startedBy_append (w : Nat) (a b : List QEvent) : startedBy w (a ++ b) = startedBy w a ++ startedBy w b := by
  simp [startedBy]
theorem jobsIn_append (a b : List WorkerMsg) : jobsIn (a ++ b) = jobsIn a ++ jobsIn b := by simp [jobsIn]
theorem jobsIn_proves (l : List Nat) : jobsIn (l.map .prove) = l := by
  induction l with
  | nil => rfl
  | cons a r ih => simp only [List.map_cons, jobsIn, List.filterMap_cons]; congr

/-! ### Dispatching -/

/-- Invariant of the inner manager: one queue per known client, position in range. -/
structure IInv (im : Inner) : Prop where
  keys : im.queues.keys = im.ips
  nd : im.ips.Nodup
  cur : im.cur = 0 ∨ im.cur < im.ips.length

theorem IInv.lt {im : Inner} (h : IInv im) (hn : im.ips ≠ []) : im.cur < im.ips.length := by
  have := List.length_pos_iff.2 hn
  rcases h.cur with e | e <;> omega

/-- Effect of `k` dispatches. -/
structure Disp (im im' : Inner) (ev : List QEvent) (k : Nat) : Prop where
  ips : im'.ips = im.ips
  keys : im'.queues.keys = im.queues.keys
  ql : im'.queueLength = im.queueLength
  len : im'.runners.length = im.runners.length
  wait : ∀ ip, (im.queues.get ip).getD [] = handedOf ip ev ++ (im'.queues.get ip).getD []
  wrk : ∀ (w : Nat) (r : Worker), im.runners[w]? = some r → im'.runners[w]? = some { r with inbox := r.inbox ++ (handedTo w ev).map .prove }
  out : ∀ w, im.runners.length ≤ w → handedTo w ev = []
  srv : ∀ ip, ((im'.queues.get ip).getD []).length = ((im.queues.get ip).getD []).length - (turns ev).count ip
  cnt : ∀ j, (im.queues.flatMap (·.2)).count j = (handedJobs ev).count j + (im'.queues.flatMap (·.2)).count j
  only : ∀ e ∈ ev, (∃ ip, e = .served ip) ∨ ∃ w ip j, e = .handed w ip j
  cur0 : im.ips = [] → im'.cur = im.cur
  rot : IInv im → im.ips ≠ [] → im'.cur = (im.cur + k) % im.ips.length ∧
    (turns ev).map some = (List.range k).map fun i => im.ips[(im.cur + 1 + i) % im.ips.length]?

theorem Disp.refl (im : Inner) : Disp im im [] 0 where
  ips := rfl
  keys := rfl
  ql := rfl
  len := rfl
  wait _ := rfl
  wrk w r h := by simpa [handedTo] using h
  out _ _ := rfl
  srv _ := rfl
  cnt _ := by simp [handedJobs]
  only := by simp
  cur0 _ := rfl
  rot h hn := ⟨by rw [Nat.add_zero, Nat.mod_eq_of_lt (h.lt hn)], rfl⟩

theorem Disp.iinv {im im' : Inner} {ev : List QEvent} {k : Nat} (d : Disp im im' ev k) (h : IInv im) : IInv im' where
  keys := by rw [d.keys, h.keys, d.ips]
  nd := by rw [d.ips]; exact h.nd
  cur := by
    by_cases hn : im.ips = []
    · rw [d.cur0 hn, d.ips]; exact h.cur
    · right
      rw [(d.rot h hn).1, d.ips]
      exact Nat.mod_lt _ (List.length_pos_iff.2 hn)

theorem Disp.trans {a b c : Inner} {ev ev' : List QEvent} {k k' : Nat} (d : Disp a b ev k) (e : Disp b c ev' k') :
    Disp a c (ev ++ ev') (k + k') where
  ips := by rw [e.ips, d.ips]
  keys := by rw [e.keys, d.keys]
  ql := by rw [e.ql, d.ql]
  len := by rw [e.len, d.len]
  wait ip := by rw [d.wait, e.wait, handedOf_append, List.append_assoc]
  wrk w r h := by
    have := e.wrk w _ (d.wrk w r h)
    rw [this, handedTo_append]; simp [List.append_assoc]
  out w h := by rw [handedTo_append, d.out w h, e.out w (by rw [d.len]; exact h)]; rfl
  srv ip := by rw [e.srv, d.srv, turns_append, List.count_append, Nat.sub_sub]
  cnt j := by rw [d.cnt, e.cnt, handedJobs_append, List.count_append, Nat.add_assoc]
  only x hx := by
    rcases List.mem_append.1 hx with hx | hx
    · exact d.only x hx
    · exact e.only x hx
  cur0 h := by rw [e.cur0 (by rw [d.ips]; exact h), d.cur0 h]
  rot h hn := by
    obtain ⟨d1, d2⟩ := d.rot h hn
    obtain ⟨e1, e2⟩ := e.rot (d.iinv h) (by rw [d.ips]; exact hn)
    rw [d.ips] at e1 e2
    constructor
    · rw [e1, d1, Nat.mod_add_mod, Nat.add_assoc]
    · rw [turns_append, List.map_append, d2, e2, d1, List.range_add, List.map_append]
      congr 1
      simp only [List.map_map]
      apply List.map_congr_left
      intro i _
      simp only [Function.comp]
      congr 1
      rw [Nat.add_assoc, Nat.mod_add_mod]
      congr 1
      omega

theorem advance_eq (p : Profile) (im : Inner) (h : IInv im) (hn : im.ips ≠ []) :
    im.advance p = .ret ((im.cur + 1) % im.ips.length) := by
  have hpos := List.length_pos_iff.2 hn
  have hlt := h.lt hn
  unfold Inner.advance usizeSub
  rw [if_pos (by omega)]
  simp only [Exec.bind]
  congr 1
  split
  · rw [Nat.mod_eq_of_lt (by omega)]
  · have : im.cur + 1 = im.ips.length := by omega
    rw [this, Nat.mod_self]

/-- With no known client a dispatch panics, in both build profiles. -/
theorem dispatchTo_empty (p : Profile) (im : Inner) (name : Nat) (r : Worker) (hr : im.runners[name]? = some r) (hn : im.ips = []) :
    ∃ w, im.dispatchTo p name = .panic w := by
  unfold Inner.dispatchTo
  rw [hr]
  have hs : ∀ cur, im.serve name r cur = .panic .unwrapNone := by intro cur; simp [Inner.serve, hn]
  cases hp : p.overflowChecks <;> simp [Inner.advance, usizeSub, hn, hp, hs]

theorem get_of_ips (im : Inner) (h : IInv im) (ip : String) (hm : ip ∈ im.ips) : ∃ l, im.queues.get ip = some l := by
  cases hg : im.queues.get ip with
  | some l => exact ⟨l, rfl⟩
  | none =>
    rw [AMap.get_none_iff, h.keys] at hg
    exact absurd hm hg

theorem keys_insert_mem (m : AMap String (List Nat)) (k : String) (v : List Nat) (h : k ∈ m.keys) : (m.insert k v).keys = m.keys := by
  induction m with
  | nil => simp [AMap.keys] at h
  | cons e r ih =>
    obtain ⟨a, b⟩ := e
    simp only [AMap.insert]
    split
    · rename_i ha; simp [AMap.keys, ha]
    · rename_i ha
      simp only [AMap.keys, List.map_cons, List.mem_cons] at h ih ⊢
      rw [ih (h.resolve_left fun e => ha e.symm)]

theorem keys_insert_new (m : AMap String (List Nat)) (k : String) (v : List Nat) (h : k ∉ m.keys) : (m.insert k v).keys = m.keys ++ [k] := by
  induction m with
  | nil => rfl
  | cons e r ih =>
    obtain ⟨a, b⟩ := e
    simp only [AMap.keys, List.map_cons, List.mem_cons, not_or] at h ih
    simp only [AMap.insert]
    rw [if_neg (fun e => h.1 e.symm)]
    simp only [AMap.keys, List.map_cons, List.cons_append]
    rw [ih h.2]

theorem count_insert (m : AMap String (List Nat)) (k : String) (v l : List Nat) (h : m.get k = some l) (j : Nat) :
    ((m.insert k v).flatMap (·.2)).count j + l.count j = (m.flatMap (·.2)).count j + v.count j := by
  induction m with
  | nil => cases h
  | cons e r ih =>
    obtain ⟨a, b⟩ := e
    simp only [AMap.insert, AMap.get] at h ⊢
    split
    · rename_i ha
      rw [if_pos ha] at h
      injection h with h
      subst h
      simp only [List.flatMap_cons, List.count_append]; omega
    · rename_i ha
      rw [if_neg ha] at h
      have := ih h
      simp only [List.flatMap_cons, List.count_append]; omega

theorem count_insert_new (m : AMap String (List Nat)) (k : String) (v : List Nat) (h : m.get k = none) (j : Nat) :
    ((m.insert k v).flatMap (·.2)).count j = (m.flatMap (·.2)).count j + v.count j := by
  induction m with
  | nil => simp [AMap.insert]
  | cons e r ih =>
    obtain ⟨a, b⟩ := e
    simp only [AMap.insert, AMap.get] at h ⊢
    split
    · rename_i ha; rw [if_pos ha] at h; cases h
    · rename_i ha
      rw [if_neg ha] at h
      have := ih h
      simp only [List.flatMap_cons, List.count_append]; omega

theorem serve_disp (im : Inner) (h : IInv im) (hn : im.ips ≠ []) (name : Nat) (r : Worker) (hr : im.runners[name]? = some r)
    (im' : Inner) (ev : List QEvent) (he : im.serve name r ((im.cur + 1) % im.ips.length) = .ret (im', ev)) : Disp im im' ev 1 := by
  have hpos := List.length_pos_iff.2 hn
  have hlt : (im.cur + 1) % im.ips.length < im.ips.length := Nat.mod_lt _ hpos
  unfold Inner.serve at he
  cases hip : im.ips[(im.cur + 1) % im.ips.length]? with
  | none => rw [hip] at he; cases he
  | some ip =>
    rw [hip] at he
    simp only at he
    have hmem : ip ∈ im.ips := List.mem_of_getElem? hip
    obtain ⟨l, hl⟩ := get_of_ips im h ip hmem
    rw [hl] at he
    have hrot : (turns ev).map some = [some ip] → (turns ev).map some =
        (List.range 1).map fun i => im.ips[(im.cur + 1 + i) % im.ips.length]? := by
      intro e; rw [e]; simp [hip]
    cases l with
    | nil =>
      simp only [Exec.ret.injEq, Prod.mk.injEq] at he
      obtain ⟨rfl, rfl⟩ := he
      exact { ips := rfl, keys := rfl, ql := rfl, len := rfl, wait := fun _ => rfl,
              wrk := fun w r h => by simpa [handedTo] using h, out := fun _ _ => rfl,
              srv := fun ip' => by
                by_cases e : ip = ip'
                · subst e; simp [hl]
                · simp [turns, e]
              cnt := fun _ => (by simp [handedJobs]),
              only := (by simp), cur0 := fun e => absurd e hn, rot := fun _ _ => ⟨rfl, hrot rfl⟩ }
    | cons job rest =>
      simp only at he
      split at he
      · simp only [Exec.ret.injEq, Prod.mk.injEq] at he
        obtain ⟨rfl, rfl⟩ := he
        refine ⟨rfl, ?_, rfl, List.length_set, ?_, ?_, ?_, ?_, ?_, by simp, fun e => absurd e hn, fun _ _ => ⟨rfl, hrot rfl⟩⟩
        · exact keys_insert_mem _ _ _ (by rw [h.keys]; exact hmem)
        · intro ip'
          simp only [AMap.get_insert, handedOf]
          by_cases e : ip = ip'
          · subst e; simp [hl]
          · simp [e]
        · intro w r' hw
          simp only [handedTo, List.getElem?_set]
          by_cases e : name = w
          · subst e
            rw [hr] at hw; cases hw
            have : name < im.runners.length := by
              by_cases hlt : name < im.runners.length
              · exact hlt
              · rw [List.getElem?_eq_none (by omega)] at hr; cases hr
            simp [this]
          · simp [e, hw]
        · intro w hw
          have : name < im.runners.length := by
            by_cases hlt : name < im.runners.length
            · exact hlt
            · rw [List.getElem?_eq_none (by omega)] at hr; cases hr
          have : ¬ name = w := by omega
          simp [handedTo, this]
        · intro ip'
          simp only [AMap.get_insert]
          by_cases e : ip = ip'
          · subst e; simp [hl, turns]
          · simp [turns, e]
        · intro j
          have := count_insert im.queues ip rest _ hl j
          simp only [List.count_cons] at this
          simp only [handedJobs, List.filterMap_cons, List.filterMap_nil, List.count_cons, List.count_nil]
          omega
      · cases he

theorem dispatchTo_disp (p : Profile) (im : Inner) (h : IInv im) (name : Nat) (im' : Inner) (ev : List QEvent)
    (he : im.dispatchTo p name = .ret (im', ev)) : Disp im im' ev (if name < im.runners.length then 1 else 0) := by
  cases hr : im.runners[name]? with
  | none =>
    have hge : ¬ name < im.runners.length := by
      intro hlt; rw [List.getElem?_eq_getElem hlt] at hr; cases hr
    unfold Inner.dispatchTo at he
    rw [hr] at he
    simp only [Exec.ret.injEq, Prod.mk.injEq] at he
    obtain ⟨rfl, rfl⟩ := he
    rw [if_neg hge]
    exact Disp.refl im
  | some r =>
    have hlt : name < im.runners.length := by
      by_cases hlt : name < im.runners.length
      · exact hlt
      · rw [List.getElem?_eq_none (by omega)] at hr; cases hr
    rw [if_pos hlt]
    by_cases hn : im.ips = []
    · obtain ⟨w, hw⟩ := dispatchTo_empty p im name r hr hn
      rw [hw] at he; cases he
    · unfold Inner.dispatchTo at he
      rw [hr] at he
      simp only [advance_eq p im h hn, Exec.bind] at he
      exact serve_disp im h hn name r hr im' ev he

theorem dispatchAll_disp (p : Profile) (names : List Nat) (im : Inner) (h : IInv im) (im' : Inner) (ev : List QEvent)
    (he : im.dispatchAll p names = .ret (im', ev)) : Disp im im' ev names.length := by
  induction names generalizing im im' ev with
  | nil =>
    simp only [Inner.dispatchAll, Exec.ret.injEq, Prod.mk.injEq] at he
    obtain ⟨rfl, rfl⟩ := he
    exact Disp.refl im
  | cons name rest ih =>
    unfold Inner.dispatchAll at he
    cases hr : im.runners[name]? with
    | none => rw [hr] at he; cases he
    | some r =>
      have hlt : name < im.runners.length := by
        by_cases hlt : name < im.runners.length
        · exact hlt
        · rw [List.getElem?_eq_none (by omega)] at hr; cases hr
      rw [hr] at he
      simp only at he
      cases h1 : im.dispatchTo p name with
      | panic w => rw [h1] at he; cases he
      | ret a =>
        obtain ⟨im1, ev1⟩ := a
        rw [h1] at he
        simp only [Exec.bind] at he
        have d1 := dispatchTo_disp p im h name im1 ev1 h1
        rw [if_pos hlt] at d1
        cases h2 : im1.dispatchAll p rest with
        | panic w => rw [h2] at he; cases he
        | ret b =>
          obtain ⟨im2, ev2⟩ := b
          rw [h2] at he
          simp only [Exec.ret.injEq, Prod.mk.injEq] at he
          obtain ⟨rfl, rfl⟩ := he
          have := d1.trans (ih im1 (d1.iinv h) im2 ev2 h2)
          rw [Nat.add_comm] at this
          exact this

/-- All workers can be sent to. -/
def AllAlive (im : Inner) : Prop := ∀ r ∈ im.runners, r.status = .alive

theorem Disp.alive {im im' : Inner} {ev : List QEvent} {k : Nat} (d : Disp im im' ev k) (h : AllAlive im) : AllAlive im' := by
  intro r hr
  obtain ⟨w, hw, rfl⟩ := List.getElem_of_mem hr
  have hw' : w < im.runners.length := by rw [← d.len]; exact hw
  have := d.wrk w _ (List.getElem?_eq_getElem hw')
  rw [List.getElem?_eq_getElem hw] at this
  injection this with this
  rw [this]
  exact h (im.runners[w]) (List.getElem_mem hw')

theorem dispatchTo_ret (p : Profile) (im : Inner) (h : IInv im) (hn : im.ips ≠ []) (ha : AllAlive im) (name : Nat) :
    ∃ im' ev, im.dispatchTo p name = .ret (im', ev) := by
  unfold Inner.dispatchTo
  cases hr : im.runners[name]? with
  | none => exact ⟨_, _, rfl⟩
  | some r =>
    simp only [advance_eq p im h hn, Exec.bind]
    have hpos := List.length_pos_iff.2 hn
    have hlt : (im.cur + 1) % im.ips.length < im.ips.length := Nat.mod_lt _ hpos
    unfold Inner.serve
    rw [List.getElem?_eq_getElem hlt]
    simp only
    obtain ⟨l, hl⟩ := get_of_ips im h _ (List.getElem_mem hlt)
    rw [hl]
    cases l with
    | nil => exact ⟨_, _, rfl⟩
    | cons j rest =>
      simp only
      rw [if_pos (ha r (List.mem_of_getElem? hr))]
      exact ⟨_, _, rfl⟩

theorem dispatchAll_ret (p : Profile) (names : List Nat) (im : Inner) (h : IInv im) (hn : im.ips ≠ []) (ha : AllAlive im)
    (hlt : ∀ n ∈ names, n < im.runners.length) : ∃ im' ev, im.dispatchAll p names = .ret (im', ev) := by
  induction names generalizing im with
  | nil => exact ⟨_, _, rfl⟩
  | cons name rest ih =>
    unfold Inner.dispatchAll
    rw [List.getElem?_eq_getElem (hlt name (by simp))]
    simp only
    obtain ⟨im1, ev1, h1⟩ := dispatchTo_ret p im h hn ha name
    rw [h1]
    simp only [Exec.bind]
    have d1 := dispatchTo_disp p im h name im1 ev1 h1
    obtain ⟨im2, ev2, h2⟩ := ih im1 (d1.iinv h) (by rw [d1.ips]; exact hn) (d1.alive ha)
      (fun n hm => by rw [d1.len]; exact hlt n (List.mem_cons_of_mem _ hm))
    rw [h2]
    exact ⟨_, _, rfl⟩

/-! ### Scheduling -/

/-- The state in which `schedule` dispatches. -/
def enqueued (im : Inner) (ip : String) (job : Nat) : Inner :=
  match im.queues.get ip with
  | some queue => { im with queues := im.queues.insert ip (queue ++ [job]) }
  | none => { im with queues := im.queues.insert ip [job], ips := im.ips ++ [ip] }

theorem schedule_eq (p : Profile) (im : Inner) (ip : String) (job : Nat) :
    im.schedule p ip job =
      if im.queues.length = im.queueLength then .ret (im, [.refused ip job])
      else ((enqueued im ip job).dispatch p).bind fun (im', ev) => .ret (im', .accepted ip job :: ev) := by
  unfold Inner.schedule enqueued
  split
  · rfl
  · cases im.queues.get ip <;> rfl

theorem enqueued_spec (im : Inner) (h : IInv im) (ip : String) (job : Nat) :
    IInv (enqueued im ip job) ∧
    (enqueued im ip job).ips = (if ip ∈ im.ips then im.ips else im.ips ++ [ip]) ∧
    (enqueued im ip job).runners = im.runners ∧ (enqueued im ip job).queueLength = im.queueLength ∧
    (enqueued im ip job).cur = im.cur ∧
    (∀ ip', ((enqueued im ip job).queues.get ip').getD [] = (im.queues.get ip').getD [] ++ (if ip = ip' then [job] else [])) ∧
    ∀ j, ((enqueued im ip job).queues.flatMap (·.2)).count j = (im.queues.flatMap (·.2)).count j + [job].count j := by
  unfold enqueued
  cases hg : im.queues.get ip with
  | some queue =>
    have hm : ip ∈ im.ips := by
      rw [← h.keys]
      have := AMap.mem_of_get hg
      exact List.mem_map.2 ⟨_, this, rfl⟩
    refine ⟨⟨?_, h.nd, h.cur⟩, by simp [hm], rfl, rfl, rfl, ?_, ?_⟩
    · rw [keys_insert_mem _ _ _ (by rw [h.keys]; exact hm), h.keys]
    · intro ip'
      simp only [AMap.get_insert]
      by_cases e : ip = ip'
      · subst e; simp [hg]
      · simp [e]
    · intro j
      have := count_insert im.queues ip (queue ++ [job]) _ hg j
      rw [List.count_append] at this
      simp only at this ⊢
      omega
  | none =>
    have hm : ip ∉ im.ips := by
      rw [← h.keys]; exact (AMap.get_none_iff _ _).1 hg
    refine ⟨⟨?_, ?_, ?_⟩, by simp [hm], rfl, rfl, rfl, ?_, ?_⟩
    · rw [keys_insert_new _ _ _ (by rw [h.keys]; exact hm), h.keys]
    · simp only [List.nodup_append, h.nd, true_and]
      simp
      intro a ha e; exact hm (e ▸ ha)
    · rcases h.cur with e | e
      · exact .inl e
      · right; simp; omega
    · intro ip'
      simp only [AMap.get_insert]
      by_cases e : ip = ip'
      · subst e; simp [hg]
      · simp [e]
    · intro j
      exact count_insert_new im.queues ip [job] hg j

theorem enqueued_ne (im : Inner) (h : IInv im) (ip : String) (job : Nat) : (enqueued im ip job).ips ≠ [] := by
  rw [(enqueued_spec im h ip job).2.1]
  split
  · rename_i hm; intro e; rw [e] at hm; simp at hm
  · simp

theorem keys_length (im : Inner) (h : IInv im) : im.queues.length = im.ips.length := by
  rw [← h.keys]; simp [AMap.keys]

end MCap
