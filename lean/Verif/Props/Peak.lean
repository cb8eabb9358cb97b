import Verif.Proofs.CounterRun
import Verif.Props.Service

/-!
# C108: the price is never higher than the load explains

C12 and C97 bound the quoted difficulty from below: load raises the price. Here it is bounded from above: more than the difficulty of a level is
quoted only if the load exceeded that level's threshold at some moment before.
-/

namespace MCap
open Spec

/-! ### A captcha -/

/-- A visit raises the level only from a level whose threshold the new count exceeds. -/
theorem addVisitor_raise {p : Profile} {m m' : MCaptcha} (h : MValid m) (hr : m.addVisitor p = .ret m') {j : Nat} (hj : j < m'.defense.cur) :
    j < m.defense.cur ∨ ∃ l, m.defense.levels[j]? = some l ∧ l.visitorThreshold < m'.visitors := by
  obtain ⟨-, -, -, ⟨-, hv, hc⟩ | ⟨-, -, -, hc⟩⟩ := addVisitor_ret p m m' h hr
  · rcases Nat.lt_or_ge j m.defense.cur with hlt | hge
    · exact .inl hlt
    · right
      rw [hc] at hj
      unfold nextCur at hj
      split at hj
      · rename_i ht
        have e : j = m.defense.cur := by split at hj <;> omega
        subst e
        exact ⟨_, List.getElem?_eq_getElem h.defense.inRange, by rw [hv]; exact ht⟩
      · omega
  · left; omega

/-- A level is only left for a higher one after a moment at which the count exceeded its threshold. -/
theorem traffic_raise {p : Profile} {m₀ m : MCaptcha} (h : MValid m₀) {hist : List Traffic} (hr : traffic p m₀ hist = .ret m) {j : Nat}
    (hj : j < m.defense.cur) :
    j < m₀.defense.cur ∨ ∃ pre m' l, pre <+: hist ∧ traffic p m₀ pre = .ret m' ∧ m₀.defense.levels[j]? = some l ∧
      l.visitorThreshold < m'.visitors := by
  induction hist generalizing m₀ with
  | nil => cases hr; exact .inl hj
  | cons e r ih =>
    cases e with
    | visit =>
      simp only [traffic] at hr
      cases h1 : m₀.addVisitor p with
      | panic w => rw [h1] at hr; cases hr
      | ret m1 =>
        rw [h1] at hr
        obtain ⟨hm1, -, hl1, -⟩ := addVisitor_ret p m₀ m1 h h1
        rcases ih hm1 hr with hlt | ⟨pre, m', l, q1, q2, q3, q4⟩
        · rcases addVisitor_raise h h1 hlt with hlt | ⟨l, q3, q4⟩
          · exact .inl hlt
          · refine .inr ⟨[.visit], m1, l, by simp, ?_, q3, q4⟩
            simp [traffic, h1]
        · refine .inr ⟨.visit :: pre, m', l, by simpa using q1, ?_, by rw [← hl1]; exact q3, q4⟩
          simp [traffic, h1, q2]
    | leave n =>
      have hd := C11_departures_keep_level m₀ n
      have hdef : (m₀.decrementVisitorBy n).defense = m₀.defense := hd.1
      have hm1 : MValid (m₀.decrementVisitorBy n) := by
        rw [decrement_eq]
        exact ⟨h.defense, Nat.lt_of_le_of_lt (Nat.sub_le _ _) h.count, h.duration⟩
      rcases ih hm1 hr with hlt | ⟨pre, m', l, q1, q2, q3, q4⟩
      · rw [hdef] at hlt; exact .inl hlt
      · exact .inr ⟨.leave n :: pre, m', l, by simpa using q1, q2, by rw [← hdef]; exact q3, q4⟩

/-- A difficulty above that of a level means that the level was left for a higher one. -/
theorem level_below {m : MCaptcha} (h : MValid m) {d : Nat} (hd : m.getDifficulty = .ret d) {l : Level} (hl : l ∈ m.defense.levels)
    (hlt : l.difficultyFactor < d) : ∃ j, m.defense.levels[j]? = some l ∧ j < m.defense.cur := by
  obtain ⟨j, hj⟩ := List.getElem?_of_mem hl
  refine ⟨j, hj, ?_⟩
  rw [getDifficulty_mvalid m h] at hd
  injection hd with hd
  obtain ⟨hjl, hje⟩ := List.getElem?_eq_some_iff.1 hj
  rcases Nat.lt_trichotomy j m.defense.cur with hlt' | heq | hgt
  · exact hlt'
  · subst heq; rw [hje] at hd; omega
  · have := List.pairwise_iff_getElem.1 h.defense.coherent m.defense.cur j h.defense.inRange hjl hgt
    rw [hje] at this
    omega

/-- C108. If a captcha quotes more than the difficulty of one of its levels, then at some moment of its history it counted more visitors than that
level's threshold. (Also where counts wrap around.) -/
theorem C108_price_needs_load (p : Profile) (m₀ m : MCaptcha) (h : FreshM m₀) (hist : List Traffic) (hr : traffic p m₀ hist = .ret m) (d : Nat)
    (hd : m.getDifficulty = .ret d) (l : Level) (hl : l ∈ m₀.getDefense.levels) (hlt : l.difficultyFactor < d) :
    ∃ pre m', pre <+: hist ∧ traffic p m₀ pre = .ret m' ∧ l.visitorThreshold < m'.getVisitors := by
  obtain ⟨hv, h0, -⟩ := freshM_valid m₀ h
  obtain ⟨hm, -, hlv⟩ := traffic_ret p m₀ m hist hv hr
  obtain ⟨j, hj, hjc⟩ := level_below hm hd (by rw [hlv]; exact hl) hlt
  rcases traffic_raise hv hr hjc with hbad | ⟨pre, m', l', q1, q2, q3, q4⟩
  · omega
  · rw [hlv, q3] at hj
    cases hj
    exact ⟨pre, m', q1, q2, q4⟩

/-- After a rush of 25 and its departure the second level is still quoted: the rush explains it. -/
example : ∃ m, FreshM exM ∧ traffic ⟨true⟩ exM (List.replicate 25 .visit ++ [.leave 25, .visit]) = .ret m ∧ m.getDifficulty = .ret 20 ∧
    ∃ l ∈ exM.getDefense.levels, l.difficultyFactor < 20 :=
  ⟨_, exM_fresh, rfl, by decide, by decide⟩

/-! ### A counter -/

/-- Sum of the decrements of the timers due at times that satisfy `f`. -/
def decOf (f : Nat → Bool) (ts : List Timer) : Nat := ((ts.filter fun t => f t.due).map (·.dec)).sum

theorem decOf_erase (f : Nat → Bool) (ts : List Timer) (i : Nat) : decOf f (ts.eraseIdx i) ≤ decOf f ts := by
  induction ts generalizing i with
  | nil => simp
  | cons t ts ih =>
    cases i with
    | zero =>
      simp only [List.eraseIdx_cons_zero, decOf, List.filter_cons]
      split
      · simp
      · exact Nat.le_refl _
    | succ i =>
      have := ih i
      simp only [List.eraseIdx_cons_succ, decOf, List.filter_cons] at *
      split
      · simp; exact this
      · exact this

/-- Timers come from visits: one for each, due a duration after it. -/
theorem timers_from_visits {p : Profile} (f : Nat → Bool) {ops : List CStep} (hp : ∀ s ∈ ops, plain s = true) {now : Nat} {c : Counter}
    (hm : MValid c.m) {n1 : Nat} {c1 : Counter} {os : List CObs} (h : crun p now c ops = .ret (n1, c1, os)) :
    decOf f c1.timers ≤ decOf f c.timers + ((visitTimes now ops).filter fun t => f (t + c.m.duration)).length := by
  induction ops generalizing now c os with
  | nil => cases h; exact Nat.le_add_right _ _
  | cons s r ih =>
    obtain ⟨n', c', o, os', hs, hr, -⟩ := crun_cons_inv h
    have hp' : ∀ s ∈ r, plain s = true := fun s hs => hp s (List.mem_cons_of_mem _ hs)
    rw [cstep_clock r hs, List.filter_append, List.length_append]
    rcases cstep_plain (hp s List.mem_cons_self) hs with ⟨e1, e2, e3⟩ | ⟨e0, e1, e2⟩ | ⟨i, t, e0, e1, e2, e3⟩
    · have := ih hp' (by rw [e1]; exact hm) hr
      rw [e1, e2] at this
      omega
    · obtain ⟨hm', hd', -, -⟩ := addVisitor_ret p c.m c'.m hm e1
      have := ih hp' hm' hr
      rw [hd', e2] at this
      rw [if_pos e0]
      have e : decOf f (c.timers ++ [{ due := now + c.m.duration, dec := 1 }])
          = decOf f c.timers + (List.filter (fun t => f (t + c.m.duration)) [now]).length := by
        unfold decOf
        rw [List.filter_append, List.map_append, List.sum_append]
        congr 1
        simp only [List.filter_cons, List.filter_nil]
        split <;> rfl
      omega
    · have hdec : c'.m.duration = c.m.duration := by rw [e2, decrement_eq]
      have hmv : MValid c'.m := by
        rw [e2, decrement_eq]
        exact ⟨hm.defense, Nat.lt_of_le_of_lt (Nat.sub_le _ _) hm.count, hm.duration⟩
      have := ih hp' hmv hr
      rw [hdec, e3] at this
      have := decOf_erase f c.timers i
      omega

/-- A level is only left for a higher one after a visit which made the count exceed its threshold. -/
theorem crun_raise {p : Profile} {ops : List CStep} (hp : ∀ s ∈ ops, plain s = true) {now : Nat} {c : Counter}
    (hm : MValid c.m) {n1 : Nat} {c1 : Counter} {os : List CObs} (h : crun p now c ops = .ret (n1, c1, os)) {j : Nat}
    (hj : j < c1.m.defense.cur) :
    j < c.m.defense.cur ∨ ∃ pre n' c' os' l, pre ++ [.req .addVisitor] <+: ops ∧ crun p now c (pre ++ [.req .addVisitor]) = .ret (n', c', os') ∧
      c.m.defense.levels[j]? = some l ∧ l.visitorThreshold < c'.m.visitors := by
  induction ops generalizing now c os with
  | nil => cases h; exact .inl hj
  | cons s r ih =>
    obtain ⟨n', c', o, os', hs, hr, -⟩ := crun_cons_inv h
    have hp' : ∀ s ∈ r, plain s = true := fun s hs => hp s (List.mem_cons_of_mem _ hs)
    have hmv : MValid c'.m ∧ c'.m.defense.levels = c.m.defense.levels ∧
        (j < c'.m.defense.cur → j < c.m.defense.cur ∨
          s = .req .addVisitor ∧ ∃ l, c.m.defense.levels[j]? = some l ∧ l.visitorThreshold < c'.m.visitors) := by
      rcases cstep_plain (hp s List.mem_cons_self) hs with ⟨e1, -, -⟩ | ⟨e0, e1, -⟩ | ⟨i, t, -, -, e2, -⟩
      · rw [e1]; exact ⟨hm, rfl, .inl⟩
      · obtain ⟨hm', -, hl', -⟩ := addVisitor_ret p c.m c'.m hm e1
        exact ⟨hm', hl', fun hlt => (addVisitor_raise hm e1 hlt).imp_right fun h => ⟨e0, h⟩⟩
      · rw [e2, decrement_eq]
        exact ⟨⟨hm.defense, Nat.lt_of_le_of_lt (Nat.sub_le _ _) hm.count, hm.duration⟩, rfl, .inl⟩
    rcases ih hp' hmv.1 hr with hlt | ⟨pre, n'', c'', os'', l, q1, q2, q3, q4⟩
    · rcases hmv.2.2 hlt with hlt | ⟨e0, l, q3, q4⟩
      · exact .inl hlt
      · subst e0
        refine .inr ⟨[], n', c', [o], l, by simp, ?_, q3, q4⟩
        simp [crun, hs]
    · refine .inr ⟨s :: pre, n'', c'', o :: os'', l, by simpa using q1, ?_, by rw [← hmv.2.1]; exact q3, q4⟩
      simp [crun, hs, q2]

theorem crun_mvalid {p : Profile} {ops : List CStep} (hp : ∀ s ∈ ops, plain s = true) {now : Nat} {c : Counter}
    (hm : MValid c.m) {n1 : Nat} {c1 : Counter} {os : List CObs} (h : crun p now c ops = .ret (n1, c1, os)) :
    MValid c1.m ∧ c1.m.duration = c.m.duration ∧ c1.m.defense.levels = c.m.defense.levels := by
  obtain ⟨hist, hh⟩ := crun_traffic p ops hp now c h
  exact traffic_ret p _ _ hist hm hh

theorem crun_alive {p : Profile} {ops : List CStep} (hp : ∀ s ∈ ops, plain s = true) {now : Nat} {c : Counter} {n1 : Nat} {c1 : Counter}
    {os : List CObs} (h : crun p now c ops = .ret (n1, c1, os)) : c1.alive = c.alive := by
  induction ops generalizing now c os with
  | nil => cases h; rfl
  | cons s r ih =>
    obtain ⟨n', c', o, os', hs, hr, -⟩ := crun_cons_inv h
    have hp' : ∀ s ∈ r, plain s = true := fun s hs => hp s (List.mem_cons_of_mem _ hs)
    rw [ih hp' hr]
    have hs0 := hp s List.mem_cons_self
    cases s with
    | tick d => cases hs; rfl
    | fire i =>
      simp only [cstep, Exec.ret.injEq, Prod.mk.injEq] at hs
      obtain ⟨-, hc, -⟩ := hs
      rcases fire_cases now c i with hf | ⟨t, ha, -, -, hf⟩ <;> (rw [hf] at hc; subst hc; rfl)
    | req m =>
      simp only [cstep] at hs
      cases hm : c.send p now m with
      | panic _ => rw [hm] at hs; cases hs
      | ret z =>
        obtain ⟨z1, z2⟩ := z
        rw [hm] at hs
        simp only [Exec.map, Exec.ret.injEq, Prod.mk.injEq] at hs
        obtain ⟨-, rfl, -⟩ := hs
        unfold Counter.send at hm
        split at hm
        · cases m with
          | addVisitor =>
            simp only [Counter.handleAddVisitor, AddVisitorResult.new] at hm
            cases ha : c.m.addVisitor p with
            | panic _ => rw [ha] at hm; cases hm
            | ret m' =>
              rw [ha] at hm
              simp only [Exec.bind] at hm
              cases hd : m'.getDifficulty with
              | panic _ => rw [hd] at hm; cases hm
              | ret d => rw [hd] at hm; cases hm; rfl
          | getCurrentVisitorCount => cases hm; rfl
          | getInternalData => cases hm; rfl
          | setInternalData m => cases hs0
          | stop => cases hs0
        · cases hm; rfl

theorem visitTimes_prefix {a b : List CStep} (h : a <+: b) (now : Nat) : visitTimes now a <+: visitTimes now b := by
  obtain ⟨x, rfl⟩ := h
  induction a generalizing now with
  | nil => simp [visitTimes]
  | cons s r ih =>
    cases s with
    | tick d => exact ih _
    | fire i => exact ih _
    | req m =>
      cases m with
      | addVisitor => obtain ⟨y, hy⟩ := ih now; exact ⟨y, by simp [visitTimes, hy]⟩
      | _ => exact ih _

theorem send_visitor_difficulty {p : Profile} {now : Nat} {c c' : Counter} {r : AddVisitorResult}
    (h : c.send p now .addVisitor = .ret (c', .visitor r)) : c'.m.getDifficulty = .ret r.difficultyFactor := by
  unfold Counter.send at h
  split at h
  · simp only [Counter.handleAddVisitor, AddVisitorResult.new] at h
    cases ha : c.m.addVisitor p with
    | panic _ => rw [ha] at h; cases h
    | ret m' =>
      rw [ha] at h
      simp only [Exec.bind] at h
      cases hd : m'.getDifficulty with
      | panic _ => rw [hd] at h; cases h
      | ret d => rw [hd] at h; cases h; exact hd
  · cases h

theorem clockAfter_visit (now : Nat) (a : List CStep) : clockAfter now (a ++ [.req .addVisitor]) = clockAfter now a := by
  induction a generalizing now with
  | nil => rfl
  | cons s r ih => cases s <;> exact ih _

/-- A counter never counts more visitors than it had visits less than `duration + late` old, if no timer is `late` or more overdue. -/
theorem count_le_recent {p : Profile} {m : MCaptcha} (hm : MValid m) (h0 : m.visitors = 0) {now : Nat} {ops : List CStep}
    (hp : ∀ s ∈ ops, plain s = true) {now' : Nat} {c : Counter} {os : List CObs} (hr : crun p now (Counter.start m) ops = .ret (now', c, os))
    (late : Nat) (hot : ∀ t ∈ c.timers, now' < t.due + late) : c.m.visitors ≤ recent (m.duration + late) now' (visitTimes now ops) := by
  have h1 := (C19_count_bounded_by_scheduled p m h0 now now' ops c os hr (crun_alive hp hr)).1
  have h2 := timers_from_visits (fun d => decide (now' < d + late)) hp hm hr
  have e : decOf (fun d => decide (now' < d + late)) c.timers = scheduled c := by
    unfold decOf scheduled
    rw [List.filter_eq_self.2 (by simpa using hot)]
  have e2 : ((visitTimes now ops).filter fun t => decide (now' < t + (Counter.start m).m.duration + late)).length
      = recent (m.duration + late) now' (visitTimes now ops) := by
    unfold recent
    congr 1
    apply List.filter_congr
    intro t _
    simp [Counter.start, Nat.add_assoc]
  have z : decOf (fun d => decide (now' < d + late)) (Counter.start m).timers = 0 := rfl
  rw [e, z, e2] at h2
  simp only [MCaptcha.getVisitors] at h1
  omega

/-- C108. Suppose that whenever a counter has served a visit no timer is `late` seconds or more overdue. If it quotes a visitor more than the
difficulty of a level, then at this or an earlier visit more visits than that level's threshold were less than `duration + late` seconds old. With
punctual timers (`late = 0`) this is the window of C18. -/
theorem C108_window_explains_price (p : Profile) (m : MCaptcha) (hm : FreshM m) (now : Nat) (ops : List CStep)
    (hp : ∀ s ∈ ops, plain s = true) (now' : Nat) (c c' : Counter) (os : List CObs) (r : AddVisitorResult)
    (hr : crun p now (Counter.start m) ops = .ret (now', c, os)) (hs : c.send p now' .addVisitor = .ret (c', .visitor r)) (late : Nat)
    (hot : ∀ pre n₁ c₁ os₁, pre ++ [.req .addVisitor] <+: ops ++ [.req .addVisitor] →
      crun p now (Counter.start m) (pre ++ [.req .addVisitor]) = .ret (n₁, c₁, os₁) → ∀ t ∈ c₁.timers, n₁ < t.due + late)
    (l : Level) (hl : l ∈ m.getDefense.levels) (hlt : l.difficultyFactor < r.difficultyFactor) :
    ∃ pre, pre ++ [.req .addVisitor] <+: ops ++ [.req .addVisitor] ∧
      l.visitorThreshold < recent (m.getDuration + late) (clockAfter now pre) (visitTimes now (pre ++ [.req .addVisitor])) := by
  obtain ⟨hv, hcur, h0⟩ := freshM_valid m hm
  have hp' : ∀ s ∈ ops ++ [.req .addVisitor], plain s = true := by
    intro s hs
    rcases List.mem_append.1 hs with hs | hs
    · exact hp s hs
    · simp only [List.mem_singleton] at hs; subst hs; rfl
  have hr' := crun_append p ops [.req .addVisitor] now (Counter.start m) hr
    (n2 := now') (c2 := c') (o2 := [.reply (.visitor r)]) (by simp [crun, cstep, hs])
  obtain ⟨hmv, -, hlv⟩ := crun_mvalid hp' (c := Counter.start m) hv hr'
  obtain ⟨j, hj, hjc⟩ := level_below hmv (send_visitor_difficulty hs) (by rw [hlv]; exact hl) hlt
  rcases crun_raise hp' (c := Counter.start m) hv hr' hjc with hbad | ⟨pre, n', c'', os', l', q1, q2, q3, q4⟩
  · exact absurd hbad (by show ¬ j < m.defense.cur; omega)
  · rw [hlv, q3] at hj
    cases hj
    have hpp : ∀ s ∈ pre ++ [.req .addVisitor], plain s = true := fun s hs => hp' s (q1.subset hs)
    have := count_le_recent hv h0 hpp q2 late (hot pre n' c'' os' q1 q2)
    refine ⟨pre, q1, ?_⟩
    have e : n' = clockAfter now pre := by
      rw [crun_clock p _ now _ q2]
      exact clockAfter_visit now pre
    rw [e] at this
    exact Nat.lt_of_lt_of_le q4 this

/-- Visits at 0 s and 20 s, the first expiring punctually at 30 s, and then five more. -/
def exBusy : List CStep :=
  [.req .addVisitor, .tick 20, .req .addVisitor, .tick 10, .fire 0] ++ List.replicate 5 (.req .addVisitor)

example : ∀ pre n₁ c₁ os₁, pre ++ [.req .addVisitor] <+: exBusy ++ [.req .addVisitor] →
    crun ⟨true⟩ 0 (Counter.start exM) (pre ++ [.req .addVisitor]) = .ret (n₁, c₁, os₁) → ∀ t ∈ c₁.timers, n₁ < t.due + 0 := by
  intro pre n₁ c₁ os₁ hpre hr t ht
  have hk := List.prefix_iff_eq_take.1 hpre
  have hlen : (pre ++ [CStep.req .addVisitor]).length ≤ 11 := hpre.length_le
  have key : ∀ k, k ≤ 11 → (match (exBusy ++ [CStep.req .addVisitor])[k - 1]?, crun ⟨true⟩ 0 (Counter.start exM) ((exBusy ++ [CStep.req .addVisitor]).take k) with
      | some (.req .addVisitor), .ret (n, c, _) => c.timers.all fun t => decide (n < t.due + 0)
      | _, _ => true) = true := by decide
  have := key _ hlen
  have e : (exBusy ++ [CStep.req .addVisitor])[(pre ++ [CStep.req .addVisitor]).length - 1]? = some (.req .addVisitor) := by
    obtain ⟨x, hx⟩ := hpre
    rw [← hx]
    simp
  rw [e, ← hk, hr] at this
  simpa using List.all_eq_true.1 this t ht

example : ∃ c c' os, crun ⟨true⟩ 0 (Counter.start exM) exBusy = .ret (30, c, os) ∧
    c.send ⟨true⟩ 30 .addVisitor = .ret (c', .visitor ⟨30, 10⟩) := ⟨_, _, _, rfl, rfl⟩

example : ∃ c c' os, crun ⟨true⟩ 0 (Counter.start exM) (exBusy.take 9) = .ret (30, c, os) ∧
    c.send ⟨true⟩ 30 .addVisitor = .ret (c', .visitor ⟨30, 20⟩) ∧ ∃ l ∈ exM.getDefense.levels, l.difficultyFactor < 20 :=
  ⟨_, _, _, rfl, rfl, by decide⟩

/-! ### The service -/

/-- C108. A visitor of a registered captcha is quoted more than the difficulty of a level only if more visits than that level's threshold, this one
included, were counted since the registration: a quiet site stays cheap, whatever happens to the other sites. -/
theorem C108_quiet_site_stays_cheap (lib : PowLib) (p : Profile) (n ql gc now : Nat) (steps : List VStep) (who : Option Nat) (a : Addr) (t : Nat)
    (r : AddVisitorResult) (pre post : List VEvent)
    (hlog : vLogOf lib p n ql gc now steps = pre ++ .counter who a t .addVisitor (.visitor r) :: post)
    (id : SiteId) (m : MCaptcha) (hreg : (registrations pre)[a]? = some (id, m)) (hm : FreshM m) (hnr : NeverRestored a pre)
    (l : Level) (hl : l ∈ m.getDefense.levels) (hlt : l.difficultyFactor < r.difficultyFactor) :
    l.visitorThreshold < (countedAt a pre).length + 1 := by
  obtain ⟨-, hc⟩ := (cacc_run lib p n ql gc now steps).2 pre _ post hlog
  obtain ⟨c, ⟨id', m', t0, ops, os, hr', hrun, hplain, hts⟩, hd, hdur⟩ := hc hnr
  rw [hreg] at hr'
  cases hr'
  obtain ⟨hv, hcur, h0⟩ := freshM_valid m hm
  obtain ⟨hmv, -, hlv⟩ := crun_mvalid hplain (c := Counter.start m) hv hrun
  obtain ⟨j, hj, hjc⟩ := level_below hmv hd (by rw [hlv]; exact hl) hlt
  rcases crun_raise hplain (c := Counter.start m) hv hrun hjc with hbad | ⟨pre', n', c'', os', l', q1, q2, q3, q4⟩
  · exact absurd hbad (by show ¬ j < m.defense.cur; omega)
  · rw [hlv, q3] at hj
    cases hj
    have hpp : ∀ s ∈ pre' ++ [.req .addVisitor], plain s = true := fun s hs => hplain s (q1.subset hs)
    have h1 := count_le_recent hv h0 hpp q2 (n' + 1) (fun t _ => by omega)
    have h2 : recent (m.duration + (n' + 1)) n' (visitTimes t0 (pre' ++ [.req .addVisitor])) ≤ (visitTimes t0 (pre' ++ [.req .addVisitor])).length :=
      List.length_filter_le _ _
    have h3 := (visitTimes_prefix q1 t0).length_le
    have h4 : (visitTimes t0 ops).length = (countedAt a pre).length + 1 := by rw [hts]; simp
    omega

/-- The sixth visitor of six is quoted more than the lowest level, whose threshold is 5. -/
example : ∃ pre post, vLogOf sysLib ⟨true⟩ 1 5 60 0 exCrowd = pre ++ .counter (some 5) 0 0 .addVisitor (.visitor ⟨30, 20⟩) :: post ∧
    (registrations pre)[0]? = some ("site", exM) ∧ FreshM exM ∧ NeverRestored 0 pre ∧
    ∃ l ∈ exM.getDefense.levels, l.difficultyFactor < 20 ∧ l.visitorThreshold = 5 := by
  refine ⟨(vLogOf sysLib ⟨true⟩ 1 5 60 0 exCrowd).take 23, (vLogOf sysLib ⟨true⟩ 1 5 60 0 exCrowd).drop 24, by decide, by decide,
    exM_fresh, ?_, by decide⟩
  intro who t m r h
  have : (vLogOf sysLib ⟨true⟩ 1 5 60 0 exCrowd).take 23 = ((vLogOf sysLib ⟨true⟩ 1 5 60 0 exCrowd).take 23).filter
      (fun | .counter _ _ _ (.setInternalData _) _ => false | _ => true) := by decide
  rw [this] at h
  simp at h

end MCap
