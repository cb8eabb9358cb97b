import Verif.Proofs.Counter
import Verif.Props.MCaptcha

/-!
# Properties C17–C23: the counter actor (src/master/embedded/counter.rs)
-/

namespace MCap
open Spec

/-! ## C17 -/

/-- C17: for every schedule of visits, queries, clock advances and arbitrarily late timer deliveries, nothing panics, the
count is exact, and it is at least the visitors it started with plus the visits less than `duration` old. -/
theorem C17_no_visitor_forgotten (p : Profile) (m : MCaptcha) (hm : MValid m) (now : Nat) (ops : List CStep)
    (hp : ∀ s ∈ ops, plain s = true) (hv : m.visitors + (visitTimes now ops).length < 2 ^ 32) :
    ∃ now' c os, crun p now (Counter.start m) ops = .ret (now', c, os) ∧ now' = clockAfter now ops ∧
      visitsAnswered os = (visitTimes now ops).length ∧
      c.m.getVisitors + expiries os = m.getVisitors + visitsAnswered os ∧
      m.getVisitors + recent m.getDuration now' (visitTimes now ops) ≤ c.m.getVisitors := by
  obtain ⟨now', c', os, h1, h2, h3, h4, h5, h6, h7, h8, h9, h10, h11⟩ :=
    plain_run p ops now (Counter.start m) rfl hm hp hv
  have e := h9 (Nat.zero_le _)
  have e2 := (h11 (by simp [Counter.start])).2
  have e3 := h7 now' (Nat.le_refl _)
  have e4 := liveDec_le now' c'.timers
  have z : scheduled (Counter.start m) = 0 := rfl
  have z2 : liveDec now' (Counter.start m).timers = 0 := rfl
  have z3 : (Counter.start m).m = m := rfl
  have z4 : scheduled c' = (c'.timers.map (·.dec)).sum := rfl
  rw [z3] at e e3
  refine ⟨now', c', os, h1, h2, h10, ?_, ?_⟩ <;> simp only [MCaptcha.getVisitors, MCaptcha.getDuration] <;> omega

/-- A schedule where the guarantee is not trivial: three visits, one of them old and already expired. -/
example : (∀ s ∈ ([.req .addVisitor, .tick 20, .req .addVisitor, .tick 10, .fire 0, .req .addVisitor] : List CStep),
      plain s = true) ∧
    recent exM.getDuration 30
      (visitTimes 0 [.req .addVisitor, .tick 20, .req .addVisitor, .tick 10, .fire 0, .req .addVisitor]) = 2 := by
  decide

/-! ## C18 -/

/-- C18: whenever no timer is overdue, the count of a counter that started idle is exactly the number of visits of the
last `duration` seconds. -/
theorem C18_sliding_window (p : Profile) (m : MCaptcha) (hm : MValid m) (h0 : m.getVisitors = 0) (now : Nat)
    (ops : List CStep) (hp : ∀ s ∈ ops, plain s = true) (hv : (visitTimes now ops).length < 2 ^ 32)
    (now' : Nat) (c : Counter) (os : List CObs) (hr : crun p now (Counter.start m) ops = .ret (now', c, os))
    (hot : OnTime now' c) :
    c.m.getVisitors = recent m.getDuration (clockAfter now ops) (visitTimes now ops) := by
  have h0' : m.visitors = 0 := h0
  obtain ⟨n, c', os', h1, h2, h3, h4, h5, h6, h7, h8, h9, h10, h11⟩ :=
    plain_run p ops now (Counter.start m) rfl hm hp (by show m.visitors + _ < _; rw [h0']; simpa [u32Size] using hv)
  rw [hr] at h1
  simp only [Exec.ret.injEq, Prod.mk.injEq] at h1
  obtain ⟨rfl, rfl, rfl⟩ := h1
  have e := h9 (Nat.zero_le _)
  have e3 := h7 now' (Nat.le_refl _)
  have e4 := liveDec_all now' c.timers hot
  have z : scheduled (Counter.start m) = 0 := rfl
  have z2 : liveDec now' (Counter.start m).timers = 0 := rfl
  have z3 : (Counter.start m).m = m := rfl
  have z4 : scheduled c = (c.timers.map (·.dec)).sum := rfl
  rw [z3] at e e3
  rw [← h2]
  simp only [MCaptcha.getVisitors, MCaptcha.getDuration]
  omega

/-- A timely schedule after which two of three visits are in the window. -/
example : ∃ c os, crun ⟨true⟩ 0 (Counter.start exM)
      [.req .addVisitor, .tick 20, .req .addVisitor, .tick 10, .fire 0, .req .addVisitor] = .ret (30, c, os) ∧
    OnTime 30 c ∧ c.m.getVisitors = 2 := by
  refine ⟨_, _, rfl, ?_, rfl⟩
  intro t ht
  rcases List.mem_cons.1 ht with rfl | ht
  · decide
  · rcases List.mem_cons.1 ht with rfl | ht
    · decide
    · cases ht

/-! ## C19 -/

/-- C19: whatever is done to an idle counter (restores included), its count never exceeds the decrements still scheduled;
so when all of them have been delivered the count is 0. -/
theorem C19_count_bounded_by_scheduled (p : Profile) (m : MCaptcha) (h0 : m.getVisitors = 0) (now now' : Nat)
    (ops : List CStep) (c : Counter) (os : List CObs) (hr : crun p now (Counter.start m) ops = .ret (now', c, os))
    (ha : c.alive = true) :
    c.m.getVisitors ≤ scheduled c ∧ (c.timers = [] → c.m.getVisitors = 0) := by
  have hb := scheduled_bound p ops now now' (Counter.start m) c os hr (fun _ => by
    show m.visitors ≤ _
    rw [show m.visitors = 0 from h0]; exact Nat.zero_le _) ha
  refine ⟨hb, fun ht => ?_⟩
  unfold scheduled at hb
  rw [ht] at hb
  simpa [MCaptcha.getVisitors] using hb

/-- Firing the first timer as often as there are timers, once all are due, empties the timer list. -/
theorem drain_run (p : Profile) (now : Nat) (c : Counter) (ha : c.alive = true) (hd : ∀ t ∈ c.timers, t.due ≤ now) :
    ∃ c' os, crun p now c (List.replicate c.timers.length (.fire 0)) = .ret (now, c', os) ∧ c'.timers = [] ∧
      c'.alive = true := by
  generalize hn : c.timers.length = n
  induction n generalizing c with
  | zero => exact ⟨c, [], rfl, List.length_eq_zero_iff.1 hn, ha⟩
  | succ n ih =>
    cases hts : c.timers with
    | nil => simp [hts] at hn
    | cons t ts =>
      have hfire : c.fire now 0 = ({ c with timers := ts, m := c.m.decrementVisitorBy t.dec }, true) := by
        unfold Counter.fire
        rw [if_pos ha, hts]
        simp only [List.getElem?_cons_zero]
        rw [if_pos (hd t (by rw [hts]; exact List.mem_cons_self))]
        rfl
      obtain ⟨c', os, h1, h2, h3⟩ := ih { c with timers := ts, m := c.m.decrementVisitorBy t.dec } ha
        (fun t' ht' => hd t' (by rw [hts]; exact List.mem_cons_of_mem _ ht'))
        (by simpa [hts] using hn)
      exact ⟨c', .expired true :: os, by simp [List.replicate_succ, crun, cstep, hfire, h1], h2, h3⟩

/-- C19: from every state an idle counter can get into, waiting until the last timer is due and delivering the timers
leaves no visitor counted. -/
theorem C19_load_drains (p : Profile) (m : MCaptcha) (h0 : m.getVisitors = 0) (now now' : Nat)
    (ops : List CStep) (c : Counter) (os : List CObs) (hr : crun p now (Counter.start m) ops = .ret (now', c, os))
    (ha : c.alive = true) (wait : Nat) (hw : ∀ t ∈ c.timers, t.due ≤ now' + wait) :
    ∃ c' os', crun p now' c (.tick wait :: List.replicate c.timers.length (.fire 0)) = .ret (now' + wait, c', os') ∧
      c'.m.getVisitors = 0 := by
  have hb := (C19_count_bounded_by_scheduled p m h0 now now' ops c os hr ha).1
  obtain ⟨c', os', h1, h2, h3⟩ := drain_run p (now' + wait) c ha hw
  have h4 : crun p now' c (.tick wait :: List.replicate c.timers.length (.fire 0))
      = .ret (now' + wait, c', .clock :: os') := by simp [crun, cstep, h1]
  refine ⟨c', _, h4, ?_⟩
  have := scheduled_bound p _ _ _ c c' _ h4 (fun _ => hb) h3
  unfold scheduled at this
  rw [h2] at this
  simpa [MCaptcha.getVisitors] using this

/-- A history with visits and a restore. -/
example : ∃ c os, crun ⟨true⟩ 0 (Counter.start exM)
      [.req .addVisitor, .req (.setInternalData { exM with visitors := 7 }), .req .addVisitor] = .ret (0, c, os) ∧
    c.alive = true ∧ c.m.getVisitors = 8 ∧ scheduled c = 9 := ⟨_, _, rfl, rfl, rfl, rfl⟩

/-! ## C20 -/

/-- C20: reading the state of a running counter returns it and changes nothing; after a restore the restored state is
read back. -/
theorem C20_snapshot_restore (p : Profile) (now : Nat) (c : Counter) (ha : c.alive = true) (m : MCaptcha) :
    c.send p now .getInternalData = .ret (c, .data c.m) ∧
    c.send p now .getCurrentVisitorCount = .ret (c, .count c.m.visitors) ∧
    ∃ c', c.send p now (.setInternalData m) = .ret (c', .done) ∧ c'.alive = true ∧
      c'.send p now .getInternalData = .ret (c', .data m) := by
  refine ⟨?_, ?_, c.handleSetInternalData now m, ?_, ha, ?_⟩
  · unfold Counter.send; rw [if_pos ha]; rfl
  · unfold Counter.send; rw [if_pos ha]; rfl
  · unfold Counter.send; rw [if_pos ha]
  · unfold Counter.send; rw [if_pos (by exact ha)]; rfl

/-! ## C21 -/

/-- C21 is false of the code: timers scheduled before the restore eat restored visitors. One visit, restore of one visitor
with duration 100 one second later; 29 seconds later that visitor is gone. -/
theorem C21_restored_stay_counted_refuted :
    ∃ (m m₂ : MCaptcha) (c : Counter) (os : List CObs), FreshM m ∧ MValid m₂ ∧ m₂.getVisitors = 1 ∧
      m₂.getDuration = 100 ∧
      crun ⟨true⟩ 0 (Counter.start m)
        [.req .addVisitor, .tick 1, .req (.setInternalData m₂), .tick 29, .fire 0] = .ret (30, c, os) ∧
      c.alive = true ∧ c.m.getVisitors = 0 :=
  ⟨exM, { exM with visitors := 1, duration := 100 }, _, _, exM_fresh,
    ⟨(freshM_valid _ exM_fresh).1.defense, by decide, by decide⟩, rfl, rfl, rfl, rfl, rfl⟩

/-- C21, what holds: until the restored duration has elapsed, at most as many visitors are lost as decrements were
pending at the moment of the restore; on a counter without pending timers all of them stay. -/
theorem C21_restored_stay_counted_partial (p : Profile) (c : Counter) (ha : c.alive = true) (m : MCaptcha)
    (hm : MValid m) (now : Nat) (ops : List CStep) (hp : ∀ s ∈ ops, plain s = true)
    (hv : m.visitors + (visitTimes now ops).length < 2 ^ 32) (helapsed : clockAfter now ops < now + m.getDuration) :
    ∃ now' c' os, crun p now c (.req (.setInternalData m) :: ops) = .ret (now', c', os) ∧
      m.getVisitors + recent m.getDuration now' (visitTimes now ops) ≤ c'.m.getVisitors + scheduled c ∧
      (c.timers = [] → m.getVisitors + recent m.getDuration now' (visitTimes now ops) ≤ c'.m.getVisitors) := by
  obtain ⟨now', c', os, h1, h2, h3, h4, h5, h6, h7, h8, h9, h10, h11⟩ :=
    plain_run p ops now (c.handleSetInternalData now m) ha hm hp hv
  have e3 := h7 now' (Nat.le_refl _)
  have e4 := liveDec_le now' c'.timers
  have z1 : scheduled (c.handleSetInternalData now m) = scheduled c + m.visitors := by
    simp [scheduled, Counter.handleSetInternalData, MCaptcha.getVisitors]
  have z2 : m.visitors ≤ liveDec now' (c.handleSetInternalData now m).timers := by
    show _ ≤ liveDec now' (c.timers ++ [_])
    rw [liveDec_append]
    have : liveDec now' [{ due := now + m.getDuration, dec := m.getVisitors : Timer }] = m.visitors := by
      simp only [liveDec, List.filter_cons, decide_eq_true_eq]
      rw [if_pos (by omega)]
      simp [MCaptcha.getVisitors]
    omega
  have z3 : (c.handleSetInternalData now m).m = m := rfl
  have z4 : scheduled c' = (c'.timers.map (·.dec)).sum := rfl
  rw [z3] at e3 h8
  have main : m.getVisitors + recent m.getDuration now' (visitTimes now ops) ≤ c'.m.getVisitors + scheduled c := by
    simp only [MCaptcha.getVisitors, MCaptcha.getDuration]
    omega
  refine ⟨now', c', .reply .done :: os, ?_, main, ?_⟩
  · simp [crun, cstep, Counter.send, ha, h1]
  · intro ht
    have : scheduled c = 0 := by simp [scheduled, ht]
    omega

/-- Restoring seven visitors into an idle counter, then a visit. -/
example : ∃ c os, crun ⟨true⟩ 0 (Counter.start exM)
      [.req (.setInternalData { exM with visitors := 7 }), .tick 29, .req .addVisitor] = .ret (29, c, os) ∧
    c.m.getVisitors = 8 := ⟨_, _, rfl, rfl⟩

/-! ## C22 -/

/-- C22: a running counter accepts `Stop`. -/
theorem C22_stop_stops (p : Profile) (now : Nat) (c : Counter) (ha : c.alive = true) :
    ∃ c', c.send p now .stop = .ret (c', .done) ∧ c'.alive = false := by
  refine ⟨c.handleStop, ?_, rfl⟩
  unfold Counter.send; rw [if_pos ha]

/-- C22: after that, whatever happens, every request fails with a mailbox error, no timer has any effect and the
counter's state never changes. -/
theorem C22_stopped_is_inert (p : Profile) (c : Counter) (hd : c.alive = false) (now : Nat) (ops : List CStep) :
    ∃ os, crun p now c ops = .ret (clockAfter now ops, c, os) ∧
      ∀ o ∈ os, o = .clock ∨ o = .expired false ∨ o = .reply .mailboxError := by
  induction ops generalizing now with
  | nil => exact ⟨[], rfl, by simp⟩
  | cons s r ih =>
    cases s with
    | tick d =>
      obtain ⟨os, h1, h2⟩ := ih (now + d)
      exact ⟨.clock :: os, by simp [crun, cstep, h1, clockAfter], by simpa using h2⟩
    | fire i =>
      obtain ⟨os, h1, h2⟩ := ih now
      exact ⟨.expired false :: os, by simp [crun, cstep, Counter.fire, hd, h1, clockAfter], by simpa using h2⟩
    | req msg =>
      obtain ⟨os, h1, h2⟩ := ih now
      exact ⟨.reply .mailboxError :: os, by simp [crun, cstep, Counter.send, hd, h1, clockAfter], by simpa using h2⟩

example : ∃ c os, crun ⟨true⟩ 0 (Counter.start exM) [.req .addVisitor, .req .stop, .tick 30, .fire 0, .req .addVisitor]
    = .ret (30, c, os) ∧ c.alive = false ∧
    os.getLast? = some (.reply .mailboxError) := ⟨_, _, rfl, rfl, rfl⟩

/-! ## C23 -/

/-- C23: the answer to a visit carries the configured duration and the difficulty in force after counting it; one more
decrement of one visitor is scheduled, `duration` seconds ahead. -/
theorem C23_visit_answer (p : Profile) (now : Nat) (c : Counter) (ha : c.alive = true) (hm : MValid c.m)
    (hv : c.m.getVisitors + 1 < 2 ^ 32) :
    ∃ c' d, c.send p now .addVisitor = .ret (c', .visitor { duration := c.m.getDuration, difficultyFactor := d }) ∧
      c.m.addVisitor p = .ret c'.m ∧ c'.m.getDifficulty = .ret d ∧ c'.m.getVisitors = c.m.getVisitors + 1 ∧
      c'.timers = c.timers ++ [{ due := now + c.m.getDuration, dec := 1 }] ∧ c'.alive = true := by
  obtain ⟨m', g1, g2, g3, g4, g5, d, gd, g6⟩ := send_addVisitor p now c ha hm hv
  exact ⟨_, d, g6, g1, gd, g3, rfl, rfl⟩

example : ∃ c, (Counter.start { exM with visitors := 5 }).send ⟨true⟩ 3 .addVisitor
    = .ret (c, .visitor { duration := 30, difficultyFactor := 20 }) ∧ c.timers = [{ due := 33, dec := 1 }] :=
  ⟨_, rfl, rfl⟩

end MCap
