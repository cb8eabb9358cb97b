import Verif.Proofs.RedisService
import Verif.Proofs.RedisText
import Verif.Props.RedisNet

/-!
# Why actors answer and why they die
-/

namespace MCap
open Spec

/-! ### Where an event of the network comes from -/

theorem nEvent_at (s : RNet) (steps : List NStep) {e : NEvent} (h : e ∈ (nRun s steps).2) :
    ∃ pre x post, steps = pre ++ x :: post ∧ e ∈ (nStep (nRun s pre).1 x).2 := by
  induction steps generalizing s with
  | nil => cases h
  | cons x r ih =>
    rcases List.mem_append.1 h with h | h
    · exact ⟨[], x, r, rfl, h⟩
    · obtain ⟨pre, y, post, rfl, h2⟩ := ih _ h
      exact ⟨x :: pre, y, post, rfl, h2⟩

theorem nRun_split (s : RNet) (steps : List NStep) {pre post : List NEvent} {e : NEvent} (h : (nRun s steps).2 = pre ++ e :: post) :
    ∃ n1 x n2 e1 e2, steps = n1 ++ x :: n2 ∧ pre = (nRun s n1).2 ++ e1 ∧ (nStep (nRun s n1).1 x).2 = e1 ++ e :: e2 := by
  induction steps generalizing s pre with
  | nil => simp [nRun] at h
  | cons x r ih =>
    rcases append_split (show (nStep s x).2 ++ (nRun (nStep s x).1 r).2 = pre ++ e :: post from h) with ⟨c, h1, -⟩ | ⟨c, rfl, h2⟩
    · exact ⟨[], x, r, pre, c, rfl, rfl, h1⟩
    · obtain ⟨s1, y, s2, e1, e2, rfl, rfl, h3⟩ := ih _ h2
      exact ⟨x :: s1, y, s2, e1, e2, rfl, by simp [nRun], h3⟩

theorem nRun_prefix (s : RNet) (pre post : List NStep) {e : NEvent} (h : e ∈ (nRun s pre).2) : e ∈ (nRun s (pre ++ post)).2 := by
  rw [nRun_append]
  exact List.mem_append_left _ h

/-- The reply delivered belongs to the request that is waiting. -/
theorem deliver_right (conns : List Nat) (now : Nat) (steps : List NStep) {k i a : Nat} {m' m : RMsg} {r : RResult} {x : RActor}
    (h : (nRun (RNet.new conns now) steps).1.replies[k]? = some (i, m', r)) (hx : (nRun (RNet.new conns now) steps).1.sys.actors[a]? = some x)
    (hb : x.busy = some (i, m)) : ∃ t, .served i m r t ∈ (nRun (RNet.new conns now) steps).2 := by
  obtain ⟨⟨b, h1⟩, t, h2⟩ := (netInv_run conns now steps).replies _ (List.mem_of_getElem? h)
  have h3 := ((prov_net conns now steps).busy a x hx i m hb).1
  obtain ⟨-, rfl⟩ := (rids_net conns now steps).once _ _ _ _ _ (mem_atActors.2 h1) h3
  exact ⟨t, h2⟩

/-- An answer is given on the spot, or is what the handler makes of the reply of the server to this very request, or of a failure of the
connection. -/
theorem genuine_answer (conns : List Nat) (now : Nat) (steps : List NStep) {a i : Nat} {m : RMsg} {ans : RAnswer}
    {lpre lpost : List NEvent} (h : (nRun (RNet.new conns now) steps).2 = lpre ++ .actor (.answered a i m ans) :: lpost) :
    (m.immediate = true ∧ ans = .unit (.ok ())) ∨
    (∃ r t, .served i m r t ∈ lpre ∧ m.answer r = .ret ans) ∨
    ∃ e, .fail a e ∈ steps ∧ m.answer (.error e) = .ret ans := by
  obtain ⟨pre, x, post, e1, e2, rfl, rfl, h2⟩ := nRun_split _ _ h
  replace h2 : .actor (.answered a i m ans) ∈ (nStep (nRun (RNet.new conns now) pre).1 x).2 := by rw [h2]; simp
  have key : ∀ (s : RSys) (y : RStep), .answered a i m ans ∈ (rStep s y).2 → (m.immediate = true ∧ ans = .unit (.ok ())) ∨
      ∃ r z, y = .reply a r ∧ s.actors[a]? = some z ∧ z.busy = some (i, m) ∧ m.answer r = .ret ans := by
    intro s y hm
    rcases rStep_answered hm with ⟨-, h1, h2⟩ | ⟨r, z, h1, h2, h3, h4, -⟩
    · exact .inl ⟨h1, h2⟩
    · exact .inr ⟨r, z, h1, h2, h3, h4⟩
  cases x with
  | send b m' =>
    simp only [nStep, RNet.onActors, List.mem_map, NEvent.actor.injEq, exists_eq_right] at h2
    rcases key _ _ h2 with h | ⟨_, _, e, -⟩
    · exact .inl h
    · cases e
  | take b =>
    simp only [nStep, List.mem_map, NEvent.actor.injEq, exists_eq_right] at h2
    rcases key _ _ h2 with h | ⟨_, _, e, -⟩
    · exact .inl h
    · cases e
  | drop b =>
    simp only [nStep, RNet.onActors, List.mem_map, NEvent.actor.injEq, exists_eq_right] at h2
    rcases key _ _ h2 with h | ⟨_, _, e, -⟩
    · exact .inl h
    · cases e
  | fail b e =>
    simp only [nStep, RNet.onActors, List.mem_map, NEvent.actor.injEq, exists_eq_right] at h2
    rcases key _ _ h2 with h | ⟨_, _, e', -, -, ha⟩
    · exact .inl h
    · cases e'
      exact .inr (.inr ⟨e, by simp, ha⟩)
  | tick => simp [nStep] at h2
  | serve k r =>
    simp only [nStep] at h2
    split at h2 <;> simp at h2
  | deliver b k =>
    simp only [nStep] at h2
    split at h2
    · rename_i j m' r x hk hx
      split at h2
      · simp only [RNet.onActors, List.mem_map, NEvent.actor.injEq, exists_eq_right] at h2
        rcases key _ _ h2 with h | ⟨r', z, e', hz, hb, ha⟩
        · exact .inl h
        · cases e'
          rename_i hbi
          have hz' : (nRun (RNet.new conns now) pre).1.sys.actors[a]? = some z := hz
          rw [hx] at hz'; cases hz'
          rw [hb] at hbi
          simp only [Option.map_some, Option.some.injEq] at hbi
          subst hbi
          obtain ⟨t, ht⟩ := deliver_right conns now pre hk hx hb
          exact .inr (.inl ⟨r, t, List.mem_append_left _ ht, ha⟩)
      · cases h2
    · cases h2

/-- Why an actor dies: a handler that is missing, a connection in use, a reply it does not bear, or a caller of the cache who has given up. -/
theorem genuine_crash (conns : List Nat) (now : Nat) (steps : List NStep) {a i : Nat} {w : Panic}
    (h : .actor (.crashed a i w) ∈ (nRun (RNet.new conns now) steps).2) :
    ∃ m, .actor (.sent a i m) ∈ (nRun (RNet.new conns now) steps).2 ∧
      (m.todo = true ∨ w = .alreadyBorrowed ∨
       (∃ r t, .served i m r t ∈ (nRun (RNet.new conns now) steps).2 ∧ m.answer r = .panic w) ∨
       (∃ e, .fail a e ∈ steps ∧ m.answer (.error e) = .panic w) ∨
       (m.needsReceiver = true ∧ ∃ pre post x, steps = pre ++ post ∧ i ∈ (nRun (RNet.new conns now) pre).1.sys.gone ∧
        (nRun (RNet.new conns now) pre).1.sys.actors[a]? = some x ∧ x.busy = some (i, m))) := by
  obtain ⟨pre, x, post, rfl, h2⟩ := nEvent_at _ _ h
  have hsent : ∀ m, .actor (.sent a i m) ∈ (nRun (RNet.new conns now) pre).2 → .actor (.sent a i m) ∈ (nRun (RNet.new conns now) (pre ++ x :: post)).2 :=
    fun m hm => nRun_prefix _ _ _ hm
  have hprov := prov_net conns now pre
  have take : ∀ (y : RStep), .crashed a i w ∈ (rStep (nRun (RNet.new conns now) pre).1.sys y).2 → (∃ m, .actor (.sent a i m) ∈ (nRun (RNet.new conns now) (pre ++ x :: post)).2 ∧
      (m.todo = true ∨ w = .alreadyBorrowed)) ∨
      ∃ r z m, y = .reply a r ∧ (nRun (RNet.new conns now) pre).1.sys.actors[a]? = some z ∧ z.busy = some (i, m) ∧
        (m.answer r = .panic w ∨ (m.needsReceiver = true ∧ i ∈ (nRun (RNet.new conns now) pre).1.sys.gone)) := by
    intro y hm
    rcases rStep_crashed hm with ⟨m, z, -, hz, hi, hw⟩ | ⟨r, z, m, h1, h2, h3, h4⟩
    · refine .inl ⟨m, hsent m (mem_atActors.1 (hprov.inbox a z hz i m hi)), ?_⟩
      rcases hw with ⟨hw, -⟩ | hw
      · exact .inl hw
      · exact .inr hw
    · refine .inr ⟨r, z, m, h1, h2, h3, ?_⟩
      rcases h4 with h4 | ⟨h4, h5, -⟩
      · exact .inl h4
      · exact .inr ⟨h4, h5⟩
  have plain : (∃ m, .actor (.sent a i m) ∈ (nRun (RNet.new conns now) (pre ++ x :: post)).2 ∧ (m.todo = true ∨ w = .alreadyBorrowed)) →
      ∃ m, .actor (.sent a i m) ∈ (nRun (RNet.new conns now) (pre ++ x :: post)).2 ∧
      (m.todo = true ∨ w = .alreadyBorrowed ∨
       (∃ r t, .served i m r t ∈ (nRun (RNet.new conns now) (pre ++ x :: post)).2 ∧ m.answer r = .panic w) ∨
       (∃ e, .fail a e ∈ (pre ++ x :: post) ∧ m.answer (.error e) = .panic w) ∨
       (m.needsReceiver = true ∧ ∃ pre' post' z, pre ++ x :: post = pre' ++ post' ∧ i ∈ (nRun (RNet.new conns now) pre').1.sys.gone ∧
        (nRun (RNet.new conns now) pre').1.sys.actors[a]? = some z ∧ z.busy = some (i, m))) := by
    rintro ⟨m, h1, h2 | h2⟩
    · exact ⟨m, h1, .inl h2⟩
    · exact ⟨m, h1, .inr (.inl h2)⟩
  have gone : ∀ z m, (nRun (RNet.new conns now) pre).1.sys.actors[a]? = some z → z.busy = some (i, m) → m.needsReceiver = true →
      i ∈ (nRun (RNet.new conns now) pre).1.sys.gone → ∃ pre' post' z, pre ++ x :: post = pre' ++ post' ∧ i ∈ (nRun (RNet.new conns now) pre').1.sys.gone ∧
        (nRun (RNet.new conns now) pre').1.sys.actors[a]? = some z ∧ z.busy = some (i, m) :=
    fun z m hz hb hn hg => ⟨pre, x :: post, z, rfl, hg, hz, hb⟩
  cases x with
  | send b m' =>
    simp only [nStep, RNet.onActors, List.mem_map, NEvent.actor.injEq, exists_eq_right] at h2
    rcases take _ h2 with h | ⟨_, _, _, e, -⟩
    · exact plain h
    · cases e
  | take b =>
    simp only [nStep, List.mem_map, NEvent.actor.injEq, exists_eq_right] at h2
    rcases take _ h2 with h | ⟨_, _, _, e, -⟩
    · exact plain h
    · cases e
  | drop b =>
    simp only [nStep, RNet.onActors, List.mem_map, NEvent.actor.injEq, exists_eq_right] at h2
    rcases take _ h2 with h | ⟨_, _, _, e, -⟩
    · exact plain h
    · cases e
  | fail b e =>
    simp only [nStep, RNet.onActors, List.mem_map, NEvent.actor.injEq, exists_eq_right] at h2
    rcases take _ h2 with h | ⟨_, z, m, e', hz, hb, hw⟩
    · exact plain h
    · cases e'
      refine ⟨m, hsent m (mem_atActors.1 (hprov.busy a z hz i m hb).1), ?_⟩
      rcases hw with hw | ⟨hn, hg⟩
      · exact .inr (.inr (.inr (.inl ⟨e, by simp, hw⟩)))
      · exact .inr (.inr (.inr (.inr ⟨hn, gone z m hz hb hn hg⟩)))
  | tick => simp [nStep] at h2
  | serve k r =>
    simp only [nStep] at h2
    split at h2 <;> simp at h2
  | deliver b k =>
    simp only [nStep] at h2
    split at h2
    · rename_i j m' r z hk hx
      split at h2
      · rename_i hbi
        simp only [RNet.onActors, List.mem_map, NEvent.actor.injEq, exists_eq_right] at h2
        rcases take _ h2 with h | ⟨r', z', m, e', hz, hb, hw⟩
        · exact plain h
        · cases e'
          rw [hx] at hz; cases hz
          rw [hb] at hbi
          simp only [Option.map_some, Option.some.injEq] at hbi
          subst hbi
          obtain ⟨t, ht⟩ := deliver_right conns now pre hk hx hb
          refine ⟨m, hsent m (mem_atActors.1 (hprov.busy a z hx i m hb).1), ?_⟩
          rcases hw with hw | ⟨hn, hg⟩
          · exact .inr (.inr (.inl ⟨r, t, nRun_prefix _ _ _ ht, hw⟩))
          · exact .inr (.inr (.inr (.inr ⟨hn, gone z m hx hb hn hg⟩)))
      · cases h2
    · cases h2

/-! ### Requests under way are not answered yet -/

/-- The requests of an actor, the running one first. -/
def RActor.pending (x : RActor) : List (Nat × RMsg) := x.busy.toList ++ x.inbox

structure PendInv (s : RSys) (log : List REvent) : Prop where
  ids : RIds s log
  prov : ProvInv s log
  nodup : ∀ (a : Nat) (x : RActor), s.actors[a]? = some x → (x.pending.map Prod.fst).Nodup
  open_ : ∀ (a : Nat) (x : RActor), s.actors[a]? = some x → ∀ i m, (i, m) ∈ x.pending → ∀ m' ans, .answered a i m' ans ∉ log

theorem pendInv_step {s : RSys} {log : List REvent} (h : PendInv s log) (hp : ProvInv (rStep s y).1 (log ++ (rStep s y).2)) :
    PendInv (rStep s y).1 (log ++ (rStep s y).2) := by
  have hr := rids_move h.ids (rStep_move s y)
  have mv := rStep_move s y
  generalize (rStep s y).1 = s' at *
  generalize (rStep s y).2 = ev at *
  have hpend : ∀ {a : Nat} {x : RActor}, s.actors[a]? = some x → ∀ {i m}, (i, m) ∈ x.pending → .sent a i m ∈ log := by
    intro a x hx i m hm
    simp only [RActor.pending, List.mem_append, Option.mem_toList] at hm
    rcases hm with hm | hm
    · exact (h.prov.busy a x hx i m hm).1
    · exact h.prov.inbox a x hx i m hm
  -- one actor changes
  have one : ∀ (b : Nat) (x x' : RActor) (s0 : RSys), s0.actors = s.actors → s' = s0.setActor b x' → s.actors[b]? = some x → (x'.pending.map Prod.fst).Nodup →
      (∀ i m, (i, m) ∈ x'.pending → ∀ m' ans, .answered b i m' ans ∉ log ++ ev) → (∀ c i m ans, .answered c i m ans ∈ ev → c = b) → PendInv s' (log ++ ev) := by
    intro b x x' s0 hs0 hs' hx hn ho hc
    have hget : ∀ (a : Nat) (z : RActor), s'.actors[a]? = some z → (a = b ∧ z = x') ∨ (a ≠ b ∧ s.actors[a]? = some z) := by
      intro a z hz
      rw [hs', getElem?_setActor s0 b a x x' (by rw [hs0]; exact hx)] at hz
      split at hz
      · rename_i e
        cases hz
        exact .inl ⟨e.symm, rfl⟩
      · rename_i e
        rw [hs0] at hz
        exact .inr ⟨fun h => e h.symm, hz⟩
    refine ⟨hr, hp, ?_, ?_⟩
    · intro a z hz
      rcases hget a z hz with ⟨rfl, rfl⟩ | ⟨-, hz⟩
      · exact hn
      · exact h.nodup a z hz
    · intro a z hz i m hm m' ans hmem
      rcases hget a z hz with ⟨rfl, rfl⟩ | ⟨hab, hz⟩
      · exact ho i m hm m' ans hmem
      · rcases List.mem_append.1 hmem with hmem | hmem
        · exact h.open_ a z hz i m hm m' ans hmem
        · exact hab (hc _ _ _ _ hmem)
  cases mv with
  | quiet s' ha hb hn =>
    refine ⟨hr, hp, ?_, ?_⟩
    · intro a x hx; exact h.nodup a x (by rw [← ha]; exact hx)
    · intro a x hx i m hm m' ans hmem
      exact h.open_ a x (by rw [← ha]; exact hx) i m hm m' ans (by simpa using hmem)
  | refuse a m =>
    refine ⟨hr, hp, h.nodup, ?_⟩
    intro b x hx i m' hm m'' ans hmem
    exact h.open_ b x hx i m' hm m'' ans (by simpa using hmem)
  | post a x m hx hal =>
    refine one a x _ { s with next := s.next + 1 } rfl rfl hx ?_ ?_ (by simp)
    · have := h.nodup a x hx
      simp only [RActor.pending, List.map_append, List.map_cons, List.map_nil] at this ⊢
      rw [← List.append_assoc, List.nodup_append]
      refine ⟨this, by simp, ?_⟩
      intro i hi j hj hij
      simp only [List.mem_singleton] at hj
      subst hj hij
      rw [← List.map_append, List.mem_map] at hi
      obtain ⟨⟨i', m'⟩, hi', he⟩ := hi
      simp only at he
      subst he
      have := h.ids.below _ _ _ (hpend hx hi')
      omega
    · intro i m' hm m'' ans hmem
      have hmem : .answered a i m'' ans ∈ log := by simpa using hmem
      simp only [RActor.pending, List.mem_append, List.mem_singleton] at hm
      rcases hm with hm | hm | hm
      · exact h.open_ a x hx i m' (by simp only [RActor.pending, List.mem_append]; exact .inl hm) m'' ans hmem
      · exact h.open_ a x hx i m' (by simp only [RActor.pending, List.mem_append]; exact .inr hm) m'' ans hmem
      · cases hm
        have := h.ids.below _ _ _ (h.prov.answered _ _ _ _ hmem).1
        omega
  | die a x i m rest w hx hb hi hw =>
    exact one a x _ s rfl rfl hx (by simp [RActor.pending, RSys.RActor.dead]) (by intro i m hm; simp [RActor.pending, RSys.RActor.dead] at hm) (by simp)
  | now a x i m rest hx hb hi him =>
    have hnd := h.nodup a x hx
    simp only [RActor.pending, hb, hi, Option.toList_none, List.nil_append, List.map_cons, List.nodup_cons] at hnd
    refine one a x { x with inbox := rest } s rfl rfl hx (by simpa [RActor.pending, hb] using hnd.2) ?_ ?_
    · intro j m' hm m'' ans hmem
      simp only [RActor.pending, hb, Option.toList_none, List.nil_append] at hm
      rcases List.mem_append.1 hmem with hmem | hmem
      · exact h.open_ a x hx j m' (by simp only [RActor.pending, hi, List.mem_append, List.mem_cons]; exact .inr (.inr hm)) m'' ans hmem
      · simp only [List.mem_singleton, REvent.answered.injEq] at hmem
        obtain ⟨-, rfl, -⟩ := hmem
        exact hnd.1 (List.mem_map.2 ⟨_, hm, rfl⟩)
    · intro c j m' ans hm
      simp only [List.mem_singleton, REvent.answered.injEq] at hm
      exact hm.1
  | start a x i m rest hx hb hi ht him hcn =>
    have hnd := h.nodup a x hx
    simp only [RActor.pending, hb, hi, Option.toList_none, List.nil_append] at hnd
    refine one a x { x with inbox := rest, busy := some (i, m) } { s with borrowed := x.conn :: s.borrowed } rfl rfl hx (by simpa [RActor.pending] using hnd) ?_ (by simp)
    intro j m' hm m'' ans hmem
    have hmem : .answered a j m'' ans ∈ log := by simpa using hmem
    exact h.open_ a x hx j m' (by simpa [RActor.pending, hi, hb] using hm) m'' ans hmem
  | fail a x i m r w hx hb hw =>
    exact one a x _ { s with borrowed := s.borrowed.erase x.conn } rfl rfl hx (by simp [RActor.pending, RSys.RActor.dead])
      (by intro i m hm; simp [RActor.pending, RSys.RActor.dead] at hm) (by simp)
  | finish a x i m r ans hx hb ha =>
    have hnd := h.nodup a x hx
    simp only [RActor.pending, hb, Option.toList_some, List.cons_append, List.nil_append, List.map_cons, List.nodup_cons] at hnd
    refine one a x { x with busy := none } { s with borrowed := s.borrowed.erase x.conn } rfl rfl hx (by simpa [RActor.pending] using hnd.2) ?_ ?_
    · intro j m' hm m'' ans' hmem
      simp only [RActor.pending, Option.toList_none, List.nil_append] at hm
      rcases List.mem_append.1 hmem with hmem | hmem
      · exact h.open_ a x hx j m' (by simp only [RActor.pending, List.mem_append]; exact .inr hm) m'' ans' hmem
      · simp only [List.mem_singleton, REvent.answered.injEq] at hmem
        obtain ⟨-, rfl, -⟩ := hmem
        exact hnd.1 (List.mem_map.2 ⟨_, hm, rfl⟩)
    · intro c j m' ans hm
      simp only [List.mem_singleton, REvent.answered.injEq] at hm
      exact hm.1

theorem pendInv_run (conns : List Nat) (steps : List RStep) : PendInv (rRun (RSys.new conns) steps).1 (rRun (RSys.new conns) steps).2 := by
  suffices h : ∀ (post pre : List RStep), PendInv (rRun (RSys.new conns) pre).1 (rRun (RSys.new conns) pre).2 →
      PendInv (rRun (RSys.new conns) (pre ++ post)).1 (rRun (RSys.new conns) (pre ++ post)).2 by
    have := h steps [] ⟨rids_run conns [], provInv_run conns [], ?_, ?_⟩
    · simpa using this
    · intro a x hx
      simp only [rRun, RSys.new, List.getElem?_map, Option.map_eq_some_iff] at hx
      obtain ⟨c, -, rfl⟩ := hx
      exact List.nodup_nil
    · intro a x hx i m hm
      simp only [rRun, RSys.new, List.getElem?_map, Option.map_eq_some_iff] at hx
      obtain ⟨c, -, rfl⟩ := hx
      cases hm
  intro post
  induction post with
  | nil => intro pre h; simpa using h
  | cons y r ih =>
    intro pre h
    have hp := provInv_run conns (pre ++ [y])
    rw [rRun_append] at hp
    simp only [rRun, List.append_nil] at hp
    have := ih (pre ++ [y]) (by rw [rRun_append]; simp only [rRun, List.append_nil]; exact pendInv_step h hp)
    simpa using this

theorem pend_net (conns : List Nat) (now : Nat) (steps : List NStep) :
    PendInv (nRun (RNet.new conns now) steps).1.sys (atActors (nRun (RNet.new conns now) steps).2) := by
  obtain ⟨ys, hy⟩ := (netInv_run conns now steps).reached
  have := pendInv_run conns ys
  rw [hy] at this
  exact this

/-! ### A call is one function called once -/

/-- The functions called. -/
def apis (s : Sys) : List Api := s.calls.map Call.api

theorem apis_set (s : Sys) (i : Nat) (c c' : Call) (hc : s.calls[i]? = some c) (h : c'.api = c.api) : (s.calls.set i c').map Call.api = s.calls.map Call.api := by
  rw [List.map_set, h]
  apply List.ext_getElem?
  intro j
  rw [List.getElem?_set]
  split
  · rename_i e
    subst e
    split
    · rw [List.getElem?_map, hc]; rfl
    · rename_i e
      rw [List.getElem?_eq_none (by omega)]
  · rfl

theorem apis_settle (l : List Call) (q : Queue) (ev : List QEvent) : (l.mapIdx (Call.settle q ev)).map Call.api = l.map Call.api := by
  apply List.ext_getElem?
  intro j
  simp only [List.getElem?_map, List.getElem?_mapIdx]
  cases l[j]? with
  | none => rfl
  | some c => simp [settle_api]

/-- A step keeps the functions called or adds one. -/
theorem move_apis {lib : PowLib} {p : Profile} {s s' : Sys} {ev : List SEvent} (m : Move lib p s s' ev) :
    ((apis s' = apis s ∧ ∀ i a, .call i a ∉ ev) ∨ ∃ a, apis s' = apis s ++ [a] ∧ ev = [.call (apis s).length a]) ∧
    ∀ i a r, .ret i a r ∈ ev → (apis s)[i]? = some a := by
  cases m with
  | idle => exact ⟨.inl ⟨rfl, by simp⟩, by simp⟩
  | «local» j c c' _ hc m =>
    have ha : (apis s)[j]? = some c.api := by simp [apis, hc]
    cases m with
    | _ =>
      refine ⟨.inl ⟨apis_set s j c _ hc (by first | rfl | simp [Call.over, Call.dropRx]), by simp⟩, ?_⟩
      intro i a r hm
      simp at hm
      try (obtain ⟨rfl, rfl, -⟩ := hm; exact ha)
  | start a hq => exact ⟨.inr ⟨a, by simp [apis, Call.start], by simp [apis]⟩, by simp⟩
  | cache i c m k hc h2 => exact ⟨.inl ⟨apis_set s i c _ hc rfl, by simp⟩, by simp⟩
  | submit i c work ip cfg hc h1 h2 hk hl hq hcl => exact ⟨.inl ⟨apis_set s i c _ hc rfl, by simp⟩, by simp⟩
  | panic i c cfg work ip hc h1 h2 hl hq hcl => exact ⟨.inl ⟨apis_set s i c _ hc (by simp [Call.over, Call.dropRx]), by simp⟩, by simp⟩
  | queue qs hm => exact ⟨.inl ⟨apis_settle _ _ _, by simp⟩, by simp⟩
  | shutdown hs => exact ⟨.inl ⟨apis_settle _ _ _, by simp⟩, by simp⟩
  | expire k => exact ⟨.inl ⟨rfl, by simp⟩, by simp⟩
  | tick d => exact ⟨.inl ⟨rfl, by simp⟩, by simp⟩

theorem open_apis (lib : PowLib) (p : Profile) (s : Sys) (x : OStep) :
    ((apis (openStep lib p s x).1 = apis s ∧ ∀ i a, .api (.call i a) ∉ (openStep lib p s x).2) ∨
     ∃ a, apis (openStep lib p s x).1 = apis s ++ [a] ∧ (openStep lib p s x).2 = [.api (.call (apis s).length a)]) ∧
    ∀ i a r, .api (.ret i a r) ∈ (openStep lib p s x).2 → (apis s)[i]? = some a := by
  cases x with
  | sys st =>
    simp only [openStep]
    split
    · have := move_apis (sysStep_move lib p s st)
      refine ⟨?_, ?_⟩
      · rcases this.1 with ⟨h1, h2⟩ | ⟨a, h1, h2⟩
        · exact .inl ⟨h1, by simpa using h2⟩
        · exact .inr ⟨a, h1, by simp [h2]⟩
      · intro i a r hm
        simp at hm
        exact this.2 i a r hm
    · exact ⟨.inl ⟨rfl, by simp⟩, by simp⟩
  | cache i a =>
    simp only [openStep]
    split
    · exact ⟨.inl ⟨rfl, by simp⟩, by simp⟩
    · split
      · rename_i c hc
        split
        · rename_i m k hpc hl
          cases a with
          | ok r =>
            simp only [Sys.onCacheAnswer]
            split
            · exact ⟨.inl ⟨apis_set s i c _ hc rfl, by simp⟩, by simp⟩
            · exact ⟨.inl ⟨rfl, by simp⟩, by simp⟩
          | error e =>
            refine ⟨.inl ⟨apis_set s i c _ hc (by simp [Call.over, Call.dropRx]), by simp [Sys.onCacheAnswer]⟩, ?_⟩
            intro j a r hm
            simp [Sys.onCacheAnswer] at hm
            obtain ⟨rfl, rfl, -⟩ := hm
            simp [apis, hc]
        · exact ⟨.inl ⟨rfl, by simp⟩, by simp⟩
      · exact ⟨.inl ⟨rfl, by simp⟩, by simp⟩

theorem open_made (lib : PowLib) (p : Profile) (n ql now : Nat) (steps : List OStep) :
    (∀ i a, .api (.call i a) ∈ (openRun lib p (Sys.new n ql now) steps).2 ↔ (apis (openRun lib p (Sys.new n ql now) steps).1)[i]? = some a) ∧
    ∀ i a r, .api (.ret i a r) ∈ (openRun lib p (Sys.new n ql now) steps).2 → (apis (openRun lib p (Sys.new n ql now) steps).1)[i]? = some a := by
  suffices h : ∀ (s : Sys) (log : List OEvent), (∀ i a, .api (.call i a) ∈ log ↔ (apis s)[i]? = some a) → (∀ i a r, .api (.ret i a r) ∈ log → (apis s)[i]? = some a) →
      (∀ i a, .api (.call i a) ∈ log ++ (openRun lib p s steps).2 ↔ (apis (openRun lib p s steps).1)[i]? = some a) ∧
      ∀ i a r, .api (.ret i a r) ∈ log ++ (openRun lib p s steps).2 → (apis (openRun lib p s steps).1)[i]? = some a by
    simpa using h (Sys.new n ql now) [] (by simp [apis, Sys.new]) (by simp)
  induction steps with
  | nil => intro s log h1 h2; simpa [openRun] using ⟨h1, h2⟩
  | cons x r ih =>
    intro s log h1 h2
    have := open_apis lib p s x
    have h := ih (openStep lib p s x).1 (log ++ (openStep lib p s x).2) ?_ ?_
    · rwa [List.append_assoc] at h
    · intro i a
      rw [List.mem_append, h1]
      rcases this.1 with ⟨e1, e2⟩ | ⟨b, e1, e2⟩
      · rw [e1]
        exact ⟨fun h => h.resolve_right (e2 i a), .inl⟩
      · rw [e1, e2]
        simp only [List.mem_singleton, OEvent.api.injEq, SEvent.call.injEq]
        rw [List.getElem?_append]
        split
        · rename_i hl
          constructor
          · rintro (h | ⟨rfl, -⟩)
            · exact h
            · omega
          · exact .inl
        · rename_i hl
          rw [List.getElem?_eq_none (by omega)]
          constructor
          · rintro (h | ⟨rfl, rfl⟩)
            · cases h
            · simp
          · intro h
            rw [List.getElem?_singleton] at h
            split at h
            · cases h
              exact .inr ⟨by omega, rfl⟩
            · cases h
    · intro i a r' hm
      have old : (apis s)[i]? = some a → (apis (openStep lib p s x).1)[i]? = some a := by
        intro ho
        rcases this.1 with ⟨e1, -⟩ | ⟨b, e1, -⟩
        · rw [e1]; exact ho
        · rw [e1, List.getElem?_append_left]
          · exact ho
          · exact (List.getElem?_eq_some_iff.1 ho).1
      rcases List.mem_append.1 hm with hm | hm
      · exact old (h2 i a r' hm)
      · exact old (this.2 i a r' hm)

/-! ### The steps of the network in a run of the service -/

/-- A receiver is dropped only if its request was sent, and for requests to a cache answered. -/
def LateDrops (conns : List Nat) (now : Nat) (ns : List NStep) : Prop :=
  ∀ n1 id n2, ns = n1 ++ .drop id :: n2 → id < (nRun (RNet.new conns now) n1).1.sys.next ∧
    ∀ a m, .actor (.sent a id m) ∈ (nRun (RNet.new conns now) n1).2 → ToCache m → ∃ ans, .actor (.answered a id m ans) ∈ (nRun (RNet.new conns now) n1).2

theorem gone_step (s : RSys) (y : RStep) : (rStep s y).1.gone = (match y with | .drop i => i :: s.gone | _ => s.gone) ∧ s.next ≤ (rStep s y).1.next := by
  cases y with
  | send a m =>
    simp only [rStep]
    split
    · exact ⟨rfl, Nat.le_refl _⟩
    · split
      · exact ⟨rfl, Nat.le_succ _⟩
      · exact ⟨rfl, Nat.le_refl _⟩
  | take a =>
    simp only [rStep]
    split
    · exact ⟨rfl, Nat.le_refl _⟩
    · split
      · unfold RSys.onTake
        repeat' split
        all_goals exact ⟨rfl, Nat.le_refl _⟩
      · exact ⟨rfl, Nat.le_refl _⟩
  | reply a r =>
    simp only [rStep]
    split
    · exact ⟨rfl, Nat.le_refl _⟩
    · split
      · unfold RSys.onReply
        repeat' split
        all_goals exact ⟨rfl, Nat.le_refl _⟩
      · exact ⟨rfl, Nat.le_refl _⟩
  | drop i => exact ⟨rfl, Nat.le_refl _⟩

theorem gone_nStep (s : RNet) (x : NStep) :
    (nStep s x).1.sys.gone = (match x with | .drop i => i :: s.sys.gone | _ => s.sys.gone) ∧ s.sys.next ≤ (nStep s x).1.sys.next := by
  cases x with
  | send a m => exact gone_step s.sys (.send a m)
  | take a => exact gone_step s.sys (.take a)
  | drop a => exact gone_step s.sys (.drop a)
  | fail a e => exact gone_step s.sys (.reply a (.error e))
  | tick ms => exact ⟨rfl, Nat.le_refl _⟩
  | serve k r =>
    simp only [nStep]
    split <;> exact ⟨rfl, Nat.le_refl _⟩
  | deliver a k =>
    simp only [nStep]
    split
    · split
      · exact gone_step s.sys (.reply a _)
      · exact ⟨rfl, Nat.le_refl _⟩
    · exact ⟨rfl, Nat.le_refl _⟩

theorem gone_from (conns : List Nat) (now : Nat) (ns : List NStep) {i : Nat} (h : i ∈ (nRun (RNet.new conns now) ns).1.sys.gone) :
    ∃ n1 n2, ns = n1 ++ .drop i :: n2 := by
  suffices key : ∀ (post pre : List NStep), (∀ i ∈ (nRun (RNet.new conns now) pre).1.sys.gone, ∃ n1 n2, pre = n1 ++ .drop i :: n2) →
      ∀ i ∈ (nRun (RNet.new conns now) (pre ++ post)).1.sys.gone, ∃ n1 n2, pre ++ post = n1 ++ .drop i :: n2 by
    exact key ns [] (by intro i hi; cases hi) i h
  intro post
  induction post with
  | nil => intro pre h; simpa using h
  | cons y r ih =>
    intro pre h
    have := ih (pre ++ [y]) ?_
    · simpa using this
    · intro i hi
      rw [nRun_append] at hi
      simp only [nRun] at hi
      rw [(gone_nStep _ y).1] at hi
      split at hi
      · rcases List.mem_cons.1 hi with rfl | hi
        · exact ⟨pre, [], rfl⟩
        · obtain ⟨n1, n2, rfl⟩ := h i hi
          exact ⟨n1, n2 ++ [.drop _], by simp; rfl⟩
      · obtain ⟨n1, n2, rfl⟩ := h i hi
        exact ⟨n1, n2 ++ [y], by simp⟩

/-- With such drops nobody waiting for an answer of a cache has gone. -/
theorem late_gone (conns : List Nat) (now : Nat) (ns : List NStep) (h : LateDrops conns now ns) {i a : Nat} {x : RActor} {m : RMsg}
    (hg : i ∈ (nRun (RNet.new conns now) ns).1.sys.gone) (hx : (nRun (RNet.new conns now) ns).1.sys.actors[a]? = some x) (hb : x.busy = some (i, m))
    (hm : m.needsReceiver = true) : False := by
  obtain ⟨n1, n2, rfl⟩ := gone_from conns now ns hg
  obtain ⟨hlt, hans⟩ := h n1 i n2 rfl
  have hp := pend_net conns now (n1 ++ .drop i :: n2)
  have hsent := (hp.prov.busy a x hx i m hb).1
  have hopen := hp.open_ a x hx i m (by simp [RActor.pending, hb])
  have hsent1 : .actor (.sent a i m) ∈ (nRun (RNet.new conns now) n1).2 := by
    have hs := mem_atActors.1 hsent
    rw [nRun_append] at hs
    rcases List.mem_append.1 hs with hs | hs
    · exact hs
    · exfalso
      have key : ∀ (l : List NStep) (s : RNet), i < s.sys.next → .actor (.sent a i m) ∉ (nRun s l).2 := by
        intro l
        induction l with
        | nil => intro s _ hm; cases hm
        | cons y r ih =>
          intro s hs hm
          rcases List.mem_append.1 hm with hm | hm
          · have hm := mem_atActors.2 hm
            rcases nStep_actors s y with ⟨-, h2⟩ | ⟨z, -, h2⟩
            · rw [h2] at hm; cases hm
            · rw [h2] at hm
              have mv := rStep_move s.sys z
              generalize (rStep s.sys z).2 = ev at hm mv
              generalize (rStep s.sys z).1 = s'' at mv
              cases mv <;> simp at hm
              omega
          · exact ih _ (Nat.lt_of_lt_of_le hs (gone_nStep s y).2) hm
      exact key _ _ hlt hs
  obtain ⟨ans, ha⟩ := hans a m hsent1 (toCache_of_needs hm)
  exact hopen m ans (mem_atActors.2 (nRun_prefix _ _ _ ha))

/-- The network inside a run of the service. -/
theorem service_net (lib : PowLib) (p : Profile) (n ql now : Nat) (conns : List Nat) (steps : List ZStep) :
    ∃ ns, nRun (RNet.new conns now) ns = ((zRun lib p (RService.new n ql now conns) steps).1.net, atRedis (zRun lib p (RService.new n ql now conns) steps).2) ∧
      (∀ b e, .fail b e ∈ ns → .net (.fail b e) ∈ steps) ∧ (GivesUpLate lib p (RService.new n ql now conns) steps → LateDrops conns now ns) := by
  suffices key : ∀ (post pre : List ZStep),
      (∃ ns, nRun (RNet.new conns now) ns = ((zRun lib p (RService.new n ql now conns) pre).1.net, atRedis (zRun lib p (RService.new n ql now conns) pre).2) ∧
        (∀ b e, .fail b e ∈ ns → .net (.fail b e) ∈ pre) ∧ (GivesUpLate lib p (RService.new n ql now conns) pre → LateDrops conns now ns)) →
      ∃ ns, nRun (RNet.new conns now) ns = ((zRun lib p (RService.new n ql now conns) (pre ++ post)).1.net, atRedis (zRun lib p (RService.new n ql now conns) (pre ++ post)).2) ∧
        (∀ b e, .fail b e ∈ ns → .net (.fail b e) ∈ pre ++ post) ∧ (GivesUpLate lib p (RService.new n ql now conns) (pre ++ post) → LateDrops conns now ns) by
    exact key steps [] ⟨[], rfl, by simp, by intro _ n1 id n2 h; simp at h⟩
  intro post
  induction post with
  | nil => intro pre h; simpa using h
  | cons x r ih =>
    intro pre ⟨ns, h1, h2, h3⟩
    have hinv := zinv_run lib p n ql now conns pre
    have hlate : GivesUpLate lib p (RService.new n ql now conns) (pre ++ [x]) → LateDrops conns now ns := by
      intro h
      refine h3 ?_
      intro s1 y s2 hs
      exact h s1 y (s2 ++ [x]) (by rw [hs]; simp)
    have hsame : ∀ (v' : RService) (ev : List ZEvent), v'.net = (zRun lib p (RService.new n ql now conns) pre).1.net → atRedis ev = [] →
        (zRun lib p (RService.new n ql now conns) (pre ++ [x])).1 = v' → (zRun lib p (RService.new n ql now conns) (pre ++ [x])).2 = (zRun lib p (RService.new n ql now conns) pre).2 ++ ev →
        ∃ ns, nRun (RNet.new conns now) ns = ((zRun lib p (RService.new n ql now conns) (pre ++ [x])).1.net, atRedis (zRun lib p (RService.new n ql now conns) (pre ++ [x])).2) ∧
          (∀ b e, .fail b e ∈ ns → .net (.fail b e) ∈ pre ++ [x]) ∧ (GivesUpLate lib p (RService.new n ql now conns) (pre ++ [x]) → LateDrops conns now ns) := by
      intro v' ev e1 e2 e3 e4
      exact ⟨ns, by rw [e3, e4, atRedis_append, e2, List.append_nil, e1]; exact h1, fun b e hm => List.mem_append_left _ (h2 b e hm), hlate⟩
    have hmore : ∀ (y : NStep) (v' : RService) (ev : List ZEvent), v'.net = (nStep (zRun lib p (RService.new n ql now conns) pre).1.net y).1 →
        atRedis ev = (nStep (zRun lib p (RService.new n ql now conns) pre).1.net y).2 →
        (∀ b e, y = .fail b e → x = .net (.fail b e)) →
        (∀ id, y = .drop id → id < (zRun lib p (RService.new n ql now conns) pre).1.net.sys.next ∧
          (x = .net (.drop id) ∨ ∃ i, x = .cancel i ∧ .asked i id ∈ (zRun lib p (RService.new n ql now conns) pre).2)) →
        (zRun lib p (RService.new n ql now conns) (pre ++ [x])).1 = v' → (zRun lib p (RService.new n ql now conns) (pre ++ [x])).2 = (zRun lib p (RService.new n ql now conns) pre).2 ++ ev →
        ∃ ns, nRun (RNet.new conns now) ns = ((zRun lib p (RService.new n ql now conns) (pre ++ [x])).1.net, atRedis (zRun lib p (RService.new n ql now conns) (pre ++ [x])).2) ∧
          (∀ b e, .fail b e ∈ ns → .net (.fail b e) ∈ pre ++ [x]) ∧ (GivesUpLate lib p (RService.new n ql now conns) (pre ++ [x]) → LateDrops conns now ns) := by
      intro y v' ev e1 e2 hf hd e3 e4
      refine ⟨ns ++ [y], ?_, ?_, ?_⟩
      · rw [nRun_append, h1, e3, e4, atRedis_append, e2, e1, nRun_one]
      · intro b e hm
        rcases List.mem_append.1 hm with hm | hm
        · exact List.mem_append_left _ (h2 b e hm)
        · simp only [List.mem_singleton] at hm
          rw [hf b e hm.symm]; simp
      · intro hg n1 id n2 hs
        rcases snoc_split hs with ⟨rfl, rfl, e⟩ | ⟨q', rfl, hs'⟩
        · obtain ⟨hlt, hx⟩ := hd id e
          rw [h1]
          refine ⟨hlt, ?_⟩
          intro a m hm hc
          obtain ⟨ans, ha⟩ := hg pre x [] rfl id hx a m (mem_atRedis.1 hm) hc
          exact ⟨ans, mem_atRedis.2 ha⟩
        · exact hlate hg n1 id q' hs'
    suffices hx : ∃ ns, nRun (RNet.new conns now) ns = ((zRun lib p (RService.new n ql now conns) (pre ++ [x])).1.net, atRedis (zRun lib p (RService.new n ql now conns) (pre ++ [x])).2) ∧
        (∀ b e, .fail b e ∈ ns → .net (.fail b e) ∈ pre ++ [x]) ∧ (GivesUpLate lib p (RService.new n ql now conns) (pre ++ [x]) → LateDrops conns now ns) by
      have := ih (pre ++ [x]) hx
      simpa using this
    have e3 : (zRun lib p (RService.new n ql now conns) (pre ++ [x])).1 = (zStep lib p (zRun lib p (RService.new n ql now conns) pre).1 x).1 := by
      rw [zRun_append]; simp [zRun]
    have e4 : (zRun lib p (RService.new n ql now conns) (pre ++ [x])).2 = (zRun lib p (RService.new n ql now conns) pre).2 ++ (zStep lib p (zRun lib p (RService.new n ql now conns) pre).1 x).2 := by
      rw [zRun_append]; simp [zRun]
    have mv := zStep_move lib p (zRun lib p (RService.new n ql now conns) pre).1 x
    generalize (zStep lib p (zRun lib p (RService.new n ql now conns) pre).1 x).1 = v' at *
    generalize (zStep lib p (zRun lib p (RService.new n ql now conns) pre).1 x).2 = ev at *
    cases mv with
    | idle => exact hsame _ _ rfl rfl e3 e4
    | sys st hd =>
      refine hsame _ _ ?_ (atCalls_map _).2 e3 e4
      rfl
    | net st hm =>
      refine hmore st _ _ rfl (atRedis_map _).1 (by rintro b e rfl; rfl) ?_ e3 e4
      rintro id rfl
      simp only [RService.othersMay, Bool.and_eq_true, decide_eq_true_eq] at hm
      exact ⟨hm.1, .inl rfl⟩
    | ask j c b m id hc hw hr hev =>
      refine hmore (.send b m) _ _ rfl ?_ (by simp) (by simp) e3 e4
      rw [hev]; simp [atRedis]
    | refused j c b m st hc hw hr hs hd hst =>
      refine hmore (.send b m) _ _ (by rw [hs]) ?_ (by simp) (by simp) e3 e4
      rw [hs]
      have := (atCalls_map (openStep lib p (zRun lib p (RService.new n ql now conns) pre).1.sys st).2).2
      simp only [atRedis, List.filterMap_cons] at this ⊢
      rw [this]
    | hear j c b m id st g hc hw hr hh =>
      refine hsame _ _ ?_ (atCalls_map _).2 e3 e4
      rfl
    | give j c id hc hl hpc hw =>
      refine hmore (.drop id) _ _ rfl ?_ (by simp) ?_ e3 e4
      · rw [(atCalls_map _).2]; rfl
      · intro id' e
        cases e
        obtain ⟨_, b, m, -, -, hsent, hasked⟩ := hinv.waiting j id hw
        obtain ⟨ns', hn'⟩ := hinv.net
        have := rids_net conns now ns'
        rw [hn'] at this
        exact ⟨this.below _ _ _ (mem_atActors.2 (mem_atRedis.2 hsent)), .inr ⟨j, rfl, hasked⟩⟩
    | cancel j c hc hw =>
      refine hsame _ _ ?_ (atCalls_map _).2 e3 e4
      rfl

/-! ### What the cache tells -/

theorem answer_config {v : VerifyCaptchaResult} {r : RResult} {ans : RAnswer} (h : RMsg.answer (.retrivePow v) r = .ret ans) :
    (∃ x, ReplyText r x ∧ ans = .config (.ok (some { key := v.key, difficultyFactor := x.difficultyFactor, duration := x.duration }))) ∨
    ∃ e, GaveError r e ∧ ans = .config (.error (.redisError e)) := by
  simp only [RMsg.answer, RedisClient.getChallenge] at h
  cases hb : r.bind RValue.readString with
  | error e =>
    simp only [hb, Exec.map, Exec.ret.injEq] at h
    exact .inr ⟨e, gaveError_iff.2 hb, h.symm⟩
  | ok s =>
    simp only [hb] at h
    cases hv : readVisitor s with
    | panic w => rw [hv] at h; cases h
    | ret x =>
      rw [hv] at h
      simp only [Exec.map, Exec.ret.injEq] at h
      exact .inl ⟨x, ⟨s, gaveText_iff.2 hb, (readVisitor_iff s x).1 hv⟩, h.symm⟩

theorem answer_visitor {id : String} {r : RResult} {ans : RAnswer} (h : RMsg.answer (.addVisitor id) r = .ret ans) :
    (∃ x, ReplyText r x ∧ ans = .visitor (.ok (some x))) ∨ ∃ e, GaveError r e ∧ ans = .visitor (.error (.redisError e)) := by
  simp only [RMsg.answer, RedisClient.addVisitor] at h
  cases hb : r.bind RValue.readString with
  | error e =>
    simp only [hb, Exec.map, Exec.ret.injEq] at h
    exact .inr ⟨e, gaveError_iff.2 hb, h.symm⟩
  | ok s =>
    simp only [hb] at h
    cases hv : readVisitor s with
    | panic w => rw [hv] at h; cases h
    | ret x =>
      rw [hv] at h
      simp only [Exec.map, Exec.ret.injEq] at h
      exact .inl ⟨x, ⟨s, gaveText_iff.2 hb, (readVisitor_iff s x).1 hv⟩, h.symm⟩

theorem answer_cachePow {c : CachePoW} {r : RResult} {ans : RAnswer} (h : RMsg.answer (.cachePow c) r = .ret ans) :
    (∃ x, r = .ok x ∧ ans = .unit (.ok ())) ∨ ∃ e, r = .error e ∧ ans = .unit (.error (.redisError e)) := by
  simp only [RMsg.answer, RedisClient.unitReply] at h
  cases r with
  | error e => cases h; exact .inr ⟨e, rfl, rfl⟩
  | ok x => cases h; exact .inl ⟨x, rfl, rfl⟩

theorem answer_cacheResult {c : CacheResult} {r : RResult} {ans : RAnswer} (h : RMsg.answer (.cacheResult c) r = .ret ans) :
    ∃ x, r = .ok x ∧ ans = .unit (.ok ()) := by
  simp only [RMsg.answer, RedisClient.addToken] at h
  cases r with
  | error e => cases h
  | ok x => cases h; exact ⟨x, rfl, rfl⟩

/-! ### Reading the log of the service -/

abbrev zLog (lib : PowLib) (p : Profile) (n ql now : Nat) (conns : List Nat) (steps : List ZStep) : List ZEvent :=
  (zRun lib p (RService.new n ql now conns) steps).2

theorem zlog_open {lib : PowLib} {p : Profile} {n ql now : Nat} {conns : List Nat} {steps : List ZStep} {pre post : List ZEvent} {e : OEvent}
    (h : zLog lib p n ql now conns steps = pre ++ .sys e :: post) :
    ∃ os, (openRun lib p (Sys.new n ql now) os).2 = atCalls pre ++ e :: atCalls post := by
  obtain ⟨os, ho⟩ := (zinv_run lib p n ql now conns steps).sys
  refine ⟨os, ?_⟩
  rw [ho]
  simp only
  rw [show (zRun lib p (RService.new n ql now conns) steps).2 = pre ++ .sys e :: post from h, atCalls_append]
  simp [atCalls]

/-- Why an event in a prefix of the log happened. -/
theorem zlog_why {lib : PowLib} {p : Profile} {n ql now : Nat} {conns : List Nat} {steps : List ZStep} {pre post : List ZEvent} {e : OEvent}
    (h : zLog lib p n ql now conns steps = pre ++ post) (he : e ∈ atCalls pre) : ZWhy pre (.sys e) := by
  obtain ⟨a, b, hab⟩ := List.append_of_mem (mem_atCalls.1 he)
  have := (zinv_run lib p n ql now conns steps).why a (.sys e) (b ++ post) (by
    rw [show (zRun lib p (RService.new n ql now conns) steps).2 = pre ++ post from h, hab]; simp)
  rw [hab]
  exact zwhy_mono _ this

/-- An answer in a prefix of the log: what the server replied, before, or a failure of the connection. -/
theorem zlog_answer {lib : PowLib} {p : Profile} {n ql now : Nat} {conns : List Nat} {steps : List ZStep} {pre post : List ZEvent}
    (h : zLog lib p n ql now conns steps = pre ++ post) {a id : Nat} {m : RMsg} {ans : RAnswer} (he : .net (.actor (.answered a id m ans)) ∈ pre) :
    (m.immediate = true ∧ ans = .unit (.ok ())) ∨ (∃ r t, .net (.served id m r t) ∈ pre ∧ m.answer r = .ret ans) ∨
    ∃ e, .net (.fail a e) ∈ steps ∧ m.answer (.error e) = .ret ans := by
  obtain ⟨ns, h1, h2, -⟩ := service_net lib p n ql now conns steps
  obtain ⟨x, y, hxy⟩ := List.append_of_mem he
  have hs : (nRun (RNet.new conns now) ns).2 = atRedis x ++ .actor (.answered a id m ans) :: (atRedis y ++ atRedis post) := by
    rw [h1]
    simp only
    rw [show (zRun lib p (RService.new n ql now conns) steps).2 = pre ++ post from h, hxy]
    simp [atRedis]
  rcases genuine_answer conns now ns hs with h3 | ⟨r, t, h3, h4⟩ | ⟨e, h3, h4⟩
  · exact .inl h3
  · exact .inr (.inl ⟨r, t, by rw [hxy]; exact List.mem_append_left _ (mem_atRedis.1 h3), h4⟩)
  · exact .inr (.inr ⟨e, h2 a e h3, h4⟩)

/-- Who sent a request is known. -/
theorem zlog_sent {lib : PowLib} {p : Profile} {n ql now : Nat} {conns : List Nat} {steps : List ZStep} {a b id : Nat} {m m' : RMsg}
    (h : .net (.actor (.sent a id m)) ∈ zLog lib p n ql now conns steps) (h' : .net (.actor (.sent b id m')) ∈ zLog lib p n ql now conns steps) : a = b ∧ m = m' := by
  obtain ⟨ns, hn⟩ := (zinv_run lib p n ql now conns steps).net
  have := rids_net conns now ns
  rw [hn] at this
  exact this.once _ _ _ _ _ (mem_atActors.2 (mem_atRedis.2 h)) (mem_atActors.2 (mem_atRedis.2 h'))

/-- Answers are given to requests sent before. -/
theorem answered_before (conns : List Nat) (now : Nat) (steps : List NStep) {a i : Nat} {m : RMsg} {ans : RAnswer} {lpre lpost : List NEvent}
    (h : (nRun (RNet.new conns now) steps).2 = lpre ++ .actor (.answered a i m ans) :: lpost) : .actor (.sent a i m) ∈ lpre := by
  obtain ⟨pre, x, post, e1, e2, rfl, rfl, h2⟩ := nRun_split _ _ h
  have hm : .actor (.answered a i m ans) ∈ (nStep (nRun (RNet.new conns now) pre).1 x).2 := by rw [h2]; simp
  have hp := prov_net conns now pre
  refine List.mem_append_left _ ?_
  rcases nStep_actors (nRun (RNet.new conns now) pre).1 x with ⟨-, h3⟩ | ⟨y, -, h3⟩
  · have := mem_atActors.2 hm
    rw [h3] at this
    cases this
  · have := mem_atActors.2 hm
    rw [h3] at this
    have mv := rStep_move (nRun (RNet.new conns now) pre).1.sys y
    generalize (rStep (nRun (RNet.new conns now) pre).1.sys y).2 = ev at this mv
    generalize (rStep (nRun (RNet.new conns now) pre).1.sys y).1 = s' at mv
    cases mv with
    | now b z j m' rest hx hb hi him =>
      simp only [List.mem_singleton, REvent.answered.injEq] at this
      obtain ⟨rfl, rfl, rfl, -⟩ := this
      exact mem_atActors.1 (hp.inbox _ z hx _ _ (by rw [hi]; exact .head _))
    | finish b z j m' r ans' hx hb ha =>
      simp only [List.mem_singleton, REvent.answered.injEq] at this
      obtain ⟨rfl, rfl, rfl, -⟩ := this
      exact mem_atActors.1 (hp.busy _ z hx _ _ hb).1
    | _ => simp at this

theorem answered_sent {lib : PowLib} {p : Profile} {n ql now : Nat} {conns : List Nat} {steps : List ZStep} {pre post : List ZEvent}
    (h : zLog lib p n ql now conns steps = pre ++ post) {a id : Nat} {m : RMsg} {ans : RAnswer} (he : .net (.actor (.answered a id m ans)) ∈ pre) :
    .net (.actor (.sent a id m)) ∈ pre := by
  obtain ⟨ns, h1⟩ := (zinv_run lib p n ql now conns steps).net
  obtain ⟨x, y, hxy⟩ := List.append_of_mem he
  have hs : (nRun (RNet.new conns now) ns).2 = atRedis x ++ .actor (.answered a id m ans) :: (atRedis y ++ atRedis post) := by
    rw [h1]
    simp only
    rw [show (zRun lib p (RService.new n ql now conns) steps).2 = pre ++ post from h, hxy]
    simp [atRedis]
  rw [hxy]
  exact List.mem_append_left _ (mem_atRedis.1 (answered_before conns now ns hs))

/-- A call is one function. -/
theorem zlog_call {lib : PowLib} {p : Profile} {n ql now : Nat} {conns : List Nat} {steps : List ZStep} {i : Nat} {a b : Api}
    (h : .sys (.api (.call i a)) ∈ zLog lib p n ql now conns steps)
    (h' : .sys (.api (.call i b)) ∈ zLog lib p n ql now conns steps ∨ ∃ r, .sys (.api (.ret i b r)) ∈ zLog lib p n ql now conns steps) : a = b := by
  obtain ⟨os, ho⟩ := (zinv_run lib p n ql now conns steps).sys
  have := open_made lib p n ql now os
  rw [ho] at this
  have h1 := (this.1 i a).1 (mem_atCalls.2 h)
  have h2 : (apis (zRun lib p (RService.new n ql now conns) steps).1.sys)[i]? = some b := by
    rcases h' with h' | ⟨r, h'⟩
    · exact (this.1 i b).1 (mem_atCalls.2 h')
    · exact this.2 i b r (mem_atCalls.2 h')
  rw [h1] at h2
  cases h2
  rfl

end MCap
