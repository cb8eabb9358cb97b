import Verif.Spec.RedisLost
import Verif.Proofs.RedisAsks
import Verif.Proofs.RedisCalm

/-!
# Requests of actors that died
-/

namespace MCap
open Spec

/-! ### The dead do nothing -/

/-- An actor that crashed is dead, with nothing left to do, and starts and answers nothing more. -/
structure CrashInv (s : RSys) (log : List REvent) : Prop where
  dead : ∀ a i w, .crashed a i w ∈ log → ∃ x, s.actors[a]? = some x ∧ x.alive = false ∧ x.inbox = [] ∧ x.busy = none
  after : ∀ pre e post, log = pre ++ e :: post → ∀ a i w, .crashed a i w ∈ pre → (∀ id c, e ≠ .started a id c) ∧ ∀ id m ans, e ≠ .answered a id m ans

theorem crashInv_one {s s' : RSys} {log : List REvent} (h : CrashInv s log) (e : REvent)
    (hd : ∀ a i w, .crashed a i w ∈ log ++ [e] → ∃ x, s'.actors[a]? = some x ∧ x.alive = false ∧ x.inbox = [] ∧ x.busy = none)
    (he : ∀ a i w, .crashed a i w ∈ log → (∀ id c, e ≠ .started a id c) ∧ ∀ id m ans, e ≠ .answered a id m ans) : CrashInv s' (log ++ [e]) := by
  refine ⟨hd, ?_⟩
  intro pre e' post hs
  rcases snoc_split hs with ⟨-, rfl, rfl⟩ | ⟨q, -, hs'⟩
  · exact he
  · exact h.after pre e' q hs'

theorem crashInv_move {s s' : RSys} {log ev : List REvent} (h : CrashInv s log) (m : RMove s s' ev) : CrashInv s' (log ++ ev) := by
  have hne : ∀ {a : Nat} {x : RActor}, s.actors[a]? = some x → (x.alive = true ∨ x.inbox ≠ [] ∨ x.busy ≠ none) → ∀ i w, .crashed a i w ∉ log := by
    intro a x hx hal i w hm
    obtain ⟨y, h1, h2, h3, h4⟩ := h.dead a i w hm
    rw [hx] at h1; cases h1
    rcases hal with hal | hal | hal
    · rw [h2] at hal; cases hal
    · exact hal h3
    · exact hal h4
  have hset : ∀ (t : RSys) (a : Nat) (x y : RActor) (e : REvent), t.actors = s.actors → s.actors[a]? = some x →
      (x.alive = true ∨ x.inbox ≠ [] ∨ x.busy ≠ none) →
      (∀ b i w, e = .crashed b i w → b = a ∧ y = RSys.RActor.dead x) →
      (∀ b id c, e = .started b id c → b = a) → (∀ b id m ans, e = .answered b id m ans → b = a) → CrashInv (t.setActor a y) (log ++ [e]) := by
    intro t a x y e ht hx hal hc h1 h2
    refine crashInv_one h e ?_ ?_
    · intro b i w hm
      rw [getElem?_setActor t a b x y (by rw [ht]; exact hx)]
      rcases List.mem_append.1 hm with hm | hm
      · rw [if_neg (by rintro rfl; exact hne hx hal i w hm), ht]
        exact h.dead b i w hm
      · obtain ⟨rfl, rfl⟩ := hc b i w (List.mem_singleton.1 hm).symm
        rw [if_pos rfl]
        exact ⟨_, rfl, rfl, rfl, rfl⟩
    · intro b i w hm
      refine ⟨?_, ?_⟩
      · rintro id c rfl
        obtain rfl := h1 _ _ _ rfl
        exact hne hx hal i w hm
      · rintro id m ans rfl
        obtain rfl := h2 _ _ _ _ rfl
        exact hne hx hal i w hm
  cases m with
  | quiet s' h1 h2 h3 =>
    rw [List.append_nil]
    exact ⟨by rw [h1]; exact h.dead, h.after⟩
  | refuse a m => exact crashInv_one h _ (by simpa using h.dead) (by simp)
  | post a x m hx hal => exact hset _ a x _ _ rfl hx (.inl hal) (by simp) (by simp) (by simp)
  | die a x i m rest w hx hb hi hw => exact hset s a x _ _ rfl hx (.inr (.inl (by rw [hi]; simp))) (fun _ _ _ h => by cases h; exact ⟨rfl, rfl⟩) (by simp) (by simp)
  | now a x i m rest hx hb hi him => exact hset s a x _ _ rfl hx (.inr (.inl (by rw [hi]; simp))) (by simp) (by simp) (fun _ _ _ _ h => by cases h; rfl)
  | start a x i m rest hx hb hi ht him hc => exact hset _ a x _ _ rfl hx (.inr (.inl (by rw [hi]; simp))) (by simp) (fun _ _ _ h => by cases h; rfl) (by simp)
  | fail a x i m r w hx hb hw => exact hset _ a x _ _ rfl hx (.inr (.inr (by rw [hb]; simp))) (fun _ _ _ h => by cases h; exact ⟨rfl, rfl⟩) (by simp) (by simp)
  | finish a x i m r ans hx hb ha => exact hset _ a x _ _ rfl hx (.inr (.inr (by rw [hb]; simp))) (by simp) (by simp) (fun _ _ _ _ h => by cases h; rfl)

theorem crash_net (conns : List Nat) (now : Nat) (steps : List NStep) :
    CrashInv (nRun (RNet.new conns now) steps).1.sys (atActors (nRun (RNet.new conns now) steps).2) := by
  obtain ⟨ys, hy⟩ := (netInv_run conns now steps).reached
  have := rRun_new_inv (P := CrashInv) (fun _ _ _ _ h m => crashInv_move h m) ys conns ⟨by simp, by simp⟩
  rwa [hy] at this

/-! ### What becomes of a request that was started -/

structure RunInv (s : RSys) (log : List REvent) : Prop where
  fresh : ∀ (a : Nat) (x : RActor), s.actors[a]? = some x → ∀ i m, (i, m) ∈ x.inbox → ∀ b c, .started b i c ∉ log
  started : ∀ a i c, .started a i c ∈ log →
    (∃ x m, s.actors[a]? = some x ∧ x.busy = some (i, m)) ∨ (∃ m ans, .answered a i m ans ∈ log) ∨ ∃ w, .crashed a i w ∈ log ∧ w ≠ .alreadyBorrowed
  borrowed : ∀ a i, .crashed a i .alreadyBorrowed ∈ log → ∀ b c, .started b i c ∉ log

theorem runInv_move {s s' : RSys} {log ev : List REvent} (hp : PendInv s log) (hc : CrashInv s log) (h : RunInv s log) (m : RMove s s' ev) :
    RunInv s' (log ++ ev) := by
  have hstart : ∀ {b i : Nat} {c : RCommand}, .started b i c ∈ log → ∃ m, .sent b i m ∈ log := fun hm =>
    (hp.prov.started _ _ _ hm).imp fun _ h => h.1
  -- one actor changes, and nothing starts
  have one : ∀ (a : Nat) (x y : RActor) (t : RSys) (e : REvent), t.actors = s.actors → s' = t.setActor a y → ev = [e] → s.actors[a]? = some x →
      (∀ b i c, e ≠ .started b i c) → (∀ i m, (i, m) ∈ y.inbox → (i, m) ∈ x.inbox ∨ i = s.next) →
      (∀ i m, x.busy = some (i, m) → y.busy = some (i, m) ∨ (∃ m ans, e = .answered a i m ans) ∨ ∃ w, e = .crashed a i w ∧ w ≠ .alreadyBorrowed) →
      (∀ b i, e = .crashed b i .alreadyBorrowed → ∃ m, (i, m) ∈ x.inbox) → RunInv s' (log ++ ev) := by
    intro a x y t e ht hs he hx hne hin hbusy hbor
    have hlog : ∀ {b i c}, .started b i c ∈ log ++ ev → .started b i c ∈ log := by
      intro b i c hm
      rcases List.mem_append.1 hm with hm | hm
      · exact hm
      · rw [he, List.mem_singleton] at hm
        exact absurd hm.symm (hne _ _ _)
    have hget : ∀ (b : Nat), s'.actors[b]? = if a = b then some y else s.actors[b]? := by
      intro b
      rw [hs, getElem?_setActor t a b x y (by rw [ht]; exact hx), ht]
    refine ⟨?_, ?_, ?_⟩
    · intro b z hz i m hm c d hst
      rw [hget] at hz
      split at hz
      · cases hz
        rcases hin i m hm with hm | rfl
        · exact h.fresh a x hx i m hm c d (hlog hst)
        · obtain ⟨m', hs'⟩ := hstart (hlog hst)
          exact absurd (hp.ids.below _ _ _ hs') (by omega)
      · exact h.fresh b z hz i m hm c d (hlog hst)
    · intro b i c hst
      rcases h.started b i c (hlog hst) with ⟨z, m, hz, hb⟩ | ⟨m, ans, ha⟩ | ⟨w, hw, hn⟩
      · by_cases hab : a = b
        · subst hab
          rw [hx] at hz; cases hz
          rcases hbusy i m hb with h1 | ⟨m', ans, rfl⟩ | ⟨w, rfl, hn⟩
          · exact .inl ⟨y, m, by rw [hget, if_pos rfl], h1⟩
          · exact .inr (.inl ⟨m', ans, by rw [he]; simp⟩)
          · exact .inr (.inr ⟨w, by rw [he]; simp, hn⟩)
        · exact .inl ⟨z, m, by rw [hget, if_neg hab]; exact hz, hb⟩
      · exact .inr (.inl ⟨m, ans, List.mem_append_left _ ha⟩)
      · exact .inr (.inr ⟨w, List.mem_append_left _ hw, hn⟩)
    · intro b i hm c d hst
      rcases List.mem_append.1 hm with hm | hm
      · exact h.borrowed b i hm c d (hlog hst)
      · rw [he, List.mem_singleton] at hm
        obtain ⟨m, hm⟩ := hbor b i hm.symm
        exact h.fresh a x hx i m hm c d (hlog hst)
  cases m with
  | quiet s' ha hb hn =>
    rw [List.append_nil]
    exact ⟨by rw [ha]; exact h.fresh, by rw [ha]; exact h.started, h.borrowed⟩
  | refuse a m =>
    refine ⟨?_, ?_, ?_⟩
    · intro b x hx i m' hm c d hst
      exact h.fresh b x hx i m' hm c d (by simpa using hst)
    · intro b i c hst
      rcases h.started b i c (by simpa using hst) with h | ⟨m, ans, ha⟩ | ⟨w, hw, hn⟩
      · exact .inl h
      · exact .inr (.inl ⟨m, ans, List.mem_append_left _ ha⟩)
      · exact .inr (.inr ⟨w, List.mem_append_left _ hw, hn⟩)
    · intro b i hm c d hst
      exact h.borrowed b i (by simpa using hm) c d (by simpa using hst)
  | post a x m hx hal =>
    refine one a x { x with inbox := x.inbox ++ [(s.next, m)] } { s with next := s.next + 1 } _ rfl rfl rfl hx (by simp) ?_ (fun _ _ h => .inl h) (by simp)
    intro i m' hm
    simp only [List.mem_append, List.mem_singleton, Prod.mk.injEq] at hm
    rcases hm with hm | ⟨rfl, -⟩
    · exact .inl hm
    · exact .inr rfl
  | die a x i m rest w hx hb hi hw =>
    refine one a x _ _ _ rfl rfl rfl hx (by simp) (by simp [RSys.RActor.dead]) (by simp [hb]) ?_
    intro b j e
    cases e
    exact ⟨m, by rw [hi]; simp⟩
  | now a x i m rest hx hb hi him =>
    exact one a x _ _ _ rfl rfl rfl hx (by simp) (fun j m' hm => .inl (by rw [hi]; exact List.mem_cons_of_mem _ hm)) (by simp [hb]) (by simp)
  | start a x i m rest hx hb hi ht him hcn =>
    have hsent := hp.prov.inbox a x hx i m (by rw [hi]; simp)
    have hget : ∀ (b : Nat), (({ s with borrowed := x.conn :: s.borrowed } : RSys).setActor a { x with inbox := rest, busy := some (i, m) }).actors[b]? =
        if a = b then some { x with inbox := rest, busy := some (i, m) } else s.actors[b]? :=
      fun b => getElem?_setActor ({ s with borrowed := x.conn :: s.borrowed } : RSys) a b x _ hx
    have hnd := hp.nodup a x hx
    simp only [RActor.pending, hb, hi, Option.toList_none, List.nil_append, List.map_cons, List.nodup_cons] at hnd
    refine ⟨?_, ?_, ?_⟩
    · intro b z hz j m' hm c d hst
      rw [hget] at hz
      rcases List.mem_append.1 hst with hst | hst
      · split at hz
        · cases hz
          exact h.fresh a x hx j m' (by rw [hi]; exact List.mem_cons_of_mem _ hm) c d hst
        · exact h.fresh b z hz j m' hm c d hst
      · simp only [List.mem_singleton, REvent.started.injEq] at hst
        obtain ⟨rfl, rfl, rfl⟩ := hst
        split at hz
        · cases hz
          exact hnd.1 (List.mem_map.2 ⟨_, hm, rfl⟩)
        · rename_i hab
          exact hab (hp.ids.once _ _ _ _ _ hsent (hp.prov.inbox b z hz _ m' hm)).1
    · intro b j c hst
      rcases List.mem_append.1 hst with hst | hst
      · rcases h.started b j c hst with ⟨z, m', hz, hbz⟩ | ⟨m', ans, ha⟩ | ⟨w, hw, hn⟩
        · refine .inl ⟨z, m', ?_, hbz⟩
          rw [hget]
          by_cases hab : a = b
          · subst hab
            rw [hx] at hz; cases hz
            rw [hb] at hbz; cases hbz
          · rw [if_neg hab]; exact hz
        · exact .inr (.inl ⟨m', ans, List.mem_append_left _ ha⟩)
        · exact .inr (.inr ⟨w, List.mem_append_left _ hw, hn⟩)
      · simp only [List.mem_singleton, REvent.started.injEq] at hst
        obtain ⟨rfl, rfl, rfl⟩ := hst
        exact .inl ⟨_, m, by rw [hget, if_pos rfl], rfl⟩
    · intro b j hm c d hst
      replace hm : .crashed b j .alreadyBorrowed ∈ log := by simpa using hm
      rcases List.mem_append.1 hst with hst | hst
      · exact h.borrowed b j hm c d hst
      · simp only [List.mem_singleton, REvent.started.injEq] at hst
        obtain ⟨rfl, rfl, rfl⟩ := hst
        obtain ⟨m', h1, -⟩ := hp.prov.crashed _ _ _ hm
        obtain ⟨rfl, -⟩ := hp.ids.once _ _ _ _ _ hsent h1
        obtain ⟨z, hz, -, hin, -⟩ := hc.dead _ _ _ hm
        rw [hx] at hz; cases hz
        rw [hi] at hin; cases hin
  | fail a x i m r w hx hb hw =>
    have hne : w ≠ .alreadyBorrowed := by
      rcases hw with hw | ⟨-, -, rfl⟩
      · rcases answer_panic hw with rfl | rfl <;> simp
      · simp
    refine one a x _ { s with borrowed := s.borrowed.erase x.conn } _ rfl rfl rfl hx (by simp) (by simp [RSys.RActor.dead]) ?_ ?_
    · intro j m' hj
      rw [hb] at hj; cases hj
      exact .inr (.inr ⟨w, rfl, hne⟩)
    · intro b j e
      cases e
      exact absurd rfl hne
  | finish a x i m r ans hx hb ha =>
    refine one a x _ { s with borrowed := s.borrowed.erase x.conn } _ rfl rfl rfl hx (by simp) (fun _ _ h => .inl h) ?_ (by simp)
    intro j m' hj
    rw [hb] at hj; cases hj
    exact .inr (.inl ⟨m, ans, rfl⟩)

theorem runInv_run (conns : List Nat) (steps : List RStep) : RunInv (rRun (RSys.new conns) steps).1 (rRun (RSys.new conns) steps).2 := by
  suffices h : ∀ (post pre : List RStep), RunInv (rRun (RSys.new conns) pre).1 (rRun (RSys.new conns) pre).2 →
      RunInv (rRun (RSys.new conns) (pre ++ post)).1 (rRun (RSys.new conns) (pre ++ post)).2 by
    have := h steps [] ⟨by simp [rRun], by simp [rRun], by simp [rRun]⟩
    simpa using this
  intro post
  induction post with
  | nil => intro pre h; simpa using h
  | cons y r ih =>
    intro pre h
    have hc := rRun_new_inv (P := CrashInv) (fun _ _ _ _ h m => crashInv_move h m) pre conns ⟨by simp, by simp⟩
    have := ih (pre ++ [y]) (by
      rw [rRun_append]
      simp only [rRun, List.append_nil]
      exact runInv_move (pendInv_run conns pre) hc h (rStep_move _ y))
    simpa using this

theorem run_net (conns : List Nat) (now : Nat) (steps : List NStep) :
    RunInv (nRun (RNet.new conns now) steps).1.sys (atActors (nRun (RNet.new conns now) steps).2) := by
  obtain ⟨ys, hy⟩ := (netInv_run conns now steps).reached
  have := runInv_run conns ys
  rwa [hy] at this

/-! ### Only what was started is carried out -/

/-- Commands on their way, and those carried out, were started. -/
structure SentInv (s : RNet) (log : List NEvent) : Prop where
  wire : ∀ e ∈ s.wire, ∃ a c, .actor (.started a e.1 c) ∈ log
  served : ∀ i m r t, .served i m r t ∈ log → ∃ a c, .actor (.started a i c) ∈ log

theorem take_started (s : RSys) (a : Nat) : ∀ e ∈ RNet.newCommand (rStep s (.take a)).1 a (rStep s (.take a)).2,
    ∃ b c, .started b e.1 c ∈ (rStep s (.take a)).2 := by
  intro e he
  cases hx : s.actors[a]? with
  | none => simp [rStep, hx, RNet.newCommand] at he
  | some x =>
    cases hb : x.busy with
    | some y => simp [rStep, hx, hb, RNet.newCommand] at he
    | none =>
      cases hi : x.inbox with
      | nil => simp [rStep, hx, hb, hi, RNet.newCommand] at he
      | cons y rest =>
        obtain ⟨i, m⟩ := y
        simp only [rStep, hx, hb, hi, RSys.onTake] at he ⊢
        by_cases h1 : m.todo = true
        · simp [h1, RNet.newCommand] at he
        · by_cases h2 : m.immediate = true
          · simp [h1, h2, RNet.newCommand] at he
          · by_cases h3 : x.conn ∈ s.borrowed
            · simp [h1, h2, h3, RNet.newCommand] at he
            · simp only [if_neg h1, if_neg h2, if_neg h3, RNet.newCommand] at he ⊢
              rw [getElem?_setActor ({ s with borrowed := x.conn :: s.borrowed } : RSys) a a x _ hx] at he
              simp at he
              subst he
              exact ⟨a, m.command, by simp⟩

theorem sentInv_step {s : RNet} {log : List NEvent} (h : SentInv s log) (x : NStep) :
    SentInv (nStep s x).1 (log ++ (nStep s x).2) := by
  have hkeep : ∀ {e : Nat × RMsg} (ev : List NEvent), e ∈ s.wire → ∃ a c, .actor (.started a e.1 c) ∈ log ++ ev := fun ev he =>
    let ⟨a, c, h⟩ := h.wire _ he
    ⟨a, c, List.mem_append_left _ h⟩
  have hserved : ∀ (ev : List REvent) i m r t, .served i m r t ∈ log ++ ev.map .actor → ∃ a c, .actor (.started a i c) ∈ log ++ ev.map .actor := by
    intro ev i m r t hm
    rcases List.mem_append.1 hm with hm | hm
    · obtain ⟨a, c, h⟩ := h.served i m r t hm
      exact ⟨a, c, List.mem_append_left _ h⟩
    · obtain ⟨_, -, e⟩ := List.mem_map.1 hm
      cases e
  cases x with
  | send a m => exact ⟨fun e he => hkeep _ he, hserved _⟩
  | drop a => exact ⟨fun e he => hkeep _ he, hserved _⟩
  | fail a e => exact ⟨fun e he => hkeep _ he, hserved _⟩
  | tick ms => simpa [nStep] using (⟨h.wire, h.served⟩ : SentInv { s with db := { s.db with now := s.db.now + ms } } log)
  | take a =>
    refine ⟨?_, hserved _⟩
    intro e he
    simp only [nStep, List.mem_append] at he
    rcases he with he | he
    · exact hkeep _ he
    · obtain ⟨b, c, hb⟩ := take_started s.sys a e he
      exact ⟨b, c, List.mem_append_right _ (List.mem_map_of_mem hb)⟩
  | serve k r =>
    simp only [nStep]
    split
    · simpa using h
    · rename_i i m hk
      have hw := h.wire _ (List.mem_of_getElem? hk)
      refine ⟨fun e he => hkeep _ (List.mem_of_mem_eraseIdx he), ?_⟩
      intro i' m' r' t hm
      rcases List.mem_append.1 hm with hm | hm
      · obtain ⟨a, c, h⟩ := h.served i' m' r' t hm
        exact ⟨a, c, List.mem_append_left _ h⟩
      · simp only [List.mem_singleton, NEvent.served.injEq] at hm
        obtain ⟨rfl, -⟩ := hm
        obtain ⟨a, c, h⟩ := hw
        exact ⟨a, c, List.mem_append_left _ h⟩
  | deliver a k =>
    simp only [nStep]
    split
    · split
      · exact ⟨fun e he => hkeep _ he, hserved _⟩
      · simpa using h
    · simpa using h

theorem sent_net (conns : List Nat) (now : Nat) (steps : List NStep) : SentInv (nRun (RNet.new conns now) steps).1 (nRun (RNet.new conns now) steps).2 := by
  simpa using nRun_inv (P := SentInv) (fun _ _ x h => sentInv_step h x) steps (RNet.new conns now) [] ⟨by simp [RNet.new], by simp⟩

/-! ### Requests whose handler has run -/

/-- The handler of request `id` has run. -/
def Begun (log : List ZEvent) (id : Nat) : Prop :=
  ∃ a, (∃ c, .net (.actor (.started a id c)) ∈ log) ∨ .net (.actor (.crashed a id .alreadyBorrowed)) ∈ log

theorem begun_ev {log ev : List ZEvent} (h1 : ∀ a id c, .net (.actor (.started a id c)) ∉ ev) (h2 : ∀ a id w, .net (.actor (.crashed a id w)) ∉ ev) (id : Nat) :
    Begun (log ++ ev) id ↔ Begun log id := by
  unfold Begun
  constructor
  · rintro ⟨a, ⟨c, h⟩ | h⟩
    · exact ⟨a, .inl ⟨c, (List.mem_append.1 h).resolve_right (h1 a id c)⟩⟩
    · exact ⟨a, .inr ((List.mem_append.1 h).resolve_right (h2 a id _))⟩
  · rintro ⟨a, ⟨c, h⟩ | h⟩
    · exact ⟨a, .inl ⟨c, List.mem_append_left _ h⟩⟩
    · exact ⟨a, .inr (List.mem_append_left _ h)⟩

theorem begun_move {lib : PowLib} {p : Profile} {v v' : RService} {x : ZStep} {log ev : List ZEvent} (h : ∀ id, id ∈ v.begun ↔ Begun log id)
    (m : ZMove lib p v x v' ev) : ∀ id, id ∈ v'.begun ↔ Begun (log ++ ev) id := by
  intro id
  cases m with
  | idle => rw [List.append_nil]; exact h id
  | sys st hd => rw [begun_ev (by simp) (by simp)]; exact h id
  | net st hd =>
    simp only [RService.absorb, List.mem_append, h id, List.mem_filterMap, Begun, List.mem_map]
    constructor
    · rintro (⟨a, ⟨c, h⟩ | h⟩ | ⟨e, he, hid⟩)
      · exact ⟨a, .inl ⟨c, .inl h⟩⟩
      · exact ⟨a, .inr (.inl h)⟩
      · split at hid
        · cases hid
          exact ⟨_, .inl ⟨_, .inr ⟨_, he, rfl⟩⟩⟩
        · cases hid
          exact ⟨_, .inr (.inr ⟨_, he, rfl⟩)⟩
        · cases hid
    · rintro ⟨a, ⟨c, h | ⟨e, he, hid⟩⟩ | h | ⟨e, he, hid⟩⟩
      · exact .inl ⟨a, .inl ⟨c, h⟩⟩
      · cases hid; exact .inr ⟨_, he, rfl⟩
      · exact .inl ⟨a, .inr h⟩
      · cases hid; exact .inr ⟨_, he, rfl⟩
  | ask i c a m id hc hw hr hev => rw [begun_ev (by simp) (by simp)]; exact h _
  | refused i c a m st hc hw hr hs hd hst => rw [begun_ev (by simp) (by simp)]; exact h _
  | hear i c a m id st g hc hw hr hh => rw [begun_ev (by simp) (by simp)]; exact h _
  | give i c id hc hl hp hw => rw [begun_ev (by simp) (by simp)]; exact h _
  | cancel i c hc hw => rw [begun_ev (by simp) (by simp)]; exact h _

theorem begun_run (lib : PowLib) (p : Profile) (n ql now : Nat) (conns : List Nat) (steps : List ZStep) (id : Nat) :
    id ∈ (zRun lib p (RService.new n ql now conns) steps).1.begun ↔ Begun (zRun lib p (RService.new n ql now conns) steps).2 id := by
  have := zRun_inv (lib := lib) (p := p) (P := fun v log => ∀ id, id ∈ v.begun ↔ Begun log id) (Q := fun _ => True)
    (fun _ _ _ _ _ _ h m => begun_move h m) steps (fun _ _ => trivial) (RService.new n ql now conns) [] (by simp [RService.new, Begun])
  simpa using this id

/-! ### Who waits has not gone -/

structure WaitInv (v : RService) : Prop where
  below : ∀ id ∈ v.net.sys.gone, id < v.net.sys.next
  there : ∀ i id, v.waiting.get i = some id → id ∉ v.net.sys.gone

theorem waitInv_move {lib : PowLib} {p : Profile} {n ql now : Nat} {conns : List Nat} {v v' : RService} {x : ZStep} {log ev : List ZEvent}
    (hz : ZInv lib p n ql now conns v log) (h : WaitInv v) (m : ZMove lib p v x v' ev) : WaitInv v' := by
  have hsame : ∀ {st : NStep}, (∀ i, st ≠ .drop i) → (nStep v.net st).1.sys.gone = v.net.sys.gone ∧ v.net.sys.next ≤ (nStep v.net st).1.sys.next := by
    intro st hst
    have := gone_nStep v.net st
    refine ⟨?_, this.2⟩
    rw [this.1]
    split
    · exact absurd rfl (hst _)
    · rfl
  cases m with
  | idle => exact h
  | sys st hd => exact ⟨h.below, h.there⟩
  | net st hd =>
    by_cases hst : ∃ i, st = .drop i
    · obtain ⟨id, rfl⟩ := hst
      simp only [RService.othersMay, Bool.and_eq_true, decide_eq_true_eq, Bool.not_eq_true', List.any_eq_false, beq_iff_eq] at hd
      have := gone_nStep v.net (.drop id)
      simp only at this
      refine ⟨?_, ?_⟩
      · intro j hj
        simp only [RService.absorb] at hj ⊢
        rw [this.1] at hj
        rcases List.mem_cons.1 hj with rfl | hj
        · exact Nat.lt_of_lt_of_le hd.1 this.2
        · exact Nat.lt_of_lt_of_le (h.below j hj) this.2
      · intro i j hw hj
        simp only [RService.absorb] at hw hj
        rw [this.1] at hj
        rcases List.mem_cons.1 hj with rfl | hj
        · exact hd.2 _ (AMap.mem_of_get hw) rfl
        · exact h.there i j hw hj
    · have := hsame (st := st) fun i e => hst ⟨i, e⟩
      refine ⟨?_, ?_⟩
      · intro j hj
        simp only [RService.absorb] at hj ⊢
        rw [this.1] at hj
        exact Nat.lt_of_lt_of_le (h.below j hj) this.2
      · intro i j hw hj
        simp only [RService.absorb] at hw hj
        rw [this.1] at hj
        exact h.there i j hw hj
  | ask i c a m id hc hw hr hev =>
    have := hsame (st := .send a m) (by simp)
    have hid : id = v.net.sys.next := by
      rcases send_cases v.net a m with h1 | h1 | ⟨h1, -⟩
      · rw [h1] at hev; cases hev
      · rw [h1] at hev; simp at hev; exact hev.symm
      · rw [h1] at hev; simp at hev
    refine ⟨?_, ?_⟩
    · intro j hj
      simp only at hj ⊢
      rw [this.1] at hj
      exact Nat.lt_of_lt_of_le (h.below j hj) this.2
    · intro k j hk hj
      simp only at hk hj
      rw [this.1] at hj
      rw [AMap.get_insert] at hk
      split at hk
      · cases hk
        have := h.below _ hj
        omega
      · exact h.there k j hk hj
  | refused i c a m st hc hw hr hs hd hst => exact ⟨h.below, h.there⟩
  | hear i c a m id st g hc hw hr hh =>
    refine ⟨h.below, ?_⟩
    intro k j hk
    simp only at hk
    rw [AMap.get_erase] at hk
    split at hk
    · cases hk
    · exact h.there k j hk
  | give i c id hc hl hp hw =>
    obtain ⟨-, a, m, -, -, hsent, hask⟩ := hz.waiting i id hw
    obtain ⟨ns, hn⟩ := hz.net
    have hids := rids_net conns now ns
    rw [hn] at hids
    have hlt := hids.below _ _ _ (mem_atActors.2 (mem_atRedis.2 hsent))
    have := gone_nStep v.net (.drop id)
    simp only at this
    refine ⟨?_, ?_⟩
    · intro j hj
      simp only at hj ⊢
      rw [this.1] at hj
      rcases List.mem_cons.1 hj with rfl | hj
      · exact Nat.lt_of_lt_of_le hlt this.2
      · exact Nat.lt_of_lt_of_le (h.below j hj) this.2
    · intro k j hk hj
      simp only at hk hj
      rw [this.1] at hj
      rw [AMap.get_erase] at hk
      split at hk
      · cases hk
      · rename_i hik
        rcases List.mem_cons.1 hj with rfl | hj
        · obtain ⟨-, -, -, -, -, -, hask'⟩ := hz.waiting k _ hk
          exact hik (hz.own i k _ hask hask')
        · exact h.there k j hk hj
  | cancel i c hc hw => exact ⟨h.below, h.there⟩

theorem waitInv_run (lib : PowLib) (p : Profile) (n ql now : Nat) (conns : List Nat) (steps : List ZStep) :
    WaitInv (zRun lib p (RService.new n ql now conns) steps).1 := by
  have := zRun_inv (lib := lib) (p := p) (P := fun v log => ZInv lib p n ql now conns v log ∧ WaitInv v) (Q := fun _ => True)
    (fun _ _ _ _ _ _ h m => ⟨zinv_move h.1 m, waitInv_move h.1 h.2 m⟩) steps (fun _ _ => trivial) (RService.new n ql now conns) []
    ⟨by simpa [zRun] using zinv_run lib p n ql now conns [], ⟨by simp [RService.new, RNet.new, RSys.new], by simp [RService.new]⟩⟩
  exact this.2

/-! ### Why the handler of a request came to no end -/

/-- Why a request whose handler ran was not answered: the connection was in use, and the command was not sent; or the reply of the server was
unbearable, or, when a token was stored, the connection failed. -/
def Cause (steps : List ZStep) (log : List ZEvent) (a : Nat) (m : RMsg) (id : Nat) : Prop :=
  (.net (.actor (.crashed a id .alreadyBorrowed)) ∈ log ∧ ∀ b c, .net (.actor (.started b id c)) ∉ log) ∨
  (.net (.actor (.started a id m.command)) ∈ log ∧
    ((∃ r t, .net (.served id m r t) ∈ log ∧ Unbearable m r) ∨ ∃ c e, m = .cacheResult c ∧ .net (.fail a e) ∈ steps))

theorem cause_mono {s1 s2 : List ZStep} {log : List ZEvent} {a : Nat} {m : RMsg} {id : Nat} (h : Cause s1 log a m id) (hs : ∀ x ∈ s1, x ∈ s2) :
    Cause s2 log a m id := by
  rcases h with h | ⟨h, h' | ⟨c, e, h1, h2⟩⟩
  · exact .inl h
  · exact .inr ⟨h, .inl h'⟩
  · exact .inr ⟨h, .inr ⟨c, e, h1, hs _ h2⟩⟩

theorem unbearable {m : RMsg} {r : RResult} {w : Panic} (h : m.answer r = .panic w) (ht : m.todo = false) : Unbearable m r := by
  have hunit : RedisClient.unitReply r ≠ .panic w := by unfold RedisClient.unitReply; split <;> intro h <;> cases h
  cases m with
  | cachePow => exact absurd (map_panic h) hunit
  | addSite => exact absurd (map_panic h) hunit
  | rename => exact absurd (map_panic h) hunit
  | removeCaptcha => exact absurd (map_panic h) hunit
  | retrivePow =>
    have h := map_panic h
    unfold RedisClient.getChallenge at h
    split at h
    · cases h
    · rename_i s hs
      have h := map_panic h
      obtain rfl := readVisitor_panic h
      exact ⟨s, gaveText_iff.2 hs, (readVisitor_panic_iff s).1 h⟩
  | addVisitor =>
    have h := map_panic h
    unfold RedisClient.addVisitor at h
    split at h
    · cases h
    · rename_i s hs
      have h := map_panic h
      obtain rfl := readVisitor_panic h
      exact ⟨s, gaveText_iff.2 hs, (readVisitor_panic_iff s).1 h⟩
  | cacheResult =>
    have h := map_panic h
    unfold RedisClient.addToken at h
    split at h
    · exact ⟨_, rfl⟩
    · cases h
  | verify =>
    have h := map_panic h
    unfold RedisClient.getToken at h
    split at h <;> cases h
  | deletePow => cases h
  | deleteResult => cases h
  | getInternalData => cases ht
  | setInternalData => cases ht

theorem gone_kept (steps : List NStep) : ∀ (s : RNet), ∀ i ∈ s.sys.gone, i ∈ (nRun s steps).1.sys.gone := by
  induction steps with
  | nil => exact fun _ _ hi => hi
  | cons y r ih =>
    intro s i hi
    simp only [nRun]
    apply ih
    rw [(gone_nStep s y).1]
    split
    · exact List.mem_cons_of_mem _ hi
    · exact hi

theorem why_crashed (lib : PowLib) (p : Profile) (n ql now : Nat) (conns : List Nat) (steps : List ZStep) {i id a : Nat} {m : RMsg}
    (hw : (zRun lib p (RService.new n ql now conns) steps).1.waiting.get i = some id)
    (hsent : .net (.actor (.sent a id m)) ∈ (zRun lib p (RService.new n ql now conns) steps).2)
    (hdead : ∃ j w, .net (.actor (.crashed a j w)) ∈ (zRun lib p (RService.new n ql now conns) steps).2)
    (hans : ∀ b m' ans, .net (.actor (.answered b id m' ans)) ∉ (zRun lib p (RService.new n ql now conns) steps).2)
    (hb : Begun (zRun lib p (RService.new n ql now conns) steps).2 id) : Cause steps (zRun lib p (RService.new n ql now conns) steps).2 a m id := by
  obtain ⟨ns, hn, hfail, -⟩ := service_net lib p n ql now conns steps
  have hg := waitInv_run lib p n ql now conns steps
  have hrun := run_net conns now ns
  have hcr := crash_net conns now ns
  have hids := rids_net conns now ns
  have hprov := prov_net conns now ns
  have hgen := fun {a i w} => genuine_crash conns now ns (a := a) (i := i) (w := w)
  have hgone : ∀ pre post, ns = pre ++ post → ∀ i ∈ (nRun (RNet.new conns now) pre).1.sys.gone, i ∈ (nRun (RNet.new conns now) ns).1.sys.gone := by
    rintro pre post rfl i hi
    rw [nRun_append]
    exact gone_kept post _ i hi
  rw [hn] at hrun hcr hids hprov hgen hgone
  simp only at hrun hcr hids hprov hgen hgone
  generalize (zRun lib p (RService.new n ql now conns) steps).1 = v at *
  generalize (zRun lib p (RService.new n ql now conns) steps).2 = log at *
  have hin : ∀ {e}, .net (.actor e) ∈ log ↔ e ∈ atActors (atRedis log) := fun {e} => ⟨fun h => mem_atActors.2 (mem_atRedis.2 h), fun h => mem_atRedis.1 (mem_atActors.1 h)⟩
  obtain ⟨b, ⟨c, hs⟩ | hs⟩ := hb
  · obtain ⟨m', h1, rfl, -, htodo⟩ := hprov.started _ _ _ (hin.1 hs)
    obtain ⟨rfl, rfl⟩ := hids.once _ _ _ _ _ h1 (hin.1 hsent)
    refine .inr ⟨hs, ?_⟩
    rcases hrun.started _ _ _ (hin.1 hs) with ⟨x, m'', hx, hbusy⟩ | ⟨m'', ans, ha⟩ | ⟨w, hw', hne⟩
    · obtain ⟨j, w, hd⟩ := hdead
      obtain ⟨y, hy, -, -, hnone⟩ := hcr.dead _ _ _ (hin.1 hd)
      rw [hx] at hy; cases hy
      rw [hbusy] at hnone; cases hnone
    · exact absurd (hin.2 ha) (hans _ _ _)
    · obtain ⟨m'', h2, hcase⟩ := hgen (mem_atActors.1 hw')
      obtain ⟨-, rfl⟩ := hids.once _ _ _ _ _ h1 (mem_atActors.2 h2)
      rcases hcase with ht | hbor | ⟨r, t, hs, ha⟩ | ⟨e, hf, ha⟩ | ⟨-, pre, post, x, hpp, hgo, -⟩
      · rw [htodo] at ht; cases ht
      · exact absurd hbor hne
      · exact .inl ⟨r, t, mem_atRedis.1 hs, unbearable ha htodo⟩
      · refine .inr ?_
        have := unbearable ha htodo
        cases m' with
        | cacheResult c => exact ⟨c, e, rfl, hfail _ _ hf⟩
        | retrivePow => obtain ⟨s, h, -⟩ := this; cases gaveText_iff.1 h
        | addVisitor => obtain ⟨s, h, -⟩ := this; cases gaveText_iff.1 h
        | _ => cases this
      · exact absurd (hgone pre post hpp _ hgo) (hg.there i _ hw)
  · obtain ⟨m', h1, -⟩ := hprov.crashed _ _ _ (hin.1 hs)
    obtain ⟨rfl, rfl⟩ := hids.once _ _ _ _ _ h1 (hin.1 hsent)
    exact .inl ⟨hs, fun b c h => hrun.borrowed _ _ (hin.1 hs) b c (hin.1 h)⟩

/-! ### What a call hears of a dead actor -/

/-- A request `m` of call `i` to actor `a`, which died with it, without an answer; `begun` tells whether the handler had run. -/
structure Died (steps : List ZStep) (q : List ZEvent) (i a : Nat) (m : RMsg) (id : Nat) (begun : Bool) : Prop where
  asked : .asked i id ∈ q
  sent : .net (.actor (.sent a id m)) ∈ q
  crashed : ∃ j w, .net (.actor (.crashed a j w)) ∈ q
  unanswered : ∀ b m' ans, .net (.actor (.answered b id m' ans)) ∉ q
  begun : if begun then Cause steps q a m id else ¬ Begun q id

theorem heard_died {lib : PowLib} {p : Profile} {n ql now : Nat} {conns : List Nat} {v : RService} {log : List ZEvent} (h : ZInv lib p n ql now conns v log)
    (ha : AnsInv v log) (hb : ∀ id, id ∈ v.begun ↔ Begun log id) {steps : List ZStep}
    (hwhy : ∀ {i id a : Nat} {m : RMsg}, v.waiting.get i = some id → .net (.actor (.sent a id m)) ∈ log → (∃ j w, .net (.actor (.crashed a j w)) ∈ log) →
      (∀ b m' ans, .net (.actor (.answered b id m' ans)) ∉ log) → Begun log id → Cause steps log a m id)
    {i id a : Nat} {c : Call} {m : RMsg} {g : Rng} {st : OStep}
    (hc : v.sys.calls[i]? = some c) (hw : v.waiting.get i = some id)
    (hr : RService.request c = some (a, m)) (hh : v.heard i a id g = some st) :
    (∃ ans, .net (.actor (.answered a id m ans)) ∈ log ∧
      ((a = 0 ∧ ∃ x, ans.toCache = some x ∧ st = .cache i x) ∨ (a = 1 ∧ ∃ y, st = .sys (.master i (.reply y) g)))) ∨
    ∃ b, Died steps log i a m id b ∧
      ((a = 0 ∧ st = .cache i (.error (if b then .recvError else .mailboxError))) ∨
       (a = 1 ∧ st = .sys (.master i (if b then .recvError else .mailboxError) g))) := by
  obtain ⟨ns, hn⟩ := h.net
  have hids := rids_net conns now ns
  have hprov := prov_net conns now ns
  rw [hn] at hids hprov
  obtain ⟨c', a', m', hc', hr', hsent, hask⟩ := h.waiting i id hw
  rw [hc] at hc'; cases hc'
  rw [hr] at hr'; cases hr'
  unfold RService.heard at hh
  split at hh
  · rename_i id' m' ans hf
    have hid := List.find?_some hf
    simp only [beq_iff_eq] at hid
    subst hid
    obtain ⟨a', ha'⟩ := h.answers _ (List.mem_of_find?_eq_some hf)
    simp only at ha'
    have hs' := (hprov.answered _ _ _ _ (mem_atActors.2 (mem_atRedis.2 ha'))).1
    obtain ⟨rfl, rfl⟩ := hids.once _ _ _ _ _ hs' (mem_atActors.2 (mem_atRedis.2 hsent))
    refine .inl ⟨ans, ha', ?_⟩
    split at hh
    · rename_i h0
      subst h0
      simp only [Option.map_eq_some_iff] at hh
      obtain ⟨x, h1, rfl⟩ := hh
      exact .inl ⟨rfl, x, h1, rfl⟩
    · rename_i h0
      have h1 : a' = 1 := (request_two hr).resolve_left h0
      subst h1
      simp only [Option.map_eq_some_iff] at hh
      obtain ⟨x, h1, rfl⟩ := hh
      cases ans <;> simp [RAnswer.toMaster] at h1
      exact .inr ⟨rfl, _, by rw [← h1]⟩
  · rename_i hf
    split at hh
    · rename_i hd
      have hna : ∀ b m' ans, .net (.actor (.answered b id m' ans)) ∉ log := by
        intro b m' ans hm
        obtain ⟨e, he, hid⟩ := ha.there i id hw b m' ans hm
        have := List.find?_eq_none.1 hf e he
        simp [hid] at this
      refine .inr ⟨decide (id ∈ v.begun), ⟨hask, hsent, zdead h hd, hna, ?_⟩, ?_⟩
      · by_cases hx : id ∈ v.begun
        · simpa [hx] using hwhy hw hsent (zdead h hd) hna ((hb id).1 hx)
        · simpa [hx] using fun h => hx ((hb id).2 h)
      · simp only [Option.some.injEq] at hh
        split at hh
        · rename_i h0
          subst h0 hh
          refine .inl ⟨rfl, ?_⟩
          unfold RService.lost
          by_cases hx : id ∈ v.begun <;> simp [hx]
        · rename_i h0
          have h1 : a = 1 := (request_two hr).resolve_left h0
          subst h1 hh
          refine .inr ⟨rfl, ?_⟩
          unfold RService.lostMaster
          by_cases hx : id ∈ v.begun <;> simp [hx]
    · cases hh

/-- Where a request to the cache failed. -/
theorem failed_at {lib : PowLib} {p : Profile} {n ql now : Nat} {conns : List Nat} {steps : List ZStep} {q r : List ZEvent} {i : Nat} {cm : CacheMsg}
    {e : CaptchaError} (hlog : zLog lib p n ql now conns steps = q ++ .sys (.failed i cm e) :: r) :
    (∃ id ans, .net (.actor (.answered 0 id cm.toRedis ans)) ∈ q ∧ ans.toCache = some (.error e)) ∨
    (e = .mailboxError ∧ ∃ q', q = q' ++ [.net (.actor (.refused 0 cm.toRedis))] ∧
      ∀ id, .asked i id ∈ q' → ∃ b m', .net (.actor (.sent b id m')) ∈ q' ∧ ¬ SameKind cm.toRedis m') ∨
    ∃ id b, Died steps q i 0 cm.toRedis id b ∧ e = if b then .recvError else .mailboxError := by
  obtain ⟨s1, x, s2, e1, e2, rfl, rfl, hev⟩ := zRun_split lib p _ _ hlog
  have hz := zinv_run lib p n ql now conns s1
  have ha := ansInv_run lib p n ql now conns s1
  have hb := begun_run lib p n ql now conns s1
  have hk := askInv_run lib p n ql now conns s1
  rw [show zLog lib p n ql now conns s1 = (zRun lib p (RService.new n ql now conns) s1).2 from rfl] at hk
  have hwhy := fun {i id a : Nat} {m : RMsg} h1 h2 h3 h4 h5 =>
    cause_mono (why_crashed lib p n ql now conns s1 (i := i) (id := id) (a := a) (m := m) h1 h2 h3 h4 h5)
      (show ∀ y ∈ s1, y ∈ s1 ++ x :: s2 from fun _ h => List.mem_append_left _ h)
  have hm := zStep_move lib p (zRun lib p (RService.new n ql now conns) s1).1 x
  generalize (zRun lib p (RService.new n ql now conns) s1).1 = v at *
  generalize (zRun lib p (RService.new n ql now conns) s1).2 = log at *
  generalize (zStep lib p v x).1 = v' at *
  generalize (zStep lib p v x).2 = ev at *
  have hin : .sys (.failed i cm e) ∈ ev := by rw [hev]; simp
  have hplain : ∀ {l : List SEvent}, .sys (.failed i cm e) ∉ (l.map OEvent.api).map ZEvent.sys := by
    intro l h
    simp at h
  -- hearing an answer or an error of the cache
  have hcache : ∀ {c : Call} {m : RMsg} {y : CaptchaResult CacheReply} {j : Nat}, v.sys.calls[j]? = some c → RService.request c = some (0, m) →
      ∀ f1 f2, (openStep lib p v.sys (.cache j y)).2.map ZEvent.sys = f1 ++ .sys (.failed i cm e) :: f2 → j = i ∧ m = cm.toRedis ∧ y = .error e ∧ f1 = [] := by
    intro c m y j hc hr f1 f2 hf
    obtain ⟨cm', k, rfl, hpc, -⟩ := request_cache hr
    rcases (hearing_step lib p v.sys j y).2 with h0 | ⟨c', cm2, k', hc', hpc', -, ⟨r, rfl, h1⟩ | ⟨e', rfl, h1⟩⟩
    · rw [h0] at hf; simp at hf
    · rw [h1] at hf
      cases f1 with
      | nil => simp at hf
      | cons a f1 => simp at hf
    · rw [hc] at hc'; cases hc'
      rw [hpc] at hpc'; cases hpc'
      rw [h1] at hf
      cases f1 with
      | nil => simp at hf; obtain ⟨⟨rfl, rfl, rfl⟩, -⟩ := hf; exact ⟨rfl, rfl, rfl, rfl⟩
      | cons a f1 =>
        cases f1 with
        | nil => simp at hf
        | cons b f1 => simp at hf
  have hmaster : ∀ {y : MasterAnswer} {j : Nat} {g : Rng}, .sys (.failed i cm e) ∉ (openStep lib p v.sys (.sys (.master j y g))).2.map ZEvent.sys := by
    intro y j g
    simp only [openStep, SStep.noCache, if_true]
    exact hplain
  cases hm with
  | idle => cases hin
  | sys st hd =>
    simp only [openStep, noCache_of_direct hd, if_true] at hin
    exact absurd hin hplain
  | net st hd => simp at hin
  | ask j c a m id hc hw hr hs => simp at hin
  | refused j c a m st hc hw hr hs hd hst =>
    rcases request_two hr with rfl | rfl
    · simp only [if_true] at hst
      subst hst
      cases e1 with
      | nil => simp at hev
      | cons y e1 =>
        simp only [List.cons_append, List.cons.injEq] at hev
        obtain ⟨rfl, hev⟩ := hev
        obtain ⟨rfl, rfl, h3, rfl⟩ := hcache hc hr e1 e2 hev
        cases h3
        exact .inr (.inl ⟨rfl, _, rfl, ask_new hz hk hc hw hr⟩)
    · simp only [show ¬ (1 = 0) by omega, if_false] at hst
      subst hst
      simp only [List.mem_cons, reduceCtorEq, false_or] at hin
      exact absurd hin hmaster
  | hear j c a m id st g hc hw hr hh =>
    rcases heard_died hz ha hb hwhy hc hw hr hh with ⟨ans, h1, ⟨rfl, y, h2, rfl⟩ | ⟨rfl, y, rfl⟩⟩ | ⟨b, h1, ⟨rfl, rfl⟩ | ⟨rfl, rfl⟩⟩
    · obtain ⟨rfl, rfl, rfl, rfl⟩ := hcache hc hr e1 e2 hev
      exact .inl ⟨id, ans, List.mem_append_left _ h1, h2⟩
    · exact absurd hin hmaster
    · obtain ⟨rfl, rfl, h3, rfl⟩ := hcache hc hr e1 e2 hev
      rw [List.append_nil]
      exact .inr (.inr ⟨id, b, h1, by cases h3; rfl⟩)
    · exact absurd hin hmaster
  | give j c id hc hl hp hw => exact absurd hin hplain
  | cancel j c hc hw => exact absurd hin hplain

/-- Where a request to the master failed. -/
theorem master_at {lib : PowLib} {p : Profile} {n ql now : Nat} {conns : List Nat} {steps : List ZStep} {q r : List ZEvent} {i : Nat}
    {y : MasterAnswer} (hlog : zLog lib p n ql now conns steps = q ++ .sys (.api (.master i y)) :: r) (hy : ∀ x, y ≠ .reply x) :
    ∃ site, .sys (.api (.call i (.get site))) ∈ q ∧
    ((y = .mailboxError ∧ ∃ q', q = q' ++ [.net (.actor (.refused 1 (.addVisitor site)))] ∧
      ∀ id, .asked i id ∈ q' → ∃ b m', .net (.actor (.sent b id m')) ∈ q' ∧ ¬ SameKind (.addVisitor site) m') ∨
     ∃ id b, Died steps q i 1 (.addVisitor site) id b ∧ y = if b then .recvError else .mailboxError) := by
  obtain ⟨s1, x, s2, e1, e2, rfl, rfl, hev⟩ := zRun_split lib p _ _ hlog
  have hz := zinv_run lib p n ql now conns s1
  have ha := ansInv_run lib p n ql now conns s1
  have hb := begun_run lib p n ql now conns s1
  have hk := askInv_run lib p n ql now conns s1
  rw [show zLog lib p n ql now conns s1 = (zRun lib p (RService.new n ql now conns) s1).2 from rfl] at hk
  have hwhy := fun {i id a : Nat} {m : RMsg} h1 h2 h3 h4 h5 =>
    cause_mono (why_crashed lib p n ql now conns s1 (i := i) (id := id) (a := a) (m := m) h1 h2 h3 h4 h5)
      (show ∀ y ∈ s1, y ∈ s1 ++ x :: s2 from fun _ h => List.mem_append_left _ h)
  have hm := zStep_move lib p (zRun lib p (RService.new n ql now conns) s1).1 x
  generalize (zRun lib p (RService.new n ql now conns) s1).1 = v at *
  generalize (zRun lib p (RService.new n ql now conns) s1).2 = log at *
  generalize (zStep lib p v x).1 = v' at *
  generalize (zStep lib p v x).2 = ev at *
  have hin : .sys (.api (.master i y)) ∈ ev := by rw [hev]; simp
  have hplain : ∀ {l : List SEvent}, l.all plain = true → .sys (.api (.master i y)) ∉ (l.map OEvent.api).map ZEvent.sys := by
    intro l hl h
    simp only [List.map_map, List.mem_map, Function.comp] at h
    obtain ⟨z, hz, e⟩ := h
    cases e
    have := List.all_eq_true.1 hl _ hz
    cases this
  have hcache : ∀ {z : CaptchaResult CacheReply} {j : Nat}, .sys (.api (.master i y)) ∉ (openStep lib p v.sys (.cache j z)).2.map ZEvent.sys := by
    intro z j
    rcases (hearing_step lib p v.sys j z).2 with h0 | ⟨c', cm2, k', -, -, -, ⟨r, rfl, h1⟩ | ⟨e', rfl, h1⟩⟩
    · rw [h0]; simp
    · rw [h1]; simp
    · rw [h1]; simp
  -- hearing an answer or an error of the master
  have hmaster : ∀ {c : Call} {m : RMsg} {z : MasterAnswer} {j : Nat} {g : Rng}, v.sys.calls[j]? = some c → RService.request c = some (1, m) →
      ∀ f1 f2, (openStep lib p v.sys (.sys (.master j z g))).2.map ZEvent.sys = f1 ++ .sys (.api (.master i y)) :: f2 →
      j = i ∧ z = y ∧ f1 = [] ∧ ∃ site, m = .addVisitor site ∧ .sys (.api (.call i (.get site))) ∈ log := by
    intro c m z j g hc hr f1 f2 hf
    obtain ⟨site, rfl, hapi, -, -⟩ := request_master hr
    have hcall := (zcall hz.sys hc).1
    rw [hapi] at hcall
    simp only [openStep, SStep.noCache, if_true] at hf
    rcases (master_step lib p v.sys j z g).2 with h0 | ⟨ev, h1, hpl⟩
    · rw [h0] at hf; simp at hf
    · rw [h1] at hf
      cases f1 with
      | nil =>
        simp only [List.map_cons, List.nil_append, List.cons.injEq] at hf
        cases hf.1
        exact ⟨rfl, rfl, rfl, site, rfl, mem_atCalls.1 hcall⟩
      | cons a f1 =>
        simp only [List.map_cons, List.cons_append, List.cons.injEq] at hf
        exact absurd (by rw [hf.2]; simp) (hplain hpl)
  cases hm with
  | idle => cases hin
  | sys st hd =>
    simp only [openStep, noCache_of_direct hd, if_true] at hin
    exact absurd hin (hplain (direct_step lib p v.sys st hd).1)
  | net st hd => simp at hin
  | ask j c a m id hc hw hr hs => simp at hin
  | refused j c a m st hc hw hr hs hd hst =>
    rcases request_two hr with rfl | rfl
    · simp only [if_true] at hst
      subst hst
      simp only [List.mem_cons, reduceCtorEq, false_or] at hin
      exact absurd hin hcache
    · simp only [show ¬ (1 = 0) by omega, if_false] at hst
      subst hst
      cases e1 with
      | nil => simp at hev
      | cons z e1 =>
        simp only [List.cons_append, List.cons.injEq] at hev
        obtain ⟨rfl, hev⟩ := hev
        obtain ⟨rfl, rfl, rfl, site, rfl, hcall⟩ := hmaster hc hr e1 e2 hev
        exact ⟨site, List.mem_append_left _ hcall, .inl ⟨rfl, _, rfl, ask_new hz hk hc hw hr⟩⟩
  | hear j c a m id st g hc hw hr hh =>
    rcases heard_died hz ha hb hwhy hc hw hr hh with ⟨ans, h1, ⟨rfl, z, h2, rfl⟩ | ⟨rfl, z, rfl⟩⟩ | ⟨b, h1, ⟨rfl, rfl⟩ | ⟨rfl, rfl⟩⟩
    · exact absurd hin hcache
    · obtain ⟨rfl, rfl, -⟩ := hmaster hc hr e1 e2 hev
      exact absurd rfl (hy _)
    · exact absurd hin hcache
    · obtain ⟨rfl, rfl, rfl, site, rfl, hcall⟩ := hmaster hc hr e1 e2 hev
      rw [List.append_nil]
      exact ⟨site, hcall, .inr ⟨id, b, h1, rfl⟩⟩
  | give j c id hc hl hp hw =>
    exact absurd hin (hplain (cancel_step lib p v.sys j).1)
  | cancel j c hc hw => exact absurd hin (hplain (cancel_step lib p v.sys j).1)

/-! ### Afterwards -/

theorem died_after {lib : PowLib} {p : Profile} {n ql now : Nat} {conns : List Nat} {steps : List ZStep} {q r : List ZEvent}
    (hlog : zLog lib p n ql now conns steps = q ++ r) {i a id : Nat} {m : RMsg} {b : Bool} (h : Died steps q i a m id b) :
    (∀ b m' ans, .net (.actor (.answered b id m' ans)) ∉ zLog lib p n ql now conns steps) ∧
    ((∀ b c, .net (.actor (.started b id c)) ∉ q) → NothingDone (zLog lib p n ql now conns steps) id) := by
  obtain ⟨ns, hn⟩ := (zinv_run lib p n ql now conns steps).net
  have hids := rids_net conns now ns
  have hprov := prov_net conns now ns
  have hcr := crash_net conns now ns
  have hst := sent_net conns now ns
  rw [hn] at hids hprov hcr hst
  simp only at hids hprov hcr hst
  rw [show (zRun lib p (RService.new n ql now conns) steps).2 = zLog lib p n ql now conns steps from rfl] at hids hprov hcr hst
  obtain ⟨j, w, hcrash⟩ := h.crashed
  have hin : ∀ e, e ∈ zLog lib p n ql now conns steps → e ∈ q ∨ e ∈ r := fun e he => by rw [hlog] at he; exact List.mem_append.1 he
  have hsent : .sent a id m ∈ atActors (atRedis (zLog lib p n ql now conns steps)) :=
    mem_atActors.2 (mem_atRedis.2 (by rw [hlog]; exact List.mem_append_left _ h.sent))
  -- what comes after the crash does not start or answer
  have hr : ∀ e, .net (.actor e) ∈ r → (∀ id c, e ≠ .started a id c) ∧ ∀ id m ans, e ≠ .answered a id m ans := by
    intro e he
    obtain ⟨r1, r2, rfl⟩ := List.append_of_mem he
    refine hcr.after (atActors (atRedis (q ++ r1))) e (atActors (atRedis r2)) ?_ a j w (mem_atActors.2 (mem_atRedis.2 (List.mem_append_left _ hcrash)))
    rw [hlog]
    simp [atRedis, atActors]
  have hans : ∀ b m' ans, .net (.actor (.answered b id m' ans)) ∉ zLog lib p n ql now conns steps := by
    intro b m' ans hm
    rcases hin _ hm with hq | hq
    · exact h.unanswered b m' ans hq
    · obtain ⟨rfl, -⟩ := hids.once _ _ _ _ _ (hprov.answered _ _ _ _ (mem_atActors.2 (mem_atRedis.2 hm))).1 hsent
      exact (hr _ hq).2 _ _ _ rfl
  refine ⟨hans, ?_⟩
  intro hnot
  have hs : ∀ b c, .net (.actor (.started b id c)) ∉ zLog lib p n ql now conns steps := by
    intro b c hm
    rcases hin _ hm with hq | hq
    · exact hnot b c hq
    · obtain ⟨m', h1, -⟩ := hprov.started _ _ _ (mem_atActors.2 (mem_atRedis.2 hm))
      obtain ⟨rfl, -⟩ := hids.once _ _ _ _ _ h1 hsent
      exact (hr _ hq).1 _ _ rfl
  refine ⟨hs, ?_, hans⟩
  intro m' r' t hm
  obtain ⟨b, c, h1⟩ := hst.served id m' r' t (mem_atRedis.2 hm)
  exact hs b c (mem_atRedis.1 h1)

end MCap
