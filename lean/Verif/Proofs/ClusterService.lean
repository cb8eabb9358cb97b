import Verif.Spec.ClusterService
import Verif.Proofs.RedisSettle

/-!
# The service on a Redis cluster
-/

namespace MCap
open Spec

/-- On a cluster the service does what it could do on a single server. -/
theorem cRun_single (lib : PowLib) (p : Profile) (thread : Nat → Nat) (steps : List ZStep) (v : RService) :
    ∃ steps', List.Sublist steps' steps ∧ cRun lib p thread v steps = zRun lib p v steps' := by
  induction steps generalizing v with
  | nil => exact ⟨[], List.Sublist.refl _, rfl⟩
  | cons x r ih =>
    obtain ⟨l, h1, h2⟩ := ih (cStep lib p thread v x).1
    by_cases hm : v.threadMay thread x
    · refine ⟨x :: l, h1.cons_cons x, ?_⟩
      simp only [cRun, zRun, h2]
      simp only [cStep, hm, if_true]
    · refine ⟨l, h1.cons x, ?_⟩
      simp only [cRun, h2]
      simp only [cStep, hm, Bool.false_eq_true, if_false, List.nil_append]

theorem cRun_append (lib : PowLib) (p : Profile) (thread : Nat → Nat) (v : RService) (a b : List ZStep) :
    cRun lib p thread v (a ++ b) = ((cRun lib p thread (cRun lib p thread v a).1 b).1, (cRun lib p thread v a).2 ++ (cRun lib p thread (cRun lib p thread v a).1 b).2) := by
  induction a generalizing v with
  | nil => rfl
  | cons x r ih => simp only [List.cons_append, cRun, ih, List.append_assoc]

theorem threadFree_iff (thread : Nat → Nat) (v : RService) (a : Nat) :
    v.threadFree thread a = true ↔ ∀ b x, v.net.sys.actors[b]? = some x → thread b = thread a → x.busy = none := by
  simp only [RService.threadFree, List.all_eq_true, List.mem_range]
  constructor
  · intro h b x hx ht
    have := h b (List.getElem?_eq_some_iff.1 hx).1
    simpa [hx, ht] using this
  · intro h b hb
    rw [List.getElem?_eq_getElem hb]
    have := h b _ (List.getElem?_eq_getElem hb)
    by_cases ht : thread b = thread a
    · simp [this ht]
    · simp [ht]

/-! ### What the actors do, seen as the commands under way -/

/-- The request whose command actor `b` has under way. -/
def underWay (s : RSys) (b : Nat) : Option (Nat × RMsg) := (s.actors[b]?).bind RActor.busy

theorem underWay_set (s : RSys) (a b : Nat) (x y : RActor) (hx : s.actors[a]? = some x) :
    underWay (s.setActor a y) b = if a = b then y.busy else underWay s b := by
  simp only [underWay, getElem?_setActor s a b x y hx]
  split <;> rfl

/-- What a step is for the commands under way. -/
inductive BMove (s s' : RSys) : RStep → List REvent → Prop
  | out (st : RStep) (ev : List REvent) : (∀ e ∈ ev, byActor e = false) → underWay s' = underWay s → BMove s s' st ev
  | done (a : Nat) (e : REvent) : byActor e = true → actorOf e = a → (∀ i c, e ≠ .started a i c) → underWay s a = none → underWay s' = underWay s →
      BMove s s' (.take a) [e]
  | begin_ (a i : Nat) (m : RMsg) : underWay s a = none → (∀ b, underWay s' b = if a = b then some (i, m) else underWay s b) →
      BMove s s' (.take a) [.started a i m.command]
  | over (a i : Nat) (m : RMsg) (r : RResult) (e : REvent) : underWay s a = some (i, m) → (∀ b, underWay s' b = if a = b then none else underWay s b) →
      ((∃ ans, e = .answered a i m ans) ∨ ∃ w, w ≠ .alreadyBorrowed ∧ e = .crashed a i w) → BMove s s' (.reply a r) [e]

theorem rStep_bmove (s : RSys) (st : RStep) : BMove s (rStep s st).1 st (rStep s st).2 := by
  have keep : ∀ (t : RSys) (a : Nat) (x y : RActor), t.actors = s.actors → s.actors[a]? = some x → y.busy = x.busy →
      underWay (t.setActor a y) = underWay s := by
    intro t a x y ht hx hy
    funext b
    rw [underWay_set t a b x y (by rw [ht]; exact hx)]
    split
    · rename_i e; subst e; rw [hy]; simp [underWay, hx]
    · simp [underWay, ht]
  cases st with
  | send a m =>
    simp only [rStep]
    split
    · exact .out _ _ (by simp) rfl
    · rename_i x hx
      split
      · exact .out _ _ (by simp [byActor]) (keep _ a x _ rfl hx rfl)
      · exact .out _ _ (by simp [byActor]) rfl
  | drop i => exact .out _ _ (by simp [rStep]) rfl
  | take a =>
    simp only [rStep]
    split
    · exact .out _ _ (by simp) rfl
    · rename_i x hx
      split
      · rename_i i m rest hb hi
        have hu : underWay s a = none := by simp [underWay, hx, hb]
        unfold RSys.onTake
        split
        · exact .done a _ rfl rfl (by simp) hu (keep s a x _ rfl hx (by simp [RSys.RActor.dead, hb]))
        · split
          · exact .done a _ rfl rfl (by simp) hu (keep s a x _ rfl hx rfl)
          · split
            · exact .done a _ rfl rfl (by simp) hu (keep s a x _ rfl hx (by simp [RSys.RActor.dead, hb]))
            · refine .begin_ a i m hu fun b => ?_
              rw [underWay_set ({ s with borrowed := x.conn :: s.borrowed } : RSys) a b x _ hx]
              rfl
      · exact .out _ _ (by simp) rfl
  | reply a r =>
    simp only [rStep]
    split
    · exact .out _ _ (by simp) rfl
    · rename_i x hx
      split
      · rename_i i m hb
        have hu : underWay s a = some (i, m) := by simp [underWay, hx, hb]
        have hset : ∀ y : RActor, y.busy = none → ∀ b, underWay (({ s with borrowed := s.borrowed.erase x.conn } : RSys).setActor a y) b =
            if a = b then none else underWay s b := by
          intro y hy b
          rw [underWay_set ({ s with borrowed := s.borrowed.erase x.conn } : RSys) a b x _ hx, hy]
          rfl
        unfold RSys.onReply
        split
        · rename_i w hw
          refine .over a i m r _ hu (hset _ rfl) (.inr ⟨w, ?_, rfl⟩)
          rcases answer_panic hw with h | h <;> rw [h] <;> simp
        · rename_i ans _
          split
          · exact .over a i m r _ hu (hset _ rfl) (.inr ⟨_, by simp, rfl⟩)
          · exact .over a i m r _ hu (hset _ rfl) (.inl ⟨ans, rfl⟩)
      · exact .out _ _ (by simp) rfl

/-- What an actor does on a thread. -/
def actsOn (thread : Nat → Nat) (t : Nat) (l : List REvent) : List REvent := l.filter fun e => byActor e && thread (actorOf e) == t

/-- A thread runs one actor until it has its reply. -/
structure ThreadInv (thread : Nat → Nat) (s : RSys) (l : List REvent) : Prop where
  last : ∀ t a i c, (actsOn thread t l).getLast? = some (.started a i c) → thread a = t ∧ ∃ m, underWay s a = some (i, m)
  held : ∀ a i m, underWay s a = some (i, m) → (actsOn thread (thread a) l).getLast? = some (.started a i m.command)
  one : ∀ a b e f, underWay s a = some e → underWay s b = some f → thread a = thread b → a = b
  good : ∀ t p a i c e r, actsOn thread t l = p ++ .started a i c :: e :: r → (∃ m ans, e = .answered a i m ans) ∨ ∃ w, e = .crashed a i w

theorem threadInv_step {thread : Nat → Nat} {s s' : RSys} {l : List REvent} (h : ThreadInv thread s l) {st : RStep} {ev : List REvent}
    (m : BMove s s' st ev) (hg : ∀ a, st = .take a → ∀ b, thread b = thread a → underWay s b = none) : ThreadInv thread s' (l ++ ev) := by
  have happ : ∀ t, actsOn thread t (l ++ ev) = actsOn thread t l ++ actsOn thread t ev := fun t => by simp [actsOn]
  -- a log that grows by an event that may follow
  have grow : ∀ (t : Nat) (e : REvent), (∀ a i c, (actsOn thread t l).getLast? = some (.started a i c) → (∃ m ans, e = .answered a i m ans) ∨ ∃ w, e = .crashed a i w) →
      ∀ p a i c f r, actsOn thread t l ++ [e] = p ++ .started a i c :: f :: r → (∃ m ans, f = .answered a i m ans) ∨ ∃ w, f = .crashed a i w := by
    intro t e he p a i c f r hl
    rcases List.eq_nil_or_concat r with rfl | ⟨r', z, rfl⟩
    · have : actsOn thread t l = p ++ [.started a i c] ∧ e = f := by
        have : actsOn thread t l ++ [e] = (p ++ [.started a i c]) ++ [f] := by rw [hl]; simp
        have := List.append_inj' this rfl
        exact ⟨this.1, by simpa using this.2⟩
      rw [← this.2]
      exact he a i c (by rw [this.1]; simp)
    · have : actsOn thread t l = p ++ .started a i c :: f :: r' := by
        have : actsOn thread t l ++ [e] = (p ++ .started a i c :: f :: r') ++ [z] := by rw [hl]; simp
        exact (List.append_inj' this rfl).1
      exact h.good t p a i c f r' this
  cases m with
  | out _ _ hev hu =>
    have hnil : ∀ t, actsOn thread t ev = [] := by
      intro t
      simp only [actsOn, List.filter_eq_nil_iff]
      intro e he
      simp [hev e he]
    refine ⟨?_, ?_, ?_, ?_⟩
    · intro t a i c hl
      rw [happ, hnil, List.append_nil] at hl
      rw [hu]; exact h.last t a i c hl
    · intro a i m hb
      rw [hu] at hb
      rw [happ, hnil, List.append_nil]
      exact h.held a i m hb
    · rw [hu]; exact h.one
    · intro t p a i c e r hl
      rw [happ, hnil, List.append_nil] at hl
      exact h.good t p a i c e r hl
  | done a e hb ha hns hn hu =>
    have hact : ∀ t, actsOn thread t [e] = if thread a = t then [e] else [] := by
      intro t
      by_cases ht : thread a = t <;> simp [actsOn, hb, ha, ht]
    have hno : ∀ b i c, (actsOn thread (thread a) l).getLast? ≠ some (.started b i c) := by
      intro b i c hl
      obtain ⟨h1, m, h2⟩ := h.last _ b i c hl
      rw [hg a rfl b h1] at h2; cases h2
    refine ⟨?_, ?_, ?_, ?_⟩
    · intro t b i c hl
      rw [happ, hact] at hl
      split at hl
      · rw [List.getLast?_concat] at hl
        cases hl
        simp only [actorOf] at ha
        subst ha
        exact absurd rfl (hns i c)
      · rw [List.append_nil] at hl
        rw [hu]; exact h.last t b i c hl
    · intro b i m hb
      rw [hu] at hb
      rw [happ, hact, if_neg (fun e => by rw [hg a rfl b e.symm] at hb; cases hb), List.append_nil]
      exact h.held b i m hb
    · rw [hu]; exact h.one
    · intro t p b i c f r hl
      rw [happ, hact] at hl
      split at hl
      · rename_i ht
        subst ht
        exact grow _ e (fun b i c hl => absurd hl (hno b i c)) p b i c f r hl
      · rw [List.append_nil] at hl
        exact h.good t p b i c f r hl
  | begin_ a i m hn hu =>
    have hact : ∀ t, actsOn thread t [.started a i m.command] = if thread a = t then [.started a i m.command] else [] := by
      intro t
      by_cases ht : thread a = t <;> simp [actsOn, byActor, actorOf, ht]
    have hno : ∀ b i c, (actsOn thread (thread a) l).getLast? ≠ some (.started b i c) := by
      intro b i c hl
      obtain ⟨h1, m, h2⟩ := h.last _ b i c hl
      rw [hg a rfl b h1] at h2; cases h2
    refine ⟨?_, ?_, ?_, ?_⟩
    · intro t b j c hl
      rw [happ, hact] at hl
      split at hl
      · rename_i ht
        rw [List.getLast?_concat] at hl
        cases hl
        exact ⟨ht, m, by rw [hu, if_pos rfl]⟩
      · rename_i ht
        rw [List.append_nil] at hl
        obtain ⟨h1, m', h2⟩ := h.last t b j c hl
        refine ⟨h1, m', ?_⟩
        rw [hu, if_neg (by rintro rfl; exact ht h1)]
        exact h2
    · intro b j m' hb
      rw [hu] at hb
      split at hb
      · rename_i e
        subst e
        cases hb
        rw [happ, hact, if_pos rfl, List.getLast?_concat]
      · rw [happ, hact, if_neg (fun e => by rw [hg a rfl b e.symm] at hb; cases hb), List.append_nil]
        exact h.held b j m' hb
    · intro b d e f hb hd ht
      rw [hu] at hb hd
      split at hb
      · rename_i e1
        split at hd
        · rename_i e2; rw [← e1, ← e2]
        · subst e1
          rw [hg a rfl d ht.symm] at hd; cases hd
      · split at hd
        · rename_i e2
          subst e2
          rw [hg a rfl b ht] at hb; cases hb
        · exact h.one b d e f hb hd ht
    · intro t p b j c f r hl
      rw [happ, hact] at hl
      split at hl
      · rename_i ht
        subst ht
        exact grow _ _ (fun b i c hl => absurd hl (hno b i c)) p b j c f r hl
      · rw [List.append_nil] at hl
        exact h.good t p b j c f r hl
  | over a i m r e hua hu he =>
    have hb : byActor e = true ∧ actorOf e = a ∧ ∀ b j c, e ≠ .started b j c := by
      rcases he with ⟨ans, rfl⟩ | ⟨w, -, rfl⟩ <;> exact ⟨rfl, rfl, by simp⟩
    have hact : ∀ t, actsOn thread t [e] = if thread a = t then [e] else [] := by
      intro t
      by_cases ht : thread a = t <;> simp [actsOn, hb.1, hb.2.1, ht]
    refine ⟨?_, ?_, ?_, ?_⟩
    · intro t b j c hl
      rw [happ, hact] at hl
      split at hl
      · rw [List.getLast?_concat] at hl
        cases hl
        exact absurd rfl (hb.2.2 b j c)
      · rename_i ht
        rw [List.append_nil] at hl
        obtain ⟨h1, m', h2⟩ := h.last t b j c hl
        refine ⟨h1, m', ?_⟩
        rw [hu, if_neg (by rintro rfl; exact ht h1)]
        exact h2
    · intro b j m' hx
      rw [hu] at hx
      split at hx
      · cases hx
      · rename_i e
        rw [happ, hact, if_neg (fun ht => e (h.one a b _ _ hua hx ht)), List.append_nil]
        exact h.held b j m' hx
    · intro b d x y hx hy ht
      rw [hu] at hx hy
      split at hx
      · cases hx
      · split at hy
        · cases hy
        · exact h.one b d x y hx hy ht
    · intro t p b j c f r' hl
      rw [happ, hact] at hl
      split at hl
      · rename_i ht
        refine grow t e ?_ p b j c f r' hl
        intro b j c hl
        obtain ⟨h1, m', h2⟩ := h.last t b j c hl
        have : b = a := h.one b a _ _ h2 hua (by rw [h1, ht])
        subst this
        rw [hua] at h2
        cases h2
        rcases he with ⟨ans, rfl⟩ | ⟨w, -, rfl⟩
        · exact .inl ⟨m, ans, rfl⟩
        · exact .inr ⟨w, rfl⟩
      · rw [List.append_nil] at hl
        exact h.good t p b j c f r' hl

/-! ### The actors of the service -/

/-- The actors do nothing, or one step; if it is to take a message, then the step of the service is. -/
theorem zStep_actors (lib : PowLib) (p : Profile) (v : RService) (x : ZStep) :
    ((zStep lib p v x).1.net.sys = v.net.sys ∧ atActors (atRedis (zStep lib p v x).2) = []) ∨
    ∃ st, (zStep lib p v x).1.net.sys = (rStep v.net.sys st).1 ∧ atActors (atRedis (zStep lib p v x).2) = (rStep v.net.sys st).2 ∧
      ∀ a, st = .take a → x = .net (.take a) := by
  have hmap : ∀ ev : List REvent, atActors (atRedis ((ev.map NEvent.actor).map ZEvent.net)) = ev := by
    intro ev
    induction ev with
    | nil => rfl
    | cons e r ih => simpa [atActors, atRedis] using ih
  have hsys : ∀ ev : List OEvent, atActors (atRedis (ev.map ZEvent.sys)) = [] := by
    intro ev
    induction ev with
    | nil => rfl
    | cons e r ih => simp [atActors, atRedis]
  have hm := zStep_move lib p v x
  generalize (zStep lib p v x).1 = v' at *
  generalize (zStep lib p v x).2 = ev at *
  cases hm with
  | idle => exact .inl ⟨rfl, rfl⟩
  | sys st hd => exact .inl ⟨rfl, hsys _⟩
  | net st hd =>
    cases st with
    | send a m => exact .inr ⟨.send a m, rfl, hmap _, by simp⟩
    | take a => exact .inr ⟨.take a, rfl, hmap _, by rintro b h; cases h; rfl⟩
    | drop i => exact .inr ⟨.drop i, rfl, hmap _, by simp⟩
    | serve k r =>
      left
      simp only [nStep, RService.absorb]
      split <;> exact ⟨rfl, rfl⟩
    | deliver a k =>
      simp only [nStep, RService.absorb]
      split
      · rename_i i _ r y h1 h2
        by_cases hb : y.busy.map Prod.fst = some i
        · right
          rw [if_pos hb]
          exact ⟨.reply a r, rfl, hmap _, by simp⟩
        · left
          rw [if_neg hb]
          exact ⟨rfl, rfl⟩
      · exact .inl ⟨rfl, rfl⟩
    | fail a e => exact .inr ⟨.reply a (.error e), rfl, hmap _, by simp⟩
    | tick ms => exact .inl ⟨rfl, rfl⟩
  | ask i c a m id hc hw hr hev =>
    refine .inr ⟨.send a m, rfl, ?_, by simp⟩
    have : (nStep v.net (.send a m)).2 = (rStep v.net.sys (.send a m)).2.map .actor := rfl
    rw [hev] at this
    have h2 := congrArg (fun l => atActors l) this
    have h3 : atActors ((rStep v.net.sys (.send a m)).2.map .actor) = (rStep v.net.sys (.send a m)).2 := by
      generalize (rStep v.net.sys (.send a m)).2 = ev
      induction ev with
      | nil => rfl
      | cons e r ih => simpa [atActors] using ih
    simp only [h3] at h2
    rw [← h2]; rfl
  | refused i c a m st hc hw hr hs hd hst =>
    refine .inr ⟨.send a m, ?_, ?_, by simp⟩
    · have := congrArg (fun x => x.1.sys) hs
      exact this.symm
    · have h1 : (nStep v.net (.send a m)).2 = (rStep v.net.sys (.send a m)).2.map .actor := rfl
      rw [hs] at h1
      have h2 := congrArg (fun l => atActors l) h1
      have h3 : atActors ((rStep v.net.sys (.send a m)).2.map .actor) = (rStep v.net.sys (.send a m)).2 := by
        generalize (rStep v.net.sys (.send a m)).2 = ev
        induction ev with
        | nil => rfl
        | cons e r ih => simpa [atActors] using ih
      simp only [h3] at h2
      rw [← h2]
      simp [atActors, atRedis]
  | hear i c a m id st g hc hw hr hh => exact .inl ⟨rfl, hsys _⟩
  | give i c id hc hl hp hw => exact .inr ⟨.drop id, rfl, by rw [hsys]; rfl, by simp⟩
  | cancel i c hc hw => exact .inl ⟨rfl, hsys _⟩

/-- The same on a cluster, where an actor takes a message only if its thread is free. -/
theorem cStep_actors (lib : PowLib) (p : Profile) (thread : Nat → Nat) (v : RService) (x : ZStep) :
    ((cStep lib p thread v x).1.net.sys = v.net.sys ∧ atActors (atRedis (cStep lib p thread v x).2) = []) ∨
    ∃ st, (cStep lib p thread v x).1.net.sys = (rStep v.net.sys st).1 ∧ atActors (atRedis (cStep lib p thread v x).2) = (rStep v.net.sys st).2 ∧
      ∀ a, st = .take a → ∀ b, thread b = thread a → underWay v.net.sys b = none := by
  by_cases hm : v.threadMay thread x
  · simp only [cStep, hm, if_true]
    rcases zStep_actors lib p v x with h | ⟨st, h1, h2, h3⟩
    · exact .inl h
    · refine .inr ⟨st, h1, h2, ?_⟩
      intro a ha b ht
      rw [h3 a ha] at hm
      simp only [underWay]
      cases hx : v.net.sys.actors[b]? with
      | none => rfl
      | some y => exact (threadFree_iff thread v a).1 hm b y hx ht
  · simp only [cStep, hm]
    exact .inl ⟨rfl, rfl⟩

theorem threadInv_run (lib : PowLib) (p : Profile) (thread : Nat → Nat) (n ql now : Nat) (conns : List Nat) (steps : List ZStep) :
    ThreadInv thread (cRun lib p thread (RService.new n ql now conns) steps).1.net.sys (atActors (atRedis (cRun lib p thread (RService.new n ql now conns) steps).2)) := by
  suffices h : ∀ (later : List ZStep) (v : RService) (log : List ZEvent), ThreadInv thread v.net.sys (atActors (atRedis log)) →
      ThreadInv thread (cRun lib p thread v later).1.net.sys (atActors (atRedis (log ++ (cRun lib p thread v later).2))) by
    have := h steps (RService.new n ql now conns) [] ?_
    · simpa using this
    · have hu : ∀ a, underWay (RService.new n ql now conns).net.sys a = none := by
        intro a
        simp only [underWay, RService.new, RNet.new, RSys.new, List.getElem?_map]
        cases conns[a]? <;> rfl
      refine ⟨?_, ?_, ?_, ?_⟩
      · intro t a i c h; simp [actsOn, atActors, atRedis] at h
      · intro a i m h; rw [hu] at h; cases h
      · intro a b e f h; rw [hu] at h; cases h
      · intro t p a i c e r h; simp [actsOn, atActors, atRedis] at h
  intro later
  induction later with
  | nil => intro v log h; simpa [cRun] using h
  | cons x r ih =>
    intro v log h
    have h1 : ThreadInv thread (cStep lib p thread v x).1.net.sys (atActors (atRedis (log ++ (cStep lib p thread v x).2))) := by
      rw [atRedis_append, atActors_append]
      rcases cStep_actors lib p thread v x with ⟨e1, e2⟩ | ⟨st, e1, e2, hg⟩
      · rw [e1, e2, List.append_nil]; exact h
      · rw [e1, e2]
        exact threadInv_step h (rStep_bmove v.net.sys st) hg
    have := ih _ _ h1
    simpa only [cRun, List.append_assoc] using this

/-! ### No borrow panics -/

theorem connInv_service (lib : PowLib) (p : Profile) (n ql now : Nat) (conns : List Nat) (steps : List ZStep) :
    ConnInv conns (zState lib p n ql now conns steps).net.sys := by
  obtain ⟨ns, hn⟩ := (zinv_run lib p n ql now conns steps).net
  obtain ⟨ys, hy⟩ := (netInv_run conns now ns).reached
  have hconn := connInv_run conns ys
  rw [hy] at hconn
  rw [hn] at hconn
  exact hconn

theorem take_no_borrow {thread : Nat → Nat} {conns : List Nat} {s : RSys} (hc : ConnInv conns s) (ht : SharedOnThread thread conns) (st : RStep)
    (hg : ∀ a, st = .take a → ∀ b, thread b = thread a → underWay s b = none) (a i : Nat) : .crashed a i .alreadyBorrowed ∉ (rStep s st).2 := by
  intro hm
  cases st with
  | take b =>
    simp only [rStep] at hm
    split at hm
    · cases hm
    · rename_i x hx
      split at hm
      · unfold RSys.onTake at hm
        split at hm
        · simp at hm
        · split at hm
          · simp at hm
          · split at hm
            · rename_i hin
              obtain ⟨d, y, hy, he, hs⟩ := (hc.used _).1 hin
              have h1 := hc.own b
              have h2 := hc.own d
              rw [hx] at h1
              rw [hy] at h2
              simp only [Option.map_some] at h1 h2
              rw [he] at h2
              have := hg b rfl d (ht d b x.conn h2.symm h1.symm)
              simp only [underWay, hy, Option.bind_some] at this
              rw [this] at hs
              cases hs
            · simp at hm
      · cases hm
  | send b m => 
    simp only [rStep] at hm
    split at hm
    · cases hm
    · split at hm <;> simp at hm
  | drop j => simp [rStep] at hm
  | reply b r =>
    have h := rStep_bmove s (.reply b r)
    generalize (rStep s (.reply b r)).2 = ev at *
    generalize (rStep s (.reply b r)).1 = s' at *
    cases h with
    | out _ _ hev _ => exact absurd (hev _ hm) (by simp [byActor])
    | over _ _ _ _ e _ _ he =>
      simp at hm
      subst hm
      rcases he with ⟨ans, h⟩ | ⟨w, hw, h⟩
      · cases h
      · cases h; exact hw rfl

theorem c_noBorrow (lib : PowLib) (p : Profile) (thread : Nat → Nat) (n ql now : Nat) (conns : List Nat) (ht : SharedOnThread thread conns)
    (steps : List ZStep) (a i : Nat) :
    .crashed a i .alreadyBorrowed ∉ atActors (atRedis (cRun lib p thread (RService.new n ql now conns) steps).2) := by
  suffices h : ∀ (later done : List ZStep), .crashed a i .alreadyBorrowed ∉ atActors (atRedis (cRun lib p thread (RService.new n ql now conns) done).2) →
      .crashed a i .alreadyBorrowed ∉ atActors (atRedis (cRun lib p thread (RService.new n ql now conns) (done ++ later)).2) by
    have := h steps [] (by simp [cRun, atRedis, atActors])
    simpa using this
  intro later
  induction later with
  | nil => intro done h; simpa using h
  | cons x r ih =>
    intro done h
    have := ih (done ++ [x]) ?_
    · simpa using this
    · rw [cRun_append, atRedis_append, atActors_append]
      simp only [cRun, List.append_nil, List.mem_append, not_or]
      refine ⟨h, ?_⟩
      obtain ⟨s', -, hs⟩ := cRun_single lib p thread done (RService.new n ql now conns)
      have hc := connInv_service lib p n ql now conns s'
      rw [show zState lib p n ql now conns s' = (cRun lib p thread (RService.new n ql now conns) done).1 by rw [hs]] at hc
      rcases cStep_actors lib p thread (cRun lib p thread (RService.new n ql now conns) done).1 x with ⟨-, e2⟩ | ⟨st, -, e2, hg⟩
      · rw [e2]; simp
      · rw [e2]
        exact take_no_borrow hc ht st hg a i

/-! ### At rest -/

/-- What rests on a cluster would rest on a single server. -/
theorem quiescentC_single (lib : PowLib) (p : Profile) (thread : Nat → Nat) (n ql now : Nat) (conns : List Nat) (steps : List ZStep)
    (hq : QuiescentC lib p thread (zState lib p n ql now conns steps)) : QuiescentZ lib p (zState lib p n ql now conns steps) := by
  intro st hst
  by_cases hab : (zState lib p n ql now conns steps).sys.queue.status = .aborted
  · simp only [zStep, if_pos hab]
  have hfree : ∀ st, goesOnZ st = true → (zState lib p n ql now conns steps).threadMay thread st = true →
      (zStep lib p (zState lib p n ql now conns steps) st).1 = zState lib p n ql now conns steps := by
    intro st h1 h2
    have := hq st h1
    simpa only [cStep, h2, if_true] using this
  by_cases hm : (zState lib p n ql now conns steps).threadMay thread st = true
  · exact hfree st hst hm
  exfalso
  cases st with
  | net s =>
    cases s with
    | take a =>
      simp only [RService.threadMay, threadFree_iff, Classical.not_forall] at hm
      obtain ⟨b, x, hx, -, hb⟩ := hm
      obtain ⟨ns, hn⟩ := (zinv_run lib p n ql now conns steps).net
      have hbusy := busyInv_run conns now ns
      rw [hn] at hbusy
      have hnet : ∀ st, netGoes st = true → goesOnZ (.net st) = true → (zState lib p n ql now conns steps).othersMay st = true →
          (∀ a, st ≠ .take a) → (nStep (zState lib p n ql now conns steps).net st).2 = [] := by
        intro st h1 h2 h3 h4
        have := hfree (.net st) h2 (by cases st <;> first | rfl | exact absurd rfl (h4 _))
        simp only [zStep, if_neg hab, h3, if_true] at this
        rcases net_weight (zState lib p n ql now conns steps).net st h1 with h | h
        · rw [h]
        · have := congrArg (fun v : RService => netW v.net) this
          simp only [RService.absorb] at this
          omega
      cases hbx : x.busy with
      | none => exact hb hbx
      | some e =>
        obtain ⟨j, mj⟩ := e
        rcases hbusy b x hx j mj hbx with h | ⟨m'', r, h⟩
        · obtain ⟨k, hk⟩ := List.mem_iff_getElem?.1 h
          have := hnet (.serve k (.error "")) rfl rfl rfl (by simp)
          simp only [nStep] at this
          rw [show (zState lib p n ql now conns steps).net.wire[k]? = _ from hk] at this
          simp at this
        · obtain ⟨k, hk⟩ := List.mem_iff_getElem?.1 h
          have := hnet (.deliver b k) rfl rfl rfl (by simp)
          simp only [nStep] at this
          rw [show (zState lib p n ql now conns steps).net.replies[k]? = _ from hk, hx] at this
          simp only [hbx, Option.map_some, if_true, RNet.onActors, rStep, RSys.onReply, hx] at this
          split at this
          · simp at this
          · split at this <;> simp at this
    | _ => exact hm rfl
  | _ => exact hm rfl

theorem settlesC (lib : PowLib) (p : Profile) (thread : Nat → Nat) (n ql now : Nat) (conns : List Nat) (k : Nat) (done : List ZStep)
    (h : zW (cRun lib p thread (RService.new n ql now conns) done).1 ≤ k) :
    ∃ later, (∀ st ∈ later, goesOnZ st = true) ∧ QuiescentC lib p thread (cRun lib p thread (RService.new n ql now conns) (done ++ later)).1 := by
  have hw : ∀ done st, goesOnZ st = true → (cStep lib p thread (cRun lib p thread (RService.new n ql now conns) done).1 st).1 = (cRun lib p thread (RService.new n ql now conns) done).1 ∨
      zW (cStep lib p thread (cRun lib p thread (RService.new n ql now conns) done).1 st).1 < zW (cRun lib p thread (RService.new n ql now conns) done).1 := by
    intro done st hst
    obtain ⟨s', -, hs⟩ := cRun_single lib p thread done (RService.new n ql now conns)
    rw [hs]
    unfold cStep
    split
    · exact z_weight (zinv_run lib p n ql now conns s') (ansInv_run lib p n ql now conns s').timers st (alone_of_goes hst)
    · exact .inl rfl
  have hsnoc : ∀ done st, (cRun lib p thread (RService.new n ql now conns) (done ++ [st])).1 = (cStep lib p thread (cRun lib p thread (RService.new n ql now conns) done).1 st).1 := by
    intro done st
    rw [cRun_append]; rfl
  induction k generalizing done with
  | zero =>
    refine ⟨[], by simp, ?_⟩
    rw [List.append_nil]
    intro st hst
    rcases hw done st hst with hw | hw
    · exact hw
    · omega
  | succ k ih =>
    by_cases hq : QuiescentC lib p thread (cRun lib p thread (RService.new n ql now conns) done).1
    · exact ⟨[], by simp, by rw [List.append_nil]; exact hq⟩
    · obtain ⟨st, hst⟩ := Classical.not_forall.1 hq
      obtain ⟨hst, hne⟩ := Classical.not_imp.1 hst
      rcases hw done st hst with hw | hw
      · exact absurd hw hne
      · obtain ⟨later, h1, h2⟩ := ih (done ++ [st]) (by rw [hsnoc]; omega)
        refine ⟨st :: later, ?_, by simpa using h2⟩
        intro x hx
        rcases List.mem_cons.1 hx with rfl | hx
        · exact hst
        · exact h1 x hx

end MCap
