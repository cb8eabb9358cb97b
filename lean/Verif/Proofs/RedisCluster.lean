import Verif.Spec.RedisCluster
import Verif.Proofs.RedisActors

/-!
# Actors on a Redis cluster
-/

namespace MCap
open Spec

/-- On a cluster the actors do what they could do on a single server. -/
theorem kRun_single (steps : List RStep) (s : KSys) : ∃ steps', List.Sublist steps' steps ∧ (kRun s steps).1.sys = (rRun s.sys steps').1 ∧
    (kRun s steps).2 = (rRun s.sys steps').2 := by
  induction steps generalizing s with
  | nil => exact ⟨[], List.Sublist.refl _, rfl, rfl⟩
  | cons x r ih =>
    obtain ⟨l, h1, h2, h3⟩ := ih (kStep s x).1
    by_cases hm : s.may x
    · refine ⟨x :: l, h1.cons_cons x, ?_, ?_⟩
      · simp only [kRun, rRun, h2]
        simp only [kStep, hm, if_true]
      · simp only [kRun, rRun, h3]
        simp only [kStep, hm, if_true]
    · refine ⟨l, h1.cons x, ?_, ?_⟩
      · simp only [kRun, h2]
        simp only [kStep, hm, Bool.false_eq_true, if_false]
      · simp only [kRun, h3]
        simp only [kStep, hm, Bool.false_eq_true, if_false, List.nil_append]

/-- Between queries no actor is busy and no connection is borrowed; inside one, only its actor and connection are. -/
structure KQuiet (s : KSys) : Prop where
  busy : ∀ b x, s.sys.actors[b]? = some x → x.busy ≠ none → s.blocked = some b
  free : s.blocked = none → s.sys.borrowed = []
  held : ∀ a, s.blocked = some a → ∃ x i m, s.sys.actors[a]? = some x ∧ x.busy = some (i, m) ∧ s.sys.borrowed = [x.conn]

theorem kQuiet_new (conns : List Nat) : KQuiet (KSys.new conns) := by
  refine ⟨?_, fun _ => rfl, fun a h => by cases h⟩
  intro b x hx hb
  simp only [KSys.new, RSys.new, List.getElem?_map, Option.map_eq_some_iff] at hx
  obtain ⟨c, -, rfl⟩ := hx
  exact absurd rfl hb

/-- What a step does. -/
inductive KMove (s s' : KSys) : List REvent → Prop
  | out (evs : List REvent) (hb : s'.blocked = s.blocked) (he : ∀ e ∈ evs, (∃ a i m, e = .sent a i m) ∨ ∃ a m, e = .refused a m)
      (hk : ∀ (a : Nat) x i m, s.sys.actors[a]? = some x → x.busy = some (i, m) → ∃ y, s'.sys.actors[a]? = some y ∧ y.busy = some (i, m)) : KMove s s' evs
  | now (e : REvent) (hb : s.blocked = none) (hb' : s'.blocked = none)
      (he : (∃ a i m ans, e = .answered a i m ans) ∨ ∃ a i, e = .crashed a i .explicit) : KMove s s' [e]
  | start (a i : Nat) (m : RMsg) (x : RActor) (hb : s.blocked = none) (hb' : s'.blocked = some a) (hx : s'.sys.actors[a]? = some x)
      (hbusy : x.busy = some (i, m)) : KMove s s' [.started a i m.command]
  | finish (a i : Nat) (m : RMsg) (x : RActor) (e : REvent) (hb : s.blocked = some a) (hb' : s'.blocked = none) (hx : s.sys.actors[a]? = some x)
      (hbusy : x.busy = some (i, m)) (he : (∃ ans, e = .answered a i m ans) ∨ ∃ w, w ≠ .alreadyBorrowed ∧ e = .crashed a i w) : KMove s s' [e]

theorem kMove_skip (s : KSys) : KMove s s [] :=
  .out [] rfl (by simp) fun _ x _ _ h1 h2 => ⟨x, h1, h2⟩

theorem kStep_move {s : KSys} (h : KQuiet s) (st : RStep) : KQuiet (kStep s st).1 ∧ KMove s (kStep s st).1 (kStep s st).2 := by
  have skip : KQuiet s ∧ KMove s s [] := ⟨h, kMove_skip s⟩
  cases st with
  | send a m =>
    simp only [kStep, KSys.may, if_true, rStep]
    split
    · exact skip
    · rename_i x hx
      split
      · have hset : ∀ (b : Nat) (y : RActor), (s.sys.actors.set a { x with inbox := x.inbox ++ [(s.sys.next, m)] })[b]? = some y →
            ∃ z : RActor, s.sys.actors[b]? = some z ∧ z.busy = y.busy ∧ z.conn = y.conn := by
          intro b y hy
          rw [List.getElem?_set] at hy
          split at hy
          · rename_i hab
            subst hab
            split at hy
            · cases hy; exact ⟨x, hx, rfl, rfl⟩
            · cases hy
          · exact ⟨y, hy, rfl, rfl⟩
        have hset' : ∀ (b : Nat) (z : RActor), s.sys.actors[b]? = some z → ∃ y : RActor, (s.sys.actors.set a { x with inbox := x.inbox ++ [(s.sys.next, m)] })[b]? = some y ∧
            y.busy = z.busy ∧ y.conn = z.conn := by
          intro b z hz
          by_cases hab : a = b
          · subst hab
            rw [hx] at hz; cases hz
            exact ⟨{ x with inbox := x.inbox ++ [(s.sys.next, m)] }, List.getElem?_set_self (List.getElem?_eq_some_iff.1 hx).1, rfl, rfl⟩
          · exact ⟨z, by rw [List.getElem?_set_ne hab]; exact hz, rfl, rfl⟩
        refine ⟨⟨?_, h.free, ?_⟩, .out _ rfl (by simp) ?_⟩
        · intro b y hy hb
          obtain ⟨z, hz, h1, -⟩ := hset b y hy
          exact h.busy b z hz (by rw [h1]; exact hb)
        · intro b hb
          obtain ⟨z, i, m', hz, h1, h2⟩ := h.held b hb
          obtain ⟨y, hy, h3, h4⟩ := hset' b z hz
          exact ⟨y, i, m', hy, by rw [h3, h1], by rw [h4]; exact h2⟩
        · intro b z i m' hz h1
          obtain ⟨y, hy, h3, -⟩ := hset' b z hz
          exact ⟨y, hy, by rw [h3, h1]⟩
      · exact ⟨h, .out _ rfl (by simp) fun _ x _ _ h1 h2 => ⟨x, h1, h2⟩⟩
  | drop i => exact ⟨⟨h.busy, h.free, h.held⟩, .out _ rfl (by simp [kStep, KSys.may, rStep]) fun _ x _ _ h1 h2 => ⟨x, h1, h2⟩⟩
  | take a =>
    by_cases hm : s.blocked = none
    · have hmay : s.may (.take a) = true := by simp [KSys.may, hm]
      have idle : ∀ (b : Nat) (x : RActor), s.sys.actors[b]? = some x → x.busy = none := by
        intro b x hx
        cases hb : x.busy with
        | none => rfl
        | some y =>
          have := h.busy b x hx (by rw [hb]; simp)
          rw [hm] at this; cases this
      have hfree := h.free hm
      simp only [kStep, hmay, if_true]
      cases hx : s.sys.actors[a]? with
      | none =>
        have e : rStep s.sys (.take a) = (s.sys, []) := by simp [rStep, hx]
        have e2 : KSys.isBusy s.sys a = false := by simp [KSys.isBusy, hx]
        rw [e, e2]
        simp only [Bool.false_eq_true, if_false]
        rw [← hm]; exact skip
      | some x =>
        have hb := idle a x hx
        have hlt := (List.getElem?_eq_some_iff.1 hx).1
        cases hi : x.inbox with
        | nil =>
          have e : rStep s.sys (.take a) = (s.sys, []) := by simp [rStep, hx, hb, hi]
          have e2 : KSys.isBusy s.sys a = false := by simp [KSys.isBusy, hx, hb]
          rw [e, e2]
          simp only [Bool.false_eq_true, if_false]
          rw [← hm]; exact skip
        | cons y rest =>
          obtain ⟨i, m⟩ := y
          have e : rStep s.sys (.take a) = s.sys.onTake a x i m rest := by simp [rStep, hx, hb, hi]
          rw [e]
          have rest' : ∀ z : RActor, z.busy = none → KQuiet ⟨s.sys.setActor a z, none⟩ := by
            intro z hz
            refine ⟨?_, fun _ => hfree, fun b h => by cases h⟩
            intro b y hy hyb
            simp only [RSys.setActor, List.getElem?_set] at hy
            split at hy
            · cases hy; exact absurd hz hyb
            · exact absurd (idle b y hy) hyb
          have nb : ∀ z : RActor, z.busy = none → KSys.isBusy (s.sys.setActor a z) a = false := by
            intro z hz
            simp [KSys.isBusy, RSys.setActor, List.getElem?_set_self hlt, hz]
          unfold RSys.onTake
          split
          · simp only [nb _ (show (RSys.RActor.dead x).busy = none from rfl), Bool.false_eq_true, if_false]
            exact ⟨rest' _ rfl, .now _ hm rfl (.inr ⟨_, _, rfl⟩)⟩
          · split
            · simp only [nb _ (show ({ x with inbox := rest } : RActor).busy = none from hb), Bool.false_eq_true, if_false]
              exact ⟨rest' _ hb, .now _ hm rfl (.inl ⟨_, _, _, _, rfl⟩)⟩
            · rw [if_neg (by rw [hfree]; simp)]
              have hx' : ((({ s.sys with borrowed := x.conn :: s.sys.borrowed } : RSys).setActor a { x with inbox := rest, busy := some (i, m) }).actors)[a]? =
                  some { x with inbox := rest, busy := some (i, m) } := by
                simp [RSys.setActor, List.getElem?_set_self hlt]
              have e2 : KSys.isBusy (({ s.sys with borrowed := x.conn :: s.sys.borrowed } : RSys).setActor a { x with inbox := rest, busy := some (i, m) }) a = true := by
                rw [KSys.isBusy, hx']; rfl
              simp only [e2, if_true]
              refine ⟨⟨?_, fun h => (by cases h), ?_⟩, .start a i m _ hm rfl hx' rfl⟩
              · intro b y hy hyb
                by_cases hab : a = b
                · subst hab; rfl
                · simp only [RSys.setActor, List.getElem?_set_ne hab] at hy
                  exact absurd (idle b y hy) hyb
              · intro b hb'
                cases hb'
                exact ⟨_, i, m, hx', rfl, by simp [RSys.setActor, hfree]⟩
    · have hmay : s.may (.take a) = false := by
        cases hb : s.blocked with
        | none => exact absurd hb hm
        | some b => simp [KSys.may, hb]
      simp only [kStep, hmay, Bool.false_eq_true, if_false]
      exact skip
  | reply a r =>
    by_cases hm : s.blocked = some a
    · have hmay : s.may (.reply a r) = true := by simp [KSys.may, hm]
      simp only [kStep, hmay, if_true]
      obtain ⟨x, i, m, hx, hb, hbor⟩ := h.held a hm
      have e : rStep s.sys (.reply a r) = s.sys.onReply a x i m r := by simp [rStep, hx, hb]
      rw [e]
      have rest' : ∀ z : RActor, z.busy = none → KQuiet ⟨({ s.sys with borrowed := s.sys.borrowed.erase x.conn } : RSys).setActor a z, none⟩ := by
        intro z hz
        refine ⟨?_, fun _ => by simp [RSys.setActor, hbor], fun b h => by cases h⟩
        intro b y hy hyb
        simp only [RSys.setActor, List.getElem?_set] at hy
        split at hy
        · split at hy
          · cases hy; exact absurd hz hyb
          · cases hy
        · rename_i hab
          have := h.busy b y hy hyb
          rw [hm] at this; cases this; exact absurd rfl hab
      unfold RSys.onReply
      split
      · rename_i w hw
        refine ⟨rest' _ rfl, .finish a i m x _ hm rfl hx hb (.inr ⟨w, ?_, rfl⟩)⟩
        rcases answer_panic hw with rfl | rfl <;> simp
      · split
        · exact ⟨rest' _ rfl, .finish a i m x _ hm rfl hx hb (.inr ⟨_, by simp, rfl⟩)⟩
        · exact ⟨rest' _ rfl, .finish a i m x _ hm rfl hx hb (.inl ⟨_, rfl⟩)⟩
    · have hmay : s.may (.reply a r) = false := by
        simp [KSys.may, hm]
      simp only [kStep, hmay, Bool.false_eq_true, if_false]
      exact skip

theorem kQuiet_run (steps : List RStep) {s : KSys} (h : KQuiet s) : KQuiet (kRun s steps).1 := by
  induction steps generalizing s with
  | nil => exact h
  | cons x r ih => exact ih (kStep_move h x).1

theorem kNoBorrow (steps : List RStep) {s : KSys} (h : KQuiet s) (a i : Nat) : .crashed a i .alreadyBorrowed ∉ (kRun s steps).2 := by
  induction steps generalizing s with
  | nil => simp [kRun]
  | cons x r ih =>
    obtain ⟨h1, h2⟩ := kStep_move h x
    intro hm
    rcases List.mem_append.1 hm with hm | hm
    · generalize (kStep s x).2 = evs at h2 hm
      cases h2 with
      | out _ _ he _ =>
        rcases he _ hm with ⟨_, _, _, h⟩ | ⟨_, _, h⟩ <;> cases h
      | now e _ _ he =>
        rw [List.mem_singleton] at hm
        subst hm
        rcases he with ⟨_, _, _, _, h⟩ | ⟨_, _, h⟩ <;> cases h
      | start => simp at hm
      | finish a' i' m' x' e _ _ _ _ he =>
        rw [List.mem_singleton] at hm
        subst hm
        rcases he with ⟨_, h⟩ | ⟨w, hw, h⟩
        · cases h
        · cases h; exact hw rfl
    · exact ih h1 hm

/-- While `a` is inside `query` with `(i, m)`, the first thing any actor does is to end it. -/
theorem kHeld (steps : List RStep) {s : KSys} (h : KQuiet s) {a i : Nat} {m : RMsg} {x : RActor} (hb : s.blocked = some a)
    (hx : s.sys.actors[a]? = some x) (hbusy : x.busy = some (i, m)) {q : List REvent} {e : REvent} {r : List REvent}
    (hlog : (kRun s steps).2 = q ++ e :: r) (hq : ∀ e ∈ q, byActor e = false) (he : byActor e = true) :
    (∃ ans, e = .answered a i m ans) ∨ ∃ w, e = .crashed a i w := by
  induction steps generalizing s x q with
  | nil => simp [kRun] at hlog
  | cons st rest ih =>
    obtain ⟨h1, h2⟩ := kStep_move h st
    simp only [kRun] at hlog
    generalize hev : (kStep s st).2 = evs at h2 hlog
    cases h2 with
    | out _ hb' hout hk =>
      obtain ⟨y, hy, hyb⟩ := hk a x i m hx hbusy
      have hno : ∀ e ∈ evs, byActor e = false := by
        intro e he
        rcases hout e he with ⟨_, _, _, rfl⟩ | ⟨_, _, rfl⟩ <;> rfl
      rcases List.append_eq_append_iff.1 hlog with ⟨u, h3, h4⟩ | ⟨u, h3, h4⟩
      · exact ih h1 (by rw [hb', hb]) hy hyb h4 fun e he => hq e (by rw [h3]; exact List.mem_append_right _ he)
      · cases u with
        | nil => exact ih (q := []) h1 (by rw [hb', hb]) hy hyb h4.symm (by simp)
        | cons z u =>
          cases h4
          have := hno e (by rw [h3]; simp)
          rw [he] at this; cases this
    | now e' hbn => rw [hb] at hbn; cases hbn
    | start _ _ _ _ hbn => rw [hb] at hbn; cases hbn
    | finish a' i' m' x' e' hb1 _ hx1 hbusy1 he1 =>
      rw [hb] at hb1; cases hb1
      rw [hx] at hx1; cases hx1
      rw [hbusy] at hbusy1; cases hbusy1
      have hact : byActor e' = true := by
        rcases he1 with ⟨_, rfl⟩ | ⟨_, _, rfl⟩ <;> rfl
      cases q with
      | nil =>
        cases hlog
        rcases he1 with h | ⟨w, -, h⟩
        · exact .inl h
        · exact .inr ⟨w, h⟩
      | cons z q =>
        have hz := (List.cons.inj hlog).1
        subst hz
        have := hq e' (by simp)
        rw [hact] at this; cases this

theorem kUninterrupted (steps : List RStep) {s : KSys} (h : KQuiet s) {p : List REvent} {a i : Nat} {c : RCommand} {q : List REvent} {e : REvent}
    {r : List REvent} (hlog : (kRun s steps).2 = p ++ .started a i c :: (q ++ e :: r)) (hq : ∀ e ∈ q, byActor e = false) (he : byActor e = true) :
    (∃ m ans, e = .answered a i m ans) ∨ ∃ w, e = .crashed a i w := by
  induction steps generalizing s p with
  | nil => simp [kRun] at hlog
  | cons st rest ih =>
    obtain ⟨h1, h2⟩ := kStep_move h st
    simp only [kRun] at hlog
    rcases List.append_eq_append_iff.1 hlog with ⟨u, h3, h4⟩ | ⟨u, h3, h4⟩
    · exact ih h1 h4
    · cases u with
      | nil => exact ih (p := []) h1 h4.symm
      | cons z u =>
        obtain ⟨hz, hlog'⟩ := List.cons.inj h4
        subst hz
        generalize hev : (kStep s st).2 = evs at h2 h3
        cases h2 with
        | out _ _ hout _ =>
          rcases hout (.started a i c) (by rw [h3]; simp) with ⟨_, _, _, h⟩ | ⟨_, _, h⟩ <;> cases h
        | now e' _ _ he' =>
          rcases p with _ | ⟨z, p⟩
          · cases h3
            rcases he' with ⟨_, _, _, _, h⟩ | ⟨_, _, h⟩ <;> cases h
          · simp at h3
        | finish a' i' m' x' e' _ _ _ _ he' =>
          rcases p with _ | ⟨z, p⟩
          · cases h3
            rcases he' with ⟨_, h⟩ | ⟨_, _, h⟩ <;> cases h
          · simp at h3
        | start a' i' m' x' hb hb' hx hbusy =>
          rcases p with _ | ⟨z, p⟩
          · simp at h3
            obtain ⟨⟨rfl, rfl, rfl⟩, rfl⟩ := h3
            rcases kHeld rest h1 hb' hx hbusy (q := q) (e := e) (r := r) (by simpa using hlog'.symm) hq he with ⟨ans, h⟩ | h
            · exact .inl ⟨_, ans, h⟩
            · exact .inr h
          · simp at h3

theorem kRun_append (s : KSys) (a b : List RStep) :
    kRun s (a ++ b) = ((kRun (kRun s a).1 b).1, (kRun s a).2 ++ (kRun (kRun s a).1 b).2) := by
  induction a generalizing s with
  | nil => rfl
  | cons x r ih => simp only [List.cons_append, kRun, ih, List.append_assoc]

/-- Inside a query, its command is the last thing any actor has done. -/
theorem kInside (steps : List RStep) {s : KSys} (h : KQuiet s) (log : List REvent)
    (hlog : ∀ a x i m, s.blocked = some a → s.sys.actors[a]? = some x → x.busy = some (i, m) →
      ∃ p c q, log = p ++ .started a i c :: q ∧ ∀ e ∈ q, byActor e = false) :
    ∀ a x i m, (kRun s steps).1.blocked = some a → (kRun s steps).1.sys.actors[a]? = some x → x.busy = some (i, m) →
      ∃ p c q, log ++ (kRun s steps).2 = p ++ .started a i c :: q ∧ ∀ e ∈ q, byActor e = false := by
  induction steps generalizing s log with
  | nil => simpa [kRun] using hlog
  | cons st rest ih =>
    obtain ⟨h1, h2⟩ := kStep_move h st
    have := ih h1 (log ++ (kStep s st).2) ?_
    · simpa only [kRun, List.append_assoc] using this
    · intro a x i m hb hx hi
      generalize (kStep s st).2 = evs at h2
      cases h2 with
      | out _ hb' hout hk =>
        rw [hb] at hb'
        obtain ⟨y, j, n, hy, hyb, -⟩ := h.held a hb'.symm
        obtain ⟨z, hz, hzb⟩ := hk a y j n hy hyb
        rw [hx] at hz; cases hz
        rw [hi] at hzb; cases hzb
        obtain ⟨p, c, q, rfl, hq⟩ := hlog a y i m hb'.symm hy hyb
        refine ⟨p, c, q ++ evs, by simp, ?_⟩
        intro e he
        rcases List.mem_append.1 he with he | he
        · exact hq e he
        · rcases hout e he with ⟨_, _, _, rfl⟩ | ⟨_, _, rfl⟩ <;> rfl
      | now _ _ hb' => rw [hb] at hb'; cases hb'
      | start a' i' m' x' _ hb' hx' hbusy =>
        rw [hb] at hb'; cases hb'
        rw [hx] at hx'; cases hx'
        rw [hi] at hbusy; cases hbusy
        exact ⟨log, _, [], rfl, by simp⟩
      | finish _ _ _ _ _ _ hb' => rw [hb] at hb'; cases hb'

end MCap
