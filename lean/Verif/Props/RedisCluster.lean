import Verif.Proofs.RedisCluster

/-!
# C121 Clones on a cluster; C122 A slow server
-/

namespace MCap
open Spec

/-! ## C121 -/

/-- C121. On a cluster no borrow panics, however many actors share a connection. -/
theorem C121_no_borrow_panic (conns : List Nat) (steps : List RStep) (a i : Nat) :
    .crashed a i .alreadyBorrowed ∉ (kRun (KSys.new conns) steps).2 := kNoBorrow steps (kQuiet_new conns) a i

/-- C121. After a command has gone to the cluster, the next thing any actor of the thread does is to end the request it was for. -/
theorem C121_uninterrupted (conns : List Nat) (steps : List RStep) (p : List REvent) (a i : Nat) (c : RCommand) (q : List REvent) (e : REvent)
    (r : List REvent) (h : (kRun (KSys.new conns) steps).2 = p ++ .started a i c :: (q ++ e :: r)) (hq : ∀ e ∈ q, byActor e = false)
    (he : byActor e = true) : (∃ m ans, e = .answered a i m ans) ∨ ∃ w, e = .crashed a i w :=
  kUninterrupted steps (kQuiet_new conns) h hq he

/-- C121. What happens on a cluster could have happened on a single server, so that whatever holds of all histories there holds here. -/
theorem C121_as_single (conns : List Nat) (steps : List RStep) :
    ∃ steps', List.Sublist steps' steps ∧ (kRun (KSys.new conns) steps).2 = (rRun (RSys.new conns) steps').2 := by
  obtain ⟨l, h1, -, h3⟩ := kRun_single steps (KSys.new conns)
  exact ⟨l, h1, h3⟩

/-- C121. When every command sent so far has ended, an actor takes its next message, whatever its clones did before: the message goes to the server,
and its reply is answered. -/
theorem C121_clone_answers (conns : List Nat) (steps : List RStep) (b : Nat) (x : RActor) (i : Nat) (m : RMsg) (rest : List (Nat × RMsg)) (r : RResult)
    (ans : RAnswer)
    (hend : ∀ p a j c q, (kRun (KSys.new conns) steps).2 = p ++ .started a j c :: q → (∃ n ans, .answered a j n ans ∈ q) ∨ ∃ w, .crashed a j w ∈ q)
    (hx : (kRun (KSys.new conns) steps).1.sys.actors[b]? = some x)
    (hi : x.inbox = (i, m) :: rest) (ht : m.todo = false) (him : m.immediate = false) (hr : m.answer r = .ret ans)
    (hg : i ∉ (kRun (KSys.new conns) steps).1.sys.gone) :
    (kRun (KSys.new conns) (steps ++ [.take b, .reply b r])).2 =
      (kRun (KSys.new conns) steps).2 ++ [.started b i m.command, .answered b i m ans] := by
  have hq := kQuiet_run steps (kQuiet_new conns)
  have hb : (kRun (KSys.new conns) steps).1.blocked = none := by
    cases h : (kRun (KSys.new conns) steps).1.blocked with
    | none => rfl
    | some a =>
      obtain ⟨y, j, n, hy, hyb, -⟩ := hq.held a h
      obtain ⟨p, c, q, h1, h2⟩ := kInside steps (kQuiet_new conns) [] (fun a x i m h => by cases h) a y j n h hy hyb
      rcases hend p a j c q (by simpa using h1) with ⟨_, _, h3⟩ | ⟨_, h3⟩ <;> cases h2 _ h3
  rw [kRun_append]
  generalize (kRun (KSys.new conns) steps).1 = s at *
  have hfree := hq.free hb
  have hlt := (List.getElem?_eq_some_iff.1 hx).1
  have hidle : x.busy = none := by
    cases h : x.busy with
    | none => rfl
    | some y =>
      have := hq.busy b x hx (by rw [h]; simp)
      rw [hb] at this; cases this
  have e1 : rStep s.sys (.take b) =
      (({ s.sys with borrowed := [x.conn] } : RSys).setActor b { x with inbox := rest, busy := some (i, m) }, [.started b i m.command]) := by
    simp only [rStep, hx, hidle, hi, RSys.onTake, ht, him, hfree]
    simp
  have e2 : ((({ s.sys with borrowed := [x.conn] } : RSys).setActor b { x with inbox := rest, busy := some (i, m) }).actors)[b]? =
      some { x with inbox := rest, busy := some (i, m) } := List.getElem?_set_self hlt
  have e3 : (rStep (({ s.sys with borrowed := [x.conn] } : RSys).setActor b { x with inbox := rest, busy := some (i, m) }) (.reply b r)).2 =
      [.answered b i m ans] := by
    simp only [rStep, e2, RSys.onReply, hr]
    rw [if_neg (fun h => hg h.2)]
  have e4 : kStep s (.take b) = (⟨({ s.sys with borrowed := [x.conn] } : RSys).setActor b { x with inbox := rest, busy := some (i, m) }, some b⟩,
      [.started b i m.command]) := by
    have hm : s.may (.take b) = true := by simp [KSys.may, hb]
    simp only [kStep, hm, if_true, e1, KSys.isBusy, e2, Option.isSome_some]
  have e5 : ∀ t : RSys, (kStep ⟨t, some b⟩ (.reply b r)).2 = (rStep t (.reply b r)).2 := by
    intro t
    have hm : KSys.may ⟨t, some b⟩ (.reply b r) = true := by simp [KSys.may]
    simp only [kStep, hm, if_true]
  simp only [kRun, e4, e5, e3, List.append_nil]
  rfl

/-- A master and its clone, on one connection: the second request waits, and both are answered. -/
def exCluster : List RStep :=
  [.send 0 (.removeCaptcha "a"), .send 1 (.removeCaptcha "b"), .take 0, .take 1, .reply 0 (.ok .okay)]

example : (kRun (KSys.new [0, 0]) (exCluster ++ [.take 1, .reply 1 (.ok .okay)])).2 =
    [.sent 0 0 (.removeCaptcha "a"), .sent 1 1 (.removeCaptcha "b"), .started 0 0 ["MCAPTCHA_CACHE.DELETE_CAPTCHA", "a"],
      .answered 0 0 (.removeCaptcha "a") (.unit (.ok ())), .started 1 1 ["MCAPTCHA_CACHE.DELETE_CAPTCHA", "b"],
      .answered 1 1 (.removeCaptcha "b") (.unit (.ok ()))] := by decide

example : (∀ p a j c q, (kRun (KSys.new [0, 0]) exCluster).2 = p ++ .started a j c :: q → (∃ n ans, .answered a j n ans ∈ q) ∨ ∃ w, .crashed a j w ∈ q) ∧
    (kRun (KSys.new [0, 0]) exCluster).1.sys.actors[1]? = some ⟨true, 0, [(1, .removeCaptcha "b")], none⟩ ∧
    RMsg.answer (.removeCaptcha "b") (.ok .okay) = .ret (.unit (.ok ())) ∧ 1 ∉ (kRun (KSys.new [0, 0]) exCluster).1.sys.gone := by
  refine ⟨?_, by decide⟩
  have hl : (kRun (KSys.new [0, 0]) exCluster).2 = [.sent 0 0 (.removeCaptcha "a"), .sent 1 1 (.removeCaptcha "b"),
      .started 0 0 ["MCAPTCHA_CACHE.DELETE_CAPTCHA", "a"], .answered 0 0 (.removeCaptcha "a") (.unit (.ok ()))] := by decide
  rw [hl]
  intro p a j c q h
  match p, h with
  | [], h | [_], h | [_, _, _], h | [_, _, _, _], h => simp at h
  | [_, _], h => cases h; exact .inl ⟨_, _, List.mem_singleton.2 rfl⟩
  | _ :: _ :: _ :: _ :: _ :: _, h => simp at h

/-- C121. Where no actor takes a message while a command is under way, a cluster does what a single server does: whatever other threads send and
drop in the meantime, the same happens. -/
theorem C121_serial_same (conns : List Nat) (steps : List RStep)
    (hs : ∀ p b r, steps = p ++ .take b :: r → ∀ u a j c v, (rRun (RSys.new conns) p).2 = u ++ .started a j c :: v →
      (∃ n ans, .answered a j n ans ∈ v) ∨ ∃ w, .crashed a j w ∈ v) :
    (kRun (KSys.new conns) steps).2 = (rRun (RSys.new conns) steps).2 ∧ (kRun (KSys.new conns) steps).1.sys = (rRun (RSys.new conns) steps).1 := by
  have happ : ∀ (s : RSys) (a b : List RStep), rRun s (a ++ b) = ((rRun (rRun s a).1 b).1, (rRun s a).2 ++ (rRun (rRun s a).1 b).2) := by
    intro s a b
    induction a generalizing s with
    | nil => rfl
    | cons x r ih => simp only [List.cons_append, rRun, ih, List.append_assoc]
  induction hn : steps.length generalizing steps with
  | zero => rw [List.length_eq_zero_iff.1 hn]; exact ⟨rfl, rfl⟩
  | succ n ih =>
    rcases List.eq_nil_or_concat steps with rfl | ⟨p, st, rfl⟩
    · cases hn
    obtain ⟨i1, i2⟩ := ih p (fun q b r e => hs q b (r ++ [st]) (by simp [e])) (by simpa using hn)
    have hq := kQuiet_run p (kQuiet_new conns)
    have key : (kStep (kRun (KSys.new conns) p).1 st).2 = (rStep (rRun (RSys.new conns) p).1 st).2 ∧
        (kStep (kRun (KSys.new conns) p).1 st).1.sys = (rStep (rRun (RSys.new conns) p).1 st).1 := by
      by_cases hm : (kRun (KSys.new conns) p).1.may st = true
      · simp only [kStep, hm, if_true, i2, and_self]
      · have hk : kStep (kRun (KSys.new conns) p).1 st = ((kRun (KSys.new conns) p).1, []) := by simp only [kStep, hm, Bool.false_eq_true, if_false]
        rw [hk]
        cases st with
        | send a m => exact absurd rfl hm
        | drop i => exact absurd rfl hm
        | take b =>
          cases hb : (kRun (KSys.new conns) p).1.blocked with
          | none => exact absurd (by simp [KSys.may, hb]) hm
          | some a =>
            obtain ⟨y, j, m, hy, hyb, -⟩ := hq.held a hb
            obtain ⟨u, c, v, h1, h2⟩ := kInside p (kQuiet_new conns) [] (fun a x i m h => by cases h) a y j m hb hy hyb
            rcases hs p b [] (by simp) u a j c v (by rw [← i1]; simpa using h1) with ⟨_, _, h3⟩ | ⟨_, h3⟩ <;> cases h2 _ h3
        | reply a r =>
          have hidle : ∀ x, (rRun (RSys.new conns) p).1.actors[a]? = some x → x.busy = none := by
            intro x hx
            cases hb : x.busy with
            | none => rfl
            | some y =>
              have := hq.busy a x (by rw [i2]; exact hx) (by rw [hb]; simp)
              exact absurd (by simp [KSys.may, this]) hm
          have : rStep (rRun (RSys.new conns) p).1 (.reply a r) = ((rRun (RSys.new conns) p).1, []) := by
            cases hx : (rRun (RSys.new conns) p).1.actors[a]? with
            | none => simp only [rStep, hx]
            | some x => simp only [rStep, hx, hidle x hx]
          rw [this]
          exact ⟨rfl, i2⟩
    rw [List.concat_eq_append, kRun_append, happ]
    simp only [kRun, rRun, List.append_nil, i1, key, and_self]

/-- While the first command is under way a message comes and a receiver goes. -/
example : let steps : List RStep := [.send 0 (.removeCaptcha "a"), .take 0, .send 1 (.removeCaptcha "b"), .drop 0, .reply 0 (.ok .okay)]
    (∀ p b r, steps = p ++ .take b :: r → ∀ u a j c v, (rRun (RSys.new [0, 1]) p).2 = u ++ .started a j c :: v →
      (∃ n ans, .answered a j n ans ∈ v) ∨ ∃ w, .crashed a j w ∈ v) ∧
    (rRun (RSys.new [0, 1]) steps).1.gone = [0] ∧ (rRun (RSys.new [0, 1]) steps).2.length = 4 := by
  refine ⟨?_, by decide⟩
  intro p b r e u a j c v h
  match p, e with
  | [], e | [_, _], e | [_, _, _], e | [_, _, _, _], e | [_, _, _, _, _], e => simp at e
  | _ :: _ :: _ :: _ :: _ :: _ :: _, e => simp at e
  | [_], e =>
    simp only [List.cons_append, List.nil_append, List.cons.injEq] at e
    obtain ⟨rfl, -⟩ := e
    have hl : (rRun (RSys.new [0, 1]) [.send 0 (.removeCaptcha "a")]).2 = [.sent 0 0 (.removeCaptcha "a")] := by decide
    rw [hl] at h
    match u, h with
    | [], h | [_], h => simp at h
    | _ :: _ :: _, h => simp at h

/-! ## C122 -/

/-- False on a cluster: while one actor waits for the server, another with a message and a connection of its own does nothing. -/
theorem C122_others_go_on_refuted :
    ¬ ∀ (conns : List Nat) (steps : List RStep) (b : Nat) (x : RActor) (i : Nat) (m : RMsg) (rest : List (Nat × RMsg)), conns.Nodup →
      (kRun (KSys.new conns) steps).1.sys.actors[b]? = some x → x.busy = none → x.inbox = (i, m) :: rest →
      (kStep (kRun (KSys.new conns) steps).1 (.take b)).2 ≠ [] := by
  intro h
  exact h [0, 1] [.send 0 (.removeCaptcha "a"), .send 1 (.removeCaptcha "b"), .take 0] 1 ⟨true, 1, [(1, .removeCaptcha "b")], none⟩ 1
    (.removeCaptcha "b") [] (by decide) (by decide) rfl rfl (by decide)

/-- Missing: clusters. On a single server, whatever the others wait for, an idle actor with a connection of its own takes its next message: it
goes to the server, or is answered at once. -/
theorem C122_others_go_on_partial (conns : List Nat) (hd : conns.Nodup) (steps : List RStep) (b : Nat) (x : RActor) (i : Nat) (m : RMsg)
    (rest : List (Nat × RMsg)) (hx : (rRun (RSys.new conns) steps).1.actors[b]? = some x) (hb : x.busy = none) (hi : x.inbox = (i, m) :: rest)
    (ht : m.todo = false) :
    (rRun (RSys.new conns) (steps ++ [.take b])).2 = (rRun (RSys.new conns) steps).2 ++ [.started b i m.command] ∨
    (rRun (RSys.new conns) (steps ++ [.take b])).2 = (rRun (RSys.new conns) steps).2 ++ [.answered b i m (.unit (.ok ()))] := by
  have happ : (rRun (RSys.new conns) (steps ++ [.take b])).2 =
      (rRun (RSys.new conns) steps).2 ++ (rStep (rRun (RSys.new conns) steps).1 (.take b)).2 := by
    clear hx
    generalize RSys.new conns = s
    induction steps generalizing s with
    | nil => simp [rRun]
    | cons y r ih => simp only [List.cons_append, rRun, List.append_assoc, ih]
  have hno := noBorrow_run hd (steps ++ [.take b]) b i
  rw [happ] at hno ⊢
  have hs : rStep (rRun (RSys.new conns) steps).1 (.take b) = (rRun (RSys.new conns) steps).1.onTake b x i m rest := by
    simp [rStep, hx, hb, hi]
  rw [hs] at hno ⊢
  unfold RSys.onTake at hno ⊢
  rw [ht] at hno ⊢
  simp only [Bool.false_eq_true, if_false] at hno ⊢
  split
  · exact .inr rfl
  · rename_i him
    rw [if_neg him] at hno
    split
    · rename_i hc
      rw [if_pos hc] at hno
      exact absurd (List.mem_append_right _ (List.mem_singleton.2 rfl)) hno
    · exact .inl rfl

example : ([0, 1] : List Nat).Nodup ∧
    (rRun (RSys.new [0, 1]) [.send 0 (.removeCaptcha "a"), .send 1 (.removeCaptcha "b"), .take 0]).1.actors[1]? =
      some ⟨true, 1, [(1, .removeCaptcha "b")], none⟩ := by decide

end MCap
