import Verif.Spec.RedisNet
import Verif.Proofs.RedisReplies

/-!
# Several actors sharing a Redis server
-/

namespace MCap
open Spec

/-! ### Counting -/

theorem countP_eraseIdx {α : Type} (p : α → Bool) (l : List α) (k : Nat) (x : α) (h : l[k]? = some x) :
    (l.eraseIdx k).countP p + (if p x then 1 else 0) = l.countP p := by
  induction l generalizing k with
  | nil => simp at h
  | cons y r ih =>
    cases k with
    | zero =>
      simp only [List.getElem?_cons_zero, Option.some.injEq] at h
      subst h
      simp only [List.eraseIdx_cons_zero, List.countP_cons]
    | succ k =>
      simp only [List.getElem?_cons_succ] at h
      have := ih k h
      simp only [List.eraseIdx_cons_succ, List.countP_cons]
      omega

theorem sum_set {α : Type} (f : α → Nat) (l : List α) (a : Nat) (x y : α) (h : l[a]? = some x) :
    ((l.set a y).map f).sum + f x = (l.map f).sum + f y := by
  induction l generalizing a with
  | nil => simp at h
  | cons z r ih =>
    cases a with
    | zero =>
      simp only [List.getElem?_cons_zero, Option.some.injEq] at h
      subst h
      simp only [List.set_cons_zero, List.map_cons, List.sum_cons]
      omega
    | succ a =>
      simp only [List.getElem?_cons_succ] at h
      have := ih a h
      simp only [List.set_cons_succ, List.map_cons, List.sum_cons]
      omega

/-! ### The actors run as before -/

theorem atActors_append (a b : List NEvent) : atActors (a ++ b) = atActors a ++ atActors b := by simp [atActors]
theorem atActors_map (ev : List REvent) : atActors (ev.map .actor) = ev := by
  induction ev with
  | nil => rfl
  | cons e r ih => simpa [atActors] using ih
theorem serverLog_append (a b : List NEvent) : serverLog (a ++ b) = serverLog a ++ serverLog b := by simp [serverLog]
theorem serverLog_map (ev : List REvent) : serverLog (ev.map .actor) = [] := by
  simp [serverLog, List.flatMap_eq_nil_iff, tokenEvents]

/-- A step of the network is at most one step of the actors. -/
theorem nStep_actors (s : RNet) (x : NStep) :
    ((nStep s x).1.sys = s.sys ∧ atActors (nStep s x).2 = []) ∨
      ∃ y, (nStep s x).1.sys = (rStep s.sys y).1 ∧ atActors (nStep s x).2 = (rStep s.sys y).2 := by
  cases x with
  | send a m => exact .inr ⟨.send a m, rfl, atActors_map _⟩
  | take a => exact .inr ⟨.take a, rfl, atActors_map _⟩
  | drop i => exact .inr ⟨.drop i, rfl, atActors_map _⟩
  | serve k r =>
    simp only [nStep]
    split <;> exact .inl ⟨rfl, rfl⟩
  | deliver a k =>
    simp only [nStep]
    split
    · split
      · exact .inr ⟨.reply a _, rfl, atActors_map _⟩
      · exact .inl ⟨rfl, rfl⟩
    · exact .inl ⟨rfl, rfl⟩
  | fail a e => exact .inr ⟨.reply a (.error e), rfl, atActors_map _⟩
  | tick ms => exact .inl ⟨rfl, rfl⟩

theorem nRun_append (s : RNet) (a b : List NStep) : nRun s (a ++ b) = ((nRun (nRun s a).1 b).1, (nRun s a).2 ++ (nRun (nRun s a).1 b).2) := by
  induction a generalizing s with
  | nil => rfl
  | cons x r ih => simp only [List.cons_append, nRun, ih, List.append_assoc]

/-- Invariants of the network. -/
theorem nRun_inv {P : RNet → List NEvent → Prop} (hs : ∀ s log x, P s log → P (nStep s x).1 (log ++ (nStep s x).2)) (steps : List NStep)
    (s : RNet) (log : List NEvent) (h : P s log) : P (nRun s steps).1 (log ++ (nRun s steps).2) := by
  induction steps generalizing s log with
  | nil => simpa [nRun] using h
  | cons x r ih =>
    have := ih _ _ (hs s log x h)
    rwa [List.append_assoc] at this

/-- State and log of the actors are those of a run of the actors alone. -/
def Reached (conns : List Nat) (s : RNet) (log : List NEvent) : Prop := ∃ ys, rRun (RSys.new conns) ys = (s.sys, atActors log)

theorem reached_step {conns : List Nat} {s : RNet} {log : List NEvent} (h : Reached conns s log) (x : NStep) :
    Reached conns (nStep s x).1 (log ++ (nStep s x).2) := by
  obtain ⟨ys, hy⟩ := h
  rcases nStep_actors s x with ⟨h1, h2⟩ | ⟨y, h1, h2⟩
  · exact ⟨ys, by rw [atActors_append, h2, h1, List.append_nil, hy]⟩
  · refine ⟨ys ++ [y], ?_⟩
    rw [rRun_append, atActors_append, h1, h2, hy]
    simp only [rRun, List.append_nil]

/-! ### The server sees a history of tokens -/

theorem served_token (db : RedisDb) (m : RMsg) (r : RResult) (i : Nat) (hi : m.immediate = false) (ht : m.todo = false) :
    ∃ ts, (tokenRun db ts).1 = (RNet.onServe db m r).1 ∧ (tokenRun db ts).2 = tokenEvents (.served i m (RNet.onServe db m r).2 db.now) := by
  cases m with
  | cacheResult c =>
    refine ⟨[.add c], ?_⟩
    have e : RNet.onServe db (.cacheResult c) r = db.exec (RedisClient.addTokenCmd c) := rfl
    rw [e]
    simp only [tokenRun, tokenStep, List.append_nil, true_and]
    cases (db.exec (RedisClient.addTokenCmd c)).2 <;> rfl
  | verify v =>
    refine ⟨[.get v], ?_⟩
    have e : RNet.onServe db (.verify v) r = db.exec (RedisClient.getTokenCmd v) := rfl
    rw [e]
    simp only [tokenRun, tokenStep, List.append_nil, true_and, exec_getToken, RedisDb.del]
    cases db.has (tokenKey v.key v.token) <;> rfl
  | deletePow => cases hi
  | deleteResult => cases hi
  | getInternalData => cases ht
  | setInternalData => cases ht
  | _ => exact ⟨[], rfl, rfl⟩

theorem tokenRun_append (db : RedisDb) (a b : List TokenStep) :
    tokenRun db (a ++ b) = ((tokenRun (tokenRun db a).1 b).1, (tokenRun db a).2 ++ (tokenRun (tokenRun db a).1 b).2) := by
  induction a generalizing db with
  | nil => rfl
  | cons x r ih => simp only [List.cons_append, tokenRun, ih, List.append_assoc]

/-! ### Requests waiting -/

/-- The message is a request to store the token under `κ`. -/
def storesAt (κ : String) : RMsg → Bool
  | .cacheResult m => tokenKey m.key m.token == κ
  | _ => false

/-- How many such requests wait at the actors. -/
def waitingStores (κ : String) (s : RSys) : Nat := (s.actors.map fun x => x.inbox.countP fun e => storesAt κ e.2).sum

/-- The reply says that the token under `κ` is valid. -/
def saysValid (κ : String) : Nat × RMsg × RResult → Bool
  | (_, .verify v, .ok (.int n)) => n == 1 && tokenKey v.key v.token == κ
  | _ => false

/-- What holds in every state of the network. -/
structure NetInv (conns : List Nat) (now : Nat) (s : RNet) (log : List NEvent) : Prop where
  reached : Reached conns s log
  tokens : ∃ ts, tokenRun (RedisDb.init now) ts = (s.db, serverLog log)
  wire : ∀ e ∈ s.wire, e.2.immediate = false ∧ e.2.todo = false ∧ ∃ a, .actor (.sent a e.1 e.2) ∈ log
  replies : ∀ e ∈ s.replies, (∃ a, .actor (.sent a e.1 e.2.1) ∈ log) ∧ ∃ t, .served e.1 e.2.1 e.2.2 t ∈ log
  served : ∀ i m r t, .served i m r t ∈ log → (∃ a, .actor (.sent a i m) ∈ log) ∧ ∀ v, m = .verify v → ∃ b : Bool, r = .ok (.int (if b then 1 else 0))
  told : ∀ a i v (c : Bool), .actor (.answered a i (.verify v) (.verdict (.ok c))) ∈ log → ∃ t, .served i (.verify v) (.ok (.int (if c then 1 else 0))) t ∈ log
  few : ∀ κ, toldValid κ log + s.replies.countP (saysValid κ) ≤ acceptances κ (serverLog log)
  stores : ∀ κ, additions κ (serverLog log) + s.wire.countP (fun e => storesAt κ e.2) + waitingStores κ s.sys ≤ askedToStore κ log

theorem toldValid_append (κ : String) (a b : List NEvent) : toldValid κ (a ++ b) = toldValid κ a + toldValid κ b := by
  simp only [toldValid, List.countP_append]
theorem askedToStore_append (κ : String) (a b : List NEvent) : askedToStore κ (a ++ b) = askedToStore κ a + askedToStore κ b := by
  simp only [askedToStore, List.countP_append]
theorem acceptances_append (κ : String) (a b : List TokenEvent) : acceptances κ (a ++ b) = acceptances κ a + acceptances κ b := by
  simp only [acceptances, List.filter_append, List.length_append]
theorem additions_append (κ : String) (a b : List TokenEvent) : additions κ (a ++ b) = additions κ a + additions κ b := by
  simp only [additions, List.filter_append, List.length_append]

theorem told_zero (κ : String) (ev : List REvent) (h : ∀ a i v, .answered a i (.verify v) (.verdict (.ok true)) ∉ ev) :
    toldValid κ (ev.map .actor) = 0 := by
  simp only [toldValid, List.countP_eq_zero, List.mem_map]
  rintro _ ⟨e, he, rfl⟩
  split
  · rename_i a i v heq
    cases heq
    exact absurd he (h _ _ _)
  · simp

theorem waiting_set (κ : String) (s : RSys) (a : Nat) (x y : RActor) (h : s.actors[a]? = some x) :
    waitingStores κ (s.setActor a y) + x.inbox.countP (fun e => storesAt κ e.2) =
      waitingStores κ s + y.inbox.countP (fun e => storesAt κ e.2) :=
  sum_set (fun x : RActor => x.inbox.countP fun e : Nat × RMsg => storesAt κ e.2) s.actors a x y h

/-- Requests wait until they are taken; every one was asked for. -/
theorem waiting_move (κ : String) {s s' : RSys} {ev : List REvent} (m : RMove s s' ev) :
    waitingStores κ s' ≤ waitingStores κ s + askedToStore κ (ev.map .actor) := by
  cases m with
  | quiet s' ha hb hn => simp only [waitingStores, ha]; omega
  | refuse a m => omega
  | post a x m hx hal =>
    have := waiting_set κ ({ s with next := s.next + 1 } : RSys) a x { x with inbox := x.inbox ++ [(s.next, m)] } hx
    have e : waitingStores κ ({ s with next := s.next + 1 } : RSys) = waitingStores κ s := rfl
    simp only [List.countP_append, List.countP_cons, List.countP_nil] at this
    have e2 : askedToStore κ ([REvent.sent a s.next m].map .actor) = if storesAt κ m then 1 else 0 := by
      cases m <;> simp [askedToStore, storesAt, List.countP_cons]
    omega
  | die a x i m rest w hx hb hi hw =>
    have := waiting_set κ s a x (RSys.RActor.dead x) hx
    simp only [RSys.RActor.dead, List.countP_nil] at this
    simp only [RSys.RActor.dead]
    omega
  | now a x i m rest hx hb hi him =>
    have := waiting_set κ s a x { x with inbox := rest } hx
    simp only [hi, List.countP_cons] at this
    omega
  | start a x i m rest hx hb hi ht him hcn =>
    have := waiting_set κ ({ s with borrowed := x.conn :: s.borrowed } : RSys) a x { x with inbox := rest, busy := some (i, m) } hx
    have e : waitingStores κ ({ s with borrowed := x.conn :: s.borrowed } : RSys) = waitingStores κ s := rfl
    simp only [hi, List.countP_cons] at this
    omega
  | fail a x i m r w hx hb hw =>
    have := waiting_set κ ({ s with borrowed := s.borrowed.erase x.conn } : RSys) a x (RSys.RActor.dead x) hx
    have e : waitingStores κ ({ s with borrowed := s.borrowed.erase x.conn } : RSys) = waitingStores κ s := rfl
    simp only [RSys.RActor.dead, List.countP_nil] at this
    simp only [RSys.RActor.dead]
    omega
  | finish a x i m r ans hx hb ha =>
    have := waiting_set κ ({ s with borrowed := s.borrowed.erase x.conn } : RSys) a x { x with busy := none } hx
    have e : waitingStores κ ({ s with borrowed := s.borrowed.erase x.conn } : RSys) = waitingStores κ s := rfl
    simp only at this
    omega

/-- Taking a message: nothing goes out, or the first message of the mailbox. -/
theorem take_out (s : RSys) (a : Nat) :
    RNet.newCommand (rStep s (.take a)).1 a (rStep s (.take a)).2 = [] ∨
    ∃ x i m rest, s.actors[a]? = some x ∧ x.inbox = (i, m) :: rest ∧ m.todo = false ∧ m.immediate = false ∧
      RNet.newCommand (rStep s (.take a)).1 a (rStep s (.take a)).2 = [(i, m)] ∧
      ∀ κ, waitingStores κ (rStep s (.take a)).1 + (if storesAt κ m then 1 else 0) = waitingStores κ s := by
  simp only [rStep]
  split
  · exact .inl rfl
  · rename_i x hx
    split
    · rename_i i m rest hb hi
      unfold RSys.onTake
      split
      · exact .inl rfl
      · split
        · exact .inl rfl
        · split
          · exact .inl rfl
          · rename_i ht him hcn
            refine .inr ⟨x, i, m, rest, hx, hi, by simpa using ht, by simpa using him, ?_, ?_⟩
            · simp only [RNet.newCommand]
              rw [getElem?_setActor ({ s with borrowed := x.conn :: s.borrowed } : RSys) a a x _ hx, if_pos rfl]
              rfl
            · intro κ
              have := waiting_set κ ({ s with borrowed := x.conn :: s.borrowed } : RSys) a x { x with inbox := rest, busy := some (i, m) } hx
              have e : waitingStores κ ({ s with borrowed := x.conn :: s.borrowed } : RSys) = waitingStores κ s := rfl
              rw [hi, List.countP_cons, e] at this
              simp only at this ⊢
              generalize List.countP (fun e : Nat × RMsg => storesAt κ e.2) rest = c at this
              omega
    · exact .inl rfl

/-- A reply tells at most one caller. -/
theorem reply_told (κ : String) (s : RSys) (a : Nat) (r : RResult) :
    toldValid κ ((rStep s (.reply a r)).2.map .actor) = 0 ∨
    (toldValid κ ((rStep s (.reply a r)).2.map .actor) = 1 ∧ ∃ x i v, s.actors[a]? = some x ∧ x.busy = some (i, .verify v) ∧
      tokenKey v.key v.token = κ ∧ RMsg.answer (.verify v) r = .ret (.verdict (.ok true))) := by
  by_cases h : ∃ b i v, .answered b i (.verify v) (.verdict (.ok true)) ∈ (rStep s (.reply a r)).2
  · obtain ⟨b, i, v, h⟩ := h
    rcases rStep_answered h with ⟨e, -⟩ | ⟨r', y, e, hy, hb, ha, hev⟩
    · cases e
    · cases e
      rw [hev]
      by_cases hk : tokenKey v.key v.token = κ
      · exact .inr ⟨by simp [toldValid, hk], y, i, v, hy, hb, hk, ha⟩
      · exact .inl (by simp [toldValid, hk])
  · exact .inl (told_zero κ _ (fun b i v hm => h ⟨b, i, v, hm⟩))

theorem sent_up {log ev : List NEvent} {i : Nat} {m : RMsg} (h : ∃ a, .actor (.sent a i m) ∈ log) : ∃ a, .actor (.sent a i m) ∈ log ++ ev := by
  obtain ⟨a, h⟩ := h
  exact ⟨a, List.mem_append_left _ h⟩

theorem mem_atActors {log : List NEvent} {e : REvent} : e ∈ atActors log ↔ .actor e ∈ log := by
  simp only [atActors, List.mem_filterMap]
  constructor
  · rintro ⟨x, hx, he⟩
    cases x with
    | actor e' => cases he; exact hx
    | served => cases he
  · intro h
    exact ⟨_, h, rfl⟩

theorem getToken_ok {v : VerifyCaptchaResult} {r : RResult} {c : Bool} (h : RMsg.answer (.verify v) r = .ret (.verdict (.ok c))) :
    RedisClient.getToken r = .ret (.ok c) := by
  simp only [RMsg.answer] at h
  cases hg : RedisClient.getToken r with
  | panic w => rw [hg] at h; cases h
  | ret x => rw [hg] at h; cases h; rfl

/-- Steps of the actors other than replies. -/
theorem netInv_actors {conns : List Nat} {now : Nat} {s : RNet} {log : List NEvent} (h : NetInv conns now s log) (x : NStep) (y : RStep)
    (hx : nStep s x = s.onActors y) (hy : (∃ a m, y = .send a m) ∨ (∃ i, y = .drop i) ∨ ∃ a e, y = .reply a (.error e)) :
    NetInv conns now (nStep s x).1 (log ++ (nStep s x).2) := by
  have hr := reached_step h.reached x
  rw [hx] at hr ⊢
  simp only [RNet.onActors] at hr ⊢
  have hnt : ∀ a i v (c : Bool), .answered a i (.verify v) (.verdict (.ok c)) ∉ (rStep s.sys y).2 := by
    intro a i v c hm
    rcases rStep_answered hm with ⟨e, h1, -⟩ | ⟨r, z, rfl, -, -, ha, -⟩
    · cases h1
    · rcases hy with ⟨_, _, e⟩ | ⟨_, e⟩ | ⟨_, _, e⟩
      · cases e
      · cases e
      · cases e
        cases getToken_ok ha
  refine ⟨hr, by rw [serverLog_append, serverLog_map, List.append_nil]; exact h.tokens, ?_, ?_, ?_, ?_, ?_, ?_⟩
  · intro e he
    exact ⟨(h.wire e he).1, (h.wire e he).2.1, sent_up (h.wire e he).2.2⟩
  · intro e he
    obtain ⟨t, ht⟩ := (h.replies e he).2
    exact ⟨sent_up (h.replies e he).1, t, List.mem_append_left _ ht⟩
  · intro i m r t hm
    rcases List.mem_append.1 hm with hm | hm
    · exact ⟨sent_up (h.served i m r t hm).1, (h.served i m r t hm).2⟩
    · simp at hm
  · intro a i v c hm
    rcases List.mem_append.1 hm with hm | hm
    · obtain ⟨t, ht⟩ := h.told a i v c hm
      exact ⟨t, List.mem_append_left _ ht⟩
    · simp only [List.mem_map, NEvent.actor.injEq, exists_eq_right] at hm
      exact absurd hm (hnt a i v c)
  · intro κ
    have := h.few κ
    rw [toldValid_append, told_zero κ _ (fun a i v => hnt a i v true), serverLog_append, serverLog_map, List.append_nil]
    omega
  · intro κ
    have := h.stores κ
    have hw := waiting_move κ (rStep_move s.sys y)
    rw [askedToStore_append, serverLog_append, serverLog_map, List.append_nil]
    simp only
    omega

theorem netInv_take {conns : List Nat} {now : Nat} {s : RNet} {log : List NEvent} (h : NetInv conns now s log) (a : Nat) :
    NetInv conns now (nStep s (.take a)).1 (log ++ (nStep s (.take a)).2) := by
  have hr := reached_step h.reached (.take a)
  simp only [nStep] at hr ⊢
  have hnt : ∀ b i v (c : Bool), .answered b i (.verify v) (.verdict (.ok c)) ∉ (rStep s.sys (.take a)).2 := by
    intro b i v c hm
    rcases rStep_answered hm with ⟨e, h1, -⟩ | ⟨r, z, e, -⟩
    · cases h1
    · cases e
  refine ⟨hr, by rw [serverLog_append, serverLog_map, List.append_nil]; exact h.tokens, ?_, ?_, ?_, ?_, ?_, ?_⟩
  · intro e he
    rcases List.mem_append.1 he with he | he
    · exact ⟨(h.wire e he).1, (h.wire e he).2.1, sent_up (h.wire e he).2.2⟩
    · rcases take_out s.sys a with h0 | ⟨x, i, m, rest, hx, hi, ht, him, h0, -⟩
      · rw [h0] at he; cases he
      · rw [h0] at he
        rw [List.mem_singleton.1 he]
        obtain ⟨ys, hy⟩ := h.reached
        have := (provInv_run conns ys).inbox a x (by rw [hy]; exact hx) i m (by rw [hi]; exact List.mem_cons_self)
        rw [hy] at this
        exact ⟨him, ht, a, List.mem_append_left _ (mem_atActors.1 this)⟩
  · intro e he
    obtain ⟨t, ht⟩ := (h.replies e he).2
    exact ⟨sent_up (h.replies e he).1, t, List.mem_append_left _ ht⟩
  · intro i m r t hm
    rcases List.mem_append.1 hm with hm | hm
    · exact ⟨sent_up (h.served i m r t hm).1, (h.served i m r t hm).2⟩
    · simp at hm
  · intro b i v c hm
    rcases List.mem_append.1 hm with hm | hm
    · obtain ⟨t, ht⟩ := h.told b i v c hm
      exact ⟨t, List.mem_append_left _ ht⟩
    · simp only [List.mem_map, NEvent.actor.injEq, exists_eq_right] at hm
      exact absurd hm (hnt b i v c)
  · intro κ
    have := h.few κ
    rw [toldValid_append, told_zero κ _ (fun a i v => hnt a i v true), serverLog_append, serverLog_map, List.append_nil]
    omega
  · intro κ
    have := h.stores κ
    have hw := waiting_move κ (rStep_move s.sys (.take a))
    have ha : askedToStore κ ((rStep s.sys (.take a)).2.map .actor) = 0 := by
      simp only [askedToStore, List.countP_eq_zero, List.mem_map]
      rintro _ ⟨e, he, rfl⟩
      split
      · rename_i heq
        cases heq
        exfalso
        simp only [rStep] at he
        split at he
        · cases he
        · split at he
          · unfold RSys.onTake at he
            repeat' split at he <;> first | (simp at he; done) | skip
          · cases he
      · simp
    rw [askedToStore_append, serverLog_append, serverLog_map, List.append_nil, List.countP_append]
    simp only
    rcases take_out s.sys a with h0 | ⟨x, i, m, rest, -, -, -, -, h0, hk⟩
    · rw [h0]; simp only [List.countP_nil]; omega
    · rw [h0]
      have := hk κ
      simp only [List.countP_cons, List.countP_nil]
      omega

theorem netInv_serve {conns : List Nat} {now : Nat} {s : RNet} {log : List NEvent} (h : NetInv conns now s log) (k : Nat) (r : RResult) :
    NetInv conns now (nStep s (.serve k r)).1 (log ++ (nStep s (.serve k r)).2) := by
  have hr := reached_step h.reached (.serve k r)
  simp only [nStep] at hr ⊢
  cases hk : s.wire[k]? with
  | none => simpa using h
  | some e =>
    obtain ⟨i, m⟩ := e
    rw [hk] at hr
    simp only at hr ⊢
    obtain ⟨him, htd, hsent⟩ := h.wire _ (List.mem_of_getElem? hk)
    simp only at him htd hsent
    have hver : ∀ v, m = .verify v → ∃ b : Bool, (RNet.onServe s.db m r).2 = .ok (.int (if b then 1 else 0)) := by
      rintro v rfl
      have e : RNet.onServe s.db (.verify v) r = s.db.exec (RedisClient.getTokenCmd v) := rfl
      rw [e, exec_getToken]
      exact ⟨s.db.has (tokenKey v.key v.token), rfl⟩
    refine ⟨hr, ?_, ?_, ?_, ?_, ?_, ?_, ?_⟩
    · obtain ⟨ts, hts⟩ := h.tokens
      obtain ⟨ts', h1, h2⟩ := served_token s.db m r i him htd
      refine ⟨ts ++ ts', ?_⟩
      rw [tokenRun_append, hts, serverLog_append]
      simp only [h1, h2, serverLog, List.flatMap_cons, List.flatMap_nil, List.append_nil]
    · intro e he
      have he := List.mem_of_mem_eraseIdx he
      exact ⟨(h.wire e he).1, (h.wire e he).2.1, sent_up (h.wire e he).2.2⟩
    · intro e he
      rcases List.mem_append.1 he with he | he
      · obtain ⟨t, ht⟩ := (h.replies e he).2
        exact ⟨sent_up (h.replies e he).1, t, List.mem_append_left _ ht⟩
      · rw [List.mem_singleton.1 he]
        exact ⟨sent_up hsent, s.db.now, by simp⟩
    · intro j m' r' t hm
      rcases List.mem_append.1 hm with hm | hm
      · exact ⟨sent_up (h.served j m' r' t hm).1, (h.served j m' r' t hm).2⟩
      · simp only [List.mem_singleton, NEvent.served.injEq] at hm
        obtain ⟨rfl, rfl, rfl, rfl⟩ := hm
        exact ⟨sent_up hsent, hver⟩
    · intro a j v c hm
      rcases List.mem_append.1 hm with hm | hm
      · obtain ⟨t, ht⟩ := h.told a j v c hm
        exact ⟨t, List.mem_append_left _ ht⟩
      · simp at hm
    · intro κ
      have := h.few κ
      rw [toldValid_append, serverLog_append, acceptances_append, List.countP_append]
      have h0 : toldValid κ [.served i m (RNet.onServe s.db m r).2 s.db.now] = 0 := rfl
      have h1 : [(i, m, (RNet.onServe s.db m r).2)].countP (saysValid κ) ≤
          acceptances κ (serverLog [.served i m (RNet.onServe s.db m r).2 s.db.now]) := by
        cases m with
        | verify v =>
          obtain ⟨b, hb⟩ := hver v rfl
          rw [hb]
          cases b <;> by_cases hk : tokenKey v.key v.token = κ <;> simp [saysValid, acceptances, serverLog, tokenEvents, hk]
        | _ => simp [saysValid]
      omega
    · intro κ
      have := h.stores κ
      have he := countP_eraseIdx (fun e : Nat × RMsg => storesAt κ e.2) s.wire k (i, m) hk
      have h1 : additions κ (serverLog [.served i m (RNet.onServe s.db m r).2 s.db.now]) ≤ if storesAt κ m then 1 else 0 := by
        cases m with
        | cacheResult c =>
          cases (RNet.onServe s.db (.cacheResult c) r).2 <;> by_cases hk : tokenKey c.key c.token = κ <;>
            simp [storesAt, additions, serverLog, tokenEvents, hk]
        | verify v =>
          obtain ⟨b, hb⟩ := hver v rfl
          rw [hb]
          cases b <;> simp [additions, serverLog, tokenEvents]
        | _ => simp [additions, serverLog, tokenEvents]
      rw [askedToStore_append, serverLog_append, additions_append]
      simp only at he ⊢
      omega

theorem netInv_deliver {conns : List Nat} {now : Nat} {s : RNet} {log : List NEvent} (h : NetInv conns now s log) (a k : Nat) :
    NetInv conns now (nStep s (.deliver a k)).1 (log ++ (nStep s (.deliver a k)).2) := by
  have hr := reached_step h.reached (.deliver a k)
  simp only [nStep] at hr ⊢
  split at hr
  case h_2 => rename_i h0; simpa using h
  case h_1 i m r x hk hx =>
    split at hr
    case isFalse hb => simpa [hb] using h
    case isTrue hb =>
      simp only [hb, if_true, RNet.onActors] at hr ⊢
      obtain ⟨⟨b, hsent⟩, t, hserved⟩ := h.replies _ (List.mem_of_getElem? hk)
      simp only at hsent hserved
      -- the actor waits for the very request the reply is for
      have same : ∀ m', x.busy = some (i, m') → m' = m := by
        intro m' hm'
        obtain ⟨ys, hy⟩ := h.reached
        have h1 := ((provInv_run conns ys).busy a x (by rw [hy]; exact hx) i m' hm').1
        have h2 : .sent b i m ∈ (rRun (RSys.new conns) ys).2 := by rw [hy]; exact mem_atActors.2 hsent
        exact (ids_unique conns ys a b i m' m h1 h2).2
      have one : ∀ v (d : Bool), x.busy = some (i, .verify v) → RMsg.answer (.verify v) r = .ret (.verdict (.ok d)) →
          m = .verify v ∧ r = .ok (.int (if d then 1 else 0)) := by
        intro v d hv ha
        have e := same _ hv
        obtain ⟨c, hc⟩ := (h.served i m r t hserved).2 v e.symm
        refine ⟨e.symm, ?_⟩
        subst hc
        cases c <;> cases d <;> first | rfl | cases getToken_ok ha
      refine ⟨hr, by rw [serverLog_append, serverLog_map, List.append_nil]; exact h.tokens, ?_, ?_, ?_, ?_, ?_, ?_⟩
      · intro e he
        exact ⟨(h.wire e he).1, (h.wire e he).2.1, sent_up (h.wire e he).2.2⟩
      · intro e he
        have he := List.mem_of_mem_eraseIdx he
        obtain ⟨t, ht⟩ := (h.replies e he).2
        exact ⟨sent_up (h.replies e he).1, t, List.mem_append_left _ ht⟩
      · intro i m r t hm
        rcases List.mem_append.1 hm with hm | hm
        · exact ⟨sent_up (h.served i m r t hm).1, (h.served i m r t hm).2⟩
        · simp at hm
      · intro b j v d hm
        rcases List.mem_append.1 hm with hm | hm
        · obtain ⟨t, ht⟩ := h.told b j v d hm
          exact ⟨t, List.mem_append_left _ ht⟩
        · simp only [List.mem_map, NEvent.actor.injEq, exists_eq_right] at hm
          rcases rStep_answered hm with ⟨e, -⟩ | ⟨r', y, e, hy, hyb, ha, -⟩
          · cases e
          · cases e
            rw [hx] at hy
            cases hy
            rw [hyb] at hb
            simp only [Option.map_some, Option.some.injEq] at hb
            subst hb
            obtain ⟨rfl, rfl⟩ := one v d hyb ha
            exact ⟨t, List.mem_append_left _ hserved⟩
      · intro κ
        have := h.few κ
        have he := countP_eraseIdx (saysValid κ) s.replies k _ hk
        rw [toldValid_append, serverLog_append, serverLog_map, List.append_nil]
        rcases reply_told κ s.sys a r with h0 | ⟨h0, y, j, v, hy, hyb, hkey, ha⟩
        · rw [h0]; simp only; omega
        · rw [hx] at hy
          cases hy
          rw [hyb] at hb
          simp only [Option.map_some, Option.some.injEq] at hb
          subst hb
          obtain ⟨rfl, rfl⟩ := one v true hyb ha
          have hs : saysValid κ (j, .verify v, .ok (.int (if true then 1 else 0))) = true := by simp [saysValid, hkey]
          rw [hs, if_pos rfl] at he
          rw [h0]
          simp only
          omega
      · intro κ
        have := h.stores κ
        have hw := waiting_move κ (rStep_move s.sys (.reply a r))
        rw [askedToStore_append, serverLog_append, serverLog_map, List.append_nil]
        simp only
        omega

theorem netInv_step {conns : List Nat} {now : Nat} {s : RNet} {log : List NEvent} (h : NetInv conns now s log) (x : NStep) :
    NetInv conns now (nStep s x).1 (log ++ (nStep s x).2) := by
  cases x with
  | send a m => exact netInv_actors h _ (.send a m) rfl (.inl ⟨a, m, rfl⟩)
  | take a => exact netInv_take h a
  | drop i => exact netInv_actors h _ (.drop i) rfl (.inr (.inl ⟨i, rfl⟩))
  | serve k r => exact netInv_serve h k r
  | deliver a k => exact netInv_deliver h a k
  | fail a e => exact netInv_actors h _ (.reply a (.error e)) rfl (.inr (.inr ⟨a, e, rfl⟩))
  | tick ms =>
    simp only [nStep, List.append_nil]
    refine ⟨h.reached, ?_, h.wire, h.replies, h.served, h.told, h.few, h.stores⟩
    obtain ⟨ts, hts⟩ := h.tokens
    refine ⟨ts ++ [.tick ms], ?_⟩
    rw [tokenRun_append, hts]
    simp only [tokenRun, tokenStep, List.append_nil]

theorem netInv_run (conns : List Nat) (now : Nat) (steps : List NStep) :
    NetInv conns now (nRun (RNet.new conns now) steps).1 (nRun (RNet.new conns now) steps).2 := by
  have h0 : NetInv conns now (RNet.new conns now) [] := by
    refine ⟨⟨[], rfl⟩, ⟨[], rfl⟩, by simp [RNet.new], by simp [RNet.new], by simp, by simp, ?_, ?_⟩
    · intro κ; simp [RNet.new, toldValid]
    · intro κ
      have : waitingStores κ (RSys.new conns) = 0 := by
        simp only [waitingStores, RSys.new, List.map_map]
        induction conns with
        | nil => rfl
        | cons c r ih => simpa using ih
      simp [RNet.new, this, additions, serverLog]
  simpa using nRun_inv (P := NetInv conns now) (fun s log x h => netInv_step h x) steps (RNet.new conns now) [] h0

end MCap
