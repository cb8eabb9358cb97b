import Verif.Proofs.RedisCalm
import Verif.Proofs.SystemStores
import Verif.Spec.RedisPayment

/-!
# Each request is served once, and each call stores at most one token
-/

namespace MCap
open Spec

/-! ### The server carries out each request at most once -/

/-- How often request `i` was carried out. -/
def servedN (i : Nat) (log : List NEvent) : Nat := log.countP fun e => match e with | .served j _ _ _ => j == i | _ => false

/-- How often request `i` waits at the actors. -/
def inboxN (i : Nat) (s : RSys) : Nat := (s.actors.map fun x => x.inbox.countP fun e => e.1 == i).sum

theorem servedN_append (i : Nat) (a b : List NEvent) : servedN i (a ++ b) = servedN i a + servedN i b := by simp [servedN]
theorem servedN_map (i : Nat) (l : List REvent) : servedN i (l.map .actor) = 0 := by
  simp only [servedN, List.countP_eq_zero, List.mem_map]
  rintro _ ⟨e, -, rfl⟩
  simp

theorem inbox_set (i : Nat) (s : RSys) (a : Nat) (x y : RActor) (h : s.actors[a]? = some x) :
    inboxN i (s.setActor a y) + x.inbox.countP (fun e => e.1 == i) = inboxN i s + y.inbox.countP (fun e => e.1 == i) :=
  sum_set (fun x : RActor => x.inbox.countP fun e : Nat × RMsg => e.1 == i) s.actors a x y h

theorem inbox_move {s s' : RSys} {ev : List REvent} (m : RMove s s' ev) (i : Nat) :
    s.next ≤ s'.next ∧ inboxN i s' ≤ inboxN i s + if s.next ≤ i ∧ i < s'.next then 1 else 0 := by
  cases m with
  | quiet s' ha hb hn =>
    refine ⟨hn, ?_⟩
    simp only [inboxN, ha]
    omega
  | refuse a m => exact ⟨Nat.le_refl _, Nat.le_add_right _ _⟩
  | post a x m hx hal =>
    have h0 := inbox_set i ({ s with next := s.next + 1 } : RSys) a x { x with inbox := x.inbox ++ [(s.next, m)] } hx
    have e : inboxN i ({ s with next := s.next + 1 } : RSys) = inboxN i s := rfl
    rw [e] at h0
    simp only [List.countP_append, List.countP_cons, List.countP_nil, beq_iff_eq] at h0
    refine ⟨Nat.le_succ _, ?_⟩
    have hn : ((({ s with next := s.next + 1 } : RSys).setActor a { x with inbox := x.inbox ++ [(s.next, m)] })).next = s.next + 1 := rfl
    rw [hn]
    by_cases hi : s.next = i
    · rw [if_pos hi] at h0
      rw [if_pos (by omega)]
      omega
    · rw [if_neg hi] at h0
      omega
  | die a x j m rest w hx hb hi hw =>
    have h0 := inbox_set i s a x (RSys.RActor.dead x) hx
    simp only [RSys.RActor.dead, List.countP_nil] at h0
    exact ⟨Nat.le_refl _, by simp only [RSys.RActor.dead]; omega⟩
  | now a x j m rest hx hb hi him =>
    have h0 := inbox_set i s a x { x with inbox := rest } hx
    simp only [hi, List.countP_cons] at h0
    exact ⟨Nat.le_refl _, by omega⟩
  | start a x j m rest hx hb hi ht him hcn =>
    have h0 := inbox_set i ({ s with borrowed := x.conn :: s.borrowed } : RSys) a x { x with inbox := rest, busy := some (j, m) } hx
    have e : inboxN i ({ s with borrowed := x.conn :: s.borrowed } : RSys) = inboxN i s := rfl
    simp only [hi, List.countP_cons] at h0
    exact ⟨Nat.le_refl _, by omega⟩
  | fail a x j m r w hx hb hw =>
    have h0 := inbox_set i ({ s with borrowed := s.borrowed.erase x.conn } : RSys) a x (RSys.RActor.dead x) hx
    have e : inboxN i ({ s with borrowed := s.borrowed.erase x.conn } : RSys) = inboxN i s := rfl
    simp only [RSys.RActor.dead, List.countP_nil] at h0
    exact ⟨Nat.le_refl _, by simp only [RSys.RActor.dead]; omega⟩
  | finish a x j m r ans hx hb ha =>
    have h0 := inbox_set i ({ s with borrowed := s.borrowed.erase x.conn } : RSys) a x { x with busy := none } hx
    have e : inboxN i ({ s with borrowed := s.borrowed.erase x.conn } : RSys) = inboxN i s := rfl
    simp only at h0
    exact ⟨Nat.le_refl _, by omega⟩

/-- What goes out was waiting. -/
theorem take_ids (s : RSys) (a : Nat) :
    RNet.newCommand (rStep s (.take a)).1 a (rStep s (.take a)).2 = [] ∨
    ∃ i m, RNet.newCommand (rStep s (.take a)).1 a (rStep s (.take a)).2 = [(i, m)] ∧ (rStep s (.take a)).1.next = s.next ∧
      ∀ j, inboxN j (rStep s (.take a)).1 + (if i = j then 1 else 0) = inboxN j s := by
  simp only [rStep]
  split
  · exact .inl rfl
  · rename_i x hx
    split
    · rename_i i m rest hb hi
      unfold RSys.onTake
      split
      · exact .inl rfl
      · split
        · exact .inl rfl
        · split
          · exact .inl rfl
          · refine .inr ⟨i, m, ?_, rfl, ?_⟩
            · simp only [RNet.newCommand]
              rw [getElem?_setActor ({ s with borrowed := x.conn :: s.borrowed } : RSys) a a x _ hx, if_pos rfl]
              rfl
            · intro j
              have h0 := inbox_set j ({ s with borrowed := x.conn :: s.borrowed } : RSys) a x { x with inbox := rest, busy := some (i, m) } hx
              have e : inboxN j ({ s with borrowed := x.conn :: s.borrowed } : RSys) = inboxN j s := rfl
              rw [hi, List.countP_cons, e] at h0
              simp only [beq_iff_eq] at h0 ⊢
              generalize List.countP (fun e : Nat × RMsg => e.1 == j) rest = c at h0
              omega
    · exact .inl rfl

/-- Every request is waiting, on its way, or carried out, once at most. -/
structure ServedOnce (s : RNet) (log : List NEvent) : Prop where
  le : ∀ i, servedN i log + s.wire.countP (fun e => e.1 == i) + inboxN i s.sys ≤ 1
  fresh : ∀ i, s.sys.next ≤ i → servedN i log + s.wire.countP (fun e => e.1 == i) + inboxN i s.sys = 0

theorem servedOnce_actors {s : RNet} {log : List NEvent} (h : ServedOnce s log) (y : RStep) :
    ServedOnce { s with sys := (rStep s.sys y).1 } (log ++ (rStep s.sys y).2.map .actor) := by
  constructor
  · intro i
    have hm := inbox_move (rStep_move s.sys y) i
    have h1 := h.le i
    have h2 := h.fresh i
    rw [servedN_append, servedN_map]
    simp only
    split at hm <;> omega
  · intro i hi
    have hm := inbox_move (rStep_move s.sys y) i
    simp only at hi
    have h2 := h.fresh i (by omega)
    rw [servedN_append, servedN_map]
    simp only
    rw [if_neg (by omega)] at hm
    omega

theorem servedOnce_step {s : RNet} {log : List NEvent} (h : ServedOnce s log) (x : NStep) : ServedOnce (nStep s x).1 (log ++ (nStep s x).2) := by
  cases x with
  | send a m => exact servedOnce_actors h (.send a m)
  | drop i => exact servedOnce_actors h (.drop i)
  | fail a e => exact servedOnce_actors h (.reply a (.error e))
  | tick ms => simpa [nStep] using ⟨h.le, h.fresh⟩
  | take a =>
    have h0 := servedOnce_actors h (.take a)
    simp only [nStep]
    rcases take_ids s.sys a with e | ⟨i, m, e, hn, hj⟩
    · rw [e, List.append_nil]; exact h0
    · rw [e]
      constructor
      · intro j
        have := h.le j
        have := hj j
        rw [servedN_append, servedN_map]
        simp only [List.countP_append, List.countP_cons, List.countP_nil, beq_iff_eq]
        omega
      · intro j hj'
        simp only [hn] at hj'
        have := h.fresh j hj'
        have := hj j
        rw [servedN_append, servedN_map]
        simp only [List.countP_append, List.countP_cons, List.countP_nil, beq_iff_eq]
        omega
  | serve k r =>
    simp only [nStep]
    cases hk : s.wire[k]? with
    | none => simpa using h
    | some e =>
      obtain ⟨i, m⟩ := e
      have he : ∀ j, ((s.wire.eraseIdx k).countP fun e => e.1 == j) + (if i = j then 1 else 0) = s.wire.countP fun e => e.1 == j := by
        intro j
        have := countP_eraseIdx (fun e : Nat × RMsg => e.1 == j) s.wire k (i, m) hk
        simpa using this
      have hs : ∀ j, servedN j [.served i m (RNet.onServe s.db m r).2 s.db.now] = if i = j then 1 else 0 := by
        intro j
        simp [servedN, List.countP_cons]
      constructor
      · intro j
        have := h.le j
        have := he j
        simp only
        rw [servedN_append, hs]
        omega
      · intro j hj
        have := h.fresh j hj
        have := he j
        simp only
        rw [servedN_append, hs]
        omega
  | deliver a k =>
    simp only [nStep]
    split
    · split
      · exact servedOnce_actors (s := { s with replies := s.replies.eraseIdx k }) ⟨h.le, h.fresh⟩ _
      · simpa using h
    · simpa using h

theorem servedOnce_run (conns : List Nat) (now : Nat) (steps : List NStep) :
    ServedOnce (nRun (RNet.new conns now) steps).1 (nRun (RNet.new conns now) steps).2 := by
  have h0 : ∀ i, inboxN i (RNet.new conns now).sys = 0 := by
    intro i
    simp only [RNet.new, RSys.new, inboxN, List.map_map]
    induction conns with
    | nil => rfl
    | cons c r ih => simpa using ih
  have := nRun_inv (P := ServedOnce) (fun _ _ x h => servedOnce_step h x) steps (RNet.new conns now) []
    ⟨fun i => by rw [h0]; simp [servedN, RNet.new], fun i _ => by rw [h0]; simp [servedN, RNet.new]⟩
  simpa using this

/-! ### A call stores at most one token -/

/-- The call will not store anything any more. -/
def past (c : Call) : Bool := !unstored c.pc || !c.live

theorem local_past {lib : PowLib} {i : Nat} {c c' : Call} {ev : List SEvent} (m : Local lib i c c' ev) (h : past c = true) : past c' = true := by
  have hs := (local_stores m).2
  have hl : c'.live = true → c.live = true := by
    cases m <;> first | exact fun e => e | (intro e; cases e)
  simp only [past, Bool.or_eq_true, Bool.not_eq_true'] at h ⊢
  cases hu : unstored c'.pc with
  | false => exact .inl rfl
  | true =>
    cases hv : c'.live with
    | false => exact .inr rfl
    | true =>
      rw [hs hu, hl hv] at h
      simp at h

/-- Calls that are past storing stay so. -/
def PastKept (l l' : List Call) : Prop :=
  l.length ≤ l'.length ∧ ∀ (k : Nat) (c c' : Call), l[k]? = some c → l'[k]? = some c' → past c = true → past c' = true

theorem past_refl (l : List Call) : PastKept l l := ⟨Nat.le_refl _, fun k c c' h h' hp => by rw [h] at h'; cases h'; exact hp⟩

theorem past_set {l : List Call} {i : Nat} {c c' : Call} (h : l[i]? = some c) (hp : past c = true → past c' = true) : PastKept l (l.set i c') := by
  refine ⟨by simp, ?_⟩
  intro k d d' hd hd' hpd
  rw [List.getElem?_set] at hd'
  split at hd'
  · rename_i hik
    subst hik
    rw [h] at hd; cases hd
    rw [if_pos (lt_of_some h)] at hd'
    cases hd'
    exact hp hpd
  · rw [hd] at hd'; cases hd'; exact hpd

theorem past_settle (l : List Call) (q : Queue) (ev : List QEvent) : PastKept l (l.mapIdx (Call.settle q ev)) := by
  refine ⟨by simp, ?_⟩
  intro k c c' hc hc' hp
  simp only [List.getElem?_mapIdx, hc, Option.map_some, Option.some.injEq] at hc'
  subst hc'
  simp only [past, settle_live] at hp ⊢
  rcases settle_pc q ev k c with e | ⟨cfg, e, -⟩
  · rw [e]; exact hp
  · rw [e] at hp
    simp only [unstored, Bool.not_true, Bool.false_or] at hp
    rw [hp, Bool.or_true]

theorem past_move {lib : PowLib} {p : Profile} {s s' : Sys} {ev : List SEvent} (m : Move lib p s s' ev) : PastKept s.calls s'.calls := by
  cases m with
  | idle => exact past_refl _
  | «local» i c c' _ hc m => exact past_set hc (local_past m)
  | start a hcl =>
    refine ⟨by simp, ?_⟩
    intro k c c' hc hc' hp
    simp only at hc'
    rw [List.getElem?_append_left (lt_of_some hc), hc] at hc'
    cases hc'; exact hp
  | cache i c m k hc h2 =>
    refine past_set hc ?_
    intro hp
    simp only [past, h2, unstored, Bool.not_true, Bool.false_or] at hp
    simp [past, hp]
  | submit i c work ip cfg hc h1 h2 hk hl hq hcl =>
    refine past_set hc ?_
    intro hp
    simp [past, h2, unstored, hl] at hp
  | panic i c cfg work ip hc h1 h2 hl hq hcl => exact past_set hc (fun _ => rfl)
  | queue qs hm => exact past_settle _ _ _
  | shutdown hs => exact past_settle _ _ _
  | expire k => exact past_refl _
  | tick d => exact past_refl _

theorem past_open (lib : PowLib) (p : Profile) (s : Sys) (x : OStep) : PastKept s.calls (openStep lib p s x).1.calls := by
  cases x with
  | sys st =>
    simp only [openStep]
    split
    · exact past_move (sysStep_move lib p s st)
    · exact past_refl _
  | cache i a =>
    simp only [openStep]
    split
    · exact past_refl _
    · split
      · rename_i c hc
        split
        · rename_i m k hpc hl
          have hp : past c = true → False := by simp [past, hpc, unstored, hl]
          cases a with
          | ok r =>
            simp only [Sys.onCacheAnswer]
            split
            · exact past_set hc (fun h => absurd h hp)
            · exact past_refl _
          | error e => exact past_set hc (fun _ => rfl)
        · exact past_refl _
      · exact past_refl _

/-- Call `k` asked, with request `id`, to store a token. -/
def StoreAsk (log : List ZEvent) (k id : Nat) : Prop := .asked k id ∈ log ∧ ∃ a m, .net (.actor (.sent a id (.cacheResult m))) ∈ log

/-- Calls ask once. -/
structure AskOnce (v : RService) (log : List ZEvent) : Prop where
  below : ∀ k id, .asked k id ∈ log → k < v.sys.calls.length
  same : ∀ k id id', StoreAsk log k id → StoreAsk log k id' → id = id'
  left : ∀ k id c, StoreAsk log k id → v.sys.calls[k]? = some c → v.waiting.get k = some id ∨ past c = true

/-- Steps with which no call asks. -/
theorem askOnce_quiet {v v' : RService} {log ev : List ZEvent} (h : AskOnce v log) (hc : PastKept v.sys.calls v'.sys.calls)
    (hk : ∀ k id, .asked k id ∉ ev) (hsent : ∀ k id, .asked k id ∈ log → ∃ a m, .net (.actor (.sent a id m)) ∈ log)
    (hone : ∀ a b id m m', .net (.actor (.sent a id m)) ∈ log ++ ev → .net (.actor (.sent b id m')) ∈ log ++ ev → m = m')
    (hw : ∀ k id c c', v.waiting.get k = some id → StoreAsk log k id → v.sys.calls[k]? = some c → v'.sys.calls[k]? = some c' →
      v'.waiting.get k = some id ∨ past c' = true) : AskOnce v' (log ++ ev) := by
  have hin : ∀ k id, .asked k id ∈ log ++ ev → .asked k id ∈ log := fun k id hm => (List.mem_append.1 hm).resolve_right (hk k id)
  have hst : ∀ k id, StoreAsk (log ++ ev) k id → StoreAsk log k id := by
    rintro k id ⟨h1, a, m, h2⟩
    have h1' := hin k id h1
    obtain ⟨b, m', h3⟩ := hsent k id h1'
    have e := hone _ _ _ _ _ h2 (List.mem_append_left _ h3)
    subst e
    exact ⟨h1', b, m, h3⟩
  refine ⟨?_, ?_, ?_⟩
  · intro k id hm
    exact Nat.lt_of_lt_of_le (h.below k id (hin k id hm)) hc.1
  · intro k id id' h1 h2
    exact h.same k id id' (hst k id h1) (hst k id' h2)
  · intro k id c' h1 hc'
    have h1' := hst k id h1
    have hlt := h.below k id h1'.1
    obtain ⟨c, hcc⟩ : ∃ c, v.sys.calls[k]? = some c := ⟨_, List.getElem?_eq_getElem hlt⟩
    rcases h.left k id c h1' hcc with h2 | h2
    · exact hw k id c c' h2 h1' hcc hc'
    · exact .inr (hc.2 k c c' hcc hc' h2)

theorem past_request {c : Call} {x : Nat × RMsg} (h : RService.request c = some x) (h' : past c = true) : False := by
  unfold RService.request at h
  split at h
  · rename_i h1 h2
    simp [past, h1, h2, unstored] at h'
  · rename_i h1 h2
    simp [past, h1, h2, unstored] at h'
  · cases h

/-- A call that has an answer to its request to store a token is past that. -/
theorem past_stored {lib : PowLib} {p : Profile} {n ql now : Nat} {conns : List Nat} {v : RService} {log : List ZEvent}
    (h : ZInv lib p n ql now conns v log) (hab : v.sys.queue.status ≠ .aborted) {i : Nat} {c c' : Call} {m : CacheResult} (hc : v.sys.calls[i]? = some c)
    (hr : RService.request c = some (0, .cacheResult m)) {x : CaptchaResult CacheReply} (hx : x = .ok .done ∨ ∃ e, x = .error e)
    (hc' : (openStep lib p v.sys (.cache i x)).1.calls[i]? = some c') : past c' = true := by
  obtain ⟨cm, k, e, hpc, hl⟩ := request_cache hr
  have hp := (zcall h.sys hc).2 cm k hpc
  cases cm <;> simp only [CacheMsg.toRedis, RMsg.cacheResult.injEq, reduceCtorEq] at e
  subst e
  have hk : ∃ t d, k = .storeResult t d := by
    cases k with
    | storePow cfg => obtain ⟨_, _, -, -, -, -, -, e⟩ := hp; cases e
    | check => obtain ⟨_, -, e⟩ := hp; cases e
    | retrieve => obtain ⟨_, _, -, e⟩ := hp; cases e
    | storeResult t d => exact ⟨t, d, rfl⟩
  obtain ⟨t, d, rfl⟩ := hk
  simp only [openStep, if_neg hab, hc, hpc, hl] at hc'
  rcases hx with rfl | ⟨e, rfl⟩
  · simp only [Sys.onCacheAnswer, CacheMsg.allows, if_true, Sys.setCall] at hc'
    rw [List.getElem?_set_self (lt_of_some hc)] at hc'
    cases hc'
    simp [past, unstored]
  · simp only [Sys.onCacheAnswer, Sys.setCall] at hc'
    rw [List.getElem?_set_self (lt_of_some hc)] at hc'
    cases hc'
    simp [past, unstored, Call.over]

theorem zinv_one {lib : PowLib} {p : Profile} {n ql now : Nat} {conns : List Nat} {v : RService} {log : List ZEvent} (h : ZInv lib p n ql now conns v log) :
    ∀ a b id m m', .net (.actor (.sent a id m)) ∈ log → .net (.actor (.sent b id m')) ∈ log → m = m' := by
  intro a b id m m' h1 h2
  obtain ⟨ns, hn⟩ := h.net
  have := rids_net conns now ns
  rw [hn] at this
  exact (this.once _ _ _ _ _ (mem_atActors.2 (mem_atRedis.2 h1)) (mem_atActors.2 (mem_atRedis.2 h2))).2

theorem askOnce_step (lib : PowLib) (p : Profile) (n ql now : Nat) (conns : List Nat) (s1 : List ZStep) (x : ZStep)
    (h : AskOnce (zRun lib p (RService.new n ql now conns) s1).1 (zLog lib p n ql now conns s1)) :
    AskOnce (zStep lib p (zRun lib p (RService.new n ql now conns) s1).1 x).1
      (zLog lib p n ql now conns s1 ++ (zStep lib p (zRun lib p (RService.new n ql now conns) s1).1 x).2) := by
  have hz : ZInv lib p n ql now conns (zRun lib p (RService.new n ql now conns) s1).1 (zLog lib p n ql now conns s1) := zinv_run lib p n ql now conns s1
  have hans : ∀ {id m ans}, .net (.actor (.answered 0 id (.cacheResult m) ans)) ∈ zLog lib p n ql now conns s1 → ans = .unit (.ok ()) := by
    intro id m ans hm
    rcases zlog_answer (lib := lib) (p := p) (n := n) (ql := ql) (now := now) (conns := conns) (steps := s1) (post := []) (List.append_nil _).symm hm with
      ⟨h1, -⟩ | ⟨r, t, -, ha⟩ | ⟨e, -, ha⟩
    · cases h1
    · obtain ⟨_, -, e⟩ := answer_cacheResult ha; exact e
    · obtain ⟨_, e, -⟩ := answer_cacheResult ha; cases e
  generalize zLog lib p n ql now conns s1 = log at *
  generalize (zRun lib p (RService.new n ql now conns) s1).1 = v at *
  by_cases hab : v.sys.queue.status = .aborted
  · have e : zStep lib p v x = (v, []) := by unfold zStep; rw [if_pos hab]
    rw [e]; simpa using h
  have hm := zStep_move lib p v x
  have hz' := zinv_move hz hm
  generalize (zStep lib p v x).1 = v' at *
  generalize (zStep lib p v x).2 = ev at *
  have hone := zinv_one hz'
  have hsent : ∀ k id, .asked k id ∈ log → ∃ a m, .net (.actor (.sent a id m)) ∈ log := by
    intro k id hk
    obtain ⟨a, m, h1, -⟩ := hz.asked k id hk
    exact ⟨a, m, h1⟩
  -- the call waiting for `id` is about to store
  have hreq : ∀ {i id c b r}, v.waiting.get i = some id → StoreAsk log i id → v.sys.calls[i]? = some c → RService.request c = some (b, r) →
      ∃ m, b = 0 ∧ r = .cacheResult m := by
    rintro i id c b r hw ⟨-, a, m, hs⟩ hc hr
    obtain ⟨c', a', m', hc', hr', hs', -⟩ := hz.waiting i id hw
    rw [hc] at hc'; cases hc'
    rw [hr] at hr'; cases hr'
    have e := zinv_one hz _ _ _ _ _ hs hs'
    subst e
    rcases request_two hr with rfl | rfl
    · exact ⟨m, rfl, rfl⟩
    · obtain ⟨_, e, -⟩ := request_master hr
      cases e
  cases hm with
  | idle x => simpa using h
  | sys st hd =>
    exact askOnce_quiet h (past_open lib p v.sys _) (by simp) hsent hone (fun k id c c' hw _ _ _ => .inl hw)
  | net st hm => exact askOnce_quiet h (past_refl _) (by simp) hsent hone (fun k id c c' hw _ _ _ => .inl hw)
  | ask i c a m id hc hw hr hev =>
    have hin : ∀ j k, .asked j k ∈ log ++ [ZEvent.net (.actor (.sent a id m)), .asked i id] → .asked j k ∈ log ∨ (j = i ∧ k = id) := by
      intro j k hk
      rcases List.mem_append.1 hk with hk | hk
      · exact .inl hk
      · simp at hk; exact .inr hk
    have hst : ∀ j k, StoreAsk (log ++ [ZEvent.net (.actor (.sent a id m)), .asked i id]) j k → StoreAsk log j k ∨ (j = i ∧ k = id) := by
      rintro j k ⟨h1, b, m', h2⟩
      rcases hin j k h1 with h1' | h1'
      · obtain ⟨b', m'', h3⟩ := hsent j k h1'
        have e := hone _ _ _ _ _ h2 (List.mem_append_left _ h3)
        subst e
        exact .inl ⟨h1', b', _, h3⟩
      · exact .inr h1'
    have hno : ∀ k, ¬ StoreAsk log i k := by
      intro k hk
      rcases h.left i k c hk hc with h1 | h1
      · rw [hw] at h1; cases h1
      · exact past_request hr h1
    refine ⟨?_, ?_, ?_⟩
    · intro j k hk
      rcases hin j k hk with hk | ⟨rfl, rfl⟩
      · exact h.below j k hk
      · exact lt_of_some hc
    · intro j k k' h1 h2
      rcases hst j k h1 with h3 | ⟨hj, hk⟩ <;> rcases hst _ k' h2 with h4 | ⟨hj', hk'⟩
      · exact h.same j k k' h3 h4
      · subst hj'; exact absurd h3 (hno k)
      · subst hj; exact absurd h4 (hno k')
      · rw [hk, hk']
    · intro j k d h1 hd
      simp only at hd ⊢
      rw [AMap.get_insert]
      rcases hst j k h1 with h1 | ⟨rfl, rfl⟩
      · rcases h.left j k d h1 hd with h2 | h2
        · split
          · rename_i hij
            subst hij
            exact absurd h1 (hno k)
          · exact .inl h2
        · exact .inr h2
      · rw [if_pos rfl]; exact .inl rfl
  | refused i c a m st hc hw hr hs hd hst =>
    exact askOnce_quiet h (past_open lib p v.sys _) (by simp) hsent hone (fun k id c c' hw _ _ _ => .inl hw)
  | hear i c a m id st g hc hw hr hh =>
    refine askOnce_quiet h (past_open lib p v.sys _) (by simp) hsent hone ?_
    intro k id' d d' hwk hsa hd hd'
    by_cases hik : k = i
    · subst hik
      rw [hw] at hwk; cases hwk
      rw [hc] at hd; cases hd
      obtain ⟨m', rfl, rfl⟩ := hreq hw hsa hc hr
      right
      rcases heard_cases hz hc hw hr hh with ⟨-, x, rfl, hx⟩ | ⟨h1, -⟩
      · refine past_stored hz hab hc hr ?_ hd'
        rcases hx with ⟨ans, h1, h2⟩ | ⟨h1 | h1, -⟩
        · rw [hans h1] at h2
          simp only [RAnswer.toCache, Except.map, Option.some.injEq] at h2
          exact .inl h2.symm
        · exact .inr ⟨_, h1⟩
        · exact .inr ⟨_, h1⟩
      · cases h1
    · left
      simp only
      rw [(erased_waiting v.waiting i).2 k hik]
      exact hwk
  | give i c id hc hl hpc hw =>
    refine askOnce_quiet h (past_open lib p v.sys _) (by simp) hsent hone ?_
    intro k id' d d' hwk hsa hd hd'
    by_cases hik : k = i
    · subst hik
      rw [hc] at hd; cases hd
      right
      simp only [openStep, SStep.noCache, if_true, sysStep, if_neg hab, hc, hl, hpc, ne_eq, not_false_eq_true, and_self, Sys.setCall] at hd'
      rw [List.getElem?_set_self (lt_of_some hc)] at hd'
      cases hd'
      simp [past]
    · left
      simp only
      rw [(erased_waiting v.waiting i).2 k hik]
      exact hwk
  | cancel i c hc hw =>
    exact askOnce_quiet h (past_open lib p v.sys _) (by simp) hsent hone (fun k id c c' hw _ _ _ => .inl hw)

theorem askOnce_run (lib : PowLib) (p : Profile) (n ql now : Nat) (conns : List Nat) (steps : List ZStep) :
    AskOnce (zRun lib p (RService.new n ql now conns) steps).1 (zLog lib p n ql now conns steps) := by
  suffices h : ∀ (s2 s1 : List ZStep), AskOnce (zRun lib p (RService.new n ql now conns) s1).1 (zLog lib p n ql now conns s1) →
      AskOnce (zRun lib p (RService.new n ql now conns) (s1 ++ s2)).1 (zLog lib p n ql now conns (s1 ++ s2)) by
    have := h steps [] ⟨fun k id h => absurd h List.not_mem_nil, fun k id id' h => absurd h.1 List.not_mem_nil, fun k id c h => absurd h.1 List.not_mem_nil⟩
    simpa using this
  intro s2
  induction s2 with
  | nil => intro s1 h; simpa using h
  | cons x r ih =>
    intro s1 h
    have := ih (s1 ++ [x]) (by
      have h1 := askOnce_step lib p n ql now conns s1 x h
      have e : zRun lib p (RService.new n ql now conns) (s1 ++ [x]) =
          ((zStep lib p (zRun lib p (RService.new n ql now conns) s1).1 x).1,
            (zRun lib p (RService.new n ql now conns) s1).2 ++ (zStep lib p (zRun lib p (RService.new n ql now conns) s1).1 x).2) := by
        rw [zRun_append]; simp [zRun]
      rw [zLog, e]
      exact h1)
    simpa using this

/-! ### When a call asked -/

/-- A request that a call asked for was not carried out before, and what it needed was there. -/
theorem asked_when {lib : PowLib} {p : Profile} {n ql now : Nat} {conns : List Nat} {steps : List ZStep} {k id : Nat}
    (h : .asked k id ∈ zLog lib p n ql now conns steps) :
    ∃ s1 post a m, zLog lib p n ql now conns steps = zLog lib p n ql now conns s1 ++ .net (.actor (.sent a id m)) :: .asked k id :: post ∧
      ZAsk lib (zLog lib p n ql now conns s1) k a m ∧ ∀ m' r t, .net (.served id m' r t) ∉ zLog lib p n ql now conns s1 := by
  obtain ⟨pre, post, hs⟩ := List.append_of_mem h
  obtain ⟨s1, x, s2, e1, e2, hst, hpre, he⟩ := zRun_split lib p _ steps hs
  have hz := zinv_run lib p n ql now conns s1
  have hm := zStep_move lib p (zRun lib p (RService.new n ql now conns) s1).1 x
  rw [he] at hm
  generalize hg : e1 ++ ZEvent.asked k id :: e2 = ev at hm
  generalize (zStep lib p (zRun lib p (RService.new n ql now conns) s1).1 x).1 = v' at hm
  have hmem : ZEvent.asked k id ∈ ev := by rw [← hg]; simp
  cases hm with
  | idle => simp at hmem
  | sys st hd => simp at hmem
  | net st hm => simp at hmem
  | refused => simp at hmem
  | hear => simp at hmem
  | give => simp at hmem
  | cancel => simp at hmem
  | ask i c a m id' hc hw hr hev =>
    simp at hmem
    obtain ⟨rfl, rfl⟩ := hmem
    have he1 : e1 = [ZEvent.net (.actor (.sent a id m))] := by
      cases e1 with
      | nil => simp at hg
      | cons y r =>
        cases r with
        | nil => simp at hg; rw [hg.1]
        | cons z w => simp at hg
    refine ⟨s1, post, a, m, ?_, ?_, ?_⟩
    · rw [hs, hpre, he1]; simp
    · obtain ⟨hcall, hpend⟩ := zcall hz.sys hc
      refine ⟨c.api, mem_atCalls.1 hcall, ?_⟩
      rcases request_two hr with rfl | rfl
      · obtain ⟨cm, st, rfl, hpc, -⟩ := request_cache hr
        exact .inr ⟨cm, st, rfl, rfl, hpend cm st hpc⟩
      · obtain ⟨site, rfl, hapi, -, -⟩ := request_master hr
        exact .inl ⟨site, hapi, rfl, rfl⟩
    · intro m' r t hserved
      obtain ⟨ns, hn⟩ := hz.net
      have h1 := rids_net conns now ns
      have h2 := (netInv_run conns now ns).served id m' r t (by rw [hn]; exact mem_atRedis.2 hserved)
      obtain ⟨⟨b, hb⟩, -⟩ := h2
      have h3 := h1.below b id m' (mem_atActors.2 hb)
      have h4 : id = (zRun lib p (RService.new n ql now conns) s1).1.net.sys.next := by
        rcases send_cases (zRun lib p (RService.new n ql now conns) s1).1.net a m with h | h | ⟨h, -⟩
        · rw [h] at hev; cases hev
        · rw [h] at hev; simp at hev; exact hev.symm
        · rw [h] at hev; simp at hev
      rw [hn] at h3
      simp only at h3
      omega

/-! ### From the history of the tokens back to the requests -/

/-- What an event means for the tokens. -/
def zTokens : ZEvent → List TokenEvent
  | .net e => tokenEvents e
  | _ => []

theorem serverLog_z (log : List ZEvent) : serverLog (atRedis log) = log.flatMap zTokens := by
  induction log with
  | nil => rfl
  | cons e r ih =>
    cases e with
    | net e =>
      simp only [atRedis, List.filterMap_cons, List.flatMap_cons, zTokens, serverLog] at ih ⊢
      rw [← ih]
    | _ => simpa [atRedis, zTokens] using ih

theorem zTokens_one (e : ZEvent) : zTokens e = [] ∨ ∃ x, zTokens e = [x] := by
  cases e with
  | net e =>
    simp only [zTokens, tokenEvents]
    split
    · exact .inr ⟨_, rfl⟩
    · exact .inr ⟨_, rfl⟩
    · split <;> exact .inr ⟨_, rfl⟩
    · exact .inl rfl
  | _ => exact .inl rfl

theorem flatMap_split {log : List ZEvent} {a b : List TokenEvent} {x : TokenEvent} (h : log.flatMap zTokens = a ++ x :: b) :
    ∃ l1 e l2, log = l1 ++ e :: l2 ∧ zTokens e = [x] ∧ l1.flatMap zTokens = a ∧ l2.flatMap zTokens = b := by
  induction log generalizing a with
  | nil => simp at h
  | cons e r ih =>
    rw [List.flatMap_cons] at h
    rcases zTokens_one e with h0 | ⟨y, h0⟩
    · rw [h0, List.nil_append] at h
      obtain ⟨l1, e', l2, h1, h2, h3, h4⟩ := ih h
      exact ⟨e :: l1, e', l2, by rw [h1]; rfl, h2, by rw [List.flatMap_cons, h0, h3]; rfl, h4⟩
    · rw [h0] at h
      cases a with
      | nil =>
        simp at h
        obtain ⟨rfl, h⟩ := h
        exact ⟨[], e, r, rfl, h0, rfl, h⟩
      | cons z a =>
        simp at h
        obtain ⟨rfl, h⟩ := h
        obtain ⟨l1, e', l2, h1, h2, h3, h4⟩ := ih h
        exact ⟨e :: l1, e', l2, by rw [h1]; rfl, h2, by rw [List.flatMap_cons, h0, h3]; rfl, h4⟩

theorem zTokens_added {e : ZEvent} {m : CacheResult} {t : Nat} (h : zTokens e = [.added m t]) : ∃ id y, e = .net (.served id (.cacheResult m) (.ok y) t) := by
  cases e with
  | net e =>
    simp only [zTokens, tokenEvents] at h
    split at h
    · cases h; exact ⟨_, _, rfl⟩
    · cases h
    · split at h <;> cases h
    · cases h
  | _ => cases h

theorem touches_concerns {κ : String} {log : List ZEvent} (hv : ∀ id v r t, .net (.served id (.verify v) r t) ∈ log → ∃ b : Bool, r = .ok (.int (if b then 1 else 0)))
    (h : ∀ x ∈ log.flatMap zTokens, ¬ Concerns κ x) : ∀ e ∈ log, ¬ touchesToken κ e := by
  intro e he ht
  unfold touchesToken at ht
  split at ht
  · exact h (.added _ _) (List.mem_flatMap.2 ⟨_, he, by simp [zTokens, tokenEvents]; rfl⟩) ht
  · rename_i id v r t
    obtain ⟨b, rfl⟩ := hv _ _ _ _ he
    cases b
    · exact h (.answered v (.ok false) t) (List.mem_flatMap.2 ⟨_, he, by simp [zTokens, tokenEvents]⟩) ht
    · exact h (.answered v (.ok true) t) (List.mem_flatMap.2 ⟨_, he, by simp [zTokens, tokenEvents]⟩) ht
  · exact ht

/-- An event that can happen once happens at one place. -/
theorem one_place {i : Nat} {log a b a' b' : List ZEvent} {m m' : RMsg} {r r' : RResult} {t t' : Nat} (h1 : servedN i (atRedis log) ≤ 1)
    (h2 : log = a ++ .net (.served i m r t) :: b) (h3 : log = a' ++ .net (.served i m' r' t') :: b') :
    a = a' ∧ m = m' ∧ r = r' ∧ t = t' ∧ b = b' := by
  have hs : ∀ (x y : List ZEvent) m r t, servedN i (atRedis (x ++ .net (.served i m r t) :: y)) = servedN i (atRedis x) + 1 + servedN i (atRedis y) := by
    intro x y m r t
    rw [show x ++ ZEvent.net (.served i m r t) :: y = (x ++ [.net (.served i m r t)]) ++ y by simp, atRedis_append, atRedis_append, servedN_append, servedN_append]
    simp [atRedis, servedN]
  have e := h2.symm.trans h3
  rcases append_split e with ⟨c, h4, h5⟩ | ⟨c, h4, h5⟩
  · exfalso
    have := hs a b m r t
    rw [← h2] at this
    rw [h4, hs] at this
    omega
  · cases c with
    | nil =>
      simp at h4 h5
      exact ⟨h4.symm, h5.1.1, h5.1.2.1, h5.1.2.2, h5.2⟩
    | cons z c =>
      exfalso
      simp only [List.cons_append, List.cons.injEq] at h5
      have := hs a b m r t
      rw [← h2, h5.2, hs] at this
      omega

theorem zlog_servedOnce (lib : PowLib) (p : Profile) (n ql now : Nat) (conns : List Nat) (steps : List ZStep) (i : Nat) :
    servedN i (atRedis (zLog lib p n ql now conns steps)) ≤ 1 := by
  obtain ⟨ns, hn⟩ := (zinv_run lib p n ql now conns steps).net
  have := (servedOnce_run conns now ns).le i
  rw [hn] at this
  simp only at this
  exact Nat.le_trans (Nat.le_trans (Nat.le_add_right _ _) (Nat.le_add_right _ _)) this

end MCap
