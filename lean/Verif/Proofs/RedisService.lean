import Verif.Spec.RedisService
import Verif.Proofs.OpenSystem
import Verif.Proofs.RedisNet

/-!
# Facts about a whole service on Redis
-/

namespace MCap
open Spec

/-! ### Requests have numbers of their own, and the dead have crashed -/

/-- Numbers of requests, and actors that died. -/
structure RIds (s : RSys) (log : List REvent) : Prop where
  below : ∀ a i m, .sent a i m ∈ log → i < s.next
  once : ∀ a i m b m', .sent a i m ∈ log → .sent b i m' ∈ log → a = b ∧ m = m'
  dead : ∀ (a : Nat) (x : RActor), s.actors[a]? = some x → x.alive = false → ∃ i w, .crashed a i w ∈ log

theorem rids_log {s s' : RSys} {log ev : List REvent} (h : RIds s log) (hn : s.next ≤ s'.next) (hs : ∀ a i m, .sent a i m ∉ ev)
    (hd : ∀ (a : Nat) (x : RActor), s'.actors[a]? = some x → x.alive = false →
      (∃ y, s.actors[a]? = some y ∧ y.alive = false) ∨ ∃ i w, .crashed a i w ∈ ev) : RIds s' (log ++ ev) := by
  have hm : ∀ a i m, .sent a i m ∈ log ++ ev → .sent a i m ∈ log := by
    intro a i m h
    exact (List.mem_append.1 h).elim id fun h => absurd h (hs a i m)
  refine ⟨?_, ?_, ?_⟩
  · intro a i m hi
    exact Nat.lt_of_lt_of_le (h.below a i m (hm a i m hi)) hn
  · intro a i m b m' h1 h2
    exact h.once a i m b m' (hm _ _ _ h1) (hm _ _ _ h2)
  · intro a x hx ha
    rcases hd a x hx ha with ⟨y, h1, h2⟩ | ⟨i, w, h1⟩
    · obtain ⟨i, w, h3⟩ := h.dead a y h1 h2
      exact ⟨i, w, List.mem_append_left _ h3⟩
    · exact ⟨i, w, List.mem_append_right _ h1⟩

theorem rids_move {s s' : RSys} {log ev : List REvent} (h : RIds s log) (m : RMove s s' ev) : RIds s' (log ++ ev) := by
  have hset : ∀ (t : RSys) (a : Nat) (x y : RActor) (ev : List REvent), t.actors = s.actors → s.next ≤ t.next → s.actors[a]? = some x → (∀ b i m, .sent b i m ∉ ev) →
      (y.alive = x.alive ∨ ∃ i w, .crashed a i w ∈ ev) → RIds (t.setActor a y) (log ++ ev) := by
    intro t a x y ev ht hn hx hs hy
    refine rids_log h hn hs ?_
    intro b z hz hal
    rw [getElem?_setActor t a b x y (by rw [ht]; exact hx)] at hz
    split at hz
    · rename_i hab
      subst hab
      cases hz
      rcases hy with hy | hy
      · exact .inl ⟨x, hx, by rw [← hy]; exact hal⟩
      · exact .inr hy
    · exact .inl ⟨z, by rw [← ht]; exact hz, hal⟩
  cases m with
  | quiet s' h1 h2 h3 => exact rids_log h h3 (by simp) (fun a x hx ha => .inl ⟨x, by rw [← h1]; exact hx, ha⟩)
  | refuse a m => exact rids_log h (Nat.le_refl _) (by simp) (fun a x hx ha => .inl ⟨x, hx, ha⟩)
  | post a x m hx hal =>
    have hm : ∀ b i m', .sent b i m' ∈ log ++ [REvent.sent a s.next m] → .sent b i m' ∈ log ∨ (b = a ∧ i = s.next ∧ m' = m) := by
      intro b i m' h
      rcases List.mem_append.1 h with h | h
      · exact .inl h
      · simp at h; exact .inr h
    refine ⟨?_, ?_, ?_⟩
    · intro b i m' hb
      rcases hm b i m' hb with hb | ⟨-, rfl, -⟩
      · exact Nat.lt_succ_of_lt (h.below b i m' hb)
      · exact Nat.lt_succ_self _
    · intro b i m1 c m2 h1 h2
      rcases hm _ _ _ h1 with h1' | ⟨rfl, hi, rfl⟩ <;> rcases hm _ _ _ h2 with h2' | ⟨rfl, hi', rfl⟩
      · exact h.once b i m1 c m2 h1' h2'
      · have := h.below _ _ _ h1'; omega
      · have := h.below _ _ _ h2'; omega
      · exact ⟨rfl, rfl⟩
    · intro b z hz hz'
      rw [getElem?_setActor _ a b x _ (by exact hx)] at hz
      split at hz
      · cases hz
        rw [hal] at hz'; cases hz'
      · obtain ⟨i, w, h3⟩ := h.dead b z hz hz'
        exact ⟨i, w, List.mem_append_left _ h3⟩
  | die a x i m rest w hx hb hi hw => exact hset s a x _ _ rfl (Nat.le_refl _) hx (by simp) (.inr ⟨i, w, by simp⟩)
  | now a x i m rest hx hb hi him => exact hset s a x _ _ rfl (Nat.le_refl _) hx (by simp) (.inl rfl)
  | start a x i m rest hx hb hi ht him hc => exact hset _ a x _ _ rfl (Nat.le_refl _) hx (by simp) (.inl rfl)
  | fail a x i m r w hx hb hw => exact hset _ a x _ _ rfl (Nat.le_refl _) hx (by simp) (.inr ⟨i, w, by simp⟩)
  | finish a x i m r ans hx hb ha => exact hset _ a x _ _ rfl (Nat.le_refl _) hx (by simp) (.inl rfl)

theorem rids_run (conns : List Nat) (steps : List RStep) : RIds (rRun (RSys.new conns) steps).1 (rRun (RSys.new conns) steps).2 := by
  refine rRun_new_inv (P := RIds) (fun _ _ _ _ h m => rids_move h m) steps conns ⟨by simp, by simp, ?_⟩
  intro a x hx ha
  simp only [RSys.new, List.getElem?_map, Option.map_eq_some_iff] at hx
  obtain ⟨c, -, rfl⟩ := hx
  cases ha

theorem rids_net (conns : List Nat) (now : Nat) (steps : List NStep) :
    RIds (nRun (RNet.new conns now) steps).1.sys (atActors (nRun (RNet.new conns now) steps).2) := by
  obtain ⟨ys, hy⟩ := (netInv_run conns now steps).reached
  have := rids_run conns ys
  rwa [hy] at this

theorem prov_net (conns : List Nat) (now : Nat) (steps : List NStep) :
    ProvInv (nRun (RNet.new conns now) steps).1.sys (atActors (nRun (RNet.new conns now) steps).2) := by
  obtain ⟨ys, hy⟩ := (netInv_run conns now steps).reached
  have := provInv_run conns ys
  rwa [hy] at this

/-! ### What the requests of calls are -/

theorem request_cache {c : Call} {m : RMsg} (h : RService.request c = some (0, m)) :
    ∃ cm k, m = cm.toRedis ∧ c.pc = .awaitCache cm k ∧ c.live = true := by
  unfold RService.request at h
  split at h
  · simp at h
  · rename_i hpc hl
    simp at h
    exact ⟨_, _, h.symm, hpc, hl⟩
  · cases h

theorem request_master {c : Call} {m : RMsg} (h : RService.request c = some (1, m)) :
    ∃ id, m = .addVisitor id ∧ c.api = .get id ∧ c.pc = .awaitMaster ∧ c.live = true := by
  unfold RService.request at h
  split at h
  · rename_i id h1 h2 h3
    simp at h
    exact ⟨id, h.symm, h1, h2, h3⟩
  · simp at h
  · cases h

theorem request_two {c : Call} {a : Nat} {m : RMsg} (h : RService.request c = some (a, m)) : a = 0 ∨ a = 1 := by
  unfold RService.request at h
  split at h <;> simp at h
  · exact .inr h.1.symm
  · exact .inl h.1.symm

theorem toRedis_inj {a b : CacheMsg} (h : a.toRedis = b.toRedis) : a = b := by
  cases a <;> cases b <;> simp [CacheMsg.toRedis] at h <;> rw [h]

/-! ### Steps of the calls -/

/-- Requests of calls are as before. -/
def Keeps (l l' : List Call) : Prop :=
  ∀ (i : Nat) (c : Call), l[i]? = some c → (RService.request c).isSome = true → ∃ c', l'[i]? = some c' ∧ RService.request c' = RService.request c

theorem keeps_refl (l : List Call) : Keeps l l := fun _ c h _ => ⟨c, h, rfl⟩

theorem request_of_pc {c : Call} (h : ∀ m k, c.pc ≠ .awaitCache m k) (h' : c.pc ≠ .awaitMaster) : RService.request c = none := by
  unfold RService.request
  split
  · rename_i h2 _; exact absurd h2 h'
  · rename_i h2 _; exact absurd h2 (h _ _)
  · rfl

theorem keeps_set {l : List Call} {i : Nat} {c c' : Call} (h : l[i]? = some c) (hr : RService.request c = none ∨ RService.request c' = RService.request c) :
    Keeps l (l.set i c') := by
  intro j d hd hs
  rw [List.getElem?_set]
  split
  · rename_i hij
    subst hij
    rw [h] at hd; cases hd
    rcases hr with hr | hr
    · rw [hr] at hs; cases hs
    · exact ⟨c', by rw [if_pos (lt_of_some h)], hr⟩
  · exact ⟨d, hd, rfl⟩

theorem keeps_mapIdx {l : List Call} {f : Nat → Call → Call} (h : ∀ i c, RService.request (f i c) = RService.request c) : Keeps l (l.mapIdx f) := by
  intro i c hc _
  exact ⟨f i c, by simp [hc], h i c⟩

theorem request_congr {c c' : Call} (h1 : c'.api = c.api) (h2 : c'.pc = c.pc) (h3 : c'.live = c.live) : RService.request c' = RService.request c := by
  unfold RService.request
  rw [h1, h2, h3]

theorem settle_request (q : Queue) (ev : List QEvent) (i : Nat) (c : Call) : RService.request (c.settle q ev i) = RService.request c := by
  rcases settle_pc q ev i c with h | ⟨cfg, h, h' | h' | h'⟩
  · exact request_congr (settle_api q ev i c) h (settle_live q ev i c)
  all_goals
    rw [request_of_pc (by rw [h'.1]; simp) (by rw [h'.1]; simp), request_of_pc (by rw [h]; simp) (by rw [h]; simp)]

/-- Events of calls that are no answers of back ends. -/
def plain : SEvent → Bool
  | .cache _ _ _ => false
  | .master _ _ => false
  | _ => true

theorem returns_plain (s : Sys) (i : Nat) (c : Call) (r : Ret) : (s.returns i c r).2.all plain = true := rfl

theorem queue_plain (l : List QEvent) : (l.map SEvent.queue).all plain = true := by
  simp [plain]

theorem direct_step (lib : PowLib) (p : Profile) (s : Sys) (st : SStep) (h : RService.direct st = true) :
    (sysStep lib p s st).2.all plain = true ∧ Keeps s.calls (sysStep lib p s st).1.calls := by
  have hret : ∀ i c d r, s.calls[i]? = some c → (RService.request c = none) → (s.returns i d r).2.all plain = true ∧ Keeps s.calls (s.returns i d r).1.calls :=
    fun i c d r hc hr => ⟨rfl, keeps_set hc (.inl hr)⟩
  have hid : ([] : List SEvent).all plain = true ∧ Keeps s.calls s.calls := ⟨rfl, keeps_refl _⟩
  unfold sysStep
  split
  · exact hid
  · split
    · split
      · exact hid
      · refine ⟨rfl, ?_⟩
        intro i c hc _
        exact ⟨c, by simp only; rw [List.getElem?_append_left (lt_of_some hc)]; exact hc, rfl⟩
    · cases h
    · cases h
    · cases h
    · split
      · rename_i i _ c hc
        split
        · unfold Sys.onResume
          split
          · rename_i hpc
            exact hret i c _ _ hc (request_of_pc (by rw [hpc]; simp) (by rw [hpc]; simp))
          · rename_i hpc _
            have hq := request_of_pc (c := c) (by rw [hpc]; simp) (by rw [hpc]; simp)
            unfold Sys.onRetrieved
            split
            · exact hret i c _ _ hc hq
            · split
              · exact hret i c _ _ hc hq
              · simp only
                split
                · exact ⟨queue_plain _, keeps_set hc (.inl hq)⟩
                · exact ⟨rfl, keeps_set hc (.inl hq)⟩
          · rename_i hpc
            exact hret i c _ _ hc (request_of_pc (by rw [hpc]; simp) (by rw [hpc]; simp))
          · rename_i hpc
            exact hret i c _ _ hc (request_of_pc (by rw [hpc]; simp) (by rw [hpc]; simp))
          · rename_i hpc
            exact ⟨rfl, keeps_set hc (.inl (request_of_pc (by rw [hpc]; simp) (by rw [hpc]; simp)))⟩
          · rename_i hpc
            exact hret i c _ _ hc (request_of_pc (by rw [hpc]; simp) (by rw [hpc]; simp))
          · rename_i hpc
            exact hret i c _ _ hc (request_of_pc (by rw [hpc]; simp) (by rw [hpc]; simp))
          · exact hid
        · exact hid
      · exact hid
    · split
      · rename_i i g _ c hc
        split
        · unfold Sys.onPoll
          split
          · rename_i hpc hj
            have hq := request_of_pc (c := c) (by rw [hpc]; simp) (by rw [hpc]; simp)
            simp only
            split
            · exact ⟨rfl, keeps_set hc (.inl hq)⟩
            · exact hret i c _ _ hc hq
            · exact hret i c _ _ hc hq
            · exact ⟨rfl, keeps_set hc (.inl hq)⟩
          · exact hid
        · exact hid
      · exact hid
    · split
      · exact ⟨queue_plain _, keeps_mapIdx fun i c => settle_request _ _ i c⟩
      · exact hid
    · refine ⟨rfl, ?_⟩
      simp only [Sys.onWork]
      split
      · split
        · rename_i j _ _ c hc
          split
          · split
            · exact keeps_refl _
            · exact keeps_set hc (.inr (request_congr rfl rfl rfl))
          · exact keeps_refl _
        · exact keeps_refl _
      · exact keeps_refl _
    · cases h
    · cases h
    · cases h
    · split
      · exact ⟨queue_plain _, keeps_mapIdx fun i c => settle_request _ _ i c⟩
      · exact hid

/-- Another call's requests are as before. -/
def KeepsBut (i : Nat) (l l' : List Call) : Prop := ∀ j : Nat, j ≠ i → l'[j]? = l[j]?

theorem keepsBut_refl (i : Nat) (l : List Call) : KeepsBut i l l := fun _ _ => rfl
theorem keepsBut_set (i : Nat) (l : List Call) (c : Call) : KeepsBut i l (l.set i c) := by
  intro j hj
  rw [List.getElem?_set_ne (Ne.symm hj)]

theorem cancel_step (lib : PowLib) (p : Profile) (s : Sys) (i : Nat) :
    (sysStep lib p s (.cancel i)).2.all plain = true ∧ KeepsBut i s.calls (sysStep lib p s (.cancel i)).1.calls := by
  unfold sysStep
  split
  · exact ⟨rfl, keepsBut_refl _ _⟩
  · simp only
    split
    · split
      · exact ⟨rfl, keepsBut_set _ _ _⟩
      · exact ⟨rfl, keepsBut_refl _ _⟩
    · exact ⟨rfl, keepsBut_refl _ _⟩

theorem master_step (lib : PowLib) (p : Profile) (s : Sys) (i : Nat) (a : MasterAnswer) (g : Rng) :
    KeepsBut i s.calls (sysStep lib p s (.master i a g)).1.calls ∧
    ((sysStep lib p s (.master i a g)).2 = [] ∨ ∃ ev, (sysStep lib p s (.master i a g)).2 = .master i a :: ev ∧ ev.all plain = true) := by
  unfold sysStep
  split
  · exact ⟨keepsBut_refl _ _, .inl rfl⟩
  · simp only
    split
    · split
      · rename_i c hc _ _ _ id _ _ _
        refine ⟨?_, .inr ⟨_, rfl, ?_⟩⟩
        · rcases a with _ | _ | (_ | (_ | r)) <;> exact keepsBut_set _ _ _
        · rcases a with _ | _ | (_ | (_ | r)) <;> rfl
      · exact ⟨keepsBut_refl _ _, .inl rfl⟩
    · exact ⟨keepsBut_refl _ _, .inl rfl⟩

theorem hearing_step (lib : PowLib) (p : Profile) (s : Sys) (i : Nat) (a : CaptchaResult CacheReply) :
    KeepsBut i s.calls (openStep lib p s (.cache i a)).1.calls ∧
    ((openStep lib p s (.cache i a)).2 = [] ∨
     ∃ c m k, s.calls[i]? = some c ∧ c.pc = .awaitCache m k ∧ c.live = true ∧
      ((∃ r, a = .ok r ∧ (openStep lib p s (.cache i a)).2 = [.api (.cache (some (i, c.api)) m r)]) ∨
       ∃ e, a = .error e ∧ (openStep lib p s (.cache i a)).2 = [.failed i m e, .api (.ret i c.api (c.api.fails e))])) := by
  simp only [openStep]
  split
  · exact ⟨keepsBut_refl _ _, .inl rfl⟩
  · split
    · rename_i c hc
      split
      · rename_i m k hpc hl
        cases a with
        | ok r =>
          simp only [Sys.onCacheAnswer]
          split
          · exact ⟨keepsBut_set _ _ _, .inr ⟨c, m, k, hc, hpc, hl, .inl ⟨r, rfl, rfl⟩⟩⟩
          · exact ⟨keepsBut_refl _ _, .inl rfl⟩
        | error e => exact ⟨keepsBut_set _ _ _, .inr ⟨c, m, k, hc, hpc, hl, .inr ⟨e, rfl, rfl⟩⟩⟩
      · exact ⟨keepsBut_refl _ _, .inl rfl⟩
    · exact ⟨keepsBut_refl _ _, .inl rfl⟩

/-! ### Steps of the service -/

/-- The steps of the service. -/
inductive ZMove (lib : PowLib) (p : Profile) (v : RService) : ZStep → RService → List ZEvent → Prop
  | idle (x : ZStep) : ZMove lib p v x v []
  | sys (st : SStep) : RService.direct st = true →
      ZMove lib p v (.sys st) { v with sys := (openStep lib p v.sys (.sys st)).1 } ((openStep lib p v.sys (.sys st)).2.map .sys)
  | net (st : NStep) : v.othersMay st = true → ZMove lib p v (.net st) (v.absorb (nStep v.net st).1 (nStep v.net st).2) ((nStep v.net st).2.map .net)
  | ask (i : Nat) (c : Call) (a : Nat) (m : RMsg) (id : Nat) : v.sys.calls[i]? = some c → v.waiting.get i = none → RService.request c = some (a, m) →
      (nStep v.net (.send a m)).2 = [.actor (.sent a id m)] →
      ZMove lib p v (.ask i) { v with net := (nStep v.net (.send a m)).1, waiting := v.waiting.insert i id } [.net (.actor (.sent a id m)), .asked i id]
  | refused (i : Nat) (c : Call) (a : Nat) (m : RMsg) (st : OStep) : v.sys.calls[i]? = some c → v.waiting.get i = none → RService.request c = some (a, m) →
      nStep v.net (.send a m) = (v.net, [.actor (.refused a m)]) → v.dead a = true →
      st = (if a = 0 then .cache i (.error .mailboxError) else .sys (.master i .mailboxError fun _ => 0)) →
      ZMove lib p v (.ask i) { v with sys := (openStep lib p v.sys st).1 } (.net (.actor (.refused a m)) :: (openStep lib p v.sys st).2.map .sys)
  | hear (i : Nat) (c : Call) (a : Nat) (m : RMsg) (id : Nat) (st : OStep) (g : Rng) : v.sys.calls[i]? = some c → v.waiting.get i = some id →
      RService.request c = some (a, m) → v.heard i a id g = some st →
      ZMove lib p v (.hear i g) { v with sys := (openStep lib p v.sys st).1, waiting := v.waiting.erase i, answers := v.answers.filter fun e => e.1 != id }
        ((openStep lib p v.sys st).2.map .sys)
  | give (i : Nat) (c : Call) (id : Nat) : v.sys.calls[i]? = some c → c.live = true → c.pc ≠ .done → v.waiting.get i = some id →
      ZMove lib p v (.cancel i) { v with sys := (openStep lib p v.sys (.sys (.cancel i))).1, net := (nStep v.net (.drop id)).1, waiting := v.waiting.erase i }
        ((openStep lib p v.sys (.sys (.cancel i))).2.map .sys)
  | cancel (i : Nat) (c : Call) : v.sys.calls[i]? = some c → v.waiting.get i = none →
      ZMove lib p v (.cancel i) { v with sys := (openStep lib p v.sys (.sys (.cancel i))).1 } ((openStep lib p v.sys (.sys (.cancel i))).2.map .sys)

theorem send_cases (s : RNet) (a : Nat) (m : RMsg) :
    (nStep s (.send a m)).2 = [] ∨ (nStep s (.send a m)).2 = [.actor (.sent a s.sys.next m)] ∨
    (nStep s (.send a m) = (s, [.actor (.refused a m)]) ∧ ∃ x, s.sys.actors[a]? = some x ∧ x.alive = false) := by
  simp only [nStep, RNet.onActors, rStep]
  split
  · exact .inl rfl
  · rename_i x hx
    split
    · exact .inr (.inl rfl)
    · rename_i hal
      exact .inr (.inr ⟨rfl, x, hx, by simpa using hal⟩)

theorem zStep_move (lib : PowLib) (p : Profile) (v : RService) (x : ZStep) : ZMove lib p v x (zStep lib p v x).1 (zStep lib p v x).2 := by
  unfold zStep
  split
  · exact .idle _
  · split
    · split
      · rename_i s h
        exact .sys s h
      · exact .idle _
    · split
      · rename_i s h
        exact .net s h
      · exact .idle _
    · rename_i i
      split
      · rename_i c hc hw
        split
        · rename_i a m hr
          rcases send_cases v.net a m with h | h | ⟨h, x, hx, hal⟩
          · simp only [h]; exact .idle _
          · simp only [h]
            exact .ask i c a m _ hc hw hr h
          · simp only [h]
            exact .refused i c a m _ hc hw hr h (by simp [RService.dead, hx, hal]) rfl
        · exact .idle _
      · exact .idle _
    · rename_i i g
      split
      · rename_i c id hc hw
        split
        · rename_i a m hr
          split
          · rename_i st hst
            exact .hear i c a m id st g hc hw hr hst
          · exact .idle _
        · exact .idle _
      · exact .idle _
    · rename_i i
      split
      · rename_i c hc
        split
        · rename_i hl
          split
          · rename_i id hw
            exact .give i c id hc hl.1 hl.2 hw
          · rename_i hw
            exact .cancel i c hc hw
        · exact .idle _
      · exact .idle _

/-! ### Invariants of the service -/

theorem atCalls_append (a b : List ZEvent) : atCalls (a ++ b) = atCalls a ++ atCalls b := by simp [atCalls]
theorem atRedis_append (a b : List ZEvent) : atRedis (a ++ b) = atRedis a ++ atRedis b := by simp [atRedis]

theorem atCalls_map (ev : List OEvent) : atCalls (ev.map .sys) = ev ∧ atRedis (ev.map .sys) = [] := by
  induction ev with
  | nil => exact ⟨rfl, rfl⟩
  | cons e r ih => exact ⟨by simpa [atCalls] using ih.1, by simpa [atRedis] using ih.2⟩

theorem atRedis_map (ev : List NEvent) : atRedis (ev.map .net) = ev ∧ atCalls (ev.map .net) = [] := by
  induction ev with
  | nil => exact ⟨rfl, rfl⟩
  | cons e r ih => exact ⟨by simpa [atRedis] using ih.1, by simpa [atCalls] using ih.2⟩

theorem mem_atCalls {log : List ZEvent} {e : OEvent} : e ∈ atCalls log ↔ .sys e ∈ log := by
  simp only [atCalls, List.mem_filterMap]
  constructor
  · rintro ⟨x, hx, he⟩
    cases x <;> simp at he
    subst he
    exact hx
  · intro h
    exact ⟨_, h, rfl⟩

theorem mem_atRedis {log : List ZEvent} {e : NEvent} : e ∈ atRedis log ↔ .net e ∈ log := by
  simp only [atRedis, List.mem_filterMap]
  constructor
  · rintro ⟨x, hx, he⟩
    cases x <;> simp at he
    subst he
    exact hx
  · intro h
    exact ⟨_, h, rfl⟩

/-- A request call `i` sent to actor `a`. -/
def ZAsk (lib : PowLib) (log : List ZEvent) (i : Nat) (a : Nat) (m : RMsg) : Prop :=
  ∃ api, .sys (.api (.call i api)) ∈ log ∧
    ((∃ site, api = .get site ∧ a = 1 ∧ m = .addVisitor site) ∨
     ∃ cm k, a = 0 ∧ m = cm.toRedis ∧ Pending lib (apiPart (atCalls log)) i api cm k)

theorem zask_mono {lib : PowLib} {log : List ZEvent} (ev : List ZEvent) {i a : Nat} {m : RMsg} (h : ZAsk lib log i a m) : ZAsk lib (log ++ ev) i a m := by
  obtain ⟨api, h1, h2⟩ := h
  refine ⟨api, List.mem_append_left _ h1, ?_⟩
  rcases h2 with h2 | ⟨cm, k, h3, h4, h5⟩
  · exact .inl h2
  · refine .inr ⟨cm, k, h3, h4, ?_⟩
    rw [atCalls_append, apiPart_append]
    exact pending_mono _ h5

/-- Why an answer reached a call after `pre`. -/
def ZWhy (pre : List ZEvent) : ZEvent → Prop
  | .sys (.api (.cache sender m r)) => ∃ i api id ans, sender = some (i, api) ∧ .asked i id ∈ pre ∧
      .net (.actor (.answered 0 id m.toRedis ans)) ∈ pre ∧ ans.toCache = some (.ok r)
  | .sys (.failed i m e) => (∃ id ans, .asked i id ∈ pre ∧ .net (.actor (.answered 0 id m.toRedis ans)) ∈ pre ∧ ans.toCache = some (.error e)) ∨
      ((e = .mailboxError ∨ e = .recvError) ∧ ∃ j w, .net (.actor (.crashed 0 j w)) ∈ pre)
  | .sys (.api (.master i r)) => ∃ site, .sys (.api (.call i (.get site))) ∈ pre ∧
      ((∃ id x, r = .reply x ∧ .asked i id ∈ pre ∧ .net (.actor (.answered 1 id (.addVisitor site) (.visitor x))) ∈ pre) ∨
       ((r = .mailboxError ∨ r = .recvError) ∧ ∃ j w, .net (.actor (.crashed 1 j w)) ∈ pre))
  | _ => True

theorem zwhy_mono {pre : List ZEvent} (ev : List ZEvent) {e : ZEvent} (h : ZWhy pre e) : ZWhy (pre ++ ev) e := by
  unfold ZWhy at h ⊢
  split
  · obtain ⟨i, api, id, ans, h1, h2, h3, h4⟩ := h
    exact ⟨i, api, id, ans, h1, List.mem_append_left _ h2, List.mem_append_left _ h3, h4⟩
  · rcases h with ⟨id, ans, h1, h2, h3⟩ | ⟨h1, j, w, h2⟩
    · exact .inl ⟨id, ans, List.mem_append_left _ h1, List.mem_append_left _ h2, h3⟩
    · exact .inr ⟨h1, j, w, List.mem_append_left _ h2⟩
  · obtain ⟨site, h0, h⟩ := h
    refine ⟨site, List.mem_append_left _ h0, ?_⟩
    rcases h with ⟨id, x, h1, h2, h3⟩ | ⟨h1, j, w, h2⟩
    · exact .inl ⟨id, x, h1, List.mem_append_left _ h2, List.mem_append_left _ h3⟩
    · exact .inr ⟨h1, j, w, List.mem_append_left _ h2⟩
  · trivial

/-- What holds in every state of the service. -/
structure ZInv (lib : PowLib) (p : Profile) (n ql now : Nat) (conns : List Nat) (v : RService) (log : List ZEvent) : Prop where
  sys : ∃ os, openRun lib p (Sys.new n ql now) os = (v.sys, atCalls log)
  net : ∃ ns, nRun (RNet.new conns now) ns = (v.net, atRedis log)
  waiting : ∀ i id, v.waiting.get i = some id → ∃ c a m, v.sys.calls[i]? = some c ∧ RService.request c = some (a, m) ∧
    .net (.actor (.sent a id m)) ∈ log ∧ .asked i id ∈ log
  answers : ∀ e ∈ v.answers, ∃ a, .net (.actor (.answered a e.1 e.2.1 e.2.2)) ∈ log
  asked : ∀ i id, .asked i id ∈ log → ∃ a m, .net (.actor (.sent a id m)) ∈ log ∧ ZAsk lib log i a m
  own : ∀ i j id, .asked i id ∈ log → .asked j id ∈ log → i = j
  why : ∀ pre e post, log = pre ++ e :: post → ZWhy pre e

/-- What is pending after the masked log is pending after the log. -/
theorem pending_unmask {lib : PowLib} {log : List OEvent} {m : List SEvent} (h : Masked lib log m) {i : Nat} {api : Api} {cm : CacheMsg} {k : Stage}
    (hp : Pending lib m i api cm k) : Pending lib (apiPart log) i api cm k := by
  cases k with
  | storePow cfg =>
    obtain ⟨id, r, h1, h2, h3, h4, h5, h6⟩ := hp
    exact ⟨id, r, h1, h2, h3, h4, mem_apiPart.2 ((masked_mem h (by simp)).1 h5), h6⟩
  | retrieve => exact hp
  | storeResult t d =>
    obtain ⟨work, ip, cfg, h1, h2, h3⟩ := hp
    exact ⟨work, ip, cfg, h1, mem_apiPart.2 ((masked_mem h (by simp)).1 h2), h3⟩
  | check => exact hp

theorem zcall {lib : PowLib} {p : Profile} {n ql now : Nat} {s : Sys} {log : List OEvent} (h : ∃ os, openRun lib p (Sys.new n ql now) os = (s, log))
    {i : Nat} {c : Call} (hc : s.calls[i]? = some c) :
    .api (.call i c.api) ∈ log ∧ ∀ cm k, c.pc = .awaitCache cm k → Pending lib (apiPart log) i c.api cm k := by
  obtain ⟨os, ho⟩ := h
  obtain ⟨m, hm, hi⟩ := oinv_run lib p n ql now os
  rw [ho] at hm hi
  have := hi.calls i c hc
  refine ⟨(masked_mem hm (by simp)).1 this.1, ?_⟩
  intro cm k hpc
  have h2 := this.2
  rw [hpc] at h2
  exact pending_unmask hm h2

theorem zextend {log ev : List ZEvent} (h : ∀ pre e post, log = pre ++ e :: post → ZWhy pre e) (he : ∀ e ∈ ev, ZWhy log e) :
    ∀ pre e post, log ++ ev = pre ++ e :: post → ZWhy pre e := by
  intro pre e post hs
  rcases append_split hs with ⟨c, h1, -⟩ | ⟨c, rfl, h2⟩
  · exact h pre e c h1
  · exact zwhy_mono _ (he e (by rw [h2]; simp))

theorem zdead {lib : PowLib} {p : Profile} {n ql now : Nat} {conns : List Nat} {v : RService} {log : List ZEvent} (h : ZInv lib p n ql now conns v log)
    {a : Nat} (hd : v.dead a = true) : ∃ j w, .net (.actor (.crashed a j w)) ∈ log := by
  obtain ⟨ns, hn⟩ := h.net
  have := rids_net conns now ns
  rw [hn] at this
  unfold RService.dead at hd
  split at hd
  · rename_i x hx
    obtain ⟨i, w, h1⟩ := this.dead a x hx (by simpa using hd)
    exact ⟨i, w, mem_atRedis.1 (mem_atActors.1 h1)⟩
  · cases hd

/-- What a call waiting for its request hears. -/
theorem heard_cases {lib : PowLib} {p : Profile} {n ql now : Nat} {conns : List Nat} {v : RService} {log : List ZEvent} (h : ZInv lib p n ql now conns v log)
    {i id a : Nat} {c : Call} {m : RMsg} {g : Rng} {st : OStep} (hc : v.sys.calls[i]? = some c) (hw : v.waiting.get i = some id)
    (hr : RService.request c = some (a, m)) (hh : v.heard i a id g = some st) :
    (a = 0 ∧ ∃ x, st = .cache i x ∧ ((∃ ans, .net (.actor (.answered 0 id m ans)) ∈ log ∧ ans.toCache = some x) ∨
      ((x = .error .mailboxError ∨ x = .error .recvError) ∧ ∃ j w, .net (.actor (.crashed 0 j w)) ∈ log))) ∨
    (a = 1 ∧ ∃ x, st = .sys (.master i x g) ∧ ((∃ y, x = .reply y ∧ .net (.actor (.answered 1 id m (.visitor y))) ∈ log) ∨
      ((x = .mailboxError ∨ x = .recvError) ∧ ∃ j w, .net (.actor (.crashed 1 j w)) ∈ log))) := by
  obtain ⟨ns, hn⟩ := h.net
  have hids := rids_net conns now ns
  have hprov := prov_net conns now ns
  rw [hn] at hids hprov
  obtain ⟨c', a', m', hc', hr', hsent, -⟩ := h.waiting i id hw
  rw [hc] at hc'; cases hc'
  rw [hr] at hr'; cases hr'
  unfold RService.heard at hh
  split at hh
  · rename_i id' m' ans hf
    have hid := List.find?_some hf
    simp only [beq_iff_eq] at hid
    subst hid
    obtain ⟨a', ha'⟩ := h.answers _ (List.mem_of_find?_eq_some hf)
    simp only at ha'
    have hs' := (hprov.answered _ _ _ _ (mem_atActors.2 (mem_atRedis.2 ha'))).1
    obtain ⟨rfl, rfl⟩ := hids.once _ _ _ _ _ hs' (mem_atActors.2 (mem_atRedis.2 hsent))
    split at hh
    · rename_i h0
      subst h0
      simp only [Option.map_eq_some_iff] at hh
      obtain ⟨x, h1, rfl⟩ := hh
      exact .inl ⟨rfl, x, rfl, .inl ⟨ans, ha', h1⟩⟩
    · rename_i h0
      have h1 : a' = 1 := (request_two hr).resolve_left h0
      subst h1
      simp only [Option.map_eq_some_iff] at hh
      obtain ⟨x, h1, rfl⟩ := hh
      cases ans <;> simp [RAnswer.toMaster] at h1
      exact .inr ⟨rfl, x, rfl, .inl ⟨_, h1.symm, ha'⟩⟩
  · split at hh
    · rename_i hd
      have hcr := zdead h hd
      simp only [Option.some.injEq] at hh
      split at hh
      · rename_i h0
        subst h0 hh
        refine .inl ⟨rfl, _, rfl, .inr ⟨?_, hcr⟩⟩
        unfold RService.lost
        split
        · exact .inr rfl
        · exact .inl rfl
      · rename_i h0
        have h1 : a = 1 := (request_two hr).resolve_left h0
        subst h1 hh
        refine .inr ⟨rfl, _, rfl, .inr ⟨?_, hcr⟩⟩
        unfold RService.lostMaster
        split
        · exact .inr rfl
        · exact .inl rfl
    · cases hh

theorem zinv_log {lib : PowLib} {p : Profile} {n ql now : Nat} {conns : List Nat} {v v' : RService} {log ev : List ZEvent}
    (h : ZInv lib p n ql now conns v log) (hs : ∃ os, openRun lib p v.sys os = (v'.sys, atCalls ev)) (hn : ∃ ns, nRun v.net ns = (v'.net, atRedis ev))
    (hw : ∀ i id, v'.waiting.get i = some id → ∃ c a m, v'.sys.calls[i]? = some c ∧ RService.request c = some (a, m) ∧
      .net (.actor (.sent a id m)) ∈ log ++ ev ∧ .asked i id ∈ log ++ ev)
    (ha : ∀ e ∈ v'.answers, ∃ a, .net (.actor (.answered a e.1 e.2.1 e.2.2)) ∈ log ++ ev)
    (hk : ∀ i id, .asked i id ∉ ev) (hy : ∀ e ∈ ev, ZWhy log e) : ZInv lib p n ql now conns v' (log ++ ev) := by
  obtain ⟨os, ho⟩ := h.sys
  obtain ⟨os', ho'⟩ := hs
  obtain ⟨ns, hn0⟩ := h.net
  obtain ⟨ns', hn'⟩ := hn
  refine ⟨⟨os ++ os', ?_⟩, ⟨ns ++ ns', ?_⟩, hw, ha, ?_, ?_, zextend h.why hy⟩
  · rw [openRun_append, ho, atCalls_append]
    simp only [ho']
  · rw [nRun_append, hn0, atRedis_append]
    simp only [hn']
  · intro i id hi
    obtain ⟨a, m, h1, h2⟩ := h.asked i id ((List.mem_append.1 hi).resolve_right (hk i id))
    exact ⟨a, m, List.mem_append_left _ h1, zask_mono _ h2⟩
  · intro i j id hi hj
    exact h.own i j id ((List.mem_append.1 hi).resolve_right (hk i id)) ((List.mem_append.1 hj).resolve_right (hk j id))

theorem openRun_one (lib : PowLib) (p : Profile) (s : Sys) (x : OStep) : openRun lib p s [x] = openStep lib p s x := by
  simp [openRun]

theorem nRun_one (s : RNet) (x : NStep) : nRun s [x] = nStep s x := by simp [nRun]

theorem sys_plain {ev : List SEvent} (h : ev.all plain = true) (log : List ZEvent) :
    ∀ e ∈ (ev.map OEvent.api).map ZEvent.sys, ZWhy log e := by
  intro e he
  simp only [List.map_map, List.mem_map, Function.comp] at he
  obtain ⟨x, hx, rfl⟩ := he
  have := List.all_eq_true.1 h x hx
  cases x <;> first | trivial | cases this

theorem waiting_keeps {v : RService} {log ev : List ZEvent} {l' : List Call}
    (h : ∀ i id, v.waiting.get i = some id → ∃ c a m, v.sys.calls[i]? = some c ∧ RService.request c = some (a, m) ∧
      .net (.actor (.sent a id m)) ∈ log ∧ .asked i id ∈ log) (hk : Keeps v.sys.calls l') :
    ∀ i id, v.waiting.get i = some id → ∃ c a m, l'[i]? = some c ∧ RService.request c = some (a, m) ∧
      .net (.actor (.sent a id m)) ∈ log ++ ev ∧ .asked i id ∈ log ++ ev := by
  intro i id hi
  obtain ⟨c, a, m, h1, h2, h3, h4⟩ := h i id hi
  obtain ⟨c', h5, h6⟩ := hk i c h1 (by rw [h2]; rfl)
  exact ⟨c', a, m, h5, by rw [h6]; exact h2, List.mem_append_left _ h3, List.mem_append_left _ h4⟩

theorem waiting_keepsBut {v : RService} {log ev : List ZEvent} {l' : List Call} {w : AMap Nat Nat} {i : Nat}
    (h : ∀ i id, v.waiting.get i = some id → ∃ c a m, v.sys.calls[i]? = some c ∧ RService.request c = some (a, m) ∧
      .net (.actor (.sent a id m)) ∈ log ∧ .asked i id ∈ log) (hk : KeepsBut i v.sys.calls l')
    (hw : w.get i = none ∧ ∀ j, j ≠ i → w.get j = v.waiting.get j) :
    ∀ j id, w.get j = some id → ∃ c a m, l'[j]? = some c ∧ RService.request c = some (a, m) ∧
      .net (.actor (.sent a id m)) ∈ log ++ ev ∧ .asked j id ∈ log ++ ev := by
  intro j id hj
  by_cases hij : j = i
  · subst hij; rw [hw.1] at hj; cases hj
  · rw [hw.2 j hij] at hj
    obtain ⟨c, a, m, h1, h2, h3, h4⟩ := h j id hj
    exact ⟨c, a, m, by rw [hk j hij]; exact h1, h2, List.mem_append_left _ h3, List.mem_append_left _ h4⟩

theorem erased_waiting (w : AMap Nat Nat) (i : Nat) : (w.erase i).get i = none ∧ ∀ j, j ≠ i → (w.erase i).get j = w.get j :=
  ⟨AMap.get_erase_self _ _, fun _ hj => AMap.get_erase_ne _ _ _ (Ne.symm hj)⟩

theorem drop_quiet (s : RNet) (id : Nat) : (nStep s (.drop id)).2 = [] := rfl

theorem answers_keep {v : RService} {log ev : List ZEvent} (h : ∀ e ∈ v.answers, ∃ a, .net (.actor (.answered a e.1 e.2.1 e.2.2)) ∈ log) :
    ∀ e ∈ v.answers, ∃ a, .net (.actor (.answered a e.1 e.2.1 e.2.2)) ∈ log ++ ev :=
  fun e he => (h e he).imp fun _ h => List.mem_append_left _ h

theorem noCache_of_direct {st : SStep} (h : RService.direct st = true) : st.noCache = true := by
  cases st <;> first | rfl | cases h

/-- What an answer to a call explains. -/
theorem why_answer {lib : PowLib} {p : Profile} {n ql now : Nat} {conns : List Nat} {v : RService} {log : List ZEvent} (h : ZInv lib p n ql now conns v log)
    {i : Nat} {c : Call} {m : RMsg} {x : CaptchaResult CacheReply} (hc : v.sys.calls[i]? = some c) (hr : RService.request c = some (0, m))
    (hx : (∃ id ans, .asked i id ∈ log ∧ .net (.actor (.answered 0 id m ans)) ∈ log ∧ ans.toCache = some x) ∨
      ((x = .error .mailboxError ∨ x = .error .recvError) ∧ ∃ j w, .net (.actor (.crashed 0 j w)) ∈ log)) :
    ∀ e ∈ (openStep lib p v.sys (.cache i x)).2, ZWhy log (.sys e) := by
  obtain ⟨cm, k, rfl, hpc, -⟩ := request_cache hr
  rcases (hearing_step lib p v.sys i x).2 with h0 | ⟨c', cm', k', hc', hpc', -, ⟨r, rfl, hev⟩ | ⟨e, rfl, hev⟩⟩
  · rw [h0]; simp
  · rw [hc] at hc'; cases hc'
    rw [hpc] at hpc'; cases hpc'
    rw [hev]
    intro e he
    rw [List.mem_singleton] at he
    subst he
    rcases hx with ⟨id, ans, h1, h2, h3⟩ | ⟨h1 | h1, -⟩
    · exact ⟨i, c.api, id, ans, rfl, h1, h2, h3⟩
    · cases h1
    · cases h1
  · rw [hc] at hc'; cases hc'
    rw [hpc] at hpc'; cases hpc'
    rw [hev]
    intro e' he
    simp only [List.mem_cons, List.not_mem_nil, or_false] at he
    rcases he with rfl | rfl
    · rcases hx with ⟨id, ans, h1, h2, h3⟩ | ⟨h1, h2⟩
      · exact .inl ⟨id, ans, h1, h2, h3⟩
      · refine .inr ⟨?_, h2⟩
        rcases h1 with h1 | h1 <;> cases h1
        · exact .inl rfl
        · exact .inr rfl
    · trivial

theorem why_master {lib : PowLib} {p : Profile} {n ql now : Nat} {conns : List Nat} {v : RService} {log : List ZEvent} (h : ZInv lib p n ql now conns v log)
    {i : Nat} {c : Call} {m : RMsg} {x : MasterAnswer} {g : Rng} (hc : v.sys.calls[i]? = some c) (hr : RService.request c = some (1, m))
    (hx : (∃ id y, x = .reply y ∧ .asked i id ∈ log ∧ .net (.actor (.answered 1 id m (.visitor y))) ∈ log) ∨
      ((x = .mailboxError ∨ x = .recvError) ∧ ∃ j w, .net (.actor (.crashed 1 j w)) ∈ log)) :
    ∀ e ∈ (openStep lib p v.sys (.sys (.master i x g))).2, ZWhy log (.sys e) := by
  obtain ⟨site, rfl, hapi, -, -⟩ := request_master hr
  have hcall := (zcall h.sys hc).1
  rw [hapi] at hcall
  intro e he
  simp only [openStep, SStep.noCache, if_true] at he
  rcases (master_step lib p v.sys i x g).2 with h0 | ⟨ev, hev, hpl⟩
  · rw [h0] at he; simp at he
  · rw [hev] at he
    simp only [List.map_cons, List.mem_cons] at he
    rcases he with rfl | he
    · refine ⟨site, mem_atCalls.1 hcall, ?_⟩
      rcases hx with ⟨id, y, h1, h2, h3⟩ | h1
      · exact .inl ⟨id, y, h1, h2, h3⟩
      · exact .inr h1
    · exact sys_plain hpl log _ (List.mem_map_of_mem he)

theorem zinv_move {lib : PowLib} {p : Profile} {n ql now : Nat} {conns : List Nat} {v v' : RService} {x : ZStep} {log ev : List ZEvent}
    (h : ZInv lib p n ql now conns v log) (m : ZMove lib p v x v' ev) : ZInv lib p n ql now conns v' (log ++ ev) := by
  have hsent : ∀ a id m, .net (.actor (.sent a id m)) ∈ log → id < v.net.sys.next := by
    intro a id m hm
    obtain ⟨ns, hn⟩ := h.net
    have := rids_net conns now ns
    rw [hn] at this
    exact this.below a id m (mem_atActors.2 (mem_atRedis.2 hm))
  cases m with
  | idle x => simpa using h
  | sys st hd =>
    have hn := noCache_of_direct hd
    have hst := direct_step lib p v.sys st hd
    have he : (openStep lib p v.sys (.sys st)) = ((sysStep lib p v.sys st).1, (sysStep lib p v.sys st).2.map .api) := by simp only [openStep, hn, if_true]
    refine zinv_log h ⟨[.sys st], ?_⟩ ⟨[], ?_⟩ ?_ (answers_keep h.answers) ?_ ?_
    · rw [openRun_one, (atCalls_map _).1]
    · rw [(atCalls_map _).2]; rfl
    · rw [he]; exact waiting_keeps (v := v) h.waiting hst.2
    · simp
    · rw [he]; exact sys_plain hst.1 log
  | net st hm =>
    refine zinv_log h ⟨[], ?_⟩ ⟨[st], ?_⟩ (waiting_keeps h.waiting (keeps_refl _)) ?_ (by simp) ?_
    · rw [(atRedis_map _).2]; rfl
    · rw [nRun_one, (atRedis_map _).1]; rfl
    · intro e he
      simp only [RService.absorb, List.mem_append, List.mem_filterMap] at he
      rcases he with he | ⟨x, hx, hxe⟩
      · exact answers_keep h.answers e he
      · cases x with
        | served => simp at hxe
        | actor x =>
          cases x <;> simp at hxe
          subst hxe
          exact ⟨_, List.mem_append_right _ (List.mem_map_of_mem hx)⟩
    · intro e he
      obtain ⟨x, -, rfl⟩ := List.mem_map.1 he
      trivial
  | ask i c a m id hc hw hr hev =>
    obtain ⟨os, ho⟩ := h.sys
    obtain ⟨ns, hn⟩ := h.net
    have hid : id = v.net.sys.next := by
      rcases send_cases v.net a m with h1 | h1 | ⟨h1, -⟩
      · rw [h1] at hev; cases hev
      · rw [h1] at hev; simp at hev; exact hev.symm
      · rw [h1] at hev; simp at hev
    have hold : ∀ j k, .asked j k ∈ log → k < id := by
      intro j k hk
      obtain ⟨a, m, h1, -⟩ := h.asked j k hk
      rw [hid]; exact hsent a k m h1
    have hin : ∀ j k, .asked j k ∈ log ++ [ZEvent.net (.actor (.sent a id m)), .asked i id] → .asked j k ∈ log ∨ (j = i ∧ k = id) := by
      intro j k hk
      rcases List.mem_append.1 hk with hk | hk
      · exact .inl hk
      · simp at hk; exact .inr hk
    have hcalls : atCalls [ZEvent.net (.actor (.sent a id m)), .asked i id] = [] := rfl
    refine ⟨⟨os, ?_⟩, ⟨ns ++ [.send a m], ?_⟩, ?_, answers_keep h.answers, ?_, ?_, ?_⟩
    · rw [ho, atCalls_append, hcalls, List.append_nil]
    · rw [nRun_append, hn, atRedis_append, nRun_one]
      simp only [hev]
      rfl
    · intro j k hj
      simp only at hj
      rw [AMap.get_insert] at hj
      split at hj
      · rename_i hij
        subst hij
        cases hj
        exact ⟨c, a, m, hc, hr, by simp, by simp⟩
      · exact waiting_keeps h.waiting (keeps_refl _) j k hj
    · intro j k hk
      rcases hin j k hk with hk | ⟨rfl, rfl⟩
      · obtain ⟨a, m, h1, h2⟩ := h.asked j k hk
        exact ⟨a, m, List.mem_append_left _ h1, zask_mono _ h2⟩
      · refine ⟨a, m, by simp, zask_mono _ ?_⟩
        obtain ⟨hcall, hpend⟩ := zcall h.sys hc
        refine ⟨c.api, mem_atCalls.1 hcall, ?_⟩
        rcases request_two hr with rfl | rfl
        · obtain ⟨cm, k, rfl, hpc, -⟩ := request_cache hr
          exact .inr ⟨cm, k, rfl, rfl, hpend cm k hpc⟩
        · obtain ⟨site, rfl, hapi, -, -⟩ := request_master hr
          exact .inl ⟨site, hapi, rfl, rfl⟩
    · intro j j' k h1 h2
      rcases hin j k h1 with h1' | ⟨rfl, rfl⟩ <;> rcases hin j' k h2 with h2' | ⟨rfl, e⟩
      · exact h.own j j' k h1' h2'
      · subst e; exact absurd (hold j k h1') (Nat.lt_irrefl _)
      · exact absurd (hold j' k h2') (Nat.lt_irrefl _)
      · rfl
    · refine zextend h.why ?_
      intro e he
      simp at he
      rcases he with rfl | rfl <;> trivial
  | refused i c a m st hc hw hr hs hd hst =>
    have hcr := zdead h hd
    have hk : KeepsBut i v.sys.calls (openStep lib p v.sys st).1.calls ∧ ∀ e ∈ (openStep lib p v.sys st).2, ZWhy log (.sys e) := by
      rcases request_two hr with rfl | rfl
      · simp only [if_true] at hst
        subst hst
        exact ⟨(hearing_step lib p v.sys i _).1, why_answer h hc hr (.inr ⟨.inl rfl, hcr⟩)⟩
      · simp only [show (1 : Nat) = 0 ↔ False by simp, if_false] at hst
        subst hst
        refine ⟨?_, why_master h hc hr (.inr ⟨.inl rfl, hcr⟩)⟩
        simp only [openStep, SStep.noCache, if_true]
        exact (master_step lib p v.sys i _ _).1
    refine zinv_log h ⟨[st], ?_⟩ ⟨[.send a m], ?_⟩ (waiting_keepsBut h.waiting hk.1 ⟨hw, fun _ _ => rfl⟩) (answers_keep h.answers) (by simp) ?_
    · rw [openRun_one]
      exact Prod.ext rfl (by simpa [atCalls] using (atCalls_map (openStep lib p v.sys st).2).1.symm)
    · rw [nRun_one, hs]
      exact Prod.ext rfl (by simpa [atRedis] using (atCalls_map (openStep lib p v.sys st).2).2)
    · intro e he
      simp only [List.mem_cons, List.mem_map] at he
      rcases he with rfl | ⟨x, hx, rfl⟩
      · trivial
      · exact hk.2 x hx
  | hear i c a m id st g hc hw hr hh =>
    obtain ⟨-, -, -, -, -, -, hasked⟩ := h.waiting i id hw
    have hk : KeepsBut i v.sys.calls (openStep lib p v.sys st).1.calls ∧ ∀ e ∈ (openStep lib p v.sys st).2, ZWhy log (.sys e) := by
      rcases heard_cases h hc hw hr hh with ⟨rfl, x, rfl, hx⟩ | ⟨rfl, x, rfl, hx⟩
      · refine ⟨(hearing_step lib p v.sys i _).1, why_answer h hc hr ?_⟩
        rcases hx with ⟨ans, h1, h2⟩ | hx
        · exact .inl ⟨id, ans, hasked, h1, h2⟩
        · exact .inr hx
      · refine ⟨?_, why_master h hc hr ?_⟩
        · simp only [openStep, SStep.noCache, if_true]
          exact (master_step lib p v.sys i _ _).1
        · rcases hx with ⟨y, h1, h2⟩ | hx
          · exact .inl ⟨id, y, h1, hasked, h2⟩
          · exact .inr hx
    refine zinv_log h ⟨[st], ?_⟩ ⟨[], ?_⟩ (waiting_keepsBut h.waiting hk.1 (erased_waiting _ _)) ?_ (by simp) ?_
    · rw [openRun_one, (atCalls_map _).1]
    · rw [(atCalls_map _).2]; rfl
    · intro e he
      exact answers_keep h.answers e (List.mem_filter.1 he).1
    · intro e he
      obtain ⟨x, hx, rfl⟩ := List.mem_map.1 he
      exact hk.2 x hx
  | give i c id hc hl hpc hw =>
    have hst := cancel_step lib p v.sys i
    have he : (openStep lib p v.sys (.sys (.cancel i))) = ((sysStep lib p v.sys (.cancel i)).1, (sysStep lib p v.sys (.cancel i)).2.map .api) := rfl
    refine zinv_log h ⟨[.sys (.cancel i)], ?_⟩ ⟨[.drop id], ?_⟩ (waiting_keepsBut h.waiting ?_ (erased_waiting _ _)) (answers_keep h.answers) (by simp) ?_
    · rw [openRun_one, (atCalls_map _).1]
    · rw [nRun_one, (atCalls_map _).2]; rfl
    · rw [he]; exact hst.2
    · rw [he]; exact sys_plain hst.1 log
  | cancel i c hc hw =>
    have hst := cancel_step lib p v.sys i
    have he : (openStep lib p v.sys (.sys (.cancel i))) = ((sysStep lib p v.sys (.cancel i)).1, (sysStep lib p v.sys (.cancel i)).2.map .api) := rfl
    refine zinv_log h ⟨[.sys (.cancel i)], ?_⟩ ⟨[], ?_⟩ (waiting_keepsBut h.waiting ?_ ⟨hw, fun _ _ => rfl⟩) (answers_keep h.answers) (by simp) ?_
    · rw [openRun_one, (atCalls_map _).1]
    · rw [(atCalls_map _).2]; rfl
    · rw [he]; exact hst.2
    · rw [he]; exact sys_plain hst.1 log

theorem zRun_append (lib : PowLib) (p : Profile) (v : RService) (a b : List ZStep) :
    zRun lib p v (a ++ b) = ((zRun lib p (zRun lib p v a).1 b).1, (zRun lib p v a).2 ++ (zRun lib p (zRun lib p v a).1 b).2) := by
  induction a generalizing v with
  | nil => rfl
  | cons x r ih => simp only [List.cons_append, zRun, ih, List.append_assoc]

theorem zRun_inv {lib : PowLib} {p : Profile} {P : RService → List ZEvent → Prop}
    {Q : ZStep → Prop} (hs : ∀ v log x v' ev, Q x → P v log → ZMove lib p v x v' ev → P v' (log ++ ev)) (steps : List ZStep) (hq : ∀ x ∈ steps, Q x)
    (v : RService) (log : List ZEvent) (h : P v log) : P (zRun lib p v steps).1 (log ++ (zRun lib p v steps).2) := by
  induction steps generalizing v log with
  | nil => simpa [zRun] using h
  | cons x r ih =>
    have := ih (fun y hy => hq y (.tail _ hy)) _ _ (hs v log x _ _ (hq x (.head _)) h (zStep_move lib p v x))
    rwa [List.append_assoc] at this

theorem zinv_run (lib : PowLib) (p : Profile) (n ql now : Nat) (conns : List Nat) (steps : List ZStep) :
    ZInv lib p n ql now conns (zRun lib p (RService.new n ql now conns) steps).1 (zRun lib p (RService.new n ql now conns) steps).2 := by
  have := zRun_inv (lib := lib) (p := p) (P := ZInv lib p n ql now conns) (Q := fun _ => True) (fun _ _ _ _ _ _ h m => zinv_move h m) steps (fun _ _ => trivial) (RService.new n ql now conns) []
    ⟨⟨[], rfl⟩, ⟨[], rfl⟩, by simp [RService.new, AMap.get], by simp [RService.new], by simp, by simp, by simp⟩
  simpa using this

/-! ### Splitting runs -/

theorem zRun_split (lib : PowLib) (p : Profile) (v : RService) (steps : List ZStep) {pre post : List ZEvent} {e : ZEvent}
    (h : (zRun lib p v steps).2 = pre ++ e :: post) :
    ∃ s1 x s2 e1 e2, steps = s1 ++ x :: s2 ∧ pre = (zRun lib p v s1).2 ++ e1 ∧ (zStep lib p (zRun lib p v s1).1 x).2 = e1 ++ e :: e2 := by
  induction steps generalizing v pre with
  | nil => simp [zRun] at h
  | cons x r ih =>
    rcases append_split (show (zStep lib p v x).2 ++ (zRun lib p (zStep lib p v x).1 r).2 = pre ++ e :: post from h) with ⟨c, h1, -⟩ | ⟨c, rfl, h2⟩
    · exact ⟨[], x, r, pre, c, rfl, rfl, h1⟩
    · obtain ⟨s1, y, s2, e1, e2, rfl, rfl, h3⟩ := ih _ h2
      exact ⟨x :: s1, y, s2, e1, e2, rfl, by simp [zRun], h3⟩

/-- What comes with a return. -/
theorem move_ret {lib : PowLib} {p : Profile} {s s' : Sys} {ev : List SEvent} (m : Move lib p s s' ev) {i : Nat} {a : Api} {r : Ret}
    (h : .ret i a r ∈ ev) : ev = [.ret i a r] ∨ ∃ ans id, a = .get id ∧ ev = [.master i ans, .ret i a r] := by
  have hq : ∀ l : List QEvent, .ret i a r ∈ l.map SEvent.queue → ev = [.ret i a r] ∨ ∃ ans id, a = .get id ∧ ev = [.master i ans, .ret i a r] := by
    intro l hm; simp at hm
  cases m with
  | idle => simp at h
  | «local» j c c' _ hc m =>
    cases m with
    | masterErr id ans r' h1 h2 hl h3 =>
      simp at h
      obtain ⟨rfl, rfl, rfl⟩ := h
      exact .inr ⟨ans, id, h1, rfl⟩
    | _ => simp at h <;> (obtain ⟨rfl, rfl, rfl⟩ := h; exact .inl rfl)
  | start a hq => simp at h
  | cache i c m k hc h2 => simp at h
  | submit i c work ip cfg hc h1 h2 hk hl hq' hcl => exact hq _ h
  | panic i c cfg work ip hc h1 h2 hl hq hcl => simp at h
  | queue qs hm => exact hq _ h
  | shutdown hs => exact hq _ h
  | expire k =>
    exfalso
    simp at h
  | tick d => simp at h

/-- A successful return is all that happens in its step, `Ok(None)` excepted. -/
theorem zRun_ret (lib : PowLib) (p : Profile) (v : RService) (steps : List ZStep) {pre post : List ZEvent} {i : Nat} {a : Api} {r : Ret}
    (h : (zRun lib p v steps).2 = pre ++ .sys (.api (.ret i a r)) :: post) (hr : (∃ x, r = .validate (.ok x)) ∨ ∃ x, r = .verify (.ok x)) (ha : ∀ id, a ≠ .get id) :
    ∃ s1, (zRun lib p v s1).2 = pre := by
  obtain ⟨s1, x, s2, e1, e2, -, rfl, he⟩ := zRun_split lib p v steps h
  refine ⟨s1, ?_⟩
  suffices h1 : e1 = [] by rw [h1, List.append_nil]
  have hfails : ∀ (b : Api) e, r ≠ b.fails e := by
    rintro b e rfl
    rcases hr with ⟨x, hr⟩ | ⟨x, hr⟩ <;> cases b <;> simp [Api.fails] at hr
  have hsys : ∀ (s : Sys) (st : SStep) (l : List OEvent), (sysStep lib p s st).2.map OEvent.api = l → l.map ZEvent.sys = e1 ++ ZEvent.sys (.api (.ret i a r)) :: e2 → e1 = [] := by
    intro s st l hl hev
    subst hl
    have hm : .ret i a r ∈ (sysStep lib p s st).2 := by
      have : ZEvent.sys (.api (.ret i a r)) ∈ (((sysStep lib p s st).2.map OEvent.api).map ZEvent.sys) := by rw [hev]; simp
      simpa using this
    rcases move_ret (sysStep_move lib p s st) hm with h1 | ⟨_, id, h1, -⟩
    · rw [h1] at hev
      cases e1 with
      | nil => rfl
      | cons y r => simp at hev
    · exact absurd h1 (ha id)
  have hstep : ∀ (s : Sys) (x : OStep) (e0 : List ZEvent), (openStep lib p s x).2.map ZEvent.sys = e0 ++ ZEvent.sys (.api (.ret i a r)) :: e2 → e0 = e1 →
      ((∃ i y, x = .cache i y) ∨ ∃ st, x = .sys st ∧ st.noCache = true) → e1 = [] := by
    rintro s x e0 hev rfl (⟨j, y, rfl⟩ | ⟨st, rfl, hn⟩)
    · exfalso
      have hm : OEvent.api (.ret i a r) ∈ (openStep lib p s (.cache j y)).2 := by
        have : ZEvent.sys (.api (.ret i a r)) ∈ (openStep lib p s (.cache j y)).2.map ZEvent.sys := by rw [hev]; simp
        simpa using this
      rcases (hearing_step lib p s j y).2 with h0 | ⟨c', cm', k', hc', hpc', -, ⟨r', rfl, hev'⟩ | ⟨e, rfl, hev'⟩⟩
      · rw [h0] at hm; simp at hm
      · rw [hev'] at hm; simp at hm
      · rw [hev'] at hm; simp at hm
        exact hfails _ _ hm.2.2
    · exact hsys s st _ (by simp only [openStep, hn, if_true]) hev
  have m := zStep_move lib p (zRun lib p v s1).1 x
  rw [he] at m
  generalize hg : e1 ++ ZEvent.sys (.api (.ret i a r)) :: e2 = ev at m
  generalize (zStep lib p (zRun lib p v s1).1 x).1 = v' at m
  cases m with
  | idle => simp at hg
  | sys st hd => exact hstep _ _ _ hg.symm rfl (.inr ⟨st, rfl, noCache_of_direct hd⟩)
  | net st hm =>
    exfalso
    have : ZEvent.sys (.api (.ret i a r)) ∈ (nStep (zRun lib p v s1).1.net st).2.map ZEvent.net := by rw [← hg]; simp
    simp at this
  | ask j c b m id hc hw hr' hev =>
    exfalso
    have : ZEvent.sys (.api (.ret i a r)) ∈ [ZEvent.net (.actor (.sent b id m)), .asked j id] := by rw [← hg]; simp
    simp at this
  | refused j c b m st hc hw hr' hs hd hst =>
    exfalso
    have hm : ZEvent.sys (.api (.ret i a r)) ∈ ZEvent.net (.actor (.refused b m)) :: (openStep lib p (zRun lib p v s1).1.sys st).2.map .sys := by rw [← hg]; simp
    simp at hm
    split at hst
    · subst hst
      rcases (hearing_step lib p (zRun lib p v s1).1.sys j (.error .mailboxError)).2 with h0 | ⟨c', cm', k', hc', hpc', -, ⟨r', hx, hev'⟩ | ⟨e, hx, hev'⟩⟩
      · rw [h0] at hm; simp at hm
      · cases hx
      · rw [hev'] at hm; simp at hm
        exact hfails _ _ hm.2.2
    · subst hst
      simp only [openStep, SStep.noCache, if_true, List.mem_map] at hm
      obtain ⟨y, hy, hy'⟩ := hm
      cases hy'
      rcases (master_step lib p (zRun lib p v s1).1.sys j .mailboxError (fun _ => 0)).2 with h0 | ⟨ev, hev, hpl⟩
      · rw [h0] at hy; cases hy
      · rcases move_ret (sysStep_move lib p _ _) hy with h1 | ⟨_, id, h1, -⟩
        · rw [hev] at h1; simp at h1
        · exact absurd h1 (ha id)
  | hear j c b m id st g hc hw hr' hh =>
    refine hstep _ _ _ hg.symm rfl ?_
    unfold RService.heard at hh
    split at hh
    · split at hh
      · simp only [Option.map_eq_some_iff] at hh
        obtain ⟨y, -, rfl⟩ := hh
        exact .inl ⟨j, y, rfl⟩
      · simp only [Option.map_eq_some_iff] at hh
        obtain ⟨y, -, rfl⟩ := hh
        exact .inr ⟨_, rfl, rfl⟩
    · split at hh
      · simp only [Option.some.injEq] at hh
        split at hh
        · exact .inl ⟨j, _, hh.symm⟩
        · exact .inr ⟨_, hh.symm, rfl⟩
      · cases hh
  | give j c id hc hl hpc hw => exact hstep _ _ _ hg.symm rfl (.inr ⟨_, rfl, rfl⟩)
  | cancel j c hc hw => exact hstep _ _ _ hg.symm rfl (.inr ⟨_, rfl, rfl⟩)

/-! ### Counting by injection -/

theorem length_le_countP {α : Type} (B : α → Bool) (R : Nat → α → Prop) (ks : List Nat) (l : List α) (hn : ks.Nodup)
    (hex : ∀ k ∈ ks, ∃ e ∈ l, B e = true ∧ R k e) (hinj : ∀ k k' e, R k e → R k' e → k = k') : ks.length ≤ l.countP B := by
  induction ks generalizing l with
  | nil => exact Nat.zero_le _
  | cons k r ih =>
    obtain ⟨e, he, hB, hR⟩ := hex k (.head _)
    obtain ⟨l1, l2, rfl⟩ := List.append_of_mem he
    have := ih (l1 ++ l2) (List.nodup_cons.1 hn).2 (by
      intro k' hk'
      obtain ⟨e', he', hB', hR'⟩ := hex k' (.tail _ hk')
      have hne : e' ≠ e := by
        rintro rfl
        have := hinj _ _ _ hR hR'
        subst this
        exact (List.nodup_cons.1 hn).1 hk'
      refine ⟨e', ?_, hB', hR'⟩
      simp only [List.mem_append, List.mem_cons] at he' ⊢
      rcases he' with h | h | h
      · exact .inl h
      · exact absurd h hne
      · exact .inr h)
    simp only [List.countP_append, List.countP_cons, hB, if_true, List.length_cons] at this ⊢
    omega

theorem nodup_of_countP {α : Type} (f : α → Option Nat) (l : List α) (h : ∀ k, l.countP (fun e => f e == some k) ≤ 1) : (l.filterMap f).Nodup := by
  induction l with
  | nil => exact List.nodup_nil
  | cons e r ih =>
    have hr : ∀ k, r.countP (fun e => f e == some k) ≤ 1 := by
      intro k
      have := h k
      rw [List.countP_cons] at this
      omega
    cases he : f e with
    | none => rw [List.filterMap_cons_none he]; exact ih hr
    | some k =>
      rw [List.filterMap_cons_some he, List.nodup_cons]
      refine ⟨?_, ih hr⟩
      intro hk
      obtain ⟨e', he', hk'⟩ := List.mem_filterMap.1 hk
      have := h k
      rw [List.countP_cons, he] at this
      have h1 : 0 < r.countP (fun e => f e == some k) := List.countP_pos_iff.2 ⟨e', he', by simp [hk']⟩
      simp only [beq_self_eq_true, if_true] at this
      omega

theorem countP_filterMap_length {α : Type} (B : α → Bool) (f : α → Option Nat) (l : List α) (h : ∀ e, B e = true ↔ (f e).isSome = true) :
    l.countP B = (l.filterMap f).length := by
  induction l with
  | nil => rfl
  | cons e r ih =>
    cases he : f e with
    | none =>
      have : B e = false := by
        cases hb : B e with
        | false => rfl
        | true => rw [(h e)] at hb; rw [he] at hb; cases hb
      rw [List.filterMap_cons_none he, List.countP_cons, this, ih]; simp
    | some k =>
      have : B e = true := by rw [h e, he]; rfl
      rw [List.filterMap_cons_some he, List.countP_cons, this, ih]; simp

end MCap
