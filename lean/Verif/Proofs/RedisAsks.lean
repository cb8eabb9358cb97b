import Verif.Proofs.RedisLive
import Verif.Proofs.RedisOnce
import Verif.Spec.RedisLost

/-!
# Each call sends each of its requests at most once
-/

namespace MCap
open Spec

/-! ### How far a call is -/

/-- The first or the second request of a call. -/
def askRank : RMsg → Nat
  | .cachePow _ => 1
  | .cacheResult _ => 1
  | _ => 0

/-- The request a call has come to; 2: none any more. -/
def askStage (c : Call) : Nat :=
  if c.live then
    match c.pc with
    | .awaitMaster => 0
    | .awaitCache m _ => askRank m.toRedis
    | .replied _ (.storePow _) => 2
    | .replied _ (.storeResult _ _) => 2
    | .done => 2
    | _ => 1
  else 2

theorem askRank_le (m : RMsg) : askRank m ≤ 1 := by cases m <;> simp [askRank]

theorem askStage_le (c : Call) : askStage c ≤ 2 := by
  unfold askStage
  split
  · split
    · omega
    · rename_i m _ _; have := askRank_le m.toRedis; omega
    all_goals omega
  · omega

theorem askStage_over (c : Call) : askStage c.over = 2 := by
  unfold askStage
  split <;> rfl

theorem request_stage {c : Call} {a : Nat} {m : RMsg} (h : RService.request c = some (a, m)) : askStage c = askRank m := by
  rcases request_two h with rfl | rfl
  · obtain ⟨cm, k, rfl, hp, hl⟩ := request_cache h
    simp [askStage, hl, hp]
  · obtain ⟨id, rfl, -, hp, hl⟩ := request_master h
    simp [askStage, hl, hp, askRank]

theorem sameKind_rank {m m' : RMsg} (h : SameKind m m') : askRank m = askRank m' := by
  cases m <;> cases m' <;> first | rfl | cases h

/-- Calls do not go back. -/
def StageKept (l l' : List Call) : Prop :=
  l.length ≤ l'.length ∧ ∀ (k : Nat) (c c' : Call), l[k]? = some c → l'[k]? = some c' → askStage c ≤ askStage c'

theorem stage_refl (l : List Call) : StageKept l l := ⟨Nat.le_refl _, fun k c c' h h' => by rw [h] at h'; cases h'; exact Nat.le_refl _⟩

theorem stage_set {l : List Call} {i : Nat} {c c' : Call} (h : l[i]? = some c) (hp : askStage c ≤ askStage c') : StageKept l (l.set i c') := by
  refine ⟨by simp, ?_⟩
  intro k d d' hd hd'
  rw [List.getElem?_set] at hd'
  split at hd'
  · rename_i hik
    subst hik
    rw [h] at hd; cases hd
    rw [if_pos (lt_of_some h)] at hd'
    cases hd'
    exact hp
  · rw [hd] at hd'; cases hd'; exact Nat.le_refl _

theorem stage_settle (l : List Call) (q : Queue) (ev : List QEvent) : StageKept l (l.mapIdx (Call.settle q ev)) := by
  refine ⟨by simp, ?_⟩
  intro k c c' hc hc'
  simp only [List.getElem?_mapIdx, hc, Option.map_some, Option.some.injEq] at hc'
  subst hc'
  unfold askStage
  rw [settle_live]
  split
  · rcases settle_pc q ev k c with e | ⟨cfg, e, ⟨e', -⟩ | ⟨e', -⟩ | ⟨e', -⟩⟩
    · rw [e]; exact Nat.le_refl _
    all_goals rw [e, e']; exact Nat.le_refl _
  · exact Nat.le_refl _

/-- With this event call `k` comes to its end. -/
def Stops (k : Nat) : SEvent → Prop
  | .ret i _ _ => i = k
  | .cancelled i => i = k
  | .panicked i => i = k
  | .master i y => i = k ∧ ∀ x, y ≠ .reply x
  | _ => False

/-- The same for calls with an arbitrary back end. -/
def StopsO (k : Nat) : OEvent → Prop
  | .api e => Stops k e
  | .failed i _ _ => i = k

/-- A call has ended. -/
def Ended (log : List SEvent) (k : Nat) : Prop := ∃ e ∈ log, Stops k e

def EndedO (log : List OEvent) (k : Nat) : Prop := ∃ e ∈ log, StopsO k e

theorem local_stage {lib : PowLib} {i : Nat} {c c' : Call} {ev : List SEvent} (m : Local lib i c c' ev) :
    askStage c ≤ askStage c' ∧ (∀ k, Ended ev k → k = i ∧ askStage c' = 2) := by
  have hover : ∀ {d : Call}, askStage d.over = 2 := fun {d} => askStage_over d
  cases m with
  | masterErr id a r h1 h2 hl h3 =>
    rw [hover]
    exact ⟨askStage_le c, by rintro k ⟨e, he, hs⟩; simp at he; rcases he with rfl | rfl <;> simp [Stops] at hs <;> simp [hs]⟩
  | masterOk id r g h1 h2 hl =>
    exact ⟨by simp [askStage, h2, hl], by rintro k ⟨e, he, hs⟩; simp at he; subst he; exact absurd rfl (hs.2 _)⟩
  | accepted cfg h2 hl => exact ⟨by simp [askStage, h2, hl], by simp [Ended]⟩
  | pollNone cfg job ch h2 hj hr hl => exact ⟨by simp [askStage, h2, hl], by simp [Ended, Stops]⟩
  | pollGood cfg job ch g h2 hj hr hl => exact ⟨by simp [askStage, h2, hl, askRank, CacheMsg.toRedis], by simp [Ended, Stops]⟩
  | work job ch hj hf => exact ⟨Nat.le_refl _, by simp [Ended, Stops]⟩
  | cancel hl hd =>
    have : askStage { c.dropRx with live := false } = 2 := rfl
    rw [this]
    exact ⟨askStage_le c, by rintro k ⟨e, he, hs⟩; simp at he; subst he; simp [Stops] at hs; simp [hs]⟩
  | _ =>
    rw [hover]
    exact ⟨askStage_le c, by rintro k ⟨e, he, hs⟩; simp at he; subst he; simp [Stops] at hs; simp [hs]⟩

theorem ended_queue (l : List QEvent) (k : Nat) : ¬ Ended (l.map .queue) k := by
  rintro ⟨e, h, hs⟩
  simp at h
  obtain ⟨_, -, rfl⟩ := h
  cases hs

theorem stage_move {lib : PowLib} {p : Profile} {s s' : Sys} {ev : List SEvent} (m : Move lib p s s' ev) :
    StageKept s.calls s'.calls ∧ ∀ k, Ended ev k → ∃ c', s'.calls[k]? = some c' ∧ askStage c' = 2 := by
  have hset : ∀ {i : Nat} {c c' : Call}, s.calls[i]? = some c → ∀ k, k = i → (s.calls.set i c')[k]? = some c' := by
    rintro i c c' hc k rfl
    exact List.getElem?_set_self (lt_of_some hc)
  cases m with
  | idle => exact ⟨stage_refl _, by simp [Ended]⟩
  | «local» i c c' _ hc m =>
    obtain ⟨h1, h2⟩ := local_stage m
    refine ⟨stage_set hc h1, ?_⟩
    intro k hk
    obtain ⟨h3, h4⟩ := h2 k hk
    exact ⟨c', hset hc k h3, h4⟩
  | start a hcl =>
    refine ⟨⟨by simp, ?_⟩, by simp [Ended, Stops]⟩
    intro k c c' hc hc'
    simp only at hc'
    rw [List.getElem?_append_left (lt_of_some hc), hc] at hc'
    cases hc'; exact Nat.le_refl _
  | cache i c m k hc h2 =>
    refine ⟨stage_set hc ?_, by simp [Ended, Stops]⟩
    have := askRank_le m.toRedis
    unfold askStage
    rw [h2]
    cases k <;> simp <;> split <;> omega
  | submit i c work ip cfg hc h1 h2 hk hl hq hcl =>
    exact ⟨stage_set hc (by simp [askStage, h2, hl]), fun k hk => absurd hk (ended_queue _ k)⟩
  | panic i c cfg work ip hc h1 h2 hl hq hcl =>
    refine ⟨stage_set hc (by rw [askStage_over]; exact askStage_le c), ?_⟩
    rintro k ⟨e, h, hs⟩
    simp at h; subst h
    exact ⟨_, hset hc k hs.symm, askStage_over c⟩
  | queue qs hm => exact ⟨stage_settle _ _ _, fun k hk => absurd hk (ended_queue _ k)⟩
  | shutdown hs => exact ⟨stage_settle _ _ _, fun k hk => absurd hk (ended_queue _ k)⟩
  | expire k =>
    refine ⟨stage_refl _, ?_⟩
    rintro k ⟨e, h, hs⟩
    simp at h
    obtain ⟨_, _, -, rfl⟩ := h
    cases hs
  | tick d => exact ⟨stage_refl _, by simp [Ended]⟩

theorem endedO_map (l : List SEvent) (k : Nat) : EndedO (l.map .api) k ↔ Ended l k := by
  constructor
  · rintro ⟨e, h, hs⟩
    obtain ⟨e', h', rfl⟩ := List.mem_map.1 h
    exact ⟨e', h', hs⟩
  · rintro ⟨e, h, hs⟩
    exact ⟨.api e, List.mem_map_of_mem h, hs⟩

theorem stage_open (lib : PowLib) (p : Profile) (s : Sys) (x : OStep) :
    StageKept s.calls (openStep lib p s x).1.calls ∧ ∀ k, EndedO (openStep lib p s x).2 k → ∃ c', (openStep lib p s x).1.calls[k]? = some c' ∧ askStage c' = 2 := by
  have none : ∀ {P : Nat → Prop}, ∀ k, EndedO [] k → P k := by rintro P k ⟨_, h, -⟩; cases h
  cases x with
  | sys st =>
    simp only [openStep]
    split
    · have := stage_move (sysStep_move lib p s st)
      exact ⟨this.1, fun k hk => this.2 k ((endedO_map _ k).1 hk)⟩
    · exact ⟨stage_refl _, none⟩
  | cache i a =>
    simp only [openStep]
    split
    · exact ⟨stage_refl _, none⟩
    · split
      · rename_i c hc
        split
        · rename_i m k hpc hl
          cases a with
          | ok r =>
            simp only [Sys.onCacheAnswer]
            split
            · refine ⟨stage_set hc ?_, by simp [EndedO, StopsO, Stops]⟩
              have := askRank_le m.toRedis
              unfold askStage
              rw [hpc]
              cases k <;> simp <;> split <;> omega
            · exact ⟨stage_refl _, none⟩
          | error e =>
            refine ⟨stage_set hc (by rw [askStage_over]; exact askStage_le c), ?_⟩
            intro k hk
            have : k = i := by
              obtain ⟨e, h, hs⟩ := hk
              simp [Sys.onCacheAnswer] at h
              rcases h with rfl | rfl <;> exact hs.symm
            subst this
            refine ⟨c.over, ?_, askStage_over c⟩
            simp only [Sys.onCacheAnswer, Sys.setCall]
            exact List.getElem?_set_self (lt_of_some hc)
        · exact ⟨stage_refl _, none⟩
      · exact ⟨stage_refl _, none⟩

/-! ### A call that has heard goes on -/

theorem heard_stage {lib : PowLib} {p : Profile} {n ql now : Nat} {conns : List Nat} {v : RService} {log : List ZEvent}
    (hz : ZInv lib p n ql now conns v log) (hab : ¬ v.sys.queue.status = .aborted) {i id a : Nat} {c c' : Call} {m : RMsg} {g : Rng} {st : OStep}
    (hc : v.sys.calls[i]? = some c) (hw : v.waiting.get i = some id) (hr : RService.request c = some (a, m)) (hh : v.heard i a id g = some st)
    (hc' : (openStep lib p v.sys st).1.calls[i]? = some c') : askRank m < askStage c' := by
  rcases heard_cases hz hc hw hr hh with ⟨rfl, x, rfl, hx⟩ | ⟨rfl, x, rfl, -⟩
  · obtain ⟨cm, k, rfl, hp, hl⟩ := request_cache hr
    have hpend := (zcall hz.sys hc).2 cm k hp
    simp only [openStep, if_neg hab, hc, hp, hl] at hc'
    cases x with
    | error e =>
      simp only [Sys.onCacheAnswer, Sys.setCall] at hc'
      rw [List.getElem?_set_self (lt_of_some hc)] at hc'
      cases hc'
      rw [askStage_over]
      have := askRank_le cm.toRedis
      omega
    | ok y =>
      have hy : cm.allows y = true := by
        rcases hx with ⟨ans, h1, h2⟩ | ⟨h1 | h1, -⟩
        · have him := pending_asks hpend
          obtain ⟨ns, hn⟩ := hz.net
          have hprov := prov_net conns now ns
          rw [hn] at hprov
          rcases (hprov.answered _ _ _ _ (mem_atActors.2 (mem_atRedis.2 h1))).2 with ⟨h3, -⟩ | ⟨-, -, r, h3⟩
          · rw [him] at h3; cases h3
          · obtain ⟨x, hx, hf⟩ := answer_fits him h3
            rw [h2] at hx; cases hx
            exact hf y rfl
        · cases h1
        · cases h1
      simp only [Sys.onCacheAnswer, hy, if_true, Sys.setCall] at hc'
      rw [List.getElem?_set_self (lt_of_some hc)] at hc'
      cases hc'
      cases k with
      | storePow cfg => obtain ⟨_, _, _, _, _, _, _, rfl⟩ := hpend; simp [askStage, askRank, CacheMsg.toRedis, hl]
      | retrieve => obtain ⟨_, _, _, rfl⟩ := hpend; simp [askStage, askRank, CacheMsg.toRedis, hl]
      | storeResult t d => obtain ⟨_, _, _, _, _, _, _, rfl, _⟩ := hpend; simp [askStage, askRank, CacheMsg.toRedis, hl]
      | check => obtain ⟨_, _, rfl⟩ := hpend; simp [askStage, askRank, CacheMsg.toRedis, hl]
  · obtain ⟨site, rfl, hapi, hp, hl⟩ := request_master hr
    simp only [openStep, SStep.noCache, if_true, sysStep, if_neg hab, hc, hapi, hp, hl] at hc'
    have hover : ∀ {r}, (v.sys.returns i c r).1.calls[i]? = some c' → 0 < askStage c' := by
      intro r h
      simp only [Sys.returns, Sys.setCall] at h
      rw [List.getElem?_set_self (lt_of_some hc)] at h
      cases h
      rw [askStage_over]; omega
    show 0 < askStage c'
    unfold Sys.onMaster at hc'
    split at hc'
    · exact hover hc'
    · exact hover hc'
    · simp only [Sys.setCall] at hc'
      rw [List.getElem?_set_self (lt_of_some hc)] at hc'
      cases hc'
      simp [askStage, hl, askRank, CacheMsg.toRedis]
    · exact hover hc'

/-! ### The invariant -/

structure AskInv (v : RService) (log : List ZEvent) : Prop where
  below : ∀ k id, .asked k id ∈ log → k < v.sys.calls.length
  same : ∀ k id id' b b' m m', .asked k id ∈ log → .asked k id' ∈ log → .net (.actor (.sent b id m)) ∈ log → .net (.actor (.sent b' id' m')) ∈ log →
    askRank m = askRank m' → id = id'
  left : ∀ k id b m c, .asked k id ∈ log → .net (.actor (.sent b id m)) ∈ log → v.sys.calls[k]? = some c → v.waiting.get k = some id ∨ askRank m < askStage c
  over : ∀ k, EndedO (atCalls log) k → ∃ c, v.sys.calls[k]? = some c ∧ askStage c = 2

/-- Steps with which no call asks. -/
theorem askInv_quiet {v v' : RService} {log ev : List ZEvent} (h : AskInv v log) (hc : StageKept v.sys.calls v'.sys.calls)
    (hk : ∀ k id, .asked k id ∉ ev) (hsent : ∀ k id, .asked k id ∈ log → ∃ a m, .net (.actor (.sent a id m)) ∈ log)
    (hone : ∀ a b id m m', .net (.actor (.sent a id m)) ∈ log ++ ev → .net (.actor (.sent b id m')) ∈ log ++ ev → m = m')
    (hov : ∀ k, EndedO (atCalls ev) k → ∃ c, v'.sys.calls[k]? = some c ∧ askStage c = 2)
    (hw : ∀ k id b m c c', v.waiting.get k = some id → .asked k id ∈ log → .net (.actor (.sent b id m)) ∈ log → v.sys.calls[k]? = some c →
      v'.sys.calls[k]? = some c' → v'.waiting.get k = some id ∨ askRank m < askStage c') : AskInv v' (log ++ ev) := by
  have hin : ∀ {k id}, .asked k id ∈ log ++ ev → .asked k id ∈ log := fun {k id} hm => (List.mem_append.1 hm).resolve_right (hk k id)
  have hst : ∀ {k id b m}, .asked k id ∈ log → .net (.actor (.sent b id m)) ∈ log ++ ev → ∃ b, .net (.actor (.sent b id m)) ∈ log := by
    intro k id b m h1 h2
    obtain ⟨b', m', h3⟩ := hsent k id h1
    have e := hone _ _ _ _ _ h2 (List.mem_append_left _ h3)
    subst e
    exact ⟨b', h3⟩
  refine ⟨?_, ?_, ?_, ?_⟩
  · intro k id hm
    exact Nat.lt_of_lt_of_le (h.below k id (hin hm)) hc.1
  · intro k id id' b b' m m' h1 h2 h3 h4 he
    obtain ⟨b, h3⟩ := hst (hin h1) h3
    obtain ⟨b', h4⟩ := hst (hin h2) h4
    exact h.same k id id' b b' m m' (hin h1) (hin h2) h3 h4 he
  · intro k id b m c' h1 h2 hc'
    have hlt := h.below k id (hin h1)
    obtain ⟨b, h2⟩ := hst (hin h1) h2
    obtain ⟨c, hcc⟩ : ∃ c, v.sys.calls[k]? = some c := ⟨_, List.getElem?_eq_getElem hlt⟩
    rcases h.left k id b m c (hin h1) h2 hcc with h3 | h3
    · exact hw k id b m c c' h3 (hin h1) h2 hcc hc'
    · exact .inr (Nat.lt_of_lt_of_le h3 (hc.2 k c c' hcc hc'))
  · intro k hk
    have hcase : EndedO (atCalls log) k ∨ EndedO (atCalls ev) k := by
      obtain ⟨e, he, hs⟩ := hk
      rw [atCalls_append] at he
      rcases List.mem_append.1 he with he | he
      · exact .inl ⟨e, he, hs⟩
      · exact .inr ⟨e, he, hs⟩
    rcases hcase with h1 | h1
    · obtain ⟨c, hcc, this⟩ := h.over k h1
      obtain ⟨c', hc'⟩ : ∃ c', v'.sys.calls[k]? = some c' := ⟨_, List.getElem?_eq_getElem (Nat.lt_of_lt_of_le (lt_of_some hcc) hc.1)⟩
      refine ⟨c', hc', ?_⟩
      have h2 := hc.2 k c c' hcc hc'
      have h3 := askStage_le c'
      omega
    · exact hov k h1

theorem askInv_step {lib : PowLib} {p : Profile} {n ql now : Nat} {conns : List Nat} {v : RService} {log : List ZEvent} (hz : ZInv lib p n ql now conns v log)
    (x : ZStep) (h : AskInv v log) : AskInv (zStep lib p v x).1 (log ++ (zStep lib p v x).2) := by
  by_cases hab : v.sys.queue.status = .aborted
  · have e : zStep lib p v x = (v, []) := by unfold zStep; rw [if_pos hab]
    rw [e]; simpa using h
  have hm := zStep_move lib p v x
  have hz' := zinv_move hz hm
  generalize (zStep lib p v x).1 = v' at *
  generalize (zStep lib p v x).2 = ev at *
  have hone := zinv_one hz'
  have hsent : ∀ k id, .asked k id ∈ log → ∃ a m, .net (.actor (.sent a id m)) ∈ log := by
    intro k id hk
    obtain ⟨a, m, h1, -⟩ := hz.asked k id hk
    exact ⟨a, m, h1⟩
  have hopen : ∀ (st : OStep) (ev : List ZEvent), atCalls ev = (openStep lib p v.sys st).2 →
      ∀ k, EndedO (atCalls ev) k → ∃ c, (openStep lib p v.sys st).1.calls[k]? = some c ∧ askStage c = 2 := by
    intro st ev he k hk
    rw [he] at hk
    exact (stage_open lib p v.sys st).2 k hk
  cases hm with
  | idle x => simpa using h
  | sys st hd =>
    exact askInv_quiet h (stage_open lib p v.sys _).1 (by simp) hsent hone (hopen _ _ (atCalls_map _).1)
      (fun k id b m c c' hw _ _ _ _ => .inl hw)
  | net st hm =>
    exact askInv_quiet h (stage_refl _) (by simp) hsent hone (by simp [EndedO, (atRedis_map _).2]) (fun k id b m c c' hw _ _ _ _ => .inl hw)
  | ask i c a m id hc hw hr hev =>
    have hin : ∀ j k, .asked j k ∈ log ++ [ZEvent.net (.actor (.sent a id m)), .asked i id] → .asked j k ∈ log ∨ (j = i ∧ k = id) := by
      intro j k hk
      rcases List.mem_append.1 hk with hk | hk
      · exact .inl hk
      · simp at hk; exact .inr hk
    have hst : ∀ {j k b m'}, .asked j k ∈ log → .net (.actor (.sent b k m')) ∈ log ++ [ZEvent.net (.actor (.sent a id m)), .asked i id] →
        ∃ b, .net (.actor (.sent b k m')) ∈ log := by
      intro j k b m' h1 h2
      obtain ⟨b', m'', h3⟩ := hsent j k h1
      have e := hone _ _ _ _ _ h2 (List.mem_append_left _ h3)
      subst e
      exact ⟨b', h3⟩
    have hthis : ∀ {b m'}, .net (.actor (.sent b id m')) ∈ log ++ [ZEvent.net (.actor (.sent a id m)), .asked i id] → m' = m := by
      intro b m' h2
      exact hone _ _ _ _ _ h2 (show ZEvent.net (.actor (.sent a id m)) ∈ _ by simp)
    have hno : ∀ {k b m'}, .asked i k ∈ log → .net (.actor (.sent b k m')) ∈ log → askRank m' < askRank m := by
      intro k b m' h1 h2
      rcases h.left i k b m' c h1 h2 hc with h3 | h3
      · rw [hw] at h3; cases h3
      · rwa [request_stage hr] at h3
    refine ⟨?_, ?_, ?_, ?_⟩
    · intro j k hk
      rcases hin j k hk with hk | ⟨rfl, rfl⟩
      · exact h.below j k hk
      · exact lt_of_some hc
    · intro j k k' b b' m1 m2 h1 h2 h3 h4 he
      rcases hin j k h1 with h1' | ⟨hj, hk⟩ <;> rcases hin j k' h2 with h2' | ⟨hj', hk'⟩
      · obtain ⟨b, h3⟩ := hst h1' h3
        obtain ⟨b', h4⟩ := hst h2' h4
        exact h.same j k k' b b' m1 m2 h1' h2' h3 h4 he
      · subst j k'
        obtain ⟨_, h5⟩ := hst h1' h3
        have e := hthis h4
        subst e
        have := hno h1' h5
        omega
      · subst j k
        obtain ⟨_, h5⟩ := hst h2' h4
        have e := hthis h3
        subst e
        have := hno h2' h5
        omega
      · rw [hk, hk']
    · intro j k b m' d h1 h2 hd
      simp only at hd ⊢
      rw [AMap.get_insert]
      rcases hin j k h1 with h1 | ⟨rfl, rfl⟩
      · obtain ⟨b, h2⟩ := hst h1 h2
        by_cases hij : j = i
        · subst j
          rw [hc] at hd; cases hd
          have := hno h1 h2
          rw [request_stage hr]
          exact .inr this
        · rw [if_neg (Ne.symm hij)]
          exact h.left j k b m' d h1 h2 hd
      · rw [if_pos rfl]; exact .inl rfl
    · intro k hk
      exact h.over k (by simpa [EndedO, atCalls_append, show atCalls [ZEvent.net (.actor (.sent a id m)), .asked i id] = [] from rfl] using hk)
  | refused i c a m st hc hw hr hs hd hst =>
    exact askInv_quiet h (stage_open lib p v.sys _).1 (by simp) hsent hone (hopen _ _ (by simpa [atCalls] using (atCalls_map (openStep lib p v.sys st).2).1))
      (fun k id b m c c' hw _ _ _ _ => .inl hw)
  | hear i c a m id st g hc hw hr hh =>
    refine askInv_quiet h (stage_open lib p v.sys _).1 (by simp) hsent hone (hopen _ _ (atCalls_map _).1) ?_
    intro k id' b m' d d' hwk hk hs hd hd'
    by_cases hik : k = i
    · subst hik
      rw [hw] at hwk; cases hwk
      rw [hc] at hd; cases hd
      obtain ⟨c', a', m'', hc', hr', hs', -⟩ := hz.waiting k id hw
      rw [hc] at hc'; cases hc'
      rw [hr] at hr'; cases hr'
      have e := zinv_one hz _ _ _ _ _ hs hs'
      subst e
      exact .inr (heard_stage hz hab hc hw hr hh hd')
    · left
      simp only
      rw [(erased_waiting v.waiting i).2 k hik]
      exact hwk
  | give i c id hc hl hpc hw =>
    refine askInv_quiet h (stage_open lib p v.sys _).1 (by simp) hsent hone (hopen _ _ (atCalls_map _).1) ?_
    intro k id' b m' d d' hwk hk hs hd hd'
    by_cases hik : k = i
    · subst hik
      rw [hc] at hd; cases hd
      right
      simp only [openStep, SStep.noCache, if_true, sysStep, if_neg hab, hc, hl, hpc, ne_eq, not_false_eq_true, and_self, Sys.setCall] at hd'
      rw [List.getElem?_set_self (lt_of_some hc)] at hd'
      cases hd'
      have := askRank_le m'
      show askRank m' < 2
      omega
    · left
      simp only
      rw [(erased_waiting v.waiting i).2 k hik]
      exact hwk
  | cancel i c hc hw =>
    exact askInv_quiet h (stage_open lib p v.sys _).1 (by simp) hsent hone (hopen _ _ (atCalls_map _).1)
      (fun k id b m c c' hw _ _ _ _ => .inl hw)

theorem askInv_run (lib : PowLib) (p : Profile) (n ql now : Nat) (conns : List Nat) (steps : List ZStep) :
    AskInv (zRun lib p (RService.new n ql now conns) steps).1 (zLog lib p n ql now conns steps) := by
  suffices h : ∀ (s2 s1 : List ZStep), AskInv (zRun lib p (RService.new n ql now conns) s1).1 (zLog lib p n ql now conns s1) →
      AskInv (zRun lib p (RService.new n ql now conns) (s1 ++ s2)).1 (zLog lib p n ql now conns (s1 ++ s2)) by
    have := h steps [] ⟨fun k id h => absurd h List.not_mem_nil, fun k id id' b b' m m' h => absurd h List.not_mem_nil,
      fun k id b m c h => absurd h List.not_mem_nil, fun k h => by obtain ⟨_, h, -⟩ := h; exact absurd h List.not_mem_nil⟩
    simpa using this
  intro s2
  induction s2 with
  | nil => intro s1 h; simpa using h
  | cons x r ih =>
    intro s1 h
    have := ih (s1 ++ [x]) (by
      have h1 := askInv_step (zinv_run lib p n ql now conns s1) x h
      have e : zRun lib p (RService.new n ql now conns) (s1 ++ [x]) =
          ((zStep lib p (zRun lib p (RService.new n ql now conns) s1).1 x).1,
            (zRun lib p (RService.new n ql now conns) s1).2 ++ (zStep lib p (zRun lib p (RService.new n ql now conns) s1).1 x).2) := by
        rw [zRun_append]; simp [zRun]
      rw [zLog, e]
      exact h1)
    simpa using this

/-! ### What follows -/

/-- No call asks after its end. -/
theorem no_ask_after {lib : PowLib} {p : Profile} {n ql now : Nat} {conns : List Nat} {steps : List ZStep} {q r : List ZEvent} {e : OEvent} {i : Nat}
    (hlog : zLog lib p n ql now conns steps = q ++ .sys e :: r) (he : StopsO i e) (id : Nat) : .asked i id ∉ r := by
  intro hm
  obtain ⟨r1, r2, rfl⟩ := List.append_of_mem hm
  have hl : zLog lib p n ql now conns steps = (q ++ .sys e :: r1) ++ .asked i id :: r2 := by rw [hlog]; simp
  obtain ⟨s1, x, s2, e1, e2, rfl, hpre, hev⟩ := zRun_split lib p _ _ hl
  have hk := askInv_run lib p n ql now conns s1
  have hmv := zStep_move lib p (zRun lib p (RService.new n ql now conns) s1).1 x
  rw [show (zRun lib p (RService.new n ql now conns) s1).2 = zLog lib p n ql now conns s1 from rfl] at hpre
  generalize (zRun lib p (RService.new n ql now conns) s1).1 = v at *
  generalize zLog lib p n ql now conns s1 = log at *
  generalize (zStep lib p v x).1 = v' at *
  generalize (zStep lib p v x).2 = ev at *
  have hin : .asked i id ∈ ev := by rw [hev]; simp
  cases hmv with
  | ask j c a m id' hc hw hr hs =>
    have hlast : e1 = [.net (.actor (.sent a id' m))] ∧ i = j := by
      cases e1 with
      | nil => simp at hev
      | cons y e1 =>
        cases e1 with
        | nil => simp at hev; exact ⟨by rw [hev.1], hev.2.1.1.symm⟩
        | cons z e1 => simp at hev
    obtain ⟨rfl, rfl⟩ := hlast
    have hq : EndedO (atCalls log) i := by
      refine ⟨e, mem_atCalls.2 ?_, he⟩
      have : ZEvent.sys e ∈ q ++ .sys e :: r1 := by simp
      rw [hpre] at this
      simpa using this
    obtain ⟨c', hc', h2⟩ := hk.over i hq
    rw [hc] at hc'; cases hc'
    rw [request_stage hr] at h2
    have := askRank_le m
    omega
  | _ => simp at hin

/-- Each request is asked for once. -/
theorem ask_once {lib : PowLib} {p : Profile} {n ql now : Nat} {conns : List Nat} {steps : List ZStep} {i id id' a a' : Nat} {m m' : RMsg}
    (h1 : .asked i id ∈ zLog lib p n ql now conns steps) (h2 : .asked i id' ∈ zLog lib p n ql now conns steps)
    (h3 : .net (.actor (.sent a id m)) ∈ zLog lib p n ql now conns steps) (h4 : .net (.actor (.sent a' id' m')) ∈ zLog lib p n ql now conns steps)
    (h : SameKind m m') : id = id' :=
  (askInv_run lib p n ql now conns steps).same i id id' a a' m m' h1 h2 h3 h4 (sameKind_rank h)

/-- What a call has asked for already is not what it asks for now. -/
theorem ask_new {lib : PowLib} {p : Profile} {n ql now : Nat} {conns : List Nat} {v : RService} {log : List ZEvent}
    (hz : ZInv lib p n ql now conns v log) (h : AskInv v log) {i a : Nat} {c : Call} {m : RMsg} (hc : v.sys.calls[i]? = some c)
    (hw : v.waiting.get i = none) (hr : RService.request c = some (a, m)) :
    ∀ id, .asked i id ∈ log → ∃ b m', .net (.actor (.sent b id m')) ∈ log ∧ ¬ SameKind m m' := by
  intro id h1
  obtain ⟨b, m', h2, -⟩ := hz.asked i id h1
  refine ⟨b, m', h2, fun hs => ?_⟩
  rcases h.left i id b m' c h1 h2 hc with h3 | h3
  · rw [hw] at h3; cases h3
  · rw [request_stage hr, sameKind_rank hs] at h3
    omega

end MCap
