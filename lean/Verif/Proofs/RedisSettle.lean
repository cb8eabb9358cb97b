import Verif.Proofs.RedisLive

/-!
# The service on Redis comes to rest, and then nobody waits for Redis
-/

namespace MCap
open Spec

/-! ### Weight -/

/-- Call `i` has to send a request. -/
def toAsk (v : RService) (i : Nat) : Bool :=
  (match v.sys.calls[i]? with | some c => (RService.request c).isSome | none => false) && (v.waiting.get i).isNone

def unasked (v : RService) : Nat := (List.range v.sys.calls.length).countP (toAsk v)

/-- What is left to do in a state of the service. -/
def zW (v : RService) : Nat := (8 * v.sys.calls.length + 1) * sysW v.sys + netW v.net + 8 * unasked v

theorem unasked_le (v : RService) : unasked v ≤ v.sys.calls.length := by
  have := List.countP_le_length (p := toAsk v) (l := List.range v.sys.calls.length)
  simpa [unasked] using this

theorem zW_sys {v v' : RService} (hs : sysW v'.sys < sysW v.sys) (hl : v'.sys.calls.length = v.sys.calls.length) (hn : netW v'.net ≤ netW v.net) :
    zW v' < zW v := by
  have h1 := unasked_le v'
  have h2 : (8 * v.sys.calls.length + 1) * (sysW v'.sys + 1) ≤ (8 * v.sys.calls.length + 1) * sysW v.sys := Nat.mul_le_mul_left _ hs
  rw [Nat.mul_add] at h2
  simp only [zW]
  rw [hl] at h1 ⊢
  omega

theorem countP_less {α : Type} {p q : α → Bool} {l : List α} (h : ∀ x ∈ l, p x = true → q x = true) {x : α} (hx : x ∈ l) (hp : p x = false)
    (hq : q x = true) : l.countP p < l.countP q := by
  induction l with
  | nil => cases hx
  | cons y r ih =>
    have hr : r.countP p ≤ r.countP q := List.countP_mono_left fun z hz => h z (List.mem_cons_of_mem _ hz)
    rw [List.countP_cons, List.countP_cons]
    rcases List.mem_cons.1 hx with rfl | hx
    · simp only [hp, hq, if_true]
      simp
      omega
    · have := ih (fun z hz => h z (List.mem_cons_of_mem _ hz)) hx
      have hy := h y (by simp)
      cases hpy : p y with
      | false => simp; omega
      | true => rw [hy hpy]; simp; omega

theorem send_netW (s : RNet) (a : Nat) (m : RMsg) : netW (nStep s (.send a m)).1 ≤ netW s + 4 := by
  simp only [nStep, RNet.onActors, rStep, netW]
  split
  · simp
  · rename_i x hx
    split
    · have := setActor_sum ({ s.sys with next := s.sys.next + 1 } : RSys) (a := a) (x := x) hx { x with inbox := x.inbox ++ [(s.sys.next, m)] }
      simp only [actorW, List.length_append, List.length_singleton] at this
      simp only at this ⊢
      omega
    · simp

theorem z_weight {lib : PowLib} {p : Profile} {n ql now : Nat} {conns : List Nat} {v : RService} {log : List ZEvent}
    (hz : ZInv lib p n ql now conns v log) (ht : v.sys.cache.timers = []) (x : ZStep) (hx : alone x = true) :
    (zStep lib p v x).1 = v ∨ zW (zStep lib p v x).1 < zW v := by
  by_cases hab : v.sys.queue.status = .aborted
  · left; simp only [zStep, if_pos hab]
  have hm := zStep_move lib p v x
  generalize (zStep lib p v x).1 = v' at *
  generalize (zStep lib p v x).2 = ev at *
  cases hm with
  | idle => exact .inl rfl
  | sys st hd =>
    have hn := noCache_of_direct hd
    have hc : ∀ a, st ≠ .call a := by rintro a rfl; cases hx
    simp only [openStep, hn, if_true]
    rcases direct_less lib p v.sys st ht hn hc with h | h
    · left; rw [h]
    · right
      exact zW_sys h (quiet_step lib p v.sys st hc (by rintro d rfl; cases hn)).1 (Nat.le_refl _)
  | net st hd =>
    have hg : netGoes st = true := by cases st <;> first | rfl | cases hx
    rcases net_weight v.net st hg with h | h
    · left
      rw [h]
      simp [RService.absorb]
    · right
      have : unasked (v.absorb (nStep v.net st).1 (nStep v.net st).2) = unasked v := rfl
      simp only [zW, this]
      simp only [RService.absorb]
      omega
  | ask i c a m id hc hw hr hev =>
    right
    have h1 := send_netW v.net a m
    have h2 : unasked { v with net := (nStep v.net (.send a m)).1, waiting := v.waiting.insert i id } < unasked v := by
      refine countP_less (x := i) ?_ (List.mem_range.2 (lt_of_some hc)) ?_ ?_
      · intro j _ hj
        simp only [toAsk, Bool.and_eq_true] at hj ⊢
        refine ⟨hj.1, ?_⟩
        have := hj.2
        rw [AMap.get_insert] at this
        split at this
        · cases this
        · exact this
      · simp [toAsk]
      · simp [toAsk, hc, hr, hw]
    simp only [zW]
    omega
  | refused i c a m st hc hw hr hs hd hst =>
    obtain ⟨h1, h2⟩ := refused_less (lib := lib) (p := p) hab hc hr hst
    exact .inr (zW_sys h1 h2 (Nat.le_refl _))
  | hear i c a m id st g hc hw hr hh =>
    obtain ⟨h1, h2⟩ := hear_less hz hab hc hw hr hh
    exact .inr (zW_sys h1 h2 (Nat.le_refl _))
  | give i c id hc hl hp hw =>
    exact .inr (zW_sys (cancel_less lib p v.sys hab ht hc hl hp) (open_length lib p v.sys _ (by simp)) (Nat.le_refl _))
  | cancel i c hc hw =>
    simp only [openStep, SStep.noCache, if_true]
    rcases direct_less lib p v.sys (.cancel i) ht rfl (by simp) with h | h
    · left; rw [h]
    · right
      exact zW_sys h (quiet_step lib p v.sys _ (by simp) (by simp)).1 (Nat.le_refl _)

abbrev zState (lib : PowLib) (p : Profile) (n ql now : Nat) (conns : List Nat) (steps : List ZStep) : RService :=
  (zRun lib p (RService.new n ql now conns) steps).1

theorem zStep_snoc (lib : PowLib) (p : Profile) (n ql now : Nat) (conns : List Nat) (done : List ZStep) (x : ZStep) :
    (zStep lib p (zState lib p n ql now conns done) x).1 = zState lib p n ql now conns (done ++ [x]) := by
  rw [zState, zState, zRun_append]; rfl

theorem changesZ_le (lib : PowLib) (p : Profile) (n ql now : Nat) (conns : List Nat) (later done : List ZStep) (h : ∀ st ∈ later, alone st = true) :
    changesZ lib p (zState lib p n ql now conns done) later ≤ zW (zState lib p n ql now conns done) := by
  induction later generalizing done with
  | nil => exact Nat.zero_le _
  | cons st r ih =>
    have hr := ih (done ++ [st]) (fun a ha => h a (List.mem_cons_of_mem _ ha))
    have hw := z_weight (zinv_run lib p n ql now conns done) (ansInv_run lib p n ql now conns done).timers st (h st (by simp))
    unfold changesZ
    rw [zStep_snoc]
    rw [show (zRun lib p (RService.new n ql now conns) done).1 = zState lib p n ql now conns done from rfl, zStep_snoc] at hw
    rcases hw with hw | hw
    · rw [if_pos hw]
      rw [hw] at hr ⊢; omega
    · split <;> omega

theorem alone_of_goes {st : ZStep} (h : goesOnZ st = true) : alone st = true := by
  cases st with
  | sys st => cases st <;> first | rfl | cases h
  | net st => cases st <;> first | rfl | cases h
  | _ => rfl

theorem settlesZ (lib : PowLib) (p : Profile) (n ql now : Nat) (conns : List Nat) (k : Nat) (done : List ZStep)
    (h : zW (zState lib p n ql now conns done) ≤ k) :
    ∃ later, (∀ st ∈ later, goesOnZ st = true) ∧ QuiescentZ lib p (zState lib p n ql now conns (done ++ later)) := by
  have hw := fun st (hst : goesOnZ st = true) => z_weight (zinv_run lib p n ql now conns done) (ansInv_run lib p n ql now conns done).timers st (alone_of_goes hst)
  induction k generalizing done with
  | zero =>
    refine ⟨[], by simp, ?_⟩
    rw [List.append_nil]
    intro st hst
    rcases hw st hst with hw | hw
    · exact hw
    · have : zW (zRun lib p (RService.new n ql now conns) done).1 ≤ 0 := h
      omega
  | succ k ih =>
    by_cases hq : QuiescentZ lib p (zState lib p n ql now conns done)
    · exact ⟨[], by simp, by rw [List.append_nil]; exact hq⟩
    · obtain ⟨st, hst⟩ := Classical.not_forall.1 hq
      obtain ⟨hst, hne⟩ := Classical.not_imp.1 hst
      rcases hw st hst with hw | hw
      · exact absurd hw hne
      · rw [show (zRun lib p (RService.new n ql now conns) done).1 = zState lib p n ql now conns done from rfl, zStep_snoc] at hw
        obtain ⟨later, h1, h2⟩ := ih (done ++ [st]) (by omega)
          (fun st hst => z_weight (zinv_run lib p n ql now conns _) (ansInv_run lib p n ql now conns _).timers st (alone_of_goes hst))
        refine ⟨st :: later, ?_, by simpa using h2⟩
        intro x hx
        rcases List.mem_cons.1 hx with rfl | hx
        · exact hst
        · exact h1 x hx

/-! ### At rest -/

/-- When nothing goes on any more no call waits for Redis. -/
theorem quiet_requests (lib : PowLib) (p : Profile) (n ql now : Nat) (conns : List Nat) (steps : List ZStep) (h2 : 2 ≤ conns.length)
    (hq : QuiescentZ lib p (zState lib p n ql now conns steps)) (hab : ¬ (zState lib p n ql now conns steps).sys.queue.status = .aborted)
    (i : Nat) (c : Call) (hc : (zState lib p n ql now conns steps).sys.calls[i]? = some c) : RService.request c = none := by
  have hz := zinv_run lib p n ql now conns steps
  have ha := ansInv_run lib p n ql now conns steps
  simp only [zState] at *
  generalize (zRun lib p (RService.new n ql now conns) steps).1 = v at *
  generalize (zRun lib p (RService.new n ql now conns) steps).2 = log at *
  obtain ⟨ns, hn⟩ := hz.net
  have hids := rids_net conns now ns
  have hprov := prov_net conns now ns
  have hbusy := busyInv_run conns now ns
  obtain ⟨ys, hy⟩ := (netInv_run conns now ns).reached
  have hconn := connInv_run conns ys
  have hord := redisOrder_run conns ys
  rw [hy] at hconn hord
  rw [hn] at hids hprov hbusy hconn hord
  simp only at hids hprov hbusy hconn hord
  cases hr : RService.request c with
  | none => rfl
  | some am =>
    obtain ⟨a, m⟩ := am
    exfalso
    have halt : a < conns.length := by rcases request_two hr with rfl | rfl <;> omega
    obtain ⟨x, hx⟩ : ∃ x, v.net.sys.actors[a]? = some x := by
      have := hconn.own a
      rw [List.getElem?_eq_getElem halt] at this
      cases hx : v.net.sys.actors[a]? with
      | none => rw [hx] at this; cases this
      | some x => exact ⟨x, rfl⟩
    cases hw : v.waiting.get i with
    | none =>
      have := hq (.ask i) rfl
      simp only [zStep, if_neg hab, hc, hw, hr] at this
      rcases send_cases v.net a m with h | h | ⟨h, y, hy, hal⟩
      · simp only [nStep, RNet.onActors, rStep, hx] at h
        split at h <;> simp at h
      · simp only [h] at this
        have := congrArg (fun v : RService => v.waiting.get i) this
        simp [hw] at this
      · simp only [h] at this
        have hl := (refused_less (lib := lib) (p := p) hab hc hr rfl).1
        simp only [RService.onSys] at this
        have := congrArg (fun v : RService => sysW v.sys) this
        simp only at this
        omega
    | some id =>
      have hnet : ∀ st, netGoes st = true → goesOnZ (.net st) = true → v.othersMay st = true → (nStep v.net st).2 = [] := by
        intro st h1 h2 h3
        have := hq (.net st) h2
        simp only [zStep, if_neg hab, h3, if_true] at this
        rcases net_weight v.net st h1 with h | h
        · rw [h]
        · have := congrArg (fun v : RService => netW v.net) this
          simp only [RService.absorb] at this
          omega
      have hhear : ∀ st, v.heard i a id (fun _ => 0) ≠ some st := by
        intro st hst
        have := hq (.hear i fun _ => 0) rfl
        simp only [zStep, if_neg hab, hc, hw, hr, hst, RService.onSys] at this
        have := congrArg (fun v : RService => v.waiting.get i) this
        simp [hw] at this
      obtain ⟨c', a', m', hc', hr', hsent, -⟩ := hz.waiting i id hw
      rw [hc] at hc'; cases hc'
      rw [hr] at hr'; cases hr'
      have hnone : ¬ (v.dead a = true ∨ ∃ e ∈ v.answers, e.1 = id) := by
        intro h
        obtain ⟨st, hst⟩ := hears hz (fun _ => 0) hc hw hr h
        exact hhear st hst
      have halive : x.alive = true := by
        cases hal : x.alive with
        | true => rfl
        | false => exact absurd (.inl (by simp [RService.dead, hx, hal])) hnone
      obtain ⟨rest, h1, h3⟩ := hord a
      have hrest := h3 x hx halive
      have hin : id ∈ sentTo a (atActors (atRedis log)) := List.mem_filterMap.2 ⟨_, mem_atActors.2 (mem_atRedis.2 hsent), by simp⟩
      rw [h1] at hin
      rcases List.mem_append.1 hin with hin | hin
      · obtain ⟨e, he, hid⟩ := List.mem_filterMap.1 hin
        cases e <;> simp at hid
        obtain ⟨rfl, rfl⟩ := hid
        exact hnone (.inr (ha.there i _ hw _ _ _ (mem_atRedis.1 (mem_atActors.1 he))))
      · rw [hrest] at hin
        cases hb : x.busy with
        | none =>
          cases hi : x.inbox with
          | nil => simp [RActor.waiting, hb, hi] at hin
          | cons e tl =>
            obtain ⟨j, mj⟩ := e
            have := hnet (.take a) rfl rfl rfl
            simp only [nStep, rStep, hx, hb, hi, RSys.onTake] at this
            split at this
            · simp at this
            · split at this
              · simp at this
              · split at this <;> simp at this
        | some e =>
          obtain ⟨j, mj⟩ := e
          rcases hbusy a x hx j mj hb with h | ⟨m'', r, h⟩
          · obtain ⟨k, hk⟩ := List.mem_iff_getElem?.1 h
            have := hnet (.serve k (.error "")) rfl rfl rfl
            simp [nStep, hk] at this
          · obtain ⟨k, hk⟩ := List.mem_iff_getElem?.1 h
            have := hnet (.deliver a k) rfl rfl rfl
            simp only [nStep, hk, hx, hb, Option.map_some, if_true, RNet.onActors, rStep, RSys.onReply] at this
            split at this
            · simp at this
            · split at this <;> simp at this

theorem quiescentZ (lib : PowLib) (p : Profile) (n ql now : Nat) (conns : List Nat) (steps : List ZStep) (h2 : 2 ≤ conns.length)
    (hq : QuiescentZ lib p (zState lib p n ql now conns steps)) (hab : ¬ (zState lib p n ql now conns steps).sys.queue.status = .aborted)
    {i : Nat} {a : Api} (hi : .sys (.api (.call i a)) ∈ (zRun lib p (RService.new n ql now conns) steps).2) :
    (∃ r, .sys (.api (.ret i a r)) ∈ (zRun lib p (RService.new n ql now conns) steps).2) ∨
    .sys (.api (.cancelled i)) ∈ (zRun lib p (RService.new n ql now conns) steps).2 ∨
    ((∃ work ip, a = .verify work ip) ∧ (zState lib p n ql now conns steps).sys.queue.status = .running ∧
      i ∈ waitingJobs (zState lib p n ql now conns steps).sys.queue) := by
  have hz := zinv_run lib p n ql now conns steps
  obtain ⟨os, ho⟩ := hz.sys
  have hreq := quiet_requests lib p n ql now conns steps h2 hq hab
  obtain ⟨mm, -, hv⟩ := liveInv_run lib p n ql now os
  rw [ho] at hv
  simp only at hv
  have h3 : ∀ st, goesOn st = true → (∀ j, st ≠ .cache j) →
      (sysStep lib p (zState lib p n ql now conns steps).sys st).1 = (zState lib p n ql now conns steps).sys := by
    intro st hst hcache
    have hd : RService.direct st = true := by
      cases st <;> first | rfl | exact absurd rfl (hcache _) | cases hst
    have hg : goesOnZ (.sys st) = true := by
      cases st with
      | queue q => cases q <;> first | rfl | cases hst
      | _ => first | rfl | exact absurd rfl (hcache _) | cases hst
    have := hq (.sys st) hg
    simp only [zStep, if_neg hab, hd, if_true, RService.onSys, openStep, noCache_of_direct hd] at this
    exact congrArg RService.sys this
  rcases open_quiescent lib p n ql now os ho h3 hab (by
      intro j d hd hl m k hp
      have := hreq j d hd
      unfold RService.request at this
      rw [hp, hl] at this
      simp at this) (by
      intro j d hd hl hp
      have h3 := (hv.inv.calls j d hd).2
      rw [hp] at h3
      obtain ⟨id, e⟩ := h3
      have := hreq j d hd
      unfold RService.request at this
      rw [hp, hl, e] at this
      simp at this) (mem_atCalls.2 hi) with ⟨r, h⟩ | h | h
  · exact .inl ⟨r, mem_atCalls.1 h⟩
  · exact .inr (.inl (mem_atCalls.1 h))
  · exact .inr (.inr h)

end MCap
