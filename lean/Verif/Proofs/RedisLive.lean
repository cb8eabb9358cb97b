import Verif.Proofs.OpenLive
import Verif.Proofs.RedisCalm
import Verif.Spec.RedisLive

/-!
# The service on Redis: what is left to be done
-/

namespace MCap
open Spec

/-! ### The actors and the server -/

def actorW (x : RActor) : Nat := 4 * x.inbox.length + (if x.busy.isSome then 1 else 0)

/-- What is left to do for the actors and the server. -/
def netW (s : RNet) : Nat := sumOf actorW s.sys.actors + 2 * s.wire.length + s.replies.length

theorem setActor_sum (s : RSys) {a : Nat} {x : RActor} (h : s.actors[a]? = some x) (y : RActor) :
    sumOf actorW (s.setActor a y).actors + actorW x = sumOf actorW s.actors + actorW y := by
  have := sumOf_set actorW h y
  simp only [RSys.setActor]
  omega

theorem reply_weight (s : RSys) (a : Nat) (r : RResult) :
    rStep s (.reply a r) = (s, []) ∨ sumOf actorW (rStep s (.reply a r)).1.actors < sumOf actorW s.actors := by
  simp only [rStep]
  split
  · exact .inl rfl
  · rename_i x hx
    split
    · rename_i i m hb
      right
      have key : ∀ (t : RSys) (y : RActor), t.actors = s.actors → actorW y < actorW x → sumOf actorW (t.setActor a y).actors < sumOf actorW s.actors := by
        intro t y ht hy
        have := setActor_sum t (a := a) (x := x) (by rw [ht]; exact hx) y
        rw [ht] at this
        omega
      unfold RSys.onReply
      split
      · exact key _ _ rfl (by simp [actorW, RSys.RActor.dead, hb])
      · split
        · exact key _ _ rfl (by simp [actorW, RSys.RActor.dead, hb])
        · exact key _ _ rfl (by simp [actorW, hb])
    · exact .inl rfl

/-- Steps of the actors and of the server that change nothing, or leave less to do. -/
def netGoes : NStep → Bool
  | .take _ => true
  | .serve _ _ => true
  | .deliver _ _ => true
  | .fail _ _ => true
  | _ => false

theorem net_weight (s : RNet) (x : NStep) (h : netGoes x = true) : nStep s x = (s, []) ∨ netW (nStep s x).1 < netW s := by
  cases x with
  | send => cases h
  | drop => cases h
  | tick => cases h
  | take a =>
    cases hx : s.sys.actors[a]? with
    | none =>
      left
      simp [nStep, rStep, hx, RNet.newCommand]
    | some x =>
      obtain ⟨alive, conn, inbox, busy⟩ := x
      cases busy with
      | some b => left; simp [nStep, rStep, hx, RNet.newCommand]
      | none =>
        cases inbox with
        | nil => left; simp [nStep, rStep, hx, RNet.newCommand]
        | cons e rest =>
          obtain ⟨i, m⟩ := e
          right
          have key : ∀ (t : RSys) (y : RActor), t.actors = s.sys.actors →
              sumOf actorW (t.setActor a y).actors + actorW { alive := alive, conn := conn, inbox := (i, m) :: rest, busy := none } = sumOf actorW s.sys.actors + actorW y := by
            intro t y ht
            have := setActor_sum t (a := a) (by rw [ht]; exact hx) y
            rw [ht] at this
            exact this
          simp only [nStep, rStep, hx, netW]
          unfold RSys.onTake
          split
          · have := key s.sys (RSys.RActor.dead { alive := alive, conn := conn, inbox := (i, m) :: rest, busy := none }) rfl
            simp [RNet.newCommand, actorW, RSys.RActor.dead] at this ⊢
            omega
          · split
            · have := key s.sys { alive := alive, conn := conn, inbox := rest, busy := none } rfl
              simp [RNet.newCommand, actorW] at this ⊢
              omega
            · split
              · have := key s.sys (RSys.RActor.dead { alive := alive, conn := conn, inbox := (i, m) :: rest, busy := none }) rfl
                simp [RNet.newCommand, actorW, RSys.RActor.dead] at this ⊢
                omega
              · have := key ({ s.sys with borrowed := conn :: s.sys.borrowed } : RSys) { alive := alive, conn := conn, inbox := rest, busy := some (i, m) } rfl
                have hlt : a < s.sys.actors.length := lt_of_some hx
                simp [RNet.newCommand, actorW, RSys.setActor, List.getElem?_set, hlt] at this ⊢
                omega
  | serve k r =>
    simp only [nStep]
    split
    · exact .inl rfl
    · rename_i i m hk
      right
      have := lt_of_some hk
      simp only [netW, List.length_eraseIdx, this, if_true, List.length_append, List.length_singleton]
      omega
  | deliver a k =>
    simp only [nStep]
    split
    · rename_i i m r x hk hx
      split
      · right
        have hlt := lt_of_some hk
        simp only [RNet.onActors, netW, List.length_eraseIdx, hlt, if_true]
        rcases reply_weight s.sys a r with h | h
        · rw [h]; simp only; omega
        · omega
      · exact .inl rfl
    · exact .inl rfl
  | fail a e =>
    simp only [nStep, RNet.onActors]
    rcases reply_weight s.sys a (.error e) with h | h
    · left; rw [h]; rfl
    · right; simp only [netW]; omega

/-- The command of a request under way is on its way, or its reply is. -/
def BusyInv (s : RNet) : Prop := ∀ (a : Nat) (x : RActor), s.sys.actors[a]? = some x → ∀ i m, x.busy = some (i, m) →
  (i, m) ∈ s.wire ∨ ∃ m' r, (i, m', r) ∈ s.replies

theorem reply_busy (s : RSys) (a : Nat) (r : RResult) (b : Nat) (x : RActor) (h : (rStep s (.reply a r)).1.actors[b]? = some x) (e : Nat × RMsg)
    (hb : x.busy = some e) : b ≠ a ∧ s.actors[b]? = some x := by
  have key : ∀ (t : RSys) (y z : RActor), t.actors = s.actors → s.actors[a]? = some z → y.busy = none → (t.setActor a y).actors[b]? = some x → b ≠ a ∧ s.actors[b]? = some x := by
    intro t y z ht hz hy hx
    simp only [RSys.setActor, ht, List.getElem?_set] at hx
    split at hx
    · rename_i hab
      simp [lt_of_some hz] at hx
      rw [← hx, hy] at hb; cases hb
    · rename_i hab
      exact ⟨fun e => hab e.symm, hx⟩
  simp only [rStep] at h
  split at h
  · rename_i hn
    refine ⟨?_, h⟩
    rintro rfl
    rw [hn] at h; cases h
  · rename_i y hy
    split at h
    · unfold RSys.onReply at h
      split at h
      · exact key _ _ _ rfl hy rfl h
      · split at h
        · exact key _ _ _ rfl hy rfl h
        · exact key _ _ _ rfl hy rfl h
    · rename_i hn
      refine ⟨?_, h⟩
      rintro rfl
      rw [hy] at h; cases h
      rw [hn] at hb; cases hb

theorem busyInv_step {s : RNet} (h : BusyInv s)
    (one : ∀ (a b : Nat) (x y : RActor) i m m', s.sys.actors[a]? = some x → s.sys.actors[b]? = some y → x.busy = some (i, m) → y.busy = some (i, m') → a = b)
    (st : NStep) : BusyInv (nStep s st).1 := by
  cases st with
  | tick => exact h
  | drop => exact h
  | send a m =>
    intro b x hx i m' hb
    simp only [nStep, RNet.onActors, rStep] at hx ⊢
    split at hx
    · exact h b x hx i m' hb
    · rename_i y hy
      split at hx
      · simp only [RSys.setActor, List.getElem?_set] at hx
        split at hx
        · rename_i hab
          simp [lt_of_some hy] at hx
          subst hab hx
          exact h a y hy i m' hb
        · exact h b x hx i m' hb
      · exact h b x hx i m' hb
  | fail a e =>
    intro b x hx i m hb
    exact h b x (reply_busy s.sys a (.error e) b x hx _ hb).2 i m hb
  | serve k r =>
    simp only [nStep]
    split
    · exact h
    · rename_i j m' hk
      intro b x hx i m hb
      rcases h b x hx i m hb with h | ⟨m'', r', h⟩
      · rcases List.mem_iff_getElem?.1 h with ⟨l, hl⟩
        by_cases hkl : l = k
        · subst hkl
          rw [hk] at hl; cases hl
          exact .inr ⟨_, _, List.mem_append_right _ (List.mem_singleton.2 rfl)⟩
        · left
          exact List.mem_eraseIdx_iff_getElem?.2 ⟨l, hkl, hl⟩
      · exact .inr ⟨m'', r', List.mem_append_left _ h⟩
  | deliver a k =>
    simp only [nStep]
    split
    · rename_i j m' r y hk hy
      split
      · rename_i hj
        intro b x hx i m hb
        simp only [RNet.onActors] at hx
        obtain ⟨hba, hx⟩ := reply_busy s.sys a r b x hx _ hb
        simp only [RNet.onActors]
        rcases h b x hx i m hb with h | ⟨m'', r', h⟩
        · exact .inl h
        · right
          rcases List.mem_iff_getElem?.1 h with ⟨l, hl⟩
          refine ⟨m'', r', List.mem_eraseIdx_iff_getElem?.2 ⟨l, ?_, hl⟩⟩
          rintro rfl
          rw [hk] at hl; cases hl
          cases hyb : y.busy with
          | none => rw [hyb] at hj; cases hj
          | some e =>
            obtain ⟨j, m3⟩ := e
            rw [hyb] at hj; cases hj
            exact hba (one b a x y j m m3 hx hy hb hyb)
      · exact h
    · exact h
  | take a =>
    intro b x hx i m hb
    simp only [nStep] at hx ⊢
    by_cases hold : s.sys.actors[b]? = some x
    · rcases h b x hold i m hb with h | h
      · exact .inl (List.mem_append_left _ h)
      · exact .inr h
    · left
      refine List.mem_append_right _ ?_
      cases hy : s.sys.actors[a]? with
      | none => simp only [rStep, hy] at hx; exact absurd hx hold
      | some y =>
        obtain ⟨alive, conn, inbox, busy⟩ := y
        cases busy with
        | some e => simp only [rStep, hy] at hx; exact absurd hx hold
        | none =>
          cases inbox with
          | nil => simp only [rStep, hy] at hx; exact absurd hx hold
          | cons e rest =>
            obtain ⟨j, m'⟩ := e
            have key : ∀ (t : RSys) (y : RActor), t.actors = s.sys.actors → (t.setActor a y).actors[b]? = some x → b = a ∧ y = x := by
              intro t y ht hx
              simp only [RSys.setActor, ht, List.getElem?_set] at hx
              split at hx
              · rename_i hab
                simp [lt_of_some hy] at hx
                exact ⟨hab.symm, hx⟩
              · exact absurd hx hold
            simp only [rStep, hy] at hx ⊢
            unfold RSys.onTake at hx ⊢
            split at hx
            · obtain ⟨-, rfl⟩ := key _ _ rfl hx
              cases hb
            · rename_i h1
              split at hx
              · obtain ⟨-, rfl⟩ := key _ _ rfl hx
                cases hb
              · rename_i h2
                split at hx
                · obtain ⟨-, rfl⟩ := key _ _ rfl hx
                  cases hb
                · rename_i h3
                  obtain ⟨rfl, rfl⟩ := key _ _ rfl hx
                  cases hb
                  have hlt : b < s.sys.actors.length := lt_of_some hy
                  rw [if_neg h1, if_neg h2, if_neg h3]
                  simp [RNet.newCommand, RSys.setActor, hlt]

theorem busyInv_run (conns : List Nat) (now : Nat) (steps : List NStep) : BusyInv (nRun (RNet.new conns now) steps).1 := by
  suffices h : ∀ (later done : List NStep), BusyInv (nRun (RNet.new conns now) done).1 → BusyInv (nRun (RNet.new conns now) (done ++ later)).1 by
    refine h steps [] ?_
    intro a x hx i m hb
    simp only [nRun, RNet.new, RSys.new, List.getElem?_map, Option.map_eq_some_iff] at hx
    obtain ⟨c, -, rfl⟩ := hx
    cases hb
  intro later
  induction later with
  | nil => intro done h; simpa using h
  | cons st r ih =>
    intro done h
    rw [List.append_cons]
    apply ih
    rw [nRun_append, nRun_one]
    refine busyInv_step h ?_ st
    intro a b x y i m m' hx hy hbx hby
    have hp := prov_net conns now done
    have hi := rids_net conns now done
    exact (hi.once _ _ _ _ _ (hp.busy a x hx i m hbx).1 (hp.busy b y hy i m' hby).1).1

/-! ### The calls -/

theorem noCache_cache (lib : PowLib) (p : Profile) (s : Sys) (st : SStep) (h : st.noCache = true) : (sysStep lib p s st).1.cache = s.cache := by
  unfold sysStep
  split
  · rfl
  · cases st with
    | cache => cases h
    | cacheGone => cases h
    | fire => cases h
    | tick => cases h
    | call a => simp only; split <;> rfl
    | master i a g =>
      simp only
      split
      · split
        · cases a with
          | mailboxError => rfl
          | recvError => rfl
          | reply r =>
            cases r with
            | error => rfl
            | ok o => cases o <;> rfl
        · rfl
      · rfl
    | resume i =>
      simp only
      split
      · split
        · unfold Sys.onResume
          split <;> try rfl
          unfold Sys.onRetrieved
          split
          · rfl
          · split
            · rfl
            · simp only; split <;> rfl
        · rfl
      · rfl
    | poll i g =>
      simp only
      split
      · split
        · unfold Sys.onPoll
          split
          · simp only; split <;> rfl
          · rfl
        · rfl
      · rfl
    | queue qs => simp only; split <;> rfl
    | work w =>
      simp only [Sys.onWork]
      repeat' split
      all_goals rfl
    | cancel i =>
      simp only
      split
      · split <;> rfl
      · rfl
    | shutdown => simp only; split <;> rfl

theorem open_cache (lib : PowLib) (p : Profile) (s : Sys) (x : OStep) : (openStep lib p s x).1.cache = s.cache := by
  cases x with
  | sys st =>
    simp only [openStep]
    split
    · rename_i h; exact noCache_cache lib p s st h
    · rfl
  | cache i a =>
    simp only [openStep]
    split
    · rfl
    · split
      · split
        · cases a with
          | ok r => simp only [Sys.onCacheAnswer]; split <;> rfl
          | error => rfl
        · rfl
      · rfl

theorem direct_less (lib : PowLib) (p : Profile) (s : Sys) (st : SStep) (ht : s.cache.timers = []) (hn : st.noCache = true) (hc : ∀ a, st ≠ .call a) :
    (sysStep lib p s st).1 = s ∨ sysW (sysStep lib p s st).1 < sysW s := by
  rcases step_weight lib p s st hc (by simp [ht]) with ⟨⟨d, rfl⟩, -⟩ | h | h
  · cases hn
  · exact .inl h
  · exact .inr h

theorem pc_less {c c' : Call} (h : pcW c'.pc < pcW c.pc) (hl : c'.live = c.live) (hj : c'.job = c.job) : callW c' < callW c := by
  simp only [callW, hl, hj]; omega

theorem setCall_less (s : Sys) {i : Nat} {c c' : Call} (hc : s.calls[i]? = some c) (h : callW c' < callW c) : sysW (s.setCall i c') < sysW s := by
  have := setCall_weight s hc c'
  omega

theorem master_less (lib : PowLib) (p : Profile) (s : Sys) {i : Nat} {c : Call} {m : RMsg} (x : MasterAnswer) (g : Rng)
    (hab : ¬ s.queue.status = .aborted) (hc : s.calls[i]? = some c) (hr : RService.request c = some (1, m)) :
    sysW (openStep lib p s (.sys (.master i x g))).1 < sysW s := by
  obtain ⟨id, -, h1, h2, h3⟩ := request_master hr
  have hover := setCall_weight s hc c.over
  have hless := over_less c (by simp [h2])
  simp only [openStep, SStep.noCache, if_true, sysStep, if_neg hab, hc, h1, h2, h3]
  cases x with
  | mailboxError => simp only [Sys.onMaster, Sys.returns]; omega
  | recvError => simp only [Sys.onMaster, Sys.returns]; omega
  | reply r =>
    cases r with
    | error => simp only [Sys.onMaster, Sys.returns]; omega
    | ok o =>
      cases o with
      | none => simp only [Sys.onMaster, Sys.returns]; omega
      | some res =>
        exact setCall_less s hc (pc_less (by simp [h2, pcW]) rfl rfl)

theorem answer_less (lib : PowLib) (p : Profile) (s : Sys) {i : Nat} {c : Call} {m : CacheMsg} {k : Stage} (x : CaptchaResult CacheReply)
    (hab : ¬ s.queue.status = .aborted) (hc : s.calls[i]? = some c) (hp : c.pc = .awaitCache m k) (hl : c.live = true)
    (hx : ∀ r, x = .ok r → m.allows r = true) : sysW (openStep lib p s (.cache i x)).1 < sysW s := by
  have hover := setCall_weight s hc c.over
  have hless := over_less c (by simp [hp])
  simp only [openStep, if_neg hab, hc, hp, hl]
  cases x with
  | error e => simp only [Sys.onCacheAnswer]; omega
  | ok r =>
    simp only [Sys.onCacheAnswer, hx r rfl, if_true]
    exact setCall_less s hc (pc_less (by cases k <;> simp [hp, pcW]) rfl rfl)

theorem cancel_less (lib : PowLib) (p : Profile) (s : Sys) {i : Nat} {c : Call} (hab : ¬ s.queue.status = .aborted) (ht : s.cache.timers = [])
    (hc : s.calls[i]? = some c) (hl : c.live = true) (hd : c.pc ≠ .done) : sysW (openStep lib p s (.sys (.cancel i))).1 < sysW s := by
  simp only [openStep, SStep.noCache, if_true]
  rcases direct_less lib p s (.cancel i) ht rfl (by simp) with h | h
  · exfalso
    simp only [sysStep, if_neg hab, hc, hl, hd, ne_eq, not_false_eq_true, and_self, if_true] at h
    refine setCall_ne hc s.cache s.queue { c.dropRx with live := false } ?_ h
    intro e
    have := congrArg Call.live e
    rw [hl] at this; cases this
  · exact h

theorem open_length (lib : PowLib) (p : Profile) (s : Sys) (x : OStep) (hx : ∀ a, x ≠ .sys (.call a)) :
    (openStep lib p s x).1.calls.length = s.calls.length := by
  cases x with
  | sys st =>
    simp only [openStep]
    split
    · rename_i h
      exact (quiet_step lib p s st (fun a e => hx a (by rw [e])) (by rintro d rfl; cases h)).1
    · rfl
  | cache i a =>
    simp only [openStep]
    split
    · rfl
    · split
      · split
        · cases a with
          | ok r =>
            simp only [Sys.onCacheAnswer]
            split
            · simp [Sys.setCall]
            · rfl
          | error => simp [Sys.onCacheAnswer, Sys.setCall]
        · rfl
      · rfl

/-! ### Answers have the right type -/

theorem pending_asks {lib : PowLib} {log : List SEvent} {i : Nat} {api : Api} {cm : CacheMsg} {k : Stage} (h : Pending lib log i api cm k) :
    cm.toRedis.immediate = false := by
  cases k with
  | storePow cfg => obtain ⟨_, _, _, _, _, _, _, rfl⟩ := h; rfl
  | retrieve => obtain ⟨_, _, _, rfl⟩ := h; rfl
  | storeResult t d => obtain ⟨_, _, _, _, _, _, _, rfl, _⟩ := h; rfl
  | check => obtain ⟨_, _, rfl⟩ := h; rfl

theorem answer_fits {cm : CacheMsg} {r : RResult} {ans : RAnswer} (hi : cm.toRedis.immediate = false) (h : cm.toRedis.answer r = .ret ans) :
    ∃ x, ans.toCache = some x ∧ ∀ y, x = .ok y → cm.allows y = true := by
  cases cm with
  | cachePow c =>
    rcases answer_cachePow h with ⟨x, -, rfl⟩ | ⟨e, -, rfl⟩
    · exact ⟨_, rfl, by rintro y ⟨⟩; rfl⟩
    · exact ⟨_, rfl, by rintro y ⟨⟩⟩
  | cacheResult c =>
    obtain ⟨x, -, rfl⟩ := answer_cacheResult h
    exact ⟨_, rfl, by rintro y ⟨⟩; rfl⟩
  | retrivePow v =>
    rcases answer_config h with ⟨x, -, rfl⟩ | ⟨e, -, rfl⟩
    · exact ⟨_, rfl, by rintro y ⟨⟩; rfl⟩
    · exact ⟨_, rfl, by rintro y ⟨⟩⟩
  | verify v =>
    simp only [CacheMsg.toRedis, RMsg.answer, RedisClient.getToken] at h
    cases hb : r.bind RValue.readI32 with
    | error e =>
      simp only [hb, Exec.map, Exec.ret.injEq] at h
      subst h
      exact ⟨_, rfl, by rintro y ⟨⟩⟩
    | ok j =>
      simp only [hb, Exec.map, Exec.ret.injEq] at h
      subst h
      refine ⟨_, rfl, ?_⟩
      intro y hy
      split at hy
      · cases hy; rfl
      · split at hy
        · cases hy; rfl
        · cases hy
  | deletePow s => cases hi
  | deleteResult s => cases hi

/-- A waiting call finds every answer given to its request. -/
structure AnsInv (v : RService) (log : List ZEvent) : Prop where
  there : ∀ i id, v.waiting.get i = some id → ∀ a m ans, .net (.actor (.answered a id m ans)) ∈ log → ∃ e ∈ v.answers, e.1 = id
  timers : v.sys.cache.timers = []

theorem ansInv_step {lib : PowLib} {p : Profile} {n ql now : Nat} {conns : List Nat} {v : RService} {log : List ZEvent}
    (hz : ZInv lib p n ql now conns v log) (h : AnsInv v log) (x : ZStep) : AnsInv (zStep lib p v x).1 (log ++ (zStep lib p v x).2) := by
  have hm := zStep_move lib p v x
  generalize (zStep lib p v x).1 = v' at *
  generalize (zStep lib p v x).2 = ev at *
  have hsys : ∀ {ev : List OEvent} {a id : Nat} {m : RMsg} {ans : RAnswer}, .net (.actor (.answered a id m ans)) ∈ log ++ ev.map .sys →
      .net (.actor (.answered a id m ans)) ∈ log := by
    intro ev a id m ans h
    rcases List.mem_append.1 h with h | h
    · exact h
    · obtain ⟨y, -, hy⟩ := List.mem_map.1 h
      cases hy
  obtain ⟨ns, hn⟩ := hz.net
  have hids := rids_net conns now ns
  have hprov := prov_net conns now ns
  rw [hn] at hids hprov
  cases hm with
  | idle => simpa using h
  | sys st hd =>
    refine ⟨?_, (congrArg _ (open_cache lib p v.sys (.sys st))).trans h.timers⟩
    intro i id hw a m ans ha
    exact h.there i id hw a m ans (hsys ha)
  | net st hd =>
    refine ⟨?_, h.timers⟩
    intro i id hw a m ans ha
    rcases List.mem_append.1 ha with ha | ha
    · obtain ⟨e, he, hid⟩ := h.there i id hw a m ans ha
      exact ⟨e, List.mem_append_left _ he, hid⟩
    · obtain ⟨y, hy, hye⟩ := List.mem_map.1 ha
      cases hye
      exact ⟨(id, m, ans), List.mem_append_right _ (List.mem_filterMap.2 ⟨_, hy, rfl⟩), rfl⟩
  | ask i c a m id hc hw hr hev =>
    have hid : id = v.net.sys.next := by
      rcases send_cases v.net a m with h1 | h1 | ⟨h1, -⟩
      · rw [h1] at hev; cases hev
      · rw [h1] at hev; simp at hev; exact hev.symm
      · rw [h1] at hev; simp at hev
    refine ⟨?_, h.timers⟩
    intro j id' hj b m' ans ha
    have ha : .net (.actor (.answered b id' m' ans)) ∈ log := by
      rcases List.mem_append.1 ha with ha | ha
      · exact ha
      · simp at ha
    simp only at hj
    rw [AMap.get_insert] at hj
    split at hj
    · cases hj
      have := hids.below _ _ _ (hprov.answered _ _ _ _ (mem_atActors.2 (mem_atRedis.2 ha))).1
      simp only at this
      omega
    · exact h.there j id' hj b m' ans ha
  | refused i c a m st hc hw hr hs hd hst =>
    refine ⟨?_, (congrArg _ (open_cache lib p v.sys st)).trans h.timers⟩
    intro j id hj b m' ans ha
    refine h.there j id hj b m' ans (hsys (ev := (openStep lib p v.sys st).2) ?_)
    rcases List.mem_append.1 ha with ha | ha
    · exact List.mem_append_left _ ha
    · rcases List.mem_cons.1 ha with ha | ha
      · cases ha
      · exact List.mem_append_right _ ha
  | hear i c a m id st g hc hw hr hh =>
    refine ⟨?_, (congrArg _ (open_cache lib p v.sys st)).trans h.timers⟩
    intro j id' hj b m' ans ha
    simp only at hj
    rw [AMap.get_erase] at hj
    split at hj
    · cases hj
    · rename_i hij
      obtain ⟨e, he, hid⟩ := h.there j id' hj b m' ans (hsys ha)
      refine ⟨e, List.mem_filter.2 ⟨he, ?_⟩, hid⟩
      obtain ⟨-, -, -, -, -, -, h1⟩ := hz.waiting i id hw
      obtain ⟨-, -, -, -, -, -, h2⟩ := hz.waiting j id' hj
      simp only [bne_iff_ne, ne_eq, hid]
      rintro rfl
      exact hij (hz.own _ _ _ h1 h2)
  | give i c id hc hl hp hw =>
    refine ⟨?_, (congrArg _ (open_cache lib p v.sys _)).trans h.timers⟩
    intro j id' hj b m' ans ha
    simp only at hj
    rw [AMap.get_erase] at hj
    split at hj
    · cases hj
    · exact h.there j id' hj b m' ans (hsys ha)
  | cancel i c hc hw =>
    refine ⟨?_, (congrArg _ (open_cache lib p v.sys _)).trans h.timers⟩
    intro j id' hj b m' ans ha
    exact h.there j id' hj b m' ans (hsys ha)

theorem ansInv_run (lib : PowLib) (p : Profile) (n ql now : Nat) (conns : List Nat) (steps : List ZStep) :
    AnsInv (zRun lib p (RService.new n ql now conns) steps).1 (zRun lib p (RService.new n ql now conns) steps).2 := by
  suffices h : ∀ (later done : List ZStep),
      AnsInv (zRun lib p (RService.new n ql now conns) done).1 (zRun lib p (RService.new n ql now conns) done).2 →
      AnsInv (zRun lib p (RService.new n ql now conns) (done ++ later)).1 (zRun lib p (RService.new n ql now conns) (done ++ later)).2 by
    exact h steps [] ⟨by intro i id hw; simp [zRun, RService.new, AMap.get] at hw, rfl⟩
  intro later
  induction later with
  | nil => intro done h; simpa using h
  | cons x r ih =>
    intro done h
    rw [List.append_cons]
    apply ih
    rw [zRun_append]
    simp only [zRun, List.append_nil]
    exact ansInv_step (zinv_run lib p n ql now conns done) h x

/-- What a waiting call can hear. -/
theorem hears {lib : PowLib} {p : Profile} {n ql now : Nat} {conns : List Nat} {v : RService} {log : List ZEvent}
    (hz : ZInv lib p n ql now conns v log) {i id a : Nat} {c : Call} {m : RMsg} (g : Rng)
    (hc : v.sys.calls[i]? = some c) (hw : v.waiting.get i = some id) (hr : RService.request c = some (a, m))
    (h : v.dead a = true ∨ ∃ e ∈ v.answers, e.1 = id) : ∃ st, v.heard i a id g = some st := by
  unfold RService.heard
  split
  · rename_i id' m' ans hf
    have hid := List.find?_some hf
    simp only [beq_iff_eq] at hid
    subst hid
    obtain ⟨ns, hn⟩ := hz.net
    have hids := rids_net conns now ns
    have hprov := prov_net conns now ns
    rw [hn] at hids hprov
    obtain ⟨b, hb⟩ := hz.answers _ (List.mem_of_find?_eq_some hf)
    have ha := hprov.answered _ _ _ _ (mem_atActors.2 (mem_atRedis.2 hb))
    obtain ⟨c', a', m'', hc', hr', hsent, -⟩ := hz.waiting i _ hw
    rw [hc] at hc'; cases hc'
    rw [hr] at hr'; cases hr'
    obtain ⟨rfl, rfl⟩ := hids.once _ _ _ _ _ ha.1 (mem_atActors.2 (mem_atRedis.2 hsent))
    rcases request_two hr with rfl | rfl
    · obtain ⟨cm, k, rfl, hp, hl⟩ := request_cache hr
      have him := pending_asks ((zcall hz.sys hc).2 cm k hp)
      rcases ha.2 with ⟨h1, -⟩ | ⟨-, -, r, h1⟩
      · rw [him] at h1; cases h1
      · obtain ⟨x, hx, -⟩ := answer_fits him h1
        exact ⟨.cache i x, by simp [hx]⟩
    · obtain ⟨sid, rfl, -⟩ := request_master hr
      rcases ha.2 with ⟨h1, -⟩ | ⟨-, -, r, h1⟩
      · cases h1
      · rcases answer_visitor h1 with ⟨x, -, rfl⟩ | ⟨e, -, rfl⟩
        · exact ⟨_, rfl⟩
        · exact ⟨_, rfl⟩
  · rename_i hn
    rcases h with h | ⟨e, he, hid⟩
    · rw [if_pos h]; exact ⟨_, rfl⟩
    · have := List.find?_eq_none.1 hn e he
      simp [hid] at this

/-- A call that hears something goes on. -/
theorem hear_less {lib : PowLib} {p : Profile} {n ql now : Nat} {conns : List Nat} {v : RService} {log : List ZEvent}
    (hz : ZInv lib p n ql now conns v log) (hab : ¬ v.sys.queue.status = .aborted) {i id a : Nat} {c : Call} {m : RMsg} {g : Rng} {st : OStep}
    (hc : v.sys.calls[i]? = some c) (hw : v.waiting.get i = some id) (hr : RService.request c = some (a, m)) (hh : v.heard i a id g = some st) :
    sysW (openStep lib p v.sys st).1 < sysW v.sys ∧ (openStep lib p v.sys st).1.calls.length = v.sys.calls.length := by
  rcases heard_cases hz hc hw hr hh with ⟨rfl, x, rfl, hx⟩ | ⟨rfl, x, rfl, -⟩
  · obtain ⟨cm, k, rfl, hp, hl⟩ := request_cache hr
    refine ⟨answer_less lib p v.sys x hab hc hp hl ?_, open_length lib p v.sys _ (by simp)⟩
    rintro y rfl
    rcases hx with ⟨ans, h1, h2⟩ | ⟨h1 | h1, -⟩
    · have him := pending_asks ((zcall hz.sys hc).2 cm k hp)
      obtain ⟨ns, hn⟩ := hz.net
      have hprov := prov_net conns now ns
      rw [hn] at hprov
      rcases (hprov.answered _ _ _ _ (mem_atActors.2 (mem_atRedis.2 h1))).2 with ⟨h3, -⟩ | ⟨-, -, r, h3⟩
      · rw [him] at h3; cases h3
      · obtain ⟨x, hx, hf⟩ := answer_fits him h3
        rw [h2] at hx; cases hx
        exact hf y rfl
    · cases h1
    · cases h1
  · exact ⟨master_less lib p v.sys x g hab hc hr, open_length lib p v.sys _ (by simp)⟩

theorem refused_less {lib : PowLib} {p : Profile} {v : RService} (hab : ¬ v.sys.queue.status = .aborted) {i a : Nat} {c : Call} {m : RMsg} {st : OStep}
    (hc : v.sys.calls[i]? = some c) (hr : RService.request c = some (a, m))
    (hst : st = (if a = 0 then .cache i (.error .mailboxError) else .sys (.master i .mailboxError fun _ => 0))) :
    sysW (openStep lib p v.sys st).1 < sysW v.sys ∧ (openStep lib p v.sys st).1.calls.length = v.sys.calls.length := by
  rcases request_two hr with rfl | rfl
  · obtain ⟨cm, k, rfl, hp, hl⟩ := request_cache hr
    rw [if_pos rfl] at hst
    subst hst
    exact ⟨answer_less lib p v.sys _ hab hc hp hl (by rintro y ⟨⟩), open_length lib p v.sys _ (by simp)⟩
  · rw [if_neg (by decide)] at hst
    subst hst
    exact ⟨master_less lib p v.sys _ _ hab hc hr, open_length lib p v.sys _ (by simp)⟩

end MCap
