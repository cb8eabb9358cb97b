import Verif.Proofs.ServiceCount
import Verif.Props.System
import Verif.Props.SystemLive
import Verif.Props.Counter

/-!
# C95-C98: the API with its embedded master

`vRun lib p (Service.new n ql gc now) steps` is an arbitrary execution of a system with its embedded master: calls of the API, requests of
other clients to the master and to the counters, garbage collections, restores, expiries and passing time in any order.
-/

namespace MCap
open Spec

/-- The log of an execution. -/
abbrev vLogOf (lib : PowLib) (p : Profile) (n ql gc now : Nat) (steps : List VStep) : List VEvent :=
  (vRun lib p (Service.new n ql gc now) steps).2

/-- The service after an execution. -/
abbrev vStateOf (lib : PowLib) (p : Profile) (n ql gc now : Nat) (steps : List VStep) : Service :=
  (vRun lib p (Service.new n ql gc now) steps).1

/-- What the API saw is an execution of the system. -/
theorem vsys (lib : PowLib) (p : Profile) (n ql gc now : Nat) (steps : List VStep) :
    ∃ ss, stateOf lib p n ql now ss = (vStateOf lib p n ql gc now steps).sys ∧
      logOf lib p n ql now ss = apiLog (vLogOf lib p n ql gc now steps) := by
  obtain ⟨⟨ss, h⟩, -⟩ := vreached_run lib p n ql gc now steps
  exact ⟨ss, by simp only [stateOf, h], by simp only [logOf, h]⟩

theorem apiLog_split {log pre post : List VEvent} {e : SEvent} (h : log = pre ++ .api e :: post) :
    apiLog log = apiLog pre ++ e :: apiLog post := by
  rw [h, apiLog_append]; rfl

/-- Whatever holds of every event with what came before it holds of the events of a prefix. -/
theorem whence_mem {α : Type} {W : List α → α → Prop} {log pre post : List α} (h : ∀ pre e post, log = pre ++ e :: post → W pre e)
    (hlog : log = pre ++ post) {e : α} (hm : e ∈ pre) : ∃ x y, pre = x ++ e :: y ∧ W x e := by
  obtain ⟨x, y, hxy⟩ := List.append_of_mem hm
  exact ⟨x, y, hxy, h x e (y ++ post) (by rw [hlog, hxy]; simp)⟩

theorem whence_left {α : Type} {W : List α → α → Prop} {pre post : List α} (h : ∀ x e y, pre ++ post = x ++ e :: y → W x e) :
    ∀ x e y, pre = x ++ e :: y → W x e := fun x e y hxy => h x e (y ++ post) (by rw [hxy]; simp)

/-- What a get_pow that heard of a difficulty did before. -/
theorem visit_of_answer (lib : PowLib) (p : Profile) (n ql gc now : Nat) (steps : List VStep) (pre post : List VEvent)
    (hlog : vLogOf lib p n ql gc now steps = pre ++ post) (i : Nat) (id : SiteId) (hc : .api (.call i (.get id)) ∈ pre)
    (res : AddVisitorResult) (hm : .api (.master i (.reply (.ok (some res)))) ∈ pre) :
    ∃ a t x y z, pre = x ++ .asked i id (some a) :: (y ++ .counter (some i) a t .addVisitor (.visitor res) :: z) ∧
      regAfter (fun _ => none) 0 (masterMsgs x) id = some a := by
  have hl := link_run lib p n ql gc now steps
  have hl' := hl.why
  rw [show (vRun lib p (Service.new n ql gc now) steps).2 = _ from hlog] at hl'
  obtain ⟨u1, u2, hu, a, t, hw⟩ := whence_mem (whence_left hl') (List.append_nil _).symm hm
  obtain ⟨w1, w2, hw', -, id', hk⟩ := whence_mem (whence_left hl') hu hw
  obtain ⟨x, y, hxy, hcall, hreg⟩ := whence_mem (whence_left hl') (show pre = w1 ++ _ by rw [hu, hw', List.append_assoc]) hk
  have hid : id' = id := by
    obtain ⟨ss, hs, hlg⟩ := vsys lib p n ql gc now steps
    have hd := dinv_new lib p n ql now ss
    have m1 : .call i (.get id) ∈ logOf lib p n ql now ss := by
      rw [hlg]; exact mem_apiLog.2 (by rw [hlog]; exact List.mem_append_left _ hc)
    have m2 : .call i (.get id') ∈ logOf lib p n ql now ss := by
      rw [hlg]; refine mem_apiLog.2 ?_; rw [hlog, hu, hw', hxy]; simp [hcall]
    obtain ⟨c, h1, h2⟩ := hd.made i _ m1
    obtain ⟨c', h3, h4⟩ := hd.made i _ m2
    rw [h1] at h3
    cases h3
    rw [h2] at h4
    cases h4
    rfl
  subst hid
  refine ⟨a, t, x, y, w2 ++ .api (.master i (.reply (.ok (some res)))) :: u2, ?_, hreg.symm⟩
  rw [hu, hw', hxy]; simp

/-! ### Examples used below -/

/-- A site is registered; a visitor gets a challenge for it, solves it and gets a token, which the site validates. -/
def exService : List VStep :=
  [.world (.req 0 (.addSite "site" exM)), .sys (.call (.get "site")), .ask 0, .world (.run 1), .hear 0 (fun _ => 0)] ++
    ((exHonest.drop 2).map VStep.sys)

/-- What happens first: the counter of the site is asked once, and the visitor gets the difficulty it quotes. -/
def exServiceLog : List VEvent :=
  [.master (.addSite "site" exM), .api (.call 0 (.get "site")), .asked 0 "site" (some 0),
   .counter (some 0) 0 0 .addVisitor (.visitor ⟨30, 10⟩), .api (.master 0 (.reply (.ok (some ⟨30, 10⟩)))),
   .api (.cache (some (0, .get "site")) (.cachePow ⟨exDrawn, 10, 30, "site"⟩) .done),
   .api (.ret 0 (.get "site") (.get (.ok (some ⟨exDrawn, 10, "salt"⟩))))]

example : (vLogOf sysLib ⟨true⟩ 1 5 60 0 exService).take 7 = exServiceLog := by decide

/-- Six visitors come at once, the first level of the site being for up to five. -/
def exCrowd : List VStep :=
  [.world (.req 0 (.addSite "site" exM))] ++
  (List.range 6).flatMap (fun i => [.sys (.call (.get "site")), .ask i, .world (.run 1), .hear i (fun _ => 0)])

/-! ### C95 -/

/-- C95. When `get_pow(id)` returns a challenge, then before that the master looked up the counter which the registrations, removals and
renames so far gave to `id`, this counter counted one visit for this call, and the challenge has the difficulty it quoted. -/
theorem C95_challenge_is_charged (lib : PowLib) (p : Profile) (n ql gc now : Nat) (steps : List VStep) (i : Nat) (id : SiteId) (cfg : PoWConfig)
    (pre post : List VEvent) (hlog : vLogOf lib p n ql gc now steps = pre ++ .api (.ret i (.get id) (.get (.ok (some cfg)))) :: post) :
    ∃ a t duration x y z, pre = x ++ .asked i id (some a) ::
        (y ++ .counter (some i) a t .addVisitor (.visitor { duration := duration, difficultyFactor := cfg.difficultyFactor }) :: z) ∧
      regAfter (fun _ => none) 0 (masterMsgs x) id = some a ∧ countedFor i pre = 1 := by
  obtain ⟨ss, -, hlg⟩ := vsys lib p n ql gc now steps
  have hsp := apiLog_split hlog
  rw [← hlg] at hsp
  obtain ⟨hcall, -, -, res, hm, hd⟩ := (facts lib p n ql now ss).si.why _ _ _ hsp
  obtain ⟨a, t, x, y, z, h1, h2⟩ := visit_of_answer lib p n ql gc now steps pre _ hlog i id (mem_apiLog.1 hcall) res (mem_apiLog.1 hm)
  refine ⟨a, t, res.duration, x, y, z, ?_, h2, ?_⟩
  · rw [h1, hd]
  · have hl := link_run lib p n ql gc now steps
    have hle : countedFor i (vLogOf lib p n ql gc now steps) ≤ 1 := by
      have := hl.count i
      have h2 := hl.once i
      unfold vLogOf
      split at h2 <;> omega
    rw [hlog, countedFor_append] at hle
    have hge : 1 ≤ countedFor i pre := by
      rw [h1]
      simp only [countedFor, List.countP_append, List.countP_cons, beq_self_eq_true, if_true]
      omega
    omega

/-- The hypothesis in a concrete run. -/
example : ∃ pre post, vLogOf sysLib ⟨true⟩ 1 5 60 0 exService =
    pre ++ .api (.ret 0 (.get "site") (.get (.ok (some ⟨exDrawn, 10, "salt"⟩)))) :: post := List.append_of_mem (by decide)

/-- C95: no call is ever counted twice, whatever happens to it. -/
theorem C95_counted_at_most_once (lib : PowLib) (p : Profile) (n ql gc now : Nat) (steps : List VStep) (i : Nat) :
    countedFor i (vLogOf lib p n ql gc now steps) ≤ 1 := by
  have hl := link_run lib p n ql gc now steps
  have := hl.count i
  have h2 := hl.once i
  unfold vLogOf
  split at h2 <;> omega

example : countedFor 0 (vLogOf sysLib ⟨true⟩ 1 5 60 0 exService) = 1 := by decide

/-- C95: a counter that is asked for a call is the one the registrations, removals and renames gave to the site of that call, and the call
is a `get_pow`. -/
theorem C95_right_counter (lib : PowLib) (p : Profile) (n ql gc now : Nat) (steps : List VStep) (i : Nat) (a : Addr) (t : Nat) (msg : CounterMsg)
    (r : CounterReply) (pre post : List VEvent) (hlog : vLogOf lib p n ql gc now steps = pre ++ .counter (some i) a t msg r :: post) :
    msg = .addVisitor ∧ ∃ id x y, pre = x ++ .asked i id (some a) :: y ∧ .api (.call i (.get id)) ∈ x ∧
      regAfter (fun _ => none) 0 (masterMsgs x) id = some a := by
  have hl := link_run lib p n ql gc now steps
  obtain ⟨h1, id, h2⟩ := hl.why pre _ post hlog
  obtain ⟨x, y, hxy, hcall, hreg⟩ := whence_mem hl.why hlog h2
  exact ⟨h1, id, x, y, hxy, hcall, hreg.symm⟩

example : ∃ pre post, vLogOf sysLib ⟨true⟩ 1 5 60 0 exService = pre ++ .counter (some 0) 0 0 .addVisitor (.visitor ⟨30, 10⟩) :: post :=
  List.append_of_mem (by decide)

/-- C95: `get_pow(id)` returns no challenge only if the master found no counter for `id`, or its counter was gone. -/
theorem C95_no_challenge (lib : PowLib) (p : Profile) (n ql gc now : Nat) (steps : List VStep) (i : Nat) (id : SiteId)
    (pre post : List VEvent) (hlog : vLogOf lib p n ql gc now steps = pre ++ .api (.ret i (.get id) (.get (.ok none))) :: post) :
    (∃ x y, pre = x ++ .asked i id none :: y ∧ regAfter (fun _ => none) 0 (masterMsgs x) id = none) ∨
    ∃ a t, .asked i id (some a) ∈ pre ∧ .counter (some i) a t .addVisitor .mailboxError ∈ pre := by
  have hl := link_run lib p n ql gc now steps
  obtain ⟨ss, -, hlg⟩ := vsys lib p n ql gc now steps
  have hsp := apiLog_split hlog
  rw [← hlg] at hsp
  have same : ∀ id' a, .asked i id' a ∈ pre → id' = id := by
    intro id' a ha
    obtain ⟨x, y, hxy, hcall, -⟩ := whence_mem hl.why hlog ha
    have hd := dinv_new lib p n ql now ss
    obtain ⟨hc, -⟩ := (facts lib p n ql now ss).si.why _ _ _ hsp
    have m1 : .call i (.get id) ∈ logOf lib p n ql now ss := by rw [hsp]; exact List.mem_append_left _ hc
    have m2 : .call i (.get id') ∈ logOf lib p n ql now ss := by
      rw [hlg]; refine mem_apiLog.2 ?_; rw [hlog, hxy]; simp [hcall]
    obtain ⟨c, h1, h2⟩ := hd.made i _ m1
    obtain ⟨c', h3, h4⟩ := hd.made i _ m2
    rw [h1] at h3
    cases h3
    rw [h2] at h4
    cases h4
    rfl
  obtain ⟨-, hm | ⟨e, hm⟩⟩ := (facts lib p n ql now ss).si.why _ _ _ hsp
  · obtain ⟨u1, u2, hu, id', hk⟩ := whence_mem hl.why hlog (mem_apiLog.1 hm)
    have hk' : .asked i id' none ∈ pre := by rw [hu]; simp [hk]
    obtain ⟨x, y, hxy, -, hreg⟩ := whence_mem hl.why hlog hk'
    have hid := same id' none hk'
    subst hid
    exact .inl ⟨x, y, hxy, hreg.symm⟩
  · obtain ⟨u1, u2, hu, a, t, hk⟩ := whence_mem hl.why hlog (mem_apiLog.1 hm)
    have hk' : .counter (some i) a t .addVisitor .mailboxError ∈ pre := by rw [hu]; simp [hk]
    obtain ⟨w1, w2, hw, -, id', ha⟩ := whence_mem hl.why hlog hk'
    have ha' : .asked i id' (some a) ∈ pre := by rw [hw]; simp [ha]
    have hid := same id' (some a) ha'
    subst hid
    exact .inr ⟨a, t, ha', hk'⟩

/-- The site is removed between the registration and the visit; or between the master's look-up and the forwarded message. -/
example : let log := vLogOf sysLib ⟨true⟩ 1 5 60 0 [.world (.req 0 (.addSite "site" exM)), .world (.req 1 (.removeCaptcha "site")),
      .sys (.call (.get "site")), .ask 0, .hear 0 (fun _ => 0)]
    .asked 0 "site" none ∈ log ∧ .api (.ret 0 (.get "site") (.get (.ok none))) ∈ log := by decide
example : let log := vLogOf sysLib ⟨true⟩ 1 5 60 0 [.world (.req 0 (.addSite "site" exM)), .sys (.call (.get "site")), .ask 0,
      .world (.req 1 (.removeCaptcha "site")), .world (.run 2), .world (.run 1), .hear 0 (fun _ => 0)]
    .asked 0 "site" (some 0) ∈ log ∧ .counter (some 0) 0 0 .addVisitor .mailboxError ∈ log ∧
    .api (.ret 0 (.get "site") (.get (.ok none))) ∈ log := by decide

/-! ### C96 -/

/-- C96. When a token is accepted for a site, then work was done for it: the work of some visitor solves a challenge which `get_pow` had
issued for this site, at a difficulty which the counter of the site quoted when it counted that visitor, and which is the difficulty of a
level of a captcha that counter was given. -/
theorem C96_tokens_cost_configured_work (lib : PowLib) (p : Profile) (n ql gc now : Nat) (steps : List VStep) (v : Nat) (msg : VerifyCaptchaResult)
    (pre post : List VEvent) (hlog : vLogOf lib p n ql gc now steps = pre ++ .api (.ret v (.validate msg) (.validate (.ok true))) :: post) :
    ∃ g i work ip d duration, Minted (apiLog pre) i work ip msg.token msg.key ∧ TookOut (apiLog pre) g i work ip d duration ∧
      work.key = msg.key ∧ Solves lib work d ∧
      ∃ a t x y z, pre = x ++ .asked g msg.key (some a) ::
          (y ++ .counter (some g) a t .addVisitor (.visitor { duration := duration, difficultyFactor := d }) :: z) ∧
        regAfter (fun _ => none) 0 (masterMsgs x) msg.key = some a ∧
        ∃ m, Configured pre a m ∧ duration = m.duration ∧ ∃ l ∈ m.getDefense.levels, d = l.difficultyFactor := by
  obtain ⟨ss, -, hlg⟩ := vsys lib p n ql gc now steps
  have hsp := apiLog_split hlog
  rw [← hlg] at hsp
  obtain ⟨g, i, work, ip, d, duration, a, b, c, h1, -, h3, h4, h5⟩ := C56_no_token_without_work lib p n ql now ss v msg _ _ hsp
  have h4' : TookOut (apiLog pre) g i work ip d duration := by rw [h1]; exact tookOut_left _ h4
  refine ⟨g, i, work, ip, d, duration, ⟨duration, by rw [h1]; simp⟩, h4', h3, h5, ?_⟩
  obtain ⟨k1, k2, k3, e, -, hcall, -, hm⟩ := h4'
  have hcall' : .api (.call g (.get msg.key)) ∈ pre := by rw [← h3]; exact mem_apiLog.1 (by rw [e]; exact List.mem_append_left _ hcall)
  have hm' := mem_apiLog.1 (show _ ∈ apiLog pre by rw [e]; exact List.mem_append_left _ hm)
  obtain ⟨adr, t, x, y, z, hx, hr⟩ := visit_of_answer lib p n ql gc now steps pre _ hlog g msg.key hcall' _ hm'
  refine ⟨adr, t, x, y, z, hx, hr, ?_⟩
  have hc := (cacc_run lib p n ql gc now steps).2 (x ++ .asked g msg.key (some adr) :: y)
    (.counter (some g) adr t .addVisitor (.visitor { duration := duration, difficultyFactor := d }))
    (z ++ .api (.ret v (.validate msg) (.validate (.ok true))) :: post)
    (by rw [show (vRun lib p (Service.new n ql gc now) steps).2 = _ from hlog, hx]; simp)
  obtain ⟨⟨m, q1, q2, q3⟩, -⟩ := hc
  refine ⟨m, ?_, q2, q3⟩
  rw [hx]
  have := configured_mono (.counter (some g) adr t .addVisitor (.visitor { duration := duration, difficultyFactor := d }) :: z) q1
  simpa using this

example : ∃ pre post, vLogOf sysLib ⟨true⟩ 1 5 60 0 exService = pre ++ .api (.ret 2 (.validate ⟨exDrawn2, "site"⟩) (.validate (.ok true))) :: post :=
  List.append_of_mem (by decide)

/-! ### C97 -/

theorem exceeded_of_threshold {ls : List Level} (h : ls.Pairwise fun a b => a.visitorThreshold < b.visitorThreshold) {j : Nat} {l : Level}
    (hj : ls[j]? = some l) {n : Nat} (hn : l.visitorThreshold < n) : j + 1 ≤ exceeded ls n := by
  induction ls generalizing j with
  | nil => simp at hj
  | cons a r ih =>
    obtain ⟨h1, h2⟩ := List.pairwise_cons.1 h
    unfold exceeded
    cases j with
    | zero =>
      simp only [List.getElem?_cons_zero, Option.some.injEq] at hj
      subst hj
      rw [List.filter_cons, if_pos (by simpa using hn)]
      simp
    | succ j =>
      simp only [List.getElem?_cons_succ] at hj
      have ha := h1 l (List.mem_of_getElem? hj)
      have := ih h2 hj
      unfold exceeded at this
      rw [List.filter_cons, if_pos (by simp; omega), List.length_cons]
      omega

/-- C97. When the counter of a registered captcha counts a visit, at least the difficulty of every level is quoted whose threshold is
exceeded by the visits, this one included, which it counted in the last `duration` seconds; and the challenge is good for `duration` seconds. -/
theorem C97_load_raises_the_price (lib : PowLib) (p : Profile) (n ql gc now : Nat) (steps : List VStep) (who : Option Nat) (a : Addr) (t : Nat)
    (r : AddVisitorResult) (pre post : List VEvent)
    (hlog : vLogOf lib p n ql gc now steps = pre ++ .counter who a t .addVisitor (.visitor r) :: post)
    (id : SiteId) (m : MCaptcha) (hreg : (registrations pre)[a]? = some (id, m)) (hm : StartM m) (hnr : NeverRestored a pre)
    (hv : (countedAt a pre).length + 1 < 2 ^ 32) :
    r.duration = m.getDuration ∧
    ∀ l ∈ m.getDefense.levels, l.visitorThreshold < recent m.getDuration t (countedAt a pre ++ [t]) → l.difficultyFactor ≤ r.difficultyFactor := by
  obtain ⟨-, hc⟩ := (cacc_run lib p n ql gc now steps).2 pre _ post hlog
  obtain ⟨c, ⟨id', m', t0, ops, os, hr', hrun, hplain, hts⟩, hd, hdur⟩ := hc hnr
  rw [hreg] at hr'
  cases hr'
  obtain ⟨hmv, h0⟩ := startM_valid m hm
  obtain ⟨now', c', os', g1, g2, g3, g4, g5, g6, g7, g8, g9, g10, g11⟩ :=
    plain_run p ops t0 (Counter.start m) rfl hmv hplain (by show m.visitors + _ < _; rw [h0, hts]; simpa [u32Size] using hv)
  rw [hrun] at g1
  cases g1
  obtain ⟨hist, hh⟩ := crun_traffic p ops hplain t0 _ hrun
  have h12 := C12_never_more_than_one_below p m c.m hm hist hh
  have hcount : recent m.duration t (countedAt a pre ++ [t]) ≤ c.m.visitors := by
    have e := g9 (Nat.zero_le _)
    have e3 := g7 t (Nat.le_refl _)
    have e4 := liveDec_le t c.timers
    rw [hts] at e3
    have z : scheduled (Counter.start m) = 0 := rfl
    have z2 : liveDec t (Counter.start m).timers = 0 := rfl
    have z3 : (Counter.start m).m = m := rfl
    have z4 : scheduled c = (c.timers.map (·.dec)).sum := rfl
    rw [z3] at e e3
    omega
  refine ⟨by rw [hdur, g5]; rfl, ?_⟩
  intro l hl hlt
  obtain ⟨j, hj⟩ := List.getElem?_of_mem hl
  have hex := exceeded_of_threshold hmv.defense.ascending hj hlt
  have hmono := exceeded_mono m.defense.levels _ _ hcount
  rw [MCaptcha.getDefense, MCaptcha.getVisitors, g6] at h12
  have h12' : exceeded m.defense.levels c.m.visitors ≤ c.m.defense.cur + 1 := h12
  have hjc : j ≤ c.m.defense.cur := by
    have : exceeded m.defense.levels (recent m.getDuration t (countedAt a pre ++ [t])) = exceeded m.defense.levels (recent m.duration t (countedAt a pre ++ [t])) := rfl
    omega
  rw [getDifficulty_mvalid c.m g4] at hd
  injection hd with hd
  rw [← hd]
  have hj' : c.m.defense.levels[j]? = some l := by rw [g6]; exact hj
  rcases Nat.lt_or_ge j c.m.defense.cur with hlt' | hge
  · obtain ⟨hjl, hje⟩ := List.getElem?_eq_some_iff.1 hj'
    have := List.pairwise_iff_getElem.1 g4.defense.coherent j c.m.defense.cur hjl g4.defense.inRange hlt'
    rw [hje] at this
    exact this
  · have : j = c.m.defense.cur := by omega
    subst this
    obtain ⟨hjl, hje⟩ := List.getElem?_eq_some_iff.1 hj'
    rw [hje]
    exact Nat.le_refl _

/-- The sixth visitor of six pays for it. -/
example : ∃ pre post, vLogOf sysLib ⟨true⟩ 1 5 60 0 exCrowd = pre ++ .counter (some 5) 0 0 .addVisitor (.visitor ⟨30, 20⟩) :: post ∧
    (registrations pre)[0]? = some ("site", exM) ∧ StartM exM ∧ NeverRestored 0 pre ∧ countedAt 0 pre = [0, 0, 0, 0, 0] ∧
    recent exM.getDuration 0 (countedAt 0 pre ++ [0]) = 6 := by
  refine ⟨(vLogOf sysLib ⟨true⟩ 1 5 60 0 exCrowd).take 23, (vLogOf sysLib ⟨true⟩ 1 5 60 0 exCrowd).drop 24, by decide, by decide,
    startM_of_freshM _ exM_fresh, ?_, by decide, by decide⟩
  intro who t m r h
  have : (vLogOf sysLib ⟨true⟩ 1 5 60 0 exCrowd).take 23 = ((vLogOf sysLib ⟨true⟩ 1 5 60 0 exCrowd).take 23).filter
      (fun | .counter _ _ _ (.setInternalData _) _ => false | _ => true) := by decide
  rw [this] at h
  simp at h

/-! ### C98 -/

/-- C98. When nothing is left to be done in a service that was not aborted, every `get_pow` has returned or was cancelled: also when its
site was unknown, removed or collected, its counter stopped, or the master gone. -/
theorem C98_get_pow_is_answered (lib : PowLib) (p : Profile) (n ql gc now : Nat) (steps : List VStep)
    (hs : Settled lib p (vStateOf lib p n ql gc now steps)) (ha : (vStateOf lib p n ql gc now steps).sys.queue.status ≠ .aborted)
    (i : Nat) (id : SiteId) (hi : .api (.call i (.get id)) ∈ vLogOf lib p n ql gc now steps) :
    (∃ r, .api (.ret i (.get id) r) ∈ vLogOf lib p n ql gc now steps) ∨ .api (.cancelled i) ∈ vLogOf lib p n ql gc now steps := by
  obtain ⟨ss, hst, hlg⟩ := vsys lib p n ql gc now steps
  have hl := link_run lib p n ql gc now steps
  obtain ⟨hq, hask, hhear, hfwd⟩ := hs
  have hd := dinv_new lib p n ql now ss
  have hf := facts lib p n ql now ss
  obtain ⟨c, hci, hapi⟩ := hd.made i _ (by rw [show (sysRun lib p (Sys.new n ql now) ss).2 = _ from hlg]; exact mem_apiLog.2 hi)
  cases hlv : c.live with
  | false =>
    right
    have := hd.gone i c hci hlv
    exact mem_apiLog.1 (by rw [← hlg]; exact this)
  | true =>
    rcases quiescent_any lib p n ql now ss (by rw [show (sysRun lib p (Sys.new n ql now) ss).1 = _ from hst]; exact hq)
      (by rw [show (sysRun lib p (Sys.new n ql now) ss).1 = _ from hst]; exact ha) i c hci hlv with h | h | ⟨⟨cfg, h0⟩, -⟩
    · left
      rcases hd.over i c hci h with h | ⟨r, h⟩
      · exact absurd h (C75_no_panic lib p n ql now ss i).1
      · rw [hapi] at h; exact ⟨r, mem_apiLog.1 (by rw [← hlg]; exact h)⟩
    · exfalso
      have hci' : (vStateOf lib p n ql gc now steps).sys.calls[i]? = some c := by rw [← hst]; exact hci
      have hin : i ∈ (vStateOf lib p n ql gc now steps).asked := by
        apply Classical.byContradiction
        intro hn
        have := hask i
        unfold vStep at this
        rw [if_neg ha] at this
        simp only [hci', hapi, h, if_neg hn] at this
        have := congrArg (fun v => v.asked.length) this
        simp at this
      have hheard : ∃ ans, (vStateOf lib p n ql gc now steps).heard i = some ans := by
        unfold Service.heard
        cases hfnd : (vStateOf lib p n ql gc now steps).world.answers.find? (fun e => e.1 == 2 * i) with
        | some x =>
          obtain ⟨T, ans⟩ := x
          have hT : T = 2 * i := by simpa using List.find?_some hfnd
          subst hT
          have := hl.answers i ans (List.mem_of_find?_eq_some hfnd)
          cases ans with
          | visitor r => exact ⟨_, rfl⟩
          | error e => exact ⟨_, rfl⟩
          | mailboxError => exact ⟨_, rfl⟩
          | unit => exact this.elim
          | site _ => exact this.elim
          | data _ => exact this.elim
          | counter _ => exact this.elim
        | none =>
          rcases hl.waits i hin with h1 | ⟨ans, h1⟩ | ⟨a, h1⟩
          · exact ⟨_, if_pos ⟨hin, h1⟩⟩
          · have := List.find?_eq_none.1 hfnd _ h1
            simp at this
          · exact absurd h1 (hfwd _ _)
      obtain ⟨ans, hans⟩ := hheard
      have := hhear i (fun _ => 0)
      unfold vStep at this
      rw [if_neg ha] at this
      simp only [hans] at this
      have := congrArg (fun v => v.sys.calls[i]?.map (·.pc)) this
      simp only [hci', Option.map_some, h] at this
      unfold sysStep at this
      rw [if_neg ha] at this
      simp only [hci', hapi, h, hlv] at this
      have hlt := lt_of_some hci'
      cases ans with
      | mailboxError => simp [Sys.onMaster, Sys.setCall, Call.over, Sys.returns, hlt] at this
      | recvError => simp [Sys.onMaster, Sys.setCall, Call.over, Sys.returns, hlt] at this
      | reply o =>
        cases o with
        | error e => simp [Sys.onMaster, Sys.setCall, Call.over, Sys.returns, hlt] at this
        | ok o =>
          cases o with
          | none => simp [Sys.onMaster, Sys.setCall, Call.over, Sys.returns, hlt] at this
          | some res => simp [Sys.onMaster, Sys.setCall, Call.over, Sys.returns, hlt] at this
    · have := (hf.si.calls i c hci).2
      rw [h0] at this
      obtain ⟨⟨work, ip, -, e, -⟩, -⟩ := this
      rw [hapi] at e
      cases e

/-- A visitor of an unknown site, and one whose counter is stopped while the message is on its way. -/
def exSettled : List VStep :=
  [.world (.req 0 (.addSite "site" exM)), .sys (.call (.get "nosite")), .sys (.call (.get "site")), .ask 1, .ask 0,
   .world (.req 1 (.removeCaptcha "site")), .world (.run 2), .world (.run 1), .hear 1 (fun _ => 0), .hear 0 (fun _ => 0)]

theorem exSettled_rest : Rest 9 (vStateOf sysLib ⟨true⟩ 1 5 60 0 exSettled).sys := by
  have e1 : (vStateOf sysLib ⟨true⟩ 1 5 60 0 exSettled).sys.queue =
      { inner := { queues := [], runners := [Worker.spawn], ips := [], cur := 0, queueLength := 5 },
        mailbox := [], status := .running, closed := false } := by decide
  have e2 : (vStateOf sysLib ⟨true⟩ 1 5 60 0 exSettled).sys.calls.map Call.view =
      [(.get "nosite", .done, true, none), (.get "site", .done, true, none)] := by decide
  have e3 : (vStateOf sysLib ⟨true⟩ 1 5 60 0 exSettled).sys.calls.length = 2 := by rw [← List.length_map Call.view, e2]; rfl
  refine rest_of _ _ ?_ ?_
  · rw [e1]
    refine ⟨rfl, rfl, ?_⟩
    intro w r h
    cases w with
    | zero => simp at h; subst h; exact ⟨rfl, rfl⟩
    | succ w => simp at h
  · intro j hj
    rw [e3] at hj
    rw [e2]
    match j, hj with
    | 0, _ => exact ⟨_, rfl, .inl ⟨rfl, .inl rfl⟩⟩
    | 1, _ => exact ⟨_, rfl, .inl ⟨rfl, .inl rfl⟩⟩

/-- The hypotheses of C98 in this run. -/
example : Settled sysLib ⟨true⟩ (vStateOf sysLib ⟨true⟩ 1 5 60 0 exSettled) ∧
    (vStateOf sysLib ⟨true⟩ 1 5 60 0 exSettled).sys.queue.status ≠ .aborted ∧
    .api (.call 1 (.get "site")) ∈ vLogOf sysLib ⟨true⟩ 1 5 60 0 exSettled := by
  have hpc : ∀ (i : Nat) (c : Call), (vStateOf sysLib ⟨true⟩ 1 5 60 0 exSettled).sys.calls[i]? = some c → c.pc ≠ .awaitMaster := by
    intro i c hc
    have e : (vStateOf sysLib ⟨true⟩ 1 5 60 0 exSettled).sys.calls.map (·.pc) = [.done, .done] := by decide
    have := congrArg (·[i]?) e
    simp only [List.getElem?_map, hc, Option.map_some] at this
    match i with
    | 0 => simp at this; rw [this]; simp
    | 1 => simp at this; rw [this]; simp
    | i + 2 => simp at this
  have hab : (vStateOf sysLib ⟨true⟩ 1 5 60 0 exSettled).sys.queue.status ≠ .aborted := by decide
  refine ⟨⟨rest_quiescent _ _ exSettled_rest, ?_, ?_, ?_⟩, hab, by decide⟩
  · intro i
    unfold vStep
    rw [if_neg hab]
    simp only
    split
    · rename_i c hc
      split
      · rename_i hp; exact absurd hp (hpc i c hc)
      · rfl
    · rfl
  · intro i g
    unfold vStep
    rw [if_neg hab]
    simp only
    split
    · rename_i a _
      have : (sysStep sysLib ⟨true⟩ (vStateOf sysLib ⟨true⟩ 1 5 60 0 exSettled).sys (.master i a g)).1 =
          (vStateOf sysLib ⟨true⟩ 1 5 60 0 exSettled).sys := by
        unfold sysStep
        rw [if_neg hab]
        simp only
        split
        · rename_i c hc
          split
          · rename_i hp _; exact absurd hp (hpc i c hc)
          · rfl
        · rfl
      rw [this]
    · rfl
  · intro tag a h
    have e : (vStateOf sysLib ⟨true⟩ 1 5 60 0 exSettled).world.tasks = [.gcWait 0] := by decide
    rw [e] at h
    simp at h

/-- C98: without further calls, after any execution, the steps of every schedule that do anything for the calls are bounded in number,
whatever other clients, collectors and the clock do. -/
theorem C98_finitely_many_steps (lib : PowLib) (p : Profile) (n ql gc now : Nat) (steps : List VStep) :
    ∃ N, ∀ later, (∀ a, .sys (.call a) ∉ later) → vChanges lib p (vStateOf lib p n ql gc now steps) later ≤ N :=
  ⟨serviceW (vStateOf lib p n ql gc now steps), fun later h => vChanges_le lib p later _ h ⟨n, ql, gc, now, steps, rfl⟩⟩

/-- C98: while the process is there and the `System` was not dropped, every function can be called, and each call is one of its own. -/
theorem C98_calls_begin (lib : PowLib) (p : Profile) (n ql gc now : Nat) (steps : List VStep)
    (ha : (vStateOf lib p n ql gc now steps).sys.queue.status ≠ .aborted) (hc : (vStateOf lib p n ql gc now steps).sys.queue.closed = false) (a : Api) :
    ∃ i, vLogOf lib p n ql gc now (steps ++ [.sys (.call a)]) = vLogOf lib p n ql gc now steps ++ [.api (.call i a)] ∧
      ∀ b, .api (.call i b) ∉ vLogOf lib p n ql gc now steps := by
  refine ⟨(vStateOf lib p n ql gc now steps).sys.calls.length, ?_, ?_⟩
  · have e : vLogOf lib p n ql gc now (steps ++ [.sys (.call a)]) =
        vLogOf lib p n ql gc now steps ++ (vRun lib p (vStateOf lib p n ql gc now steps) [.sys (.call a)]).2 := by
      rw [vLogOf, vRun_append]
    rw [e]
    simp [vRun, vStep, sysStep, Service.direct, ha, hc]
  · intro b h
    obtain ⟨ss, hst, hlg⟩ := vsys lib p n ql gc now steps
    obtain ⟨c, hci, -⟩ := (dinv_new lib p n ql now ss).made (vStateOf lib p n ql gc now steps).sys.calls.length b
      (show _ ∈ logOf lib p n ql now ss by rw [hlg]; exact mem_apiLog.2 h)
    rw [show (sysRun lib p (Sys.new n ql now) ss).1 = _ from hst] at hci
    simp at hci

/-- C98: from every state, the calls, threads, tasks and actors can go on until nothing is left to be done, unless the process is aborted
on the way. -/
theorem C98_settles (lib : PowLib) (p : Profile) (n ql gc now : Nat) (steps : List VStep) :
    ∃ later, (∀ st ∈ later, vGoesOn st = true) ∧
      (Settled lib p (vStateOf lib p n ql gc now (steps ++ later)) ∨
        (vStateOf lib p n ql gc now (steps ++ later)).sys.queue.status = .aborted) :=
  settle_run lib p n ql gc now steps

end MCap
