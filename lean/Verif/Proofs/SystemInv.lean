import Verif.Proofs.System

namespace MCap
open Spec

/-! ### The verdict channel inside the system: the job may also be lost half way -/

/-- Everything a worker sends. -/
def allSent (q : QueuedWork) : List Bool := complaintD q ++ complaintV q ++ [true]

/-- Invariant of a verdict channel whose job may be lost at any point. -/
structure SChan (q : QueuedWork) (c : VerdictChannel) : Prop where
  exact : c.pc ≠ .dropped false → ChanInv q c
  pre : c.rxAlive = true → readList c.reading ++ c.buf <+: allSent q
  dead : c.rxAlive = false → c.buf = []
  verd : ∀ b, c.reading = .verdict b → (allSent q).head? = some b
  disc : c.reading = .disconnected → c.pc = .dropped false

theorem schan_of (q : QueuedWork) (c : VerdictChannel) (h : ChanInv q c) : SChan q c where
  exact _ := h
  pre hr := by rw [h.live hr]; exact sent_prefix q c.pc
  dead := h.dead
  verd := h.verd
  disc := h.disc

theorem schan_new (q : QueuedWork) : SChan q VerdictChannel.new := schan_of q _ (chan_init q)

theorem schan_work (q : QueuedWork) (c : VerdictChannel) (h : SChan q c) : SChan q ((c.workerStep q).getD c) := by
  by_cases hd : c.pc = .dropped false
  · have : c.workerStep q = none := by simp [VerdictChannel.workerStep, hd]
    rw [this]; exact h
  · exact schan_of q _ (chan_step q c .work (h.exact hd))

theorem schan_poll (q : QueuedWork) (c : VerdictChannel) (h : SChan q c) : SChan q c.poll := by
  by_cases hd : c.pc = .dropped false
  · unfold VerdictChannel.poll
    split
    · rename_i hc
      have hp := h.pre hc.2
      simp only [hc.1, readList, List.nil_append] at hp
      cases hb : c.buf with
      | nil =>
        simp only [hd]
        exact { exact := fun e => absurd rfl e, pre := fun _ => by simp [readList], dead := fun e => by simp [hc.2] at e
                verd := by simp, disc := fun _ => rfl }
      | cons b r =>
        rw [hb] at hp
        simp only
        refine { exact := fun e => absurd hd e, pre := fun _ => hp, dead := fun e => by simp [hc.2] at e, verd := ?_, disc := by simp }
        intro b' e
        cases e
        obtain ⟨t, ht⟩ := hp
        rw [← ht]; rfl
    · exact h
  · exact schan_of q _ (chan_step q c .poll (h.exact hd))

theorem schan_dropRx (q : QueuedWork) (c : VerdictChannel) (h : SChan q c) : SChan q c.dropRx := by
  by_cases hd : c.pc = .dropped false
  · exact { exact := fun e => absurd hd e, pre := fun e => by simp [VerdictChannel.dropRx] at e, dead := fun _ => rfl, verd := h.verd, disc := h.disc }
  · exact schan_of q _ (chan_step q c .dropRx (h.exact hd))

/-- What `Call.release` does to the channel. -/
def releaseCh (ch : VerdictChannel) : VerdictChannel :=
  match ch.pc with
  | .dropped _ => ch
  | .finished => { ch with pc := .dropped true }
  | _ => { ch with pc := .dropped false }

theorem schan_release (q : QueuedWork) (c : VerdictChannel) (h : SChan q c) : SChan q (releaseCh c) := by
  unfold releaseCh
  split
  · exact h
  · rename_i hp
    have hi := h.exact (by rw [hp]; simp)
    have := chan_work q c { c with pc := .dropped true } hi (by simp [VerdictChannel.workerStep, hp])
    exact schan_of q _ this
  · rename_i h1 h2
    refine { exact := fun e => absurd rfl e, pre := h.pre, dead := h.dead, verd := h.verd, disc := fun _ => rfl }

/-! ### The state of a call is explained by the log -/

/-- A request to the cache a call may be waiting for. -/
def Pending (lib : PowLib) (log : List SEvent) (i : Nat) (api : Api) (m : CacheMsg) : Stage → Prop
  | .storePow cfg => ∃ id r, api = .get id ∧ cfg.salt = lib.salt ∧ cfg.difficultyFactor = r.difficultyFactor ∧
      (∃ g, cfg.string = getRandom 32 g) ∧ .master i (.reply (.ok (some r))) ∈ log ∧
      m = .cachePow { string := cfg.string, difficultyFactor := cfg.difficultyFactor, duration := r.duration, key := id }
  | .retrieve => ∃ work ip, api = .verify work ip ∧ m = .retrivePow { token := work.string, key := work.key }
  | .storeResult t d => ∃ work ip cfg, api = .verify work ip ∧ Found log i work ip cfg ∧ cfg.key = work.key ∧ cfg.difficultyFactor = d ∧
      m = .cacheResult { token := t, key := cfg.key, duration := cfg.duration } ∧ Solves lib work d ∧ (∃ g, t = getRandom 32 g)
  | .check => ∃ msg, api = .validate msg ∧ m = .verify msg

/-- A call between handing its job to the queue and reading the verdict. -/
def InQueue (lib : PowLib) (log : List SEvent) (i : Nat) (c : Call) (cfg : CachedPoWConfig) : Prop :=
  ∃ work ip ch, c.api = .verify work ip ∧ Found log i work ip cfg ∧ cfg.key = work.key ∧
    c.job = some ({ pow := lib, work := work.toProof, string := work.string, difficultyFactor := cfg.difficultyFactor }, ch) ∧
    SChan { pow := lib, work := work.toProof, string := work.string, difficultyFactor := cfg.difficultyFactor } ch

/-- Stores are answered with `done`. -/
def ReplyFits (r : CacheReply) : Stage → Prop
  | .storePow _ => r = .done
  | .storeResult _ _ => r = .done
  | _ => True

/-- Invariant of one call. -/
def CallInv (lib : PowLib) (log : List SEvent) (i : Nat) (c : Call) : Prop :=
  .call i c.api ∈ log ∧
  match c.pc with
  | .awaitMaster => ∃ id, c.api = .get id
  | .awaitCache m k => Pending lib log i c.api m k
  | .replied r k => ReplyFits r k ∧ ∃ m, Pending lib log i c.api m k ∧ .cache (some (i, c.api)) m r ∈ log
  | .awaitAdd cfg => InQueue lib log i c cfg
  | .answered cfg a => InQueue lib log i c cfg ∧ (a = .refused → ∃ ip, .queue (.refused ip i) ∈ log) ∧
      (a = .accepted → ∃ ip, .queue (.accepted ip i) ∈ log)
  | .polling cfg => InQueue lib log i c cfg ∧ ∃ ip, .queue (.accepted ip i) ∈ log
  | .done => True

/-- Why an event could happen after `pre`. -/
def Why (lib : PowLib) (pre : List SEvent) : SEvent → Prop
  | .cache (some (i, .get id)) m r => .call i (.get id) ∈ pre ∧ r = .done ∧ ∃ (cfg : PoWConfig) (res : AddVisitorResult), .master i (.reply (.ok (some res))) ∈ pre ∧
      cfg.salt = lib.salt ∧ cfg.difficultyFactor = res.difficultyFactor ∧ (∃ g, cfg.string = getRandom 32 g) ∧
      m = .cachePow { string := cfg.string, difficultyFactor := cfg.difficultyFactor, duration := res.duration, key := id }
  | .cache (some (i, .verify work ip)) m r => .call i (.verify work ip) ∈ pre ∧
      ((m = .retrivePow { token := work.string, key := work.key } ∧ r = .config (storedChallenge (msgs (cacheTrace pre)) work.string)) ∨
       (r = .done ∧ ∃ t cfg, Found pre i work ip cfg ∧ cfg.key = work.key ∧ Solves lib work cfg.difficultyFactor ∧
          (∃ g, t = getRandom 32 g) ∧ m = .cacheResult { token := t, key := cfg.key, duration := cfg.duration }))
  | .cache (some (i, .validate msg)) m r => .call i (.validate msg) ∈ pre ∧ m = .verify msg ∧
      r = .verdict (decide (storedToken (msgs (cacheTrace pre)) msg.token = some msg.key))
  | .cache none m r => r = .done ∧ ((∃ s, m = .deletePow s) ∨ (∃ t, m = .deleteResult t))
  | .ret i (.get id) (.get (.ok (some cfg))) => .call i (.get id) ∈ pre ∧ Issued pre i id cfg ∧ cfg.salt = lib.salt ∧
      ∃ res, .master i (.reply (.ok (some res))) ∈ pre ∧ cfg.difficultyFactor = res.difficultyFactor
  | .ret i (.get id) (.get (.ok none)) => .call i (.get id) ∈ pre ∧
      (.master i (.reply (.ok none)) ∈ pre ∨ ∃ e, .master i (.reply (.error e)) ∈ pre)
  | .ret i (.get id) (.get (.error e)) => .call i (.get id) ∈ pre ∧ 
      ((e = .mailboxError ∧ (.master i .mailboxError ∈ pre ∨ ∃ res, .master i (.reply (.ok (some res))) ∈ pre)) ∨
       (e = .recvError ∧ .master i .recvError ∈ pre))
  | .ret i (.verify work ip) (.verify (.ok (t, d))) => .call i (.verify work ip) ∈ pre ∧ Minted pre i work ip t work.key ∧
      (∃ cfg, Found pre i work ip cfg ∧ cfg.key = work.key ∧ cfg.difficultyFactor = d) ∧ Solves lib work d
  | .ret i (.verify work ip) (.verify (.error e)) => .call i (.verify work ip) ∈ pre ∧
      ((e = .stringNotFound ∧ .cache (some (i, .verify work ip)) (.retrivePow { token := work.string, key := work.key }) (.config none) ∈ pre) ∨
       (e = .mCaptchaKeyValidationFail ∧ ∃ cfg, Found pre i work ip cfg ∧ cfg.key ≠ work.key) ∨
       (e = .queueFull ∧ ∃ ip', .queue (.refused ip' i) ∈ pre) ∨
       (e = .insuffiencientDifficulty ∧ (∃ ip', .queue (.accepted ip' i) ∈ pre) ∧ ∃ cfg, Found pre i work ip cfg ∧ cfg.key = work.key) ∨
       e = .recvError ∨ e = .mailboxError)
  | .ret i (.validate msg) (.validate (.ok b)) => .call i (.validate msg) ∈ pre ∧ .cache (some (i, .validate msg)) (.verify msg) (.verdict b) ∈ pre
  | .ret i (.validate msg) (.validate (.error e)) => .call i (.validate msg) ∈ pre ∧ e = .mailboxError
  | .ret _ _ _ => False
  | .panicked i => ∃ work ip, .call i (.verify work ip) ∈ pre
  | _ => True

/-- Invariant of the system. -/
structure SInv (lib : PowLib) (s : Sys) (log : List SEvent) : Prop where
  calls : ∀ (i : Nat) (c : Call), s.calls[i]? = some c → CallInv lib log i c
  agrees : Agrees s.cache (msgs (cacheTrace log))
  timers : ∀ t ∈ s.cache.timers, (∃ s, t.msg = .deletePow s) ∨ (∃ s, t.msg = .deleteResult s)
  why : ∀ pre e post, log = pre ++ e :: post → Why lib pre e

theorem cacheTrace_append (a b : List SEvent) : cacheTrace (a ++ b) = cacheTrace a ++ cacheTrace b := by simp [cacheTrace]

theorem queueTrace_append (a b : List SEvent) : queueTrace (a ++ b) = queueTrace a ++ queueTrace b := by simp [queueTrace]

theorem queueTrace_map (l : List QEvent) : queueTrace (l.map .queue) = l := by
  induction l with
  | nil => rfl
  | cons e r ih => simp only [queueTrace] at ih; simp [queueTrace, ih]

theorem cacheTrace_queue (l : List QEvent) : cacheTrace (l.map .queue) = [] := by
  simp [cacheTrace, List.filterMap_eq_nil_iff]

theorem msgs_append (a b : List (CacheMsg × CacheReply)) : msgs (a ++ b) = msgs a ++ msgs b := by simp [msgs]

theorem pending_mono {lib : PowLib} {log : List SEvent} (ev : List SEvent) {i : Nat} {api : Api} {m : CacheMsg} {k : Stage}
    (h : Pending lib log i api m k) : Pending lib (log ++ ev) i api m k := by
  cases k with
  | storePow cfg =>
    obtain ⟨id, r, h1, h2, h3, h4, h5, h6⟩ := h
    exact ⟨id, r, h1, h2, h3, h4, List.mem_append_left _ h5, h6⟩
  | retrieve => exact h
  | storeResult t d =>
    obtain ⟨work, ip, cfg, h1, h2, h3⟩ := h
    exact ⟨work, ip, cfg, h1, List.mem_append_left _ h2, h3⟩
  | check => exact h

theorem inQueue_mono {lib : PowLib} {log : List SEvent} (ev : List SEvent) {i : Nat} {c : Call} {cfg : CachedPoWConfig}
    (h : InQueue lib log i c cfg) : InQueue lib (log ++ ev) i c cfg := by
  obtain ⟨work, ip, ch, h1, h2, h3⟩ := h
  exact ⟨work, ip, ch, h1, List.mem_append_left _ h2, h3⟩

theorem callInv_mono {lib : PowLib} {log : List SEvent} (ev : List SEvent) {i : Nat} {c : Call} (h : CallInv lib log i c) :
    CallInv lib (log ++ ev) i c := by
  obtain ⟨h0, h⟩ := h
  refine ⟨List.mem_append_left _ h0, ?_⟩
  cases hp : c.pc with
  | awaitMaster => rw [hp] at h; exact h
  | awaitCache m k => rw [hp] at h; exact pending_mono ev h
  | replied r k =>
    rw [hp] at h
    obtain ⟨h0, m, h1, h2⟩ := h
    exact ⟨h0, m, pending_mono ev h1, List.mem_append_left _ h2⟩
  | awaitAdd cfg => rw [hp] at h; exact inQueue_mono ev h
  | answered cfg a =>
    rw [hp] at h
    obtain ⟨h1, h2, h3⟩ := h
    exact ⟨inQueue_mono ev h1, fun e => (h2 e).imp fun _ h => List.mem_append_left _ h, fun e => (h3 e).imp fun _ h => List.mem_append_left _ h⟩
  | polling cfg =>
    rw [hp] at h
    exact ⟨inQueue_mono ev h.1, h.2.imp fun _ h => List.mem_append_left _ h⟩
  | done => trivial

/-- Extending the explanation of a log by one event. -/
theorem why_snoc {lib : PowLib} {log : List SEvent} (h : ∀ pre e post, log = pre ++ e :: post → Why lib pre e) (e : SEvent)
    (he : Why lib log e) : ∀ pre e' post, log ++ [e] = pre ++ e' :: post → Why lib pre e' := by
  intro pre e' post hs
  rcases List.eq_nil_or_concat post with rfl | ⟨post, x, rfl⟩
  · have := List.append_inj' hs rfl
    obtain ⟨rfl, h2⟩ := this
    cases h2
    exact he
  · rw [List.concat_eq_append, ← List.cons_append, ← List.append_assoc] at hs
    have := List.append_inj' hs rfl
    exact h pre e' post this.1

theorem why_extend {lib : PowLib} {log : List SEvent} (h : ∀ pre e post, log = pre ++ e :: post → Why lib pre e) (ev : List SEvent)
    (he : ∀ ev1 e ev2, ev = ev1 ++ e :: ev2 → Why lib (log ++ ev1) e) :
    ∀ pre e' post, log ++ ev = pre ++ e' :: post → Why lib pre e' := by
  induction ev generalizing log with
  | nil => simpa using h
  | cons x r ih =>
    have h1 := why_snoc h x (by simpa using he [] x r rfl)
    have := ih h1 (by
      intro ev1 e ev2 hs
      have := he (x :: ev1) e ev2 (by rw [hs]; rfl)
      simpa using this)
    simpa using this

theorem over_api (c : Call) : c.over.api = c.api := rfl
theorem over_pc (c : Call) : c.over.pc = .done := rfl

/-- A call that is over satisfies the invariant. -/
theorem callInv_over {lib : PowLib} {log : List SEvent} {i : Nat} {c : Call} (ev : List SEvent) (h : CallInv lib log i c) (c' : Call)
    (h1 : c'.api = c.api) (h2 : c'.pc = .done) : CallInv lib (log ++ ev) i c' := by
  refine ⟨?_, ?_⟩
  · rw [h1]; exact List.mem_append_left _ h.1
  · rw [h2]; trivial

/-- Changing only the channel of a call that keeps the channel invariant. -/
theorem callInv_job {lib : PowLib} {log : List SEvent} {i : Nat} {c : Call} (h : CallInv lib log i c)
    (f : VerdictChannel → VerdictChannel) (c' : Call) (h1 : c'.api = c.api) (h2 : c'.pc = c.pc)
    (h3 : c'.job = c.job.map fun x => (x.1, f x.2))
    (hf : ∀ q ch, c.job = some (q, ch) → SChan q ch → SChan q (f ch)) : CallInv lib log i c' := by
  have hq : ∀ cfg, InQueue lib log i c cfg → InQueue lib log i c' cfg := by
    rintro cfg ⟨work, ip, ch, a1, a2, a3, a4, a5⟩
    refine ⟨work, ip, f ch, by rw [h1]; exact a1, a2, a3, by rw [h3, a4]; rfl, hf _ _ a4 a5⟩
  obtain ⟨h0, h⟩ := h
  refine ⟨by rw [h1]; exact h0, ?_⟩
  rw [h1, h2]
  cases hp : c.pc with
  | awaitMaster => rw [hp] at h; exact h
  | awaitCache m k => rw [hp] at h; exact h
  | replied r k => rw [hp] at h; exact h
  | awaitAdd cfg => rw [hp] at h; exact hq cfg h
  | answered cfg a => rw [hp] at h; exact ⟨hq cfg h.1, h.2⟩
  | polling cfg => rw [hp] at h; exact ⟨hq cfg h.1, h.2⟩
  | done => trivial

theorem good_of_true {lib : PowLib} {work : Work} {d : Nat} {ch : VerdictChannel}
    (h : SChan { pow := lib, work := work.toProof, string := work.string, difficultyFactor := d } ch) (hr : ch.reading = .verdict true) :
    Solves lib work d := by
  have := (head_true_iff _ true (h.verd true hr)).1 rfl
  exact this

/-- A local move keeps the invariant of the call, and its events are explained. -/
theorem local_inv {lib : PowLib} {log : List SEvent} {i : Nat} {c c' : Call} {ev : List SEvent} (h : CallInv lib log i c)
    (m : Local lib i c c' ev) :
    CallInv lib (log ++ ev) i c' ∧ ∀ ev1 e ev2, ev = ev1 ++ e :: ev2 → Why lib (log ++ ev1) e := by
  have hov : ∀ ev, CallInv lib (log ++ ev) i c.over := fun ev => callInv_over ev h _ rfl rfl
  have one : ∀ (x : SEvent), Why lib log x → ∀ ev1 e ev2, [x] = ev1 ++ e :: ev2 → Why lib (log ++ ev1) e := by
    intro x hx ev1 e ev2 he
    cases ev1 with
    | nil => simp at he; rw [← he.1]; simpa using hx
    | cons a r => simp at he
  have none : ∀ ev1 (e : SEvent) ev2, ([] : List SEvent) = ev1 ++ e :: ev2 → Why lib (log ++ ev1) e := by
    intro ev1 e ev2 he; simp at he
  cases m with
  | masterErr id a r h1 h2 hl h3 =>
    refine ⟨hov _, ?_⟩
    intro ev1 e ev2 he
    have h0 : SEvent.call i (.get id) ∈ log := by have := h.1; rwa [h1] at this
    match ev1 with
    | [] => simp at he; rw [← he.1]; trivial
    | [x] =>
      simp at he
      obtain ⟨rfl, rfl, -⟩ := he
      rw [h1]
      rcases h3 with ⟨rfl, rfl⟩ | ⟨rfl, rfl⟩ | ⟨e, rfl, rfl⟩ | ⟨rfl, rfl⟩
      · exact ⟨List.mem_append_left _ h0, .inl ⟨rfl, .inl (by simp)⟩⟩
      · exact ⟨List.mem_append_left _ h0, .inr ⟨rfl, by simp⟩⟩
      · exact ⟨List.mem_append_left _ h0, .inr ⟨e, by simp⟩⟩
      · exact ⟨List.mem_append_left _ h0, .inl (by simp)⟩
    | x :: y :: r => simp at he
  | masterOk id r g h1 h2 hl =>
    refine ⟨⟨List.mem_append_left _ h.1, ?_⟩, one _ trivial⟩
    exact ⟨id, r, h1, rfl, rfl, ⟨g, rfl⟩, by simp, rfl⟩
  | retPow r cfg h2 hl =>
    refine ⟨hov _, one _ ?_⟩
    obtain ⟨h0, h⟩ := h
    rw [h2] at h
    obtain ⟨hfit, m, ⟨id, res, a1, a2, a3, a4, a5, rfl⟩, hm⟩ := h
    rw [a1] at hm h0 ⊢
    cases (show r = .done from hfit)
    exact ⟨h0, ⟨_, hm⟩, a2, res, a5, a3⟩
  | notFound work ip h1 h2 hl =>
    refine ⟨hov _, one _ ?_⟩
    obtain ⟨h0, h⟩ := h
    rw [h2] at h
    obtain ⟨hfit, m, ⟨work', ip', a1, rfl⟩, hm⟩ := h
    rw [h1] at a1; cases a1
    rw [h1] at hm h0 ⊢
    exact ⟨h0, .inl ⟨rfl, hm⟩⟩
  | wrongKey work ip cfg h1 h2 hk hl =>
    refine ⟨hov _, one _ ?_⟩
    obtain ⟨h0, h⟩ := h
    rw [h2] at h
    obtain ⟨hfit, m, ⟨work', ip', a1, rfl⟩, hm⟩ := h
    rw [h1] at a1; cases a1
    rw [h1] at hm h0 ⊢
    exact ⟨h0, .inr (.inl ⟨rfl, cfg, hm, fun e => hk e.symm⟩)⟩
  | stored r t d h2 hl =>
    refine ⟨hov _, one _ ?_⟩
    obtain ⟨h0, h⟩ := h
    rw [h2] at h
    obtain ⟨hfit, m, ⟨work, ip, cfg, a1, a2, a3, a4, rfl, a5, a6⟩, hm⟩ := h
    rw [a1] at hm h0 ⊢
    cases (show r = .done from hfit)
    rw [a3] at hm
    exact ⟨h0, ⟨_, hm⟩, ⟨cfg, a2, a3, a4⟩, a5⟩
  | checked b h2 hl =>
    refine ⟨hov _, one _ ?_⟩
    obtain ⟨h0, h⟩ := h
    rw [h2] at h
    obtain ⟨hfit, m, ⟨msg, a1, rfl⟩, hm⟩ := h
    rw [a1] at hm h0 ⊢
    exact ⟨h0, hm⟩
  | accepted cfg h2 hl =>
    refine ⟨?_, none⟩
    obtain ⟨h0, h⟩ := h
    rw [h2] at h
    rw [List.append_nil]
    exact ⟨h0, h.1, h.2.2 rfl⟩
  | refused cfg h2 hl =>
    refine ⟨hov _, one _ ?_⟩
    obtain ⟨h0, h⟩ := h
    rw [h2] at h
    obtain ⟨⟨work, ip, ch, a1, -⟩, h3, -⟩ := h
    rw [a1] at h0 ⊢
    exact ⟨h0, .inr (.inr (.inl ⟨rfl, h3 rfl⟩))⟩
  | lost cfg h2 hl =>
    refine ⟨hov _, one _ ?_⟩
    obtain ⟨h0, h⟩ := h
    rw [h2] at h
    obtain ⟨⟨work, ip, ch, a1, -⟩, -⟩ := h
    rw [a1] at h0 ⊢
    exact ⟨h0, .inr (.inr (.inr (.inr (.inl rfl))))⟩
  | pollNone cfg job ch h2 hj hr hl =>
    refine ⟨?_, none⟩
    rw [List.append_nil]
    exact callInv_job h (fun ch => ch.poll) _ rfl rfl (by rw [hj]; rfl) (fun q ch _ hs => schan_poll q ch hs)
  | pollBad cfg job ch h2 hj hr hl =>
    refine ⟨callInv_over _ h _ rfl rfl, one _ ?_⟩
    obtain ⟨h0, h⟩ := h
    rw [h2] at h
    obtain ⟨⟨work, ip, ch', a1, a2, a3, -⟩, h3⟩ := h
    rw [a1] at h0 ⊢
    exact ⟨h0, .inr (.inr (.inr (.inl ⟨rfl, h3, cfg, a2, a3⟩)))⟩
  | pollGood cfg job ch g h2 hj hr hl =>
    refine ⟨?_, none⟩
    rw [List.append_nil]
    obtain ⟨h0, h⟩ := h
    rw [h2] at h
    obtain ⟨⟨work, ip, ch', a1, a2, a3, a4, a5⟩, -⟩ := h
    rw [hj] at a4
    cases a4
    exact ⟨h0, work, ip, cfg, a1, a2, a3, rfl, rfl, good_of_true (schan_poll _ _ a5) hr, g, rfl⟩
  | gone m k r h2 hl hr =>
    refine ⟨hov _, one _ ?_⟩
    have h0 := h.1
    cases ha : c.api with
    | get id =>
      have hp := h.2
      rw [h2] at hp
      rw [ha] at h0 hr
      subst hr
      refine ⟨h0, .inl ⟨rfl, .inr ?_⟩⟩
      cases k with
      | storePow cfg => obtain ⟨_, res, _, _, _, _, hm, _⟩ := hp; exact ⟨res, hm⟩
      | retrieve => obtain ⟨_, _, e, _⟩ := hp; rw [ha] at e; cases e
      | storeResult t d => obtain ⟨_, _, _, e, _⟩ := hp; rw [ha] at e; cases e
      | check => obtain ⟨_, e, _⟩ := hp; rw [ha] at e; cases e
    | verify work ip => rw [ha] at h0 hr; subst hr; exact ⟨h0, .inr (.inr (.inr (.inr (.inr rfl))))⟩
    | validate msg => rw [ha] at h0 hr; subst hr; exact ⟨h0, rfl⟩
  | work job ch hj hf =>
    refine ⟨?_, none⟩
    rw [List.append_nil]
    exact callInv_job h (fun ch => (ch.workerStep job).getD ch) _ rfl rfl (by rw [hj]; rfl) (fun q ch' e hs => by
      rw [hj] at e; cases e; exact schan_work _ _ hs)
  | cancel hl hd =>
    refine ⟨callInv_job (callInv_mono _ h) VerdictChannel.dropRx _ rfl rfl rfl (fun q ch _ hs => schan_dropRx q ch hs), one _ trivial⟩

theorem settle_api (q : Queue) (ev : List QEvent) (i : Nat) (c : Call) : (c.settle q ev i).api = c.api := by
  unfold Call.settle; simp only; split <;> rfl

theorem settle_live (q : Queue) (ev : List QEvent) (i : Nat) (c : Call) : (c.settle q ev i).live = c.live := by
  unfold Call.settle; simp only; split <;> rfl

theorem settle_job (q : Queue) (ev : List QEvent) (i : Nat) (c : Call) :
    (c.settle q ev i).job = if q.holds i then c.job else c.job.map fun x => (x.1, releaseCh x.2) := by
  unfold Call.settle; simp only; split <;> simp [Call.release]; rfl

/-- The position of a call changes only by the arrival of the answer of the queue. -/
theorem settle_pc (q : Queue) (ev : List QEvent) (i : Nat) (c : Call) :
    (c.settle q ev i).pc = c.pc ∨ ∃ cfg, c.pc = .awaitAdd cfg ∧
      (((c.settle q ev i).pc = .answered cfg .accepted ∧ ∃ ip, .accepted ip i ∈ ev) ∨
       ((c.settle q ev i).pc = .answered cfg .refused ∧ ∃ ip, .refused ip i ∈ ev) ∨
       ((c.settle q ev i).pc = .answered cfg .lost ∧ q.holds i = false)) := by
  have h : (c.settle q ev i).pc = match c.pc with
      | .awaitAdd cfg =>
        if ev.any (fun e => match e with | .accepted _ j => j == i | _ => false) then .answered cfg .accepted
        else if ev.any (fun e => match e with | .refused _ j => j == i | _ => false) then .answered cfg .refused
        else if q.holds i then .awaitAdd cfg
        else .answered cfg .lost
      | pc => pc := by
    unfold Call.settle; simp only; split <;> rfl
  cases hp : c.pc with
  | awaitAdd cfg =>
    rw [hp] at h
    simp only at h
    split at h
    · rename_i he
      refine .inr ⟨cfg, rfl, .inl ⟨h, ?_⟩⟩
      obtain ⟨e, hm, hi⟩ := List.any_eq_true.1 he
      cases e <;> simp at hi
      subst hi; exact ⟨_, hm⟩
    · split at h
      · rename_i he
        refine .inr ⟨cfg, rfl, .inr (.inl ⟨h, ?_⟩)⟩
        obtain ⟨e, hm, hi⟩ := List.any_eq_true.1 he
        cases e <;> simp at hi
        subst hi; exact ⟨_, hm⟩
      · split at h
        · exact .inl h
        · rename_i he; exact .inr ⟨cfg, rfl, .inr (.inr ⟨h, by simpa using he⟩)⟩
  | _ => rw [hp] at h; exact .inl h

theorem settle_inv {lib : PowLib} {log : List SEvent} {i : Nat} {c : Call} (h : CallInv lib log i c) (q : Queue) (ev : List QEvent) :
    CallInv lib (log ++ ev.map .queue) i (c.settle q ev i) := by
  have h := callInv_mono (ev.map .queue) h
  have hjob : (c.settle q ev i).job = c.job.map fun x => (x.1, if q.holds i then x.2 else releaseCh x.2) := by
    rw [settle_job]
    split
    · cases c.job <;> rfl
    · rfl
  have hch : ∀ qw ch, c.job = some (qw, ch) → SChan qw ch → SChan qw (if q.holds i then ch else releaseCh ch) := by
    intro qw ch _ hs
    split
    · exact hs
    · exact schan_release _ _ hs
  rcases settle_pc q ev i c with hp | ⟨cfg, hp, hn⟩
  · exact callInv_job h _ _ (settle_api q ev i c) hp hjob hch
  · obtain ⟨h0, h⟩ := h
    rw [hp] at h
    obtain ⟨work, ip, ch, a1, a2, a3, a4, a5⟩ := h
    have hq : InQueue lib (log ++ ev.map .queue) i (c.settle q ev i) cfg := by
      refine ⟨work, ip, _, by rw [settle_api]; exact a1, a2, a3, by rw [hjob, a4]; rfl, hch _ _ a4 a5⟩
    refine ⟨by rw [settle_api]; exact h0, ?_⟩
    rcases hn with ⟨e, ip', he⟩ | ⟨e, ip', he⟩ | ⟨e, -⟩
    · rw [e]
      exact ⟨hq, (by intro x; cases x), fun _ => ⟨ip', List.mem_append_right _ (List.mem_map_of_mem he)⟩⟩
    · rw [e]
      exact ⟨hq, fun _ => ⟨ip', List.mem_append_right _ (List.mem_map_of_mem he)⟩, (by intro x; cases x)⟩
    · rw [e]
      exact ⟨hq, (by intro x; cases x), (by intro x; cases x)⟩

/-- The cache answers stores with `done`, look-ups from what it holds. -/
theorem handle_fits (lib : PowLib) (log : List SEvent) (i : Nat) (api : Api) (w : CacheWorld) (m : CacheMsg) (k : Stage)
    (h : Pending lib log i api m k) : ReplyFits (w.handle m).2 k := by
  cases k with
  | storePow cfg => obtain ⟨_, _, _, _, _, _, _, rfl⟩ := h; rfl
  | retrieve => trivial
  | storeResult t d => obtain ⟨_, _, _, _, _, _, _, rfl, _⟩ := h; rfl
  | check => trivial

theorem handle_timers (w : CacheWorld) (m : CacheMsg)
    (h : ∀ t ∈ w.timers, (∃ s, t.msg = .deletePow s) ∨ (∃ s, t.msg = .deleteResult s)) :
    ∀ t ∈ (w.handle m).1.timers, (∃ s, t.msg = .deletePow s) ∨ (∃ s, t.msg = .deleteResult s) := by
  cases m with
  | cachePow c =>
    intro t ht
    simp only [CacheWorld.handle, List.mem_append, List.mem_singleton] at ht
    rcases ht with ht | rfl
    · exact h t ht
    · exact .inl ⟨_, rfl⟩
  | cacheResult r =>
    intro t ht
    simp only [CacheWorld.handle, List.mem_append, List.mem_singleton] at ht
    rcases ht with ht | rfl
    · exact h t ht
    · exact .inr ⟨_, rfl⟩
  | _ => exact h

theorem set_calls_inv {lib : PowLib} {s : Sys} {log ev : List SEvent} (h : ∀ (i : Nat) (c : Call), s.calls[i]? = some c → CallInv lib log i c)
    (i : Nat) (c' : Call) (hc : i < s.calls.length) (h' : CallInv lib (log ++ ev) i c') :
    ∀ (j : Nat) (c : Call), (s.calls.set i c')[j]? = some c → CallInv lib (log ++ ev) j c := by
  intro j c hj
  rw [List.getElem?_set] at hj
  split at hj
  · rename_i e
    subst e
    simp [hc] at hj
    subst hj; exact h'
  · exact callInv_mono ev (h j c hj)

theorem mapIdx_calls_inv {lib : PowLib} {s : Sys} {log : List SEvent} (h : ∀ (i : Nat) (c : Call), s.calls[i]? = some c → CallInv lib log i c)
    (q : Queue) (ev : List QEvent) :
    ∀ (j : Nat) (c : Call), (s.calls.mapIdx (Call.settle q ev))[j]? = some c → CallInv lib (log ++ ev.map .queue) j c := by
  intro j c hj
  rw [List.getElem?_mapIdx] at hj
  cases hc : s.calls[j]? with
  | none => rw [hc] at hj; simp at hj
  | some c0 =>
    rw [hc] at hj
    simp at hj
    subst hj
    exact settle_inv (h j c0 hc) q ev

theorem why_queue {lib : PowLib} {log : List SEvent} (ev : List QEvent) :
    ∀ ev1 e ev2, ev.map SEvent.queue = ev1 ++ e :: ev2 → Why lib (log ++ ev1) e := by
  intro ev1 e ev2 h
  have : e ∈ ev.map SEvent.queue := by rw [h]; simp
  obtain ⟨x, -, rfl⟩ := List.mem_map.1 this
  trivial

theorem why_one {lib : PowLib} {log : List SEvent} (x : SEvent) (hx : Why lib log x) :
    ∀ ev1 e ev2, [x] = ev1 ++ e :: ev2 → Why lib (log ++ ev1) e := by
  intro ev1 e ev2 he
  cases ev1 with
  | nil => simp at he; rw [← he.1]; simpa using hx
  | cons a r => simp at he

theorem lt_of_some {α : Type} {l : List α} {i : Nat} {a : α} (h : l[i]? = some a) : i < l.length := by
  rcases Nat.lt_or_ge i l.length with h' | h'
  · exact h'
  · rw [List.getElem?_eq_none h'] at h; cases h

/-- Local moves emit neither cache nor queue events. -/
theorem local_traces {lib : PowLib} {i : Nat} {c c' : Call} {ev : List SEvent} (m : Local lib i c c' ev) :
    cacheTrace ev = [] ∧ queueTrace ev = [] := by
  cases m <;> exact ⟨rfl, rfl⟩

theorem sinv_move {lib : PowLib} {p : Profile} {s s' : Sys} {log ev : List SEvent} (h : SInv lib s log) (m : Move lib p s s' ev) :
    SInv lib s' (log ++ ev) := by
  cases m with
  | idle => rw [List.append_nil]; exact h
  | «local» i c c' _ hc m =>
    obtain ⟨h1, h2⟩ := local_inv (h.calls i c hc) m
    refine { calls := set_calls_inv h.calls i c' (lt_of_some hc) h1, agrees := ?_, timers := h.timers, why := why_extend h.why _ h2 }
    rw [cacheTrace_append, (local_traces m).1, List.append_nil]; exact h.agrees
  | start a hq =>
    refine { calls := ?_, agrees := ?_, timers := h.timers, why := why_extend h.why _ (why_one _ trivial) }
    · intro i c hc
      rw [List.getElem?_append] at hc
      split at hc
      · exact callInv_mono _ (h.calls i c hc)
      · rename_i hi
        have : i = s.calls.length := by
          rcases Nat.lt_or_ge (i - s.calls.length) 1 with h' | h'
          · omega
          · rw [List.getElem?_eq_none (by simpa using h')] at hc; cases hc
        subst this
        simp at hc
        subst hc
        refine ⟨by simp [Call.start], ?_⟩
        cases a with
        | get id => exact ⟨id, rfl⟩
        | verify work ip => exact ⟨work, ip, rfl, rfl⟩
        | validate msg => exact ⟨msg, rfl, rfl⟩
    · rw [cacheTrace_append]; simpa [cacheTrace] using h.agrees
  | cache i c m k hc h2 =>
    have hi := h.calls i c hc
    obtain ⟨h0, hp⟩ := hi
    rw [h2] at hp
    refine { calls := ?_, agrees := ?_, timers := handle_timers _ _ h.timers, why := why_extend h.why _ (why_one _ ?_) }
    · refine set_calls_inv h.calls i _ (lt_of_some hc) ⟨List.mem_append_left _ h0, ?_⟩
      exact ⟨handle_fits lib log i c.api s.cache m k hp, m, pending_mono _ hp, by simp⟩
    · rw [cacheTrace_append, msgs_append]
      exact agrees_handle s.cache _ m h.agrees
    · cases k with
      | storePow cfg =>
        obtain ⟨id, r, a1, a2, a3, a4, a5, rfl⟩ := hp
        rw [a1] at h0 ⊢
        exact ⟨h0, rfl, cfg, r, a5, a2, a3, a4, rfl⟩
      | retrieve =>
        obtain ⟨work, ip, a1, rfl⟩ := hp
        rw [a1] at h0 ⊢
        exact ⟨h0, .inl ⟨rfl, retrive_reply s.cache _ _ (h.agrees.1 _)⟩⟩
      | storeResult t d =>
        obtain ⟨work, ip, cfg, a1, a2, a3, rfl, rfl, a5, a6⟩ := hp
        rw [a1] at h0 ⊢
        exact ⟨h0, .inr ⟨rfl, t, cfg, a2, a3, a5, a6, rfl⟩⟩
      | check =>
        obtain ⟨msg, a1, rfl⟩ := hp
        rw [a1] at h0 ⊢
        exact ⟨h0, rfl, verify_reply s.cache _ _ (h.agrees.2 _)⟩
  | submit i c work ip cfg hc h1 h2 hk hl hq hcl =>
    have hi := h.calls i c hc
    obtain ⟨h0, hp⟩ := hi
    rw [h2] at hp
    obtain ⟨-, m, ⟨work', ip', a1, rfl⟩, hm⟩ := hp
    rw [h1] at a1; cases a1
    rw [h1] at hm
    refine { calls := ?_, agrees := ?_, timers := h.timers, why := why_extend h.why _ (why_queue _) }
    · refine set_calls_inv h.calls i _ (lt_of_some hc) ⟨List.mem_append_left _ h0, ?_⟩
      exact ⟨work, ip, _, h1, List.mem_append_left _ hm, hk.symm, rfl, schan_new _⟩
    · rw [cacheTrace_append, cacheTrace_queue, List.append_nil]; exact h.agrees
  | panic i c cfg work ip hc h1 h2 hl hq hcl =>
    have hi := h.calls i c hc
    refine { calls := set_calls_inv h.calls i _ (lt_of_some hc) (callInv_over _ hi _ rfl rfl), agrees := ?_, timers := h.timers,
             why := why_extend h.why _ (why_one _ ?_) }
    · rw [cacheTrace_append]; simpa [cacheTrace, Sys.setCall] using h.agrees
    · refine ⟨work, ip, ?_⟩
      rw [← h1]; exact hi.1
  | queue qs hm =>
    refine { calls := mapIdx_calls_inv h.calls _ _, agrees := ?_, timers := h.timers, why := why_extend h.why _ (why_queue _) }
    rw [cacheTrace_append, cacheTrace_queue, List.append_nil]; exact h.agrees
  | shutdown hs =>
    refine { calls := mapIdx_calls_inv h.calls _ _, agrees := ?_, timers := h.timers, why := why_extend h.why _ (why_queue _) }
    rw [cacheTrace_append, cacheTrace_queue, List.append_nil]; exact h.agrees
  | expire k =>
    have ha : cacheTrace ((cacheStep s.cache (.fire k)).2.map fun (m, r) => SEvent.cache none m r) = (cacheStep s.cache (.fire k)).2 := by
      generalize (cacheStep s.cache (.fire k)).2 = l
      induction l with
      | nil => rfl
      | cons e r ih => simp only [cacheTrace] at ih; simp [cacheTrace, ih]
    refine { calls := fun i c hc => callInv_mono _ (h.calls i c hc), agrees := ?_, timers := ?_, why := why_extend h.why _ ?_ }
    · rw [cacheTrace_append, msgs_append, ha]; exact agrees_step _ _ _ h.agrees
    · simp only [cacheStep]
      split
      · rename_i t ht
        split
        · refine handle_timers _ _ ?_
          intro t' ht'
          exact h.timers t' (List.mem_of_mem_eraseIdx ht')
        · exact h.timers
      · exact h.timers
    · simp only [cacheStep]
      split
      · rename_i t ht
        split
        · have hd := h.timers t (List.mem_of_getElem? ht)
          simp only [List.map_cons, List.map_nil]
          refine why_one _ ⟨?_, hd⟩
          rcases hd with ⟨x, e⟩ | ⟨x, e⟩ <;> rw [e] <;> rfl
        · intro ev1 e ev2 he; simp at he
      · intro ev1 e ev2 he; simp at he
  | tick d => rw [List.append_nil]; exact { calls := h.calls, agrees := h.agrees, timers := h.timers, why := h.why }

theorem sinv_run {lib : PowLib} {p : Profile} {s : Sys} {log : List SEvent} (h : SInv lib s log) (steps : List SStep) :
    SInv lib (sysRun lib p s steps).1 (log ++ (sysRun lib p s steps).2) := by
  induction steps generalizing s log with
  | nil => simpa [sysRun] using h
  | cons st r ih =>
    have := ih (sinv_move h (sysStep_move lib p s st))
    simpa [sysRun, List.append_assoc] using this

theorem sinv_new (lib : PowLib) (p : Profile) (n ql now : Nat) (steps : List SStep) :
    SInv lib (sysRun lib p (Sys.new n ql now) steps).1 (sysRun lib p (Sys.new n ql now) steps).2 := by
  have h0 : SInv lib (Sys.new n ql now) [] :=
    { calls := by intro i c hc; simp [Sys.new] at hc
      agrees := agrees_init now
      timers := by intro t ht; simp [Sys.new, CacheWorld.init] at ht
      why := by intro pre e post h; simp at h }
  simpa using sinv_run h0 steps

end MCap
