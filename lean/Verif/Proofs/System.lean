import Verif.Spec.System
import Verif.Proofs.Cache
import Verif.Proofs.Pow
import Verif.Proofs.QueueRun

namespace MCap
open Spec

theorem sysRun_append (lib : PowLib) (p : Profile) (s : Sys) (a b : List SStep) :
    sysRun lib p s (a ++ b) = ((sysRun lib p (sysRun lib p s a).1 b).1, (sysRun lib p s a).2 ++ (sysRun lib p (sysRun lib p s a).1 b).2) := by
  induction a generalizing s with
  | nil => simp [sysRun]
  | cons st r ih => simp [sysRun, ih, List.append_assoc]

/-! ### What one step can do -/

/-- Moves that concern a single call and touch neither cache nor queue. -/
inductive Local (lib : PowLib) (i : Nat) (c : Call) : Call → List SEvent → Prop
  | masterErr (id : String) (a : MasterAnswer) (r : Ret) (h1 : c.api = .get id) (h2 : c.pc = .awaitMaster) (hl : c.live = true)
      (h3 : (a = .mailboxError ∧ r = .get (.error .mailboxError)) ∨ (a = .recvError ∧ r = .get (.error .recvError)) ∨
            (∃ e, a = .reply (.error e) ∧ r = .get (.ok none)) ∨ (a = .reply (.ok none) ∧ r = .get (.ok none))) :
      Local lib i c c.over [.master i a, .ret i c.api r]
  | masterOk (id : String) (r : AddVisitorResult) (g : Rng) (h1 : c.api = .get id) (h2 : c.pc = .awaitMaster) (hl : c.live = true) :
      Local lib i c
        { c with pc := .awaitCache (.cachePow { string := (PoWConfig.new r.difficultyFactor lib.salt g).string,
                                                difficultyFactor := r.difficultyFactor, duration := r.duration, key := id })
                          (.storePow (PoWConfig.new r.difficultyFactor lib.salt g)) }
        [.master i (.reply (.ok (some r)))]
  | retPow (r : CacheReply) (cfg : PoWConfig) (h2 : c.pc = .replied r (.storePow cfg)) (hl : c.live = true) :
      Local lib i c c.over [.ret i c.api (.get (.ok (some cfg)))]
  | notFound (work : Work) (ip : String) (h1 : c.api = .verify work ip) (h2 : c.pc = .replied (.config none) .retrieve)
      (hl : c.live = true) : Local lib i c c.over [.ret i c.api (.verify (.error .stringNotFound))]
  | wrongKey (work : Work) (ip : String) (cfg : CachedPoWConfig) (h1 : c.api = .verify work ip)
      (h2 : c.pc = .replied (.config (some cfg)) .retrieve) (hk : work.key ≠ cfg.key) (hl : c.live = true) :
      Local lib i c c.over [.ret i c.api (.verify (.error .mCaptchaKeyValidationFail))]
  | stored (r : CacheReply) (t : String) (d : Nat) (h2 : c.pc = .replied r (.storeResult t d)) (hl : c.live = true) :
      Local lib i c c.over [.ret i c.api (.verify (.ok (t, d)))]
  | checked (b : Bool) (h2 : c.pc = .replied (.verdict b) .check) (hl : c.live = true) :
      Local lib i c c.over [.ret i c.api (.validate (.ok b))]
  | accepted (cfg : CachedPoWConfig) (h2 : c.pc = .answered cfg .accepted) (hl : c.live = true) :
      Local lib i c { c with pc := .polling cfg } []
  | refused (cfg : CachedPoWConfig) (h2 : c.pc = .answered cfg .refused) (hl : c.live = true) :
      Local lib i c c.over [.ret i c.api (.verify (.error .queueFull))]
  | lost (cfg : CachedPoWConfig) (h2 : c.pc = .answered cfg .lost) (hl : c.live = true) :
      Local lib i c c.over [.ret i c.api (.verify (.error .recvError))]
  | pollNone (cfg : CachedPoWConfig) (job : QueuedWork) (ch : VerdictChannel) (h2 : c.pc = .polling cfg) (hj : c.job = some (job, ch))
      (hr : ch.poll.reading = .none) (hl : c.live = true) : Local lib i c { c with job := some (job, ch.poll) } []
  | pollBad (cfg : CachedPoWConfig) (job : QueuedWork) (ch : VerdictChannel) (h2 : c.pc = .polling cfg) (hj : c.job = some (job, ch))
      (hr : ch.poll.reading = .disconnected ∨ ch.poll.reading = .verdict false) (hl : c.live = true) :
      Local lib i c { c with job := some (job, ch.poll) }.over [.ret i c.api (.verify (.error .insuffiencientDifficulty))]
  | pollGood (cfg : CachedPoWConfig) (job : QueuedWork) (ch : VerdictChannel) (g : Rng) (h2 : c.pc = .polling cfg)
      (hj : c.job = some (job, ch)) (hr : ch.poll.reading = .verdict true) (hl : c.live = true) :
      Local lib i c { c with job := some (job, ch.poll),
                             pc := .awaitCache (.cacheResult (CacheResult.ofConfig cfg g))
                                     (.storeResult (CacheResult.ofConfig cfg g).token cfg.difficultyFactor) } []
  | gone (m : CacheMsg) (k : Stage) (r : Ret) (h2 : c.pc = .awaitCache m k) (hl : c.live = true)
      (hr : r = match c.api with
        | .get _ => .get (.error .mailboxError)
        | .verify _ _ => .verify (.error .mailboxError)
        | .validate _ => .validate (.error .mailboxError)) :
      Local lib i c c.over [.ret i c.api r]
  | work (job : QueuedWork) (ch : VerdictChannel) (hj : c.job = some (job, ch)) (hf : ch.pc ≠ .finished) :
      Local lib i c { c with job := some (job, (ch.workerStep job).getD ch) } []
  | cancel (hl : c.live = true) (hd : c.pc ≠ .done) : Local lib i c { c.dropRx with live := false } [.cancelled i]

/-- What one step can do. -/
inductive Move (lib : PowLib) (p : Profile) (s : Sys) : Sys → List SEvent → Prop
  | idle : Move lib p s s []
  | local (i : Nat) (c c' : Call) (ev : List SEvent) (hc : s.calls[i]? = some c) (m : Local lib i c c' ev) :
      Move lib p s (s.setCall i c') ev
  | start (a : Api) (hq : s.queue.closed = false) :
      Move lib p s { s with calls := s.calls ++ [Call.start a] } [.call s.calls.length a]
  | cache (i : Nat) (c : Call) (m : CacheMsg) (k : Stage) (hc : s.calls[i]? = some c) (h2 : c.pc = .awaitCache m k) :
      Move lib p s (({ s with cache := (s.cache.handle m).1 } : Sys).setCall i { c with pc := .replied (s.cache.handle m).2 k })
        [.cache (some (i, c.api)) m (s.cache.handle m).2]
  | submit (i : Nat) (c : Call) (work : Work) (ip : String) (cfg : CachedPoWConfig) (hc : s.calls[i]? = some c)
      (h1 : c.api = .verify work ip) (h2 : c.pc = .replied (.config (some cfg)) .retrieve) (hk : work.key = cfg.key)
      (hl : c.live = true) (hq : s.queue.listening = true) (hcl : s.queue.status ≠ .aborted) :
      Move lib p s (({ s with queue := (qStep p s.queue (.submit ip i)).1 } : Sys).setCall i
          { c with pc := .awaitAdd cfg,
                   job := some ({ pow := lib, work := work.toProof, string := work.string, difficultyFactor := cfg.difficultyFactor },
                                VerdictChannel.new) })
        ((qStep p s.queue (.submit ip i)).2.map .queue)
  | panic (i : Nat) (c : Call) (cfg : CachedPoWConfig) (work : Work) (ip : String) (hc : s.calls[i]? = some c)
      (h1 : c.api = .verify work ip) (h2 : c.pc = .replied (.config (some cfg)) .retrieve) (hl : c.live = true)
      (hq : s.queue.listening = false) (hcl : s.queue.status ≠ .aborted) :
      Move lib p s (s.setCall i c.over) [.panicked i]
  | queue (qs : QStep) (h : s.mayStep qs = true) :
      Move lib p s { s with queue := (qStep p s.queue qs).1,
                            calls := s.calls.mapIdx (Call.settle (qStep p s.queue qs).1 (qStep p s.queue qs).2) }
        ((qStep p s.queue qs).2.map .queue)
  | shutdown (h : ∀ c ∈ s.calls, c.live = true → c.pc = .done) :
      Move lib p s { s with queue := (qStep p s.queue .close).1,
                            calls := s.calls.mapIdx (Call.settle (qStep p s.queue .close).1 (qStep p s.queue .close).2) }
        ((qStep p s.queue .close).2.map .queue)
  | expire (k : Nat) :
      Move lib p s { s with cache := (cacheStep s.cache (.fire k)).1 }
        ((cacheStep s.cache (.fire k)).2.map fun (m, r) => .cache none m r)
  | tick (d : Nat) : Move lib p s { s with cache := (cacheStep s.cache (.tick d)).1 } []

theorem onResume_move (lib : PowLib) (p : Profile) (s : Sys) (i : Nat) (c : Call) (hc : s.calls[i]? = some c) (hl : c.live = true)
    (hcl : s.queue.status ≠ .aborted) :
    Move lib p s (s.onResume lib p i c).1 (s.onResume lib p i c).2 := by
  unfold Sys.onResume
  split
  · rename_i h1; exact .local i c _ _ hc (.retPow _ _ h1 hl)
  · rename_i r work ip h1 h2
    cases r with
    | none => exact .local i c _ _ hc (.notFound _ _ h2 h1 hl)
    | some cfg =>
      unfold Sys.onRetrieved
      simp only
      split
      · rename_i hk; exact .local i c _ _ hc (.wrongKey _ _ _ h2 h1 hk hl)
      · rename_i hk
        split
        · rename_i hq; exact .submit i c work ip cfg hc h2 h1 (by simpa using hk) hl hq hcl
        · rename_i hq; exact .panic i c cfg work ip hc h2 h1 hl (by simpa using hq) hcl
  · rename_i h1; exact .local i c _ _ hc (.stored _ _ _ h1 hl)
  · rename_i h1; exact .local i c _ _ hc (.checked _ h1 hl)
  · rename_i h1; exact .local i c _ _ hc (.accepted _ h1 hl)
  · rename_i h1; exact .local i c _ _ hc (.refused _ h1 hl)
  · rename_i h1; exact .local i c _ _ hc (.lost _ h1 hl)
  · exact .idle

theorem onPoll_move (lib : PowLib) (p : Profile) (s : Sys) (i : Nat) (c : Call) (g : Rng) (hc : s.calls[i]? = some c)
    (hl : c.live = true) : Move lib p s (s.onPoll i c g).1 (s.onPoll i c g).2 := by
  unfold Sys.onPoll
  split
  · rename_i cfg job ch h1 h2
    simp only
    split
    · rename_i hr; exact .local i c _ _ hc (.pollNone _ _ _ h1 h2 hr hl)
    · rename_i hr; exact .local i c _ _ hc (.pollBad _ _ _ h1 h2 (.inl hr) hl)
    · rename_i hr; exact .local i c _ _ hc (.pollBad _ _ _ h1 h2 (.inr hr) hl)
    · rename_i hr; exact .local i c _ _ hc (.pollGood _ _ _ g h1 h2 hr hl)
  · exact .idle

theorem sysStep_move (lib : PowLib) (p : Profile) (s : Sys) (st : SStep) : Move lib p s (sysStep lib p s st).1 (sysStep lib p s st).2 := by
  unfold sysStep
  split
  · exact .idle
  rename_i hcl
  cases st with
  | call a =>
    simp only
    split
    · exact .idle
    · rename_i h; exact .start a (by simpa using h)
  | master i a g =>
    simp only
    split
    · rename_i c hc
      split
      · rename_i id h1 h2 h3
        unfold Sys.onMaster
        split
        · exact .local i c _ _ hc (.masterErr _ _ _ h1 h2 h3 (.inl ⟨rfl, rfl⟩))
        · exact .local i c _ _ hc (.masterErr _ _ _ h1 h2 h3 (.inr (.inl ⟨rfl, rfl⟩)))
        · exact .local i c _ _ hc (.masterOk _ _ g h1 h2 h3)
        · rename_i r hr
          cases r with
          | error e => exact .local i c _ _ hc (.masterErr _ _ _ h1 h2 h3 (.inr (.inr (.inl ⟨e, rfl, rfl⟩))))
          | ok o =>
            cases o with
            | none => exact .local i c _ _ hc (.masterErr _ _ _ h1 h2 h3 (.inr (.inr (.inr ⟨rfl, rfl⟩))))
            | some x => exact absurd rfl (hr x)
      · exact .idle
    · exact .idle
  | cache i =>
    simp only
    split
    · rename_i c hc
      split
      · rename_i m k h2; exact .cache i c m k hc h2
      · exact .idle
    · exact .idle
  | cacheGone i =>
    simp only
    split
    · rename_i c hc
      split
      · rename_i hl
        unfold Sys.onCacheGone
        split
        · rename_i h1 h2; exact .local i c _ _ hc (.gone _ _ _ h1 hl (by rw [h2]))
        · rename_i h1 h2; exact .local i c _ _ hc (.gone _ _ _ h1 hl (by rw [h2]))
        · rename_i h1 h2; exact .local i c _ _ hc (.gone _ _ _ h1 hl (by rw [h2]))
        · exact .idle
      · exact .idle
    · exact .idle
  | resume i =>
    simp only
    split
    · rename_i c hc
      split
      · rename_i hl; exact onResume_move lib p s i c hc hl hcl
      · exact .idle
    · exact .idle
  | poll i g =>
    simp only
    split
    · rename_i c hc
      split
      · rename_i hl; exact onPoll_move lib p s i c g hc hl
      · exact .idle
    · exact .idle
  | queue qs =>
    simp only
    split
    · rename_i h; exact .queue qs h
    · exact .idle
  | work w =>
    simp only [Sys.onWork]
    split
    · split
      · rename_i c hc
        split
        · rename_i job ch hj
          split
          · exact .idle
          · rename_i hf; exact .local _ c _ _ hc (.work job ch hj hf)
        · exact .idle
      · exact .idle
    · exact .idle
  | fire k => exact .expire k
  | tick d => exact .tick d
  | cancel i =>
    simp only
    split
    · rename_i c hc
      split
      · rename_i h; exact .local i c _ _ hc (.cancel h.1 h.2)
      · exact .idle
    · exact .idle
  | shutdown =>
    simp only
    split
    · rename_i h
      refine .shutdown ?_
      intro c hc hl
      have := List.all_eq_true.1 h c hc
      simpa [hl] using this
    · exact .idle

end MCap
