import Verif.Spec.OpenSystem
import Verif.Proofs.SystemAbort
import Verif.Proofs.RedisActors

/-!
# Runs with any cache

A step of the open system is a step of Model/System after its cache has been replaced by one that gives the answer in question, failures
of the cache being closed mailboxes. What the invariants of Model/System say without mentioning the cache therefore holds here.
-/

namespace MCap
open Spec

theorem openRun_append (lib : PowLib) (p : Profile) (s : Sys) (a b : List OStep) :
    openRun lib p s (a ++ b) = ((openRun lib p (openRun lib p s a).1 b).1, (openRun lib p s a).2 ++ (openRun lib p (openRun lib p s a).1 b).2) := by
  induction a generalizing s with
  | nil => rfl
  | cons x r ih => simp only [List.cons_append, openRun, ih, List.append_assoc]

theorem openRun_inv {lib : PowLib} {p : Profile} {P : Sys → List OEvent → Prop}
    (hs : ∀ s log x, P s log → P (openStep lib p s x).1 (log ++ (openStep lib p s x).2)) (steps : List OStep) (s : Sys)
    (log : List OEvent) (h : P s log) : P (openRun lib p s steps).1 (log ++ (openRun lib p s steps).2) := by
  induction steps generalizing s log with
  | nil => simpa [openRun] using h
  | cons x r ih =>
    have := ih _ _ (hs s log x h)
    rwa [List.append_assoc] at this

theorem apiPart_append (a b : List OEvent) : apiPart (a ++ b) = apiPart a ++ apiPart b := by simp [apiPart]

theorem apiPart_map (ev : List SEvent) : apiPart (ev.map .api) = ev := by
  induction ev with
  | nil => rfl
  | cons e r ih => simpa [apiPart] using ih

theorem mem_apiPart {log : List OEvent} {e : SEvent} : e ∈ apiPart log ↔ .api e ∈ log := by
  simp only [apiPart, List.mem_filterMap]
  constructor
  · rintro ⟨x, hx, he⟩
    cases x <;> simp at he
    subst he
    exact hx
  · intro h
    exact ⟨_, h, rfl⟩

/-! ### Some cache says it -/

theorem some_cache_says (m : CacheMsg) (r : CacheReply) (h : m.allows r = true) : ∃ w : CacheWorld, (w.handle m).2 = r := by
  cases m with
  | cachePow c => cases r <;> simp [CacheMsg.allows] at h; exact ⟨CacheWorld.init 0, rfl⟩
  | cacheResult c => cases r <;> simp [CacheMsg.allows] at h; exact ⟨CacheWorld.init 0, rfl⟩
  | deletePow => cases r <;> simp [CacheMsg.allows] at h
  | deleteResult => cases r <;> simp [CacheMsg.allows] at h
  | retrivePow v =>
    cases r with
    | config o =>
      cases o with
      | none => exact ⟨CacheWorld.init 0, rfl⟩
      | some cfg =>
        refine ⟨((CacheWorld.init 0).handle (.cachePow { string := v.token, difficultyFactor := cfg.difficultyFactor, duration := cfg.duration, key := cfg.key })).1, ?_⟩
        simp [CacheWorld.handle, CacheWorld.init, HashCache.savePowConfig, HashCache.retrivePowConfig, HashCache.removePowConfig, AMap.get_insert_self]
    | done => simp [CacheMsg.allows] at h
    | verdict => simp [CacheMsg.allows] at h
  | verify v =>
    cases r with
    | verdict b =>
      cases b with
      | false => exact ⟨CacheWorld.init 0, rfl⟩
      | true =>
        refine ⟨((CacheWorld.init 0).handle (.cacheResult { token := v.token, key := v.key, duration := 0 })).1, ?_⟩
        simp [CacheWorld.handle, CacheWorld.init, HashCache.saveCaptchaResult, HashCache.verifyCaptchaResult, HashCache.removeCacheResult, AMap.get_insert_self]
    | done => simp [CacheMsg.allows] at h
    | config => simp [CacheMsg.allows] at h

/-! ### Who says that a mailbox is closed -/

theorem not_closed {ev e1 e2 : List SEvent} {i : Nat} {a : Api} {P : Prop} (he : ev = e1 ++ .ret i a (a.fails .mailboxError) :: e2)
    (h : ∀ i a, .ret i a (a.fails .mailboxError) ∉ ev) : P := by
  exfalso
  exact h i a (by rw [he]; simp)

theorem returns_not_closed (s : Sys) (i : Nat) (c : Call) (r : Ret) (h : ∀ a : Api, r ≠ a.fails .mailboxError) (j : Nat) (a : Api) :
    .ret j a (a.fails .mailboxError) ∉ (s.returns i c r).2 := by
  intro hm
  simp only [Sys.returns, List.mem_singleton, SEvent.ret.injEq] at hm
  exact h a hm.2.2.symm

theorem noCache_closed (lib : PowLib) (p : Profile) (s : Sys) (st : SStep) (h : st.noCache = true) (e1 e2 : List SEvent) (i : Nat) (a : Api)
    (he : (sysStep lib p s st).2 = e1 ++ .ret i a (a.fails .mailboxError) :: e2) :
    ∃ id, a = .get id ∧ .master i .mailboxError ∈ e1 := by
  have hq : ∀ (l : List QEvent) (i : Nat) (a : Api), .ret i a (a.fails .mailboxError) ∉ l.map SEvent.queue := by
    intro l i a hm
    simp at hm
  unfold sysStep at he
  split at he
  · simp at he
  · split at he
    · split at he
      · simp at he
      · exact not_closed he (by simp)
    · split at he
      · split at he
        · rename_i j an g _ c _ _ _ _ id hid _ _
          cases an with
          | mailboxError =>
            simp only [Sys.onMaster, Sys.returns] at he
            rcases e1 with _ | ⟨x, _ | ⟨y, e1⟩⟩ <;> simp at he
            obtain ⟨rfl, ⟨rfl, rfl, -⟩, -⟩ := he
            exact ⟨id, hid, by simp⟩
          | recvError =>
            refine not_closed he ?_
            intro j b hm
            simp only [Sys.onMaster, Sys.returns] at hm
            cases b <;> simp [Api.fails] at hm
          | reply r =>
            refine not_closed he ?_
            intro j b hm
            cases r with
            | error e => simp only [Sys.onMaster, Sys.returns] at hm; cases b <;> simp [Api.fails] at hm
            | ok o => cases o <;> simp only [Sys.onMaster, Sys.returns] at hm <;> cases b <;> simp [Api.fails] at hm
        · simp at he
      · simp at he
    · cases h
    · cases h
    · split at he
      · split at he
        · refine not_closed he ?_
          unfold Sys.onResume
          split
          · exact returns_not_closed _ _ _ _ (by intro a; cases a <;> simp [Api.fails])
          · unfold Sys.onRetrieved
            split
            · exact returns_not_closed _ _ _ _ (by intro a; cases a <;> simp [Api.fails])
            · split
              · exact returns_not_closed _ _ _ _ (by intro a; cases a <;> simp [Api.fails])
              · simp only
                split
                · exact hq _
                · simp
          · exact returns_not_closed _ _ _ _ (by intro a; cases a <;> simp [Api.fails])
          · exact returns_not_closed _ _ _ _ (by intro a; cases a <;> simp [Api.fails])
          · simp
          · exact returns_not_closed _ _ _ _ (by intro a; cases a <;> simp [Api.fails])
          · exact returns_not_closed _ _ _ _ (by intro a; cases a <;> simp [Api.fails])
          · simp
        · simp at he
      · simp at he
    · split at he
      · split at he
        · refine not_closed he ?_
          unfold Sys.onPoll
          split
          · simp only
            split
            · simp
            · exact returns_not_closed _ _ _ _ (by intro a; cases a <;> simp [Api.fails])
            · exact returns_not_closed _ _ _ _ (by intro a; cases a <;> simp [Api.fails])
            · simp
          · simp
        · simp at he
      · simp at he
    · split at he
      · exact not_closed he (hq _)
      · simp at he
    · simp at he
    · cases h
    · cases h
    · split at he
      · split at he
        · exact not_closed he (by simp)
        · simp at he
      · simp at he
    · split at he
      · exact not_closed he (hq _)
      · simp at he

/-! ### Steps of the open system are steps of a system with some cache -/

/-- How the events of the open system correspond to those of a system with some cache. -/
def Masks (s : Sys) (ev : List OEvent) (mev : List SEvent) : Prop :=
  (ev = mev.map .api ∧ ∀ e1 i (a : Api) e2, mev = e1 ++ .ret i a (a.fails .mailboxError) :: e2 → ∃ id, a = .get id ∧ .master i .mailboxError ∈ e1) ∨
  ∃ i c m k e, s.calls[i]? = some c ∧ c.pc = .awaitCache m k ∧
    ev = [.failed i m e, .api (.ret i c.api (c.api.fails e))] ∧ mev = [.ret i c.api (c.api.fails .mailboxError)]

theorem open_sim (lib : PowLib) (p : Profile) (s : Sys) (x : OStep) :
    ∃ w st, (openStep lib p s x).1.queue = (sysStep lib p { s with cache := w } st).1.queue ∧
      (openStep lib p s x).1.calls = (sysStep lib p { s with cache := w } st).1.calls ∧
      Masks s (openStep lib p s x).2 (sysStep lib p { s with cache := w } st).2 := by
  have hidle : ∃ w st, s.queue = (sysStep lib p { s with cache := w } st).1.queue ∧
      s.calls = (sysStep lib p { s with cache := w } st).1.calls ∧ Masks s [] (sysStep lib p { s with cache := w } st).2 := by
    refine ⟨s.cache, .tick 0, ?_⟩
    unfold sysStep
    split <;> exact ⟨rfl, rfl, .inl ⟨rfl, by simp⟩⟩
  cases x with
  | sys st =>
    simp only [openStep]
    split
    · rename_i hn
      exact ⟨s.cache, st, rfl, rfl, .inl ⟨rfl, fun e1 i a e2 he => noCache_closed lib p s st hn e1 e2 i a he⟩⟩
    · exact hidle
  | cache i a =>
    simp only [openStep]
    split
    · exact hidle
    rename_i hab
    split
    · rename_i c hc
      split
      · rename_i m k hpc hl
        cases a with
        | ok r =>
          simp only [Sys.onCacheAnswer]
          split
          · rename_i hal
            obtain ⟨w, hw⟩ := some_cache_says m r hal
            refine ⟨w, .cache i, ?_⟩
            simp only [sysStep, hab, if_false, hc, hpc, Sys.setCall, hw]
            refine ⟨trivial, trivial, .inl ⟨rfl, ?_⟩⟩
            intro e1 j b e2 he
            exact not_closed he (by simp)
          · exact hidle
        | error e =>
          refine ⟨s.cache, .cacheGone i, ?_⟩
          simp only [Sys.onCacheAnswer, sysStep, hab, if_false, hc, hl, if_true, Sys.onCacheGone, hpc]
          have hx : ∀ r : Ret, r = c.api.fails .mailboxError → (s.queue = (s.returns i c r).1.queue ∧ (s.setCall i c.over).calls = (s.returns i c r).1.calls ∧
              Masks s [.failed i m e, .api (.ret i c.api (c.api.fails e))] (s.returns i c r).2) := by
            rintro r rfl
            exact ⟨rfl, rfl, .inr ⟨i, c, m, k, e, hc, hpc, rfl, rfl⟩⟩
          split <;> rename_i h1 h2
          · exact hx _ (by rw [h2]; rfl)
          · exact hx _ (by rw [h2]; rfl)
          · exact hx _ (by rw [h2]; rfl)
          · exfalso
            rename_i h3
            cases ha : c.api with
            | get id => exact h3 m k id rfl ha
            | verify w ip => exact h1 m k w ip rfl ha
            | validate msg => exact h2 m k msg rfl ha
      · exact hidle
    · exact hidle

/-! ### Invariants -/

/-- Why an event could happen after `pre`. -/
def OWhy (lib : PowLib) (pre : List SEvent) : SEvent → Prop
  | .cache (some (i, api)) m r => .call i api ∈ pre ∧ m.allows r = true ∧ ∃ k, Pending lib pre i api m k
  | .cache none _ _ => True
  | e => Why lib pre e

/-- What holds whatever the cache is. -/
structure OpenInv (lib : PowLib) (p : Profile) (n ql : Nat) (s : Sys) (log : List SEvent) : Prop where
  calls : ∀ (i : Nat) (c : Call), s.calls[i]? = some c → CallInv lib log i c
  ui : UInv lib s log
  ji : JInv lib s log
  gi : GInv s log
  ai : AInv s log
  ci : CInv s log
  queue : ∃ qs, qRun p (Queue.new n ql) qs = (s.queue, queueTrace log) ∧ ∀ w, .crash w ∈ qs → ∃ j, .crashedOn w j ∈ queueTrace log
  why : ∀ pre e post, log = pre ++ e :: post → OWhy lib pre e

theorem openInv_swap {lib : PowLib} {p : Profile} {n ql : Nat} {s t : Sys} {log : List SEvent} (h : OpenInv lib p n ql s log)
    (hq : t.queue = s.queue) (hc : t.calls = s.calls) : OpenInv lib p n ql t log := by
  obtain ⟨tc, tq, tl⟩ := t
  obtain ⟨sc, sq, sl⟩ := s
  simp only at hq hc
  subst hq hc
  exact ⟨h.calls, ⟨h.ui.calls, h.ui.fresh, h.ui.why⟩, ⟨h.ji.fin, h.ji.up, h.ji.jobs, h.ji.why⟩, ⟨h.gi.wait, h.gi.lost, h.gi.log⟩,
    ⟨h.ai.calls, h.ai.fresh⟩, ⟨h.ci.a, h.ci.b, h.ci.c⟩, h.queue, h.why⟩

theorem handle_allows {lib : PowLib} {log : List SEvent} {i : Nat} {api : Api} {m : CacheMsg} {k : Stage} (w : CacheWorld)
    (h : Pending lib log i api m k) : m.allows (w.handle m).2 = true := by
  cases k with
  | storePow cfg => obtain ⟨_, _, _, _, _, _, _, rfl⟩ := h; rfl
  | retrieve => obtain ⟨_, _, _, rfl⟩ := h; rfl
  | storeResult t d => obtain ⟨_, _, _, _, _, _, _, rfl, _⟩ := h; rfl
  | check => obtain ⟨_, _, rfl⟩ := h; rfl

theorem owhy_of_why {lib : PowLib} {pre : List SEvent} {e : SEvent} (hc : ∀ sender m r, e ≠ .cache sender m r) (h : Why lib pre e) :
    OWhy lib pre e := by
  cases e with
  | cache sender m r => exact absurd rfl (hc sender m r)
  | _ => exact h

/-- The calls and their explanations, whatever the cache. -/
theorem calls_move {lib : PowLib} {p : Profile} {s s' : Sys} {log ev : List SEvent}
    (h : ∀ (i : Nat) (c : Call), s.calls[i]? = some c → CallInv lib log i c) (m : Move lib p s s' ev) :
    (∀ (i : Nat) (c : Call), s'.calls[i]? = some c → CallInv lib (log ++ ev) i c) ∧
    ∀ ev1 e ev2, ev = ev1 ++ e :: ev2 → OWhy lib (log ++ ev1) e := by
  have hqueue : ∀ (l : List QEvent) ev1 e ev2, l.map SEvent.queue = ev1 ++ e :: ev2 → OWhy lib (log ++ ev1) e := by
    intro l ev1 e ev2 he
    have : e ∈ l.map SEvent.queue := by rw [he]; simp
    obtain ⟨x, -, rfl⟩ := List.mem_map.1 this
    trivial
  cases m with
  | idle => exact ⟨by simpa using h, by intro ev1 e ev2 he; simp at he⟩
  | «local» i c c' _ hc m =>
    obtain ⟨h1, h2⟩ := local_inv (h i c hc) m
    refine ⟨set_calls_inv h i c' (lt_of_some hc) h1, ?_⟩
    intro ev1 e ev2 he
    refine owhy_of_why ?_ (h2 ev1 e ev2 he)
    rintro sender m' r rfl
    have : (m', r) ∈ cacheTrace ev := mem_cacheTrace.2 ⟨sender, by rw [he]; simp⟩
    rw [(local_traces m).1] at this
    cases this
  | start a hq =>
    refine ⟨?_, one_all (P := OWhy lib) _ trivial⟩
    intro i c hc
    rw [List.getElem?_append] at hc
    split at hc
    · exact callInv_mono _ (h i c hc)
    · rename_i hi
      have : i = s.calls.length := by
        rcases Nat.lt_or_ge (i - s.calls.length) 1 with h' | h'
        · omega
        · rw [List.getElem?_eq_none (by simpa using h')] at hc; cases hc
      subst this
      simp at hc
      subst hc
      refine ⟨by simp [Call.start], ?_⟩
      cases a with
      | get id => exact ⟨id, rfl⟩
      | verify work ip => exact ⟨work, ip, rfl, rfl⟩
      | validate msg => exact ⟨msg, rfl, rfl⟩
  | cache i c m k hc h2 =>
    obtain ⟨h0, hp⟩ := h i c hc
    rw [h2] at hp
    refine ⟨?_, one_all (P := OWhy lib) _ ⟨h0, handle_allows _ hp, k, hp⟩⟩
    refine set_calls_inv h i _ (lt_of_some hc) ⟨List.mem_append_left _ h0, ?_⟩
    exact ⟨handle_fits lib log i c.api s.cache m k hp, m, pending_mono _ hp, by simp⟩
  | submit i c work ip cfg hc h1 h2 hk hl hq hcl =>
    obtain ⟨h0, hp⟩ := h i c hc
    rw [h2] at hp
    obtain ⟨-, m, ⟨work', ip', a1, rfl⟩, hm⟩ := hp
    rw [h1] at a1; cases a1
    rw [h1] at hm
    refine ⟨?_, hqueue _⟩
    refine set_calls_inv h i _ (lt_of_some hc) ⟨List.mem_append_left _ h0, ?_⟩
    exact ⟨work, ip, _, h1, List.mem_append_left _ hm, hk.symm, rfl, schan_new _⟩
  | panic i c cfg work ip hc h1 h2 hl hq hcl =>
    have hi := h i c hc
    refine ⟨set_calls_inv h i _ (lt_of_some hc) (callInv_over _ hi _ rfl rfl), one_all (P := OWhy lib) _ ?_⟩
    refine ⟨work, ip, ?_⟩
    rw [← h1]; exact hi.1
  | queue qs hm => exact ⟨mapIdx_calls_inv h _ _, hqueue _⟩
  | shutdown hs => exact ⟨mapIdx_calls_inv h _ _, hqueue _⟩
  | expire k =>
    refine ⟨fun i c hc => callInv_mono _ (h i c hc), ?_⟩
    intro ev1 e ev2 he
    have : e ∈ (cacheStep s.cache (.fire k)).2.map fun (m, r) => SEvent.cache none m r := by rw [he]; simp
    obtain ⟨x, -, rfl⟩ := List.mem_map.1 this
    trivial
  | tick d => exact ⟨by simpa using h, by intro ev1 e ev2 he; simp at he⟩

theorem openInv_step {lib : PowLib} {p : Profile} {n ql : Nat} {s : Sys} {log : List SEvent} (h : OpenInv lib p n ql s log) (st : SStep) :
    OpenInv lib p n ql (sysStep lib p s st).1 (log ++ (sysStep lib p s st).2) := by
  have hm := sysStep_move lib p s st
  obtain ⟨c1, c2⟩ := calls_move h.calls hm
  obtain ⟨qs, h1, h2⟩ := h.queue
  have a := qinv_new p n ql qs
  have b := linv_new p n ql qs
  have hut := untold_run p qs (qinv_init n ql) (fun _ => by simp [Queue.new])
  have hh : ¬ SomeCrash log → HInv s.queue := by
    intro hc
    have := hinv_new p n ql qs (by
      intro w hw
      obtain ⟨j, hj⟩ := h2 w hw
      exact hc ⟨w, j, mem_queueTrace.1 hj⟩)
    rwa [h1] at this
  rw [h1] at a b hut
  refine ⟨c1, uinv_move h.calls a h.ui hm, jinv_move h.calls a b hh h.ui h.ji hm, ginv_step a h.ji hut h.gi st, ainv_move h.calls h.ai hm,
    cinv_move h.calls h.ci hm, ?_, extend_all h.why _ c2⟩
  obtain ⟨qs', h3, h4⟩ := queue_move hm
  refine ⟨qs ++ qs', ?_, ?_⟩
  · rw [qRun_append, h1, queueTrace_append]
    simp only
    rw [h3]
  · intro w hw
    rw [queueTrace_append]
    rcases List.mem_append.1 hw with hw | hw
    · exact (h2 w hw).imp fun _ h => List.mem_append_left _ h
    · exact (h4 w hw).imp fun _ h => List.mem_append_right _ h

theorem openInv_new (lib : PowLib) (p : Profile) (n ql now : Nat) : OpenInv lib p n ql (Sys.new n ql now) [] := by
  refine ⟨?_, uinv_new lib p n ql now [], jinv_new lib p n ql now [], ginv_new lib p n ql now [], ainv_new lib p n ql now [], cinv_new lib p n ql now [], ⟨[], rfl, by simp⟩, by simp⟩
  intro i c hc
  simp [Sys.new] at hc

/-! ### The log and its masked version -/

/-- The log, and the same with failures of the cache seen as closed mailboxes. -/
inductive Masked (lib : PowLib) : List OEvent → List SEvent → Prop
  | nil : Masked lib [] []
  | api {log : List OEvent} {m : List SEvent} (e : SEvent) : Masked lib log m →
      (∀ i (a : Api), e = .ret i a (a.fails .mailboxError) → ∃ id, a = .get id ∧ .api (.master i .mailboxError) ∈ log) →
      Masked lib (log ++ [.api e]) (m ++ [e])
  | fail {log : List OEvent} {m : List SEvent} (i : Nat) (a : Api) (msg : CacheMsg) (k : Stage) (e : CaptchaError) : Masked lib log m →
      .call i a ∈ m → Pending lib m i a msg k →
      Masked lib (log ++ [.failed i msg e, .api (.ret i a (a.fails e))]) (m ++ [.ret i a (a.fails .mailboxError)])

theorem masked_extend {lib : PowLib} {s : Sys} {log : List OEvent} {m : List SEvent} (h : Masked lib log m)
    (hs : ∀ (i : Nat) (c : Call), s.calls[i]? = some c → CallInv lib m i c) {ev : List OEvent} {mev : List SEvent} (hm : Masks s ev mev) :
    Masked lib (log ++ ev) (m ++ mev) := by
  rcases hm with ⟨rfl, hr⟩ | ⟨i, c, msg, k, e, hc, hpc, rfl, rfl⟩
  · clear hs
    suffices hx : ∀ (a b : List SEvent), mev = a ++ b → Masked lib (log ++ a.map .api) (m ++ a) → Masked lib (log ++ mev.map .api) (m ++ mev) from
      hx [] mev rfl (by simpa using h)
    intro a b hab hma
    induction b generalizing a with
    | nil => simp only [List.append_nil] at hab; rw [hab]; exact hma
    | cons x r ih =>
      refine ih (a ++ [x]) (by rw [hab]; simp) ?_
      have := Masked.api x hma (by
        rintro i b rfl
        obtain ⟨id, h1, h2⟩ := hr a i b r hab
        exact ⟨id, h1, List.mem_append_right _ (List.mem_map_of_mem h2)⟩)
      simpa using this
  · have := hs i c hc
    exact .fail i c.api msg k e h this.1 (by have := this.2; rw [hpc] at this; exact this)

/-- What is seen at a place of the log: a failure just reported, or what the masked log has there. -/
theorem masked_split {lib : PowLib} {log : List OEvent} {m : List SEvent} (h : Masked lib log m) {pre post : List OEvent} {e : SEvent}
    (hl : log = pre ++ .api e :: post) :
    (∃ i a msg k err pre' m', e = .ret i a (a.fails err) ∧ pre = pre' ++ [.failed i msg err] ∧ Masked lib pre' m' ∧ .call i a ∈ m' ∧
      Pending lib m' i a msg k ∧ ∃ mpost, m = m' ++ .ret i a (a.fails .mailboxError) :: mpost) ∨
    ((∃ mpre mpost, m = mpre ++ e :: mpost ∧ Masked lib pre mpre) ∧
      ∀ i (a : Api), e = .ret i a (a.fails .mailboxError) → ∃ id, a = .get id ∧ .api (.master i .mailboxError) ∈ pre) := by
  induction h generalizing pre post with
  | nil => simp at hl
  | api e' h hr ih =>
    rcases snoc_split hl with ⟨rfl, rfl, he⟩ | ⟨q, rfl, hl'⟩
    · cases he
      exact .inr ⟨⟨_, [], rfl, h⟩, hr⟩
    · rcases ih hl' with ⟨i, a, msg, k, err, pre', m', h1, h2, h3, h4, h5, mpost, rfl⟩ | ⟨⟨mpre, mpost, rfl, h2⟩, h3⟩
      · exact .inl ⟨i, a, msg, k, err, pre', m', h1, h2, h3, h4, h5, mpost ++ [e'], by simp⟩
      · exact .inr ⟨⟨mpre, mpost ++ [e'], by simp, h2⟩, h3⟩
  | @fail log m i a msg k err h hcall hpend ih =>
    rw [show log ++ [OEvent.failed i msg err, .api (.ret i a (a.fails err))] = (log ++ [OEvent.failed i msg err]) ++ [.api (.ret i a (a.fails err))] by simp] at hl
    rcases snoc_split hl with ⟨rfl, rfl, he⟩ | ⟨q, rfl, hl'⟩
    · cases he
      exact .inl ⟨i, a, msg, k, err, log, m, rfl, rfl, h, hcall, hpend, [], rfl⟩
    · rcases snoc_split hl' with ⟨rfl, rfl, he⟩ | ⟨q', rfl, hl''⟩
      · cases he
      · rcases ih hl'' with ⟨i, a, msg, k, err, pre', m', h1, h2, h3, h4, h5, mpost, rfl⟩ | ⟨⟨mpre, mpost, rfl, h2⟩, h3⟩
        · exact .inl ⟨i, a, msg, k, err, pre', m', h1, h2, h3, h4, h5, mpost ++ [_], by simp; rfl⟩
        · exact .inr ⟨⟨mpre, mpost ++ [.ret i a (a.fails .mailboxError)], by simp, h2⟩, h3⟩

/-- Returns excepted, what the masked log has at a place is seen there. -/
theorem masked_split_rev {lib : PowLib} {log : List OEvent} {m : List SEvent} (h : Masked lib log m) {e : SEvent} (he : ∀ i a r, e ≠ .ret i a r)
    {mpre mpost : List SEvent} (hm : m = mpre ++ e :: mpost) : ∃ pre post, log = pre ++ .api e :: post ∧ Masked lib pre mpre := by
  induction h generalizing mpre mpost with
  | nil => simp at hm
  | api e' h hr ih =>
    rcases snoc_split hm with ⟨rfl, rfl, he'⟩ | ⟨q, rfl, hm'⟩
    · subst he'
      exact ⟨_, [], rfl, h⟩
    · obtain ⟨pre, post, h1, h2⟩ := ih hm'
      exact ⟨pre, post ++ [.api e'], by rw [h1]; simp, h2⟩
  | fail i a msg k err h _ _ ih =>
    rcases snoc_split hm with ⟨rfl, rfl, he'⟩ | ⟨q, rfl, hm'⟩
    · exact absurd he'.symm (he _ _ _)
    · obtain ⟨pre, post, h1, h2⟩ := ih hm'
      exact ⟨pre, post ++ [.failed i msg err, .api (.ret i a (a.fails err))], by rw [h1]; simp, h2⟩

/-- Returns excepted, both have the same events. -/
theorem masked_mem {lib : PowLib} {log : List OEvent} {m : List SEvent} (h : Masked lib log m) {e : SEvent} (he : ∀ i a r, e ≠ .ret i a r) :
    e ∈ m ↔ .api e ∈ log := by
  induction h with
  | nil => simp
  | api e' h _ ih => simp [ih]
  | fail i a msg k err h _ _ ih => simp [ih, he]

/-- Failures excepted, both have the same events equally often. -/
theorem masked_count {lib : PowLib} {log : List OEvent} {m : List SEvent} (h : Masked lib log m) (f : SEvent → Bool)
    (hf : ∀ i (a : Api) e, f (.ret i a (a.fails e)) = false) : m.countP f = (apiPart log).countP f := by
  induction h with
  | nil => rfl
  | api e' h _ ih => rw [apiPart_append, List.countP_append, List.countP_append, ih]; rfl
  | fail i a msg k err h _ _ ih =>
    rw [apiPart_append, List.countP_append, List.countP_append, ih]
    simp [apiPart, List.countP_cons, hf]

theorem masked_cache {lib : PowLib} {log : List OEvent} {m : List SEvent} (h : Masked lib log m) : cacheTrace m = cacheTrace (apiPart log) := by
  induction h with
  | nil => rfl
  | api e' h _ ih => rw [apiPart_append, cacheTrace_append, cacheTrace_append, ih]; rfl
  | fail i a msg k err h _ _ ih => rw [apiPart_append, cacheTrace_append, cacheTrace_append, ih]; rfl

theorem masked_queue {lib : PowLib} {log : List OEvent} {m : List SEvent} (h : Masked lib log m) : queueTrace m = queueTrace (apiPart log) := by
  induction h with
  | nil => rfl
  | api e' h _ ih => rw [apiPart_append, queueTrace_append, queueTrace_append, ih]; rfl
  | fail i a msg k err h _ _ ih => rw [apiPart_append, queueTrace_append, queueTrace_append, ih]; rfl

/-- Both have the same returns, by call. -/
theorem masked_ends {lib : PowLib} {log : List OEvent} {m : List SEvent} (h : Masked lib log m) (i : Nat) : log.countP (ends i) = retN i m := by
  induction h with
  | nil => rfl
  | api e' h _ ih =>
    rw [List.countP_append, ih, retN_append]
    cases e' <;> rfl
  | fail j a msg k err h _ _ ih =>
    rw [List.countP_append, ih, retN_append]
    simp [ends, retN, List.countP_cons]

/-- What holds in every state of an open system. -/
def OInv (lib : PowLib) (p : Profile) (n ql : Nat) (s : Sys) (log : List OEvent) : Prop := ∃ m, Masked lib log m ∧ OpenInv lib p n ql s m

theorem oinv_step {lib : PowLib} {p : Profile} {n ql : Nat} {s : Sys} {log : List OEvent} (h : OInv lib p n ql s log) (x : OStep) :
    OInv lib p n ql (openStep lib p s x).1 (log ++ (openStep lib p s x).2) := by
  obtain ⟨m, hm, hi⟩ := h
  obtain ⟨w, st, h1, h2, h3⟩ := open_sim lib p s x
  exact ⟨m ++ (sysStep lib p { s with cache := w } st).2, masked_extend hm hi.calls h3,
    openInv_swap (openInv_step (openInv_swap (t := { s with cache := w }) hi rfl rfl) st) h1 h2⟩

theorem oinv_run (lib : PowLib) (p : Profile) (n ql now : Nat) (steps : List OStep) :
    OInv lib p n ql (openRun lib p (Sys.new n ql now) steps).1 (openRun lib p (Sys.new n ql now) steps).2 := by
  have := openRun_inv (lib := lib) (p := p) (P := OInv lib p n ql) (fun s log x h => oinv_step h x) steps (Sys.new n ql now) []
    ⟨[], .nil, openInv_new lib p n ql now⟩
  simpa using this

end MCap
