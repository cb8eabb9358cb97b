import Verif.Proofs.Contract
import Verif.Props.OpenSystem
import Verif.Props.Payment

/-!
# C132: what a cache has to keep to
-/

namespace MCap
open Spec

theorem storesToken_once {lib : PowLib} {p : Profile} {n ql now : Nat} {steps : List OStep} {i : Nat} {c c' : CacheResult} {e e' : OEvent}
    {a b a' b' : List OEvent} (h : StoresToken i c e) (h' : StoresToken i c' e') (h1 : openLog lib p n ql now steps = a ++ e :: b)
    (h2 : openLog lib p n ql now steps = a' ++ e' :: b') : a = a' ∧ c = c' ∧ b = b' := by
  have hs : ∀ {c : CacheResult} {e : OEvent}, StoresToken i c e → storing i e = true := by
    rintro c e (⟨api, rfl⟩ | ⟨err, rfl⟩) <;> simp [storing, isStore]
  obtain ⟨q1, q2, q3⟩ := same_place (stores_once lib p n ql now steps i) h1 h2 (hs h) (hs h')
  refine ⟨q1, ?_, q3⟩
  subst q2
  rcases h with ⟨api, rfl⟩ | ⟨err, rfl⟩ <;> rcases h' with ⟨api', e⟩ | ⟨err', e⟩ <;> cases e <;> rfl

theorem storesPow_once {lib : PowLib} {p : Profile} {n ql now : Nat} {steps : List OStep} {i : Nat} {c c' : CachePoW} {e e' : OEvent}
    {a b a' b' : List OEvent} (h : StoresPow i c e) (h' : StoresPow i c' e') (h1 : openLog lib p n ql now steps = a ++ e :: b)
    (h2 : openLog lib p n ql now steps = a' ++ e' :: b') : a = a' ∧ c = c' ∧ b = b' := by
  have hs : ∀ {c : CachePoW} {e : OEvent}, StoresPow i c e → storing i e = true := by
    rintro c e (⟨api, rfl⟩ | ⟨err, rfl⟩) <;> simp [storing, isStore]
  obtain ⟨q1, q2, q3⟩ := same_place (stores_once lib p n ql now steps i) h1 h2 (hs h) (hs h')
  refine ⟨q1, ?_, q3⟩
  subst q2
  rcases h with ⟨api, rfl⟩ | ⟨err, rfl⟩ <;> rcases h' with ⟨api', e⟩ | ⟨err', e⟩ <;> cases e <;> rfl

/-- C132. With a cache that keeps to the contract, every accepted token was paid for. -/
theorem C132_paid (lib : PowLib) (p : Profile) (n ql now : Nat) (steps : List OStep) (hk : KeepsContract (openLog lib p n ql now steps))
    (v : Nat) (msg : VerifyCaptchaResult) (h : .api (.ret v (.validate msg) (.validate (.ok true))) ∈ openLog lib p n ql now steps) :
    ∃ pay, PaidWith lib (openLog lib p n ql now steps) v msg pay := by
  obtain ⟨pre, post, hlog⟩ := List.append_of_mem h
  have hv : .api (.cache (some (v, .validate msg)) (.verify msg) (.verdict true)) ∈ pre := C99_validate_outcome lib p n ql now steps v msg _ pre post hlog
  obtain ⟨x, c, hx⟩ := List.append_of_mem hv
  have hlog1 : openLog lib p n ql now steps = x ++ .api (.cache (some (v, .validate msg)) (.verify msg) (.verdict true)) ::
      (c ++ .api (.ret v (.validate msg) (.validate (.ok true))) :: post) := by rw [hlog, hx]; simp
  obtain ⟨a, e, b, i, duration, hx1, hst, hfree⟩ := hk.token _ _ _ _ hlog1
  have hlog2 : openLog lib p n ql now steps = a ++ e :: (b ++ .api (.cache (some (v, .validate msg)) (.verify msg) (.verdict true)) ::
      (c ++ .api (.ret v (.validate msg) (.validate (.ok true))) :: post)) := by rw [hlog1, hx1]; simp
  obtain ⟨m', api, k, hm', hcall, hp⟩ := store_reason (msg := .cacheResult { token := msg.token, key := msg.key, duration := duration }) (i := i) hlog2 (by
    rcases hst with ⟨api, rfl⟩ | ⟨err, rfl⟩
    · exact .inl ⟨_, _, rfl⟩
    · exact .inr ⟨_, rfl⟩)
  cases k with
  | storePow cfg => obtain ⟨_, _, -, -, -, -, -, e⟩ := hp; cases e
  | check => obtain ⟨_, -, e⟩ := hp; cases e
  | retrieve => obtain ⟨_, _, -, e⟩ := hp; cases e
  | storeResult tk d =>
    obtain ⟨work, ip, cfg, rfl, hf, hkk, hd, e, hsol, -⟩ := hp
    injection e with e
    injection e with e1 e2 e3
    have hfa : .api (.cache (some (i, .verify work ip)) (.retrivePow { token := work.string, key := work.key }) (.config (some cfg))) ∈ a :=
      (masked_mem hm' (by simp)).1 hf
    obtain ⟨y, z, hy⟩ := List.append_of_mem hfa
    obtain ⟨a2, e', b2, g, hy1, hst2, hfree2⟩ := hk.challenge y (z ++ e :: (b ++ .api (.cache (some (v, .validate msg)) (.verify msg) (.verdict true)) ::
      (c ++ .api (.ret v (.validate msg) (.validate (.ok true))) :: post)))
      (some (i, .verify work ip)) { token := work.string, key := work.key } cfg (by rw [hlog2, hy]; simp)
    obtain ⟨m2, api2, k2, hm2, hcall2, hp2⟩ := store_reason (lib := lib) (p := p) (n := n) (ql := ql) (now := now) (steps := steps) (i := g)
      (msg := .cachePow { string := work.string, difficultyFactor := cfg.difficultyFactor, duration := cfg.duration, key := cfg.key }) (pre := a2) (e := e')
      (post := b2 ++ .api (.cache (some (i, .verify work ip)) (.retrivePow { token := work.string, key := work.key }) (.config (some cfg))) :: (z ++ e ::
        (b ++ .api (.cache (some (v, .validate msg)) (.verify msg) (.verdict true)) :: (c ++ .api (.ret v (.validate msg) (.validate (.ok true))) :: post))))
      (by rw [show (openRun lib p (Sys.new n ql now) steps).2 = _ from hlog2, hy, hy1]; simp) (by
        rcases hst2 with ⟨api, rfl⟩ | ⟨err, rfl⟩
        · exact .inl ⟨_, _, rfl⟩
        · exact .inr ⟨_, rfl⟩)
    cases k2 with
    | check => obtain ⟨_, -, e⟩ := hp2; cases e
    | retrieve => obtain ⟨_, _, -, e⟩ := hp2; cases e
    | storeResult tk' d' => obtain ⟨_, _, _, -, -, -, -, e, -⟩ := hp2; cases e
    | storePow pc =>
      obtain ⟨id, r, rfl, -, hdr, -, hmaster, e4⟩ := hp2
      injection e4 with e4
      injection e4 with f1 f2 f3 f4
      obtain ⟨ck, cd, cdur⟩ := cfg
      simp only at hkk hd e2 e3 f1 f2 f3 f4 hst2 hfree2
      subst hkk hd e3
      refine ⟨⟨g, i, work, cd, duration⟩, ip, a, e, b, _, hlog2, ?_, hfree, e2.symm, (masked_mem hm' (by simp)).1 hcall, ?_, hsol⟩
      · exact hst
      · refine ⟨a2, e', b2, z, by rw [hy, hy1]; simp, hst2, hfree2, ?_, ?_⟩
        · rw [f4]; exact (masked_mem hm2 (by simp)).1 hcall2
        · have : r = ⟨duration, cd⟩ := by
            obtain ⟨rd, rf⟩ := r
            simp only at f3 f2 hdr
            rw [f3, f2, hdr]
          rw [← this]
          exact (masked_mem hm2 (by simp)).1 hmaster

/-- C132. No two validations were paid for by the same `verify_pow` call or the same `get_pow` call. -/
theorem C132_separately (lib : PowLib) (p : Profile) (n ql now : Nat) (steps : List OStep) (v v' : Nat) (msg msg' : VerifyCaptchaResult) (x y : Payment)
    (h : PaidWith lib (openLog lib p n ql now steps) v msg x) (h' : PaidWith lib (openLog lib p n ql now steps) v' msg' y)
    (he : x.verify = y.verify ∨ x.get = y.get) : v = v' ∧ msg = msg' := by
  have hver : ∀ {v v' : Nat} {msg msg' : VerifyCaptchaResult} {x y : Payment}, PaidWith lib (openLog lib p n ql now steps) v msg x →
      PaidWith lib (openLog lib p n ql now steps) v' msg' y → x.verify = y.verify → v = v' ∧ msg = msg' := by
    intro v v' msg msg' x y h h' he
    obtain ⟨ip, a, e, b, c, h1, h2, h3, -⟩ := h
    obtain ⟨ip', a', e', b', c', h1', h2', h3', -⟩ := h'
    rw [← he] at h2'
    obtain ⟨-, e1, e2⟩ := storesToken_once h2 h2' h1 h1'
    injection e1 with e1 _ _
    have := first_after e2 (fun hm => h3' _ hm ⟨_, _, e1, rfl⟩) (fun hm => h3 _ hm ⟨_, _, e1.symm, rfl⟩)
    injection this with this
    injection this with this e3
    injection e3 with e3
    injection this with this
    exact ⟨(Prod.mk.inj this).1, e3⟩
  rcases he with he | he
  · exact hver h h' he
  · refine hver h h' ?_
    obtain ⟨ip, a, e, b, c, h1, -, -, -, -, ⟨a1, e1, a2, a3, k1, k2, k3, -⟩, -⟩ := h
    obtain ⟨ip', a', e', b', c', h1', -, -, -, -, ⟨a1', e1', a2', a3', k1', k2', k3', -⟩, -⟩ := h'
    rw [k1] at h1
    rw [k1'] at h1'
    simp only [List.append_assoc, List.cons_append] at h1 h1'
    rw [← he] at k2'
    obtain ⟨-, q1, q2⟩ := storesPow_once k2 k2' h1 h1'
    injection q1 with q1 _ _ _
    have := first_after q2 (fun hm => k3' _ hm ⟨_, _, _, q1, rfl⟩) (fun hm => k3 _ hm ⟨_, _, _, q1.symm, rfl⟩)
    injection this with this
    injection this with this
    injection this with this
    exact (Prod.mk.inj this).1

/-- C132. The embedded cache keeps to the contract, whatever its clients, timers and callers who give up do. -/
theorem C132_embedded_keeps (lib : PowLib) (p : Profile) (n ql now : Nat) (steps : List SStep) :
    KeepsContract ((logOf lib p n ql now steps).map .api) := by
  have hs := (facts lib p n ql now steps).si
  have hsplit : ∀ {pre post : List OEvent} {e : SEvent}, (logOf lib p n ql now steps).map .api = pre ++ .api e :: post →
      ∃ a b, logOf lib p n ql now steps = a ++ e :: b ∧ pre = a.map .api := by
    intro pre post e h
    obtain ⟨a, b, h1, rfl, h2⟩ := List.map_eq_append_iff.1 h
    obtain ⟨x, l, rfl, hx, -⟩ := List.map_eq_cons_iff.1 h2
    cases hx
    exact ⟨a, l, h1, rfl⟩
  constructor
  · intro pre post o msg h
    obtain ⟨a, b, hl, rfl⟩ := hsplit h
    have hw := hs.why a _ b hl
    have hst : storedToken (msgs (cacheTrace a)) msg.token = some msg.key := by
      cases o with
      | none => obtain ⟨e, -⟩ := hw; cases e
      | some q =>
        obtain ⟨j, api⟩ := q
        cases api with
        | get id => obtain ⟨-, e, -⟩ := hw; cases e
        | verify work ip => obtain ⟨-, ⟨e, -⟩ | ⟨e, -⟩⟩ := hw <;> cases e
        | validate msg' =>
          obtain ⟨-, e, e2⟩ := hw
          cases e
          simpa using e2
    obtain ⟨a1, sender, r, b1, duration, h1, h2⟩ := storedToken_split hst
    have hw2 := hs.why a1 _ (b1 ++ .cache o (.verify msg) (.verdict true) :: b) (by rw [show (sysRun lib p (Sys.new n ql now) steps).2 = _ from hl, h1]; simp; rfl)
    cases sender with
    | none => obtain ⟨-, ⟨s, e⟩ | ⟨t, e⟩⟩ := hw2 <;> cases e
    | some q =>
      obtain ⟨i, api⟩ := q
      have hr : r = .done := by
        cases api with
        | get id => exact hw2.2.1
        | validate msg' => obtain ⟨-, e, -⟩ := hw2; cases e
        | verify work ip =>
          obtain ⟨-, ⟨e, -⟩ | ⟨hr, -⟩⟩ := hw2
          · cases e
          · exact hr
      subst hr
      refine ⟨a1.map .api, _, b1.map .api, i, duration, by rw [h1]; simp, .inl ⟨api, rfl⟩, ?_⟩
      rintro x hx ⟨o', msg', ht, rfl⟩
      obtain ⟨y, hy, e⟩ := List.mem_map.1 hx
      cases e
      exact h2 _ _ _ hy (by rw [← ht]; rfl)
  · intro pre post o msg cfg h
    obtain ⟨a, b, hl, rfl⟩ := hsplit h
    have hw := hs.why a _ b hl
    have hst : storedChallenge (msgs (cacheTrace a)) msg.token = some cfg := by
      cases o with
      | none => obtain ⟨e, -⟩ := hw; cases e
      | some q =>
        obtain ⟨j, api⟩ := q
        cases api with
        | get id => obtain ⟨-, e, -⟩ := hw; cases e
        | validate msg' => obtain ⟨-, e, -⟩ := hw; cases e
        | verify work ip =>
          obtain ⟨-, ⟨e, e2⟩ | ⟨e, -⟩⟩ := hw
          · cases e
            injection e2 with e2
            exact e2.symm
          · cases e
    obtain ⟨a1, sender, r, b1, h1, h2⟩ := stored_split hst
    have hw2 := hs.why a1 _ (b1 ++ .cache o (.retrivePow msg) (.config (some cfg)) :: b) (by rw [show (sysRun lib p (Sys.new n ql now) steps).2 = _ from hl, h1]; simp; rfl)
    cases sender with
    | none => obtain ⟨-, ⟨s, e⟩ | ⟨t, e⟩⟩ := hw2 <;> cases e
    | some q =>
      obtain ⟨i, api⟩ := q
      have hr : r = .done := by
        cases api with
        | get id => exact hw2.2.1
        | validate msg' => obtain ⟨-, e, -⟩ := hw2; cases e
        | verify work ip =>
          obtain ⟨-, ⟨e, -⟩ | ⟨hr, -⟩⟩ := hw2
          · cases e
          · exact hr
      subst hr
      refine ⟨a1.map .api, _, b1.map .api, i, by rw [h1]; simp, .inl ⟨api, rfl⟩, ?_⟩
      rintro x hx ⟨o', msg', cfg', ht, rfl⟩
      obtain ⟨y, hy, e⟩ := List.mem_map.1 hx
      cases e
      exact h2 _ _ _ hy (by rw [← ht]; rfl)

/-- The steps of `exHonest`, with a cache that answers as it should. -/
def exKeeps : List OStep :=
  [.sys (.call (.get "site")), .sys (.master 0 (.reply (.ok (some ⟨30, 50⟩))) (fun _ => 0)), .cache 0 (.ok .done), .sys (.resume 0),
   .sys (.call (.verify exWork "ip")), .cache 1 (.ok (.config (some ⟨"site", 50, 30⟩))), .sys (.resume 1), .sys (.queue .manage), .sys (.resume 1),
   .sys (.queue (.take 0)), .sys (.work 0), .sys (.work 0), .sys (.work 0), .sys (.poll 1 (fun _ => 1)), .sys (.work 0), .sys (.queue (.finish 0)),
   .cache 1 (.ok .done), .sys (.resume 1), .sys (.call (.validate ⟨exDrawn2, "site"⟩)), .cache 2 (.ok (.verdict true)), .sys (.resume 2)]

theorem exKeeps_log : openLog sysLib ⟨true⟩ 1 5 0 exKeeps = (logOf sysLib ⟨true⟩ 1 5 0 exHonest).map .api := by decide +kernel

/-- In `exKeeps` the cache keeps to the contract and the site accepts a token. -/
example : KeepsContract (openLog sysLib ⟨true⟩ 1 5 0 exKeeps) ∧
    .api (.ret 2 (.validate ⟨exDrawn2, "site"⟩) (.validate (.ok true))) ∈ openLog sysLib ⟨true⟩ 1 5 0 exKeeps :=
  ⟨by rw [exKeeps_log]; exact C132_embedded_keeps .., by decide +kernel⟩

/-- So it was paid for. -/
example : ∃ pay, PaidWith sysLib (openLog sysLib ⟨true⟩ 1 5 0 exKeeps) 2 ⟨exDrawn2, "site"⟩ pay :=
  C132_paid _ _ _ _ _ _ (by rw [exKeeps_log]; exact C132_embedded_keeps ..) _ _ (by decide +kernel)

/-- The cache of `exOpen` does not keep to the contract: it confirms a token that nobody stored. -/
example : ¬ KeepsContract (openLog sysLib ⟨true⟩ 1 5 0 exOpen) := by
  intro h
  obtain ⟨pre, post, hl⟩ := List.append_of_mem (show .api (.cache (some (4, .validate ⟨"never", "site"⟩)) (.verify ⟨"never", "site"⟩) (.verdict true)) ∈
    openLog sysLib ⟨true⟩ 1 5 0 exOpen by decide +kernel)
  obtain ⟨a, e, b, i, d, h1, h2, -⟩ := h.token pre post _ _ hl
  have hm : e ∈ openLog sysLib ⟨true⟩ 1 5 0 exOpen := by rw [hl, h1]; simp
  have hno : (openLog sysLib ⟨true⟩ 1 5 0 exOpen).all (fun e => match e with
      | .api (.cache _ (.cacheResult c) _) => c.token != "never"
      | .failed _ (.cacheResult c) _ => c.token != "never"
      | _ => true) = true := by decide +kernel
  have := List.all_eq_true.1 hno e hm
  rcases h2 with ⟨api, rfl⟩ | ⟨err, rfl⟩ <;> simp at this

end MCap
