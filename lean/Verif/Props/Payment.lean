import Verif.Spec.Payment
import Verif.Proofs.SystemStores
import Verif.Props.Burst

/-!
# C115: every accepted token was paid for separately
-/

namespace MCap
open Spec

theorem stored_once (lib : PowLib) (p : Profile) (n ql now : Nat) (steps : List SStep) {i : Nat} {x x' : Api} {m m' : CacheMsg} {r r' : CacheReply}
    {a b a' b' : List SEvent} (hm : isStore m = true) (hm' : isStore m' = true)
    (h1 : logOf lib p n ql now steps = a ++ .cache (some (i, x)) m r :: b)
    (h2 : logOf lib p n ql now steps = a' ++ .cache (some (i, x')) m' r' :: b') : a = a' ∧ m = m' ∧ x = x' ∧ b = b' := by
  obtain ⟨e1, e2, e3⟩ := same_place ((stinv_new lib p n ql now steps).le i) h1 h2 (by simp [hm]) (by simp [hm'])
  injection e2 with e4 e5
  injection e4 with e4
  exact ⟨e1, e5, (Prod.mk.inj e4).2, e3⟩

/-- The first of a kind after a place is one. -/
theorem first_after {α : Type} {b c b' c' : List α} {e e' : α} (h : b ++ e :: c = b' ++ e' :: c') (h1 : e ∉ b') (h2 : e' ∉ b) : e = e' := by
  rcases append_split h with ⟨d, h3, -⟩ | ⟨d, h3, h4⟩
  · exact absurd (by rw [h3]; simp) h2
  · cases d with
    | nil => simp at h4; exact h4.1
    | cons y d =>
      simp at h4
      exact absurd (by rw [h3, h4.1]; simp) h1

/-- Two payments with one `verify_pow` call are for the same validation. -/
theorem paid_verify (lib : PowLib) (p : Profile) (n ql now : Nat) (steps : List SStep) {v v' : Nat} {msg msg' : VerifyCaptchaResult} {x y : Payment}
    (h : PaidBy lib (logOf lib p n ql now steps) v msg x) (h' : PaidBy lib (logOf lib p n ql now steps) v' msg' y) (he : x.verify = y.verify) :
    v = v' := by
  obtain ⟨ip, a, b, c, h1, h2, -⟩ := h
  obtain ⟨ip', a', b', c', h1', h2', -⟩ := h'
  rw [← he] at h1'
  obtain ⟨-, e1, -, e2⟩ := stored_once lib p n ql now steps rfl rfl h1 h1'
  injection e1 with e1
  injection e1 with e1 _ _
  have := first_after e2 (fun hm => h2' _ _ _ hm (by rw [← e1]; rfl)) (fun hm => h2 _ _ _ hm (by rw [e1]; rfl))
  injection this with this
  injection this with this
  exact (Prod.mk.inj this).1

/-- Two payments with one `get_pow` call are for the same validation. -/
theorem paid_get (lib : PowLib) (p : Profile) (n ql now : Nat) (steps : List SStep) {v v' : Nat} {msg msg' : VerifyCaptchaResult} {x y : Payment}
    (h : PaidBy lib (logOf lib p n ql now steps) v msg x) (h' : PaidBy lib (logOf lib p n ql now steps) v' msg' y) (he : x.get = y.get) :
    v = v' := by
  refine paid_verify lib p n ql now steps h h' ?_
  obtain ⟨ip, a, b, c, h1, -, -, ⟨a1, a2, a3, k1, k2, -⟩, -⟩ := h
  obtain ⟨ip', a', b', c', h1', -, -, ⟨a1', a2', a3', k1', k2', -⟩, -⟩ := h'
  rw [k1] at h1
  rw [k1'] at h1'
  simp only [List.append_assoc, List.cons_append] at h1 h1'
  rw [← he] at h1'
  obtain ⟨-, e1, -, e2⟩ := stored_once lib p n ql now steps rfl rfl h1 h1'
  injection e1 with e1
  injection e1 with e1 _ _ _
  have := first_after e2 (fun hm => k2' _ _ _ hm (by rw [← e1]; rfl)) (fun hm => k2 _ _ _ hm (by rw [e1]; rfl))
  injection this with this
  injection this with this
  exact (Prod.mk.inj this).1

theorem paid_by (lib : PowLib) (p : Profile) (n ql now : Nat) (steps : List SStep) (v : Nat) (msg : VerifyCaptchaResult)
    (h : Accepted (logOf lib p n ql now steps) v msg) : ∃ x, PaidBy lib (logOf lib p n ql now steps) v msg x := by
  obtain ⟨pre, post, hlog⟩ := List.append_of_mem h
  obtain ⟨g, i, work, ip, d, duration, a, b, c, h1, h2, h3, h4, h5⟩ := C56_no_token_without_work lib p n ql now steps v msg pre post hlog
  exact ⟨⟨g, i, work, d, duration⟩, ip, a, b, c ++ .ret v (.validate msg) (.validate (.ok true)) :: post, by rw [hlog, h1]; simp, h2, h3, h4, h5⟩

/-- C115. Every accepted token was paid for, and no two with the same challenge: different validations answered `true` were paid for by
different `get_pow` calls and different `verify_pow` calls. -/
theorem C115_paid_separately (lib : PowLib) (p : Profile) (n ql now : Nat) (steps : List SStep) :
    ∃ pay : Nat → VerifyCaptchaResult → Payment,
      (∀ v msg, Accepted (logOf lib p n ql now steps) v msg → PaidBy lib (logOf lib p n ql now steps) v msg (pay v msg)) ∧
      ∀ v msg v' msg', Accepted (logOf lib p n ql now steps) v msg → Accepted (logOf lib p n ql now steps) v' msg' →
        (pay v msg).get = (pay v' msg').get ∨ (pay v msg).verify = (pay v' msg').verify → v = v' ∧ msg = msg' := by
  classical
  refine ⟨fun v msg => if h : Accepted (logOf lib p n ql now steps) v msg then (paid_by lib p n ql now steps v msg h).choose
    else ⟨0, 0, ⟨"", "", 0, ""⟩, 0, 0⟩, ?_, ?_⟩
  · intro v msg h
    simp only [dif_pos h]
    exact (paid_by lib p n ql now steps v msg h).choose_spec
  · intro v msg v' msg' h h' he
    simp only [dif_pos h, dif_pos h'] at he
    have h1 := (paid_by lib p n ql now steps v msg h).choose_spec
    have h2 := (paid_by lib p n ql now steps v' msg' h').choose_spec
    have hv : v = v' := by
      rcases he with he | he
      · exact paid_get lib p n ql now steps h1 h2 he
      · exact paid_verify lib p n ql now steps h1 h2 he
    refine ⟨hv, ?_⟩
    subst hv
    obtain ⟨_, a, b, c, e1, -⟩ := h1
    obtain ⟨_, a', b', c', e2, -⟩ := h2
    have hd := dinv_new lib p n ql now steps
    have c1 : .call v (.validate msg) ∈ logOf lib p n ql now steps := by
      obtain ⟨pre, post, hl⟩ := List.append_of_mem h
      rw [hl]
      exact List.mem_append_left _ ((facts lib p n ql now steps).si.why pre _ post hl).1
    have c2 : .call v (.validate msg') ∈ logOf lib p n ql now steps := by
      obtain ⟨pre, post, hl⟩ := List.append_of_mem h'
      rw [hl]
      exact List.mem_append_left _ ((facts lib p n ql now steps).si.why pre _ post hl).1
    obtain ⟨x, q1, q2⟩ := hd.made v _ c1
    obtain ⟨y, q3, q4⟩ := hd.made v _ c2
    rw [q1] at q3
    cases q3
    rw [q2] at q4
    cases q4
    rfl

/-- From elements with distinct keys in a list, a sublist with exactly these keys. -/
theorem pick_sublist {α : Type} (key : α → Option Nat) (w : α → Nat) (P : α → Prop) (d : Nat → Nat) (l : List α) (ks : List Nat) (hk : ks.Nodup)
    (h : ∀ k ∈ ks, ∃ x ∈ l, key x = some k ∧ P x ∧ w x = d k) :
    ∃ Q : List α, Q.Sublist l ∧ Q.length = ks.length ∧ (Q.map w).sum = (ks.map d).sum ∧ ∀ x ∈ Q, P x := by
  induction l generalizing ks with
  | nil =>
    cases ks with
    | nil => exact ⟨[], .slnil, rfl, rfl, fun _ h => (nomatch h)⟩
    | cons k r => obtain ⟨x, hx, -⟩ := h k (.head _); cases hx
  | cons y l ih =>
    by_cases hy : ∃ k ∈ ks, key y = some k ∧ P y ∧ w y = d k
    · obtain ⟨k, hm, h1, h2, h3⟩ := hy
      obtain ⟨s, t, rfl⟩ := List.append_of_mem hm
      have hperm : (s ++ k :: t).Perm (k :: (s ++ t)) := List.perm_middle
      have hnd := hperm.nodup_iff.1 hk
      obtain ⟨hn1, hn2⟩ := List.nodup_cons.1 hnd
      obtain ⟨Q, q1, q2, q3, q4⟩ := ih (s ++ t) hn2 (by
        intro k' hk'
        obtain ⟨x, hx, e1, e2⟩ := h k' (hperm.mem_iff.2 (.tail _ hk'))
        rcases List.mem_cons.1 hx with rfl | hx
        · rw [h1] at e1
          cases e1
          exact absurd hk' hn1
        · exact ⟨x, hx, e1, e2⟩)
      refine ⟨y :: Q, q1.cons_cons y, ?_, ?_, ?_⟩
      · simp at q2 ⊢; omega
      · simp only [List.map_append, List.sum_append, List.map_cons, List.sum_cons] at q3 ⊢; omega
      · intro x hx
        rcases List.mem_cons.1 hx with rfl | hx
        · exact h2
        · exact q4 x hx
    · obtain ⟨Q, q1, q2⟩ := ih ks hk (by
        intro k hm
        obtain ⟨x, hx, e⟩ := h k hm
        rcases List.mem_cons.1 hx with rfl | hx
        · exact absurd ⟨k, hm, e⟩ hy
        · exact ⟨x, hx, e⟩)
      exact ⟨Q, q1.cons y, q2⟩

theorem mem_quotesOf {a : Addr} {log : List VEvent} {who : Option Nat} {t : Nat} {r : AddVisitorResult}
    (h : .counter who a t .addVisitor (.visitor r) ∈ log) : (⟨who, t, r.difficultyFactor⟩ : Quote) ∈ quotesOf a log :=
  List.mem_filterMap.2 ⟨_, h, by simp⟩

/-- C115. What `n` accepted tokens cost: if the visitors who paid for them were all counted by one counter within `duration` seconds, then
the difficulties at which the challenges behind these tokens were solved add up to at least what the configured levels ask for `n` visits
in a row. -/
theorem C115_burst_of_tokens (lib : PowLib) (p : Profile) (n ql gc now : Nat) (steps : List VStep) (a : Addr) (id : SiteId) (m : MCaptcha)
    (hreg : (registrations (vLogOf lib p n ql gc now steps))[a]? = some (id, m)) (hm : StartM m)
    (hnr : NeverRestored a (vLogOf lib p n ql gc now steps)) (hv : (countedAt a (vLogOf lib p n ql gc now steps)).length < 2 ^ 32)
    (start : Nat) (paid : List (Nat × VerifyCaptchaResult × Payment)) (hnd : (paid.map (·.1)).Nodup)
    (hpaid : ∀ x ∈ paid, PaidBy lib (apiLog (vLogOf lib p n ql gc now steps)) x.1 x.2.1 x.2.2)
    (hw : ∀ x ∈ paid, ∃ t r, .counter (some x.2.2.get) a t .addVisitor (.visitor r) ∈ vLogOf lib p n ql gc now steps ∧
      start ≤ t ∧ t < start + m.getDuration) :
    burstCost m.getDefense.levels paid.length ≤ (paid.map (·.2.2.difficulty)).sum := by
  obtain ⟨ss, -, hlg⟩ := vsys lib p n ql gc now steps
  rw [← hlg] at hpaid
  have hgets : (paid.map (·.2.2.get)).Nodup := by
    unfold List.Nodup at hnd ⊢
    rw [List.pairwise_map] at hnd ⊢
    refine hnd.imp_of_mem ?_
    intro x y hx hy hne he
    exact hne (paid_get lib p n ql now ss (hpaid x hx) (hpaid y hy) he)
  have hd : ∃ d : Nat → Nat, ∀ x ∈ paid, d x.2.2.get = x.2.2.difficulty := by
    clear hpaid hw hnd
    induction paid with
    | nil => exact ⟨fun _ => 0, fun _ h => (nomatch h)⟩
    | cons y l ih =>
      rw [List.map_cons, List.nodup_cons] at hgets
      obtain ⟨d, h⟩ := ih hgets.2
      refine ⟨fun k => if k = y.2.2.get then y.2.2.difficulty else d k, ?_⟩
      intro x hx
      rcases List.mem_cons.1 hx with rfl | hx
      · simp
      · have : x.2.2.get ≠ y.2.2.get := fun e => hgets.1 (List.mem_map.2 ⟨x, hx, e⟩)
        simp only [if_neg this]
        exact h x hx
  obtain ⟨d, hd⟩ := hd
  obtain ⟨Q, q1, q2, q3, q4⟩ := pick_sublist (fun q : Quote => q.who) (·.difficulty) (fun q => start ≤ q.at_ ∧ q.at_ < start + m.getDuration) d
    (quotesOf a (vLogOf lib p n ql gc now steps)) _ hgets (by
      intro k hk
      obtain ⟨x, hx, rfl⟩ := List.mem_map.1 hk
      obtain ⟨t, r, h1, h2⟩ := hw x hx
      refine ⟨_, mem_quotesOf h1, rfl, h2, ?_⟩
      rw [hd x hx]
      show r.difficultyFactor = _
      obtain ⟨_, b1, b2, b3, e, -, -, ⟨c1, c2, c3, e', -, hcall, -, hmst⟩, -⟩ := hpaid x hx
      have mem : ∀ ev ∈ c1, .api ev ∈ vLogOf lib p n ql gc now steps := fun ev hev => mem_apiLog.1 (by rw [← hlg, e, e']; simp [hev])
      obtain ⟨a', t', x', y', z', hsplit, -⟩ := visit_of_answer lib p n ql gc now steps _ [] (List.append_nil _).symm x.2.2.get _
        (mem _ hcall) _ (mem _ hmst)
      obtain ⟨u1, u2, hu⟩ := List.append_of_mem h1
      have hone := C95_counted_at_most_once lib p n ql gc now steps x.2.2.get
      unfold countedFor at hone
      have hsplit' : vLogOf lib p n ql gc now steps = (x' ++ .asked x.2.2.get x.2.2.work.key (some a') :: y') ++
          .counter (some x.2.2.get) a' t' .addVisitor (.visitor ⟨x.2.2.duration, x.2.2.difficulty⟩) :: z' := by rw [hsplit]; simp
      have := (same_place hone hu hsplit' (by simp) (by simp)).2.1
      injection this with _ _ _ _ this
      injection this with this
      rw [this])
  have h112 := (C112_burst_costs lib p n ql gc now steps a id m hreg hm hnr hv start Q q1 q4).2
  rw [q2, q3, List.length_map, List.map_map] at h112
  refine Nat.le_trans h112 (Nat.le_of_eq (congrArg List.sum (List.map_congr_left ?_)))
  intro x hx
  exact hd x hx

/-- The string drawn from a constant generator. -/
def exStr (s : Fin 62) : String := getRandom 32 (fun _ => s)

/-- The work for the challenge with that string. -/
def exWorkFor (s : Fin 62) : Work := { exWork with string := exStr s, result := exStr s }

/-- A visitor gets a challenge, solves it and gets a token, which the site validates. -/
def exVisit (g i v : Nat) (s t : Fin 62) : List VStep :=
  [.sys (.call (.get "site")), .ask g, .world (.run 1), .hear g (fun _ => s), .sys (.cache g), .sys (.resume g)] ++
  ([.call (.verify (exWorkFor s) "ip"), .cache i, .resume i, .queue .manage, .queue .manage, .resume i,
    .queue (.take 0), .work 0, .work 0, .work 0, .poll i (fun _ => t), .work 0, .queue (.finish 0), .cache i, .resume i,
    .call (.validate ⟨exStr t, "site"⟩), .cache v, .resume v] : List SStep).map VStep.sys

/-- Two visitors, one after the other. -/
def exTwoVisits : List VStep := [.world (.req 0 (.addSite "site" exM))] ++ exVisit 0 1 2 0 1 ++ exVisit 3 4 5 2 3

theorem no_store_in (s : String) (i j : Nat) (x y : Api) (r : Ret) : untouched s [.ret i x r, .call j y] := by
  intro sender m r' h
  simp at h

theorem no_token_in (s : String) (i j : Nat) (x y : Api) (r : Ret) : untouchedToken s [.ret i x r, .call j y] := by
  intro sender m r' h
  simp at h

/-- The payments of the two visitors. -/
def exPays : List (Nat × VerifyCaptchaResult × Payment) :=
  [(2, ⟨exStr 1, "site"⟩, ⟨0, 1, exWorkFor 0, 10, 30⟩), (5, ⟨exStr 3, "site"⟩, ⟨3, 4, exWorkFor 2, 10, 30⟩)]

set_option maxRecDepth 100000 in
/-- Two tokens, paid for by two visits at difficulty 10 each. -/
example : let log := vLogOf sysLib ⟨true⟩ 1 5 60 0 exTwoVisits
    (registrations log)[0]? = some ("site", exM) ∧ StartM exM ∧ (countedAt 0 log).length < 2 ^ 32 ∧ (exPays.map (·.1)).Nodup ∧
    (∀ x ∈ exPays, PaidBy sysLib (apiLog log) x.1 x.2.1 x.2.2) ∧ (∀ x ∈ exPays, Accepted (apiLog log) x.1 x.2.1) ∧
    (∀ x ∈ exPays, ∃ t r, .counter (some x.2.2.get) 0 t .addVisitor (.visitor r) ∈ log ∧ 0 ≤ t ∧ t < 0 + exM.getDuration) ∧
    burstCost exM.getDefense.levels exPays.length = 20 ∧ (exPays.map (·.2.2.difficulty)).sum = 20 := by
  refine ⟨by decide, startM_of_freshM _ exM_fresh, by decide, by decide, ?_, ?_, ?_, by decide, by decide⟩
  · intro x hx
    simp only [exPays, List.mem_cons, List.not_mem_nil, or_false] at hx
    rcases hx with rfl | rfl
    · refine ⟨"ip", (apiLog (vLogOf sysLib ⟨true⟩ 1 5 60 0 exTwoVisits)).take 11,
        [.ret 1 (.verify (exWorkFor 0) "ip") (.verify (.ok (exStr 1, 10))), .call 2 (.validate ⟨exStr 1, "site"⟩)],
        (apiLog (vLogOf sysLib ⟨true⟩ 1 5 60 0 exTwoVisits)).drop 15, by decide, no_token_in _ _ _ _ _ _, rfl,
        ⟨(apiLog (vLogOf sysLib ⟨true⟩ 1 5 60 0 exTwoVisits)).take 2,
         [.ret 0 (.get "site") (.get (.ok (some ⟨exStr 0, 10, "salt"⟩))), .call 1 (.verify (exWorkFor 0) "ip")],
         ((apiLog (vLogOf sysLib ⟨true⟩ 1 5 60 0 exTwoVisits)).take 11).drop 6, by decide, no_store_in _ _ _ _ _ _, by decide, by decide, by decide⟩,
        by decide, by decide⟩
    · refine ⟨"ip", (apiLog (vLogOf sysLib ⟨true⟩ 1 5 60 0 exTwoVisits)).take 28,
        [.ret 4 (.verify (exWorkFor 2) "ip") (.verify (.ok (exStr 3, 10))), .call 5 (.validate ⟨exStr 3, "site"⟩)],
        (apiLog (vLogOf sysLib ⟨true⟩ 1 5 60 0 exTwoVisits)).drop 32, by decide, no_token_in _ _ _ _ _ _, rfl,
        ⟨(apiLog (vLogOf sysLib ⟨true⟩ 1 5 60 0 exTwoVisits)).take 18,
         [.ret 3 (.get "site") (.get (.ok (some ⟨exStr 2, 10, "salt"⟩))), .call 4 (.verify (exWorkFor 2) "ip")],
         ((apiLog (vLogOf sysLib ⟨true⟩ 1 5 60 0 exTwoVisits)).take 28).drop 22, by decide, no_store_in _ _ _ _ _ _, by decide, by decide, by decide⟩,
        by decide, by decide⟩
  · intro x hx
    simp only [exPays, List.mem_cons, List.not_mem_nil, or_false] at hx
    rcases hx with rfl | rfl <;> (unfold Accepted; decide)
  · intro x hx
    simp only [exPays, List.mem_cons, List.not_mem_nil, or_false] at hx
    rcases hx with rfl | rfl <;> exact ⟨0, ⟨30, 10⟩, by decide, by decide, by decide⟩

end MCap
