import Verif.Spec.Burst
import Verif.Props.Service

/-!
# C112: the cost of a burst
-/

namespace MCap
open Spec

theorem foldl_max_le (l : List Nat) (a b : Nat) (ha : a ≤ b) (h : ∀ x ∈ l, x ≤ b) : l.foldl max a ≤ b := by
  induction l generalizing a with
  | nil => exact ha
  | cons x r ih => exact ih (max a x) (by have := h x (.head _); omega) fun y hy => h y (.tail _ hy)

theorem quotesOf_append (a : Addr) (x y : List VEvent) : quotesOf a (x ++ y) = quotesOf a x ++ quotesOf a y := List.filterMap_append

theorem quotesOf_times (a : Addr) (log : List VEvent) : (quotesOf a log).map (·.at_) = countedAt a log := by
  induction log with
  | nil => rfl
  | cons e r ih =>
    unfold quotesOf countedAt at *
    cases e with
    | counter who b t msg rep =>
      cases msg <;> cases rep <;> simp only [List.filterMap_cons] <;> (try exact ih)
      by_cases hb : b = a
      · simp only [if_pos hb, List.map_cons, ih]
      · simp only [if_neg hb, ih]
    | _ => simpa only [List.filterMap_cons] using ih

/-- The event behind a quote. -/
theorem quotesOf_split {a : Addr} {log : List VEvent} {A B : List Quote} {q : Quote} (h : quotesOf a log = A ++ q :: B) :
    ∃ pre post r, log = pre ++ .counter q.who a q.at_ .addVisitor (.visitor r) :: post ∧ r.difficultyFactor = q.difficulty ∧ quotesOf a pre = A := by
  induction log generalizing A with
  | nil => exact absurd h (by cases A <;> simp [quotesOf])
  | cons e l ih =>
    by_cases he : ∃ who t r, e = .counter who a t .addVisitor (.visitor r)
    · obtain ⟨who, t, r, rfl⟩ := he
      have e1 : quotesOf a (.counter who a t .addVisitor (.visitor r) :: l) = ⟨who, t, r.difficultyFactor⟩ :: quotesOf a l := by
        simp [quotesOf]
      rw [e1] at h
      cases A with
      | nil =>
        obtain ⟨h1, -⟩ := List.cons.inj h
        subst h1
        exact ⟨[], l, r, rfl, rfl, rfl⟩
      | cons x A =>
        obtain ⟨h1, h2⟩ := List.cons.inj h
        obtain ⟨pre, post, r', h3, h4, h5⟩ := ih h2
        refine ⟨_ :: pre, post, r', by rw [h3, List.cons_append], h4, ?_⟩
        rw [← h1, ← h5]
        simp [quotesOf]
    · have e1 : quotesOf a (e :: l) = quotesOf a l := by
        unfold quotesOf
        rw [List.filterMap_cons]
        cases e with
        | counter who b t msg rep =>
          cases msg <;> cases rep <;> try rfl
          have hb : b ≠ a := fun hb => he ⟨who, t, _, by rw [hb]⟩
          simp [hb]
        | _ => rfl
      rw [e1] at h
      obtain ⟨pre, post, r', h3, h4, h5⟩ := ih h
      refine ⟨e :: pre, post, r', by rw [h3, List.cons_append], h4, ?_⟩
      have e2 : quotesOf a (e :: pre) = quotesOf a pre := by
        unfold quotesOf at e1 ⊢
        rw [List.filterMap_cons] at e1 ⊢
        revert e1
        split
        · intro _; rfl
        · intro h; exact absurd (congrArg List.length h) (by simp)
      rw [e2, h5]

theorem sublist_snoc {α : Type} {Q l : List α} {q : α} (h : (Q ++ [q]).Sublist l) : ∃ A B, l = A ++ q :: B ∧ Q.Sublist A := by
  obtain ⟨l₁, l₂, rfl, h1, h2⟩ := List.append_sublist_iff.1 h
  have hq : q ∈ l₂ := h2.subset (.head _)
  obtain ⟨x, y, rfl⟩ := List.append_of_mem hq
  exact ⟨l₁ ++ x, y, by simp, h1.trans (List.sublist_append_left _ _)⟩

/-- C112. Any `n` of the visits a counter counted within `duration` seconds, whoever made them and whatever else went on, were quoted
difficulties of which the `k`-th is at least what the configured levels ask for the `k`-th of `n` visits in a row, and which add up accordingly. -/
theorem C112_burst_costs (lib : PowLib) (p : Profile) (n ql gc now : Nat) (steps : List VStep) (a : Addr) (id : SiteId) (m : MCaptcha)
    (hreg : (registrations (vLogOf lib p n ql gc now steps))[a]? = some (id, m)) (hm : StartM m)
    (hnr : NeverRestored a (vLogOf lib p n ql gc now steps)) (hv : (countedAt a (vLogOf lib p n ql gc now steps)).length < 2 ^ 32)
    (start : Nat) (Q : List Quote) (hQ : Q.Sublist (quotesOf a (vLogOf lib p n ql gc now steps)))
    (hw : ∀ q ∈ Q, start ≤ q.at_ ∧ q.at_ < start + m.getDuration) :
    (∀ k (q : Quote), Q[k]? = some q → priceAt m.getDefense.levels (k + 1) ≤ q.difficulty) ∧
    burstCost m.getDefense.levels Q.length ≤ (Q.map (·.difficulty)).sum := by
  induction hk : Q.length generalizing Q with
  | zero =>
    refine ⟨?_, Nat.zero_le _⟩
    intro k q hq
    rw [List.length_eq_zero_iff.1 hk] at hq
    cases hq
  | succ k ih =>
    obtain ⟨Q, q, rfl⟩ : ∃ Q' q, Q = Q' ++ [q] := ⟨Q.dropLast, Q.getLast (by rintro rfl; cases hk), (List.dropLast_concat_getLast _).symm⟩
    have hk' : Q.length = k := by simpa using hk
    have hsub : Q.Sublist (quotesOf a (vLogOf lib p n ql gc now steps)) := (List.sublist_append_left _ _).trans hQ
    obtain ⟨hall, hprev⟩ := ih Q hsub (fun x hx => hw x (List.mem_append_left _ hx)) hk'
    obtain ⟨A, B, hAB, hQA⟩ := sublist_snoc hQ
    obtain ⟨pre, post, r, hlog, hr, hA⟩ := quotesOf_split hAB
    have hsplit := (cacc_run lib p n ql gc now steps).2 pre _ post hlog
    have hnrp : NeverRestored a pre := fun who t m' r' h => hnr who t m' r' (by rw [hlog]; exact List.mem_append_left _ h)
    have hrp : ∀ {x}, (registrations pre)[a]? = some x → x = (id, m) := by
      intro x hx
      have : registrations (vLogOf lib p n ql gc now steps) =
          registrations pre ++ registrations (.counter q.who a q.at_ .addVisitor (.visitor r) :: post) := by
        rw [hlog]; simp [registrations, masterMsgs]
      rw [this] at hreg
      obtain ⟨hlt, -⟩ := List.getElem?_eq_some_iff.1 hx
      rw [List.getElem?_append_left hlt, hx] at hreg
      exact Option.some.inj hreg
    obtain ⟨⟨m', hconf, -, l, hl, hd⟩, hc⟩ := hsplit
    have hregp : (registrations pre)[a]? = some (id, m) := by
      obtain ⟨c, ⟨id', m'', t0, ops, os, hr', -⟩, -⟩ := hc hnrp
      rw [hr', hrp hr']
    have hm' : m' = m := by
      rcases hconf with ⟨id', h⟩ | ⟨who, t, h⟩
      · have := hrp h
        cases this
        rfl
      · exact absurd h (hnrp _ _ _ _)
    subst hm'
    have hcnt : (countedAt a pre).length + 1 < 2 ^ 32 := by
      have : (countedAt a (vLogOf lib p n ql gc now steps)).length = (countedAt a pre).length + 1 + (countedAt a post).length := by
        rw [hlog]; simp [countedAt, List.filterMap_append]; omega
      omega
    obtain ⟨-, h97⟩ := C97_load_raises_the_price lib p n ql gc now steps q.who a q.at_ r pre post hlog id m' hregp hm hnrp hcnt
    have hq := hw q (by simp)
    have hrec : k + 1 ≤ recent m'.getDuration q.at_ (countedAt a pre ++ [q.at_]) := by
      unfold recent
      rw [← quotesOf_times, hA, List.filter_append, List.length_append]
      have h1 : ((Q.map (·.at_)).filter fun t => decide (q.at_ < t + m'.getDuration)).length ≤
          ((A.map (·.at_)).filter fun t => decide (q.at_ < t + m'.getDuration)).length := ((hQA.map _).filter _).length_le
      have h2 : (Q.map (·.at_)).filter (fun t => decide (q.at_ < t + m'.getDuration)) = Q.map (·.at_) := by
        rw [List.filter_eq_self]
        intro t ht
        obtain ⟨x, hx, rfl⟩ := List.mem_map.1 ht
        have := hw x (List.mem_append_left _ hx)
        simp
        omega
      rw [h2, List.length_map, hk'] at h1
      have h3 : [q.at_].filter (fun t => decide (q.at_ < t + m'.getDuration)) = [q.at_] := by
        rw [List.filter_eq_self]
        intro t ht
        cases List.mem_singleton.1 ht
        simp
        omega
      rw [h3]
      simp only [List.length_singleton]
      omega
    have hprice : priceAt m'.getDefense.levels (k + 1) ≤ q.difficulty := by
      unfold priceAt
      refine foldl_max_le _ _ _ (Nat.zero_le _) ?_
      intro x hx
      obtain ⟨l', hl', rfl⟩ := List.mem_map.1 hx
      rw [← hr]
      rcases List.mem_append.1 hl' with h | h
      · have hco := (startM_valid m' hm).1.defense.coherent
        rw [hd]
        obtain ⟨ls, hls⟩ : ∃ ls, m'.defense.levels = l' :: ls := by
          have e : m'.getDefense.levels = m'.defense.levels := rfl
          rw [e] at h
          cases hml : m'.defense.levels with
          | nil => rw [hml] at h; cases h
          | cons y ys => rw [hml] at h; simp at h; subst h; exact ⟨ys, rfl⟩
        rw [hls] at hco
        have hl2 : l ∈ m'.defense.levels := hl
        rw [hls] at hl2
        rcases List.mem_cons.1 hl2 with rfl | h'
        · exact Nat.le_refl _
        · exact (List.pairwise_cons.1 hco).1 _ h'
      · obtain ⟨h1, h2⟩ := List.mem_filter.1 h
        exact h97 l' h1 (by have := of_decide_eq_true h2; omega)
    refine ⟨?_, ?_⟩
    · intro j x hj
      by_cases hjk : j < k
      · rw [List.getElem?_append_left (by omega)] at hj
        exact hall j x hj
      · have hjk' : j = k := by
          obtain ⟨h1, -⟩ := List.getElem?_eq_some_iff.1 hj
          simp at h1
          omega
        subst hjk'
        rw [List.getElem?_append_right (by omega), hk', Nat.sub_self] at hj
        cases hj
        exact hprice
    show burstCost _ k + priceAt _ (k + 1) ≤ _
    rw [List.map_append, List.sum_append]
    simp only [List.map_cons, List.map_nil, List.sum_cons, List.sum_nil]
    omega

/-- Six visits to a captcha with a threshold of five for its lowest level. -/
example : let log := vLogOf sysLib ⟨true⟩ 1 5 60 0 exCrowd
    (registrations log)[0]? = some ("site", exM) ∧ StartM exM ∧ (quotesOf 0 log).length = 6 ∧ (∀ q ∈ quotesOf 0 log, 0 ≤ q.at_ ∧ q.at_ < 0 + exM.getDuration) ∧
    ((quotesOf 0 log).map (·.difficulty)).sum = 70 ∧ burstCost exM.getDefense.levels 6 = 60 := by
  refine ⟨by decide, startM_of_freshM _ exM_fresh, by decide, by decide, by decide, by decide⟩

end MCap
