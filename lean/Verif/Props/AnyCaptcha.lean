import Verif.Props.Json
import Verif.Props.MCaptcha

/-!
# C109: captchas of any shape

A captcha or a defense read from JSON may have any levels and any position (C82). Here is what becomes of it, in every build.
-/

namespace MCap
open Spec

theorem vecIndex_panics {α : Type} (v : List α) (i : Nat) : (∃ w, vecIndex v i = .panic w) ↔ v.length ≤ i := by
  unfold vecIndex
  rcases Nat.lt_or_ge i v.length with h | h
  · rw [List.getElem?_eq_getElem h]
    simp only [reduceCtorEq, exists_false, false_iff]
    omega
  · rw [List.getElem?_eq_none h]
    simp [h]

theorem vecIndex_ret {α : Type} (v : List α) (i : Nat) (h : i < v.length) : vecIndex v i = .ret v[i] := by
  unfold vecIndex
  rw [List.getElem?_eq_getElem h]

/-- What a visit does to a captcha whose position is among its levels, of whatever shape. -/
theorem addVisitor_any (p : Profile) (m : MCaptcha) (h : m.defense.cur < m.defense.levels.length) (v : Nat) (hv : u32Succ p m.visitors = .ret v) :
    m.addVisitor p = .ret { m with visitors := v, defense := { m.defense with cur := nextCur m.defense h v } } := by
  unfold MCaptcha.addVisitor
  rw [hv]
  simp only [Exec.bind, Defense.currentLevel, vecIndex_ret _ _ h]
  unfold nextCur
  by_cases ht : m.defense.levels[m.defense.cur].visitorThreshold < v
  · rw [if_pos ht, if_pos ht]
    unfold Defense.tightenUp usizeSub
    rw [if_pos (show 1 ≤ m.defense.levels.length by omega)]
    simp only [Exec.bind]
    by_cases hc : m.defense.cur + 1 < m.defense.levels.length
    · simp only [if_pos (show m.defense.cur < m.defense.levels.length - 1 by omega), if_pos hc]
    · simp only [if_neg (show ¬ m.defense.cur < m.defense.levels.length - 1 by omega), if_neg hc]
  · rw [if_neg ht, if_neg ht]
    unfold Defense.loosenUp
    by_cases hc : m.defense.cur > 0
    · rw [if_pos hc]
    · rw [if_neg hc]
      have : m.defense.cur - 1 = m.defense.cur := by omega
      rw [this]

/-- C109. A visit to a captcha of any shape panics exactly if its position is beyond its levels (it has none, for instance), or if the visitor
count overflows in a build that checks this. -/
theorem C109_visit_panics_iff (p : Profile) (m : MCaptcha) (hv : m.getVisitors < 2 ^ 32) :
    (∃ w, m.addVisitor p = .panic w) ↔
      m.getDefense.levels.length ≤ m.getDefense.cur ∨ (m.getVisitors + 1 = 2 ^ 32 ∧ p.overflowChecks = true) := by
  rcases Nat.lt_or_ge m.defense.cur m.defense.levels.length with h | h
  · cases hs : u32Succ p m.visitors with
    | ret v =>
      rw [addVisitor_any p m h v hs]
      simp only [reduceCtorEq, exists_false, false_iff]
      rintro (hb | ⟨hb, hc⟩)
      · exact absurd hb (Nat.not_le_of_lt h)
      · unfold u32Succ at hs
        have hb' : ¬ m.visitors + 1 < u32Size := by rw [show m.visitors + 1 = 2 ^ 32 from hb]; decide
        rw [if_neg hb', if_pos hc] at hs
        cases hs
    | panic w =>
      have e : m.addVisitor p = .panic w := by unfold MCaptcha.addVisitor; rw [hs]; rfl
      rw [e]
      refine ⟨fun _ => .inr ?_, fun _ => ⟨w, rfl⟩⟩
      have hv' : m.visitors < 2 ^ 32 := hv
      show m.visitors + 1 = 2 ^ 32 ∧ _
      unfold u32Succ u32Size at hs
      split at hs
      · cases hs
      · split at hs
        · exact ⟨by omega, by assumption⟩
        · cases hs
  · refine ⟨fun _ => .inl h, fun _ => ?_⟩
    unfold MCaptcha.addVisitor
    cases u32Succ p m.visitors with
    | panic w => exact ⟨w, rfl⟩
    | ret v =>
      obtain ⟨w, hw⟩ := (vecIndex_panics m.defense.levels m.defense.cur).2 h
      exact ⟨w, by simp only [Exec.bind, Defense.currentLevel, hw]⟩

/-- C109. Asking for the difficulty, the current level or its threshold panics exactly if the position is beyond the levels. -/
theorem C109_quote_panics_iff (m : MCaptcha) :
    ((∃ w, m.getDifficulty = .panic w) ↔ m.getDefense.levels.length ≤ m.getDefense.cur) ∧
    ((∃ w, m.getDefense.currentLevel = .panic w) ↔ m.getDefense.levels.length ≤ m.getDefense.cur) ∧
    ((∃ w, m.getDefense.visitorThreshold = .panic w) ↔ m.getDefense.levels.length ≤ m.getDefense.cur) := by
  have key : ∀ f : Level → Nat, (∃ w, (vecIndex m.defense.levels m.defense.cur).map f = .panic w) ↔ m.defense.levels.length ≤ m.defense.cur := by
    intro f
    rw [← vecIndex_panics]
    cases vecIndex m.defense.levels m.defense.cur <;> simp [Exec.map]
  exact ⟨key _, vecIndex_panics _ _, key _⟩

/-- Texts for a captcha without levels, one with a position beyond them, and one on the verge of overflow. -/
example : ∃ a b c, (jsonParse "[0,[[],0],30]".toList).bind MCaptcha.ofJson = some a ∧ (jsonParse "[0,[[[5,10]],1],30]".toList).bind MCaptcha.ofJson = some b ∧
    (jsonParse "[4294967295,[[[5,10]],0],30]".toList).bind MCaptcha.ofJson = some c ∧
    a.addVisitor ⟨false⟩ = .panic .indexOutOfRange ∧ b.addVisitor ⟨false⟩ = .panic .indexOutOfRange ∧ c.addVisitor ⟨true⟩ = .panic .arithmeticOverflow ∧
    c.addVisitor ⟨false⟩ = .ret ⟨0, ⟨[⟨5, 10⟩], 0⟩, 30⟩ :=
  ⟨⟨0, ⟨[], 0⟩, 30⟩, ⟨0, ⟨[⟨5, 10⟩], 1⟩, 30⟩, ⟨4294967295, ⟨[⟨5, 10⟩], 0⟩, 30⟩, by decide +kernel⟩

/-- C109. A captcha whose position is among its levels, in whatever order they are and whatever numbers they have, survives every history below
the overflow: it counts as it should, keeps its levels and always quotes the difficulty of one of them. -/
theorem C109_in_range_is_kept (p : Profile) (m : MCaptcha) (h : m.getDefense.cur < m.getDefense.levels.length) (hist : List Traffic)
    (hf : Fits m.getVisitors hist) :
    ∃ m', traffic p m hist = .ret m' ∧ m'.getVisitors = countAfter m.getVisitors hist ∧ m'.getDefense.levels = m.getDefense.levels ∧
      m'.getDuration = m.getDuration ∧ ∃ l ∈ m.getDefense.levels, m'.getDifficulty = .ret l.difficultyFactor := by
  induction hist generalizing m with
  | nil =>
    refine ⟨m, rfl, rfl, rfl, rfl, m.defense.levels[m.defense.cur]'h, List.getElem_mem h, ?_⟩
    have hr : vecIndex m.defense.levels m.defense.cur = .ret (m.defense.levels[m.defense.cur]'h) := vecIndex_ret _ _ h
    simp only [MCaptcha.getDifficulty, Defense.getDifficulty, hr, Exec.map]
  | cons e r ih =>
    cases e with
    | visit =>
      have hv : m.visitors + 1 < u32Size := by
        have := hf 1; simpa [countAfter, u32Size, MCaptcha.getVisitors] using this
      have hs : u32Succ p m.visitors = .ret (m.visitors + 1) := by unfold u32Succ; rw [if_pos hv]
      have ha := addVisitor_any p m h _ hs
      obtain ⟨m', h1, h2, h3, h4, l, h5, h6⟩ := ih { m with visitors := m.visitors + 1, defense := { m.defense with cur := nextCur m.defense h (m.visitors + 1) } }
        (nextCur_lt _ _ _) (fits_cons _ _ _ hf)
      exact ⟨m', by simp only [traffic, ha, Exec.bind, h1], h2, h3, h4, l, h5, h6⟩
    | leave n =>
      have hd : m.decrementVisitorBy n = { m with visitors := m.visitors - n } := decrement_eq m n
      obtain ⟨m', h1, h2, h3, h4, l, h5, h6⟩ := ih { m with visitors := m.visitors - n } h (fun k => by
        have := hf (k + 1)
        simpa [countAfter, MCaptcha.getVisitors] using this)
      exact ⟨m', by simp only [traffic, hd, h1], h2, h3, h4, l, h5, h6⟩

/-- Thresholds out of order and falling difficulties. -/
example : ∃ m m', (jsonParse "[3,[[[50,5],[5,50]],1],0]".toList).bind MCaptcha.ofJson = some m ∧ m.getDefense.cur < m.getDefense.levels.length ∧
    traffic ⟨true⟩ m [.visit, .visit, .visit, .leave 2, .visit] = .ret m' ∧ m'.getVisitors = 5 ∧ m'.getDifficulty = .ret 5 :=
  ⟨⟨3, ⟨[⟨50, 5⟩, ⟨5, 50⟩], 1⟩, 0⟩, ⟨5, ⟨[⟨50, 5⟩, ⟨5, 50⟩], 0⟩, 0⟩, by decide +kernel, by decide, by decide, by decide, by decide⟩

/-- C109. Moving a defense of any shape up panics exactly if it has no levels and the build checks for overflow; moving it down never does. With
levels, `min_defense` and `max_defense` repair any position. Without levels an unchecked build goes to positions up to the largest number, and no
level is ever found. -/
theorem C109_moves (p : Profile) (d : Defense) :
    ((∃ w, d.tightenUp p = .panic w) ↔ d.levels = [] ∧ p.overflowChecks = true) ∧
    ((∃ w, d.maxDefense p = .panic w) ↔ d.levels = [] ∧ p.overflowChecks = true) ∧
    (d.levels ≠ [] → d.minDefense.cur = 0 ∧ (∃ e, d.maxDefense p = .ret e ∧ e.levels = d.levels ∧ e.cur + 1 = d.levels.length) ∧
      ∃ e, d.tightenUp p = .ret e ∧ e.levels = d.levels ∧ e.cur = (if d.cur + 1 < d.levels.length then d.cur + 1 else d.cur)) ∧
    (d.levels = [] → p.overflowChecks = false → d.maxDefense p = .ret { d with cur := 2 ^ 64 - 1 } ∧
      d.tightenUp p = .ret { d with cur := if d.cur < 2 ^ 64 - 1 then d.cur + 1 else d.cur }) ∧
    (d.levels = [] → (∃ w, d.getDifficulty = .panic w) ∧ ∃ w, d.currentLevel = .panic w) := by
  cases hl : d.levels with
  | nil =>
    refine ⟨?_, ?_, ?_, ?_, ?_⟩
    · unfold Defense.tightenUp usizeSub
      rw [hl]
      cases hc : p.overflowChecks
      · rw [if_neg (by simp), if_neg (by simp)]
        simp only [Exec.bind]
        split <;> simp
      · simp [Exec.bind]
    · unfold Defense.maxDefense usizeSub
      rw [hl]
      cases hc : p.overflowChecks <;> simp [Exec.map]
    · intro h; exact absurd rfl h
    · intro _ hc
      constructor
      · unfold Defense.maxDefense usizeSub
        rw [hl, hc]
        rfl
      · unfold Defense.tightenUp usizeSub
        rw [hl, hc]
        rw [if_neg (by simp), if_neg (by simp)]
        have hu : ([] : List Level).length + usizeSize - 1 = 2 ^ 64 - 1 := by decide
        rw [hu]
        simp only [Exec.bind]
        by_cases h : d.cur < 2 ^ 64 - 1
        · rw [if_pos h, if_pos h]
        · rw [if_neg h, if_neg h, ← hl]
    · intro _
      unfold Defense.getDifficulty Defense.currentLevel
      rw [hl]
      exact ⟨⟨_, rfl⟩, _, rfl⟩
  | cons l ls =>
    have hs : usizeSub p d.levels.length 1 = .ret (d.levels.length - 1) := by
      unfold usizeSub; rw [if_pos (by rw [hl]; simp)]
    refine ⟨?_, ?_, ?_, ?_, ?_⟩
    · unfold Defense.tightenUp
      rw [hs]
      simp only [Exec.bind]
      split <;> simp
    · unfold Defense.maxDefense
      rw [hs]
      simp [Exec.map]
    · intro _
      refine ⟨rfl, ⟨{ d with cur := d.levels.length - 1 }, by unfold Defense.maxDefense; rw [hs]; rfl, hl, ?_⟩, ?_⟩
      · show d.levels.length - 1 + 1 = _
        rw [hl]
        simp
      · unfold Defense.tightenUp
        rw [hs]
        simp only [Exec.bind, hl, List.length_cons]
        by_cases hc : d.cur + 1 < ls.length + 1
        · rw [if_pos (by omega)]
          exact ⟨_, rfl, rfl, by rw [if_pos hc]⟩
        · rw [if_neg (by omega)]
          exact ⟨_, rfl, hl, by rw [if_neg hc]⟩
    · intro h; cases h
    · intro h; cases h

/-- A defense read from JSON without levels. -/
example : ∃ d, (jsonParse "{\"levels\":[],\"current_visitor_threshold\":0}".toList).bind Defense.ofJson = some d ∧ d.levels = [] ∧
    d.maxDefense ⟨true⟩ = .panic .arithmeticOverflow := ⟨⟨[], 0⟩, by decide +kernel⟩

end MCap
