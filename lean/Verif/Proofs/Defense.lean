import Verif.Spec.Defense
import Verif.Proofs.ListAux

namespace MCap
open Spec

/-! ### LevelBuilder -/

theorem levelBuilderAfter_append (cs : List LevelCall) (c : LevelCall) :
    levelBuilderAfter (cs ++ [c]) = LevelCall.apply (levelBuilderAfter cs) c := by
  simp [levelBuilderAfter]

theorem foldl_level_fields (cs : List LevelCall) (b : LevelBuilder) :
    (cs.foldl LevelCall.apply b).visitorThreshold
        = ((thresholdsSet cs).getLast?).or b.visitorThreshold ∧
    (cs.foldl LevelCall.apply b).difficultyFactor
        = ((factorsSet cs).getLast?).or b.difficultyFactor := by
  induction cs generalizing b with
  | nil => simp [thresholdsSet, factorsSet]
  | cons c cs ih =>
    simp only [List.foldl_cons]
    obtain ⟨h1, h2⟩ := ih (LevelCall.apply b c)
    rw [h1, h2]
    cases c with
    | threshold t =>
      constructor
      · simp [thresholdsSet, LevelCall.apply, LevelBuilder.setVisitorThreshold, List.getLast?_cons]
      · simp [factorsSet, LevelCall.apply, LevelBuilder.setVisitorThreshold]
    | factor d =>
      by_cases hd : d = 0
      · subst hd
        constructor <;>
          simp [thresholdsSet, factorsSet, LevelCall.apply, LevelBuilder.setDifficultyFactor]
      · have hpos : d > 0 := Nat.pos_of_ne_zero hd
        constructor
        · simp [thresholdsSet, LevelCall.apply, LevelBuilder.setDifficultyFactor, hpos]
        · simp [factorsSet, LevelCall.apply, LevelBuilder.setDifficultyFactor, hpos, hd, List.getLast?_cons]

/-! ### DefenseBuilder.addLevel -/

theorem addLevel_ok_iff (b : DefenseBuilder) (l : Level) :
    (b.addLevel l = (.ok (), ⟨b.levels ++ [l]⟩) ∧
      ∀ e ∈ b.levels, e.visitorThreshold ≠ l.visitorThreshold) ∨
    (b.addLevel l = (.error .duplicateVisitorCount, b) ∧
      ∃ e ∈ b.levels, e.visitorThreshold = l.visitorThreshold) := by
  unfold DefenseBuilder.addLevel
  split
  · rename_i h
    right
    refine ⟨rfl, ?_⟩
    simpa using h
  · rename_i h
    left
    refine ⟨rfl, ?_⟩
    simpa using h

theorem submit_snoc (ls : List Level) (l : Level) :
    submit (ls ++ [l]) =
      ((submit ls).1 ++ [((submit ls).2.addLevel l).1], ((submit ls).2.addLevel l).2) := by
  simp [submit]

theorem firsts_snoc (ls : List Level) (l : Level) :
    firsts (ls ++ [l]) =
      firsts ls ++ (if ls.all (fun e => e.visitorThreshold ≠ l.visitorThreshold) then [l] else []) := by
  unfold firsts
  rw [List.length_append, List.length_singleton, List.range_succ, List.filterMap_append]
  congr 1
  · apply filterMap_congr'
    intro i hi
    have hi' : i < ls.length := by simpa using hi
    rw [List.getElem?_append_left hi', List.take_append_of_le_length (by omega)]
  · simp
    split <;> simp_all

theorem mem_firsts_of_threshold (ls : List Level) (t : Nat) :
    (∃ e ∈ firsts ls, e.visitorThreshold = t) ↔ (∃ e ∈ ls, e.visitorThreshold = t) := by
  induction ls using snocInd with
  | nil => simp [firsts]
  | append_singleton ls l ih =>
    rw [firsts_snoc]
    simp only [List.mem_append, or_and_right, exists_or, ih]
    by_cases h : ls.all (fun e => e.visitorThreshold ≠ l.visitorThreshold)
    · rw [if_pos h]
    · rw [if_neg h]
      simp only [List.not_mem_nil, false_and, exists_false, or_false, List.mem_singleton,
        exists_eq_left, iff_self_or]
      intro hl
      rw [List.all_eq_true] at h
      obtain ⟨e, he⟩ := Classical.not_forall.1 h
      obtain ⟨hm, hne⟩ := Classical.not_imp.1 he
      exact ⟨e, hm, by simp at hne; omega⟩

theorem submit_levels (ls : List Level) : (submit ls).2.levels = firsts ls := by
  induction ls using snocInd with
  | nil => simp [submit, firsts, DefenseBuilder.default]
  | append_singleton ls l ih =>
    rw [submit_snoc, firsts_snoc]
    rcases addLevel_ok_iff (submit ls).2 l with ⟨h, hn⟩ | ⟨h, hn⟩
    · rw [h, if_pos]
      · simp [ih]
      · rw [ih] at hn
        simp only [List.all_eq_true, decide_eq_true_eq]
        intro e he heq
        obtain ⟨e', he', hq'⟩ := (mem_firsts_of_threshold ls l.visitorThreshold).2 ⟨e, he, heq⟩
        exact hn e' he' hq'
    · rw [h, if_neg]
      · simp [ih]
      · rw [ih] at hn
        obtain ⟨e, he, hq⟩ := (mem_firsts_of_threshold ls l.visitorThreshold).1 hn
        rw [List.all_eq_true]
        intro hall
        have := hall e he
        simp [hq] at this

theorem submit_results_length (ls : List Level) : (submit ls).1.length = ls.length := by
  induction ls using snocInd with
  | nil => simp [submit]
  | append_singleton ls l ih => rw [submit_snoc]; simp [ih]

theorem submit_last_result (ls : List Level) (l : Level) :
    ((submit ls).2.addLevel l).1 =
      if ∃ e ∈ ls, e.visitorThreshold = l.visitorThreshold then .error .duplicateVisitorCount
      else .ok () := by
  rcases addLevel_ok_iff (submit ls).2 l with ⟨h, hn⟩ | ⟨h, hn⟩ <;> rw [submit_levels] at hn
  · rw [h, if_neg]
    intro hex
    obtain ⟨e', he', hq'⟩ := (mem_firsts_of_threshold ls l.visitorThreshold).2 hex
    exact hn e' he' hq'
  · rw [h, if_pos ((mem_firsts_of_threshold ls l.visitorThreshold).1 hn)]

theorem submit_result (ls : List Level) (i : Nat) (hi : i < ls.length) :
    (submit ls).1[i]? = some (if ∃ e ∈ ls.take i, e.visitorThreshold = ls[i].visitorThreshold
      then .error .duplicateVisitorCount else .ok ()) := by
  induction ls using snocInd with
  | nil => simp at hi
  | append_singleton ls l ih =>
    rw [submit_snoc]
    by_cases h : i < ls.length
    · have h1 : i < (submit ls).1.length := by rw [submit_results_length]; exact h
      rw [List.getElem?_append_left h1, ih h]
      simp only [List.getElem_append_left h, List.take_append_of_le_length (Nat.le_of_lt h)]
    · have hi' : i = ls.length := by simp at hi; omega
      subst hi'
      rw [List.getElem?_append_right (by rw [submit_results_length]; exact Nat.le_refl _)]
      simp [submit_results_length, submit_last_result]

theorem firsts_pairwise (ls : List Level) :
    (firsts ls).Pairwise fun a b => a.visitorThreshold ≠ b.visitorThreshold := by
  induction ls using snocInd with
  | nil => simp [firsts]
  | append_singleton ls l ih =>
    rw [firsts_snoc]
    split
    · rename_i h
      rw [List.pairwise_append]
      refine ⟨ih, by simp, ?_⟩
      intro a ha b hb
      simp at hb
      subst hb
      obtain ⟨e, he, hq⟩ := (mem_firsts_of_threshold ls a.visitorThreshold).1 ⟨a, ha, rfl⟩
      simp at h
      have := h e he
      omega
    · simpa using ih

theorem firsts_eq_self (ls : List Level)
    (h : ls.Pairwise fun a b => a.visitorThreshold ≠ b.visitorThreshold) : firsts ls = ls := by
  induction ls using snocInd with
  | nil => simp [firsts]
  | append_singleton ls l ih =>
    rw [List.pairwise_append] at h
    rw [firsts_snoc, ih h.1, if_pos]
    simp
    intro e he
    exact h.2.2 e he l (by simp)

/-! ### DefenseBuilder.build -/

/-- the comparison used by the sort -/
def byThreshold (x y : Level) : Bool := decide (x.visitorThreshold ≤ y.visitorThreshold)

theorem sorted_levels (ls : List Level) :
    (ls.mergeSort byThreshold).Pairwise fun a b => a.visitorThreshold ≤ b.visitorThreshold := by
  have := List.pairwise_mergeSort (le := byThreshold)
    (by intro a b c h1 h2; simp [byThreshold] at *; omega)
    (by intro a b; simp [byThreshold]; omega) ls
  exact this.imp (by intro a b h; simpa [byThreshold] using h)

theorem sorted_strict (ls : List Level)
    (h : ls.Pairwise fun a b => a.visitorThreshold ≠ b.visitorThreshold) :
    (ls.mergeSort byThreshold).Pairwise fun a b => a.visitorThreshold < b.visitorThreshold := by
  have h1 := sorted_levels ls
  have h2 : (ls.mergeSort byThreshold).Pairwise fun a b => a.visitorThreshold ≠ b.visitorThreshold :=
    (List.mergeSort_perm ls byThreshold).symm.pairwise h (fun h e => h e.symm)
  exact (h1.and h2).imp (by intro a b h; omega)

theorem hasDecrease_false_iff (ls : List Level) :
    DefenseBuilder.hasDecrease ls = false ↔
      ls.Pairwise fun a b => a.difficultyFactor ≤ b.difficultyFactor := by
  fun_induction DefenseBuilder.hasDecrease ls with
  | case1 => simp
  | case2 => simp
  | case3 a b r ih =>
    simp only [Bool.or_eq_false_iff, ih]
    rw [List.pairwise_cons (a := a)]
    constructor
    · rintro ⟨h1, h2⟩
      refine ⟨?_, h2⟩
      intro c hc
      simp at h1
      rcases List.mem_cons.1 hc with rfl | hc
      · exact h1
      · exact Nat.le_trans h1 ((List.pairwise_cons.1 h2).1 c hc)
    · rintro ⟨h1, h2⟩
      exact ⟨by simpa using h1 b (by simp), h2⟩

/-- Unfolding of `build` with the named comparison. -/
theorem build_eq (b : DefenseBuilder) :
    b.build =
      if b.levels = [] then (.error .levelEmpty, b)
      else if ∃ l ∈ b.levels, l.difficultyFactor = 0 then
        (.error .difficultyFactorZero, ⟨b.levels.mergeSort byThreshold⟩)
      else if DefenseBuilder.hasDecrease (b.levels.mergeSort byThreshold) then
        (.error .decreaseingDifficultyFactor, ⟨b.levels.mergeSort byThreshold⟩)
      else (.ok ⟨b.levels.mergeSort byThreshold, 0⟩, ⟨b.levels.mergeSort byThreshold⟩) := by
  unfold DefenseBuilder.build
  have hb : (fun x y : Level => decide (x.visitorThreshold ≤ y.visitorThreshold)) = byThreshold := rfl
  simp only [hb, List.isEmpty_iff]
  have hany : (b.levels.mergeSort byThreshold).any (fun l => l.difficultyFactor == 0) = true ↔
      ∃ l ∈ b.levels, l.difficultyFactor = 0 := by
    simp [List.any_eq_true]
  by_cases h0 : b.levels = []
  · simp [h0]
  · simp only [h0, if_false]
    by_cases h1 : ∃ l ∈ b.levels, l.difficultyFactor = 0
    · rw [if_pos (hany.2 h1), if_pos h1]
    · rw [if_neg (fun h => h1 (hany.1 h)), if_neg h1]

/-- With distinct thresholds, the sorted list has a decrease iff the configuration is not coherent. -/
theorem hasDecrease_iff_not_coherent (ls : List Level)
    (h : ls.Pairwise fun a b => a.visitorThreshold ≠ b.visitorThreshold) :
    DefenseBuilder.hasDecrease (ls.mergeSort byThreshold) = false ↔ Coherent ls := by
  rw [hasDecrease_false_iff]
  have hs := sorted_strict ls h
  have hmem : ∀ x, x ∈ ls.mergeSort byThreshold ↔ x ∈ ls := fun x => by simp
  constructor
  · intro hp a ha b hb hab
    have ha' := (hmem a).2 ha
    have hb' := (hmem b).2 hb
    obtain ⟨i, hi, rfl⟩ := List.getElem_of_mem ha'
    obtain ⟨j, hj, rfl⟩ := List.getElem_of_mem hb'
    rw [List.pairwise_iff_getElem] at hp hs
    rcases Nat.lt_trichotomy i j with hlt | heq | hgt
    · exact hp i j hi hj hlt
    · subst heq; omega
    · have := hs j i hj hi hgt; omega
  · intro hc
    rw [List.pairwise_iff_getElem] at hs ⊢
    intro i j hi hj hij
    exact hc _ ((hmem _).1 (List.getElem_mem _)) _ ((hmem _).1 (List.getElem_mem _)) (hs i j hi hj hij)

/-- Two strictly sorted permutations of each other are equal; used for order independence. -/
theorem sorted_unique (l₁ l₂ : List Level) (hp : l₁.Perm l₂)
    (h : l₁.Pairwise fun a b => a.visitorThreshold ≠ b.visitorThreshold) :
    l₁.mergeSort byThreshold = l₂.mergeSort byThreshold := by
  have h2 : l₂.Pairwise fun a b => a.visitorThreshold ≠ b.visitorThreshold :=
    hp.pairwise h (fun h e => h e.symm)
  have hp' : (l₁.mergeSort byThreshold).Perm (l₂.mergeSort byThreshold) :=
    (List.mergeSort_perm l₁ _).trans (hp.trans (List.mergeSort_perm l₂ _).symm)
  exact hp'.eq_of_pairwise (le := fun a b => a.visitorThreshold < b.visitorThreshold)
    (by intro a b _ _ h1 h2; omega) (sorted_strict l₁ h) (sorted_strict l₂ h2)

theorem buildFrom_eq (ls : List Level) :
    buildFrom ls =
      if firsts ls = [] then .error .levelEmpty
      else if ∃ l ∈ firsts ls, l.difficultyFactor = 0 then .error .difficultyFactorZero
      else if DefenseBuilder.hasDecrease ((firsts ls).mergeSort byThreshold) then
        .error .decreaseingDifficultyFactor
      else .ok ⟨(firsts ls).mergeSort byThreshold, 0⟩ := by
  unfold buildFrom
  rw [build_eq, submit_levels]
  repeat' split
  all_goals rfl

theorem buildFrom_ok (ls : List Level) (d : Defense) (h : buildFrom ls = .ok d) :
    d = ⟨(firsts ls).mergeSort byThreshold, 0⟩ ∧ firsts ls ≠ [] ∧
    (∀ l ∈ firsts ls, 0 < l.difficultyFactor) ∧ Coherent (firsts ls) := by
  rw [buildFrom_eq] at h
  split at h
  · cases h
  split at h
  · cases h
  split at h
  · cases h
  rename_i h0 h1 h2
  injection h with h
  refine ⟨h.symm, h0, ?_, ?_⟩
  · intro l hl
    exact Nat.pos_of_ne_zero fun h => h1 ⟨l, hl, h⟩
  · rw [← hasDecrease_iff_not_coherent _ (firsts_pairwise ls)]
    simpa using h2

theorem built_valid (d : Defense) (h : Built d) : Valid d ∧ d.cur = 0 := by
  obtain ⟨ls, h⟩ := h
  obtain ⟨rfl, h0, hpos, hc⟩ := buildFrom_ok ls d h
  refine ⟨⟨?_, ?_, ?_, ?_⟩, rfl⟩
  · show 0 < _
    rw [List.length_mergeSort]
    exact List.length_pos_iff.2 h0
  · exact sorted_strict _ (firsts_pairwise ls)
  · rw [← hasDecrease_false_iff]
    exact (hasDecrease_iff_not_coherent _ (firsts_pairwise ls)).2 hc
  · intro l hl
    exact hpos l (by simpa using hl)

/-! ### Defense moves -/

theorem vecIndex_lt {α : Type} (v : List α) (i : Nat) (h : i < v.length) : vecIndex v i = .ret v[i] := by
  simp [vecIndex, h]

theorem vecIndex_ge {α : Type} (v : List α) (i : Nat) (h : v.length ≤ i) :
    vecIndex v i = .panic .indexOutOfRange := by
  simp [vecIndex, h]

theorem usizeSub_one (p : Profile) (n : Nat) (h : 0 < n) : usizeSub p n 1 = .ret (n - 1) := by
  unfold usizeSub; rw [if_pos (by omega)]

theorem tightenUp_valid (p : Profile) (d : Defense) (h : d.levels ≠ []) :
    d.tightenUp p = .ret (if d.cur < d.levels.length - 1 then { d with cur := d.cur + 1 } else d) := by
  unfold Defense.tightenUp
  rw [usizeSub_one _ _ (List.length_pos_iff.2 h)]
  simp only [Exec.bind]
  split <;> rfl

theorem maxDefense_valid (p : Profile) (d : Defense) (h : d.levels ≠ []) :
    d.maxDefense p = .ret { d with cur := d.levels.length - 1 } := by
  unfold Defense.maxDefense
  rw [usizeSub_one _ _ (List.length_pos_iff.2 h)]
  rfl

theorem move_valid (p : Profile) (d : Defense) (mv : Move) (h : Valid d) :
    ∃ d', Move.apply p d mv = .ret d' ∧ Valid d' ∧ d'.levels = d.levels ∧
      (d'.cur : Int) = clampWalk ((d.levels.length : Int) - 1) d.cur [mv] := by
  have hne : d.levels ≠ [] := by
    intro h0; have := h.inRange; simp [h0] at this
  have hlen := h.inRange
  cases mv with
  | tighten =>
    refine ⟨_, tightenUp_valid p d hne, ?_, ?_, ?_⟩
    · split
      · exact ⟨by simp; omega, h.ascending, h.coherent, h.positive⟩
      · exact h
    · split <;> rfl
    · simp only [clampWalk]
      split
      · simp; omega
      · omega
  | loosen =>
    refine ⟨_, rfl, ?_, ?_, ?_⟩
    · unfold Defense.loosenUp
      split
      · exact ⟨by simp; omega, h.ascending, h.coherent, h.positive⟩
      · exact h
    · unfold Defense.loosenUp; split <;> rfl
    · unfold Defense.loosenUp
      simp only [clampWalk]
      split
      · simp; omega
      · omega
  | max =>
    refine ⟨_, maxDefense_valid p d hne, ?_, rfl, ?_⟩
    · exact ⟨by simp; omega, h.ascending, h.coherent, h.positive⟩
    · simp only [clampWalk]; omega
  | min =>
    refine ⟨_, rfl, ?_, rfl, ?_⟩
    · exact ⟨by simp [Defense.minDefense]; omega, h.ascending, h.coherent, h.positive⟩
    · simp [clampWalk, Defense.minDefense]

theorem clampWalk_cons (top i : Int) (mv : Move) (r : List Move) :
    clampWalk top i (mv :: r) = clampWalk top (clampWalk top i [mv]) r := by
  cases mv <;> rfl

theorem walk_valid (p : Profile) (d : Defense) (mvs : List Move) (h : Valid d) :
    ∃ d', walk p d mvs = .ret d' ∧ Valid d' ∧ d'.levels = d.levels ∧
      (d'.cur : Int) = clampWalk ((d.levels.length : Int) - 1) d.cur mvs := by
  induction mvs generalizing d with
  | nil => exact ⟨d, rfl, h, rfl, rfl⟩
  | cons mv r ih =>
    obtain ⟨d1, h1, hv1, hl1, hc1⟩ := move_valid p d mv h
    obtain ⟨d2, h2, hv2, hl2, hc2⟩ := ih d1 hv1
    refine ⟨d2, ?_, hv2, hl2.trans hl1, ?_⟩
    · simp [walk, h1, h2]
    · rw [clampWalk_cons, ← hc1, ← hl1]
      exact hc2

/-- Difficulty of a valid defense. -/
theorem getDifficulty_valid (d : Defense) (h : Valid d) :
    d.getDifficulty = .ret (d.levels[d.cur]'h.inRange).difficultyFactor := by
  unfold Defense.getDifficulty
  rw [vecIndex_lt _ _ h.inRange]
  rfl

theorem currentLevel_valid (d : Defense) (h : Valid d) :
    d.currentLevel = .ret (d.levels[d.cur]'h.inRange) := vecIndex_lt _ _ h.inRange

theorem difficulty_mono (d : Defense) (h : Valid d) (i j : Nat) (hij : i ≤ j) (hj : j < d.levels.length) :
    (d.levels[i]'(by omega)).difficultyFactor ≤ d.levels[j].difficultyFactor := by
  rcases Nat.lt_or_eq_of_le hij with hlt | rfl
  · exact List.pairwise_iff_getElem.1 h.coherent i j (by omega) hj hlt
  · exact Nat.le_refl _

end MCap
