import Verif.Proofs.Defense

/-!
# Properties C01–C07: level and defense configuration (src/defense.rs)
-/

namespace MCap
open Spec

/-! ## C01 -/

/-- C01: whatever the sequence of setter calls, `build` yields the last threshold and the last non-zero factor,
and otherwise the documented error. -/
theorem C01_level_builder_last_settings (calls : List LevelCall) :
    (levelBuilderAfter calls).build =
      match (thresholdsSet calls).getLast?, (factorsSet calls).getLast? with
      | none, _ => .error .setVisitorThreshold
      | some _, none => .error .setDifficultyFactor
      | some t, some d => .ok { visitorThreshold := t, difficultyFactor := d } := by
  obtain ⟨h1, h2⟩ := foldl_level_fields calls LevelBuilder.default
  simp only [LevelBuilder.default, Option.or_none] at h1 h2
  unfold LevelBuilder.build levelBuilderAfter LevelBuilder.default
  rw [h1, h2]
  cases (thresholdsSet calls).getLast? <;> cases (factorsSet calls).getLast? <;> rfl

/-- C01: `difficulty_factor(0)` is refused and changes nothing; any other factor is accepted. -/
theorem C01_factor_zero_refused (b : LevelBuilder) (d : Nat) :
    (d = 0 → b.setDifficultyFactor d = (.error .difficultyFactorZero, b)) ∧
    (0 < d → b.setDifficultyFactor d = (.ok (), { b with difficultyFactor := some d })) := by
  constructor
  · rintro rfl; rfl
  · intro h; simp [LevelBuilder.setDifficultyFactor, h]

/-- C01: a level obtained from the builder never has difficulty factor 0. -/
theorem C01_built_level_positive (calls : List LevelCall) (l : Level)
    (h : (levelBuilderAfter calls).build = .ok l) : 0 < l.difficultyFactor := by
  rw [C01_level_builder_last_settings] at h
  split at h
  · cases h
  · cases h
  · rename_i t d _ hd
    injection h with h
    subst h
    have : d ∈ factorsSet calls := List.mem_of_getLast? hd
    simp only [factorsSet, List.mem_filterMap] at this
    obtain ⟨c, _, hc⟩ := this
    cases c with
    | threshold t => cases hc
    | factor d' =>
      simp at hc
      show 0 < d
      omega

example : (levelBuilderAfter [.factor 7, .threshold 3, .factor 0, .threshold 50, .factor 9, .factor 0]).build
    = .ok { visitorThreshold := 50, difficultyFactor := 9 } := by decide

/-! ## C02 -/

/-- C02: the `i`-th submission is refused exactly when an earlier submission had the same threshold, and the builder
ends up with exactly the first submission of every threshold, in order. -/
theorem C02_duplicates_refused (ls : List Level) :
    (∀ i (hi : i < ls.length), (submit ls).1[i]? =
      some (if ∃ e ∈ ls.take i, e.visitorThreshold = ls[i].visitorThreshold
        then .error .duplicateVisitorCount else .ok ())) ∧
    (submit ls).2.levels = firsts ls ∧
    (submit ls).2.levels.Pairwise (fun a b => a.visitorThreshold ≠ b.visitorThreshold) :=
  ⟨fun i hi => submit_result ls i hi, submit_levels ls, by rw [submit_levels]; exact firsts_pairwise ls⟩

/-- C02: on any builder, a refusal happens iff the threshold is present, and leaves the builder unchanged;
an acceptance appends the level. -/
theorem C02_refusal_changes_nothing (b : DefenseBuilder) (l : Level) :
    ((∃ e ∈ b.levels, e.visitorThreshold = l.visitorThreshold) →
      b.addLevel l = (.error .duplicateVisitorCount, b)) ∧
    ((∀ e ∈ b.levels, e.visitorThreshold ≠ l.visitorThreshold) →
      b.addLevel l = (.ok (), ⟨b.levels ++ [l]⟩)) := by
  rcases addLevel_ok_iff b l with ⟨h, hn⟩ | ⟨h, ⟨e, he, hq⟩⟩
  · exact ⟨fun ⟨e, he, hq⟩ => absurd hq (hn e he), fun _ => h⟩
  · exact ⟨fun _ => h, fun hn => absurd hq (hn e he)⟩

example : submit [⟨50, 50⟩, ⟨10, 5⟩, ⟨50, 70⟩] =
    ([.ok (), .ok (), .error .duplicateVisitorCount], ⟨[⟨50, 50⟩, ⟨10, 5⟩]⟩) := by decide

/-! ## C03 -/

/-- C03: exact outcome of `build` for every submission. -/
theorem C03_build_outcome (ls : List Level) :
    (firsts ls = [] → buildFrom ls = .error .levelEmpty) ∧
    (firsts ls ≠ [] → (∃ l ∈ firsts ls, l.difficultyFactor = 0) →
      buildFrom ls = .error .difficultyFactorZero) ∧
    (firsts ls ≠ [] → (∀ l ∈ firsts ls, l.difficultyFactor ≠ 0) → ¬ Coherent (firsts ls) →
      buildFrom ls = .error .decreaseingDifficultyFactor) ∧
    (firsts ls ≠ [] → (∀ l ∈ firsts ls, l.difficultyFactor ≠ 0) → Coherent (firsts ls) →
      ∃ d, buildFrom ls = .ok d) := by
  have hco := hasDecrease_iff_not_coherent _ (firsts_pairwise ls)
  rw [buildFrom_eq]
  refine ⟨fun h => by rw [if_pos h], fun h0 h1 => by rw [if_neg h0, if_pos h1], ?_, ?_⟩
  · intro h0 h1 h2
    rw [if_neg h0, if_neg (by rintro ⟨l, hl, hz⟩; exact h1 l hl hz), if_pos]
    by_cases hd : DefenseBuilder.hasDecrease ((firsts ls).mergeSort byThreshold) = true
    · exact hd
    · exact absurd (hco.1 (by simpa using hd)) h2
  · intro h0 h1 h2
    rw [if_neg h0, if_neg (by rintro ⟨l, hl, hz⟩; exact h1 l hl hz), if_neg]
    · exact ⟨_, rfl⟩
    · rw [hco.2 h2]; simp

/-- C03: success iff non-empty, no zero difficulty, and no higher threshold with lower difficulty. -/
theorem C03_build_succeeds_iff (ls : List Level) :
    (∃ d, buildFrom ls = .ok d) ↔
      firsts ls ≠ [] ∧ (∀ l ∈ firsts ls, l.difficultyFactor ≠ 0) ∧ Coherent (firsts ls) := by
  constructor
  · rintro ⟨d, h⟩
    obtain ⟨_, h0, hp, hc⟩ := buildFrom_ok ls d h
    exact ⟨h0, fun l hl => by have := hp l hl; omega, hc⟩
  · rintro ⟨h0, h1, h2⟩
    exact (C03_build_outcome ls).2.2.2 h0 h1 h2

example : buildFrom [⟨500, 10⟩, ⟨50, 50⟩] = .error .decreaseingDifficultyFactor := by
  have hf : firsts [⟨500, 10⟩, ⟨50, 50⟩] = [⟨500, 10⟩, ⟨50, 50⟩] := by decide
  refine (C03_build_outcome _).2.2.1 (by rw [hf]; simp) (by rw [hf]; simp) ?_
  rw [hf]; intro h
  have := h ⟨50, 50⟩ (by simp) ⟨500, 10⟩ (by simp) (by decide)
  simp at this

/-! ## C04 -/

/-- C04: shape of a built defense. -/
theorem C04_built_shape (ls : List Level) (d : Defense) (h : buildFrom ls = .ok d) :
    d.levels.Perm (firsts ls) ∧
    d.levels.Pairwise (fun a b => a.visitorThreshold < b.visitorThreshold) ∧
    d.levels.Pairwise (fun a b => a.difficultyFactor ≤ b.difficultyFactor) ∧
    (∀ l ∈ d.levels, 0 < l.difficultyFactor) ∧
    ∃ l, d.currentLevel = .ret l ∧ l ∈ firsts ls ∧
      ∀ e ∈ firsts ls, l.visitorThreshold ≤ e.visitorThreshold := by
  obtain ⟨hv, hc⟩ := built_valid d ⟨ls, h⟩
  obtain ⟨rfl, h0, _, _⟩ := buildFrom_ok ls d h
  refine ⟨List.mergeSort_perm _ _, hv.ascending, hv.coherent, hv.positive, ?_⟩
  refine ⟨_, currentLevel_valid _ hv, ?_, ?_⟩
  · exact (List.mergeSort_perm _ _).mem_iff.1 (List.getElem_mem hv.inRange)
  · intro e he
    have he' : e ∈ (firsts ls).mergeSort byThreshold := by simpa using he
    obtain ⟨j, hj, rfl⟩ := List.getElem_of_mem he'
    rcases Nat.eq_zero_or_pos j with rfl | hpos
    · exact Nat.le_refl _
    · exact Nat.le_of_lt (List.pairwise_iff_getElem.1 hv.ascending 0 j hv.inRange hj hpos)

/-! ## C05 -/

/-- C05: submissions in any order and number, of which the same levels are accepted, give the same outcome. -/
theorem C05_accepted_decide (ls ls' : List Level) (hp : (firsts ls).Perm (firsts ls')) : buildFrom ls = buildFrom ls' := by
  have hd : (firsts ls).Pairwise fun a b => a.visitorThreshold ≠ b.visitorThreshold := by
    obtain ⟨-, h1, h2⟩ := C02_duplicates_refused ls
    rw [h1] at h2
    exact h2
  rw [buildFrom_eq, buildFrom_eq, sorted_unique (firsts ls) (firsts ls') hp hd]
  have h1 : firsts ls = [] ↔ firsts ls' = [] := by
    constructor
    · intro h; rw [h] at hp; exact hp.nil_eq.symm
    · intro h; rw [h] at hp; exact hp.eq_nil
  have h2 : (∃ l ∈ firsts ls, l.difficultyFactor = 0) ↔ (∃ l ∈ firsts ls', l.difficultyFactor = 0) := by
    constructor
    · rintro ⟨l, hl, hz⟩; exact ⟨l, hp.mem_iff.1 hl, hz⟩
    · rintro ⟨l, hl, hz⟩; exact ⟨l, hp.mem_iff.2 hl, hz⟩
  by_cases a : firsts ls' = []
  · simp [h1.2 a, a]
  · have a' : firsts ls ≠ [] := fun e => a (h1.1 e)
    simp only [a, a', if_false, h2]

/-- C05: submitting the same levels (distinct thresholds) in any order gives the same outcome. -/
theorem C05_order_irrelevant (ls ls' : List Level) (hp : ls.Perm ls')
    (hd : ls.Pairwise fun a b => a.visitorThreshold ≠ b.visitorThreshold) :
    buildFrom ls = buildFrom ls' := by
  have hd' : ls'.Pairwise fun a b => a.visitorThreshold ≠ b.visitorThreshold :=
    hp.pairwise hd (fun h e => h e.symm)
  exact C05_accepted_decide ls ls' (by rw [firsts_eq_self ls hd, firsts_eq_self ls' hd']; exact hp)

/-- Resubmitted thresholds are refused, so which of them comes first matters. -/
example : (firsts [⟨5, 10⟩, ⟨9, 20⟩, ⟨5, 30⟩]).Perm (firsts [⟨9, 20⟩, ⟨5, 10⟩]) ∧
    ¬ (firsts [⟨5, 10⟩, ⟨9, 20⟩, ⟨5, 30⟩]).Perm (firsts [⟨5, 30⟩, ⟨9, 20⟩, ⟨5, 10⟩]) := by decide

/-- C05: whatever `build` calls come in between, each `build` gives what the levels submitted so far give, and each `add_level` is
answered as if there had been no `build`. -/
theorem C05_builds_between (calls : List DefenseCall) :
    (defenseBuilderAfter calls).build.1 = buildFrom (levelsAdded calls) ∧
    ∀ l, ((defenseBuilderAfter calls).addLevel l).1 = ((submit (levelsAdded calls)).2.addLevel l).1 := by
  have key : ∀ calls : List DefenseCall, (defenseBuilderAfter calls).levels.Perm (firsts (levelsAdded calls)) ∧
      ∀ l, ((defenseBuilderAfter calls).addLevel l).1 = ((submit (levelsAdded calls)).2.addLevel l).1 := by
    have any_perm : ∀ (b b' : DefenseBuilder) (l : Level), b.levels.Perm b'.levels → (b.addLevel l).1 = (b'.addLevel l).1 := by
      intro b b' l hp
      simp only [DefenseBuilder.addLevel, hp.any_eq]
      split <;> rfl
    have step : ∀ (calls : List DefenseCall), (defenseBuilderAfter calls).levels.Perm (firsts (levelsAdded calls)) := by
      intro calls
      rw [← List.reverse_reverse calls]
      generalize calls.reverse = rc
      induction rc with
      | nil => exact List.Perm.refl _
      | cons c r ih =>
        rw [List.reverse_cons]
        have e : defenseBuilderAfter (r.reverse ++ [c]) = DefenseCall.apply (defenseBuilderAfter r.reverse) c := by
          simp [defenseBuilderAfter]
        rw [e]
        cases c with
        | build =>
          have e2 : levelsAdded (r.reverse ++ [.build]) = levelsAdded r.reverse := by simp [levelsAdded]
          rw [e2]
          refine List.Perm.trans ?_ ih
          simp only [DefenseCall.apply, DefenseBuilder.build]
          split
          · exact List.Perm.refl _
          · have hm : ∀ l : List Level, (l.mergeSort fun x y => decide (x.visitorThreshold ≤ y.visitorThreshold)).Perm l :=
              fun l => List.mergeSort_perm _ _
            split
            · exact hm _
            · split <;> exact hm _
        | add l =>
          have e2 : levelsAdded (r.reverse ++ [.add l]) = levelsAdded r.reverse ++ [l] := by simp [levelsAdded]
          rw [e2, ← submit_levels, submit_snoc]
          simp only [DefenseCall.apply]
          have ih' : (defenseBuilderAfter r.reverse).levels.Perm (submit (levelsAdded r.reverse)).2.levels := by rw [submit_levels]; exact ih
          simp only [DefenseBuilder.addLevel, ih'.any_eq]
          split
          · exact ih'
          · exact ih'.append_right _
    exact fun calls => ⟨step calls, fun l => any_perm _ _ l (by rw [submit_levels]; exact step calls)⟩
  refine ⟨?_, (key calls).2⟩
  obtain ⟨hp, -⟩ := key calls
  have hd : (firsts (levelsAdded calls)).Pairwise fun a b => a.visitorThreshold ≠ b.visitorThreshold := firsts_pairwise _
  have hd' := hp.symm.pairwise hd (fun h e => h e.symm)
  rw [buildFrom_eq, build_eq, sorted_unique _ _ hp hd']
  have h1 : (defenseBuilderAfter calls).levels = [] ↔ firsts (levelsAdded calls) = [] := by
    constructor
    · intro h; rw [h] at hp; exact hp.nil_eq.symm
    · intro h; rw [h] at hp; exact hp.eq_nil
  have h2 : (∃ l ∈ (defenseBuilderAfter calls).levels, l.difficultyFactor = 0) ↔
      (∃ l ∈ firsts (levelsAdded calls), l.difficultyFactor = 0) := by
    constructor
    · rintro ⟨l, hl, hz⟩; exact ⟨l, hp.mem_iff.1 hl, hz⟩
    · rintro ⟨l, hl, hz⟩; exact ⟨l, hp.mem_iff.2 hl, hz⟩
  simp only [h1, h2]
  by_cases a : firsts (levelsAdded calls) = []
  · simp [a]
  · simp only [a, if_false]
    by_cases b : ∃ l ∈ firsts (levelsAdded calls), l.difficultyFactor = 0
    · simp only [b, if_true]
    · simp only [b, if_false]
      split <;> rfl

/-- A build in the middle, of too few levels and in the wrong order. -/
example : levelsAdded [.add ⟨9, 20⟩, .build, .add ⟨5, 10⟩, .build, .add ⟨9, 30⟩] = [⟨9, 20⟩, ⟨5, 10⟩, ⟨9, 30⟩] := by decide

/-- C05: a second `build` on the same builder gives the same outcome as the first. -/
theorem C05_build_repeatable (b : DefenseBuilder) : b.build.2.build.1 = b.build.1 := by
  have key : ∀ l : List Level, (l.mergeSort byThreshold).mergeSort byThreshold = l.mergeSort byThreshold := by
    intro l
    apply List.mergeSort_of_pairwise
    exact (sorted_levels l).imp (by intro a b h; simpa [byThreshold] using h)
  have hnil : ∀ l : List Level, l.mergeSort byThreshold = [] ↔ l = [] := by
    intro l
    rw [← List.length_eq_zero_iff, List.length_mergeSort, List.length_eq_zero_iff]
  have hz : (∃ l ∈ b.levels.mergeSort byThreshold, l.difficultyFactor = 0) ↔
      (∃ l ∈ b.levels, l.difficultyFactor = 0) := by simp
  rw [build_eq b]
  by_cases h0 : b.levels = []
  · simp only [h0, if_true]; rw [build_eq]; simp [h0]
  by_cases h1 : ∃ l ∈ b.levels, l.difficultyFactor = 0
  · simp only [h0, if_false, h1, if_true]
    rw [build_eq]
    rw [if_neg (by simpa [hnil] using h0), if_pos (hz.2 h1)]
  by_cases h2 : DefenseBuilder.hasDecrease (b.levels.mergeSort byThreshold) = true
  · simp only [h0, if_false, h1, h2, if_true]
    rw [build_eq, if_neg (by simpa [hnil] using h0), if_neg (fun h => h1 (hz.1 h)), if_pos (by simpa [key] using h2)]
  · simp only [h0, if_false, h1, if_neg h2]
    rw [build_eq, if_neg (by simpa [hnil] using h0), if_neg (fun h => h1 (hz.1 h)), if_neg (by simpa [key] using h2)]
    simp [key]

/-! ## C06 -/

/-- A concrete built defense used in examples: three levels. -/
def exDefense : Defense := ⟨[⟨5, 10⟩, ⟨10, 20⟩, ⟨20, 60⟩], 0⟩

theorem exDefense_built : Built exDefense := by
  refine ⟨[⟨20, 60⟩, ⟨5, 10⟩, ⟨10, 20⟩], ?_⟩
  rw [C05_order_irrelevant _ [⟨5, 10⟩, ⟨10, 20⟩, ⟨20, 60⟩] (by decide) (by decide)]
  have hf : firsts [⟨5, 10⟩, ⟨10, 20⟩, ⟨20, 60⟩] = [⟨5, 10⟩, ⟨10, 20⟩, ⟨20, 60⟩] := by decide
  obtain ⟨d, hd⟩ := (C03_build_succeeds_iff [⟨5, 10⟩, ⟨10, 20⟩, ⟨20, 60⟩]).2
    (by rw [hf]; refine ⟨by simp, by simp, ?_⟩; unfold Coherent; decide)
  rw [hd]
  obtain ⟨rfl, -⟩ := buildFrom_ok _ _ hd
  rw [hf, List.mergeSort_of_pairwise (by decide)]
  rfl

/-- C06: from a built defense any sequence of moves runs without panic, keeps the levels, and ends at the position an
integer walk clamped to `[0, levels - 1]` reaches; the difficulty reported is that of this position. -/
theorem C06_walk_clamped (p : Profile) (d₀ : Defense) (h : Built d₀) (mvs : List Move) :
    ∃ d, walk p d₀ mvs = .ret d ∧ d.levels = d₀.levels ∧
      (d.cur : Int) = clampWalk ((d₀.levels.length : Int) - 1) 0 mvs ∧
      ∃ l, d₀.levels[d.cur]? = some l ∧ d.currentLevel = .ret l ∧ d.getDifficulty = .ret l.difficultyFactor := by
  obtain ⟨hv, h0⟩ := built_valid d₀ h
  obtain ⟨d, h1, hv', hl, hc⟩ := walk_valid p d₀ mvs hv
  refine ⟨d, h1, hl, by rw [hc, h0]; rfl, d.levels[d.cur]'hv'.inRange, ?_, currentLevel_valid d hv',
    getDifficulty_valid d hv'⟩
  rw [← hl]
  exact List.getElem?_eq_getElem hv'.inRange

/-- C06: at every point of any walk, tightening never lowers the difficulty, loosening never raises it; at the top
(bottom) tightening (loosening) changes nothing. -/
theorem C06_moves_monotone (p : Profile) (d₀ d : Defense) (h : Built d₀) (mvs : List Move)
    (hw : walk p d₀ mvs = .ret d) (q : Nat) (hq : d.getDifficulty = .ret q) :
    (∃ d' q', d.tightenUp p = .ret d' ∧ d'.getDifficulty = .ret q' ∧ q ≤ q') ∧
    (∃ q', d.loosenUp.getDifficulty = .ret q' ∧ q' ≤ q) ∧
    (d.cur + 1 = d.levels.length → d.tightenUp p = .ret d) ∧
    (d.cur = 0 → d.loosenUp = d) := by
  obtain ⟨hv0, _⟩ := built_valid d₀ h
  obtain ⟨d1, h1, hv, _, _⟩ := walk_valid p d₀ mvs hv0
  rw [hw] at h1
  injection h1 with h1
  subst h1
  rw [getDifficulty_valid d hv] at hq
  injection hq with hq
  have hr := hv.inRange
  have hne : d.levels ≠ [] := by intro h0; simp [h0] at hr
  refine ⟨?_, ?_, ?_, ?_⟩
  · obtain ⟨d', hd', hv', hl', hc'⟩ := move_valid p d .tighten hv
    refine ⟨d', _, hd', getDifficulty_valid d' hv', ?_⟩
    have hr' := hv'.inRange
    rw [← hq]
    have hle : d.cur ≤ d'.cur := by
      simp only [clampWalk] at hc'; omega
    have := difficulty_mono d hv d.cur d'.cur hle (by rw [← hl']; exact hr')
    simpa only [hl'] using this
  · obtain ⟨d', hd', hv', hl', hc'⟩ := move_valid p d .loosen hv
    have hd'' : d' = d.loosenUp := by
      simp only [Move.apply] at hd'; injection hd' with hd'; exact hd'.symm
    subst hd''
    refine ⟨_, getDifficulty_valid _ hv', ?_⟩
    have hr' := hv'.inRange
    rw [← hq]
    have hle : d.loosenUp.cur ≤ d.cur := by
      simp only [clampWalk] at hc'; omega
    have := difficulty_mono d hv _ d.cur hle hr
    simpa only [hl'] using this
  · intro htop
    rw [tightenUp_valid p d hne, if_neg (by omega)]
  · intro hbot
    simp [Defense.loosenUp, hbot]

example : walk ⟨true⟩ exDefense [.loosen, .tighten, .tighten, .tighten, .tighten, .loosen]
    = .ret { exDefense with cur := 1 } := by decide

/-! ## C07 -/

/-- C07 is false of the code: `Defense::visitor_threshold` does not return the current level's visitor threshold. -/
theorem C07_visitor_threshold_refuted :
    ¬ ∀ d, Built d → d.visitorThreshold = d.currentLevel.map (·.visitorThreshold) := by
  intro h
  have := h exDefense exDefense_built
  revert this
  decide

/-- C07, what holds: the method returns the current *difficulty factor*, hence the visitor threshold only when the two
numbers of the current level coincide. -/
theorem C07_visitor_threshold_partial (d : Defense) :
    d.visitorThreshold = d.getDifficulty ∧
    ∀ l, d.currentLevel = .ret l →
      (d.visitorThreshold = .ret l.visitorThreshold ↔ l.difficultyFactor = l.visitorThreshold) := by
  refine ⟨rfl, ?_⟩
  intro l hl
  unfold Defense.currentLevel at hl
  unfold Defense.visitorThreshold
  rw [hl]
  simp

end MCap
