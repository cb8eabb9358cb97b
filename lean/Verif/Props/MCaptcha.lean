import Verif.Proofs.MCaptcha
import Verif.Props.Defense

/-!
# Properties C08–C16: visitor counting and difficulty selection (src/mcaptcha.rs)
-/

namespace MCap
open Spec

/-! ## C08 -/

/-- C08: outcome of `MCaptchaBuilder::build` after any sequence of calls. -/
theorem C08_mcaptcha_builder_outcome (calls : List MBuilderCall) :
    (mBuilderAfter calls).build =
      match (durationsSet calls).getLast?, (defensesSet calls).getLast? with
      | none, _ => .error (.pleaseSetValue "duration")
      | some _, none => .error (.pleaseSetValue "defense")
      | some 0, some _ => .error .captchaDurationZero
      | some (n + 1), some d => .ok { visitors := 0, defense := d, duration := n + 1 } := by
  obtain ⟨h1, h2, h3⟩ := foldl_mbuilder calls MCaptchaBuilder.default
  simp only [MCaptchaBuilder.default, Option.or_none] at h1 h2 h3
  unfold MCaptchaBuilder.build mBuilderAfter MCaptchaBuilder.default
  rw [h1, h2, h3]
  cases (durationsSet calls).getLast? with
  | none => rfl
  | some n =>
    cases (defensesSet calls).getLast? with
    | none => rfl
    | some d => cases n <;> simp

/-- A concrete fresh mCaptcha used in examples. -/
def exM : MCaptcha := { visitors := 0, defense := exDefense, duration := 30 }

theorem exM_fresh : FreshM exM :=
  ⟨[.duration 0, .defense exDefense, .duration 30],
    by intro d hd; simp [defensesSet] at hd; subst hd; exact exDefense_built, by decide⟩

/-! ## C09 -/

/-- C09: for every history that keeps the count below 2^32, no call panics and the visitor count is the reference
count; the configured duration and levels never change. -/
theorem C09_visitor_count_exact (p : Profile) (m : MCaptcha) (h : StartM m) (hist : List Traffic)
    (hf : Fits 0 hist) :
    ∃ m', traffic p m hist = .ret m' ∧ m'.getVisitors = countAfter 0 hist ∧
      m'.getDuration = m.getDuration ∧ m'.getDefense.levels = m.getDefense.levels := by
  obtain ⟨hm, h0⟩ := startM_valid m h
  obtain ⟨m', h1, _, h2, h3, h4⟩ := traffic_valid p m hist hm (by rw [h0]; exact hf)
  exact ⟨m', h1, by rw [← h0]; exact h2, h3, h4⟩

/-- C09: decrementing by `n` is truncated subtraction and touches nothing else. -/
theorem C09_decrement_truncates (m : MCaptcha) (n : Nat) :
    (m.decrementVisitorBy n).getVisitors = (if n ≤ m.getVisitors then m.getVisitors - n else 0) ∧
    (m.decrementVisitorBy n).getDuration = m.getDuration ∧
    (m.decrementVisitorBy n).getDefense = m.getDefense := by
  rw [decrement_eq]
  refine ⟨?_, rfl, rfl⟩
  show m.visitors - n = _
  unfold MCaptcha.getVisitors
  split <;> omega

example : Fits 0 [.visit, .visit, .leave 5, .visit] ∧ countAfter 0 [.visit, .visit, .leave 5, .visit] = 1 := by
  refine ⟨?_, by decide⟩
  intro k
  match k with
  | 0 => decide
  | 1 => decide
  | 2 => decide
  | 3 => decide
  | k + 4 => simp [countAfter]

/-! ## C10 -/

/-- C10: whatever levels the operator moved before, and whatever the traffic, every state is a valid one. -/
theorem C10_states_valid (p : Profile) (m₀ m : MCaptcha) (h : StartM m₀) (hist : List Traffic) (hr : traffic p m₀ hist = .ret m) :
    MValid m :=
  (traffic_ret p m₀ m hist (startM_valid m₀ h).1 hr).1

/-- C10: overflow boundary of `add_visitor`, for every valid state. -/
theorem C10_overflow_boundary (p : Profile) (m : MCaptcha) (hm : MValid m) :
    (m.getVisitors + 1 < 2 ^ 32 → ∃ m', m.addVisitor p = .ret m' ∧ m'.getVisitors = m.getVisitors + 1) ∧
    (m.getVisitors + 1 = 2 ^ 32 → p.overflowChecks = true → m.addVisitor p = .panic .arithmeticOverflow) ∧
    (m.getVisitors + 1 = 2 ^ 32 → p.overflowChecks = false →
      ∃ m', m.addVisitor p = .ret m' ∧ m'.getVisitors = 0) ∧
    m.getVisitors < 2 ^ 32 := by
  refine ⟨?_, ?_, ?_, hm.count⟩
  · intro hlt
    obtain ⟨m', h1, _, h2, _⟩ := addVisitor_mvalid p m hm hlt
    exact ⟨m', h1, h2⟩
  · intro heq hp
    have heq' : m.visitors + 1 = u32Size := heq
    unfold MCaptcha.addVisitor u32Succ
    rw [if_neg (by omega), if_pos hp]
    rfl
  · intro heq hp
    have heq' : m.visitors + 1 = u32Size := heq
    unfold MCaptcha.addVisitor u32Succ
    rw [if_neg (by omega), if_neg (by simp [hp])]
    simp only [Exec.bind]
    rw [currentLevel_valid _ hm.defense]
    simp only
    rw [if_neg (by omega)]
    exact ⟨_, rfl, rfl⟩

/-- The boundary is a real one: a valid mCaptcha with 2^32 - 1 visitors. -/
example : ({ exM with visitors := 4294967295 } : MCaptcha).addVisitor ⟨true⟩ = .panic .arithmeticOverflow ∧
    ({ exM with visitors := 4294967295 } : MCaptcha).addVisitor ⟨false⟩ = .ret { exM with visitors := 0 } := by
  decide

/-! ## C11 -/

/-- C11: effect of one visit on the level, for every valid state below the overflow boundary. `l` is the current level. -/
theorem C11_visit_moves_one_level (p : Profile) (m : MCaptcha) (hm : MValid m) (hv : m.getVisitors + 1 < 2 ^ 32) (l : Level)
    (hl : m.getDefense.currentLevel = .ret l) :
    ∃ m', m.addVisitor p = .ret m' ∧ m'.getVisitors = m.getVisitors + 1 ∧
      m'.getDefense.levels = m.getDefense.levels ∧ m'.getDuration = m.getDuration ∧
      (l.visitorThreshold < m.getVisitors + 1 → m.getDefense.cur + 1 < m.getDefense.levels.length →
        m'.getDefense.cur = m.getDefense.cur + 1) ∧
      (l.visitorThreshold < m.getVisitors + 1 → m.getDefense.cur + 1 = m.getDefense.levels.length →
        m'.getDefense.cur = m.getDefense.cur) ∧
      (¬ l.visitorThreshold < m.getVisitors + 1 → 0 < m.getDefense.cur →
        m'.getDefense.cur + 1 = m.getDefense.cur) ∧
      (¬ l.visitorThreshold < m.getVisitors + 1 → m.getDefense.cur = 0 → m'.getDefense.cur = 0) := by
  obtain ⟨m', h1, hm', hv', hd', hl', hc'⟩ := addVisitor_mvalid p m hm hv
  have hle : m.defense.levels[m.defense.cur]'hm.defense.inRange = l := by
    have := currentLevel_valid _ hm.defense
    unfold MCaptcha.getDefense at hl
    rw [this] at hl
    injection hl
  refine ⟨m', h1, hv', hl', hd', ?_, ?_, ?_, ?_⟩ <;>
    simp only [MCaptcha.getVisitors, MCaptcha.getDefense, hc', nextCur, hle]
  · intro a b; rw [if_pos a, if_pos b]
  · intro a b; rw [if_pos a, if_neg (by omega)]
  · intro a b; rw [if_neg a]; omega
  · intro a b; rw [if_neg a]; omega

/-- C11: departures never change the level or the difficulty. -/
theorem C11_departures_keep_level (m : MCaptcha) (n : Nat) :
    (m.decrementVisitorBy n).getDefense = m.getDefense ∧
    (m.decrementVisitorBy n).getDifficulty = m.getDifficulty := by
  rw [decrement_eq]
  exact ⟨rfl, rfl⟩

example : traffic ⟨true⟩ exM (List.replicate 5 .visit) = .ret { exM with visitors := 5 } := by decide
example : ∃ m, traffic ⟨true⟩ exM (List.replicate 6 .visit) = .ret m ∧ m.defense.cur = 1 := ⟨_, rfl, rfl⟩

/-! ## C12 -/

/-- C12: in *every* history (visits and departures), the level in force is at most one below the number of thresholds
the current count exceeds: protection never lags the load by more than one level. -/
theorem C12_never_more_than_one_below (p : Profile) (m₀ m : MCaptcha) (h : StartM m₀) (hist : List Traffic)
    (hr : traffic p m₀ hist = .ret m) :
    exceeded m.getDefense.levels m.getVisitors ≤ m.getDefense.cur + 1 := by
  obtain ⟨hm0, h0⟩ := startM_valid m₀ h
  refine traffic_lower p m₀ m hist hm0 ?_ hr
  rw [h0]
  have : exceeded m₀.defense.levels 0 = 0 := by simp [exceeded]
  omega

/-- C12: in every history the difficulty quoted is the one configured for the level in force. -/
theorem C12_quote_is_level_in_force (p : Profile) (m₀ m : MCaptcha) (h : StartM m₀) (hist : List Traffic)
    (hr : traffic p m₀ hist = .ret m) :
    ∃ l, m₀.getDefense.levels[m.getDefense.cur]? = some l ∧ m.getDifficulty = .ret l.difficultyFactor := by
  obtain ⟨hm, -, hl⟩ := traffic_ret p m₀ m hist (startM_valid m₀ h).1 hr
  refine ⟨m.defense.levels[m.defense.cur]'hm.defense.inRange, ?_, ?_⟩
  · show m₀.defense.levels[m.defense.cur]? = _
    rw [← hl]
    exact List.getElem?_eq_getElem hm.defense.inRange
  · show m.defense.getDifficulty = _
    have := currentLevel_valid _ hm.defense
    unfold Defense.currentLevel at this
    unfold Defense.getDifficulty
    rw [this]
    rfl

/-- C12: with visits only, the level is the number of exceeded thresholds or one below it; while no threshold is
exceeded the lowest level is in force; as soon as all are exceeded the highest is. -/
theorem C12_rising_load (p : Profile) (m₀ : MCaptcha) (h : FreshM m₀) (k : Nat) (hk : k < 2 ^ 32) :
    ∃ m, traffic p m₀ (List.replicate k .visit) = .ret m ∧ m.getVisitors = k ∧
      m.getDefense.levels = m₀.getDefense.levels ∧
      (m.getDefense.cur = exceeded m₀.getDefense.levels k ∨
        m.getDefense.cur + 1 = exceeded m₀.getDefense.levels k) ∧
      (exceeded m₀.getDefense.levels k = 0 → m.getDefense.cur = 0) ∧
      (exceeded m₀.getDefense.levels k = m₀.getDefense.levels.length →
        m.getDefense.cur + 1 = m₀.getDefense.levels.length) := by
  obtain ⟨hm0, hc0, h0⟩ := freshM_valid m₀ h
  have hf : Fits 0 (List.replicate k .visit) := fits_replicate 0 k (by simpa [u32Size] using hk)
  obtain ⟨m, h1, hm, hv, _, hl⟩ := traffic_valid p m₀ _ hm0 (by rw [h0]; exact hf)
  rw [h0, countAfter_replicate, Nat.zero_add] at hv
  have hlow := C12_never_more_than_one_below p m₀ m (startM_of_freshM m₀ h) _ h1
  have hup := visits_upper p m₀ m k hm0 (by omega) (by rw [h0]; simpa [u32Size] using hk) h1
  have hr := hm.defense.inRange
  simp only [MCaptcha.getVisitors, MCaptcha.getDefense] at *
  rw [hv, hl] at hlow hup
  rw [hl] at hr
  refine ⟨m, h1, hv, hl, ?_, ?_, ?_⟩ <;> omega

example : exceeded exDefense.levels 12 = 2 ∧ exceeded exDefense.levels 21 = 3 := by decide

/-! ## C13 -/

/-- C13 is false of the code: inside one load band consecutive visitors are quoted different difficulties. -/
theorem C13_stable_in_band_refuted :
    ∃ (m₀ m₁ m₂ m₃ : MCaptcha), FreshM m₀ ∧
      traffic ⟨true⟩ m₀ (List.replicate 6 .visit) = .ret m₁ ∧
      traffic ⟨true⟩ m₀ (List.replicate 7 .visit) = .ret m₂ ∧
      traffic ⟨true⟩ m₀ (List.replicate 8 .visit) = .ret m₃ ∧
      exceeded m₀.getDefense.levels 6 = 1 ∧ exceeded m₀.getDefense.levels 8 = 1 ∧
      m₁.getDifficulty = .ret 20 ∧ m₂.getDifficulty = .ret 10 ∧ m₃.getDifficulty = .ret 20 :=
  ⟨exM, _, _, _, exM_fresh, rfl, rfl, rfl, by decide, by decide, by decide, by decide, by decide⟩

/-- C13: the general law. Whenever the count of the next two visits lies strictly inside the ladder (at least one but not
all thresholds exceeded, the same number both times) and the level is in its normal position, the level alternates
between the two levels around the band, visit after visit. -/
theorem C13_oscillation_in_band (p : Profile) (m : MCaptcha) (hv : Valid m.defense) (b : Nat)
    (hcount : m.visitors + 2 < 2 ^ 32) (hb0 : 0 < b) (hb1 : b < m.defense.levels.length)
    (h1 : exceeded m.defense.levels (m.visitors + 1) = b) (h2 : exceeded m.defense.levels (m.visitors + 2) = b) :
    ∃ m₁ m₂, m.addVisitor p = .ret m₁ ∧ m₁.addVisitor p = .ret m₂ ∧
      (m.defense.cur = b → m₁.defense.cur + 1 = b ∧ m₂.defense.cur = b) ∧
      (m.defense.cur + 1 = b → m₁.defense.cur = b ∧ m₂.defense.cur + 1 = b) := by
  have e1 := addVisitor_valid p m hv (by unfold u32Size; omega)
  have hr := hv.inRange
  let m₁ : MCaptcha :=
    { visitors := m.visitors + 1
      defense := { levels := m.defense.levels, cur := nextCur m.defense hv.inRange (m.visitors + 1) }
      duration := m.duration }
  have hv1 : Valid m₁.defense := ⟨nextCur_lt _ _ _, hv.ascending, hv.coherent, hv.positive⟩
  have e2 := addVisitor_valid p m₁ hv1 (by show m.visitors + 1 + 1 < u32Size; unfold u32Size; omega)
  refine ⟨m₁, _, e1, e2, ?_, ?_⟩
  · intro hc
    have c1 : m₁.defense.cur = b - 1 := by
      show nextCur _ _ _ = _
      rw [nextCur_eq _ hv, h1, if_neg (by omega)]; omega
    refine ⟨by omega, ?_⟩
    show nextCur _ _ _ = _
    rw [nextCur_eq _ hv1]
    have h2' : exceeded m₁.defense.levels (m₁.visitors + 1) = b := h2
    have hlen : m₁.defense.levels.length = m.defense.levels.length := rfl
    rw [h2', c1, hlen, if_pos (by omega), if_pos (by omega)]
    omega
  · intro hc
    have c1 : m₁.defense.cur = b := by
      show nextCur _ _ _ = _
      rw [nextCur_eq _ hv, h1, if_pos (by omega), if_pos (by omega)]; omega
    refine ⟨c1, ?_⟩
    show nextCur _ _ _ + 1 = _
    rw [nextCur_eq _ hv1]
    have h2' : exceeded m₁.defense.levels (m₁.visitors + 1) = b := h2
    rw [h2', c1, if_neg (by omega)]
    omega

/-- C13, what holds: at both ends of the ladder the level is stable. Once in the lowest level it stays there while no
threshold is exceeded; once in the highest it stays there while all are exceeded. -/
theorem C13_stable_in_band_partial (p : Profile) (m m' : MCaptcha) (hv : Valid m.defense)
    (hcount : m.visitors + 1 < 2 ^ 32) (hr : m.addVisitor p = .ret m') :
    (m.defense.cur = 0 → exceeded m.defense.levels (m.visitors + 1) = 0 → m'.getDifficulty = m.getDifficulty) ∧
    (m.defense.cur + 1 = m.defense.levels.length →
      exceeded m.defense.levels (m.visitors + 1) = m.defense.levels.length →
      m'.getDifficulty = m.getDifficulty) := by
  rw [addVisitor_valid p m hv hcount] at hr
  injection hr with hr
  have key : nextCur m.defense hv.inRange (m.visitors + 1) = m.defense.cur → m'.getDifficulty = m.getDifficulty := by
    intro h
    rw [← hr, h]
    rfl
  constructor
  · intro a b
    apply key
    rw [nextCur_eq _ hv, b, if_neg (by omega)]; omega
  · intro a b
    apply key
    rw [nextCur_eq _ hv, b, if_pos (by omega), if_neg (by omega)]

/-- C13, what holds, exactly: a visit leaves the level in force as it is only at the ends of the ladder, in the lowest level while no threshold
is exceeded and in the highest while all are. In between every visit changes it, and where the difficulties of the levels differ every
visit changes the price. -/
theorem C13_stable_iff_partial (p : Profile) (m m' : MCaptcha) (hm : MValid m) (hcount : m.visitors + 1 < 2 ^ 32) (hr : m.addVisitor p = .ret m') :
    (m'.defense.cur = m.defense.cur ↔
      (m.defense.cur = 0 ∧ exceeded m.defense.levels (m.visitors + 1) = 0) ∨
      (m.defense.cur + 1 = m.defense.levels.length ∧ exceeded m.defense.levels (m.visitors + 1) = m.defense.levels.length)) ∧
    (m.defense.levels.Pairwise (fun a b => a.difficultyFactor < b.difficultyFactor) →
      (m'.getDifficulty = m.getDifficulty ↔ m'.defense.cur = m.defense.cur)) := by
  obtain ⟨m1, h1, hm1, hv1, -, hl1, hc1⟩ := addVisitor_mvalid p m hm hcount
  rw [hr] at h1
  injection h1 with h1
  subst h1
  have hin := hm.defense.inRange
  have hle := exceeded_le_length m.defense.levels (m.visitors + 1)
  refine ⟨?_, fun hp => ⟨fun he => ?_, fun he => ?_⟩⟩
  · rw [hc1, nextCur_eq _ hm.defense]
    repeat' split
    all_goals omega
  · rw [getDifficulty_mvalid _ hm1, getDifficulty_mvalid _ hm] at he
    injection he with he
    simp only [hl1] at he
    have hin1 := hm1.defense.inRange
    rw [hl1] at hin1
    rcases Nat.lt_trichotomy m'.defense.cur m.defense.cur with hlt | heq | hgt
    · have := List.pairwise_iff_getElem.1 hp _ _ hin1 hin hlt; omega
    · exact heq
    · have := List.pairwise_iff_getElem.1 hp _ _ hin hin1 hgt; omega
  · rw [getDifficulty_mvalid _ hm1, getDifficulty_mvalid _ hm]
    simp only [hl1, he]

/-- The seventh visitor, in the middle of the ladder. -/
example : ∃ m m', traffic ⟨true⟩ exM (List.replicate 6 .visit) = .ret m ∧ m.addVisitor ⟨true⟩ = .ret m' ∧ MValid m ∧
    m.defense.levels.Pairwise (fun a b => a.difficultyFactor < b.difficultyFactor) ∧ m'.defense.cur ≠ m.defense.cur :=
  ⟨_, _, rfl, rfl, ⟨⟨by decide, by decide, by decide, by decide⟩, by decide, by decide⟩, by decide, by decide⟩

/-! ## C14 -/

/-- C14 is false of the code: after the load is completely gone, the next visitor is still quoted a higher difficulty. -/
theorem C14_relaxes_at_once_refuted :
    ∃ (m₀ m : MCaptcha), FreshM m₀ ∧
      traffic ⟨true⟩ m₀ (List.replicate 25 .visit ++ [.leave 25, .visit]) = .ret m ∧
      m.getVisitors = 1 ∧ exceeded m₀.getDefense.levels 1 = 0 ∧
      m.getDifficulty = .ret 20 ∧ m₀.getDifficulty = .ret 10 :=
  ⟨exM, _, exM_fresh, rfl, by decide, by decide, by decide, by decide⟩

/-- C14, what holds: while the load stays at or below the lowest threshold every visit steps down exactly one level, so
after `k` visits the level is `k` lower (at least the lowest), and after as many visits as there are levels the
lowest difficulty is quoted. -/
theorem C14_relaxes_gradually_partial (p : Profile) (m : MCaptcha) (hm : MValid m) (k : Nat)
    (hlow : exceeded m.defense.levels (m.visitors + k) = 0) (hfit : m.visitors + k < 2 ^ 32) :
    ∃ m', traffic p m (List.replicate k .visit) = .ret m' ∧ m'.defense.cur = m.defense.cur - k ∧
      m'.defense.levels = m.defense.levels := by
  induction k generalizing m with
  | zero => exact ⟨m, rfl, rfl, rfl⟩
  | succ k ih =>
    obtain ⟨m1, h1, hm1, hv1, _, hl1, hc1⟩ := addVisitor_mvalid p m hm (by unfold u32Size; omega)
    have hcnt : m1.visitors + k = m.visitors + (k + 1) := by omega
    obtain ⟨m2, h2, hc2, hl2⟩ := ih m1 hm1 (by rw [hl1, hcnt]; exact hlow) (by omega)
    refine ⟨m2, ?_, ?_, hl2.trans hl1⟩
    · rw [List.replicate_succ]; simp [traffic, h1, h2]
    · have hz : exceeded m.defense.levels (m.visitors + 1) = 0 := by
        have := exceeded_mono m.defense.levels (m.visitors + 1) (m.visitors + (k + 1)) (by omega)
        omega
      rw [hc2, hc1, nextCur_eq _ hm.defense, hz, if_neg (by omega)]
      omega

example : MValid { exM with visitors := 0, defense := { exDefense with cur := 2 } } ∧
    exceeded exDefense.levels (0 + 3) = 0 :=
  ⟨⟨⟨by decide, by decide, by decide, by decide⟩, by decide, by decide⟩, by decide⟩

theorem visit_prefix (hist : List Traffic) (h : visitsIn hist ≠ 0) : ∃ pre, pre ++ [.visit] <+: hist := by
  induction hist with
  | nil => simp [visitsIn] at h
  | cons e r ih =>
    cases e with
    | visit => exact ⟨[], by simp⟩
    | leave n =>
      obtain ⟨pre, hp⟩ := ih h
      exact ⟨.leave n :: pre, by simpa using hp⟩

/-- C14, what holds, for every history of visits and departures: each visit moves the level one step towards the load. If the counts the visitors
bring about exceed between `lo` and `hi` thresholds, then after `k` visits the level is at most the `hi`-th, or `k` lower than it
was, and at least one below the `lo`-th, or `k` higher. So as many visits as there are levels always suffice, up or down.
Missing: that the very next visitor sees it, refuted above. -/
theorem C14_follows_load_partial (p : Profile) (m m' : MCaptcha) (hm : MValid m) (hist : List Traffic) (hf : Fits m.visitors hist) (lo hi : Nat)
    (hb : LoadBetween m.defense.levels m.visitors lo hi hist) (hr : traffic p m hist = .ret m') :
    m'.defense.cur ≤ max hi (m.defense.cur - visitsIn hist) ∧ min lo (m.defense.cur + 1 + visitsIn hist) ≤ m'.defense.cur + 1 ∧
    (m.defense.levels.length ≤ visitsIn hist → m'.defense.cur ≤ hi ∧ lo ≤ m'.defense.cur + 1) := by
  obtain ⟨a, b⟩ := traffic_follows p m m' hist hm hf lo hi hb hr
  have hin := hm.defense.inRange
  refine ⟨a, b, fun hk => ⟨by omega, ?_⟩⟩
  have : lo ≤ m.defense.levels.length := by
    obtain ⟨pre, hp⟩ : ∃ pre, pre ++ [.visit] <+: hist := visit_prefix hist (by omega)
    have := (hb pre hp).1
    have := exceeded_le_length m.defense.levels (countAfter m.visitors (pre ++ [.visit]))
    omega
  omega

/-- From the highest level, with four visitors left, five more coming and two leaving: at most one threshold is exceeded, and three visits are
enough. -/
example : LoadBetween exM.defense.levels 4 0 1 [.visit, .visit, .visit, .leave 2, .visit, .visit] ∧
    Fits 4 [.visit, .visit, .visit, .leave 2, .visit, .visit] ∧
    ∃ m', traffic ⟨true⟩ { exM with visitors := 4, defense := { exDefense with cur := 2 } } [.visit, .visit, .visit, .leave 2, .visit, .visit] = .ret m' := by
  refine ⟨fun pre _ => ⟨Nat.zero_le _, ?_⟩, ?_, _, rfl⟩
  · rename_i h
    have hc : countAfter 4 (pre ++ [.visit]) ≤ 7 := by
      obtain ⟨t, ht⟩ := h
      have hlen : (pre ++ [Traffic.visit]).length ≤ 6 := by
        have := congrArg List.length ht
        simp only [List.length_append, List.length_cons, List.length_nil] at this ⊢
        omega
      have hp : pre ++ [.visit] = ([.visit, .visit, .visit, .leave 2, .visit, .visit] : List Traffic).take (pre ++ [Traffic.visit]).length := by
        rw [← ht]; exact (List.take_left' rfl).symm
      rw [hp]
      generalize (pre ++ [Traffic.visit]).length = k at hlen
      revert hlen
      revert k
      decide
    exact Nat.le_trans (exceeded_mono _ _ 7 hc) (by decide)
  · intro k
    match k with
    | 0 => decide
    | 1 => decide
    | 2 => decide
    | 3 => decide
    | 4 => decide
    | 5 => decide
    | k + 6 => simp [countAfter]

/-! ## C15 -/

/-- C15: in every history the difficulty in force is that of a configured level, positive and between the lowest and
the highest configured difficulty. -/
theorem C15_difficulty_configured (p : Profile) (m₀ m : MCaptcha) (h : StartM m₀) (hist : List Traffic)
    (hr : traffic p m₀ hist = .ret m) :
    ∃ l ∈ m₀.getDefense.levels, m.getDifficulty = .ret l.difficultyFactor ∧ 0 < l.difficultyFactor ∧
      ∃ lo hi, m₀.getDefense.levels.head? = some lo ∧ m₀.getDefense.levels.getLast? = some hi ∧
        lo.difficultyFactor ≤ l.difficultyFactor ∧ l.difficultyFactor ≤ hi.difficultyFactor := by
  obtain ⟨hm, _, hl⟩ := traffic_ret p m₀ m hist (startM_valid m₀ h).1 hr
  have hr := hm.defense.inRange
  have hmem : m.defense.levels[m.defense.cur] ∈ m.defense.levels := List.getElem_mem hr
  refine ⟨m.defense.levels[m.defense.cur], by unfold MCaptcha.getDefense; rw [← hl]; exact hmem,
    getDifficulty_mvalid m hm, hm.defense.positive _ hmem, m.defense.levels[0], m.defense.levels[m.defense.levels.length - 1],
    ?_, ?_, ?_, ?_⟩
  · unfold MCaptcha.getDefense
    rw [← hl, List.head?_eq_getElem?]
    exact List.getElem?_eq_getElem _
  · unfold MCaptcha.getDefense
    rw [← hl, List.getLast?_eq_getElem?]
    exact List.getElem?_eq_getElem _
  · exact difficulty_mono _ hm.defense 0 _ (by omega) hr
  · exact difficulty_mono _ hm.defense _ _ (by omega) (by omega)

/-- A start from a level that was moved, and a history around the overflow boundary. -/
example : StartM { exM with defense := { exDefense with cur := 2 } } ∧
    traffic ⟨false⟩ { exM with visitors := 4294967294, defense := { exDefense with cur := 2 } } [.visit, .visit, .visit] =
      .ret { exM with visitors := 1, defense := { exDefense with cur := 0 } } :=
  ⟨⟨[.duration 30, .defense { exDefense with cur := 2 }],
    by intro d hd; simp [defensesSet] at hd; subst hd; exact ⟨⟨true⟩, exDefense, [.tighten, .tighten], exDefense_built, rfl⟩,
    by decide⟩, by decide⟩

/-! ## C16 -/

/-- C16: whatever the history, conversion to the Redis registration payload keeps the configured levels and duration. -/
theorem C16_create_payload (p : Profile) (m₀ m : MCaptcha) (h : StartM m₀) (hist : List Traffic)
    (hr : traffic p m₀ hist = .ret m) :
    m.toCreate.levels = m₀.getDefense.levels ∧ m.toCreate.duration = m₀.getDuration := by
  obtain ⟨-, hd, hl⟩ := traffic_ret p m₀ m hist (startM_valid m₀ h).1 hr
  exact ⟨hl, hd⟩

end MCap
