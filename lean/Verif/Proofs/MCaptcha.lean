import Verif.Proofs.Defense
import Verif.Spec.MCaptcha

namespace MCap
open Spec

/-! ### MCaptchaBuilder -/

theorem foldl_mbuilder (cs : List MBuilderCall) (b : MCaptchaBuilder) :
    (cs.foldl MBuilderCall.apply b).defense = ((defensesSet cs).getLast?).or b.defense ∧
    (cs.foldl MBuilderCall.apply b).duration = ((durationsSet cs).getLast?).or b.duration ∧
    (cs.foldl MBuilderCall.apply b).visitors = b.visitors := by
  induction cs generalizing b with
  | nil => simp [defensesSet, durationsSet]
  | cons c cs ih =>
    simp only [List.foldl_cons]
    obtain ⟨h1, h2, h3⟩ := ih (MBuilderCall.apply b c)
    rw [h1, h2, h3]
    cases c with
    | defense d =>
      refine ⟨?_, ?_, rfl⟩
      · simp [defensesSet, MBuilderCall.apply, MCaptchaBuilder.setDefense, List.getLast?_cons]
      · simp [durationsSet, MBuilderCall.apply, MCaptchaBuilder.setDefense]
    | duration n =>
      refine ⟨?_, ?_, rfl⟩
      · simp [defensesSet, MBuilderCall.apply, MCaptchaBuilder.setDuration]
      · simp [durationsSet, MBuilderCall.apply, MCaptchaBuilder.setDuration, List.getLast?_cons]

theorem built_inv (P : Defense → Prop) (m : MCaptcha) (calls : List MBuilderCall) (hb : ∀ d ∈ defensesSet calls, P d)
    (h : (mBuilderAfter calls).build = .ok m) : P m.defense ∧ 0 < m.duration ∧ m.visitors = 0 := by
  obtain ⟨h1, h2, h3⟩ := foldl_mbuilder calls MCaptchaBuilder.default
  simp only [MCaptchaBuilder.default, Option.or_none] at h1 h2 h3
  unfold MCaptchaBuilder.build mBuilderAfter MCaptchaBuilder.default at h
  rw [h1, h2, h3] at h
  split at h
  · cases h
  · split at h
    · cases h
    · rename_i d hd
      split at h
      · cases h
      · injection h with h
        subst h
        exact ⟨hb d (List.mem_of_getLast? hd), by simp only; omega, rfl⟩

theorem freshM_inv (m : MCaptcha) (h : FreshM m) : Built m.defense ∧ 0 < m.duration ∧ m.visitors = 0 := by
  obtain ⟨calls, hb, h⟩ := h
  exact built_inv Built m calls hb h

theorem freshM_valid (m : MCaptcha) (h : FreshM m) : MValid m ∧ m.defense.cur = 0 ∧ m.visitors = 0 := by
  obtain ⟨hb, hd, h0⟩ := freshM_inv m h
  obtain ⟨hv, hc⟩ := built_valid _ hb
  exact ⟨⟨hv, by rw [h0]; decide, hd⟩, hc, h0⟩

theorem startM_valid (m : MCaptcha) (h : StartM m) : MValid m ∧ m.visitors = 0 := by
  obtain ⟨calls, hb, h⟩ := h
  obtain ⟨⟨p, d₀, mvs, hd, hw⟩, h1, h2⟩ := built_inv _ m calls hb h
  obtain ⟨d, hw', hv, -⟩ := walk_valid p d₀ mvs (built_valid _ hd).1
  rw [hw] at hw'
  injection hw' with hw'
  exact ⟨⟨by rw [hw']; exact hv, by rw [h2]; decide, h1⟩, h2⟩

theorem startM_of_freshM (m : MCaptcha) (h : FreshM m) : StartM m := by
  obtain ⟨calls, hb, h⟩ := h
  exact ⟨calls, fun d hd => ⟨⟨true⟩, d, [], hb d hd, rfl⟩, h⟩

/-! ### add_visitor -/

/-- New level index after a visit that makes the count `v`. -/
def nextCur (d : Defense) (h : d.cur < d.levels.length) (v : Nat) : Nat :=
  if d.levels[d.cur].visitorThreshold < v then
    (if d.cur + 1 < d.levels.length then d.cur + 1 else d.cur)
  else d.cur - 1

theorem addVisitor_valid (p : Profile) (m : MCaptcha) (h : Valid m.defense) (hv : m.visitors + 1 < u32Size) :
    m.addVisitor p = .ret { m with
      visitors := m.visitors + 1,
      defense := { m.defense with cur := nextCur m.defense h.inRange (m.visitors + 1) } } := by
  have hne : m.defense.levels ≠ [] := by
    intro h0; have := h.inRange; simp [h0] at this
  have hr := h.inRange
  unfold MCaptcha.addVisitor u32Succ
  rw [if_pos hv]
  simp only [Exec.bind]
  rw [currentLevel_valid _ h]
  simp only
  unfold nextCur
  by_cases ht : m.defense.levels[m.defense.cur].visitorThreshold < m.visitors + 1
  · rw [if_pos ht, if_pos ht, tightenUp_valid p _ hne]
    by_cases hc : m.defense.cur + 1 < m.defense.levels.length
    · simp only [if_pos (show m.defense.cur < m.defense.levels.length - 1 by omega), if_pos hc]
    · simp only [if_neg (show ¬ m.defense.cur < m.defense.levels.length - 1 by omega), if_neg hc]
  · rw [if_neg ht, if_neg ht]
    unfold Defense.loosenUp
    by_cases hc : m.defense.cur > 0
    · rw [if_pos hc]
    · rw [if_neg hc]
      have : m.defense.cur - 1 = m.defense.cur := by omega
      rw [this]

theorem nextCur_lt (d : Defense) (h : d.cur < d.levels.length) (v : Nat) :
    nextCur d h v < d.levels.length := by
  unfold nextCur; repeat' split
  all_goals omega

theorem addVisitor_mvalid (p : Profile) (m : MCaptcha) (h : MValid m) (hv : m.visitors + 1 < u32Size) :
    ∃ m', m.addVisitor p = .ret m' ∧ MValid m' ∧ m'.visitors = m.visitors + 1 ∧
      m'.duration = m.duration ∧ m'.defense.levels = m.defense.levels ∧
      m'.defense.cur = nextCur m.defense h.defense.inRange (m.visitors + 1) := by
  refine ⟨_, addVisitor_valid p m h.defense hv, ⟨?_, hv, h.duration⟩, rfl, rfl, rfl, rfl⟩
  exact ⟨nextCur_lt _ _ _, h.defense.ascending, h.defense.coherent, h.defense.positive⟩

/-- A visit that returns, at the overflow boundary of an unchecked build too. -/
theorem addVisitor_ret (p : Profile) (m m' : MCaptcha) (h : MValid m) (hr : m.addVisitor p = .ret m') :
    MValid m' ∧ m'.duration = m.duration ∧ m'.defense.levels = m.defense.levels ∧
      ((m.visitors + 1 < u32Size ∧ m'.visitors = m.visitors + 1 ∧
          m'.defense.cur = nextCur m.defense h.defense.inRange (m.visitors + 1)) ∨
        (m.visitors + 1 = u32Size ∧ p.overflowChecks = false ∧ m'.visitors = 0 ∧ m'.defense.cur = m.defense.cur - 1)) := by
  by_cases hv : m.visitors + 1 < u32Size
  · obtain ⟨m1, h1, hm1, hv1, hd1, hl1, hc1⟩ := addVisitor_mvalid p m h hv
    rw [hr] at h1
    injection h1 with h1
    subst h1
    exact ⟨hm1, hd1, hl1, .inl ⟨hv, hv1, hc1⟩⟩
  · have hb : m.visitors + 1 = u32Size := by have := h.count; omega
    unfold MCaptcha.addVisitor u32Succ at hr
    rw [if_neg hv] at hr
    by_cases hp : p.overflowChecks = true
    · rw [if_pos hp] at hr
      cases hr
    · rw [if_neg hp] at hr
      simp only [Exec.bind] at hr
      rw [currentLevel_valid _ h.defense] at hr
      simp only at hr
      rw [if_neg (by omega)] at hr
      injection hr with hr
      have hi := h.defense.inRange
      have hl : m.defense.loosenUp = { m.defense with cur := m.defense.cur - 1 } := by
        unfold Defense.loosenUp
        split
        · rfl
        · have : m.defense.cur - 1 = m.defense.cur := by omega
          rw [this]
      rw [hl] at hr
      subst hr
      refine ⟨⟨⟨?_, h.defense.ascending, h.defense.coherent, h.defense.positive⟩, (by decide : 0 < u32Size), h.duration⟩, rfl, rfl,
        .inr ⟨hb, by simpa using hp, rfl, rfl⟩⟩
      show m.defense.cur - 1 < m.defense.levels.length
      omega

theorem decrement_eq (m : MCaptcha) (n : Nat) :
    m.decrementVisitorBy n = { m with visitors := m.visitors - n } := by
  unfold MCaptcha.decrementVisitorBy
  split
  · split
    · rfl
    · have : m.visitors - n = 0 := by omega
      rw [this]
  · have : m.visitors - n = m.visitors := by omega
    rw [this]

theorem decrement_mvalid (m : MCaptcha) (n : Nat) (h : MValid m) : MValid (m.decrementVisitorBy n) := by
  rw [decrement_eq]
  refine ⟨h.defense, ?_, h.duration⟩
  have := h.count
  show m.visitors - n < u32Size
  omega

theorem fits_cons (c : Nat) (e : Traffic) (r : List Traffic) (h : Fits c (e :: r)) :
    Fits (countAfter c [e]) r := by
  intro k
  have := h (k + 1)
  cases e <;> simpa [countAfter] using this

/-- Running a history preserves the invariant and follows the reference count. -/
theorem traffic_valid (p : Profile) (m : MCaptcha) (hist : List Traffic) (h : MValid m)
    (hf : Fits m.visitors hist) :
    ∃ m', traffic p m hist = .ret m' ∧ MValid m' ∧ m'.visitors = countAfter m.visitors hist ∧
      m'.duration = m.duration ∧ m'.defense.levels = m.defense.levels := by
  induction hist generalizing m with
  | nil => exact ⟨m, rfl, h, rfl, rfl, rfl⟩
  | cons e r ih =>
    cases e with
    | visit =>
      have hv : m.visitors + 1 < u32Size := by
        have := hf 1; simpa [countAfter, u32Size] using this
      obtain ⟨m1, h1, hm1, hv1, hd1, hl1, _⟩ := addVisitor_mvalid p m h hv
      obtain ⟨m2, h2, hm2, hv2, hd2, hl2⟩ := ih m1 hm1 (by rw [hv1]; exact fits_cons _ _ _ hf)
      refine ⟨m2, ?_, hm2, ?_, hd2.trans hd1, hl2.trans hl1⟩
      · simp [traffic, h1, h2]
      · rw [hv2, hv1]; rfl
    | leave n =>
      have hv1 : (m.decrementVisitorBy n).visitors = m.visitors - n := by rw [decrement_eq]
      obtain ⟨m2, h2, hm2, hv2, hd2, hl2⟩ :=
        ih (m.decrementVisitorBy n) (decrement_mvalid m n h) (by rw [hv1]; exact fits_cons _ _ _ hf)
      refine ⟨m2, ?_, hm2, ?_, ?_, ?_⟩
      · simp [traffic, h2]
      · rw [hv2, hv1]; rfl
      · rw [hd2, decrement_eq]
      · rw [hl2, decrement_eq]

theorem traffic_append (p : Profile) (m : MCaptcha) (h₁ h₂ : List Traffic) :
    traffic p m (h₁ ++ h₂) = (traffic p m h₁).bind fun m' => traffic p m' h₂ := by
  induction h₁ generalizing m with
  | nil => rfl
  | cons e r ih =>
    cases e with
    | visit =>
      simp only [List.cons_append, traffic]
      cases m.addVisitor p with
      | ret m' => exact ih m'
      | panic w => rfl
    | leave n => exact ih _

theorem countAfter_append (c : Nat) (h₁ h₂ : List Traffic) :
    countAfter c (h₁ ++ h₂) = countAfter (countAfter c h₁) h₂ := by
  induction h₁ generalizing c with
  | nil => rfl
  | cons e r ih => cases e <;> simp [countAfter, ih]

/-! ### Number of exceeded thresholds -/

/-- In an ascending list, level `i` is exceeded iff `i <` number of exceeded levels. -/
theorem lt_exceeded_iff (ls : List Level)
    (h : ls.Pairwise fun a b => a.visitorThreshold < b.visitorThreshold) (c i : Nat) (hi : i < ls.length) :
    ls[i].visitorThreshold < c ↔ i < exceeded ls c := by
  induction ls generalizing i with
  | nil => simp at hi
  | cons a r ih =>
    rw [List.pairwise_cons] at h
    by_cases ha : a.visitorThreshold < c
    · have he : exceeded (a :: r) c = exceeded r c + 1 := by simp [exceeded, ha]
      cases i with
      | zero => simp [ha, he]
      | succ i =>
        have := ih h.2 i (by simpa using hi)
        simp only [List.getElem_cons_succ, he]
        omega
    · have hz : exceeded (a :: r) c = 0 := by
        have : exceeded r c = 0 := by
          unfold exceeded
          rw [List.length_eq_zero_iff, List.filter_eq_nil_iff]
          intro b hb
          have := h.1 b hb
          simp; omega
        simp only [exceeded] at this ⊢
        simp [ha] at *
        exact this
      rw [hz]
      cases i with
      | zero => simpa using ha
      | succ i =>
        have hi' : i < r.length := by simpa using hi
        have := h.1 r[i] (List.getElem_mem hi')
        simp only [List.getElem_cons_succ]
        omega

theorem exceeded_le_length (ls : List Level) (c : Nat) : exceeded ls c ≤ ls.length :=
  List.length_filter_le _ _

theorem exceeded_mono (ls : List Level) (c c' : Nat) (h : c ≤ c') : exceeded ls c ≤ exceeded ls c' := by
  unfold exceeded
  induction ls with
  | nil => simp
  | cons a r ih =>
    simp only [List.filter_cons]
    split <;> split <;> simp_all <;> omega

/-- One more visitor crosses at most one threshold. -/
theorem exceeded_succ_le (ls : List Level)
    (h : ls.Pairwise fun a b => a.visitorThreshold < b.visitorThreshold) (c : Nat) :
    exceeded ls (c + 1) ≤ exceeded ls c + 1 := by
  apply Classical.byContradiction
  intro hn
  have hlen := exceeded_le_length ls (c + 1)
  have hi : exceeded ls c < ls.length := by omega
  have hj : exceeded ls c + 1 < ls.length := by omega
  have h1 := (lt_exceeded_iff ls h c _ hi)
  have h2 := (lt_exceeded_iff ls h (c + 1) _ hj)
  have h3 := List.pairwise_iff_getElem.1 h _ _ hi hj (by omega)
  omega

/-- `nextCur` in terms of the number of exceeded levels. -/
theorem nextCur_eq (d : Defense) (hv : Valid d) (v : Nat) :
    nextCur d hv.inRange v =
      if d.cur < exceeded d.levels v then (if d.cur + 1 < d.levels.length then d.cur + 1 else d.cur)
      else d.cur - 1 := by
  unfold nextCur
  have := lt_exceeded_iff d.levels hv.ascending v d.cur hv.inRange
  by_cases h : (d.levels[d.cur]'hv.inRange).visitorThreshold < v
  · rw [if_pos h, if_pos (this.1 h)]
  · rw [if_neg h, if_neg (fun h' => h (this.2 h'))]

/-- Every history that returns keeps the invariant and the configuration. -/
theorem traffic_ret (p : Profile) (m m' : MCaptcha) (hist : List Traffic) (h : MValid m) (hr : traffic p m hist = .ret m') :
    MValid m' ∧ m'.duration = m.duration ∧ m'.defense.levels = m.defense.levels := by
  induction hist generalizing m with
  | nil => simp [traffic] at hr; subst hr; exact ⟨h, rfl, rfl⟩
  | cons e r ih =>
    cases e with
    | visit =>
      simp only [traffic] at hr
      cases h1 : m.addVisitor p with
      | panic w => rw [h1] at hr; cases hr
      | ret m1 =>
        rw [h1] at hr
        obtain ⟨hm1, hd1, hl1, -⟩ := addVisitor_ret p m m1 h h1
        obtain ⟨a, b, c⟩ := ih m1 hm1 hr
        exact ⟨a, b.trans hd1, c.trans hl1⟩
    | leave n =>
      simp only [traffic] at hr
      obtain ⟨a, b, c⟩ := ih _ (decrement_mvalid m n h) hr
      rw [decrement_eq] at b c
      exact ⟨a, b, c⟩

/-- The defense is never more than one level below what the load calls for. -/
theorem traffic_lower (p : Profile) (m m' : MCaptcha) (hist : List Traffic) (h : MValid m)
    (hl : exceeded m.defense.levels m.visitors ≤ m.defense.cur + 1) (hr : traffic p m hist = .ret m') :
    exceeded m'.defense.levels m'.visitors ≤ m'.defense.cur + 1 := by
  induction hist generalizing m with
  | nil => simp [traffic] at hr; subst hr; exact hl
  | cons e r ih =>
    cases e with
    | visit =>
      simp only [traffic] at hr
      cases h1 : m.addVisitor p with
      | panic w => rw [h1] at hr; cases hr
      | ret m1 =>
        rw [h1] at hr
        obtain ⟨hm1, hd1, hl1, ⟨hv, hv1, hc1⟩ | ⟨-, -, hv1, -⟩⟩ := addVisitor_ret p m m1 h h1
        · refine ih m1 hm1 ?_ hr
          rw [hl1, hv1, hc1, nextCur_eq _ h.defense]
          have hs := exceeded_succ_le m.defense.levels h.defense.ascending m.visitors
          have hle := exceeded_le_length m.defense.levels (m.visitors + 1)
          have := h.defense.inRange
          repeat' split
          all_goals omega
        · refine ih m1 hm1 ?_ hr
          rw [hv1]
          have : exceeded m1.defense.levels 0 = 0 := by simp [exceeded]
          omega
    | leave n =>
      simp only [traffic] at hr
      refine ih (m.decrementVisitorBy n) (decrement_mvalid m n h) ?_ hr
      rw [decrement_eq]
      have := exceeded_mono m.defense.levels (m.visitors - n) m.visitors (by omega)
      simp only
      omega

/-- Each visit moves the level one step towards the load of that moment. -/
theorem traffic_follows (p : Profile) (m m' : MCaptcha) (hist : List Traffic) (h : MValid m) (hf : Fits m.visitors hist) (lo hi : Nat)
    (hb : LoadBetween m.defense.levels m.visitors lo hi hist) (hr : traffic p m hist = .ret m') :
    m'.defense.cur ≤ max hi (m.defense.cur - visitsIn hist) ∧ min lo (m.defense.cur + 1 + visitsIn hist) ≤ m'.defense.cur + 1 := by
  induction hist generalizing m with
  | nil => simp [traffic] at hr; subst hr; simp only [visitsIn]; omega
  | cons e r ih =>
    have hb' : ∀ pre, pre ++ [.visit] <+: r → e :: pre ++ [.visit] <+: e :: r := fun pre hp => by simpa using hp
    cases e with
    | visit =>
      simp only [traffic] at hr
      have hv : m.visitors + 1 < u32Size := by simpa [countAfter, u32Size] using hf 1
      obtain ⟨m1, h1, hm1, hv1, hd1, hl1, hc1⟩ := addVisitor_mvalid p m h hv
      rw [h1] at hr
      have hf1 : Fits m1.visitors r := by
        intro k; rw [hv1]; simpa [countAfter] using hf (k + 1)
      obtain ⟨a, b⟩ := ih m1 hm1 hf1 (by
        intro pre hp
        have := hb _ (hb' pre hp)
        rw [hl1, hv1]
        simpa [countAfter] using this) hr
      obtain ⟨x, y⟩ := hb [] (by simp)
      simp only [List.nil_append, countAfter] at x y
      rw [nextCur_eq _ h.defense] at hc1
      have hle := exceeded_le_length m.defense.levels (m.visitors + 1)
      have hin := h.defense.inRange
      simp only [visitsIn]
      split at hc1
      · split at hc1 <;> omega
      · omega
    | leave n =>
      simp only [traffic] at hr
      have hd := decrement_eq m n
      have hf1 : Fits (m.decrementVisitorBy n).visitors r := by
        intro k; rw [hd]; simpa [countAfter] using hf (k + 1)
      have := ih (m.decrementVisitorBy n) (decrement_mvalid m n h) hf1 (by
        intro pre hp
        have := hb _ (hb' pre hp)
        rw [hd]
        simpa [countAfter] using this) hr
      rw [hd] at this
      exact this

/-- Without departures the defense is never above what the load calls for. -/
theorem visits_upper (p : Profile) (m m' : MCaptcha) (k : Nat) (h : MValid m)
    (hu : m.defense.cur ≤ exceeded m.defense.levels m.visitors)
    (hf : m.visitors + k < u32Size) (hr : traffic p m (List.replicate k .visit) = .ret m') :
    m'.defense.cur ≤ exceeded m'.defense.levels m'.visitors := by
  induction k generalizing m with
  | zero => simp [traffic] at hr; subst hr; exact hu
  | succ k ih =>
    have hv : m.visitors + 1 < u32Size := by omega
    obtain ⟨m1, h1, hm1, hv1, hd1, hl1, hc1⟩ := addVisitor_mvalid p m h hv
    rw [List.replicate_succ] at hr
    simp only [traffic, h1, Exec.bind] at hr
    refine ih m1 hm1 ?_ (by omega) hr
    rw [hl1, hv1, hc1, nextCur_eq _ h.defense]
    have hs := exceeded_mono m.defense.levels m.visitors (m.visitors + 1) (by omega)
    repeat' split
    all_goals omega

theorem countAfter_replicate (c k : Nat) : countAfter c (List.replicate k .visit) = c + k := by
  induction k generalizing c with
  | zero => rfl
  | succ k ih => rw [List.replicate_succ]; simp [countAfter, ih]; omega

theorem fits_replicate (c k : Nat) (h : c + k < u32Size) : Fits c (List.replicate k .visit) := by
  intro j
  rw [List.take_replicate, countAfter_replicate]
  unfold u32Size at h
  omega

theorem getDifficulty_mvalid (m : MCaptcha) (h : MValid m) :
    m.getDifficulty = .ret (m.defense.levels[m.defense.cur]'h.defense.inRange).difficultyFactor :=
  getDifficulty_valid _ h.defense

/-- A visit adds at most one to the count (in any state and profile). -/
theorem addVisitor_visitors_le (p : Profile) (m m' : MCaptcha) (h : m.addVisitor p = .ret m') :
    m'.visitors ≤ m.visitors + 1 := by
  unfold MCaptcha.addVisitor at h
  cases hu : u32Succ p m.visitors with
  | panic w => rw [hu] at h; cases h
  | ret v =>
    have hle : v ≤ m.visitors + 1 := by
      unfold u32Succ at hu
      split at hu
      · injection hu; omega
      · split at hu
        · cases hu
        · injection hu; omega
    rw [hu] at h
    simp only [Exec.bind] at h
    cases hc : m.defense.currentLevel with
    | panic w => rw [hc] at h; cases h
    | ret l =>
      rw [hc] at h
      simp only at h
      split at h
      · cases ht : m.defense.tightenUp p with
        | panic w => rw [ht] at h; cases h
        | ret d => rw [ht] at h; simp only [Exec.ret.injEq] at h; rw [← h]; exact hle
      · simp only [Exec.ret.injEq] at h; rw [← h]; exact hle

end MCap
