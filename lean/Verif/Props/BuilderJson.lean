import Verif.Spec.BuilderJson
import Verif.Props.WireRead
import Verif.Props.Counter
import Verif.Proofs.CounterRun

/-!
# C110, C111: builders and counters read from JSON
-/

namespace MCap
open Spec

/-! ## C110 Builders survive JSON -/

theorem durationJson_iff (t : Nat) (j : Json) : jsonUint u64Size j = some t ↔ DurationJson t j := uint_iff u64Size t j

theorem opt_iff {α : Type} {f : Json → Option α} {P : α → Json → Prop} (h : ∀ a j, f j = some a ↔ P a j) (hn : f .null = none)
    (o : Option α) (j : Json) : jsonOpt f j = some o ↔ OptValue P o j := by
  cases o with
  | none =>
    constructor
    · intro hj
      unfold jsonOpt at hj
      split at hj
      · rfl
      · cases hf : f j <;> (rw [hf] at hj; cases hj)
    · intro hj; cases hj; rfl
  | some a =>
    show _ ↔ P a j
    rw [← h]
    unfold jsonOpt
    split
    · rw [hn]; simp
    · cases f j <;> simp

theorem optField_iff {α : Type} {f : Json → Option α} {P : α → Json → Prop} (h : ∀ a j, f j = some a ↔ P a j) (hn : f .null = none)
    (o : Option α) (name : String) (ms : List (Option (List Char) × Json)) :
    jsonOptField f name ms = some o ↔ OptMember P o name ms := by
  have hno : NoMember name ms ↔ ms.filter (fun m => m.1 = some name.toList || m.1 = none) = [] := by
    rw [List.filter_eq_nil_iff]
    constructor
    · intro hm m hmem
      obtain ⟨k, hk, hne⟩ := hm m hmem
      simp [hk, hne]
    · intro hm m hmem
      have := hm m hmem
      cases hk : m.1 with
      | none => simp [hk] at this
      | some k => exact ⟨k, rfl, by rintro rfl; simp [hk] at this⟩
  have hone : ∀ j, OneMember name j ms ↔ ∃ k, ms.filter (fun m => m.1 = some name.toList || m.1 = none) = [(some k, j)] := by
    intro j
    rw [← field_iff]
    unfold jsonField
    constructor
    · intro hj
      split at hj
      · rename_i k v he; cases hj; exact ⟨k, he⟩
      · cases hj
    · rintro ⟨k, hk⟩; rw [hk]
  unfold jsonOptField OptMember
  simp only [hno, hone]
  generalize ms.filter (fun m => m.1 = some name.toList || m.1 = none) = l
  constructor
  · intro hj
    split at hj
    · cases hj; exact .inr ⟨rfl, rfl⟩
    · rename_i k v; exact .inl ⟨v, ⟨k, rfl⟩, (opt_iff h hn o v).1 hj⟩
    · cases hj
  · rintro (⟨j, ⟨k, rfl⟩, hv⟩ | ⟨rfl, rfl⟩)
    · exact (opt_iff h hn o j).2 hv
    · rfl

theorem builderJson_iff (b : MCaptchaBuilder) (j : Json) : MCaptchaBuilder.ofJson j = some b ↔ BuilderJson b j := by
  constructor
  · intro h
    unfold MCaptchaBuilder.ofJson at h
    split at h
    · obtain ⟨v, hv, h⟩ := opt_bind_iff.1 h
      obtain ⟨d, hd, h⟩ := opt_bind_iff.1 h
      obtain ⟨t, ht, h⟩ := opt_bind_iff.1 h
      cases h
      obtain ⟨h1, h2⟩ := (uintField_iff _ _ _ _).1 hv
      exact ⟨h2, .inl ⟨_, rfl, h1, (optField_iff defenseJson_iff rfl _ _ _).1 hd, (optField_iff durationJson_iff rfl _ _ _).1 ht⟩⟩
    · obtain ⟨v, hv, h⟩ := opt_bind_iff.1 h
      obtain ⟨d, hd, h⟩ := opt_bind_iff.1 h
      obtain ⟨t, ht, h⟩ := opt_bind_iff.1 h
      cases h
      obtain ⟨rfl, h2⟩ := (uint_iff _ _ _).1 hv
      exact ⟨h2, .inr ⟨_, _, rfl, (opt_iff defenseJson_iff rfl _ _).1 hd, (opt_iff durationJson_iff rfl _ _).1 ht⟩⟩
    · cases h
  · rintro ⟨h1, ⟨ms, rfl, h3, h4, h5⟩ | ⟨d, t, rfl, h4, h5⟩⟩
    · simp only [MCaptchaBuilder.ofJson, bind, (uintField_iff _ u32Size _ _).2 ⟨h3, h1⟩, (optField_iff defenseJson_iff rfl _ _ _).2 h4,
        (optField_iff durationJson_iff rfl _ _ _).2 h5, Option.bind_some]
    · simp only [MCaptchaBuilder.ofJson, bind, (uint_iff u32Size _ _).2 ⟨rfl, h1⟩, (opt_iff defenseJson_iff rfl _ _).2 h4,
        (opt_iff durationJson_iff rfl _ _).2 h5, Option.bind_some]

/-- C110. A text is read as a builder exactly if it denotes an object with its visitor count once and defense and duration at most once, `null` or
missing where nothing is set, or the array of the three, and every number fits its type. -/
theorem C110_builder_read_exact (t : List Char) (b : MCaptchaBuilder) :
    (jsonParse t).bind MCaptchaBuilder.ofJson = some b ↔ ∃ j, Denotes t j ∧ BuilderJson b j :=
  readText_iff (builderJson_iff b) t

/-- Nothing is set, by silence and by `null`; the count must be there. -/
example :
    (jsonParse "{\"visitor_threshold\":0}".toList).bind MCaptchaBuilder.ofJson = some .default ∧
    (jsonParse "{\"duration\":null,\"defense\":null,\"visitor_threshold\":0}".toList).bind MCaptchaBuilder.ofJson = some .default ∧
    (jsonParse "[0,null,30]".toList).bind MCaptchaBuilder.ofJson = some ⟨0, none, some 30⟩ ∧
    (jsonParse "{\"duration\":30}".toList).bind MCaptchaBuilder.ofJson = none ∧
    (jsonParse "{\"visitor_threshold\":0,\"duration\":null,\"duration\":30}".toList).bind MCaptchaBuilder.ofJson = none ∧
    (jsonParse "[0,null]".toList).bind MCaptchaBuilder.ofJson = none := by decide +kernel

/-- C110. A builder written out and read back is the same builder, so it builds the same captcha or fails with the same error. -/
theorem C110_builder_round_trip (b : MCaptchaBuilder) (hv : b.visitors < 2 ^ 32) (ht : ∀ t, b.duration = some t → t < 2 ^ 64)
    (hd : ∀ d, b.defense = some d → d.cur < 2 ^ 64 ∧ ∀ l ∈ d.levels, l.visitorThreshold < 2 ^ 32 ∧ l.difficultyFactor < 2 ^ 32) :
    (jsonParse b.toJson.text).bind MCaptchaBuilder.ofJson = some b ∧ ∀ j, Denotes b.toJson.text j → MCaptchaBuilder.ofJson j = some b := by
  have hof : MCaptchaBuilder.ofJson b.toJson = some b := by
    rw [builderJson_iff]
    refine ⟨hv, .inl ⟨_, rfl, (field_iff _ _ _).1 rfl, .inl ⟨_, (field_iff _ _ _).1 rfl, ?_⟩, .inl ⟨_, (field_iff _ _ _).1 rfl, ?_⟩⟩⟩
    · cases h : b.defense with
      | none => rfl
      | some d => exact (defenseJson_iff _ _).1 (defense_round d (hd d h).2 (hd d h).1)
    · cases h : b.duration with
      | none => rfl
      | some t => exact ⟨rfl, ht t h⟩
  refine ⟨?_, ?_⟩
  · rw [parse_text]
    exact hof
  · intro j hj
    rw [denotes_unique hj (text_denotes _)]
    exact hof

example : (⟨0, some exDefense, some 30⟩ : MCaptchaBuilder).visitors < 2 ^ 32 ∧
    (jsonParse (⟨0, some exDefense, some 30⟩ : MCaptchaBuilder).toJson.text).bind MCaptchaBuilder.ofJson = some ⟨0, some exDefense, some 30⟩ ∧
    (⟨0, some exDefense, some 30⟩ : MCaptchaBuilder).build = .ok exM := by decide +kernel

/-! ## C111 Every counted visitor is forgotten -/

/-- False as stated: a counter written out and read back, or started on a captcha with visitors (read from JSON, or dumped by `GetInternalData`),
has no timer for them and counts them for ever. -/
theorem C111_visitors_leave_refuted :
    ∃ (c c₀ : Counter) (os : List CObs), crun ⟨true⟩ 0 (Counter.start exM) (List.replicate 5 (.req .addVisitor)) = .ret (0, c, os) ∧
      (jsonParse c.toJson.text).bind Counter.ofJson = some c₀ ∧
      ∀ (p : Profile) (ops : List CStep), (∀ s ∈ ops, plain s = true) → (visitTimes 0 ops).length < 1000 →
        ∃ now c' os', crun p 0 c₀ ops = .ret (now, c', os') ∧ 5 ≤ c'.m.getVisitors := by
  refine ⟨_, Counter.start { exM with visitors := 5 }, _, rfl, by decide +kernel, ?_⟩
  intro p ops hp hn
  have hv : MValid { exM with visitors := 5 } := ⟨(freshM_valid exM exM_fresh).1.defense, by decide, by decide⟩
  obtain ⟨now', c', os', h1, -, -, -, -, -, -, h8, -⟩ := plain_run p ops 0 (Counter.start { exM with visitors := 5 }) rfl hv hp (by
    show 5 + _ < _
    unfold u32Size
    omega)
  refine ⟨now', c', os', h1, ?_⟩
  have z : scheduled (Counter.start { exM with visitors := 5 }) = 0 := rfl
  have z2 : (Counter.start { exM with visitors := 5 }).m.visitors = 5 := rfl
  rw [z, z2] at h8
  show 5 ≤ c'.m.visitors
  omega

/-- C111, what holds. Missing: that the visitors a counter started with leave. The counter of a usable captcha counts exactly these and those with
a pending timer: when the timers of all visits have been delivered, exactly the visitors it started with remain; none, if it was built. -/
theorem C111_visits_leave_partial (p : Profile) (m : MCaptcha) (hm : MValid m) (now : Nat) (ops : List CStep) (hp : ∀ s ∈ ops, plain s = true)
    (hv : m.getVisitors + (visitTimes now ops).length < 2 ^ 32) :
    ∃ now' c os, crun p now (Counter.start m) ops = .ret (now', c, os) ∧ c.m.getVisitors = m.getVisitors + scheduled c ∧
      (c.timers = [] → c.m.getVisitors = m.getVisitors) ∧
      expiries os + c.timers.length = (visitTimes now ops).length ∧
      ∀ t ∈ c.timers, ∃ v ∈ visitTimes now ops, t.due = v + m.getDuration := by
  obtain ⟨now', c, os, h1, h2, h3, h4, h5, h6, h7, h8, h9, h10, h11⟩ := plain_run p ops now (Counter.start m) rfl hm hp (by
    show m.visitors + _ < _
    simpa [u32Size, MCaptcha.getVisitors] using hv)
  have z : scheduled (Counter.start m) = 0 := rfl
  have z2 : (Counter.start m).m = m := rfl
  have e := h9 (by rw [z]; exact Nat.zero_le _)
  rw [z, z2] at e
  obtain ⟨hone, hs⟩ := h11 (by intro t ht; cases ht)
  have hlen : scheduled c = c.timers.length := by
    unfold scheduled
    clear h6 h7 h8 h9 e hs
    generalize c.timers = ts at hone ⊢
    induction ts with
    | nil => rfl
    | cons a ts ih =>
      simp only [List.map_cons, List.sum_cons, List.length_cons]
      rw [ih (fun t ht => hone t (List.mem_cons_of_mem _ ht)), hone a List.mem_cons_self]
      omega
  refine ⟨now', c, os, h1, ?_, ?_, ?_, ?_⟩
  · show c.m.visitors = m.visitors + scheduled c
    omega
  · intro ht
    rw [ht] at hlen
    show c.m.visitors = m.visitors
    simp at hlen
    omega
  · rw [z] at hs
    omega
  · intro t ht
    rcases timer_due p ops hp now (Counter.start m) hm h1 t ht with h | h
    · cases h
    · exact h

/-- Started with seven visitors: two visits expire, one is pending, and the seven stay. -/
example : MValid { exM with visitors := 7 } ∧ ∃ c os, crun ⟨true⟩ 0 (Counter.start { exM with visitors := 7 })
    [.req .addVisitor, .req .addVisitor, .tick 10, .req .addVisitor, .tick 25, .fire 0, .fire 0] = .ret (35, c, os) ∧ c.m.getVisitors = 8 ∧
    scheduled c = 1 :=
  ⟨⟨(freshM_valid exM exM_fresh).1.defense, by decide, by decide⟩, _, _, rfl, by decide, by decide⟩

end MCap
