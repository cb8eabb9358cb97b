import Verif.Props.Redis

/-!
# C70: numeric replies of every kind
-/

namespace MCap
open Spec

theorem parseDigits_iff (t : List Char) (n : Nat) : parseDigits t = some n ↔ DigitsText t n := by
  unfold parseDigits DigitsText
  by_cases h : t ≠ [] ∧ t.all Char.isDigit = true
  · rw [if_pos h]
    simp only [Option.some.injEq]
    constructor
    · rintro rfl; exact ⟨h.1, fun c hc => List.all_eq_true.1 h.2 c hc, rfl⟩
    · exact fun e => e.2.2
  · rw [if_neg h]
    constructor
    · intro e; cases e
    · rintro ⟨a, b, -⟩; exact absurd ⟨a, List.all_eq_true.2 b⟩ h

theorem DigitsText.head {t : List Char} {n : Nat} (h : DigitsText t n) : ∃ c r, t = c :: r ∧ c.isDigit = true := by
  obtain ⟨h1, h2, -⟩ := h
  cases t with
  | nil => exact absurd rfl h1
  | cons c r => exact ⟨c, r, rfl, h2 c (by simp)⟩

theorem parseUsize_iff (s : String) (i : Int) : parseUsize s = some i ↔ ∃ n : Nat, UnsignedText s n ∧ n < 2 ^ 64 ∧ i = n := by
  unfold parseUsize UnsignedText
  simp only [Option.filter_eq_some_iff, decide_eq_true_eq]
  split
  · rename_i r hr
    rw [hr]
    simp only [Option.map_eq_some_iff, parseDigits_iff]
    constructor
    · rintro ⟨⟨n, hn, rfl⟩, hlt⟩
      exact ⟨n, .inr ⟨r, rfl, hn⟩, by omega, rfl⟩
    · rintro ⟨n, h | ⟨t, ht, h⟩, hlt, rfl⟩
      · obtain ⟨c, r', e, hd⟩ := DigitsText.head h
        cases e; cases hd
      · cases ht
        exact ⟨⟨n, h, rfl⟩, by omega⟩
  · rename_i hr
    simp only [Option.map_eq_some_iff, parseDigits_iff]
    constructor
    · rintro ⟨⟨n, hn, rfl⟩, hlt⟩
      exact ⟨n, .inl hn, by omega, rfl⟩
    · rintro ⟨n, h | ⟨t, ht, h⟩, hlt, rfl⟩
      · exact ⟨⟨n, h, rfl⟩, by omega⟩
      · exact absurd ht (hr t)

theorem parseI32_iff (s : String) (i : Int) : parseI32 s = some i ↔ SignedText s i ∧ -(2 ^ 31) ≤ i ∧ i < 2 ^ 31 := by
  unfold parseI32 SignedText UnsignedText
  simp only [Option.filter_eq_some_iff, decide_eq_true_eq]
  refine and_congr ?_ Iff.rfl
  split
  · rename_i r hr
    rw [hr]
    simp only [Option.map_eq_some_iff, parseDigits_iff]
    constructor
    · rintro ⟨n, hn, rfl⟩
      exact .inr ⟨r, n, rfl, hn, rfl⟩
    · rintro (⟨n, h | ⟨t, ht, h⟩, rfl⟩ | ⟨t, n, ht, h, rfl⟩)
      · obtain ⟨c, r', e, hd⟩ := DigitsText.head h
        cases e; cases hd
      · cases ht
      · cases ht; exact ⟨n, h, rfl⟩
  · rename_i r hr
    rw [hr]
    simp only [Option.map_eq_some_iff, parseDigits_iff]
    constructor
    · rintro ⟨n, hn, rfl⟩
      exact .inl ⟨n, .inr ⟨r, rfl, hn⟩, rfl⟩
    · rintro (⟨n, h | ⟨t, ht, h⟩, rfl⟩ | ⟨t, n, ht, h, rfl⟩)
      · obtain ⟨c, r', e, hd⟩ := DigitsText.head h
        cases e; cases hd
      · cases ht; exact ⟨n, h, rfl⟩
      · cases ht
  · rename_i h1 h2
    simp only [Option.map_eq_some_iff, parseDigits_iff]
    constructor
    · rintro ⟨n, hn, rfl⟩
      exact .inl ⟨n, .inl hn, rfl⟩
    · rintro (⟨n, h | ⟨t, ht, h⟩, rfl⟩ | ⟨t, n, ht, h, rfl⟩)
      · exact ⟨n, h, rfl⟩
      · exact absurd ht (h2 t)
      · exact absurd ht (h1 t)

/-- No negative integer, and none beyond 64 bits. -/
def isNatural : RValue → Bool
  | .int i => decide (0 ≤ i ∧ i < 2 ^ 64)
  | _ => true

theorem readUsize_cases (v : RValue) (hv : isNatural v = true) :
    (∃ n, SaysCount v n ∧ v.readUsize = .ok (n : Int)) ∨ ((∀ n, ¬ SaysCount v n) ∧ ∃ e, v.readUsize = .error e) := by
  have text : ∀ s, (v = .bulk s ∨ v = .simple s) →
      v.readUsize = (match parseUsize s with | some i => .ok i | none => .error "Could not convert from string.") →
      (∃ n, SaysCount v n ∧ v.readUsize = .ok (n : Int)) ∨ ((∀ n, ¬ SaysCount v n) ∧ ∃ e, v.readUsize = .error e) := by
    intro s hs he
    cases hp : parseUsize s with
    | some i =>
      obtain ⟨n, h1, h2, rfl⟩ := (parseUsize_iff s i).1 hp
      exact .inl ⟨n, ⟨h2, .inr ⟨s, hs, h1⟩⟩, by rw [he, hp]⟩
    | none =>
      refine .inr ⟨?_, _, by rw [he, hp]⟩
      rintro n ⟨h1, h2 | ⟨t, ht, h2⟩⟩
      · subst h2; rcases hs with h | h <;> cases h
      · have : t = s := by rcases hs with rfl | rfl <;> rcases ht with h | h <;> cases h <;> rfl
        subst this
        have := (parseUsize_iff t (n : Int)).2 ⟨n, h2, h1, rfl⟩
        rw [hp] at this; cases this
  cases v with
  | int i =>
    simp only [isNatural, decide_eq_true_eq] at hv
    refine .inl ⟨i.toNat, ⟨by omega, .inl (by congr 1; omega)⟩, ?_⟩
    simp only [RValue.readUsize, wrapUsize]
    congr 1; omega
  | bulk s => exact text s (.inl rfl) rfl
  | simple s => exact text s (.inr rfl) rfl
  | _ =>
    refine .inr ⟨?_, _, rfl⟩
    rintro n ⟨-, h | ⟨s, h | h, -⟩⟩ <;> cases h

theorem readI32_text (v : RValue) (hv : ∀ i, v ≠ .int i) :
    (∃ i, SaysInt v i ∧ v.readI32 = .ok i) ∨ ((∀ i, ¬ SaysInt v i) ∧ ∃ e, v.readI32 = .error e) := by
  have text : ∀ s, (v = .bulk s ∨ v = .simple s) →
      v.readI32 = (match parseI32 s with | some i => .ok i | none => .error "Could not convert from string.") →
      (∃ i, SaysInt v i ∧ v.readI32 = .ok i) ∨ ((∀ i, ¬ SaysInt v i) ∧ ∃ e, v.readI32 = .error e) := by
    intro s hs he
    cases hp : parseI32 s with
    | some i =>
      obtain ⟨h1, h2, h3⟩ := (parseI32_iff s i).1 hp
      exact .inl ⟨i, ⟨h2, h3, .inr ⟨s, hs, h1⟩⟩, by rw [he, hp]⟩
    | none =>
      refine .inr ⟨?_, _, by rw [he, hp]⟩
      rintro i ⟨h1, h1', h2 | ⟨t, ht, h2⟩⟩
      · exact hv _ h2
      · have : t = s := by rcases hs with rfl | rfl <;> rcases ht with h | h <;> cases h <;> rfl
        subst this
        have := (parseI32_iff t i).2 ⟨h2, h1, h1'⟩
        rw [hp] at this; cases this
  cases v with
  | int i => exact absurd rfl (hv i)
  | bulk s => exact text s (.inl rfl) rfl
  | simple s => exact text s (.inr rfl) rfl
  | _ =>
    refine .inr ⟨?_, _, rfl⟩
    rintro i ⟨-, -, h | ⟨s, h | h, -⟩⟩ <;> cases h

/-- C70 is refuted for `get_visitors`: the server's negative integers are returned as huge counts. -/
theorem C70_get_visitors_refuted :
    ¬ ∀ v : RValue, (∃ n : Nat, SaysCount v n ∧ RedisClient.getVisitors (.ok v) = .ret (.ok (n : Int))) ∨
      ∃ e, RedisClient.getVisitors (.ok v) = .ret (.error (.redisError e)) := by
  intro h
  rcases h (.int (-1)) with ⟨n, ⟨-, h | ⟨s, h | h, -⟩⟩, -⟩ | ⟨e, h⟩
  · cases h
  · cases h
  · cases h
  · cases h

/-- Missing: negative integers. `get_visitors` returns exactly the count the server replied, as an integer or as a text, if it fits 64
bits, and an error of Redis for every other reply; it never panics. -/
theorem C70_get_visitors_partial (v : RValue) (hv : ∀ i, v = .int i → 0 ≤ i ∧ i < 2 ^ 63) :
    (∀ n : Nat, RedisClient.getVisitors (.ok v) = .ret (.ok (n : Int)) ↔ SaysCount v n) ∧
    ((∀ n, ¬ SaysCount v n) → ∃ e, RedisClient.getVisitors (.ok v) = .ret (.error (.redisError e))) := by
  have hv' : isNatural v = true := by
    cases v with
    | int i => have := hv i rfl; simp only [isNatural, decide_eq_true_eq]; omega
    | _ => rfl
  rcases readUsize_cases v hv' with ⟨n, h1, h2⟩ | ⟨h1, e, h2⟩
  · have e : RedisClient.getVisitors (.ok v) = .ret (.ok (n : Int)) := by simp only [RedisClient.getVisitors, Except.bind, h2]
    have uniq : ∀ m, SaysCount v m → m = n := by
      rintro m ⟨hm, h | ⟨s, hs, h⟩⟩
      · subst h
        simp only [RValue.readUsize, wrapUsize, Except.ok.injEq] at h2; omega
      · have := (parseUsize_iff s (m : Int)).2 ⟨m, h, hm, rfl⟩
        rcases hs with rfl | rfl
        all_goals
        simp only [RValue.readUsize, this, Except.ok.injEq] at h2; omega
    refine ⟨fun m => ?_, fun h => absurd h1 (h n)⟩
    rw [e]
    constructor
    · intro h
      simp only [Exec.ret.injEq, Except.ok.injEq] at h
      have : n = m := by omega
      exact this ▸ h1
    · intro h; rw [uniq m h]
  · have e : RedisClient.getVisitors (.ok v) = .ret (.error (.redisError e)) := by simp only [RedisClient.getVisitors, Except.bind, h2]
    refine ⟨fun m => ?_, fun _ => ⟨_, e⟩⟩
    rw [e]
    constructor
    · intro h; cases h
    · intro h; exact absurd h (h1 m)

example : SaysCount (.bulk "007") 7 ∧ RedisClient.getVisitors (.ok (.bulk "007")) = .ret (.ok 7) ∧
    RedisClient.getVisitors (.ok (.bulk "18446744073709551616")) = .ret (.error (.redisError "Could not convert from string.")) ∧
    RedisClient.getVisitors (.ok (.int (-1))) = .ret (.ok 18446744073709551615) :=
  ⟨⟨by decide, .inr ⟨_, .inl rfl, .inl ⟨by decide, by decide, by decide⟩⟩⟩, by decide, by decide, by decide⟩

/-- C70 for replies that are not integers: `check_captcha_exists` understands a text as the integer it says, and reports an error of Redis
for every other reply. -/
theorem C70_captcha_exists_text (v : RValue) (hv : ∀ i, v ≠ .int i) :
    (SaysCount v 0 → RedisClient.captchaExists (.ok v) = .ret (.ok true)) ∧
    (SaysCount v 1 → RedisClient.captchaExists (.ok v) = .ret (.ok false)) ∧
    (∀ n, 1 < n → SaysCount v n → RedisClient.captchaExists (.ok v) = .ret (.error .mCaptchaRedisModuleError)) ∧
    ((∀ n, ¬ SaysCount v n) → ∃ e, RedisClient.captchaExists (.ok v) = .ret (.error (.redisError e))) := by
  have hv' : isNatural v = true := by
    cases v with
    | int i => exact absurd rfl (hv i)
    | _ => rfl
  have hp := (C70_get_visitors_partial v fun i h => absurd h (hv i)).1
  have key : ∀ n, SaysCount v n → v.readUsize = .ok (n : Int) := by
    intro n h
    have h := (hp n).2 h
    unfold RedisClient.getVisitors at h
    simp only [Except.bind] at h
    cases hr : v.readUsize with
    | ok i => rw [hr] at h; simp only [Exec.ret.injEq, Except.ok.injEq] at h; rw [h]
    | error e => rw [hr] at h; cases h
  refine ⟨fun h => ?_, fun h => ?_, fun n hn h => ?_, fun h => ?_⟩
  · simp only [RedisClient.captchaExists, Except.bind, key _ h]; rfl
  · simp only [RedisClient.captchaExists, Except.bind, key _ h]; rfl
  · simp only [RedisClient.captchaExists, Except.bind, key _ h]
    rw [if_neg (by omega), if_neg (by omega)]
  · rcases readUsize_cases v hv' with ⟨n, h1, h2⟩ | ⟨h1, e, h2⟩
    · exact absurd h1 (h n)
    · exact ⟨e, by simp only [RedisClient.captchaExists, Except.bind, h2]⟩

example : SaysCount (.bulk "0") 0 ∧ SaysCount (.simple "+1") 1 ∧
    RedisClient.captchaExists (.ok (.simple "-0")) = .ret (.error (.redisError "Could not convert from string.")) :=
  ⟨⟨by decide, .inr ⟨_, .inl rfl, .inl ⟨by decide, by decide, by decide⟩⟩⟩,
    ⟨by decide, .inr ⟨_, .inr rfl, .inr ⟨['1'], by decide, by decide, by decide, by decide⟩⟩⟩, by decide⟩

/-- C70 for replies that are not integers: `get_token` understands a text as the integer it says, and reports an error of Redis for every
other reply. -/
theorem C70_get_token_text (v : RValue) (hv : ∀ i, v ≠ .int i) :
    (SaysInt v 1 → RedisClient.getToken (.ok v) = .ret (.ok true)) ∧
    (SaysInt v 0 → RedisClient.getToken (.ok v) = .ret (.ok false)) ∧
    (∀ i, i ≠ 0 → i ≠ 1 → SaysInt v i → RedisClient.getToken (.ok v) = .ret (.error .mCaptchaRedisModuleError)) ∧
    ((∀ i, ¬ SaysInt v i) → ∃ e, RedisClient.getToken (.ok v) = .ret (.error (.redisError e))) := by
  have key : ∀ i, SaysInt v i → v.readI32 = .ok i := by
    rintro i ⟨h1, h2, h | ⟨s, hs, h⟩⟩
    · exact absurd h (hv i)
    · have := (parseI32_iff s i).2 ⟨h, h1, h2⟩
      rcases hs with rfl | rfl <;> simp only [RValue.readI32, this]
  refine ⟨fun h => ?_, fun h => ?_, fun i h0 h1 h => ?_, fun h => ?_⟩
  · simp only [RedisClient.getToken, Except.bind, key _ h]; rfl
  · simp only [RedisClient.getToken, Except.bind, key _ h]; rfl
  · simp only [RedisClient.getToken, Except.bind, key _ h]
    rw [if_neg h1, if_neg h0]
  · rcases readI32_text v hv with ⟨i, h1, h2⟩ | ⟨h1, e, h2⟩
    · exact absurd h1 (h i)
    · exact ⟨e, by simp only [RedisClient.getToken, Except.bind, h2]⟩

example : SaysInt (.bulk "1") 1 ∧ SaysInt (.bulk "-0") 0 ∧
    RedisClient.getToken (.ok (.bulk "2147483648")) = .ret (.error (.redisError "Could not convert from string.")) :=
  ⟨⟨by decide, by decide, .inr ⟨_, .inl rfl, .inl ⟨1, .inl ⟨by decide, by decide, by decide⟩, rfl⟩⟩⟩,
    ⟨by decide, by decide, .inr ⟨_, .inl rfl, .inr ⟨['0'], 0, by decide, ⟨by decide, by decide, by decide⟩, rfl⟩⟩⟩, by decide⟩

end MCap
