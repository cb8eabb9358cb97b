import Verif.Spec.Wire
import Verif.Props.Wire

/-!
# Properties of reading messages from JSON texts
-/

namespace MCap
open Spec

theorem strJson_iff (s : String) (j : Json) : jsonStr j = some s ↔ j = .str s.toList := by
  constructor
  · exact str_of
  · rintro rfl; simp only [jsonStr, ofList_toList]

theorem strField_iff (name : String) (s : String) (ms : List (Option (List Char) × Json)) :
    (jsonField name ms).bind jsonStr = some s ↔ OneMember name (.str s.toList) ms := by
  rw [opt_bind_iff]
  constructor
  · rintro ⟨j, hj, hn⟩
    rw [(strJson_iff s j).1 hn] at hj
    exact (field_iff _ _ _).1 hj
  · intro h
    exact ⟨_, (field_iff _ _ _).2 h, (strJson_iff s _).2 rfl⟩

theorem readText_iff {α : Type} {f : Json → Option α} {a : α} {P : Json → Prop} (h : ∀ j, f j = some a ↔ P j) (t : List Char) :
    (jsonParse t).bind f = some a ↔ ∃ j, Denotes t j ∧ P j := by
  rw [opt_bind_iff]
  constructor
  · rintro ⟨j, h1, h2⟩; exact ⟨j, (parse_iff t j).1 h1, (h j).1 h2⟩
  · rintro ⟨j, h1, h2⟩; exact ⟨j, (parse_iff t j).2 h1, (h j).2 h2⟩

/-- With conditions which do not depend on the text. -/
theorem readStruct_iff {α : Type} {f : Json → Option α} {a : α} {B : Prop} {fs : List (String × Json)}
    (h : ∀ j, f j = some a ↔ B ∧ StructJson fs j) (t : List Char) : (jsonParse t).bind f = some a ↔ B ∧ StructText t fs := by
  rw [readText_iff h]
  constructor
  · rintro ⟨j, h1, hb, h2⟩; exact ⟨hb, j, h1, h2⟩
  · rintro ⟨hb, j, h1, h2⟩; exact ⟨j, h1, hb, h2⟩

/-! ## C94 A message is read from exactly its texts -/

/-- C94: a text is read as the challenge exactly if it denotes an object with its three fields, each once, or the array of them, and the
difficulty fits its type. -/
theorem C94_pow_config (t : List Char) (c : PoWConfig) :
    (jsonParse t).bind PoWConfig.ofJson = some c ↔
      c.difficultyFactor < 2 ^ 32 ∧ StructText t [("string", .str c.string.toList), ("difficulty_factor", .num c.difficultyFactor), ("salt", .str c.salt.toList)] := by
  refine readStruct_iff (fun j => ?_) t
  constructor
  · intro h
    unfold PoWConfig.ofJson at h
    split at h
    · obtain ⟨x0, hx0, h⟩ := opt_bind_iff.1 h
      obtain ⟨x1, hx1, h⟩ := opt_bind_iff.1 h
      obtain ⟨x2, hx2, h⟩ := opt_bind_iff.1 h
      cases h
      obtain ⟨a1, b1⟩ := (uintField_iff _ _ _ _).1 hx1
      exact ⟨b1, .inl ⟨_, rfl, by simp [(strField_iff _ _ _).1 hx0, a1, (strField_iff _ _ _).1 hx2]⟩⟩
    · obtain ⟨x0, hx0, h⟩ := opt_bind_iff.1 h
      obtain ⟨x1, hx1, h⟩ := opt_bind_iff.1 h
      obtain ⟨x2, hx2, h⟩ := opt_bind_iff.1 h
      cases h
      obtain ⟨rfl, b1⟩ := (uint_iff _ _ _).1 hx1
      rw [strJson_iff] at hx0 hx2
      subst hx0 hx2
      exact ⟨b1, .inr rfl⟩
    · cases h
  · rintro ⟨hb, ⟨ms, rfl, hm⟩ | rfl⟩
    · simp only [List.forall_mem_cons] at hm
      simp only [PoWConfig.ofJson, bind, (strField_iff _ _ _).2 hm.1, (uintField_iff _ u32Size _ _).2 ⟨hm.2.1, hb⟩, (strField_iff _ _ _).2 hm.2.2.1, Option.bind_some]
    · simp only [List.map_cons, List.map_nil, PoWConfig.ofJson, bind, (strJson_iff _ _).2 rfl, (uint_iff u32Size _ _).2 ⟨rfl, hb⟩, Option.bind_some]

/-- The proof sent by a client. -/
theorem C94_work (t : List Char) (w : Work) :
    (jsonParse t).bind Work.ofJson = some w ↔
      w.nonce < 2 ^ 64 ∧ StructText t [("string", .str w.string.toList), ("result", .str w.result.toList), ("nonce", .num w.nonce), ("key", .str w.key.toList)] := by
  refine readStruct_iff (fun j => ?_) t
  constructor
  · intro h
    unfold Work.ofJson at h
    split at h
    · obtain ⟨x0, hx0, h⟩ := opt_bind_iff.1 h
      obtain ⟨x1, hx1, h⟩ := opt_bind_iff.1 h
      obtain ⟨x2, hx2, h⟩ := opt_bind_iff.1 h
      obtain ⟨x3, hx3, h⟩ := opt_bind_iff.1 h
      cases h
      obtain ⟨a2, b2⟩ := (uintField_iff _ _ _ _).1 hx2
      exact ⟨b2, .inl ⟨_, rfl, by simp [(strField_iff _ _ _).1 hx0, (strField_iff _ _ _).1 hx1, a2, (strField_iff _ _ _).1 hx3]⟩⟩
    · obtain ⟨x0, hx0, h⟩ := opt_bind_iff.1 h
      obtain ⟨x1, hx1, h⟩ := opt_bind_iff.1 h
      obtain ⟨x2, hx2, h⟩ := opt_bind_iff.1 h
      obtain ⟨x3, hx3, h⟩ := opt_bind_iff.1 h
      cases h
      obtain ⟨rfl, b2⟩ := (uint_iff _ _ _).1 hx2
      rw [strJson_iff] at hx0 hx1 hx3
      subst hx0 hx1 hx3
      exact ⟨b2, .inr rfl⟩
    · cases h
  · rintro ⟨hb, ⟨ms, rfl, hm⟩ | rfl⟩
    · simp only [List.forall_mem_cons] at hm
      simp only [Work.ofJson, bind, (strField_iff _ _ _).2 hm.1, (strField_iff _ _ _).2 hm.2.1, (uintField_iff _ u64Size _ _).2 ⟨hm.2.2.1, hb⟩, (strField_iff _ _ _).2 hm.2.2.2.1, Option.bind_some]
    · simp only [List.map_cons, List.map_nil, Work.ofJson, bind, (strJson_iff _ _).2 rfl, (uint_iff u64Size _ _).2 ⟨rfl, hb⟩, Option.bind_some]

/-- What caches are asked to keep. -/
theorem C94_cache_pow (t : List Char) (c : CachePoW) :
    (jsonParse t).bind CachePoW.ofJson = some c ↔
      c.difficultyFactor < 2 ^ 32 ∧ c.duration < 2 ^ 64 ∧ StructText t [("string", .str c.string.toList), ("difficulty_factor", .num c.difficultyFactor), ("duration", .num c.duration), ("key", .str c.key.toList)] := by
  rw [← and_assoc]
  refine readStruct_iff (fun j => ?_) t
  constructor
  · intro h
    unfold CachePoW.ofJson at h
    split at h
    · obtain ⟨x0, hx0, h⟩ := opt_bind_iff.1 h
      obtain ⟨x1, hx1, h⟩ := opt_bind_iff.1 h
      obtain ⟨x2, hx2, h⟩ := opt_bind_iff.1 h
      obtain ⟨x3, hx3, h⟩ := opt_bind_iff.1 h
      cases h
      obtain ⟨a1, b1⟩ := (uintField_iff _ _ _ _).1 hx1
      obtain ⟨a2, b2⟩ := (uintField_iff _ _ _ _).1 hx2
      exact ⟨⟨b1, b2⟩, .inl ⟨_, rfl, by simp [(strField_iff _ _ _).1 hx0, a1, a2, (strField_iff _ _ _).1 hx3]⟩⟩
    · obtain ⟨x0, hx0, h⟩ := opt_bind_iff.1 h
      obtain ⟨x1, hx1, h⟩ := opt_bind_iff.1 h
      obtain ⟨x2, hx2, h⟩ := opt_bind_iff.1 h
      obtain ⟨x3, hx3, h⟩ := opt_bind_iff.1 h
      cases h
      obtain ⟨rfl, b1⟩ := (uint_iff _ _ _).1 hx1
      obtain ⟨rfl, b2⟩ := (uint_iff _ _ _).1 hx2
      rw [strJson_iff] at hx0 hx3
      subst hx0 hx3
      exact ⟨⟨b1, b2⟩, .inr rfl⟩
    · cases h
  · rintro ⟨hb, ⟨ms, rfl, hm⟩ | rfl⟩
    · simp only [List.forall_mem_cons] at hm
      simp only [CachePoW.ofJson, bind, (strField_iff _ _ _).2 hm.1, (uintField_iff _ u32Size _ _).2 ⟨hm.2.1, hb.1⟩, (uintField_iff _ u64Size _ _).2 ⟨hm.2.2.1, hb.2⟩, (strField_iff _ _ _).2 hm.2.2.2.1, Option.bind_some]
    · simp only [List.map_cons, List.map_nil, CachePoW.ofJson, bind, (strJson_iff _ _).2 rfl, (uint_iff u32Size _ _).2 ⟨rfl, hb.1⟩, (uint_iff u64Size _ _).2 ⟨rfl, hb.2⟩, Option.bind_some]

/-- What caches answer. -/
theorem C94_cached_config (t : List Char) (c : CachedPoWConfig) :
    (jsonParse t).bind CachedPoWConfig.ofJson = some c ↔
      c.difficultyFactor < 2 ^ 32 ∧ c.duration < 2 ^ 64 ∧ StructText t [("key", .str c.key.toList), ("difficulty_factor", .num c.difficultyFactor), ("duration", .num c.duration)] := by
  rw [← and_assoc]
  refine readStruct_iff (fun j => ?_) t
  constructor
  · intro h
    unfold CachedPoWConfig.ofJson at h
    split at h
    · obtain ⟨x0, hx0, h⟩ := opt_bind_iff.1 h
      obtain ⟨x1, hx1, h⟩ := opt_bind_iff.1 h
      obtain ⟨x2, hx2, h⟩ := opt_bind_iff.1 h
      cases h
      obtain ⟨a1, b1⟩ := (uintField_iff _ _ _ _).1 hx1
      obtain ⟨a2, b2⟩ := (uintField_iff _ _ _ _).1 hx2
      exact ⟨⟨b1, b2⟩, .inl ⟨_, rfl, by simp [(strField_iff _ _ _).1 hx0, a1, a2]⟩⟩
    · obtain ⟨x0, hx0, h⟩ := opt_bind_iff.1 h
      obtain ⟨x1, hx1, h⟩ := opt_bind_iff.1 h
      obtain ⟨x2, hx2, h⟩ := opt_bind_iff.1 h
      cases h
      obtain ⟨rfl, b1⟩ := (uint_iff _ _ _).1 hx1
      obtain ⟨rfl, b2⟩ := (uint_iff _ _ _).1 hx2
      rw [strJson_iff] at hx0
      subst hx0
      exact ⟨⟨b1, b2⟩, .inr rfl⟩
    · cases h
  · rintro ⟨hb, ⟨ms, rfl, hm⟩ | rfl⟩
    · simp only [List.forall_mem_cons] at hm
      simp only [CachedPoWConfig.ofJson, bind, (strField_iff _ _ _).2 hm.1, (uintField_iff _ u32Size _ _).2 ⟨hm.2.1, hb.1⟩, (uintField_iff _ u64Size _ _).2 ⟨hm.2.2.1, hb.2⟩, Option.bind_some]
    · simp only [List.map_cons, List.map_nil, CachedPoWConfig.ofJson, bind, (strJson_iff _ _).2 rfl, (uint_iff u32Size _ _).2 ⟨rfl, hb.1⟩, (uint_iff u64Size _ _).2 ⟨rfl, hb.2⟩, Option.bind_some]

/-- A token to be kept. -/
theorem C94_cache_result (t : List Char) (c : CacheResult) :
    (jsonParse t).bind CacheResult.ofJson = some c ↔
      c.duration < 2 ^ 64 ∧ StructText t [("token", .str c.token.toList), ("key", .str c.key.toList), ("duration", .num c.duration)] := by
  refine readStruct_iff (fun j => ?_) t
  constructor
  · intro h
    unfold CacheResult.ofJson at h
    split at h
    · obtain ⟨x0, hx0, h⟩ := opt_bind_iff.1 h
      obtain ⟨x1, hx1, h⟩ := opt_bind_iff.1 h
      obtain ⟨x2, hx2, h⟩ := opt_bind_iff.1 h
      cases h
      obtain ⟨a2, b2⟩ := (uintField_iff _ _ _ _).1 hx2
      exact ⟨b2, .inl ⟨_, rfl, by simp [(strField_iff _ _ _).1 hx0, (strField_iff _ _ _).1 hx1, a2]⟩⟩
    · obtain ⟨x0, hx0, h⟩ := opt_bind_iff.1 h
      obtain ⟨x1, hx1, h⟩ := opt_bind_iff.1 h
      obtain ⟨x2, hx2, h⟩ := opt_bind_iff.1 h
      cases h
      obtain ⟨rfl, b2⟩ := (uint_iff _ _ _).1 hx2
      rw [strJson_iff] at hx0 hx1
      subst hx0 hx1
      exact ⟨b2, .inr rfl⟩
    · cases h
  · rintro ⟨hb, ⟨ms, rfl, hm⟩ | rfl⟩
    · simp only [List.forall_mem_cons] at hm
      simp only [CacheResult.ofJson, bind, (strField_iff _ _ _).2 hm.1, (strField_iff _ _ _).2 hm.2.1, (uintField_iff _ u64Size _ _).2 ⟨hm.2.2.1, hb⟩, Option.bind_some]
    · simp only [List.map_cons, List.map_nil, CacheResult.ofJson, bind, (strJson_iff _ _).2 rfl, (uint_iff u64Size _ _).2 ⟨rfl, hb⟩, Option.bind_some]

/-- A token to be validated. -/
theorem C94_verify (t : List Char) (v : VerifyCaptchaResult) :
    (jsonParse t).bind VerifyCaptchaResult.ofJson = some v ↔
      StructText t [("token", .str v.token.toList), ("key", .str v.key.toList)] := by
  rw [← true_and (StructText _ _)]
  refine readStruct_iff (fun j => ?_) t
  constructor
  · intro h
    unfold VerifyCaptchaResult.ofJson at h
    split at h
    · obtain ⟨x0, hx0, h⟩ := opt_bind_iff.1 h
      obtain ⟨x1, hx1, h⟩ := opt_bind_iff.1 h
      cases h
      exact ⟨trivial, .inl ⟨_, rfl, by simp [(strField_iff _ _ _).1 hx0, (strField_iff _ _ _).1 hx1]⟩⟩
    · obtain ⟨x0, hx0, h⟩ := opt_bind_iff.1 h
      obtain ⟨x1, hx1, h⟩ := opt_bind_iff.1 h
      cases h
      rw [strJson_iff] at hx0 hx1
      subst hx0 hx1
      exact ⟨trivial, .inr rfl⟩
    · cases h
  · rintro ⟨-, ⟨ms, rfl, hm⟩ | rfl⟩
    · simp only [List.forall_mem_cons] at hm
      simp only [VerifyCaptchaResult.ofJson, bind, (strField_iff _ _ _).2 hm.1, (strField_iff _ _ _).2 hm.2.1, Option.bind_some]
    · simp only [List.map_cons, List.map_nil, VerifyCaptchaResult.ofJson, bind, (strJson_iff _ _).2 rfl, Option.bind_some]

/-- A request to rename a site. -/
theorem C94_rename (t : List Char) (r : RenameMsg) :
    (jsonParse t).bind RenameMsg.ofJson = some r ↔
      StructText t [("name", .str r.name.toList), ("rename_to", .str r.renameTo.toList)] := by
  rw [← true_and (StructText _ _)]
  refine readStruct_iff (fun j => ?_) t
  constructor
  · intro h
    unfold RenameMsg.ofJson at h
    split at h
    · obtain ⟨x0, hx0, h⟩ := opt_bind_iff.1 h
      obtain ⟨x1, hx1, h⟩ := opt_bind_iff.1 h
      cases h
      exact ⟨trivial, .inl ⟨_, rfl, by simp [(strField_iff _ _ _).1 hx0, (strField_iff _ _ _).1 hx1]⟩⟩
    · obtain ⟨x0, hx0, h⟩ := opt_bind_iff.1 h
      obtain ⟨x1, hx1, h⟩ := opt_bind_iff.1 h
      cases h
      rw [strJson_iff] at hx0 hx1
      subst hx0 hx1
      exact ⟨trivial, .inr rfl⟩
    · cases h
  · rintro ⟨-, ⟨ms, rfl, hm⟩ | rfl⟩
    · simp only [List.forall_mem_cons] at hm
      simp only [RenameMsg.ofJson, bind, (strField_iff _ _ _).2 hm.1, (strField_iff _ _ _).2 hm.2.1, Option.bind_some]
    · simp only [List.map_cons, List.map_nil, RenameMsg.ofJson, bind, (strJson_iff _ _).2 rfl, Option.bind_some]

/-- A challenge for the Redis module. -/
theorem C94_add_challenge (t : List Char) (c : AddChallenge) :
    (jsonParse t).bind AddChallenge.ofJson = some c ↔
      c.difficulty < 2 ^ 32 ∧ c.duration < 2 ^ 64 ∧ StructText t [("difficulty", .num c.difficulty), ("duration", .num c.duration), ("challenge", .str c.challenge.toList)] := by
  rw [← and_assoc]
  refine readStruct_iff (fun j => ?_) t
  constructor
  · intro h
    unfold AddChallenge.ofJson at h
    split at h
    · obtain ⟨x0, hx0, h⟩ := opt_bind_iff.1 h
      obtain ⟨x1, hx1, h⟩ := opt_bind_iff.1 h
      obtain ⟨x2, hx2, h⟩ := opt_bind_iff.1 h
      cases h
      obtain ⟨a0, b0⟩ := (uintField_iff _ _ _ _).1 hx0
      obtain ⟨a1, b1⟩ := (uintField_iff _ _ _ _).1 hx1
      exact ⟨⟨b0, b1⟩, .inl ⟨_, rfl, by simp [a0, a1, (strField_iff _ _ _).1 hx2]⟩⟩
    · obtain ⟨x0, hx0, h⟩ := opt_bind_iff.1 h
      obtain ⟨x1, hx1, h⟩ := opt_bind_iff.1 h
      obtain ⟨x2, hx2, h⟩ := opt_bind_iff.1 h
      cases h
      obtain ⟨rfl, b0⟩ := (uint_iff _ _ _).1 hx0
      obtain ⟨rfl, b1⟩ := (uint_iff _ _ _).1 hx1
      rw [strJson_iff] at hx2
      subst hx2
      exact ⟨⟨b0, b1⟩, .inr rfl⟩
    · cases h
  · rintro ⟨hb, ⟨ms, rfl, hm⟩ | rfl⟩
    · simp only [List.forall_mem_cons] at hm
      simp only [AddChallenge.ofJson, bind, (uintField_iff _ u32Size _ _).2 ⟨hm.1, hb.1⟩, (uintField_iff _ u64Size _ _).2 ⟨hm.2.1, hb.2⟩, (strField_iff _ _ _).2 hm.2.2.1, Option.bind_some]
    · simp only [List.map_cons, List.map_nil, AddChallenge.ofJson, bind, (strJson_iff _ _).2 rfl, (uint_iff u32Size _ _).2 ⟨rfl, hb.1⟩, (uint_iff u64Size _ _).2 ⟨rfl, hb.2⟩, Option.bind_some]

/-- A request to register a site. -/
theorem C94_add_site (t : List Char) (a : AddSite) :
    (jsonParse t).bind AddSite.ofJson = some a ↔ ∃ d, CaptchaJson a.mcaptcha d ∧ StructText t [("id", .str a.id.toList), ("mcaptcha", d)] := by
  have key : ∀ j, AddSite.ofJson j = some a ↔ ∃ d, CaptchaJson a.mcaptcha d ∧ StructJson [("id", .str a.id.toList), ("mcaptcha", d)] j := by
    intro j
    constructor
    · intro h
      unfold AddSite.ofJson at h
      split at h
      · obtain ⟨x, hx, h⟩ := opt_bind_iff.1 h
        obtain ⟨y, hy, h⟩ := opt_bind_iff.1 h
        cases h
        obtain ⟨d, h1, h2⟩ := opt_bind_iff.1 hy
        exact ⟨d, (captchaJson_iff _ _).1 h2, .inl ⟨_, rfl, by simp [(strField_iff _ _ _).1 hx, (field_iff _ _ _).1 h1]⟩⟩
      · obtain ⟨x, hx, h⟩ := opt_bind_iff.1 h
        obtain ⟨y, hy, h⟩ := opt_bind_iff.1 h
        cases h
        rw [strJson_iff] at hx
        subst hx
        exact ⟨_, (captchaJson_iff _ _).1 hy, .inr rfl⟩
      · cases h
    · rintro ⟨d, hd, ⟨ms, rfl, hm⟩ | rfl⟩
      · simp only [List.forall_mem_cons] at hm
        simp only [AddSite.ofJson, bind, (strField_iff _ _ _).2 hm.1, (field_iff _ _ _).2 hm.2.1, (captchaJson_iff _ _).2 hd, Option.bind_some]
      · simp only [List.map_cons, List.map_nil, AddSite.ofJson, bind, (strJson_iff _ _).2 rfl, (captchaJson_iff _ _).2 hd, Option.bind_some]
  rw [readText_iff key]
  constructor
  · rintro ⟨j, h1, d, h2, h3⟩; exact ⟨d, h2, j, h1, h3⟩
  · rintro ⟨d, h2, j, h1, h3⟩; exact ⟨j, h1, d, h2, h3⟩

/-- A stored site. -/
theorem C94_internal_data (t : List Char) (a : InternalData) :
    (jsonParse t).bind InternalData.ofJson = some a ↔ ∃ d, CaptchaJson a.mcaptcha d ∧ StructText t [("name", .str a.name.toList), ("mcaptcha", d)] := by
  have key : ∀ j, InternalData.ofJson j = some a ↔ ∃ d, CaptchaJson a.mcaptcha d ∧ StructJson [("name", .str a.name.toList), ("mcaptcha", d)] j := by
    intro j
    constructor
    · intro h
      unfold InternalData.ofJson at h
      split at h
      · obtain ⟨x, hx, h⟩ := opt_bind_iff.1 h
        obtain ⟨y, hy, h⟩ := opt_bind_iff.1 h
        cases h
        obtain ⟨d, h1, h2⟩ := opt_bind_iff.1 hy
        exact ⟨d, (captchaJson_iff _ _).1 h2, .inl ⟨_, rfl, by simp [(strField_iff _ _ _).1 hx, (field_iff _ _ _).1 h1]⟩⟩
      · obtain ⟨x, hx, h⟩ := opt_bind_iff.1 h
        obtain ⟨y, hy, h⟩ := opt_bind_iff.1 h
        cases h
        rw [strJson_iff] at hx
        subst hx
        exact ⟨_, (captchaJson_iff _ _).1 hy, .inr rfl⟩
      · cases h
    · rintro ⟨d, hd, ⟨ms, rfl, hm⟩ | rfl⟩
      · simp only [List.forall_mem_cons] at hm
        simp only [InternalData.ofJson, bind, (strField_iff _ _ _).2 hm.1, (field_iff _ _ _).2 hm.2.1, (captchaJson_iff _ _).2 hd, Option.bind_some]
      · simp only [List.map_cons, List.map_nil, InternalData.ofJson, bind, (strJson_iff _ _).2 rfl, (captchaJson_iff _ _).2 hd, Option.bind_some]
  rw [readText_iff key]
  constructor
  · rintro ⟨j, h1, d, h2, h3⟩; exact ⟨d, h2, j, h1, h3⟩
  · rintro ⟨d, h2, j, h1, h3⟩; exact ⟨j, h1, d, h2, h3⟩

/-- The levels and duration of a captcha for the Redis module. -/
theorem C94_create_mcaptcha (t : List Char) (c : CreateMCaptcha) :
    (jsonParse t).bind CreateMCaptcha.ofJson = some c ↔
      c.duration < 2 ^ 64 ∧ ∃ js, LevelsJson c.levels js ∧ StructText t [("levels", .arr js), ("duration", .num c.duration)] := by
  have key : ∀ j, CreateMCaptcha.ofJson j = some c ↔
      c.duration < 2 ^ 64 ∧ ∃ js, LevelsJson c.levels js ∧ StructJson [("levels", .arr js), ("duration", .num c.duration)] j := by
    intro j
    constructor
    · intro h
      unfold CreateMCaptcha.ofJson at h
      split at h
      · obtain ⟨x, hx, h⟩ := opt_bind_iff.1 h
        obtain ⟨y, hy, h⟩ := opt_bind_iff.1 h
        cases h
        obtain ⟨d, h1, h2⟩ := opt_bind_iff.1 hx
        obtain ⟨js, rfl, hl⟩ := (jsonLevels_iff _ _).1 h2
        obtain ⟨h3, h4⟩ := (uintField_iff _ _ _ _).1 hy
        exact ⟨h4, js, hl, .inl ⟨_, rfl, by simp [(field_iff _ _ _).1 h1, h3]⟩⟩
      · obtain ⟨x, hx, h⟩ := opt_bind_iff.1 h
        obtain ⟨y, hy, h⟩ := opt_bind_iff.1 h
        cases h
        obtain ⟨js, rfl, hl⟩ := (jsonLevels_iff _ _).1 hx
        obtain ⟨rfl, h4⟩ := (uint_iff _ _ _).1 hy
        exact ⟨h4, js, hl, .inr rfl⟩
      · cases h
    · rintro ⟨hb, js, hl, ⟨ms, rfl, hm⟩ | rfl⟩
      · simp only [List.forall_mem_cons] at hm
        simp only [CreateMCaptcha.ofJson, bind, (field_iff _ _ _).2 hm.1, (uintField_iff _ u64Size _ _).2 ⟨hm.2.1, hb⟩,
          (jsonLevels_iff _ _).2 ⟨js, rfl, hl⟩, Option.bind_some]
      · simp only [List.map_cons, List.map_nil, CreateMCaptcha.ofJson, bind, (jsonLevels_iff _ _).2 ⟨js, rfl, hl⟩,
          (uint_iff u64Size _ _).2 ⟨rfl, hb⟩, Option.bind_some]
  rw [readText_iff key]
  constructor
  · rintro ⟨j, h1, hb, d, h2, h3⟩; exact ⟨hb, d, h2, j, h1, h3⟩
  · rintro ⟨hb, d, h2, j, h1, h3⟩; exact ⟨j, h1, hb, d, h2, h3⟩

/-- What a visit is answered with. -/
theorem C94_visitor (t : List Char) (r : AddVisitorResult) :
    (jsonParse t).bind AddVisitorResult.ofJson = some r ↔
      r.duration < 2 ^ 64 ∧ r.difficultyFactor < 2 ^ 32 ∧
        StructText t [("duration", .num r.duration), ("difficulty_factor", .num r.difficultyFactor)] := by
  rw [readText_iff (fun j => visitorJson_iff r j)]
  constructor
  · rintro ⟨j, h1, h2, h3, ⟨ms, rfl, h4, h5⟩ | rfl⟩
    · exact ⟨h2, h3, _, h1, .inl ⟨ms, rfl, by simp [h4, h5]⟩⟩
    · exact ⟨h2, h3, _, h1, .inr rfl⟩
  · rintro ⟨h2, h3, j, h1, ⟨ms, rfl, hm⟩ | rfl⟩
    · simp only [List.forall_mem_cons] at hm
      exact ⟨_, h1, h2, h3, .inl ⟨ms, rfl, hm.1, hm.2.1⟩⟩
    · exact ⟨_, h1, h2, h3, .inr rfl⟩

/-- Levels and defenses by themselves. -/
theorem C94_level (t : List Char) (l : Level) :
    (jsonParse t).bind Level.ofJson = some l ↔
      l.visitorThreshold < 2 ^ 32 ∧ l.difficultyFactor < 2 ^ 32 ∧
        StructText t [("visitor_threshold", .num l.visitorThreshold), ("difficulty_factor", .num l.difficultyFactor)] := by
  rw [readText_iff (fun j => levelJson_iff l j)]
  constructor
  · rintro ⟨j, h1, h2, h3, ⟨ms, rfl, h4, h5⟩ | rfl⟩
    · exact ⟨h2, h3, _, h1, .inl ⟨ms, rfl, by simp [h4, h5]⟩⟩
    · exact ⟨h2, h3, _, h1, .inr rfl⟩
  · rintro ⟨h2, h3, j, h1, ⟨ms, rfl, hm⟩ | rfl⟩
    · simp only [List.forall_mem_cons] at hm
      exact ⟨_, h1, h2, h3, .inl ⟨ms, rfl, hm.1, hm.2.1⟩⟩
    · exact ⟨_, h1, h2, h3, .inr rfl⟩

theorem C94_defense (t : List Char) (d : Defense) :
    (jsonParse t).bind Defense.ofJson = some d ↔
      d.cur < 2 ^ 64 ∧ ∃ js, LevelsJson d.levels js ∧ StructText t [("levels", .arr js), ("current_visitor_threshold", .num d.cur)] := by
  rw [readText_iff (fun j => defenseJson_iff d j)]
  constructor
  · rintro ⟨j, h1, h2, js, h3, ⟨ms, rfl, h4, h5⟩ | rfl⟩
    · exact ⟨h2, js, h3, _, h1, .inl ⟨ms, rfl, by simp [h4, h5]⟩⟩
    · exact ⟨h2, js, h3, _, h1, .inr rfl⟩
  · rintro ⟨h2, js, h3, j, h1, ⟨ms, rfl, hm⟩ | rfl⟩
    · simp only [List.forall_mem_cons] at hm
      exact ⟨_, h1, h2, js, h3, .inl ⟨ms, rfl, hm.1, hm.2.1⟩⟩
    · exact ⟨_, h1, h2, js, h3, .inr rfl⟩

/-- The names of sites in the requests to count a visit and to remove a site: a text is read as the name exactly if it denotes it. -/
theorem C94_newtype (t : List Char) (s : String) : (jsonParse t).bind newtypeOfJson = some s ↔ Denotes t (.str s.toList) := by
  rw [readText_iff (f := newtypeOfJson) (fun j => strJson_iff s j)]
  constructor
  · rintro ⟨j, h, rfl⟩; exact h
  · intro h; exact ⟨_, h, rfl⟩

/-- Texts which are read, by the theorems: other orders, further members, arrays, white space; and some which are not: a member twice,
one missing, a number too large, a field too many. -/
example : (jsonParse "{ \"key\" : \"k\", \"x\": null, \"token\": \"t\" }".toList).bind VerifyCaptchaResult.ofJson = some ⟨"t", "k"⟩ ∧
    (jsonParse "[\"t\", \"k\"]".toList).bind VerifyCaptchaResult.ofJson = some ⟨"t", "k"⟩ ∧
    (jsonParse "[\"t\", \"k\", 5]".toList).bind CacheResult.ofJson = some ⟨"t", "k", 5⟩ ∧
    (jsonParse "[\"t\", \"k\", 5]".toList).bind VerifyCaptchaResult.ofJson = none ∧
    (jsonParse "{\"key\":\"k\",\"token\":\"t\",\"key\":\"k\"}".toList).bind VerifyCaptchaResult.ofJson = none ∧
    (jsonParse "{\"key\":\"k\"}".toList).bind VerifyCaptchaResult.ofJson = none ∧
    (jsonParse "[4294967296, 5, \"c\"]".toList).bind AddChallenge.ofJson = none ∧
    (jsonParse "[4294967295, 5, \"c\"]".toList).bind AddChallenge.ofJson = some ⟨4294967295, 5, "c"⟩ ∧
    (jsonParse "[18446744073709551615, 5]".toList).bind AddVisitorResult.ofJson = some ⟨18446744073709551615, 5⟩ ∧
    (jsonParse "{\"difficulty_factor\":50,\"duration\":30}".toList).bind AddVisitorResult.ofJson = some ⟨30, 50⟩ ∧
    (jsonParse "[[[5, 6]], 0]".toList).bind Defense.ofJson = some ⟨[⟨5, 6⟩], 0⟩ ∧
    (jsonParse "[5, 6]".toList).bind Level.ofJson = some ⟨5, 6⟩ := by decide +kernel

end MCap
