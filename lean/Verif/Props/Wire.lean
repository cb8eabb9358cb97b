import Verif.Model.Wire
import Verif.Props.Json

/-!
# Properties of the messages as JSON texts, and of the texts of errors
-/

namespace MCap
open Spec

/-! ## C85 Messages survive JSON -/

/-- What reading gives back, for any text of the value. -/
theorem round_of {α : Type} {f : Json → Option α} {v : Json} {a : α} (h : f v = some a) :
    (jsonParse v.text).bind f = some a ∧ ∀ j, Denotes v.text j → f j = some a := by
  refine ⟨?_, ?_⟩
  · rw [parse_text]; exact h
  · intro j hj
    rw [denotes_unique hj (text_denotes v)]; exact h

/-- A member which is the only one of its name. -/
theorem field_of_mem {name : String} {v : Json} {ms : List (Option (List Char) × Json)} (hn : (ms.map Prod.fst).Nodup)
    (hs : ∀ m ∈ ms, m.1 ≠ none) (h : (some name.toList, v) ∈ ms) : jsonField name ms = some v := by
  rw [field_iff]
  obtain ⟨a, b, rfl⟩ := List.append_of_mem h
  refine ⟨a, b, rfl, fun m hm => ?_⟩
  have hm' : m ∈ a ++ (some name.toList, v) :: b := by
    rcases List.mem_append.1 hm with hm | hm
    · exact List.mem_append_left _ hm
    · exact List.mem_append_right _ (List.mem_cons_of_mem _ hm)
  obtain ⟨k, w⟩ := m
  cases k with
  | none => exact absurd rfl (hs _ hm')
  | some k =>
    refine ⟨k, rfl, ?_⟩
    rintro rfl
    rw [List.map_append, List.map_cons, List.nodup_append] at hn
    obtain ⟨-, h2, h3⟩ := hn
    rcases List.mem_append.1 hm with hm | hm
    · exact h3 _ (List.mem_map_of_mem (f := Prod.fst) hm) _ List.mem_cons_self rfl
    · have := List.mem_map_of_mem (f := Prod.fst) hm
      exact (List.nodup_cons.1 h2).1 this

/-- A field which was read is a member. -/
theorem mem_of_field {name : String} {v : Json} {ms : List (Option (List Char) × Json)} (h : jsonField name ms = some v) :
    (some name.toList, v) ∈ ms := by
  obtain ⟨a, b, rfl, -⟩ := (field_iff _ _ _).1 h
  exact List.mem_append_right _ List.mem_cons_self

theorem str_of {j : Json} {s : String} (h : jsonStr j = some s) : j = .str s.toList := by
  cases j <;> simp only [jsonStr, reduceCtorEq, Option.some.injEq] at h
  rw [← h]; simp

theorem uint_num {b n : Nat} {j : Json} (h : jsonUint b j = some n) : j = .num n ∧ n < b := by
  cases j <;> simp only [jsonUint, reduceCtorEq] at h
  split at h
  · cases h; exact ⟨rfl, by assumption⟩
  · cases h

/-- The challenge sent to a client denotes an object with the members `string`, `difficulty_factor` and `salt`, and is read as the same
challenge. -/
theorem C85_pow_config_round_trip (c : PoWConfig) (hd : c.difficultyFactor < 2 ^ 32) :
    Denotes c.toJson.text (.obj [(some "string".toList, .str c.string.toList), (some "difficulty_factor".toList, .num c.difficultyFactor),
      (some "salt".toList, .str c.salt.toList)]) ∧
    (jsonParse c.toJson.text).bind PoWConfig.ofJson = some c ∧ ∀ j, Denotes c.toJson.text j → PoWConfig.ofJson j = some c := by
  refine ⟨text_denotes _, round_of ?_⟩
  have h1 : jsonUint u32Size (.num c.difficultyFactor) = some c.difficultyFactor := uint_of hd
  have f1 : ∀ x y z, jsonField "string" [(some "string".toList, x), (some "difficulty_factor".toList, y), (some "salt".toList, z)] = some x := fun _ _ _ => rfl
  have f2 : ∀ x y z, jsonField "difficulty_factor" [(some "string".toList, x), (some "difficulty_factor".toList, y), (some "salt".toList, z)] = some y := fun _ _ _ => rfl
  have f3 : ∀ x y z, jsonField "salt" [(some "string".toList, x), (some "difficulty_factor".toList, y), (some "salt".toList, z)] = some z := fun _ _ _ => rfl
  simp only [PoWConfig.toJson, PoWConfig.ofJson, f1, f2, f3, Option.bind_some, h1, bind, Option.bind, jsonStr, ofList_toList]

example : String.ofList (PoWConfig.toJson ⟨"a\"b", 50, "salt"⟩).text = "{\"string\":\"a\\\"b\",\"difficulty_factor\":50,\"salt\":\"salt\"}" ∧
    (jsonParse "{\"string\":\"a\\\"b\",\"difficulty_factor\":50,\"salt\":\"salt\"}".toList).bind PoWConfig.ofJson = some ⟨"a\"b", 50, "salt"⟩ := by
  decide +kernel

/-- The proof sent by a client. -/
theorem C85_work_round_trip (w : Work) (hn : w.nonce < 2 ^ 64) :
    Denotes w.toJson.text (.obj [(some "string".toList, .str w.string.toList), (some "result".toList, .str w.result.toList),
      (some "nonce".toList, .num w.nonce), (some "key".toList, .str w.key.toList)]) ∧
    (jsonParse w.toJson.text).bind Work.ofJson = some w ∧ ∀ j, Denotes w.toJson.text j → Work.ofJson j = some w := by
  refine ⟨text_denotes _, round_of ?_⟩
  have h1 : jsonUint u64Size (.num w.nonce) = some w.nonce := uint_of hn
  have f1 : ∀ x y z u, jsonField "string" [(some "string".toList, x), (some "result".toList, y), (some "nonce".toList, z), (some "key".toList, u)] = some x := fun _ _ _ _ => rfl
  have f2 : ∀ x y z u, jsonField "result" [(some "string".toList, x), (some "result".toList, y), (some "nonce".toList, z), (some "key".toList, u)] = some y := fun _ _ _ _ => rfl
  have f3 : ∀ x y z u, jsonField "nonce" [(some "string".toList, x), (some "result".toList, y), (some "nonce".toList, z), (some "key".toList, u)] = some z := fun _ _ _ _ => rfl
  have f4 : ∀ x y z u, jsonField "key" [(some "string".toList, x), (some "result".toList, y), (some "nonce".toList, z), (some "key".toList, u)] = some u := fun _ _ _ _ => rfl
  simp only [Work.toJson, Work.ofJson, f1, f2, f3, f4, Option.bind_some, h1, bind, Option.bind, jsonStr, ofList_toList]

example : (7 : Nat) < 2 ^ 64 ∧ String.ofList (Work.toJson ⟨"s", "123", 7, "k"⟩).text =
    "{\"string\":\"s\",\"result\":\"123\",\"nonce\":7,\"key\":\"k\"}" := by decide +kernel

/-- A client may order the members as it likes and add others, whose names are strings. -/
theorem C85_work_any_order (w : Work) (ms : List (Option (List Char) × Json)) (hu : (ms.map Prod.fst).Nodup)
    (hs : ∀ m ∈ ms, m.1 ≠ none) (hn : w.nonce < 2 ^ 64)
    (h1 : (some "string".toList, .str w.string.toList) ∈ ms) (h2 : (some "result".toList, .str w.result.toList) ∈ ms)
    (h3 : (some "nonce".toList, .num w.nonce) ∈ ms) (h4 : (some "key".toList, .str w.key.toList) ∈ ms) : Work.ofJson (.obj ms) = some w := by
  have hk : jsonUint u64Size (.num w.nonce) = some w.nonce := uint_of hn
  simp only [Work.ofJson, field_of_mem hu hs h1, field_of_mem hu hs h2, field_of_mem hu hs h3, field_of_mem hu hs h4, Option.bind_some, hk, bind,
    Option.bind, jsonStr, ofList_toList]

/-- Nothing is made up: what is read of an object are its members of these names, and the nonce fits. -/
theorem C85_work_read (w : Work) (ms : List (Option (List Char) × Json)) (h : Work.ofJson (.obj ms) = some w) :
    (some "string".toList, .str w.string.toList) ∈ ms ∧ (some "result".toList, .str w.result.toList) ∈ ms ∧
    (some "nonce".toList, .num w.nonce) ∈ ms ∧ (some "key".toList, .str w.key.toList) ∈ ms ∧ w.nonce < 2 ^ 64 := by
  simp only [Work.ofJson, bind] at h
  obtain ⟨s, hs, h⟩ := bind_some h
  obtain ⟨r, hr, h⟩ := bind_some h
  obtain ⟨n, hn, h⟩ := bind_some h
  obtain ⟨k, hk, h⟩ := bind_some h
  cases h
  obtain ⟨_, hs, es⟩ := bind_some hs
  obtain ⟨_, hr, er⟩ := bind_some hr
  obtain ⟨_, hn, en⟩ := bind_some hn
  obtain ⟨_, hk, ek⟩ := bind_some hk
  rw [str_of es] at hs; rw [str_of er] at hr; rw [(uint_num en).1] at hn; rw [str_of ek] at hk
  exact ⟨mem_of_field hs, mem_of_field hr, mem_of_field hn, mem_of_field hk, (uint_num en).2⟩

/-- Values which are ignored may be any JSON: numbers which are not natural, strings and names with unpaired surrogates, nested deeply. -/
example : (jsonParse "{\"key\":\"k\",\"x\":[-1,0.5,1e2,-0,2E-3,\"\\ud800\",{\"\\uDFFF\":1}],\"nonce\":7,\"result\":\"1\",\"string\":\"s\"}".toList).bind
      Work.ofJson = some ⟨"s", "1", 7, "k"⟩ ∧
    -- but not these
    (jsonParse "{\"key\":\"k\",\"x\":01,\"nonce\":7,\"result\":\"1\",\"string\":\"s\"}".toList).bind Work.ofJson = none ∧
    (jsonParse "{\"key\":\"k\",\"x\":1.,\"nonce\":7,\"result\":\"1\",\"string\":\"s\"}".toList).bind Work.ofJson = none ∧
    (jsonParse "{\"key\":\"k\",\"x\":\"\\ud8\",\"nonce\":7,\"result\":\"1\",\"string\":\"s\"}".toList).bind Work.ofJson = none ∧
    -- nor where they are not ignored
    (jsonParse "{\"key\":\"\\ud800\",\"nonce\":7,\"result\":\"1\",\"string\":\"s\"}".toList).bind Work.ofJson = none ∧
    (jsonParse "{\"key\":\"k\",\"nonce\":7,\"result\":\"1\",\"string\":\"s\",\"\\ud800\":1}".toList).bind Work.ofJson = none ∧
    (jsonParse "{\"key\":\"k\",\"nonce\":-7,\"result\":\"1\",\"string\":\"s\"}".toList).bind Work.ofJson = none ∧
    (jsonParse "{\"key\":\"k\",\"nonce\":7.0,\"result\":\"1\",\"string\":\"s\"}".toList).bind Work.ofJson = none := by decide +kernel

/-- The hypotheses of the two: another order and a further member; a nonce which is too large is refused. -/
example : (jsonParse "{\"key\":\"k\", \"extra\":[null], \"nonce\":7, \"result\":\"123\", \"string\":\"s\"}".toList).bind Work.ofJson =
      some ⟨"s", "123", 7, "k"⟩ ∧
    (jsonParse "{\"key\":\"k\",\"nonce\":18446744073709551616,\"result\":\"123\",\"string\":\"s\"}".toList).bind Work.ofJson = none := by
  decide +kernel

/-- What caches are asked to keep. -/
theorem C85_cache_pow_round_trip (c : CachePoW) (hd : c.difficultyFactor < 2 ^ 32) (ht : c.duration < 2 ^ 64) :
    Denotes c.toJson.text (.obj [(some "string".toList, .str c.string.toList), (some "difficulty_factor".toList, .num c.difficultyFactor),
      (some "duration".toList, .num c.duration), (some "key".toList, .str c.key.toList)]) ∧
    (jsonParse c.toJson.text).bind CachePoW.ofJson = some c ∧ ∀ j, Denotes c.toJson.text j → CachePoW.ofJson j = some c := by
  refine ⟨text_denotes _, round_of ?_⟩
  have h1 : jsonUint u32Size (.num c.difficultyFactor) = some c.difficultyFactor := uint_of hd
  have h2 : jsonUint u64Size (.num c.duration) = some c.duration := uint_of ht
  have f1 : ∀ x y z u, jsonField "string" [(some "string".toList, x), (some "difficulty_factor".toList, y), (some "duration".toList, z), (some "key".toList, u)] = some x := fun _ _ _ _ => rfl
  have f2 : ∀ x y z u, jsonField "difficulty_factor" [(some "string".toList, x), (some "difficulty_factor".toList, y), (some "duration".toList, z), (some "key".toList, u)] = some y := fun _ _ _ _ => rfl
  have f3 : ∀ x y z u, jsonField "duration" [(some "string".toList, x), (some "difficulty_factor".toList, y), (some "duration".toList, z), (some "key".toList, u)] = some z := fun _ _ _ _ => rfl
  have f4 : ∀ x y z u, jsonField "key" [(some "string".toList, x), (some "difficulty_factor".toList, y), (some "duration".toList, z), (some "key".toList, u)] = some u := fun _ _ _ _ => rfl
  simp only [CachePoW.toJson, CachePoW.ofJson, f1, f2, f3, f4, Option.bind_some, h1, h2, bind, Option.bind, jsonStr, ofList_toList]

theorem C85_cached_config_round_trip (c : CachedPoWConfig) (hd : c.difficultyFactor < 2 ^ 32) (ht : c.duration < 2 ^ 64) :
    Denotes c.toJson.text (.obj [(some "key".toList, .str c.key.toList), (some "difficulty_factor".toList, .num c.difficultyFactor),
      (some "duration".toList, .num c.duration)]) ∧
    (jsonParse c.toJson.text).bind CachedPoWConfig.ofJson = some c ∧ ∀ j, Denotes c.toJson.text j → CachedPoWConfig.ofJson j = some c := by
  refine ⟨text_denotes _, round_of ?_⟩
  have h1 : jsonUint u32Size (.num c.difficultyFactor) = some c.difficultyFactor := uint_of hd
  have h2 : jsonUint u64Size (.num c.duration) = some c.duration := uint_of ht
  have f1 : ∀ x y z, jsonField "key" [(some "key".toList, x), (some "difficulty_factor".toList, y), (some "duration".toList, z)] = some x := fun _ _ _ => rfl
  have f2 : ∀ x y z, jsonField "difficulty_factor" [(some "key".toList, x), (some "difficulty_factor".toList, y), (some "duration".toList, z)] = some y := fun _ _ _ => rfl
  have f3 : ∀ x y z, jsonField "duration" [(some "key".toList, x), (some "difficulty_factor".toList, y), (some "duration".toList, z)] = some z := fun _ _ _ => rfl
  simp only [CachedPoWConfig.toJson, CachedPoWConfig.ofJson, f1, f2, f3, Option.bind_some, h1, h2, bind, Option.bind, jsonStr, ofList_toList]

theorem C85_cache_result_round_trip (c : CacheResult) (ht : c.duration < 2 ^ 64) :
    Denotes c.toJson.text (.obj [(some "token".toList, .str c.token.toList), (some "key".toList, .str c.key.toList),
      (some "duration".toList, .num c.duration)]) ∧
    (jsonParse c.toJson.text).bind CacheResult.ofJson = some c ∧ ∀ j, Denotes c.toJson.text j → CacheResult.ofJson j = some c := by
  refine ⟨text_denotes _, round_of ?_⟩
  have h2 : jsonUint u64Size (.num c.duration) = some c.duration := uint_of ht
  have f1 : ∀ x y z, jsonField "token" [(some "token".toList, x), (some "key".toList, y), (some "duration".toList, z)] = some x := fun _ _ _ => rfl
  have f2 : ∀ x y z, jsonField "key" [(some "token".toList, x), (some "key".toList, y), (some "duration".toList, z)] = some y := fun _ _ _ => rfl
  have f3 : ∀ x y z, jsonField "duration" [(some "token".toList, x), (some "key".toList, y), (some "duration".toList, z)] = some z := fun _ _ _ => rfl
  simp only [CacheResult.toJson, CacheResult.ofJson, f1, f2, f3, Option.bind_some, h2, bind, Option.bind, jsonStr, ofList_toList]

theorem C85_verify_round_trip (v : VerifyCaptchaResult) :
    Denotes v.toJson.text (.obj [(some "token".toList, .str v.token.toList), (some "key".toList, .str v.key.toList)]) ∧
    (jsonParse v.toJson.text).bind VerifyCaptchaResult.ofJson = some v ∧ ∀ j, Denotes v.toJson.text j → VerifyCaptchaResult.ofJson j = some v := by
  refine ⟨text_denotes _, round_of ?_⟩
  have f1 : ∀ x y, jsonField "token" [(some "token".toList, x), (some "key".toList, y)] = some x := fun _ _ => rfl
  have f2 : ∀ x y, jsonField "key" [(some "token".toList, x), (some "key".toList, y)] = some y := fun _ _ => rfl
  simp only [VerifyCaptchaResult.toJson, VerifyCaptchaResult.ofJson, f1, f2, Option.bind_some, bind, Option.bind, jsonStr, ofList_toList]

/-- The requests to a master. -/
theorem C85_rename_round_trip (r : RenameMsg) :
    Denotes r.toJson.text (.obj [(some "name".toList, .str r.name.toList), (some "rename_to".toList, .str r.renameTo.toList)]) ∧
    (jsonParse r.toJson.text).bind RenameMsg.ofJson = some r ∧ ∀ j, Denotes r.toJson.text j → RenameMsg.ofJson j = some r := by
  refine ⟨text_denotes _, round_of ?_⟩
  have f1 : ∀ x y, jsonField "name" [(some "name".toList, x), (some "rename_to".toList, y)] = some x := fun _ _ => rfl
  have f2 : ∀ x y, jsonField "rename_to" [(some "name".toList, x), (some "rename_to".toList, y)] = some y := fun _ _ => rfl
  simp only [RenameMsg.toJson, RenameMsg.ofJson, f1, f2, Option.bind_some, bind, Option.bind, jsonStr, ofList_toList]

/-- A captcha whose numbers fit their types. -/
theorem mcaptcha_read (m : MCaptcha) (hv : m.visitors < 2 ^ 32)
    (hl : ∀ l ∈ m.defense.levels, l.visitorThreshold < 2 ^ 32 ∧ l.difficultyFactor < 2 ^ 32) (hc : m.defense.cur < 2 ^ 64)
    (ht : m.duration < 2 ^ 64) : MCaptcha.ofJson m.toJson = some m :=
  (C81_mcaptcha_round_trip m hv hl hc ht).2 _ (text_denotes _)

theorem C85_add_site_round_trip (a : AddSite) (hv : a.mcaptcha.visitors < 2 ^ 32)
    (hl : ∀ l ∈ a.mcaptcha.defense.levels, l.visitorThreshold < 2 ^ 32 ∧ l.difficultyFactor < 2 ^ 32) (hc : a.mcaptcha.defense.cur < 2 ^ 64)
    (ht : a.mcaptcha.duration < 2 ^ 64) :
    (∃ m, Denotes a.toJson.text (.obj [(some "id".toList, .str a.id.toList), (some "mcaptcha".toList, m)]) ∧ MCaptcha.ofJson m = some a.mcaptcha) ∧
    (jsonParse a.toJson.text).bind AddSite.ofJson = some a ∧ ∀ j, Denotes a.toJson.text j → AddSite.ofJson j = some a := by
  refine ⟨⟨_, text_denotes _, mcaptcha_read _ hv hl hc ht⟩, round_of ?_⟩
  have f1 : ∀ x y, jsonField "id" [(some "id".toList, x), (some "mcaptcha".toList, y)] = some x := fun _ _ => rfl
  have f2 : ∀ x y, jsonField "mcaptcha" [(some "id".toList, x), (some "mcaptcha".toList, y)] = some y := fun _ _ => rfl
  simp only [AddSite.toJson, AddSite.ofJson, f1, f2, Option.bind_some, bind, Option.bind, jsonStr, ofList_toList, mcaptcha_read _ hv hl hc ht]

theorem C85_internal_data_round_trip (a : InternalData) (hv : a.mcaptcha.visitors < 2 ^ 32)
    (hl : ∀ l ∈ a.mcaptcha.defense.levels, l.visitorThreshold < 2 ^ 32 ∧ l.difficultyFactor < 2 ^ 32) (hc : a.mcaptcha.defense.cur < 2 ^ 64)
    (ht : a.mcaptcha.duration < 2 ^ 64) :
    (∃ m, Denotes a.toJson.text (.obj [(some "name".toList, .str a.name.toList), (some "mcaptcha".toList, m)]) ∧ MCaptcha.ofJson m = some a.mcaptcha) ∧
    (jsonParse a.toJson.text).bind InternalData.ofJson = some a ∧ ∀ j, Denotes a.toJson.text j → InternalData.ofJson j = some a := by
  refine ⟨⟨_, text_denotes _, mcaptcha_read _ hv hl hc ht⟩, round_of ?_⟩
  have f1 : ∀ x y, jsonField "name" [(some "name".toList, x), (some "mcaptcha".toList, y)] = some x := fun _ _ => rfl
  have f2 : ∀ x y, jsonField "mcaptcha" [(some "name".toList, x), (some "mcaptcha".toList, y)] = some y := fun _ _ => rfl
  simp only [InternalData.toJson, InternalData.ofJson, f1, f2, Option.bind_some, bind, Option.bind, jsonStr, ofList_toList, mcaptcha_read _ hv hl hc ht]

theorem C85_newtype_round_trip (s : String) :
    Denotes (newtypeToJson s).text (.str s.toList) ∧
    (jsonParse (newtypeToJson s).text).bind newtypeOfJson = some s ∧ ∀ j, Denotes (newtypeToJson s).text j → newtypeOfJson j = some s := by
  refine ⟨text_denotes _, round_of ?_⟩
  simp only [newtypeToJson, newtypeOfJson, jsonStr, ofList_toList]

/-- What a visit is answered with. -/
theorem C85_visitor_round_trip (r : AddVisitorResult) (ht : r.duration < 2 ^ 64) (hd : r.difficultyFactor < 2 ^ 32) :
    Denotes r.toJson.text (.obj [(some "duration".toList, .num r.duration), (some "difficulty_factor".toList, .num r.difficultyFactor)]) ∧
    (jsonParse r.toJson.text).bind AddVisitorResult.ofJson = some r ∧ ∀ j, Denotes r.toJson.text j → AddVisitorResult.ofJson j = some r := by
  refine ⟨text_denotes _, round_of ?_⟩
  have h1 : jsonUint u64Size (.num r.duration) = some r.duration := uint_of ht
  have h2 : jsonUint u32Size (.num r.difficultyFactor) = some r.difficultyFactor := uint_of hd
  have f1 : ∀ x y, jsonField "duration" [(some "duration".toList, x), (some "difficulty_factor".toList, y)] = some x := fun _ _ => rfl
  have f2 : ∀ x y, jsonField "difficulty_factor" [(some "duration".toList, x), (some "difficulty_factor".toList, y)] = some y := fun _ _ => rfl
  simp only [AddVisitorResult.toJson, AddVisitorResult.ofJson, f1, f2, Option.bind_some, h1, h2, bind, Option.bind]

/-- Levels and defenses by themselves. -/
theorem C85_level_round_trip (l : Level) (hv : l.visitorThreshold < 2 ^ 32) (hd : l.difficultyFactor < 2 ^ 32) :
    Denotes l.toJson.text (.obj [(some "visitor_threshold".toList, .num l.visitorThreshold),
      (some "difficulty_factor".toList, .num l.difficultyFactor)]) ∧
    (jsonParse l.toJson.text).bind Level.ofJson = some l ∧ ∀ j, Denotes l.toJson.text j → Level.ofJson j = some l := by
  refine ⟨text_denotes _, round_of ?_⟩
  have h1 : jsonUint u32Size (.num l.visitorThreshold) = some l.visitorThreshold := uint_of hv
  have h2 : jsonUint u32Size (.num l.difficultyFactor) = some l.difficultyFactor := uint_of hd
  have f1 : ∀ x y, jsonField "visitor_threshold" [(some "visitor_threshold".toList, x), (some "difficulty_factor".toList, y)] = some x := fun _ _ => rfl
  have f2 : ∀ x y, jsonField "difficulty_factor" [(some "visitor_threshold".toList, x), (some "difficulty_factor".toList, y)] = some y := fun _ _ => rfl
  simp only [Level.toJson, Level.ofJson, f1, f2, Option.bind_some, h1, h2, bind, Option.bind]

theorem C85_defense_round_trip (d : Defense) (hl : ∀ l ∈ d.levels, l.visitorThreshold < 2 ^ 32 ∧ l.difficultyFactor < 2 ^ 32)
    (hc : d.cur < 2 ^ 64) :
    Denotes d.toJson.text (.obj [(some "levels".toList, .arr (d.levels.map fun l =>
        .obj [(some "visitor_threshold".toList, .num l.visitorThreshold), (some "difficulty_factor".toList, .num l.difficultyFactor)])),
      (some "current_visitor_threshold".toList, .num d.cur)]) ∧
    (jsonParse d.toJson.text).bind Defense.ofJson = some d ∧ ∀ j, Denotes d.toJson.text j → Defense.ofJson j = some d :=
  ⟨text_denotes _, round_of (defense_round d hl hc)⟩

/-- What sites are registered with. -/
theorem C85_create_round_trip (c : CreateMCaptcha) (hl : ∀ l ∈ c.levels, l.visitorThreshold < 2 ^ 32 ∧ l.difficultyFactor < 2 ^ 32)
    (ht : c.duration < 2 ^ 64) :
    Denotes c.toJson.text (.obj [(some "levels".toList, .arr (c.levels.map fun l =>
        .obj [(some "visitor_threshold".toList, .num l.visitorThreshold), (some "difficulty_factor".toList, .num l.difficultyFactor)])),
      (some "duration".toList, .num c.duration)]) ∧
    (jsonParse c.toJson.text).bind CreateMCaptcha.ofJson = some c ∧ ∀ j, Denotes c.toJson.text j → CreateMCaptcha.ofJson j = some c :=
  ⟨text_denotes _, round_of (create_round c hl ht)⟩

example : String.ofList (AddVisitorResult.toJson ⟨30, 50⟩).text = "{\"duration\":30,\"difficulty_factor\":50}" ∧
    String.ofList (Level.toJson ⟨50, 5⟩).text = "{\"visitor_threshold\":50,\"difficulty_factor\":5}" ∧
    String.ofList (Defense.toJson ⟨[⟨50, 5⟩], 0⟩).text = "{\"levels\":[{\"visitor_threshold\":50,\"difficulty_factor\":5}],\"current_visitor_threshold\":0}" ∧
    String.ofList (CreateMCaptcha.toJson ⟨[⟨50, 5⟩], 30⟩).text = "{\"levels\":[{\"visitor_threshold\":50,\"difficulty_factor\":5}],\"duration\":30}" := by
  decide +kernel

example : (jsonParse "{\"id\":\"x\",\"mcaptcha\":{\"visitor_threshold\":7,\"defense\":{\"levels\":[{\"visitor_threshold\":50,\"difficulty_factor\":5}],\"current_visitor_threshold\":0},\"duration\":30}}".toList).bind AddSite.ofJson =
      some ⟨"x", ⟨7, ⟨[⟨50, 5⟩], 0⟩, 30⟩⟩ ∧
    (jsonParse " \"site\" ".toList).bind newtypeOfJson = some "site" ∧ (jsonParse "[\"site\"]".toList).bind newtypeOfJson = none ∧
    (jsonParse "{\"name\":\"a\",\"rename_to\":\"b\"}".toList).bind RenameMsg.ofJson = some ⟨"a", "b"⟩ := by decide +kernel

/-! ## C86 The texts of errors tell them apart -/

/-- The claim is false: a captcha without a duration is reported as one without a difficulty factor. -/
theorem C86_texts_differ_refuted :
    ¬ ∀ e e' : CaptchaError, e.display = e'.display → e = e' := by
  intro h
  exact absurd (h .difficultyFactorZero .captchaDurationZero rfl) (by decide)

/-- The beginning of a text which begins with `a`. -/
theorem take_append_text {a s : String} (n : Nat) (h : n ≤ a.toList.length) : (a ++ s).toList.take n = a.toList.take n := by
  rw [String.toList_append, List.take_append_of_le_length h]

theorem append_text_inj {a s t : String} (h : a ++ s = a ++ t) : s = t := by
  have h : (a ++ s).toList = (a ++ t).toList := by rw [h]
  rw [String.toList_append, String.toList_append] at h
  exact String.toList_injective (List.append_cancel_left h)

/-- A number for each kind of error. -/
def errorKind : CaptchaError → Nat
  | .levelEmpty => 0
  | .difficultyFactorZero => 1
  | .captchaDurationZero => 2
  | .setDifficultyFactor => 3
  | .setVisitorThreshold => 4
  | .duplicateVisitorCount => 5
  | .decreaseingDifficultyFactor => 6
  | .mailboxError => 7
  | .insuffiencientDifficulty => 8
  | .stringNotFound => 9
  | .mCaptchaKeyValidationFail => 10
  | .invalidPoW => 11
  | .recvError => 12
  | .mCaptchaRedisModuleError => 13
  | .mCaptchaRedisModuleIsNotLoaded => 14
  | .queueFull => 15
  | .pleaseSetValue _ => 16
  | .mCaptchaRediSModuleCommandNotFound _ => 17
  | .redisError _ => 18

/-- The kind of an error by the first ten characters of its text. -/
def headKind (t : List Char) : Option Nat :=
  ([("LevelBuild", 0), ("difficulty", 1), ("Set diffic", 3), ("Set visito", 4), ("Duplicate ", 5), ("Difficulty", 6), ("Actor mail", 7), ("Insuffienc", 8), ("String now", 9), ("PoW comput", 10), ("Invalid Po", 11), ("channel cl", 12), ("Something ", 13), ("You are tr", 14), ("IP Queue i", 15), ("Please set", 16), ("The Redis ", 17)] : List (String × Nat)).findSome? fun x => if x.1.toList = t then some x.2 else none

theorem display_please (s : String) : (CaptchaError.pleaseSetValue s).display = "Please set value: " ++ s := rfl

/-- The beginning of the text of `MCaptchaRediSModuleCommandNotFound`. -/
def commandPrefix : String := "The Redis instance that libmcaptcha is trying to connect to has mCaptcha Redis module loaded,\n        but it's probably outdated and as a result, we are not able to find all required commands to operate mCaptcha\n        Command "

theorem display_command (s : String) :
    (CaptchaError.mCaptchaRediSModuleCommandNotFound s).display = commandPrefix ++ s ++ " is not found" := rfl

theorem commandPrefix_length : 10 ≤ commandPrefix.toList.length := by decide +kernel

theorem headKind_command : headKind (commandPrefix.toList.take 10) = some 17 := by decide +kernel

theorem headKind_please : headKind ("Please set value: ".toList.take 10) = some 16 := by decide +kernel

theorem headKind_eq (e : CaptchaError) (hr : ∀ s, e ≠ .redisError s) (hz : e ≠ .captchaDurationZero) :
    headKind (e.display.toList.take 10) = some (errorKind e) := by
  cases e with
  | redisError s => exact absurd rfl (hr s)
  | captchaDurationZero => exact absurd rfl hz
  | pleaseSetValue s =>
    rw [display_please, take_append_text 10 (by decide +kernel)]
    exact headKind_please
  | mCaptchaRediSModuleCommandNotFound s =>
    rw [display_command, String.append_assoc, take_append_text 10 commandPrefix_length]
    exact headKind_command
  | _ => decide +kernel

/-- Of the errors whose text the library chooses, a zero duration is the only one whose text is that of another error; the name of the
missing value or command can be read off the text. -/
theorem C86_texts_differ_partial (e e' : CaptchaError) (hr : ∀ s, e ≠ .redisError s) (hr' : ∀ s, e' ≠ .redisError s)
    (hz : e ≠ .captchaDurationZero) (hz' : e' ≠ .captchaDurationZero) (h : e.display = e'.display) : e = e' := by
  have hk : errorKind e = errorKind e' := by
    have := headKind_eq e hr hz
    rw [h, headKind_eq e' hr' hz'] at this
    exact (Option.some.inj this).symm
  clear hr hr' hz hz'
  cases e with
  | pleaseSetValue s =>
    cases e' with
    | pleaseSetValue s' => rw [display_please, display_please] at h; exact congrArg _ (append_text_inj h)
    | _ => cases hk
  | mCaptchaRediSModuleCommandNotFound s =>
    cases e' with
    | mCaptchaRediSModuleCommandNotFound s' =>
      rw [display_command, display_command, String.append_assoc, String.append_assoc] at h
      have h := congrArg String.toList (append_text_inj h)
      rw [String.toList_append, String.toList_append] at h
      exact congrArg _ (String.toList_injective (List.append_cancel_right h))
    | _ => cases hk
  | redisError s =>
    cases e' with
    | redisError s' => exact congrArg CaptchaError.redisError h
    | _ => cases hk
  | _ => cases e' <;> first | rfl | cases hk

/-- Exactly: two different errors have one text if and only if they are a zero difficulty factor and a zero duration, or one comes from Redis
and has the text of the other. -/
theorem C86_same_text_iff_partial (e e' : CaptchaError) : e.display = e'.display ↔
    e = e' ∨ (e = .difficultyFactorZero ∧ e' = .captchaDurationZero) ∨ (e = .captchaDurationZero ∧ e' = .difficultyFactorZero) ∨
    e = .redisError e'.display ∨ e' = .redisError e.display := by
  constructor
  · intro h
    by_cases hr : ∃ s, e = .redisError s
    · obtain ⟨s, rfl⟩ := hr
      exact .inr (.inr (.inr (.inl (congrArg CaptchaError.redisError h))))
    by_cases hr' : ∃ s, e' = .redisError s
    · obtain ⟨s, rfl⟩ := hr'
      exact .inr (.inr (.inr (.inr (congrArg CaptchaError.redisError h.symm))))
    have hn : ∀ s, e ≠ .redisError s := fun s h => hr ⟨s, h⟩
    have hn' : ∀ s, e' ≠ .redisError s := fun s h => hr' ⟨s, h⟩
    by_cases hz : e = .captchaDurationZero <;> by_cases hz' : e' = .captchaDurationZero
    · exact .inl (hz.trans hz'.symm)
    · subst hz
      exact .inr (.inr (.inl ⟨rfl, (C86_texts_differ_partial .difficultyFactorZero e' (by intro s h; cases h) hn' (by decide) hz' h).symm⟩))
    · subst hz'
      exact .inr (.inl ⟨C86_texts_differ_partial e .difficultyFactorZero hn (by intro s h; cases h) hz (by decide) h, rfl⟩)
    · exact .inl (C86_texts_differ_partial e e' hn hn' hz hz' h)
  · rintro (rfl | ⟨rfl, rfl⟩ | ⟨rfl, rfl⟩ | h | h)
    · rfl
    · rfl
    · rfl
    · have := congrArg CaptchaError.display h
      exact this
    · have := congrArg CaptchaError.display h
      exact this.symm

example : CaptchaError.display (.pleaseSetValue "pow") = "Please set value: pow" ∧
    CaptchaError.display (.pleaseSetValue "pow") ≠ CaptchaError.display (.pleaseSetValue "cache") ∧
    CaptchaError.display .captchaDurationZero = CaptchaError.display .difficultyFactorZero := by decide

end MCap
