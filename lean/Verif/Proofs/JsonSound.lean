import Verif.Proofs.Json

/-!
# Reading JSON: nothing else is read

Whatever the model reads as a value is a text for that value; and what is read as a struct is a value for that struct.
-/

namespace MCap
open Spec

/-! ### Texts -/

theorem skipWs_split (t : List Char) : ∃ a, t = a ++ skipWs t ∧ Ws a := by
  induction t with
  | nil => exact ⟨[], rfl, ws_nil⟩
  | cons c r ih =>
    rw [skipWs]
    by_cases h : jsonWs c = true
    · rw [if_pos h]
      obtain ⟨a, ha, hw⟩ := ih
      refine ⟨c :: a, by rw [List.cons_append, ← ha], ?_⟩
      intro d hd
      rcases List.mem_cons.1 hd with rfl | hd
      · exact (ws_iff d).1 h
      · exact hw d hd
    · rw [if_neg h]; exact ⟨[], rfl, ws_nil⟩

theorem skipWs_nil {t : List Char} (h : skipWs t = []) : Ws t := by
  obtain ⟨a, ha, hw⟩ := skipWs_split t
  rw [h, List.append_nil] at ha
  rw [ha]; exact hw

theorem more_elements {vs : List Json} {t : List Char} (h : ElementsText vs t) (hne : vs ≠ []) : MoreElements vs (',' :: t) := by
  cases vs with
  | nil => exact absurd rfl hne
  | cons v r =>
    rw [ElementsText] at h
    obtain ⟨a, x, b, u, rfl, ha, hb, hv, hm⟩ := h
    rw [MoreElements]
    exact ⟨a, x, b, u, rfl, ha, hb, hv, hm⟩

theorem more_members {ms : List (Option (List Char) × Json)} {t : List Char} (h : MembersText ms t) (hne : ms ≠ []) : MoreMembers ms (',' :: t) := by
  cases ms with
  | nil => exact absurd rfl hne
  | cons m r =>
    obtain ⟨k, v⟩ := m
    rw [MembersText] at h
    obtain ⟨a, y, b, c, x, d, u, rfl, h1, h2, h3, h4, h5, h6, h7⟩ := h
    rw [MoreMembers]
    exact ⟨a, y, b, c, x, d, u, rfl, h1, h2, h3, h4, h5, h6, h7⟩

theorem read_sound (n : Nat) :
    (∀ t v r, jsonValue n t = some (v, r) → ∃ a x, t = a ++ (x ++ r) ∧ Ws a ∧ ValueText v x) ∧
    (∀ t vs r, jsonElems n t = some (vs, r) → ∃ x, t = x ++ ']' :: r ∧ ElementsText vs x ∧ vs ≠ []) ∧
    (∀ t ms r, jsonMembers n t = some (ms, r) → ∃ x, t = x ++ '}' :: r ∧ MembersText ms x ∧ ms ≠ []) := by
  induction n with
  | zero =>
    refine ⟨?_, ?_, ?_⟩
    · intro t v r h; simp [jsonValue] at h
    · intro t v r h; simp [jsonElems] at h
    · intro t v r h; simp [jsonMembers] at h
  | succ n ih =>
    obtain ⟨ihv, ihe, ihm⟩ := ih
    refine ⟨?_, ?_, ?_⟩
    · intro t v r h
      rw [jsonValue] at h
      obtain ⟨a, ha, hw⟩ := skipWs_split t
      cases hs : skipWs t with
      | nil => rw [hs] at h; cases h
      | cons c u =>
        rw [hs] at h ha
        simp only at h
        suffices ∃ x, c :: u = x ++ r ∧ ValueText v x by
          obtain ⟨x, hx, hv⟩ := this
          exact ⟨a, x, by rw [ha, hx], hw, hv⟩
        by_cases hc : c = '"'
        · subst hc
          rw [if_pos rfl] at h
          split at h
          · rename_i s r' hcs
            simp only [Option.some.injEq, Prod.mk.injEq] at h
            obtain ⟨rfl, rfl⟩ := h
            obtain ⟨b, rfl, hb⟩ := name_sound hcs
            refine ⟨'"' :: (b ++ ['"']), by simp, ?_⟩
            rw [ValueText]
            exact hb
          · rename_i r' hcs
            simp only [Option.some.injEq, Prod.mk.injEq] at h
            obtain ⟨rfl, rfl⟩ := h
            obtain ⟨b, rfl, hb⟩ := name_sound hcs
            refine ⟨'"' :: (b ++ ['"']), by simp, ?_⟩
            rw [ValueText]
            exact hb
          · cases h
        rw [if_neg hc] at h
        by_cases hc : c = '['
        · subst hc
          rw [if_pos rfl] at h
          obtain ⟨b, hb, hbw⟩ := skipWs_split u
          cases hu : skipWs u with
          | nil => rw [hu] at h; cases h
          | cons d u' =>
            rw [hu] at h hb
            simp only at h
            by_cases hd : d = ']'
            · subst hd
              simp only [if_true, Option.some.injEq, Prod.mk.injEq] at h
              obtain ⟨rfl, rfl⟩ := h
              refine ⟨'[' :: (b ++ [']']), by rw [hb]; simp, ?_⟩
              rw [ValueText]
              exact ⟨b, rfl, by rw [ElementsText]; exact hbw⟩
            · rw [if_neg hd] at h
              split at h
              · rename_i vs r' hes
                simp only [Option.some.injEq, Prod.mk.injEq] at h
                obtain ⟨rfl, rfl⟩ := h
                rw [← hu, elems_skip] at hes
                obtain ⟨e, rfl, he, -⟩ := ihe _ _ _ hes
                refine ⟨'[' :: (e ++ [']']), by simp, ?_⟩
                rw [ValueText]
                exact ⟨e, rfl, he⟩
              · cases h
        rw [if_neg hc] at h
        by_cases hc : c = '{'
        · subst hc
          rw [if_pos rfl] at h
          obtain ⟨b, hb, hbw⟩ := skipWs_split u
          cases hu : skipWs u with
          | nil => rw [hu] at h; cases h
          | cons d u' =>
            rw [hu] at h hb
            simp only at h
            by_cases hd : d = '}'
            · subst hd
              simp only [if_true, Option.some.injEq, Prod.mk.injEq] at h
              obtain ⟨rfl, rfl⟩ := h
              refine ⟨'{' :: (b ++ ['}']), by rw [hb]; simp, ?_⟩
              rw [ValueText]
              exact ⟨b, rfl, by rw [MembersText]; exact hbw⟩
            · rw [if_neg hd] at h
              split at h
              · rename_i vs r' hes
                simp only [Option.some.injEq, Prod.mk.injEq] at h
                obtain ⟨rfl, rfl⟩ := h
                rw [← hu, members_skip] at hes
                obtain ⟨e, rfl, he, -⟩ := ihm _ _ _ hes
                refine ⟨'{' :: (e ++ ['}']), by simp, ?_⟩
                rw [ValueText]
                exact ⟨e, rfl, he⟩
              · cases h
        rw [if_neg hc] at h
        by_cases hc : c = 'n'
        · subst hc
          rw [if_pos rfl] at h
          split at h
          · rename_i ht
            simp only [Option.some.injEq, Prod.mk.injEq] at h
            obtain ⟨rfl, rfl⟩ := h
            refine ⟨'n' :: u.take 3, by rw [List.cons_append, List.take_append_drop], ?_⟩
            rw [ValueText, ht]; rfl
          · cases h
        rw [if_neg hc] at h
        by_cases hc : c = 't'
        · subst hc
          rw [if_pos rfl] at h
          split at h
          · rename_i ht
            simp only [Option.some.injEq, Prod.mk.injEq] at h
            obtain ⟨rfl, rfl⟩ := h
            refine ⟨'t' :: u.take 3, by rw [List.cons_append, List.take_append_drop], ?_⟩
            rw [ValueText, ht]; rfl
          · cases h
        rw [if_neg hc] at h
        by_cases hc : c = 'f'
        · subst hc
          rw [if_pos rfl] at h
          split at h
          · rename_i ht
            simp only [Option.some.injEq, Prod.mk.injEq] at h
            obtain ⟨rfl, rfl⟩ := h
            refine ⟨'f' :: u.take 4, by rw [List.cons_append, List.take_append_drop], ?_⟩
            rw [ValueText, ht]; rfl
          · cases h
        rw [if_neg hc] at h
        exact num_sound h
    · intro t vs r h
      rw [jsonElems] at h
      split at h
      · cases h
      · rename_i v r1 hv
        obtain ⟨a, x, rfl, ha, hx⟩ := ihv _ _ _ hv
        obtain ⟨b, hb, hbw⟩ := skipWs_split r1
        cases hs : skipWs r1 with
        | nil => rw [hs] at h; cases h
        | cons c u =>
          rw [hs] at h hb
          simp only at h
          by_cases hc : c = ']'
          · subst hc
            simp only [if_true, Option.some.injEq, Prod.mk.injEq] at h
            obtain ⟨rfl, rfl⟩ := h
            refine ⟨a ++ (x ++ (b ++ [])), by rw [hb]; simp, ?_, by simp⟩
            rw [ElementsText]
            exact ⟨a, x, b, [], rfl, ha, hbw, hx, by rw [MoreElements]⟩
          rw [if_neg hc] at h
          by_cases hc : c = ','
          · subst hc
            rw [if_pos rfl] at h
            split at h
            · rename_i vs' r2 hes
              simp only [Option.some.injEq, Prod.mk.injEq] at h
              obtain ⟨rfl, rfl⟩ := h
              obtain ⟨e, rfl, he, hne⟩ := ihe _ _ _ hes
              refine ⟨a ++ (x ++ (b ++ ',' :: e)), by rw [hb]; simp, ?_, by simp⟩
              rw [ElementsText]
              exact ⟨a, x, b, ',' :: e, rfl, ha, hbw, hx, more_elements he hne⟩
            · cases h
          · rw [if_neg hc] at h; cases h
    · intro t ms r h
      rw [jsonMembers] at h
      obtain ⟨a, ha, haw⟩ := skipWs_split t
      cases hs : skipWs t with
      | nil => rw [hs] at h; cases h
      | cons q u =>
        rw [hs] at h ha
        simp only at h
        by_cases hq : q = '"'
        · subst hq
          rw [if_pos rfl] at h
          split at h
          · cases h
          · rename_i k r1 hk
            obtain ⟨s, rfl, hsk⟩ := name_sound hk
            obtain ⟨b, hb, hbw⟩ := skipWs_split r1
            cases hs1 : skipWs r1 with
            | nil => rw [hs1] at h; cases h
            | cons c u1 =>
              rw [hs1] at h hb
              simp only at h
              by_cases hc : c = ':'
              · subst hc
                rw [if_pos rfl] at h
                split at h
                · cases h
                · rename_i v r2 hv
                  obtain ⟨c, x, rfl, hcw, hx⟩ := ihv _ _ _ hv
                  obtain ⟨d, hd, hdw⟩ := skipWs_split r2
                  cases hs2 : skipWs r2 with
                  | nil => rw [hs2] at h; cases h
                  | cons e u2 =>
                    rw [hs2] at h hd
                    simp only at h
                    by_cases he : e = '}'
                    · subst he
                      simp only [if_true, Option.some.injEq, Prod.mk.injEq] at h
                      obtain ⟨rfl, rfl⟩ := h
                      refine ⟨a ++ (('"' :: (s ++ ['"'])) ++ (b ++ ':' :: (c ++ (x ++ (d ++ []))))), by rw [ha, hb, hd]; simp, ?_, by simp⟩
                      rw [MembersText]
                      exact ⟨a, _, b, c, x, d, [], rfl, haw, hbw, hcw, hdw, hsk, hx, by rw [MoreMembers]⟩
                    rw [if_neg he] at h
                    by_cases he : e = ','
                    · subst he
                      rw [if_pos rfl] at h
                      split at h
                      · rename_i ms' r3 hms
                        simp only [Option.some.injEq, Prod.mk.injEq] at h
                        obtain ⟨rfl, rfl⟩ := h
                        obtain ⟨f, rfl, hf, hne⟩ := ihm _ _ _ hms
                        refine ⟨a ++ (('"' :: (s ++ ['"'])) ++ (b ++ ':' :: (c ++ (x ++ (d ++ ',' :: f))))), by rw [ha, hb, hd]; simp, ?_, by simp⟩
                        rw [MembersText]
                        exact ⟨a, _, b, c, x, d, _, rfl, haw, hbw, hcw, hdw, hsk, hx, more_members hf hne⟩
                      · cases h
                    · rw [if_neg he] at h; cases h
              · rw [if_neg hc] at h; cases h
        · rw [if_neg hq] at h; cases h

theorem parse_sound {t : List Char} {v : Json} (h : jsonParse t = some v) : Denotes t v := by
  unfold jsonParse at h
  split at h
  · rename_i v' r hv
    split at h
    · rename_i hr
      cases h
      obtain ⟨a, x, rfl, ha, hx⟩ := (read_sound _).1 _ _ _ hv
      exact ⟨a, x, r, rfl, ha, skipWs_nil hr, hx⟩
    · cases h
  · cases h

theorem parse_iff (t : List Char) (v : Json) : jsonParse t = some v ↔ Denotes t v := ⟨parse_sound, parse_denotes⟩

/-! ### Structs -/

theorem filter_none {α : Type} {p : α → Bool} {l : List α} (h : l.filter p = []) : ∀ x ∈ l, p x = false := by
  intro x hx
  cases hp : p x with
  | false => rfl
  | true => have : x ∈ l.filter p := List.mem_filter.2 ⟨hx, hp⟩; rw [h] at this; cases this

theorem filter_single {α : Type} {p : α → Bool} {l : List α} {y : α} (h : l.filter p = [y]) :
    ∃ a b, l = a ++ y :: b ∧ (∀ x ∈ a, p x = false) ∧ ∀ x ∈ b, p x = false := by
  induction l with
  | nil => cases h
  | cons z r ih =>
    rw [List.filter_cons] at h
    cases hz : p z with
    | true =>
      rw [if_pos hz] at h
      simp only [List.cons.injEq] at h
      obtain ⟨rfl, h⟩ := h
      exact ⟨[], r, rfl, by simp, filter_none h⟩
    | false =>
      rw [if_neg (by simp [hz])] at h
      obtain ⟨a, b, rfl, ha, hb⟩ := ih h
      refine ⟨z :: a, b, rfl, ?_, hb⟩
      intro x hx
      rcases List.mem_cons.1 hx with rfl | hx
      · exact hz
      · exact ha x hx

theorem field_iff (name : String) (v : Json) (ms : List (Option (List Char) × Json)) : jsonField name ms = some v ↔ OneMember name v ms := by
  have hp : ∀ m : Option (List Char) × Json, (decide (m.1 = some name.toList) || decide (m.1 = none)) = false ↔
      ∃ k, m.1 = some k ∧ k ≠ name.toList := by
    rintro ⟨k, w⟩
    cases k <;> simp
  constructor
  · intro h
    unfold jsonField at h
    split at h
    · rename_i k v' hf
      cases h
      obtain ⟨a, b, rfl, ha, hb⟩ := filter_single hf
      have hk : k = name.toList := by
        have : (some k, v) ∈ List.filter (fun m => decide (m.1 = some name.toList) || decide (m.1 = none)) (a ++ (some k, v) :: b) := by
          rw [hf]; simp
        simpa using (List.mem_filter.1 this).2
      subst hk
      refine ⟨a, b, rfl, fun m hm => ?_⟩
      rcases List.mem_append.1 hm with hm | hm
      · exact (hp m).1 (ha m hm)
      · exact (hp m).1 (hb m hm)
    · cases h
  · rintro ⟨a, b, rfl, hab⟩
    unfold jsonField
    have h1 : a.filter (fun m => decide (m.1 = some name.toList) || decide (m.1 = none)) = [] :=
      List.filter_eq_nil_iff.2 fun m hm => by simp [(hp m).2 (hab m (List.mem_append_left _ hm))]
    have h2 : b.filter (fun m => decide (m.1 = some name.toList) || decide (m.1 = none)) = [] :=
      List.filter_eq_nil_iff.2 fun m hm => by simp [(hp m).2 (hab m (List.mem_append_right _ hm))]
    rw [List.filter_append, List.filter_cons, h1, h2]
    simp

theorem uint_iff (b n : Nat) (j : Json) : jsonUint b j = some n ↔ j = .num n ∧ n < b := by
  constructor
  · intro h
    cases j with
    | num k =>
      simp only [jsonUint] at h
      split at h
      · cases h; exact ⟨rfl, by assumption⟩
      · cases h
    | _ => cases h
  · rintro ⟨rfl, h⟩; simp [jsonUint, h]

theorem opt_bind_iff {α β : Type} {o : Option α} {f : α → Option β} {b : β} : o.bind f = some b ↔ ∃ a, o = some a ∧ f a = some b :=
  Option.bind_eq_some_iff

theorem uintField_iff (name : String) (b n : Nat) (ms : List (Option (List Char) × Json)) :
    (jsonField name ms).bind (jsonUint b) = some n ↔ OneMember name (.num n) ms ∧ n < b := by
  rw [opt_bind_iff]
  constructor
  · rintro ⟨j, hj, hn⟩
    obtain ⟨rfl, hlt⟩ := (uint_iff b n j).1 hn
    exact ⟨(field_iff _ _ _).1 hj, hlt⟩
  · rintro ⟨h, hn⟩
    exact ⟨_, (field_iff _ _ _).2 h, (uint_iff b n _).2 ⟨rfl, hn⟩⟩

theorem levelJson_iff (l : Level) (j : Json) : Level.ofJson j = some l ↔ LevelJson l j := by
  constructor
  · intro h
    unfold Level.ofJson at h
    split at h
    · obtain ⟨t, ht, h⟩ := opt_bind_iff.1 h
      obtain ⟨d, hd, h⟩ := opt_bind_iff.1 h
      cases h
      obtain ⟨h1, h2⟩ := (uintField_iff _ _ _ _).1 ht
      obtain ⟨h3, h4⟩ := (uintField_iff _ _ _ _).1 hd
      exact ⟨h2, h4, .inl ⟨_, rfl, h1, h3⟩⟩
    · obtain ⟨t, ht, h⟩ := opt_bind_iff.1 h
      obtain ⟨d, hd, h⟩ := opt_bind_iff.1 h
      cases h
      obtain ⟨rfl, h2⟩ := (uint_iff _ _ _).1 ht
      obtain ⟨rfl, h4⟩ := (uint_iff _ _ _).1 hd
      exact ⟨h2, h4, .inr rfl⟩
    · cases h
  · rintro ⟨h1, h2, ⟨ms, rfl, h3, h4⟩ | rfl⟩
    · simp only [Level.ofJson, bind, (uintField_iff _ u32Size _ _).2 ⟨h3, h1⟩, (uintField_iff _ u32Size _ _).2 ⟨h4, h2⟩, Option.bind_some]
    · simp only [Level.ofJson, bind, (uint_iff u32Size _ _).2 ⟨rfl, h1⟩, (uint_iff u32Size _ _).2 ⟨rfl, h2⟩, Option.bind_some]

theorem levelsMap_iff (ls : List Level) (js : List Json) : js.mapM Level.ofJson = some ls ↔ LevelsJson ls js := by
  induction js generalizing ls with
  | nil =>
    constructor
    · intro h; simp at h; subst h; exact .nil
    · intro h; cases h; rfl
  | cons j js ih =>
    rw [List.mapM_cons]
    constructor
    · intro h
      obtain ⟨l, hl, h⟩ := opt_bind_iff.1 h
      obtain ⟨ls', hls, h⟩ := opt_bind_iff.1 h
      cases h
      exact .cons _ _ _ _ ((levelJson_iff l j).1 hl) ((ih ls').1 hls)
    · intro h
      cases h with
      | cons l _ ls' _ h r =>
        rw [(levelJson_iff l j).2 h, (ih ls').2 r]
        rfl

theorem jsonLevels_iff (ls : List Level) (j : Json) : jsonLevels j = some ls ↔ ∃ js, j = .arr js ∧ LevelsJson ls js := by
  constructor
  · intro h
    cases j with
    | arr js => exact ⟨js, rfl, (levelsMap_iff ls js).1 h⟩
    | _ => cases h
  · rintro ⟨js, rfl, h⟩
    exact (levelsMap_iff ls js).2 h

theorem defenseJson_iff (d : Defense) (j : Json) : Defense.ofJson j = some d ↔ DefenseJson d j := by
  constructor
  · intro h
    unfold Defense.ofJson at h
    split at h
    · obtain ⟨l, hl, h⟩ := opt_bind_iff.1 h
      obtain ⟨c, hc, h⟩ := opt_bind_iff.1 h
      cases h
      obtain ⟨_, h1, hl⟩ := opt_bind_iff.1 hl
      obtain ⟨js, rfl, hls⟩ := (jsonLevels_iff _ _).1 hl
      obtain ⟨h3, h4⟩ := (uintField_iff _ _ _ _).1 hc
      exact ⟨h4, js, hls, .inl ⟨_, rfl, (field_iff _ _ _).1 h1, h3⟩⟩
    · obtain ⟨l, hl, h⟩ := opt_bind_iff.1 h
      obtain ⟨c, hc, h⟩ := opt_bind_iff.1 h
      cases h
      obtain ⟨js, rfl, hls⟩ := (jsonLevels_iff _ _).1 hl
      obtain ⟨rfl, h4⟩ := (uint_iff _ _ _).1 hc
      exact ⟨h4, js, hls, .inr rfl⟩
    · cases h
  · rintro ⟨h1, js, hl, ⟨ms, rfl, h3, h4⟩ | rfl⟩
    · simp only [Defense.ofJson, bind, (field_iff _ _ _).2 h3, (uintField_iff _ usizeSize _ _).2 ⟨h4, h1⟩, Option.bind_some,
        (jsonLevels_iff _ _).2 ⟨js, rfl, hl⟩]
    · simp only [Defense.ofJson, bind, (uint_iff usizeSize _ _).2 ⟨rfl, h1⟩, Option.bind_some, (jsonLevels_iff _ _).2 ⟨js, rfl, hl⟩]

theorem captchaJson_iff (m : MCaptcha) (j : Json) : MCaptcha.ofJson j = some m ↔ CaptchaJson m j := by
  constructor
  · intro h
    unfold MCaptcha.ofJson at h
    split at h
    · obtain ⟨v, hv, h⟩ := opt_bind_iff.1 h
      obtain ⟨d, hd, h⟩ := opt_bind_iff.1 h
      obtain ⟨t, ht, h⟩ := opt_bind_iff.1 h
      cases h
      obtain ⟨h1, h2⟩ := (uintField_iff _ _ _ _).1 hv
      obtain ⟨h3, h4⟩ := (uintField_iff _ _ _ _).1 ht
      obtain ⟨dj, h5, hd⟩ := opt_bind_iff.1 hd
      exact ⟨h2, h4, dj, (defenseJson_iff d dj).1 hd, .inl ⟨_, rfl, h1, (field_iff _ _ _).1 h5, h3⟩⟩
    · obtain ⟨v, hv, h⟩ := opt_bind_iff.1 h
      obtain ⟨d, hd, h⟩ := opt_bind_iff.1 h
      obtain ⟨t, ht, h⟩ := opt_bind_iff.1 h
      cases h
      obtain ⟨rfl, h2⟩ := (uint_iff _ _ _).1 hv
      obtain ⟨rfl, h4⟩ := (uint_iff _ _ _).1 ht
      exact ⟨h2, h4, _, (defenseJson_iff d _).1 hd, .inr rfl⟩
    · cases h
  · rintro ⟨h1, h2, d, hd, ⟨ms, rfl, h3, h4, h5⟩ | rfl⟩
    · simp only [MCaptcha.ofJson, bind, (field_iff _ _ _).2 h4, (uintField_iff _ u32Size _ _).2 ⟨h3, h1⟩,
        (uintField_iff _ u64Size _ _).2 ⟨h5, h2⟩, Option.bind_some, (defenseJson_iff _ _).2 hd]
    · simp only [MCaptcha.ofJson, bind, (uint_iff u32Size _ _).2 ⟨rfl, h1⟩, (uint_iff u64Size _ _).2 ⟨rfl, h2⟩, Option.bind_some,
        (defenseJson_iff _ _).2 hd]

theorem visitorJson_iff (v : AddVisitorResult) (j : Json) : AddVisitorResult.ofJson j = some v ↔ VisitorJson v j := by
  constructor
  · intro h
    unfold AddVisitorResult.ofJson at h
    split at h
    · obtain ⟨t, ht, h⟩ := opt_bind_iff.1 h
      obtain ⟨d, hd, h⟩ := opt_bind_iff.1 h
      cases h
      obtain ⟨h1, h2⟩ := (uintField_iff _ _ _ _).1 ht
      obtain ⟨h3, h4⟩ := (uintField_iff _ _ _ _).1 hd
      exact ⟨h2, h4, .inl ⟨_, rfl, h1, h3⟩⟩
    · obtain ⟨t, ht, h⟩ := opt_bind_iff.1 h
      obtain ⟨d, hd, h⟩ := opt_bind_iff.1 h
      cases h
      obtain ⟨rfl, h2⟩ := (uint_iff _ _ _).1 ht
      obtain ⟨rfl, h4⟩ := (uint_iff _ _ _).1 hd
      exact ⟨h2, h4, .inr rfl⟩
    · cases h
  · rintro ⟨h1, h2, ⟨ms, rfl, h3, h4⟩ | rfl⟩
    · simp only [AddVisitorResult.ofJson, bind, (uintField_iff _ u64Size _ _).2 ⟨h3, h1⟩, (uintField_iff _ u32Size _ _).2 ⟨h4, h2⟩,
        Option.bind_some]
    · simp only [AddVisitorResult.ofJson, bind, (uint_iff u64Size _ _).2 ⟨rfl, h1⟩, (uint_iff u32Size _ _).2 ⟨rfl, h2⟩, Option.bind_some]

/-- What is read as a captcha. -/
theorem readCaptcha_iff (t : List Char) (m : MCaptcha) :
    (jsonParse t).bind MCaptcha.ofJson = some m ↔ ∃ j, Denotes t j ∧ CaptchaJson m j := by
  rw [opt_bind_iff]
  constructor
  · rintro ⟨j, h1, h2⟩; exact ⟨j, (parse_iff t j).1 h1, (captchaJson_iff m j).1 h2⟩
  · rintro ⟨j, h1, h2⟩; exact ⟨j, (parse_iff t j).2 h1, (captchaJson_iff m j).2 h2⟩

end MCap
