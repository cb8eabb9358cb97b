import Verif.Proofs.JsonText

/-!
# Writing and reading JSON

The texts the model writes denote the values written; whatever denotes a value is read as that value.
-/

namespace MCap
open Spec

/-! ### Writing -/

theorem hexDigit_digitChar (v : Nat) (h : v < 16) : HexDigit (Nat.digitChar v) v := by
  have : ∀ v : Fin 16, "0123456789abcdef".toList[v.val]? = some (Nat.digitChar v.val) := by decide
  exact .inl (this ⟨v, h⟩)

theorem escape_text (c : Char) : CharText (jsonEscape c) c := by
  unfold jsonEscape
  split
  · subst_vars; exact .quote
  · split
    · subst_vars; exact .backslash
    · split
      · rename_i h1 h2 h3
        split
        · rename_i h; rw [← Char.ofNat_toNat c, h]; exact .backspace
        · split
          · rename_i h; rw [← Char.ofNat_toNat c, h]; exact .tab
          · split
            · rename_i h; rw [← Char.ofNat_toNat c, h]; exact .lineFeed
            · split
              · rename_i h; rw [← Char.ofNat_toNat c, h]; exact .formFeed
              · split
                · rename_i h; rw [← Char.ofNat_toNat c, h]; exact .carriageReturn
                · exact .unicode '0' '0' _ _ 0 0 (c.toNat / 16) (c.toNat % 16) (.inl rfl) (.inl rfl)
                    (hexDigit_digitChar _ (by omega)) (hexDigit_digitChar _ (by omega)) c (by omega)
      · rename_i h1 h2 h3
        exact .raw c (by omega) h1 h2

theorem flatMap_text (s : List Char) : CharsText (s.flatMap jsonEscape) s := by
  induction s with
  | nil => exact .nil
  | cons c r ih => rw [List.flatMap_cons]; exact .cons _ _ _ _ (escape_text c) ih

theorem string_text (s : List Char) : StringText (jsonString s) s := ⟨_, rfl, flatMap_text s⟩

theorem badString_text : BadStringText jsonBadString := by
  refine ⟨['\\', 'u', 'd', '8', '0', '0'], rfl, ?_, ?_⟩
  · exact .cons ['\\', 'u', 'd', '8', '0', '0'] [] (.unicode 'd' '8' '0' '0' 13 8 0 0 (.inl rfl) (.inl rfl) (.inl rfl) (.inl rfl)) .nil
  · rintro ⟨s, hs⟩
    have h1 := chars_read hs [] 10 (by decide)
    have h2 : jsonChars 10 (['\\', 'u', 'd', '8', '0', '0'] ++ '"' :: []) = none := by decide +kernel
    rw [h2] at h1
    cases h1

theorem name_text (k : Option (List Char)) : NameText (jsonName k) k := by
  cases k with
  | some k => exact string_text k
  | none => exact badString_text

theorem toDigits_head (n : Nat) (h : (Nat.toDigits 10 n).head? = some '0') : n = 0 := by
  induction n using Nat.strongRecOn with
  | ind n ih =>
    by_cases hn : n < 10
    · rw [Nat.toDigits_of_lt_base hn] at h
      have : ∀ v : Fin 10, [Nat.digitChar v.val].head? = some '0' → v.val = 0 := by decide
      exact this ⟨n, hn⟩ h
    · rw [Nat.toDigits_of_base_le (by omega) (by omega)] at h
      have h : (Nat.toDigits 10 (n / 10)).head? = some '0' := by
        cases e : Nat.toDigits 10 (n / 10) with
        | nil => exact absurd e Nat.toDigits_ne_nil
        | cons c r => rw [e] at h; simpa using h
      have := ih (n / 10) (by omega) h
      omega

theorem number_text (n : Nat) : NumberText (Nat.toDigits 10 n) n := by
  refine ⟨Nat.toDigits_ne_nil, fun c h => Nat.isDigit_of_mem_toDigits (by omega) (by omega) h, ?_, Nat.ofDigitChars_ten_toDigits⟩
  intro h
  rw [toDigits_head n h]
  rfl

mutual
theorem value_text : (v : Json) → ValueText v v.text
  | .null => by rw [ValueText, Json.text]; rfl
  | .bool true => by rw [ValueText, Json.text]; rfl
  | .bool false => by rw [ValueText, Json.text]; rfl
  | .num n => by rw [ValueText, Json.text]; exact number_text n
  | .real => by
    rw [ValueText, Json.text]
    exact ⟨['-'], ['1'], [], [], rfl, .inr rfl, ⟨1, number_text 1⟩, .inl rfl, .inl rfl, by simp⟩
  | .str s => by rw [ValueText, Json.text]; exact string_text s
  | .badStr => by rw [ValueText, Json.text]; exact badString_text
  | .arr vs => by rw [ValueText, Json.text]; exact ⟨_, rfl, elements_text vs⟩
  | .obj ms => by rw [ValueText, Json.text]; exact ⟨_, rfl, members_text ms⟩

theorem elements_text : (vs : List Json) → ElementsText vs (Json.texts vs)
  | [] => by rw [ElementsText, Json.texts]; exact ws_nil
  | [v] => by
    rw [ElementsText, Json.texts]
    exact ⟨[], v.text, [], [], by simp, ws_nil, ws_nil, value_text v, by rw [MoreElements]⟩
  | v :: w :: r => by
    have h := elements_text (w :: r)
    rw [ElementsText] at h
    obtain ⟨a, x, b, u, e, h1, h2, h3, h4⟩ := h
    rw [ElementsText, Json.texts]
    refine ⟨[], v.text, [], ',' :: Json.texts (w :: r), by simp, ws_nil, ws_nil, value_text v, ?_⟩
    rw [MoreElements]
    exact ⟨a, x, b, u, by rw [e], h1, h2, h3, h4⟩

theorem members_text : (ms : List (Option (List Char) × Json)) → MembersText ms (Json.members ms)
  | [] => by rw [MembersText, Json.members]; exact ws_nil
  | [(k, v)] => by
    rw [MembersText, Json.members]
    exact ⟨[], jsonName k, [], [], v.text, [], [], by simp, ws_nil, ws_nil, ws_nil, ws_nil, name_text k, value_text v,
      by rw [MoreMembers]⟩
  | (k, v) :: (k', v') :: r => by
    have h := members_text ((k', v') :: r)
    rw [MembersText] at h
    obtain ⟨a, y, b, c, x, d, u, e, h1, h2, h3, h4, h5, h6, h7⟩ := h
    rw [MembersText, Json.members]
    refine ⟨[], jsonName k, [], [], v.text, [], ',' :: Json.members ((k', v') :: r), by simp, ws_nil, ws_nil, ws_nil, ws_nil,
      name_text k, value_text v, ?_⟩
    rw [MoreMembers]
    exact ⟨a, y, b, c, x, d, u, by rw [e], h1, h2, h3, h4, h5, h6, h7⟩
end

theorem text_denotes (v : Json) : Denotes v.text v := ⟨[], v.text, [], by simp, ws_nil, ws_nil, value_text v⟩

/-! ### Reading -/

theorem real_head {x : List Char} (h : RealText x) : ∃ c t, x = c :: t ∧ (c.isDigit = true ∨ c = '-') ∧ jsonWs c = false ∧
    c ≠ '"' ∧ c ≠ '[' ∧ c ≠ '{' ∧ c ≠ 'n' ∧ c ≠ 't' ∧ c ≠ 'f' ∧ c ≠ ']' ∧ c ≠ '}' := by
  obtain ⟨m, i, f, e, rfl, hm, ⟨n, h1, h2, -, -⟩, -⟩ := h
  rcases hm with rfl | rfl
  · cases i with
    | nil => exact absurd rfl h1
    | cons c t =>
      have hd := h2 c List.mem_cons_self
      exact ⟨c, _, rfl, .inl hd, digit_facts hd⟩
  · exact ⟨'-', _, rfl, .inr rfl, by decide⟩

/-- The first character of a value. -/
theorem value_head (v : Json) {x : List Char} (h : ValueText v x) : ∃ c t, x = c :: t ∧ jsonWs c = false ∧ c ≠ ']' ∧ c ≠ '}' := by
  cases v with
  | null => rw [ValueText] at h; subst h; exact ⟨_, _, rfl, by decide⟩
  | bool b => rw [ValueText] at h; subst h; cases b <;> exact ⟨_, _, rfl, by decide⟩
  | num n =>
    rw [ValueText] at h
    obtain ⟨h1, h2, -, -⟩ := h
    cases x with
    | nil => exact absurd rfl h1
    | cons c t =>
      have := digit_facts (h2 c List.mem_cons_self)
      exact ⟨c, t, rfl, this.1, this.2.2.2.2.2.2.2⟩
  | real =>
    rw [ValueText] at h
    obtain ⟨c, t, rfl, hc, h1, h2⟩ := real_head h
    exact ⟨c, t, rfl, h1, h2.2.2.2.2.2.2⟩
  | str s => rw [ValueText] at h; obtain ⟨b, rfl, -⟩ := h; exact ⟨_, _, rfl, by decide⟩
  | badStr => rw [ValueText] at h; obtain ⟨b, rfl, -⟩ := h; exact ⟨_, _, rfl, by decide⟩
  | arr vs => rw [ValueText] at h; obtain ⟨b, rfl, -⟩ := h; exact ⟨_, _, rfl, by decide⟩
  | obj ms => rw [ValueText] at h; obtain ⟨b, rfl, -⟩ := h; exact ⟨_, _, rfl, by decide⟩

theorem value_skip (n : Nat) (t : List Char) : jsonValue n (skipWs t) = jsonValue n t := by
  cases n with
  | zero => simp [jsonValue]
  | succ n => rw [jsonValue, jsonValue, skipWs_idem]

theorem elems_skip (n : Nat) (t : List Char) : jsonElems n (skipWs t) = jsonElems n t := by
  cases n with
  | zero => simp [jsonElems]
  | succ n => rw [jsonElems, jsonElems, value_skip]

theorem members_skip (n : Nat) (t : List Char) : jsonMembers n (skipWs t) = jsonMembers n t := by
  cases n with
  | zero => simp [jsonMembers]
  | succ n => rw [jsonMembers, jsonMembers, skipWs_idem]

mutual
theorem value_read : (v : Json) → ∀ x, ValueText v x → ∀ n, x.length < n → ∀ a, Ws a → ∀ r, NumEnd r →
    jsonValue n (a ++ (x ++ r)) = some (v, r)
  | .null => by
    intro x h n hn a ha r hr
    rw [ValueText] at h
    subst h
    cases n with
    | zero => omega
    | succ n =>
      have e : skipWs ("null".toList ++ r) = 'n' :: 'u' :: 'l' :: 'l' :: r := skipWs_cons _ _ (by decide)
      rw [jsonValue, skipWs_append _ _ ha, e]
      rfl
  | .bool b => by
    intro x h n hn a ha r hr
    rw [ValueText] at h
    subst h
    cases n with
    | zero => omega
    | succ n =>
      cases b with
      | true =>
        have e : skipWs ((if true = true then "true".toList else "false".toList) ++ r) = 't' :: 'r' :: 'u' :: 'e' :: r :=
          skipWs_cons _ _ (by decide)
        rw [jsonValue, skipWs_append _ _ ha, e]
        rfl
      | false =>
        have e : skipWs ((if false = true then "true".toList else "false".toList) ++ r) = 'f' :: 'a' :: 'l' :: 's' :: 'e' :: r :=
          skipWs_cons _ _ (by decide)
        rw [jsonValue, skipWs_append _ _ ha, e]
        rfl
  | .num k => by
    intro x h n hn a ha r hr
    rw [ValueText] at h
    cases n with
    | zero => omega
    | succ n =>
      have hread := num_read h hr
      obtain ⟨h1, h2, -, -⟩ := h
      cases x with
      | nil => exact absurd rfl h1
      | cons c t =>
        obtain ⟨w, q1, q2, q3, q4, q5, q6, -, -⟩ := digit_facts (h2 c List.mem_cons_self)
        rw [jsonValue, skipWs_append _ _ ha, List.cons_append, skipWs_cons _ _ w]
        simp only [q1, q2, q3, q4, q5, q6, if_false]
        rw [List.cons_append] at hread
        rw [hread]
  | .str s => by
    intro x h n hn a ha r hr
    rw [ValueText] at h
    cases n with
    | zero => omega
    | succ n =>
      obtain ⟨b, rfl, hb⟩ := name_read (k := some s) h
      have e : skipWs ('"' :: (b ++ ['"']) ++ r) = '"' :: (b ++ '"' :: r) := by
        rw [List.cons_append, skipWs_cons _ _ (by decide)]; simp
      rw [jsonValue, skipWs_append _ _ ha, e]
      simp only [if_true]
      rw [hb r]
  | .real => by
    intro x h n hn a ha r hr
    rw [ValueText] at h
    cases n with
    | zero => omega
    | succ n =>
      have hread := real_read h hr
      obtain ⟨c, t, rfl, -, w, q1, q2, q3, q4, q5, q6, -, -⟩ := real_head h
      rw [jsonValue, skipWs_append _ _ ha, List.cons_append, skipWs_cons _ _ w]
      simp only [q1, q2, q3, q4, q5, q6, if_false]
      rw [List.cons_append] at hread
      rw [hread]
  | .badStr => by
    intro x h n hn a ha r hr
    rw [ValueText] at h
    cases n with
    | zero => omega
    | succ n =>
      obtain ⟨b, rfl, hb⟩ := name_read (k := none) h
      have e : skipWs ('"' :: (b ++ ['"']) ++ r) = '"' :: (b ++ '"' :: r) := by
        rw [List.cons_append, skipWs_cons _ _ (by decide)]; simp
      rw [jsonValue, skipWs_append _ _ ha, e]
      simp only [if_true]
      rw [hb r]
  | .arr vs => by
    intro x h n hn a ha r hr
    rw [ValueText] at h
    obtain ⟨t, rfl, ht⟩ := h
    cases n with
    | zero => omega
    | succ n =>
      have e : skipWs ('[' :: (t ++ [']']) ++ r) = '[' :: (t ++ ']' :: r) := by
        rw [List.cons_append, skipWs_cons _ _ (by decide)]; simp
      rw [jsonValue, skipWs_append _ _ ha, e]
      simp only [show ('[' : Char) ≠ '"' from by decide, if_true, if_false]
      cases vs with
      | nil =>
        rw [ElementsText] at ht
        rw [skipWs_append _ _ ht, skipWs_cons _ _ (by decide)]
        rfl
      | cons v vs =>
        have hel := elems_read (v :: vs) t ht (by simp) n (by simp at hn; omega) r
        rw [← elems_skip] at hel
        rw [ElementsText] at ht
        obtain ⟨a', x', b', u', rfl, w1, w2, hv, -⟩ := ht
        obtain ⟨c, t', rfl, hc, hc1, -⟩ := value_head v hv
        have e2 : skipWs (a' ++ (c :: t' ++ (b' ++ u')) ++ ']' :: r) = c :: (t' ++ (b' ++ (u' ++ ']' :: r))) := by
          rw [List.append_assoc, skipWs_append _ _ w1, List.cons_append, List.cons_append, skipWs_cons _ _ hc]; simp
        rw [e2] at hel ⊢
        simp only [hc1, if_false]
        rw [hel]
  | .obj ms => by
    intro x h n hn a ha r hr
    rw [ValueText] at h
    obtain ⟨t, rfl, ht⟩ := h
    cases n with
    | zero => omega
    | succ n =>
      have e : skipWs ('{' :: (t ++ ['}']) ++ r) = '{' :: (t ++ '}' :: r) := by
        rw [List.cons_append, skipWs_cons _ _ (by decide)]; simp
      rw [jsonValue, skipWs_append _ _ ha, e]
      simp only [show ('{' : Char) ≠ '"' from by decide, show ('{' : Char) ≠ '[' from by decide, if_true, if_false]
      cases ms with
      | nil =>
        rw [MembersText] at ht
        rw [skipWs_append _ _ ht, skipWs_cons _ _ (by decide)]
        rfl
      | cons m ms =>
        have hel := members_read (m :: ms) t ht (by simp) n (by simp at hn; omega) r
        rw [← members_skip] at hel
        obtain ⟨k, v⟩ := m
        rw [MembersText] at ht
        obtain ⟨a', y, b', c', x', d', u', rfl, w1, w2, w3, w4, hk, -, -⟩ := ht
        obtain ⟨kb, rfl, -⟩ := name_read hk
        have e2 : skipWs (a' ++ ('"' :: (kb ++ ['"']) ++ (b' ++ ':' :: (c' ++ (x' ++ (d' ++ u'))))) ++ '}' :: r) =
            '"' :: (kb ++ '"' :: (b' ++ ':' :: (c' ++ (x' ++ (d' ++ (u' ++ '}' :: r)))))) := by
          rw [List.append_assoc, skipWs_append _ _ w1, List.cons_append, List.cons_append, skipWs_cons _ _ (by decide)]; simp
        rw [e2] at hel ⊢
        simp only [show ('"' : Char) ≠ '}' from by decide, if_false]
        rw [hel]

theorem elems_read : (vs : List Json) → ∀ t, ElementsText vs t → vs ≠ [] → ∀ n, t.length + 1 < n → ∀ r,
    jsonElems n (t ++ ']' :: r) = some (vs, r)
  | [] => by intro t h hne; exact absurd rfl hne
  | [v] => by
    intro t h _ n hn r
    rw [ElementsText] at h
    obtain ⟨a, x, b, u, rfl, w1, w2, hv, hu⟩ := h
    rw [MoreElements] at hu
    subst hu
    cases n with
    | zero => omega
    | succ n =>
      have hvr := value_read v x hv n (by simp at hn; omega) a w1 (b ++ ']' :: r) (numEnd_ws w2 (numEnd_cons (by decide)))
      have e : a ++ (x ++ (b ++ [])) ++ ']' :: r = a ++ (x ++ (b ++ ']' :: r)) := by simp
      rw [e, jsonElems, hvr]
      simp only
      rw [skipWs_append _ _ w2, skipWs_cons _ _ (by decide)]
      rfl
  | v :: w :: vs => by
    intro t h _ n hn r
    rw [ElementsText] at h
    obtain ⟨a, x, b, u, rfl, w1, w2, hv, hu⟩ := h
    rw [MoreElements] at hu
    obtain ⟨a', x', b', u', rfl, k1, k2, k3, k4⟩ := hu
    have hrest : ElementsText (w :: vs) (a' ++ (x' ++ (b' ++ u'))) := by
      rw [ElementsText]; exact ⟨a', x', b', u', rfl, k1, k2, k3, k4⟩
    cases n with
    | zero => omega
    | succ n =>
      have ih := elems_read (w :: vs) _ hrest (by simp) n (by simp at hn ⊢; omega) r
      generalize a' ++ (x' ++ (b' ++ u')) = t' at *
      have hvr := value_read v x hv n (by simp at hn; omega) a w1 (b ++ ',' :: (t' ++ ']' :: r))
        (numEnd_ws w2 (numEnd_cons (by decide)))
      have e : a ++ (x ++ (b ++ ',' :: t')) ++ ']' :: r = a ++ (x ++ (b ++ ',' :: (t' ++ ']' :: r))) := by simp
      rw [e, jsonElems, hvr]
      simp only
      rw [skipWs_append _ _ w2, skipWs_cons _ _ (by decide)]
      simp only [show (',' : Char) ≠ ']' from by decide, if_true, if_false]
      rw [ih]

theorem members_read : (ms : List (Option (List Char) × Json)) → ∀ t, MembersText ms t → ms ≠ [] → ∀ n, t.length + 1 < n → ∀ r,
    jsonMembers n (t ++ '}' :: r) = some (ms, r)
  | [] => by intro t h hne; exact absurd rfl hne
  | [(k, v)] => by
    intro t h _ n hn r
    rw [MembersText] at h
    obtain ⟨a, y, b, c, x, d, u, rfl, w1, w2, w3, w4, hk, hv, hu⟩ := h
    rw [MoreMembers] at hu
    subst hu
    obtain ⟨kb, rfl, hkb⟩ := name_read hk
    cases n with
    | zero => omega
    | succ n =>
      have hvr := value_read v x hv n (by simp at hn; omega) c w3 (d ++ '}' :: r) (numEnd_ws w4 (numEnd_cons (by decide)))
      have e : a ++ ('"' :: (kb ++ ['"']) ++ (b ++ ':' :: (c ++ (x ++ (d ++ []))))) ++ '}' :: r =
          a ++ ('"' :: (kb ++ '"' :: (b ++ ':' :: (c ++ (x ++ (d ++ '}' :: r)))))) := by simp
      rw [e, jsonMembers, skipWs_append _ _ w1, skipWs_cons _ _ (by decide)]
      simp only [if_true]
      rw [hkb]
      simp only
      rw [skipWs_append _ _ w2, skipWs_cons _ _ (by decide)]
      simp only [if_true]
      rw [hvr]
      simp only
      rw [skipWs_append _ _ w4, skipWs_cons _ _ (by decide)]
      rfl
  | (k, v) :: (k', v') :: ms => by
    intro t h _ n hn r
    rw [MembersText] at h
    obtain ⟨a, y, b, c, x, d, u, rfl, w1, w2, w3, w4, hk, hv, hu⟩ := h
    rw [MoreMembers] at hu
    obtain ⟨a', y', b', c', x', d', u', rfl, q⟩ := hu
    have hrest : MembersText ((k', v') :: ms) (a' ++ (y' ++ (b' ++ ':' :: (c' ++ (x' ++ (d' ++ u')))))) := by
      rw [MembersText]; exact ⟨a', y', b', c', x', d', u', rfl, q⟩
    obtain ⟨kb, rfl, hkb⟩ := name_read hk
    cases n with
    | zero => omega
    | succ n =>
      have ih := members_read ((k', v') :: ms) _ hrest (by simp) n (by simp at hn ⊢; omega) r
      generalize a' ++ (y' ++ (b' ++ ':' :: (c' ++ (x' ++ (d' ++ u'))))) = t' at *
      have hvr := value_read v x hv n (by simp at hn; omega) c w3 (d ++ ',' :: (t' ++ '}' :: r))
        (numEnd_ws w4 (numEnd_cons (by decide)))
      have e : a ++ ('"' :: (kb ++ ['"']) ++ (b ++ ':' :: (c ++ (x ++ (d ++ ',' :: t'))))) ++ '}' :: r =
          a ++ ('"' :: (kb ++ '"' :: (b ++ ':' :: (c ++ (x ++ (d ++ ',' :: (t' ++ '}' :: r))))))) := by simp
      rw [e, jsonMembers, skipWs_append _ _ w1, skipWs_cons _ _ (by decide)]
      simp only [if_true]
      rw [hkb]
      simp only
      rw [skipWs_append _ _ w2, skipWs_cons _ _ (by decide)]
      simp only [if_true]
      rw [hvr]
      simp only
      rw [skipWs_append _ _ w4, skipWs_cons _ _ (by decide)]
      simp only [show (',' : Char) ≠ '}' from by decide, if_true, if_false]
      rw [ih]
end

/-- Whatever denotes a value is read as that value. -/
theorem parse_denotes {t : List Char} {v : Json} (h : Denotes t v) : jsonParse t = some v := by
  obtain ⟨a, x, b, rfl, ha, hb, hx⟩ := h
  unfold jsonParse
  have hr : NumEnd b := by simpa using numEnd_ws hb (r := []) (by intro c t e; cases e)
  rw [value_read v x hx _ (by simp; omega) a ha b hr]
  simp [skipWs_ws b hb]

theorem parse_text (v : Json) : jsonParse v.text = some v := parse_denotes (text_denotes v)

/-- No text denotes two values. -/
theorem denotes_unique {t : List Char} {v v' : Json} (h : Denotes t v) (h' : Denotes t v') : v = v' := by
  have := (parse_denotes h).symm.trans (parse_denotes h')
  simpa using this

end MCap
