import Verif.Spec.Json

/-!
# Reading JSON: white space, strings and numbers
-/

namespace MCap
open Spec

theorem ws_nil : Ws [] := fun _ h => by cases h

/-! ### Strings -/

theorem ws_iff (c : Char) : jsonWs c = true ↔ c = ' ' ∨ c = '\n' ∨ c = '\r' ∨ c = '\t' := by
  simp [jsonWs, or_assoc]

theorem skipWs_append (w t : List Char) (h : Ws w) : skipWs (w ++ t) = skipWs t := by
  induction w with
  | nil => rfl
  | cons c r ih =>
    rw [List.cons_append, skipWs, if_pos ((ws_iff c).2 (h c List.mem_cons_self))]
    exact ih (fun d hd => h d (List.mem_cons_of_mem _ hd))

theorem skipWs_ws (w : List Char) (h : Ws w) : skipWs w = [] := by
  have := skipWs_append w [] h
  simpa [skipWs] using this

theorem skipWs_cons (c : Char) (r : List Char) (h : jsonWs c = false) : skipWs (c :: r) = c :: r := by
  rw [skipWs, if_neg (by simp [h])]

theorem skipWs_idem (t : List Char) : skipWs (skipWs t) = skipWs t := by
  induction t with
  | nil => rfl
  | cons c r ih =>
    rw [skipWs]
    split
    · exact ih
    · rename_i h; rw [skipWs, if_neg h]

theorem hexVal_of {c : Char} {v : Nat} (h : HexDigit c v) : hexVal c = some v := by
  rcases h with h | h
  · have hv : v < 16 := (List.getElem?_eq_some_iff.1 h).1
    have : ∀ v : Fin 16, "0123456789abcdef".toList[v.val]?.bind hexVal = some v.val := by decide
    have := this ⟨v, hv⟩
    simp only [h] at this
    exact this
  · have hv : v < 16 := (List.getElem?_eq_some_iff.1 h).1
    have : ∀ v : Fin 16, "0123456789ABCDEF".toList[v.val]?.bind hexVal = some v.val := by decide
    have := this ⟨v, hv⟩
    simp only [h] at this
    exact this

theorem char_read {t : List Char} {ch : Char} (h : CharText t ch) (r : List Char) : jsonChar (t ++ r) = some (ch, r) := by
  cases h with
  | raw c h hq hb => simp [jsonChar, hb]; omega
  | quote => rfl
  | backslash => rfl
  | slash => rfl
  | backspace => rfl
  | formFeed => rfl
  | lineFeed => rfl
  | carriageReturn => rfl
  | tab => rfl
  | unicode a b c d w x y z ha hb hc hd _ hcode =>
    have hv := ch.valid
    simp [UInt32.isValidChar, Nat.isValidChar] at hv
    rw [hcode] at hv
    have : jsonChar (['\\', 'u', a, b, c, d] ++ r) = jsonUnescape ('u' :: a :: b :: c :: d :: r) := rfl
    rw [this, jsonUnescape]
    simp [hex4, hexVal_of ha, hexVal_of hb, hexVal_of hc, hexVal_of hd]
    rw [if_pos (by omega)]
    simp
    rw [← hcode, Char.ofNat_toNat]
  | pair a b c d e f g h w x y z w' x' y' z' ha hb hc hd he hf hg hh _ hi hi' lo lo' hcode =>
    have : jsonChar (['\\', 'u', a, b, c, d, '\\', 'u', e, f, g, h] ++ r) =
      jsonUnescape ('u' :: a :: b :: c :: d :: '\\' :: 'u' :: e :: f :: g :: h :: r) := rfl
    rw [this, jsonUnescape]
    simp [hex4, hexVal_of ha, hexVal_of hb, hexVal_of hc, hexVal_of hd, hexVal_of he, hexVal_of hf, hexVal_of hg, hexVal_of hh]
    rw [if_neg (by omega), if_neg (by omega), if_pos (by omega)]
    simp
    rw [← Char.ofNat_toNat ch, hcode]

theorem char_head {t : List Char} {c : Char} (h : CharText t c) : ∃ d r, t = d :: r ∧ d ≠ '"' := by
  cases h with
  | raw c h hq hb => exact ⟨_, _, rfl, hq⟩
  | _ => exact ⟨_, _, rfl, by decide⟩

theorem chars_read {b s : List Char} (h : CharsText b s) (r : List Char) (n : Nat) (hn : b.length < n) :
    jsonChars n (b ++ '"' :: r) = some (s, r) := by
  induction h generalizing n with
  | nil =>
    cases n with
    | zero => omega
    | succ n => simp [jsonChars]
  | cons t c ts cs h _ ih =>
    obtain ⟨d, t', rfl, hd⟩ := char_head h
    cases n with
    | zero => omega
    | succ n =>
      have hr := char_read h (ts ++ '"' :: r)
      rw [List.append_assoc]
      rw [List.cons_append] at hr ⊢
      rw [jsonChars, if_neg hd, hr]
      simp only
      rw [ih n (by simp at hn; omega)]

theorem string_read {y k : List Char} (h : StringText y k) :
    ∃ b, y = '"' :: (b ++ ['"']) ∧ ∀ r, jsonChars ((b ++ '"' :: r).length + 1) (b ++ '"' :: r) = some (k, r) := by
  obtain ⟨b, rfl, hb⟩ := h
  exact ⟨b, rfl, fun r => chars_read hb r _ (by simp; omega)⟩

theorem hexVal_sound {c : Char} {v : Nat} (h : hexVal c = some v) : HexDigit c v := by
  unfold hexVal at h
  have tbl : ∀ i : Fin 128, ∀ v, hexVal (Char.ofNat i.val) = some v → v < 16 := by
    intro i v hv
    unfold hexVal at hv
    split at hv
    · cases hv; rename_i h; simp only [show '0'.toNat = 48 from rfl, show '9'.toNat = 57 from rfl] at *; omega
    · split at hv
      · cases hv; rename_i h; simp only [show 'a'.toNat = 97 from rfl, show 'f'.toNat = 102 from rfl] at *; omega
      · split at hv
        · cases hv; rename_i h; simp only [show 'A'.toNat = 65 from rfl, show 'F'.toNat = 70 from rfl] at *; omega
        · cases hv
  have low : c.toNat < 128 := by
    simp only [show '0'.toNat = 48 from rfl, show '9'.toNat = 57 from rfl, show 'a'.toNat = 97 from rfl, show 'f'.toNat = 102 from rfl,
      show 'A'.toNat = 65 from rfl, show 'F'.toNat = 70 from rfl] at h
    split at h
    · omega
    · split at h
      · omega
      · split at h
        · omega
        · cases h
  have all : ∀ i : Fin 128, ∀ v : Fin 16, hexVal (Char.ofNat i.val) = some v.val →
      "0123456789abcdef".toList[v.val]? = some (Char.ofNat i.val) ∨ "0123456789ABCDEF".toList[v.val]? = some (Char.ofNat i.val) := by
    decide +kernel
  have e : Char.ofNat c.toNat = c := Char.ofNat_toNat c
  have h' : hexVal (Char.ofNat c.toNat) = some v := by rw [e]; exact h
  have hv := tbl ⟨c.toNat, low⟩ v h'
  have := all ⟨c.toNat, low⟩ ⟨v, hv⟩ h'
  rw [e] at this
  exact this

theorem hex4_sound {t r : List Char} {x : Nat} (h : hex4 t = some (x, r)) :
    ∃ a b c d w y z u, t = a :: b :: c :: d :: r ∧ HexDigit a w ∧ HexDigit b y ∧ HexDigit c z ∧ HexDigit d u ∧
      x = w * 4096 + y * 256 + z * 16 + u := by
  unfold hex4 at h
  split at h
  · rename_i a b c d r'
    split at h
    · rename_i w y z u h1 h2 h3 h4
      simp only [Option.some.injEq, Prod.mk.injEq] at h
      obtain ⟨rfl, rfl⟩ := h
      exact ⟨a, b, c, d, w, y, z, u, rfl, hexVal_sound h1, hexVal_sound h2, hexVal_sound h3, hexVal_sound h4, rfl⟩
    · cases h
  · cases h

theorem hexDigit_lt {c : Char} {v : Nat} (h : HexDigit c v) : v < 16 := by
  rcases h with h | h <;> exact (List.getElem?_eq_some_iff.1 h).1

theorem toNat_ofNat_valid {x : Nat} (h : x < 0xD800 ∨ (0xE000 ≤ x ∧ x < 0x110000)) : (Char.ofNat x).toNat = x := by
  have hv : x.isValidChar := by
    rcases h with h | ⟨h1, h2⟩
    · exact .inl h
    · exact .inr ⟨by omega, h2⟩
  rw [Char.ofNat, dif_pos hv]
  rfl

theorem char_sound {t r : List Char} {ch : Char} (hq : t.head? ≠ some '"') (h : jsonChar t = some (ch, r)) : ∃ x, t = x ++ r ∧ CharText x ch := by
  cases t with
  | nil => cases h
  | cons c t =>
    simp only [jsonChar] at h
    by_cases hb : c = '\\'
    · subst hb
      simp only [if_true] at h
      unfold jsonUnescape at h
      cases t with
      | nil => cases h
      | cons e t =>
        simp only at h
        by_cases he : e = '"'
        · subst he; simp at h; obtain ⟨rfl, rfl⟩ := h; exact ⟨_, rfl, .quote⟩
        rw [if_neg he] at h
        by_cases he : e = '\\'
        · subst he; simp at h; obtain ⟨rfl, rfl⟩ := h; exact ⟨_, rfl, .backslash⟩
        rw [if_neg he] at h
        by_cases he : e = '/'
        · subst he; simp at h; obtain ⟨rfl, rfl⟩ := h; exact ⟨_, rfl, .slash⟩
        rw [if_neg he] at h
        by_cases he : e = 'b'
        · subst he; simp only [if_true, Option.some.injEq, Prod.mk.injEq] at h; obtain ⟨rfl, rfl⟩ := h; exact ⟨_, rfl, .backspace⟩
        rw [if_neg he] at h
        by_cases he : e = 'f'
        · subst he; simp only [if_true, Option.some.injEq, Prod.mk.injEq] at h; obtain ⟨rfl, rfl⟩ := h; exact ⟨_, rfl, .formFeed⟩
        rw [if_neg he] at h
        by_cases he : e = 'n'
        · subst he; simp only [if_true, Option.some.injEq, Prod.mk.injEq] at h; obtain ⟨rfl, rfl⟩ := h; exact ⟨_, rfl, .lineFeed⟩
        rw [if_neg he] at h
        by_cases he : e = 'r'
        · subst he; simp only [if_true, Option.some.injEq, Prod.mk.injEq] at h; obtain ⟨rfl, rfl⟩ := h; exact ⟨_, rfl, .carriageReturn⟩
        rw [if_neg he] at h
        by_cases he : e = 't'
        · subst he; simp only [if_true, Option.some.injEq, Prod.mk.injEq] at h; obtain ⟨rfl, rfl⟩ := h; exact ⟨_, rfl, .tab⟩
        rw [if_neg he] at h
        by_cases he : e = 'u'
        · subst he
          simp only [if_true] at h
          split at h
          · cases h
          · rename_i x r1 hx
            obtain ⟨a, b, c, d, w, y, z, u, rfl, ha, hb, hc, hd, rfl⟩ := hex4_sound hx
            have la := hexDigit_lt ha
            have lb := hexDigit_lt hb
            have lc := hexDigit_lt hc
            have ld := hexDigit_lt hd
            split at h
            · rename_i hok
              simp only [Option.some.injEq, Prod.mk.injEq] at h
              obtain ⟨rfl, rfl⟩ := h
              exact ⟨['\\', 'u', a, b, c, d], rfl, .unicode a b c d w y z u ha hb hc hd _ (toNat_ofNat_valid (by omega))⟩
            · split at h
              · cases h
              · split at h
                · rename_i b' u' r2
                  split at h
                  · rename_i hbu
                    obtain ⟨rfl, rfl⟩ := hbu
                    split at h
                    · rename_i y2 r3 hy
                      obtain ⟨a', b', c', d', w', y', z', u', rfl, ha', hb', hc', hd', rfl⟩ := hex4_sound hy
                      split at h
                      · rename_i hlo
                        simp only [Option.some.injEq, Prod.mk.injEq] at h
                        obtain ⟨rfl, rfl⟩ := h
                        refine ⟨['\\', 'u', a, b, c, d, '\\', 'u', a', b', c', d'], rfl,
                          .pair a b c d a' b' c' d' w y z u w' y' z' u' ha hb hc hd ha' hb' hc' hd' _ (by omega) (by omega) hlo.1 hlo.2 ?_⟩
                        exact toNat_ofNat_valid (by omega)
                      · cases h
                    · cases h
                  · cases h
                · cases h
        · rw [if_neg he] at h; cases h
    · rw [if_neg hb] at h
      split at h
      · cases h
      · rename_i hlt
        simp only [Option.some.injEq, Prod.mk.injEq] at h
        obtain ⟨rfl, rfl⟩ := h
        exact ⟨[c], rfl, .raw c (by omega) (fun e => hq (by rw [e]; rfl)) hb⟩

theorem chars_sound (n : Nat) : ∀ (t s r : List Char), jsonChars n t = some (s, r) → ∃ b, t = b ++ '"' :: r ∧ CharsText b s := by
  induction n with
  | zero => intro t s r h; simp [jsonChars] at h
  | succ n ih =>
    intro t s r h
    cases t with
    | nil => simp [jsonChars] at h
    | cons c t =>
      rw [jsonChars] at h
      by_cases hc : c = '"'
      · subst hc
        simp only [if_true, Option.some.injEq, Prod.mk.injEq] at h
        obtain ⟨rfl, rfl⟩ := h
        exact ⟨[], rfl, .nil⟩
      · rw [if_neg hc] at h
        split at h
        · cases h
        · rename_i x r1 hx
          obtain ⟨b1, hb1, ht⟩ := char_sound (by simpa using hc) hx
          split at h
          · cases h
          · rename_i xs r2 hxs
            simp only [Option.some.injEq, Prod.mk.injEq] at h
            obtain ⟨rfl, rfl⟩ := h
            obtain ⟨b2, rfl, hcs⟩ := ih _ _ _ hxs
            exact ⟨b1 ++ b2, by rw [hb1, List.append_assoc], .cons _ _ _ _ ht hcs⟩

theorem rawChars_append {a b : List Char} (ha : RawChars a) (hb : RawChars b) : RawChars (a ++ b) := by
  induction ha with
  | nil => exact hb
  | cons t ts h _ ih => rw [List.append_assoc]; exact .cons _ _ h ih

theorem raw_one {t : List Char} (h : RawChar t) : RawChars t := by
  have := RawChars.cons t [] h .nil
  simpa using this

theorem raw_of_char {t : List Char} {c : Char} (h : CharText t c) : RawChars t := by
  cases h with
  | raw c h hq hb => exact raw_one (.raw c h hq hb)
  | quote => exact raw_one (.simple _ (by decide))
  | backslash => exact raw_one (.simple _ (by decide))
  | slash => exact raw_one (.simple _ (by decide))
  | backspace => exact raw_one (.simple _ (by decide))
  | formFeed => exact raw_one (.simple _ (by decide))
  | lineFeed => exact raw_one (.simple _ (by decide))
  | carriageReturn => exact raw_one (.simple _ (by decide))
  | tab => exact raw_one (.simple _ (by decide))
  | unicode a b c d w x y z ha hb hc hd _ hcode => exact raw_one (.unicode a b c d w x y z ha hb hc hd)
  | pair a b c d e f g h w x y z w' x' y' z' ha hb hc hd he hf hg hh _ hi hi' lo lo' hcode =>
    exact rawChars_append (raw_one (.unicode a b c d w x y z ha hb hc hd)) (raw_one (.unicode e f g h w' x' y' z' he hf hg hh))

theorem raw_of_chars {b s : List Char} (h : CharsText b s) : RawChars b := by
  induction h with
  | nil => exact .nil
  | cons t c ts cs h _ ih => exact rawChars_append (raw_of_char h) ih

theorem simple_iff (e : Char) : e ∈ "\"\\/bfnrt".toList ↔
    e = '"' ∨ e = '\\' ∨ e = '/' ∨ e = 'b' ∨ e = 'f' ∨ e = 'n' ∨ e = 'r' ∨ e = 't' := by
  simp

theorem skip_read {b : List Char} (h : RawChars b) (r : List Char) (n : Nat) (hn : b.length < n) :
    skipChars n (b ++ '"' :: r) = some r := by
  induction h generalizing n with
  | nil =>
    cases n with
    | zero => omega
    | succ n => simp [skipChars]
  | cons t ts h _ ih =>
    cases n with
    | zero => omega
    | succ n =>
      cases h with
      | raw c h hq hb =>
        have := ih n (by simp at hn; omega)
        rw [List.append_assoc, List.cons_append, List.nil_append, skipChars.eq_def]
        simp only [hq, hb, if_false]
        rw [if_neg (by omega), this]
      | simple e h =>
        have := ih n (by simp at hn; omega)
        rw [List.append_assoc, List.cons_append, List.cons_append, List.nil_append, skipChars.eq_def]
        simp only [show ('\\' : Char) ≠ '"' from by decide, if_false, if_true]
        rw [if_pos ((simple_iff e).1 h), this]
      | unicode a b c d w x y z ha hb hc hd =>
        have := ih n (by simp at hn; omega)
        have hx : hex4 (a :: b :: c :: d :: (ts ++ '"' :: r)) = some (w * 4096 + x * 256 + y * 16 + z, ts ++ '"' :: r) := by
          simp [hex4, hexVal_of ha, hexVal_of hb, hexVal_of hc, hexVal_of hd]
        rw [List.append_assoc]
        simp only [List.cons_append, List.nil_append]
        rw [skipChars.eq_def]
        simp only [show ('\\' : Char) ≠ '"' from by decide, if_false, if_true]
        rw [if_neg (by decide), hx]
        exact this

theorem skip_sound (n : Nat) : ∀ t r : List Char, skipChars n t = some r → ∃ b, t = b ++ '"' :: r ∧ RawChars b := by
  induction n with
  | zero => intro t r h; simp [skipChars] at h
  | succ n ih =>
    intro t r h
    cases t with
    | nil => simp [skipChars] at h
    | cons c t =>
      rw [skipChars.eq_def] at h
      simp only at h
      by_cases hq : c = '"'
      · subst hq
        simp only [if_true, Option.some.injEq] at h
        subst h
        exact ⟨[], rfl, .nil⟩
      rw [if_neg hq] at h
      by_cases hb : c = '\\'
      · subst hb
        rw [if_pos rfl] at h
        cases t with
        | nil => cases h
        | cons e t =>
          simp only at h
          by_cases he : e = '"' ∨ e = '\\' ∨ e = '/' ∨ e = 'b' ∨ e = 'f' ∨ e = 'n' ∨ e = 'r' ∨ e = 't'
          · rw [if_pos he] at h
            obtain ⟨b, rfl, hb⟩ := ih _ _ h
            exact ⟨['\\', e] ++ b, rfl, .cons _ _ (.simple e ((simple_iff e).2 he)) hb⟩
          rw [if_neg he] at h
          by_cases hu : e = 'u'
          · subst hu
            rw [if_pos rfl] at h
            split at h
            · rename_i x r1 hx
              obtain ⟨a, b, c, d, w, y, z, u, rfl, ha, hb, hc, hd, rfl⟩ := hex4_sound hx
              obtain ⟨q, rfl, hq⟩ := ih _ _ h
              exact ⟨['\\', 'u', a, b, c, d] ++ q, rfl, .cons _ _ (.unicode a b c d w y z u ha hb hc hd) hq⟩
            · cases h
          · rw [if_neg hu] at h; cases h
      rw [if_neg hb] at h
      by_cases hl : c.toNat < 0x20
      · rw [if_pos hl] at h; cases h
      · rw [if_neg hl] at h
        obtain ⟨b, rfl, hb'⟩ := ih _ _ h
        exact ⟨[c] ++ b, rfl, .cons _ _ (.raw c (by omega) hq hb) hb'⟩

theorem skip_unique {b b' r r' : List Char} (h : RawChars b) (h' : RawChars b') (e : b ++ '"' :: r = b' ++ '"' :: r') : b = b' := by
  have h1 := skip_read h r (b.length + b'.length + 1) (by omega)
  have h2 := skip_read h' r' (b.length + b'.length + 1) (by omega)
  rw [e, h2] at h1
  cases h1
  exact List.append_cancel_right e

/-- Whatever has the form of a string is read. -/
theorem name_read {y : List Char} {k : Option (List Char)} (h : NameText y k) :
    ∃ b, y = '"' :: (b ++ ['"']) ∧ ∀ r, jsonStrRest (b ++ '"' :: r) = some (k, r) := by
  cases k with
  | some k =>
    obtain ⟨b, rfl, hb⟩ := string_read h
    refine ⟨b, rfl, fun r => ?_⟩
    rw [jsonStrRest, hb r]
  | none =>
    obtain ⟨b, rfl, hb, hno⟩ := h
    refine ⟨b, rfl, fun r => ?_⟩
    have hc : jsonChars ((b ++ '"' :: r).length + 1) (b ++ '"' :: r) = none := by
      cases hc : jsonChars ((b ++ '"' :: r).length + 1) (b ++ '"' :: r) with
      | none => rfl
      | some p =>
        obtain ⟨s, r'⟩ := p
        obtain ⟨b', e, hs⟩ := chars_sound _ _ _ _ hc
        have := skip_unique hb (raw_of_chars hs) e
        subst this
        exact absurd ⟨s, hs⟩ hno
    rw [jsonStrRest, hc, skip_read hb r _ (by simp; omega)]
    rfl

theorem name_sound {t r : List Char} {k : Option (List Char)} (h : jsonStrRest t = some (k, r)) :
    ∃ b, t = b ++ '"' :: r ∧ NameText ('"' :: (b ++ ['"'])) k := by
  unfold jsonStrRest at h
  split at h
  · rename_i s r' hc
    simp only [Option.some.injEq, Prod.mk.injEq] at h
    obtain ⟨rfl, rfl⟩ := h
    obtain ⟨b, rfl, hb⟩ := chars_sound _ _ _ _ hc
    exact ⟨b, rfl, b, rfl, hb⟩
  · rename_i hc
    cases hs : skipChars (t.length + 1) t with
    | none => rw [hs] at h; cases h
    | some r' =>
      rw [hs] at h
      simp only [Option.map_some, Option.some.injEq, Prod.mk.injEq] at h
      obtain ⟨rfl, rfl⟩ := h
      obtain ⟨b, rfl, hb⟩ := skip_sound _ _ _ hs
      refine ⟨b, rfl, b, rfl, hb, ?_⟩
      rintro ⟨s, hs⟩
      rw [chars_read hs r' _ (by simp; omega)] at hc
      cases hc

/-! ### Numbers -/

/-- `r` does not go on with a number. -/
def NumEnd (r : List Char) : Prop := ∀ c t, r = c :: t → c.isDigit = false ∧ c ≠ '.' ∧ c ≠ 'e' ∧ c ≠ 'E'

theorem numEnd_cons {c : Char} {r : List Char} (h : c.isDigit = false ∧ c ≠ '.' ∧ c ≠ 'e' ∧ c ≠ 'E') : NumEnd (c :: r) := by
  intro d t e
  cases e
  exact h

theorem numEnd_ws {w r : List Char} (h : Ws w) (hr : NumEnd r) : NumEnd (w ++ r) := by
  cases w with
  | nil => exact hr
  | cons c w =>
    refine numEnd_cons ?_
    rcases h c List.mem_cons_self with rfl | rfl | rfl | rfl <;> decide

theorem digits_read {d r : List Char} (h : ∀ c ∈ d, c.isDigit = true) (hr : ∀ c t, r = c :: t → c.isDigit = false) :
    (d ++ r).takeWhile Char.isDigit = d ∧ (d ++ r).dropWhile Char.isDigit = r := by
  rw [List.takeWhile_append_of_pos h, List.dropWhile_append_of_pos h]
  cases r with
  | nil => simp
  | cons c r => simp [hr c r rfl]

theorem digit_facts {c : Char} (h : c.isDigit = true) : jsonWs c = false ∧ c ≠ '"' ∧ c ≠ '[' ∧ c ≠ '{' ∧ c ≠ 'n' ∧ c ≠ 't' ∧ c ≠ 'f' ∧
    c ≠ ']' ∧ c ≠ '}' := by
  refine ⟨?_, ?_, ?_, ?_, ?_, ?_, ?_, ?_, ?_⟩
  · cases hw : jsonWs c with
    | false => rfl
    | true => rcases (ws_iff c).1 hw with rfl | rfl | rfl | rfl <;> exact absurd h (by decide)
  all_goals
    rintro rfl
    exact absurd h (by decide)

theorem minus_read {m i r : List Char} (hm : m = [] ∨ m = ['-']) (hi : ∃ n, NumberText i n) :
    jsonMinus (m ++ (i ++ r)) = (decide (m ≠ []), i ++ r) := by
  obtain ⟨n, h1, h2, -, -⟩ := hi
  rcases hm with rfl | rfl
  · cases i with
    | nil => exact absurd rfl h1
    | cons c t =>
      have : c ≠ '-' := by rintro rfl; exact absurd (h2 _ List.mem_cons_self) (by decide)
      simp [jsonMinus, this]
  · simp [jsonMinus]

theorem exp_read {e r : List Char}
    (he : e = [] ∨ ∃ x s d, e = x :: (s ++ d) ∧ (x = 'e' ∨ x = 'E') ∧ (s = [] ∨ s = ['+'] ∨ s = ['-']) ∧ Digits d) (hr : NumEnd r) :
    jsonExp (e ++ r) = some (decide (e ≠ []), r) := by
  rcases he with rfl | ⟨x, s, d, rfl, hx, hs, hd⟩
  · cases r with
    | nil => rfl
    | cons c r => simp [jsonExp, (hr c r rfl).2.2]
  · have hsgn : jsonExpSign (s ++ d ++ r) = d ++ r := by
      rcases hs with rfl | rfl | rfl
      · cases d with
        | nil => exact absurd rfl hd.1
        | cons c t =>
          have h1 : c ≠ '+' := by rintro rfl; exact absurd (hd.2 _ List.mem_cons_self) (by decide)
          have h2 : c ≠ '-' := by rintro rfl; exact absurd (hd.2 _ List.mem_cons_self) (by decide)
          simp [jsonExpSign, h1, h2]
      · simp [jsonExpSign]
      · simp [jsonExpSign]
    obtain ⟨k1, k2⟩ := digits_read hd.2 (fun c t e => (hr c t e).1)
    rw [List.cons_append, jsonExp, if_pos hx, hsgn, k1, k2, if_neg hd.1]
    simp

theorem frac_read {f r : List Char} (hf : f = [] ∨ ∃ d, f = '.' :: d ∧ Digits d)
    (hr : ∀ c t, r = c :: t → c.isDigit = false ∧ c ≠ '.') : jsonFrac (f ++ r) = some (decide (f ≠ []), r) := by
  rcases hf with rfl | ⟨d, rfl, hd⟩
  · cases r with
    | nil => rfl
    | cons c r => simp [jsonFrac, (hr c r rfl).2]
  · obtain ⟨k1, k2⟩ := digits_read hd.2 (fun c t e => (hr c t e).1)
    rw [List.cons_append, jsonFrac, if_pos rfl, k1, k2, if_neg hd.1]
    simp

theorem number_read {m i f e r : List Char} {n : Nat} (hm : m = [] ∨ m = ['-']) (hi : NumberText i n)
    (hf : f = [] ∨ ∃ d, f = '.' :: d ∧ Digits d)
    (he : e = [] ∨ ∃ x s d, e = x :: (s ++ d) ∧ (x = 'e' ∨ x = 'E') ∧ (s = [] ∨ s = ['+'] ∨ s = ['-']) ∧ Digits d) (hr : NumEnd r) :
    jsonNum (m ++ (i ++ (f ++ (e ++ r)))) = some (if m = [] ∧ f = [] ∧ e = [] then .num n else .real, r) := by
  have he' : ∀ c t, e ++ r = c :: t → c.isDigit = false ∧ c ≠ '.' := by
    intro c t h
    rcases he with rfl | ⟨x, s, d, rfl, hx, -⟩
    · exact ⟨(hr c t h).1, (hr c t h).2.1⟩
    · cases h
      rcases hx with rfl | rfl <;> decide
  have hf' : ∀ c t, f ++ (e ++ r) = c :: t → c.isDigit = false := by
    intro c t h
    rcases hf with rfl | ⟨d, rfl, -⟩
    · exact (he' c t h).1
    · cases h; decide
  have h0 := minus_read hm ⟨n, hi⟩ (r := f ++ (e ++ r))
  obtain ⟨h1, h2, h3, rfl⟩ := hi
  obtain ⟨k1, k2⟩ := digits_read h2 hf'
  unfold jsonNum
  simp only [h0, k1, k2]
  rw [if_neg h1, if_neg (by rintro ⟨a, b⟩; exact b (h3 a)), frac_read hf he']
  simp only
  rw [exp_read he hr]
  simp only
  congr 2
  by_cases a : m = [] <;> by_cases b : f = [] <;> by_cases c : e = [] <;> simp [a, b, c]

theorem num_read {t : List Char} {n : Nat} (h : NumberText t n) {r : List Char} (hr : NumEnd r) : jsonNum (t ++ r) = some (.num n, r) := by
  have := number_read (m := []) (f := []) (e := []) (.inl rfl) h (.inl rfl) (.inl rfl) hr
  simpa using this

theorem real_read {t : List Char} (h : RealText t) {r : List Char} (hr : NumEnd r) : jsonNum (t ++ r) = some (.real, r) := by
  obtain ⟨m, i, f, e, rfl, hm, ⟨n, hi⟩, hf, he, hne⟩ := h
  have := number_read hm hi hf he hr
  rw [if_neg hne] at this
  simpa using this

theorem dropWhile_split (t : List Char) : t = t.takeWhile Char.isDigit ++ t.dropWhile Char.isDigit :=
  List.takeWhile_append_dropWhile.symm

theorem takeWhile_digit (t : List Char) : ∀ c ∈ t.takeWhile Char.isDigit, c.isDigit = true :=
  fun c hc => List.all_eq_true.1 List.all_takeWhile c hc

theorem minus_sound (t : List Char) : ∃ m, t = m ++ (jsonMinus t).2 ∧ (m = [] ∨ m = ['-']) ∧ ((jsonMinus t).1 = true ↔ m ≠ []) := by
  cases t with
  | nil => exact ⟨[], rfl, .inl rfl, by simp [jsonMinus]⟩
  | cons c r =>
    by_cases h : c = '-'
    · subst h; exact ⟨['-'], rfl, .inr rfl, by simp [jsonMinus]⟩
    · exact ⟨[], by simp [jsonMinus, h], .inl rfl, by simp [jsonMinus, h]⟩

theorem frac_sound {t r : List Char} {b : Bool} (h : jsonFrac t = some (b, r)) :
    ∃ f, t = f ++ r ∧ (f = [] ∨ ∃ d, f = '.' :: d ∧ Digits d) ∧ (b = true ↔ f ≠ []) := by
  cases t with
  | nil => cases h; exact ⟨[], rfl, .inl rfl, by simp⟩
  | cons c u =>
    rw [jsonFrac] at h
    by_cases hc : c = '.'
    · subst hc
      rw [if_pos rfl] at h
      by_cases hd : u.takeWhile Char.isDigit = []
      · rw [if_pos hd] at h; cases h
      · rw [if_neg hd] at h
        cases h
        exact ⟨'.' :: u.takeWhile Char.isDigit, by rw [List.cons_append, ← dropWhile_split], .inr ⟨_, rfl, hd, takeWhile_digit u⟩, by simp⟩
    · rw [if_neg hc] at h
      cases h
      exact ⟨[], rfl, .inl rfl, by simp⟩

theorem expSign_sound (t : List Char) : ∃ s, t = s ++ jsonExpSign t ∧ (s = [] ∨ s = ['+'] ∨ s = ['-']) := by
  cases t with
  | nil => exact ⟨[], rfl, .inl rfl⟩
  | cons c r =>
    by_cases h : c = '+' ∨ c = '-'
    · refine ⟨[c], by simp [jsonExpSign, h], ?_⟩
      rcases h with rfl | rfl
      · exact .inr (.inl rfl)
      · exact .inr (.inr rfl)
    · exact ⟨[], by simp [jsonExpSign, h], .inl rfl⟩

theorem exp_sound {t r : List Char} {b : Bool} (h : jsonExp t = some (b, r)) :
    ∃ e, t = e ++ r ∧ (e = [] ∨ ∃ x s d, e = x :: (s ++ d) ∧ (x = 'e' ∨ x = 'E') ∧ (s = [] ∨ s = ['+'] ∨ s = ['-']) ∧ Digits d) ∧
      (b = true ↔ e ≠ []) := by
  cases t with
  | nil => cases h; exact ⟨[], rfl, .inl rfl, by simp⟩
  | cons c u =>
    rw [jsonExp] at h
    by_cases hc : c = 'e' ∨ c = 'E'
    · rw [if_pos hc] at h
      by_cases hd : (jsonExpSign u).takeWhile Char.isDigit = []
      · rw [if_pos hd] at h; cases h
      · rw [if_neg hd] at h
        cases h
        obtain ⟨s, hs, hs'⟩ := expSign_sound u
        refine ⟨c :: (s ++ (jsonExpSign u).takeWhile Char.isDigit), ?_, .inr ⟨c, s, _, rfl, hc, hs', hd, takeWhile_digit _⟩, by simp⟩
        rw [List.cons_append, List.append_assoc, ← dropWhile_split, ← hs]
    · rw [if_neg hc] at h
      cases h
      exact ⟨[], rfl, .inl rfl, by simp⟩

theorem num_sound {t r : List Char} {v : Json} (h : jsonNum t = some (v, r)) : ∃ x, t = x ++ r ∧ ValueText v x := by
  unfold jsonNum at h
  simp only at h
  obtain ⟨m, hm, hm', hmb⟩ := minus_sound t
  generalize jsonMinus t = mm at *
  obtain ⟨b, u⟩ := mm
  simp only at *
  split at h
  · cases h
  · rename_i hne
    split at h
    · cases h
    · rename_i hz
      have key : NumberText (u.takeWhile Char.isDigit) (Nat.ofDigitChars 10 (u.takeWhile Char.isDigit) 0) := by
        refine ⟨hne, takeWhile_digit u, ?_, rfl⟩
        intro h0
        exact Decidable.byContradiction fun hn => hz ⟨h0, hn⟩
      split at h
      · cases h
      · rename_i bf r1 hf
        obtain ⟨f, e1, hf', hfb⟩ := frac_sound hf
        split at h
        · cases h
        · rename_i be r2 he
          obtain ⟨e, rfl, he', heb⟩ := exp_sound he
          simp only [Option.some.injEq, Prod.mk.injEq] at h
          obtain ⟨rfl, rfl⟩ := h
          have hu : t = m ++ (u.takeWhile Char.isDigit ++ (f ++ e)) ++ r2 := by
            have := dropWhile_split u
            rw [e1] at this
            rw [hm, List.append_assoc, List.append_assoc, List.append_assoc, ← this]
          refine ⟨_, hu, ?_⟩
          by_cases hno : m = [] ∧ f = [] ∧ e = []
          · obtain ⟨rfl, rfl, rfl⟩ := hno
            have hb : (b || bf || be) = false := by simpa using ⟨⟨by simpa using hmb, by simpa using hfb⟩, by simpa using heb⟩
            rw [if_neg (by simp [hb]), ValueText]
            simpa using key
          · have hb : (b || bf || be) = true := by
              simp only [Bool.or_eq_true, hmb, hfb, heb]
              by_cases q : m = []
              · by_cases q' : f = []
                · by_cases q'' : e = []
                  · exact absurd ⟨q, q', q''⟩ hno
                  · exact .inr q''
                · exact .inl (.inr q')
              · exact .inl (.inl q)
            rw [if_pos hb, ValueText]
            exact ⟨m, _, f, e, rfl, hm', ⟨_, key⟩, hf', he', hno⟩

end MCap
