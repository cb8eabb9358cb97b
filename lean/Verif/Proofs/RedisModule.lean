import Verif.Spec.Redis

/-!
# The search for the module name

`is_module_loaded` looks for the module name in the debug text of the entries. That text has it only if a string inside has it.
-/

namespace MCap
open Spec
open RedisClient

/-- The name searched for. -/
abbrev modPat : List Char := "mcaptcha_cache".toList

theorem containsStr_iff (pat t : List Char) : containsStr pat t = true ↔ pat <:+: t := by
  induction t with
  | nil => simp [containsStr]
  | cons c r ih => rw [containsStr, Bool.or_eq_true, ih, List.infix_cons_iff, List.isPrefixOf_iff_prefix]

theorem modPat_cons : modPat = 'm' :: "captcha_cache".toList := rfl

/-- Characters other than the first one of the name can be dropped. -/
theorem infix_drop {l t : List Char} (h : modPat <:+: l ++ t) (hl : 'm' ∉ l) : modPat <:+: t := by
  induction l with
  | nil => exact h
  | cons c l ih =>
    rw [List.cons_append, List.infix_cons_iff] at h
    rcases h with h | h
    · rw [modPat_cons, List.cons_prefix_cons] at h
      exact absurd (by rw [h.1]; exact List.mem_cons_self) hl
    · exact ih h (fun hm => hl (List.mem_cons_of_mem _ hm))

theorem infix_none {l : List Char} (hl : 'm' ∉ l) : ¬ modPat <:+: l := by
  intro h
  have : modPat <:+: l ++ [] := by simpa using h
  have := infix_drop this hl
  simp [modPat_cons] at this

/-- A character that is not in the name separates. -/
theorem infix_split {pat a b : List Char} {c : Char} (h : pat <:+: a ++ c :: b) (hc : c ∉ pat) : pat <:+: a ∨ pat <:+: b := by
  obtain ⟨s, t, h⟩ := h
  rw [List.append_eq_append_iff] at h
  rcases h with ⟨u, hu, h⟩ | ⟨u, hu, h⟩
  · exact .inl ⟨s, u, hu.symm⟩
  · cases u with
    | nil =>
      refine .inl ⟨s, [], ?_⟩
      rw [List.append_nil] at *
      exact hu
    | cons x u =>
      rw [List.cons_append, List.cons.injEq] at h
      obtain ⟨rfl, h⟩ := h
      rw [List.append_eq_append_iff] at hu
      rcases hu with ⟨w, hw, hp⟩ | ⟨w, hw, hp⟩
      · exact absurd (by rw [hp]; simp) hc
      · cases w with
        | nil => exact absurd (by rw [List.nil_append] at hp; rw [← hp]; exact List.mem_cons_self) hc
        | cons y w =>
          rw [List.cons_append, List.cons.injEq] at hp
          refine .inr ⟨w, t, ?_⟩
          rw [h, hp.2]
          try rw [List.append_assoc]

theorem hexDigits_m (n : Nat) : 'm' ∉ Nat.toDigits 16 n := by
  induction n using Nat.strongRecOn with
  | ind n ih =>
    have all : ∀ i : Fin 16, 'm' ≠ Nat.digitChar i.val := by decide
    rw [Nat.toDigits_eq_if (by omega)]
    split
    · rename_i h
      simpa using all ⟨n, h⟩
    · rename_i h
      simp only [List.mem_append, List.mem_singleton, not_or]
      exact ⟨ih _ (by omega), all ⟨n % 16, Nat.mod_lt _ (by omega)⟩⟩

/-- An escape is the character itself, or starts with a backslash and does not contain the first letter of the name. -/
theorem escape_cases (printable : Char → Bool) (c : Char) : escapeDebug printable c = [c] ∨ ∃ e, escapeDebug printable c = '\\' :: e ∧ 'm' ∉ e := by
  unfold escapeDebug
  split
  · exact .inr ⟨_, rfl, by decide⟩
  split
  · exact .inr ⟨_, rfl, by decide⟩
  split
  · exact .inr ⟨_, rfl, by decide⟩
  split
  · exact .inr ⟨_, rfl, by decide⟩
  split
  · exact .inr ⟨_, rfl, by decide⟩
  split
  · exact .inr ⟨_, rfl, by decide⟩
  split
  · exact .inl rfl
  · refine .inr ⟨_, rfl, ?_⟩
    have := hexDigits_m c.toNat
    simp [this]

theorem prefix_unescape (printable : Char → Bool) (p s : List Char) (hb : '\\' ∉ p) (h : p <+: s.flatMap (escapeDebug printable)) : p <+: s := by
  induction p generalizing s with
  | nil => exact List.nil_prefix
  | cons x p ih =>
    cases s with
    | nil => simp at h
    | cons c s =>
      rw [List.flatMap_cons] at h
      rcases escape_cases printable c with e | ⟨t, e, -⟩
      · rw [e, List.singleton_append, List.cons_prefix_cons] at h
        rw [List.cons_prefix_cons]
        exact ⟨h.1, ih s (fun hm => hb (List.mem_cons_of_mem _ hm)) h.2⟩
      · rw [e, List.cons_append, List.cons_prefix_cons] at h
        exact absurd (by rw [h.1]; exact List.mem_cons_self) hb

theorem infix_unescape (printable : Char → Bool) (s : List Char) (h : modPat <:+: s.flatMap (escapeDebug printable)) : modPat <:+: s := by
  induction s with
  | nil => simpa using h
  | cons c s ih =>
    rw [List.flatMap_cons] at h
    rcases escape_cases printable c with e | ⟨t, e, ht⟩
    · rw [e, List.singleton_append, List.infix_cons_iff] at h
      rw [List.infix_cons_iff]
      rcases h with h | h
      · rw [modPat_cons, List.cons_prefix_cons] at h
        refine .inl ?_
        rw [modPat_cons, List.cons_prefix_cons]
        exact ⟨h.1, prefix_unescape printable _ s (by decide) h.2⟩
      · exact .inr (ih h)
    · rw [e] at h
      have : 'm' ∉ '\\' :: t := by simp [ht]
      exact List.infix_cons_iff.2 (.inr (ih (infix_drop h this)))

theorem debugStr_infix (printable : Char → Bool) (s : String) (h : modPat <:+: debugStr printable s) : ∃ a b : String, s = a ++ "mcaptcha_cache" ++ b := by
  unfold debugStr at h
  have h : modPat <:+: ['"'] ++ (s.toList.flatMap (escapeDebug printable) ++ '"' :: []) := h
  have h := infix_drop h (by decide)
  rcases infix_split h (by decide) with h | h
  · obtain ⟨a, b, hab⟩ := infix_unescape printable _ h
    refine ⟨String.ofList a, String.ofList b, String.toList_injective ?_⟩
    simp only [String.toList_append, String.toList_ofList]
    exact hab.symm
  · simp [modPat_cons] at h

theorem mentions_string (printable : Char → Bool) (f g : List Char) (s : String) (hf : ¬ modPat <:+: f) (hg : ¬ modPat <:+: g)
    (h : modPat <:+: f ++ (debugStr printable s ++ g)) : ∃ a b : String, s = a ++ "mcaptcha_cache" ++ b := by
  unfold debugStr at h
  rw [List.cons_append] at h
  rcases infix_split h (by decide) with h | h
  · exact absurd h hf
  · rw [List.append_assoc, List.singleton_append] at h
    rcases infix_split h (by decide) with h | h
    · exact debugStr_infix printable s (by
        unfold debugStr
        obtain ⟨a, b, hab⟩ := h
        exact ⟨'"' :: a, b ++ ['"'], by rw [← hab]; simp⟩)
    · exact absurd h hg

theorem toString_int_m (i : Int) : 'm' ∉ (toString i).toList := by
  have hn : ∀ n : Nat, 'm' ∉ (toString n).toList := by
    intro n hm
    have e : (toString n).toList = Nat.toDigits 10 n := by simp [toString, Nat.repr]
    rw [e] at hm
    have := Nat.isDigit_of_mem_toDigits (by omega) (by omega) hm
    exact absurd this (by decide)
  cases i with
  | ofNat n => exact hn n
  | negSucc n =>
    have e : toString (Int.negSucc n) = "-" ++ toString (n + 1) := rfl
    rw [e, String.toList_append]
    simp only [List.mem_append, not_or]
    exact ⟨by decide, hn (n + 1)⟩

theorem debug_nil (printable : Char → Bool) : debugText printable .nil = "nil".toList := rfl
theorem debug_int (printable : Char → Bool) (i : Int) : debugText printable (.int i) = "int(".toList ++ (toString i).toList ++ ")".toList := rfl
theorem debug_bulk (printable : Char → Bool) (s : String) :
    debugText printable (.bulk s) = "bulk-string('".toList ++ debugStr printable s ++ "')".toList := rfl
theorem debug_binary (printable : Char → Bool) : debugText printable .binary = "binary-data([])".toList := rfl
theorem debug_array (printable : Char → Bool) (vs : List RValue) :
    debugText printable (.array vs) = "array([".toList ++ debugTexts printable vs ++ "])".toList := rfl
theorem debug_simple (printable : Char → Bool) (s : String) :
    debugText printable (.simple s) = "simple-string(".toList ++ debugStr printable s ++ ")".toList := rfl
theorem debug_okay (printable : Char → Bool) : debugText printable .okay = "ok".toList := rfl
theorem debugs_nil (printable : Char → Bool) : debugTexts printable [] = [] := rfl
theorem debugs_one (printable : Char → Bool) (v : RValue) : debugTexts printable [v] = debugText printable v ++ [] := rfl
theorem debugs_more (printable : Char → Bool) (v w : RValue) (r : List RValue) :
    debugTexts printable (v :: w :: r) = debugText printable v ++ ',' :: ([' '] ++ debugTexts printable (w :: r)) := rfl

mutual
theorem mentions_of (printable : Char → Bool) : (v : RValue) → modPat <:+: debugText printable v → Mentions "mcaptcha_cache" v
  | .nil => by rw [debug_nil]; intro h; exact absurd h (infix_none (by decide))
  | .int i => by
    rw [debug_int]
    intro h
    refine absurd h (infix_none ?_)
    simp only [List.mem_append, not_or]
    exact ⟨⟨by decide, toString_int_m i⟩, by decide⟩
  | .bulk s => by
    rw [debug_bulk]
    intro h
    rw [List.append_assoc] at h
    obtain ⟨a, b, rfl⟩ := mentions_string printable _ _ s (infix_none (by decide)) (infix_none (by decide)) h
    exact .bulk a b
  | .binary => by rw [debug_binary]; intro h; exact absurd h (infix_none (by decide))
  | .array vs => by
    rw [debug_array]
    intro h
    rw [List.append_assoc] at h
    have h := infix_drop h (by decide)
    have h : modPat <:+: debugTexts printable vs ++ ']' :: ")".toList := h
    rcases infix_split h (by decide) with h | h
    · obtain ⟨v, hv, hm⟩ := mentions_in printable vs h
      exact .inside vs v hv hm
    · exact absurd h (infix_none (by decide))
  | .simple s => by
    rw [debug_simple]
    intro h
    rw [List.append_assoc] at h
    obtain ⟨a, b, rfl⟩ := mentions_string printable _ _ s (by rw [← containsStr_iff]; decide) (infix_none (by decide)) h
    exact .simple a b
  | .okay => by rw [debug_okay]; intro h; exact absurd h (infix_none (by decide))

theorem mentions_in (printable : Char → Bool) : (vs : List RValue) → modPat <:+: debugTexts printable vs → ∃ v ∈ vs, Mentions "mcaptcha_cache" v
  | [] => by rw [debugs_nil]; intro h; exact absurd h (infix_none (by decide))
  | [v] => by
    rw [debugs_one]
    intro h
    simp only [List.append_nil] at h
    exact ⟨v, by simp, mentions_of printable v h⟩
  | v :: w :: r => by
    rw [debugs_more]
    intro h
    rcases infix_split h (by decide) with h | h
    · exact ⟨v, by simp, mentions_of printable v h⟩
    · obtain ⟨x, hx, hm⟩ := mentions_in printable (w :: r) (infix_drop h (by decide))
      exact ⟨x, List.mem_cons_of_mem _ hx, hm⟩
end

end MCap
