import Verif.Model.Core

namespace MCap.AMap

variable {κ ν : Type} [DecidableEq κ]

@[simp] theorem get_nil (k : κ) : get ([] : AMap κ ν) k = none := rfl

theorem get_cons (k' k : κ) (v : ν) (r : AMap κ ν) :
    get ((k', v) :: r : AMap κ ν) k = if k' = k then some v else get r k := rfl

theorem get_insert (m : AMap κ ν) (k k' : κ) (v : ν) :
    (m.insert k v).get k' = if k = k' then some v else m.get k' := by
  induction m with
  | nil => simp [insert, get]
  | cons e r ih =>
    obtain ⟨a, b⟩ := e
    simp only [insert]
    split
    · rename_i h; subst h
      simp only [get]
      split <;> rfl
    · rename_i h
      simp only [get, ih]
      by_cases h1 : a = k'
      · subst h1; rw [if_pos rfl, if_neg (fun e => h e.symm), if_pos rfl]
      · rw [if_neg h1, if_neg h1]

@[simp] theorem get_insert_self (m : AMap κ ν) (k : κ) (v : ν) : (m.insert k v).get k = some v := by
  rw [get_insert, if_pos rfl]

theorem get_insert_ne (m : AMap κ ν) (k k' : κ) (v : ν) (h : k ≠ k') : (m.insert k v).get k' = m.get k' := by
  rw [get_insert, if_neg h]

theorem get_erase (m : AMap κ ν) (k k' : κ) : (m.erase k).get k' = if k = k' then none else m.get k' := by
  induction m with
  | nil => simp [erase, get]
  | cons e r ih =>
    obtain ⟨a, b⟩ := e
    simp only [erase, List.filter_cons] at ih ⊢
    by_cases h : a = k
    · subst h
      simp only [ne_eq, not_true_eq_false, decide_false, Bool.false_eq_true, if_false, ih, get]
      split <;> rfl
    · rw [if_pos (by simp [h])]
      simp only [get, ih]
      by_cases h1 : a = k'
      · subst h1; rw [if_pos rfl, if_pos rfl, if_neg (fun e => h e.symm)]
      · rw [if_neg h1, if_neg h1]

@[simp] theorem get_erase_self (m : AMap κ ν) (k : κ) : (m.erase k).get k = none := by
  rw [get_erase, if_pos rfl]

theorem get_erase_ne (m : AMap κ ν) (k k' : κ) (h : k ≠ k') : (m.erase k).get k' = m.get k' := by
  rw [get_erase, if_neg h]

theorem mem_of_get {m : AMap κ ν} {k : κ} {v : ν} (h : m.get k = some v) : (k, v) ∈ m := by
  induction m with
  | nil => simp at h
  | cons e r ih =>
    obtain ⟨a, b⟩ := e
    simp only [get] at h
    split at h
    · rename_i hk; subst hk; cases h; exact List.mem_cons_self
    · exact List.mem_cons_of_mem _ (ih h)

theorem get_of_mem {m : AMap κ ν} {k : κ} {v : ν} (hn : m.keys.Nodup) (h : (k, v) ∈ m) : m.get k = some v := by
  induction m with
  | nil => cases h
  | cons e r ih =>
    obtain ⟨a, b⟩ := e
    simp only [keys, List.map_cons, List.nodup_cons] at hn
    rcases List.mem_cons.1 h with h | h
    · cases h; simp [get]
    · have : a ≠ k := by
        intro e; subst e
        exact hn.1 (List.mem_map.2 ⟨_, h, rfl⟩)
      simp only [get]
      rw [if_neg this]
      exact ih hn.2 h

theorem get_none_iff (m : AMap κ ν) (k : κ) : m.get k = none ↔ k ∉ m.keys := by
  induction m with
  | nil => simp [keys]
  | cons e r ih =>
    obtain ⟨a, b⟩ := e
    simp only [get, keys, List.map_cons, List.mem_cons] at ih ⊢
    by_cases h : a = k
    · subst h; simp
    · rw [if_neg h, ih]
      constructor
      · intro hn hc
        rcases hc with hc | hc
        · exact h hc.symm
        · exact hn hc
      · intro hn hc; exact hn (Or.inr hc)

theorem mem_keys_insert (m : AMap κ ν) (k x : κ) (v : ν) : x ∈ (m.insert k v).keys ↔ x = k ∨ x ∈ m.keys := by
  have h1 := get_none_iff (m.insert k v) x
  have h2 := get_none_iff m x
  rw [get_insert] at h1
  by_cases h : k = x
  · subst h
    rw [if_pos rfl] at h1
    simp only [reduceCtorEq, false_iff, Classical.not_not] at h1
    exact ⟨fun _ => Or.inl rfl, fun _ => h1⟩
  · rw [if_neg h] at h1
    have : x ∉ (m.insert k v).keys ↔ x ∉ m.keys := h1.symm.trans h2
    constructor
    · intro hx
      exact Or.inr (Classical.byContradiction fun hc => (this.2 hc) hx)
    · rintro (hx | hx)
      · exact absurd hx.symm h
      · exact Classical.byContradiction fun hc => (this.1 hc) hx

theorem nodup_insert (m : AMap κ ν) (k : κ) (v : ν) (h : m.keys.Nodup) : (m.insert k v).keys.Nodup := by
  induction m with
  | nil => simp [insert, keys]
  | cons e r ih =>
    obtain ⟨a, b⟩ := e
    simp only [keys, List.map_cons, List.nodup_cons] at h
    simp only [insert]
    split
    · rename_i hk; subst hk
      simp only [keys, List.map_cons, List.nodup_cons]
      exact h
    · rename_i hk
      simp only [keys, List.map_cons, List.nodup_cons]
      refine ⟨?_, ih h.2⟩
      intro hc
      rcases (mem_keys_insert r k a v).1 hc with hc | hc
      · exact hk hc
      · exact h.1 hc

theorem nodup_erase (m : AMap κ ν) (k : κ) (h : m.keys.Nodup) : (m.erase k).keys.Nodup := by
  unfold keys erase
  exact List.Nodup.sublist (List.Sublist.map _ List.filter_sublist) h

theorem mem_erase (m : AMap κ ν) (k : κ) (e : κ × ν) : e ∈ m.erase k ↔ e ∈ m ∧ e.1 ≠ k := by
  simp [erase]

theorem keys_erase (m : AMap κ ν) (k x : κ) : x ∈ (m.erase k).keys ↔ x ∈ m.keys ∧ x ≠ k := by
  simp only [keys, List.mem_map, mem_erase]
  constructor
  · rintro ⟨e, ⟨h1, h2⟩, rfl⟩; exact ⟨⟨e, h1, rfl⟩, h2⟩
  · rintro ⟨⟨e, h1, rfl⟩, h2⟩; exact ⟨e, ⟨h1, h2⟩, rfl⟩

end MCap.AMap
