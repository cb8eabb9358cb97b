import Verif.Proofs.ListAux

/-! ### Going around a list -/

namespace MCap

/-- `k` steps around `l` from position `c`. -/
def around {α : Type} (l : List α) (c k : Nat) : List (Option α) := (List.range k).map fun i => l[(c + i) % l.length]?

theorem around_add {α : Type} (l : List α) (c a b : Nat) : around l c (a + b) = around l c a ++ around l (c + a) b := by
  simp only [around, List.range_add, List.map_append, List.map_map]
  congr 1
  apply List.map_congr_left
  intro i _
  simp [Nat.add_assoc]

theorem around_full_zero {α : Type} (l : List α) : around l 0 l.length = l.map some := by
  apply List.ext_getElem?
  intro i
  simp only [around, List.getElem?_map]
  by_cases h : i < l.length
  · rw [List.getElem?_range h, Option.map_some, Nat.zero_add, Nat.mod_eq_of_lt h, List.getElem?_eq_getElem h]; rfl
  · rw [List.getElem?_eq_none (by simpa using h), List.getElem?_eq_none (by simpa using h)]; rfl

theorem around_count_succ {α : Type} [DecidableEq α] (l : List α) (c : Nat) (x : Option α) :
    (around l (c + 1) l.length).count x = (around l c l.length).count x := by
  have h1 := congrArg (List.count x) (around_add l c 1 l.length)
  have h2 := congrArg (List.count x) (around_add l c l.length 1)
  rw [Nat.add_comm 1, h2, List.count_append, List.count_append] at h1
  have h3 : around l (c + l.length) 1 = around l c 1 := by simp [around]
  rw [h3] at h1
  omega

theorem count_map_some {α : Type} [DecidableEq α] (l : List α) (x : α) : (l.map some).count (some x) = l.count x := by
  induction l with
  | nil => rfl
  | cons a r ih => rw [List.map_cons, List.count_cons, List.count_cons, ih]; simp

theorem around_length {α : Type} (l : List α) (c k : Nat) : (around l c k).length = k := by simp [around]

/-- A window of a walk is a walk. -/
theorem around_window {α : Type} (l : List α) (c k i m : Nat) (h : i + m ≤ k) :
    ((around l c k).drop i).take m = around l (c + i) m := by
  have : k = i + (m + (k - i - m)) := by omega
  rw [this, around_add, around_add]
  rw [List.drop_left' (around_length l c i), List.take_left' (around_length l _ m)]

/-- Once around: everyone exactly once. -/
theorem around_once {α : Type} [DecidableEq α] (l : List α) (hn : l.Nodup) (c : Nat) (x : α) (hx : x ∈ l) :
    (around l c l.length).count (some x) = 1 := by
  induction c with
  | zero =>
    rw [around_full_zero]
    rw [count_map_some]
    exact List.Nodup.count hn |>.trans (if_pos hx)
  | succ c ih => rw [around_count_succ, ih]

theorem around_times {α : Type} [DecidableEq α] (l : List α) (hn : l.Nodup) (c m : Nat) (x : α) (hx : x ∈ l) :
    (around l c (l.length * m)).count (some x) = m := by
  induction m with
  | zero => simp [around]
  | succ m ih => rw [Nat.mul_succ, around_add, List.count_append, ih, around_once l hn _ x hx]

theorem around_ge {α : Type} [DecidableEq α] (l : List α) (hn : l.Nodup) (c k m : Nat) (x : α) (hx : x ∈ l) (h : l.length * m ≤ k) :
    m ≤ (around l c k).count (some x) := by
  have : k = l.length * m + (k - l.length * m) := by omega
  rw [this, around_add, List.count_append, around_times l hn c m x hx]
  omega

end MCap
