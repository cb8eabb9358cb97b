/-! Generic list lemmas used by the proofs. -/

namespace MCap

/-- Induction on a list by appending at the end. -/
@[elab_as_elim]
theorem snocInd {α : Type} {motive : List α → Prop} (l : List α) (nil : motive [])
    (append_singleton : ∀ (l : List α) (a : α), motive l → motive (l ++ [a])) : motive l := by
  have : ∀ r : List α, motive r.reverse := by
    intro r
    induction r with
    | nil => simpa using nil
    | cons a r ih => simpa using append_singleton _ a ih
  simpa using this l.reverse

theorem filterMap_congr' {α β : Type} {f g : α → Option β} {l : List α} (h : ∀ x ∈ l, f x = g x) :
    l.filterMap f = l.filterMap g := by
  induction l with
  | nil => rfl
  | cons a r ih =>
    rw [List.filterMap_cons, List.filterMap_cons, h a (by simp), ih (fun x hx => h x (by simp [hx]))]

end MCap
