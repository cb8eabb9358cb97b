import Verif.Spec.RedisText

namespace MCap
open Spec

theorem gaveText_iff {r : RResult} {s : String} : GaveText r s ↔ r.bind RValue.readString = .ok s := by
  cases r with
  | error e =>
    constructor
    · rintro ⟨v, h, -⟩; cases h
    · intro h; cases h
  | ok v =>
    constructor
    · rintro ⟨v', hv, h⟩
      cases hv
      cases h <;> rfl
    · intro h
      refine ⟨v, rfl, ?_⟩
      cases v <;> simp only [Except.bind, RValue.readString, Except.ok.injEq, reduceCtorEq] at h <;> subst h <;> constructor

theorem gaveError_iff {r : RResult} {e : String} : GaveError r e ↔ r.bind RValue.readString = .error e := by
  cases r with
  | error x =>
    constructor
    · rintro (h | ⟨⟨v, h, -⟩, -⟩)
      · rw [h]; rfl
      · cases h
    · intro h; exact .inl (by simpa [Except.bind] using h)
  | ok v =>
    constructor
    · rintro (h | ⟨⟨v', hv, h⟩, rfl⟩)
      · cases h
      · cases hv
        cases v with
        | bulk s => exact absurd (.bulk s) (h s)
        | simple s => exact absurd (.simple s) (h s)
        | okay => exact absurd .okay (h _)
        | int i => exact absurd (.int i) (h _)
        | _ => rfl
    · intro h
      refine .inr ⟨⟨v, rfl, ?_⟩, ?_⟩
      · intro s hs
        cases hs <;> cases h
      · cases v <;> simp only [Except.bind, RValue.readString, Except.error.injEq, reduceCtorEq] at h <;> exact h.symm

end MCap
