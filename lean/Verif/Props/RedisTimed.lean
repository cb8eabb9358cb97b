import Verif.Proofs.RedisTimed

/-!
# C67 with passing time
-/

namespace MCap
open Spec

/-- Missing: tokens stored twice, asked for under several site keys or removed by hand, site keys with a colon, lifetimes the server
refuses, deletions that are late when a token is checked, and checks in the very second a token ends. Otherwise, in every history of
requests, passing time and deletions of the in-memory cache, its verdicts are those of the Redis cache at the same times. -/
theorem C67_same_answers_in_time_partial (keyOf : String → String) (now : Nat) (steps : List CacheStep) (hf : TokensOnce keyOf now steps)
    (ho : ChecksOnTime now steps) : hashVerdictsIn now steps = redisVerdictsIn now steps := by
  refine twin_run hf ho steps [] _ _ rfl ⟨rfl, rfl, rfl, ?_, ?_, ?_⟩
  · intro τ h; cases h
  · intro t k h; cases h
  · intro t v e _ h; cases h

/-- In the very second a token ends the two differ, with every deletion on time: the cache may have deleted what Redis still has. -/
theorem C67_last_second_refuted : ¬ ∀ keyOf now steps, TokensOnce keyOf now steps →
    (∀ a v b, steps = a ++ .req (.verify v) :: b → CacheOnTime (cacheRun (CacheWorld.init now) a).1) →
    hashVerdictsIn now steps = redisVerdictsIn now steps := by
  intro h
  have := h (fun _ => "s") 0 [.req (.cacheResult ⟨"t", "s", 30⟩), .tick 30, .fire 0, .req (.verify ⟨"t", "s"⟩)] ?_ ?_
  · exact absurd this (by decide)
  · refine ⟨?_, ?_, by simp⟩
    · intro a m b e
      match a, e with
      | [], e => cases e; exact ⟨rfl, by decide, by decide, by decide, by simp⟩
      | [_], e | [_, _], e | [_, _, _], e | [_, _, _, _], e => simp at e
      | _ :: _ :: _ :: _ :: _ :: _, e => simp at e
    · intro v hv
      simp at hv
      subst hv
      exact ⟨rfl, by decide⟩
  · intro a v b e
    match a, e with
    | [], e | [_], e | [_, _], e => simp at e
    | [_, _, _], e =>
      cases e
      intro τ hτ
      revert τ
      decide
    | [_, _, _, _], e => simp at e
    | _ :: _ :: _ :: _ :: _ :: _, e => simp at e

/-- Two tokens: one used in time, one after its end. -/
def exTwins : List CacheStep :=
  [.req (.cacheResult ⟨"t", "s", 30⟩), .tick 5, .req (.cacheResult ⟨"u", "r", 10⟩), .req (.verify ⟨"t", "s"⟩), .tick 10, .fire 1, .tick 1,
    .req (.verify ⟨"u", "r"⟩)]

example : hashVerdictsIn 7 exTwins = [.ok true, .ok false] ∧ redisVerdictsIn 7 exTwins = [.ok true, .ok false] := by decide

example : TokensOnce (fun t => if t = "t" then "s" else "r") 7 exTwins ∧ ChecksOnTime 7 exTwins := by
  refine ⟨⟨?_, ?_, by simp [exTwins]⟩, ?_⟩
  · intro a m b e
    match a, e with
    | [], e => cases e; exact ⟨rfl, by decide, by decide, by decide, by simp⟩
    | [_, _], e => cases e; exact ⟨rfl, by decide, by decide, by decide, by simp⟩
    | [_], e | [_, _, _], e | [_, _, _, _], e | [_, _, _, _, _], e | [_, _, _, _, _, _], e | [_, _, _, _, _, _, _], e => simp [exTwins] at e
    | _ :: _ :: _ :: _ :: _ :: _ :: _ :: _ :: _, e => simp [exTwins] at e
  · intro v hv
    simp [exTwins] at hv
    rcases hv with rfl | rfl <;> exact ⟨rfl, by decide⟩
  · intro a v b e
    have split1 : ∀ (x y : CacheStep) (a1 : List CacheStep) m b1, [x, .tick 5, y] = a1 ++ .req (.cacheResult m) :: b1 →
        (a1 = [] ∧ x = .req (.cacheResult m)) ∨ (a1 = [x, .tick 5] ∧ y = .req (.cacheResult m)) := by
      intro x y a1 m b1 h
      match a1, h with
      | [], h => simp at h; exact .inl ⟨rfl, h.1⟩
      | [_], h => simp at h
      | [_, _], h => simp at h; exact .inr ⟨by rw [h.1, h.2.1], h.2.2.1⟩
      | _ :: _ :: _ :: _, h => simp at h
    match a, e with
    | [], e | [_], e | [_, _], e | [_, _, _, _], e | [_, _, _, _, _], e | [_, _, _, _, _, _], e => simp [exTwins] at e
    | [_, _, _], e =>
      cases e
      refine ⟨by intro τ hτ; revert τ; decide, ?_⟩
      rintro key due ⟨a1, m, b1, h, h1, -, rfl⟩
      rcases split1 _ _ _ _ _ h with ⟨rfl, h2⟩ | ⟨rfl, h2⟩ <;> cases h2
      · decide
      · decide
    | [_, _, _, _, _, _, _], e =>
      cases e
      refine ⟨by intro τ hτ; revert τ; decide, ?_⟩
      rintro key due ⟨a1, m, b1, h, h1, -, rfl⟩
      match a1, h with
      | [], h => cases h; decide
      | [_, _], h => cases h; decide
      | [_], h | [_, _, _], h | [_, _, _, _], h | [_, _, _, _, _], h | [_, _, _, _, _, _], h => simp at h
      | _ :: _ :: _ :: _ :: _ :: _ :: _ :: _, h => simp at h
    | _ :: _ :: _ :: _ :: _ :: _ :: _ :: _ :: _, e => simp [exTwins] at e

end MCap
