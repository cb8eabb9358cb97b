import Verif.Proofs.RedisNet
import Verif.Props.Redis

/-!
# Properties of several actors, threads and processes sharing a Redis server
-/

namespace MCap
open Spec

/-! ## C92 Tokens across processes -/

/-- C92: however many actors in however many processes share the server, and whatever fails, callers are told that a token is valid at
most as often as it was asked to be stored. -/
theorem C92_single_use (conns : List Nat) (now : Nat) (steps : List NStep) (κ : String) :
    toldValid κ (nRun (RNet.new conns now) steps).2 ≤ askedToStore κ (nRun (RNet.new conns now) steps).2 := by
  have h := netInv_run conns now steps
  have h1 := h.few κ
  have h2 := h.stores κ
  obtain ⟨ts, hts⟩ := h.tokens
  have h3 := C66_single_use now ts κ
  rw [hts] at h3
  simp only at h3
  omega

/-- Two processes race for one token: one of them gets it. -/
def raceSteps : List NStep :=
  [.send 0 (.cacheResult ⟨"t", "s", 30⟩), .take 0, .serve 0 (.ok .nil), .deliver 0 0, .send 0 (.verify ⟨"t", "s"⟩),
   .send 1 (.verify ⟨"t", "s"⟩), .take 0, .take 1, .serve 1 (.ok .nil), .serve 0 (.ok .nil), .deliver 0 1, .deliver 1 0]

example : toldValid "mcaptcha:token:s:t" (nRun (RNet.new [0, 1] 0) raceSteps).2 = 1 ∧
    askedToStore "mcaptcha:token:s:t" (nRun (RNet.new [0, 1] 0) raceSteps).2 = 1 ∧
    answeredBy 0 (atActors (nRun (RNet.new [0, 1] 0) raceSteps).2) = [0, 1] ∧
    answeredBy 1 (atActors (nRun (RNet.new [0, 1] 0) raceSteps).2) = [2] := by decide +kernel

/-- Who is told that a token is valid asked for the site it was stored for (keys without colons, see C65), and the server looked it up
within its lifetime. -/
theorem C92_bound_and_fresh (conns : List Nat) (now : Nat) (steps : List NStep) (a i : Nat) (v : VerifyCaptchaResult)
    (h : .actor (.answered a i (.verify v) (.verdict (.ok true))) ∈ (nRun (RNet.new conns now) steps).2)
    (hv : ':' ∉ v.key.toList) (hk : ∀ b j m, .actor (.sent b j (.cacheResult m)) ∈ (nRun (RNet.new conns now) steps).2 → ':' ∉ m.key.toList) :
    ∃ T b j m r t, .served i (.verify v) (.ok (.int 1)) T ∈ (nRun (RNet.new conns now) steps).2 ∧
      .actor (.sent b j (.cacheResult m)) ∈ (nRun (RNet.new conns now) steps).2 ∧
      .served j (.cacheResult m) (.ok r) t ∈ (nRun (RNet.new conns now) steps).2 ∧
      m.key = v.key ∧ m.token = v.token ∧ T ≤ t + 1000 * m.duration := by
  have inv := netInv_run conns now steps
  obtain ⟨T, hT⟩ := inv.told a i v true h
  obtain ⟨ts, hts⟩ := inv.tokens
  have back : ∀ m t, .added m t ∈ serverLog (nRun (RNet.new conns now) steps).2 →
      ∃ b j r, .actor (.sent b j (.cacheResult m)) ∈ (nRun (RNet.new conns now) steps).2 ∧
        .served j (.cacheResult m) (.ok r) t ∈ (nRun (RNet.new conns now) steps).2 := by
    intro m t hm
    obtain ⟨e, he, hm⟩ := List.mem_flatMap.1 hm
    unfold tokenEvents at hm
    split at hm
    · rename_i j c r t'
      simp only [List.mem_singleton, TokenEvent.added.injEq] at hm
      obtain ⟨rfl, rfl⟩ := hm
      obtain ⟨b, hb⟩ := (inv.served _ _ _ _ he).1
      exact ⟨b, j, r, hb, he⟩
    · simp at hm
    · split at hm <;> simp at hm
    · cases hm
  have hmem : TokenEvent.answered v (.ok true) T ∈ serverLog (nRun (RNet.new conns now) steps).2 :=
    List.mem_flatMap.2 ⟨_, hT, by simp [tokenEvents]⟩
  obtain ⟨pre, post, hp⟩ := List.append_of_mem hmem
  obtain ⟨m, t, h1, h2, h3, h4⟩ := C66_bound_to_site now ts pre v T post (by rw [hts]; exact hp) hv (by
    intro m t hm
    obtain ⟨b, j, r, hb, -⟩ := back m t (by rw [hp]; exact List.mem_append_left _ hm)
    exact hk b j m hb)
  obtain ⟨b, j, r, hb, hs⟩ := back m t (by rw [hp]; exact List.mem_append_left _ h1)
  exact ⟨T, b, j, m, r, t, hT, hb, hs, h2, h3, h4⟩

/-- The one who wins the race; no key has a colon. -/
example : .actor (.answered 1 2 (.verify ⟨"t", "s"⟩) (.verdict (.ok true))) ∈ (nRun (RNet.new [0, 1] 0) raceSteps).2 ∧ ':' ∉ "s".toList := by
  rw [← mem_atActors]; decide +kernel

/-- What the server answers is exactly whether, in the order in which it handled the commands of all processes, the token was stored,
untouched since and not expired. -/
theorem C92_server_exact (conns : List Nat) (now : Nat) (steps : List NStep) (pre : List TokenEvent) (v : VerifyCaptchaResult)
    (r : CaptchaResult Bool) (T : Nat) (post : List TokenEvent)
    (h : serverLog (nRun (RNet.new conns now) steps).2 = pre ++ .answered v r T :: post) :
    (TokenThere pre (tokenKey v.key v.token) T → r = .ok true) ∧ (¬ TokenThere pre (tokenKey v.key v.token) T → r = .ok false) := by
  obtain ⟨ts, hts⟩ := (netInv_run conns now steps).tokens
  exact C66_verdict now ts pre v r T post (by rw [hts]; exact h)

example : serverLog (nRun (RNet.new [0, 1] 0) raceSteps).2 =
    [.added ⟨"t", "s", 30⟩ 0] ++ .answered ⟨"t", "s"⟩ (.ok true) 0 :: [.answered ⟨"t", "s"⟩ (.ok false) 0] := by decide +kernel

/-! ## C93 Repeating a validation -/

/-- The server deletes the token, the connection fails, the caller tries again. -/
def lostSteps : List NStep :=
  [.send 0 (.cacheResult ⟨"t", "s", 30⟩), .take 0, .serve 0 (.ok .nil), .deliver 0 0, .send 0 (.verify ⟨"t", "s"⟩), .take 0,
   .serve 0 (.ok .nil), .fail 0 "broken pipe", .send 0 (.verify ⟨"t", "s"⟩), .take 0, .serve 0 (.ok .nil), .deliver 0 1]

/-- False as stated: validation deletes the token on the server before the answer is known to arrive, so after a failure of the
connection the caller is told that a token nobody has used is invalid. -/
theorem C93_repeat_refuted :
    ¬ ∀ conns now steps a i v, .actor (.answered a i (.verify v) (.verdict (.ok false))) ∈ (nRun (RNet.new conns now) steps).2 →
      1 ≤ askedToStore (tokenKey v.key v.token) (nRun (RNet.new conns now) steps).2 → (∀ ms, .tick ms ∉ steps) →
      1 ≤ toldValid (tokenKey v.key v.token) (nRun (RNet.new conns now) steps).2 := by
  intro h
  have := h [0] 0 lostSteps 0 2 ⟨"t", "s"⟩ ?_ (by decide +kernel) (by intro ms hm; simp [lostSteps] at hm)
  · exact absurd this (by decide +kernel)
  · rw [← mem_atActors]; decide +kernel

/-- Missing: lost replies. A caller told that a token is invalid is told so by the server, for which, in the order in which it handled
the commands, the token was never stored, was taken by an earlier validation, or had expired. -/
theorem C93_repeat_partial (conns : List Nat) (now : Nat) (steps : List NStep) (a i : Nat) (v : VerifyCaptchaResult)
    (h : .actor (.answered a i (.verify v) (.verdict (.ok false))) ∈ (nRun (RNet.new conns now) steps).2) :
    ∃ T pre post, .served i (.verify v) (.ok (.int 0)) T ∈ (nRun (RNet.new conns now) steps).2 ∧
      serverLog (nRun (RNet.new conns now) steps).2 = pre ++ .answered v (.ok false) T :: post ∧
      ¬ TokenThere pre (tokenKey v.key v.token) T := by
  obtain ⟨T, hT⟩ := (netInv_run conns now steps).told a i v false h
  have hmem : TokenEvent.answered v (.ok false) T ∈ serverLog (nRun (RNet.new conns now) steps).2 :=
    List.mem_flatMap.2 ⟨_, hT, by simp [tokenEvents]⟩
  obtain ⟨pre, post, hp⟩ := List.append_of_mem hmem
  refine ⟨T, pre, post, hT, hp, ?_⟩
  intro ht
  have := (C92_server_exact conns now steps pre v _ T post hp).1 ht
  cases this

/-- The one who loses the race. -/
example : .actor (.answered 0 1 (.verify ⟨"t", "s"⟩) (.verdict (.ok false))) ∈ (nRun (RNet.new [0, 1] 0) raceSteps).2 := by
  rw [← mem_atActors]; decide +kernel

end MCap
