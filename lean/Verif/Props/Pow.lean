import Verif.Proofs.Pow
import Verif.Props.MCaptcha
import Verif.Model.Cache

/-!
# C43-C46: proofs of work and random strings
-/

namespace MCap
open Spec

/-- A proof-of-work library for the examples: a result suffices if at least as long as the factor, and a proof is valid if its
nonce is the length of the string. -/
def exLib : PowLib where
  salt := "salt"
  isSufficientDifficulty p d := decide (d ≤ p.result.length)
  isValidProof p s := decide (p.nonce = s.length)

/-- A good job, an insufficient one, an invalid one and one that is both. -/
def exGood : QueuedWork := ⟨exLib, ⟨"abc", 4⟩, "chal", 2⟩
def exWeak : QueuedWork := ⟨exLib, ⟨"abc", 4⟩, "chal", 20⟩
def exInvalid : QueuedWork := ⟨exLib, ⟨"abc", 5⟩, "chal", 2⟩
def exBad : QueuedWork := ⟨exLib, ⟨"abc", 5⟩, "chal", 20⟩

/-- C43. Under every interleaving of the worker, the polling verifier and disappearing parties: a verdict the verifier has read
is `true` iff the proof has sufficient difficulty and is valid; the channel is found disconnected only if the job was dropped
without being run; what was read never changes. -/
theorem C43_verdict_exact (q : QueuedWork) (steps later : List ChannelStep) :
    let c := channelRun q VerdictChannel.new steps
    (∀ b, c.reading = .verdict b → (b = true ↔ GoodProof q)) ∧
    (c.reading = .disconnected → c.pc = .dropped false) ∧
    (c.reading ≠ .none → (channelRun q c later).reading = c.reading) := by
  intro c
  have h := chan_run q _ steps (chan_init q)
  exact ⟨fun b e => head_true_iff q b (h.verd b e), h.disc, reading_stable q c later⟩

/-- C43. The verdict does arrive: once the worker has run the job, the next poll of a verifier that is still waiting reads it. -/
theorem C43_verdict_arrives (q : QueuedWork) (steps : List ChannelStep) :
    let c := channelRun q VerdictChannel.new steps
    (c.pc = .finished ∨ c.pc = .dropped true) → c.reading = .none → c.rxAlive = true →
      ∃ b, (channelStep q c .poll).reading = .verdict b := by
  intro c hpc hrd hrx
  have h := chan_run q _ steps (chan_init q)
  have hl : readList c.reading ++ c.buf = sentUpTo q c.pc := h.live hrx
  have hne : c.buf ≠ [] := by
    intro e
    rw [hrd, e] at hl
    rcases hpc with hpc | hpc <;> rw [hpc] at hl <;> simp [readList, sentUpTo] at hl
  cases hb : c.buf with
  | nil => exact absurd hb hne
  | cons b r => exact ⟨b, by simp [channelStep, VerdictChannel.poll, hrd, hrx, hb]⟩

/-- All four kinds of proofs, read at different moments. -/
example : (channelRun exGood VerdictChannel.new [.poll, .work, .work, .poll, .work, .poll, .work]).reading = .verdict true := by decide
example : (channelRun exWeak VerdictChannel.new [.work, .work, .poll, .work, .work]).reading = .verdict false := by decide
example : (channelRun exInvalid VerdictChannel.new [.work, .work, .work, .work, .work, .poll]).reading = .verdict false := by decide
example : (channelRun exBad VerdictChannel.new [.work, .work, .work, .work, .work, .work, .work, .poll]).reading = .verdict false := by decide
example : GoodProof exGood ∧ ¬ GoodProof exWeak ∧ ¬ GoodProof exInvalid ∧ ¬ GoodProof exBad := by
  refine ⟨⟨by decide, by decide⟩, fun h => absurd h.1 (by decide), fun h => absurd h.2 (by decide), fun h => absurd h.1 (by decide)⟩
example : (channelRun exGood VerdictChannel.new [.dropJob, .poll]).reading = .disconnected := by decide

/-- C44. Once the verifier has read a verdict or is gone, the worker is never blocked, and at most six of its own steps finish
the job; it stays so under every interleaving. -/
theorem C44_worker_finishes (q : QueuedWork) (steps later : List ChannelStep)
    (h : VerifierDone (channelRun q VerdictChannel.new steps)) :
    let c := channelRun q (channelRun q VerdictChannel.new steps) later
    VerifierDone c ∧
    (WorkerDone c ∨ ∃ c', c.workerStep q = some c') ∧
    ∃ k, k ≤ 6 ∧ WorkerDone (channelRun q c (works k)) := by
  intro c
  have hinv : ChanInv q c := chan_run q _ later (chan_run q _ steps (chan_init q))
  have hstep : ∀ (d : VerdictChannel) (s : ChannelStep), VerifierDone d → VerifierDone (channelStep q d s) := by
    intro d s hd
    rcases hd with hd | hd
    · refine .inl ?_
      have := reading_stable q d [s] hd
      rw [show channelStep q d s = channelRun q d [s] from rfl, this]; exact hd
    · refine .inr ?_
      cases s with
      | work =>
        simp only [channelStep]
        cases hw : d.workerStep q with
        | none => exact hd
        | some d' =>
          simp only [VerdictChannel.workerStep, VerdictChannel.send, hd, if_true] at hw
          split at hw <;> (try split at hw) <;> cases hw <;> rfl
      | poll => simp [channelStep, VerdictChannel.poll, hd]
      | dropRx => rfl
      | dropJob => simp only [channelStep, VerdictChannel.dropJob]; split <;> exact hd
  have hv : VerifierDone c := by
    show VerifierDone (channelRun q (channelRun q VerdictChannel.new steps) later)
    generalize channelRun q VerdictChannel.new steps = d at h ⊢
    clear c hinv
    induction later generalizing d with
    | nil => exact h
    | cons s r ih => exact ih _ (hstep d s h)
  refine ⟨hv, ?_, ?_⟩
  · by_cases hp : ∃ r, c.pc = .dropped r
    · exact .inl (.inr hp)
    · obtain ⟨c', hc', -⟩ := work_progress q c hinv hv (fun r e => hp ⟨r, e⟩)
      exact .inr ⟨c', hc'⟩
  · obtain ⟨k, hk, r, hr⟩ := work_finishes q 6 c hinv hv (by cases c.pc <;> simp [rank])
    exact ⟨k, hk, .inr ⟨r, hr⟩⟩

/-- C44. A worker can only be blocked by a verifier that is alive, has read nothing and has a full channel to read from. -/
theorem C44_blocked_only_by_unread (q : QueuedWork) (steps : List ChannelStep) :
    let c := channelRun q VerdictChannel.new steps
    c.workerStep q = none → (∀ r, c.pc ≠ .dropped r) →
      c.rxAlive = true ∧ c.reading = .none ∧ c.buf.length = 2 ∧ ∃ b, (channelStep q c .poll).reading = .verdict b := by
  intro c hb hp
  have hinv : ChanInv q c := chan_run q _ steps (chan_init q)
  have hnv : ¬ VerifierDone c := by
    intro hv
    obtain ⟨c', hc', -⟩ := work_progress q c hinv hv hp
    rw [hb] at hc'; cases hc'
  have hrx : c.rxAlive = true := by
    cases e : c.rxAlive with
    | true => rfl
    | false => exact absurd (.inr e) hnv
  have hrd : c.reading = .none := by
    cases e : c.reading with
    | none => rfl
    | _ => exact absurd (.inl (by simp [e])) hnv
  have hl := hinv.live hrx
  have hfull : ¬ c.buf.length < 2 := by
    intro hlt
    unfold VerdictChannel.workerStep VerdictChannel.send at hb
    cases hpc : c.pc with
    | dropped r => exact hp r hpc
    | start => rw [hpc] at hb; simp only at hb; split at hb <;> cases hb
    | checkValid => rw [hpc] at hb; simp only at hb; split at hb <;> cases hb
    | finished => rw [hpc] at hb; cases hb
    | sendInsufficient => rw [hpc] at hb; simp [hrx, VerdictChannel.capacity, hlt] at hb
    | sendInvalid => rw [hpc] at hb; simp [hrx, VerdictChannel.capacity, hlt] at hb
    | sendTrue => rw [hpc] at hb; simp [hrx, VerdictChannel.capacity, hlt] at hb
  have hle : c.buf.length ≤ 2 := by
    rw [hrd] at hl
    simp only [readList, List.nil_append] at hl
    have hD : (complaintD q).length ≤ 1 := by unfold complaintD; split <;> simp
    have hV : (complaintV q).length ≤ 1 := by unfold complaintV; split <;> simp
    cases hpc : c.pc with
    | dropped r => exact absurd hpc (hp r)
    | finished => unfold VerdictChannel.workerStep at hb; rw [hpc] at hb; cases hb
    | _ => rw [hl, hpc]; simp [sentUpTo] <;> omega
  refine ⟨hrx, hrd, by omega, ?_⟩
  cases hbuf : c.buf with
  | nil => rw [hbuf] at hfull; simp at hfull
  | cons b r => exact ⟨b, by simp [channelStep, VerdictChannel.poll, hrd, hrx, hbuf]⟩

/-- A proof that is both insufficient and invalid blocks the worker on its third message until the verdict is read. -/
example : let c := channelRun exBad VerdictChannel.new [.work, .work, .work, .work]
    c.workerStep exBad = none ∧ c.pc = .sendTrue ∧
    (channelRun exBad c [.poll, .work, .work]).pc = .dropped true ∧
    (channelRun exBad c [.dropRx, .work, .work]).pc = .dropped true := by decide
example : VerifierDone (channelRun exBad VerdictChannel.new [.work, .work, .poll]) := .inl (by decide)

/-- C45. For every factor from 1 up the documented target exists and is a 128-bit number; a higher factor never has a lower
target nor accepts a result the lower one refuses; factor 1 accepts everything; factor 0 is a division by zero. -/
theorem C45_target (f g : Nat) (hf : 0 < f) (hfg : f ≤ g) :
    (∃ t u, difficultyTarget f = .ret t ∧ difficultyTarget g = .ret u ∧ t ≤ u ∧ u < 2 ^ 128) ∧
    (∀ r, acceptedAt g r → acceptedAt f r) ∧
    (∀ r, acceptedAt 1 r) ∧
    difficultyTarget 0 = .panic .divisionByZero := by
  have hd : u128Max / g ≤ u128Max / f := Nat.div_le_div_left hfg hf
  have hg : g ≠ 0 := by omega
  have h1 : difficultyTarget f = .ret (u128Max - u128Max / f) := by simp [difficultyTarget]; omega
  have h2 : difficultyTarget g = .ret (u128Max - u128Max / g) := by simp [difficultyTarget, hg]
  have hle : u128Max - u128Max / f ≤ u128Max - u128Max / g := by omega
  have hmax : u128Max < 2 ^ 128 := by decide
  refine ⟨⟨_, _, h1, h2, hle, Nat.lt_of_le_of_lt (Nat.sub_le _ _) hmax⟩, ?_, ?_, rfl⟩
  · rintro r ⟨t, ht, hr⟩
    rw [h2] at ht; cases ht
    exact ⟨_, h1, Nat.le_trans hle hr⟩
  · intro r
    exact ⟨0, by simp [difficultyTarget], Nat.zero_le _⟩

/-- C45. The factor is the expected amount of work: of the `2^128` possible results, `u128::MAX / factor + 1` are accepted, namely
exactly the largest ones. -/
theorem C45_accepted_share (f : Nat) (hf : 0 < f) (r : Nat) (hr : r < 2 ^ 128) :
    acceptedAt f r ↔ (2 ^ 128 - 1 - r) < (2 ^ 128 - 1) / f + 1 := by
  have h1 : difficultyTarget f = .ret (u128Max - u128Max / f) := by simp [difficultyTarget]; omega
  have hmax : u128Max = 2 ^ 128 - 1 := rfl
  have hle : u128Max / f ≤ u128Max := Nat.div_le_self _ _
  constructor
  · rintro ⟨t, ht, hr'⟩
    rw [h1] at ht; cases ht
    rw [← hmax]; omega
  · intro h
    refine ⟨_, h1, ?_⟩
    rw [← hmax] at h; omega

/-- C45. No sequence of builder calls and no traffic leads to the division by zero: the difficulty in force always has a
target. -/
theorem C45_zero_unreachable (p : Profile) (m₀ m : MCaptcha) (h : StartM m₀) (hist : List Traffic)
    (hr : traffic p m₀ hist = .ret m) :
    ∃ d t, m.getDifficulty = .ret d ∧ difficultyTarget d = .ret t ∧ t < 2 ^ 128 := by
  obtain ⟨l, -, hd, hpos, -⟩ := C15_difficulty_configured p m₀ m h hist hr
  obtain ⟨⟨t, u, ht, hu, -, hlt⟩, -⟩ := C45_target l.difficultyFactor l.difficultyFactor hpos (Nat.le_refl _)
  exact ⟨_, u, hd, hu, hlt⟩

example : difficultyTarget 2 = .ret (2 ^ 127) ∧ difficultyTarget 50 = .ret 333476719582519694194107115283132847226 := by
  decide

/-- C46. Whatever the generator draws, `get_random(len)` has exactly `len` characters, each an ASCII letter or digit. -/
theorem C46_random_shape (len : Nat) (g : Rng) :
    (getRandom len g).length = len ∧ ∀ c ∈ (getRandom len g).toList, isAlnum c = true := by
  refine ⟨by simp [← String.length_toList, getRandom_toList], ?_⟩
  intro c hc
  rw [getRandom_toList] at hc
  obtain ⟨i, -, rfl⟩ := List.mem_map.1 hc
  exact alphabet_alnum _

/-- C46. Nothing else is lost: every string of `len` letters and digits is produced by exactly one sequence of `len` draws, so
`62^len` strings are possible and equally likely if the draws are. -/
theorem C46_random_complete (len : Nat) :
    (∀ s : String, s.length = len → (∀ c ∈ s.toList, isAlnum c = true) → ∃ g, getRandom len g = s) ∧
    (∀ g g' : Rng, getRandom len g = getRandom len g' → ∀ i < len, g i = g' i) := by
  constructor
  · intro s hlen hall
    have hex : ∀ i : Nat, ∃ d : Fin 62, ∀ h : i < s.toList.length, sampleChar d = s.toList[i] := by
      intro i
      by_cases h : i < s.toList.length
      · obtain ⟨d, hd⟩ := alphabet_complete s.toList[i] (hall _ (List.getElem_mem h))
        exact ⟨d, fun _ => hd⟩
      · exact ⟨0, fun h' => absurd h' h⟩
    refine ⟨fun i => (hex i).choose, ?_⟩
    apply String.toList_injective
    rw [getRandom_toList]
    have hl : s.toList.length = len := by rw [String.length_toList]; exact hlen
    apply List.ext_getElem
    · simp [hl]
    · intro i h1 h2
      simp only [List.getElem_map, List.getElem_range]
      exact (hex i).choose_spec h2
  · intro g g' h i hi
    have h' := congrArg String.toList h
    rw [getRandom_toList, getRandom_toList] at h'
    have := congrArg (fun l => l[i]?) h'
    simp [hi] at this
    exact alphabet_inj _ _ this

/-- C46. Challenges and tokens have 32 letters or digits, and carry the data they were made from. -/
theorem C46_challenge_and_token (factor : Nat) (salt : String) (c : CachedPoWConfig) (g : Rng) :
    (PoWConfig.new factor salt g).string.length = 32 ∧
    (∀ x ∈ (PoWConfig.new factor salt g).string.toList, isAlnum x = true) ∧
    (PoWConfig.new factor salt g).difficultyFactor = factor ∧ (PoWConfig.new factor salt g).salt = salt ∧
    (CacheResult.ofConfig c g).token.length = 32 ∧
    (∀ x ∈ (CacheResult.ofConfig c g).token.toList, isAlnum x = true) ∧
    (CacheResult.ofConfig c g).key = c.key ∧ (CacheResult.ofConfig c g).duration = c.duration :=
  ⟨(C46_random_shape 32 g).1, (C46_random_shape 32 g).2, rfl, rfl, (C46_random_shape 32 g).1, (C46_random_shape 32 g).2, rfl, rfl⟩

example : getRandom 4 (fun i => ⟨(25 + 9 * i) % 62, Nat.mod_lt _ (by decide)⟩) = "Zir0" := by decide
example : isAlnum '_' = false ∧ isAlnum 'é' = false ∧ isAlnum 'q' = true := by decide

end MCap
