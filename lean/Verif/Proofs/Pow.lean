import Verif.Spec.Pow
import Verif.Proofs.ListAux

namespace MCap
open Spec

/-! ### Random strings -/

theorem alphabet_alnum : ∀ d : Fin 62, isAlnum (sampleChar d) = true := by decide

theorem alphabet_inj : ∀ d e : Fin 62, sampleChar d = sampleChar e → d = e := by decide

/-- Every ASCII letter or digit is one of the 62 characters. -/
theorem alphabet_complete (c : Char) (h : isAlnum c = true) : ∃ d : Fin 62, sampleChar d = c := by
  simp only [isAlnum, Bool.or_eq_true, Bool.and_eq_true, decide_eq_true_eq] at h
  rcases h with (h | h) | h
  · refine ⟨⟨c.toNat - 65, by omega⟩, ?_⟩
    have e : 65 + (c.toNat - 65) = c.toNat := by omega
    rw [sampleChar, if_pos (by simp only; omega), e, Char.ofNat_toNat]
  · refine ⟨⟨c.toNat - 97 + 26, by omega⟩, ?_⟩
    have e : 97 + (c.toNat - 97 + 26 - 26) = c.toNat := by omega
    rw [sampleChar, if_neg (by simp only; omega), if_pos (by simp only; omega), e, Char.ofNat_toNat]
  · refine ⟨⟨c.toNat - 48 + 52, by omega⟩, ?_⟩
    have e : 48 + (c.toNat - 48 + 52 - 52) = c.toNat := by omega
    rw [sampleChar, if_neg (by simp only; omega), if_neg (by simp only; omega), e, Char.ofNat_toNat]

theorem getRandom_toList (len : Nat) (g : Rng) : (getRandom len g).toList = (List.range len).map fun i => sampleChar (g i) := by
  simp [getRandom]

/-! ### The verdict channel -/

/-- The complaint sent when the difficulty does not suffice. -/
def complaintD (q : QueuedWork) : List Bool :=
  if q.pow.isSufficientDifficulty q.work q.difficultyFactor = false then [false] else []

/-- The complaint sent when the proof is not valid. -/
def complaintV (q : QueuedWork) : List Bool :=
  if q.pow.isValidProof q.work q.string = false then [false] else []

/-- Messages a worker at `pc` has sent. -/
def sentUpTo (q : QueuedWork) : WorkerPc → List Bool
  | .start => []
  | .sendInsufficient => []
  | .checkValid => complaintD q
  | .sendInvalid => complaintD q
  | .sendTrue => complaintD q ++ complaintV q
  | .finished => complaintD q ++ complaintV q ++ [true]
  | .dropped true => complaintD q ++ complaintV q ++ [true]
  | .dropped false => []

/-- What has been read, as a list. -/
def readList : Reading → List Bool
  | .verdict b => [b]
  | _ => []

/-- Invariant: what was read followed by what is buffered is what was sent, as long as the receiver lives; what was read is
the first message the worker sends. -/
structure ChanInv (q : QueuedWork) (c : VerdictChannel) : Prop where
  pcI : c.pc = .sendInsufficient → q.pow.isSufficientDifficulty q.work q.difficultyFactor = false
  pcV : c.pc = .sendInvalid → q.pow.isValidProof q.work q.string = false
  live : c.rxAlive = true → readList c.reading ++ c.buf = sentUpTo q c.pc
  dead : c.rxAlive = false → c.buf = []
  verd : ∀ b, c.reading = .verdict b → (complaintD q ++ complaintV q ++ [true]).head? = some b
  disc : c.reading = .disconnected → c.pc = .dropped false

theorem chan_init (q : QueuedWork) : ChanInv q VerdictChannel.new := by
  constructor <;> simp [VerdictChannel.new, readList, sentUpTo]

/-- What was sent so far starts the complete list of messages. -/
theorem sent_prefix (q : QueuedWork) (pc : WorkerPc) : sentUpTo q pc <+: complaintD q ++ complaintV q ++ [true] := by
  cases pc with
  | dropped r => cases r <;> simp [sentUpTo]
  | _ => simp [sentUpTo]

theorem chan_send (q : QueuedWork) (c c' : VerdictChannel) (b : Bool) (next : WorkerPc) (h : ChanInv q c)
    (hs : c.send b next = some c') (hn : sentUpTo q next = sentUpTo q c.pc ++ [b])
    (h1 : next ≠ .sendInsufficient) (h2 : next ≠ .sendInvalid) (h3 : c.pc ≠ .dropped false) : ChanInv q c' := by
  unfold VerdictChannel.send at hs
  split at hs
  · rename_i hr
    cases hs
    exact ⟨fun e => absurd e h1, fun e => absurd e h2, fun e => by simp [hr] at e, h.dead, h.verd,
      fun e => absurd (h.disc e) h3⟩
  · rename_i hr
    split at hs
    · cases hs
      have hr' : c.rxAlive = true := by simpa using hr
      exact ⟨fun e => absurd e h1, fun e => absurd e h2, fun _ => by rw [hn, ← h.live hr', List.append_assoc],
        fun e => absurd e hr, h.verd, fun e => absurd (h.disc e) h3⟩
    · cases hs

theorem chan_work (q : QueuedWork) (c c' : VerdictChannel) (h : ChanInv q c) (hs : c.workerStep q = some c') : ChanInv q c' := by
  have hd : c.pc ≠ .dropped false → c.reading ≠ .disconnected := fun a e => a (h.disc e)
  unfold VerdictChannel.workerStep at hs
  split at hs
  · rename_i hpc
    have hl := h.live
    rw [hpc] at hl
    have hnd := hd (by simp [hpc])
    split at hs
    · rename_i hsuf
      cases hs
      exact ⟨fun _ => hsuf, by simp, fun e => by simpa [sentUpTo] using hl e, h.dead, h.verd, fun e => absurd e hnd⟩
    · rename_i hsuf
      cases hs
      exact ⟨by simp, by simp, fun e => by simpa [sentUpTo, complaintD, hsuf] using hl e, h.dead, h.verd,
        fun e => absurd e hnd⟩
  · rename_i hpc
    exact chan_send q c c' _ _ h hs (by simp [hpc, sentUpTo, complaintD, h.pcI hpc]) (by simp) (by simp) (by simp [hpc])
  · rename_i hpc
    have hl := h.live
    rw [hpc] at hl
    have hnd := hd (by simp [hpc])
    split at hs
    · rename_i hv
      cases hs
      exact ⟨by simp, fun _ => hv, fun e => by simpa [sentUpTo] using hl e, h.dead, h.verd, fun e => absurd e hnd⟩
    · rename_i hv
      cases hs
      exact ⟨by simp, by simp, fun e => by simpa [sentUpTo, complaintV, hv] using hl e, h.dead, h.verd,
        fun e => absurd e hnd⟩
  · rename_i hpc
    exact chan_send q c c' _ _ h hs (by simp [hpc, sentUpTo, complaintV, h.pcV hpc]) (by simp) (by simp) (by simp [hpc])
  · rename_i hpc
    exact chan_send q c c' _ _ h hs (by simp [hpc, sentUpTo]) (by simp) (by simp) (by simp [hpc])
  · rename_i hpc
    have hl := h.live
    rw [hpc] at hl
    have hnd := hd (by simp [hpc])
    cases hs
    exact ⟨by simp, by simp, fun e => by simpa [sentUpTo] using hl e, h.dead, h.verd, fun e => absurd e hnd⟩
  · cases hs

theorem chan_step (q : QueuedWork) (c : VerdictChannel) (s : ChannelStep) (h : ChanInv q c) : ChanInv q (channelStep q c s) := by
  cases s with
  | work =>
    simp only [channelStep]
    cases hs : c.workerStep q with
    | none => exact h
    | some c' => exact chan_work q c c' h hs
  | poll =>
    simp only [channelStep, VerdictChannel.poll]
    split
    · rename_i hg
      have hl := h.live hg.2
      rw [hg.1] at hl
      split
      · rename_i b r hb
        rw [hb] at hl
        simp only [readList, List.nil_append] at hl
        refine ⟨h.pcI, h.pcV, fun _ => by simpa [readList] using hl, (fun e => by rw [hg.2] at e; cases e), ?_, by simp⟩
        intro b' hb'
        cases hb'
        obtain ⟨t, ht⟩ := sent_prefix q c.pc
        rw [← ht, ← hl]; rfl
      · rename_i hb
        rw [hb] at hl
        split
        · rename_i r hpc
          refine ⟨h.pcI, h.pcV, fun _ => by simpa [readList, hb] using hl, h.dead, by simp, fun _ => ?_⟩
          cases r with
          | false => exact hpc
          | true => rw [hpc] at hl; simp [readList, sentUpTo] at hl
        · exact h
    · exact h
  | dropRx =>
    exact ⟨h.pcI, h.pcV, fun e => by simp [channelStep, VerdictChannel.dropRx] at e, fun _ => rfl, h.verd, h.disc⟩
  | dropJob =>
    simp only [channelStep, VerdictChannel.dropJob]
    split
    · rename_i hpc
      have hl := h.live
      rw [hpc] at hl
      exact ⟨by simp, by simp, fun e => by simpa [sentUpTo] using hl e, h.dead, h.verd, fun _ => rfl⟩
    · exact h

theorem chan_run (q : QueuedWork) (c : VerdictChannel) (steps : List ChannelStep) (h : ChanInv q c) :
    ChanInv q (channelRun q c steps) := by
  induction steps generalizing c with
  | nil => exact h
  | cons s r ih => exact ih _ (chan_step q c s h)

theorem channelRun_append (q : QueuedWork) (c : VerdictChannel) (a b : List ChannelStep) :
    channelRun q c (a ++ b) = channelRun q (channelRun q c a) b := by simp [channelRun]

theorem head_true_iff (q : QueuedWork) (b : Bool) (h : (complaintD q ++ complaintV q ++ [true]).head? = some b) :
    b = true ↔ GoodProof q := by
  unfold GoodProof
  simp only [complaintD, complaintV] at h
  cases h1 : q.pow.isSufficientDifficulty q.work q.difficultyFactor <;>
    cases h2 : q.pow.isValidProof q.work q.string <;> simp [h1, h2] at h <;> simp [← h]

/-- Steps left to the worker, at most. -/
def rank : WorkerPc → Nat
  | .start => 6
  | .sendInsufficient => 5
  | .checkValid => 4
  | .sendInvalid => 3
  | .sendTrue => 2
  | .finished => 1
  | .dropped _ => 0

/-- A worker whose verifier is done is never blocked. -/
theorem work_progress (q : QueuedWork) (c : VerdictChannel) (h : ChanInv q c) (hv : VerifierDone c) (hp : ∀ r, c.pc ≠ .dropped r) :
    ∃ c', c.workerStep q = some c' ∧ rank c'.pc < rank c.pc ∧ VerifierDone c' := by
  have hbuf : c.rxAlive = true → c.buf.length + 1 = (sentUpTo q c.pc).length := by
    intro hr
    rcases hv with hv | hv
    · have hl := h.live hr
      rw [← hl]
      cases hrd : c.reading with
      | none => exact absurd hrd hv
      | verdict b => simp [readList]
      | disconnected => exact absurd (h.disc hrd) (hp false)
    · rw [hr] at hv; cases hv
  have hD : (complaintD q).length ≤ 1 := by unfold complaintD; split <;> simp
  have hV : (complaintV q).length ≤ 1 := by unfold complaintV; split <;> simp
  have hsend : ∀ b next, (sentUpTo q c.pc).length ≤ 2 → ∃ c', c.send b next = some c' ∧ c'.pc = next ∧ VerifierDone c' := by
    intro b next hlen
    unfold VerdictChannel.send
    split
    · rename_i hr; exact ⟨_, rfl, rfl, .inr hr⟩
    · rename_i hr
      have hr' : c.rxAlive = true := by simpa using hr
      have := hbuf hr'
      rw [if_pos (by unfold VerdictChannel.capacity; omega)]
      exact ⟨_, rfl, rfl, hv⟩
  unfold VerdictChannel.workerStep
  cases hpc : c.pc with
  | start =>
    simp only
    split
    · exact ⟨_, rfl, by simp [rank], hv⟩
    · exact ⟨_, rfl, by simp [rank], hv⟩
  | sendInsufficient =>
    obtain ⟨c', e, e2, e3⟩ := hsend false .checkValid (by simp [hpc, sentUpTo])
    exact ⟨c', e, by simp [e2, rank], e3⟩
  | checkValid =>
    simp only
    split
    · exact ⟨_, rfl, by simp [rank], hv⟩
    · exact ⟨_, rfl, by simp [rank], hv⟩
  | sendInvalid =>
    obtain ⟨c', e, e2, e3⟩ := hsend false .sendTrue (by simp [hpc, sentUpTo]; omega)
    exact ⟨c', e, by simp [e2, rank], e3⟩
  | sendTrue =>
    obtain ⟨c', e, e2, e3⟩ := hsend true .finished (by simp [hpc, sentUpTo]; omega)
    exact ⟨c', e, by simp [e2, rank], e3⟩
  | finished => exact ⟨_, rfl, by simp [rank], hv⟩
  | dropped r => exact absurd hpc (hp r)

theorem work_finishes (q : QueuedWork) (n : Nat) (c : VerdictChannel) (h : ChanInv q c) (hv : VerifierDone c) (hn : rank c.pc ≤ n) :
    ∃ k, k ≤ n ∧ ∃ r, (channelRun q c (works k)).pc = .dropped r := by
  induction n generalizing c with
  | zero =>
    refine ⟨0, Nat.le_refl _, ?_⟩
    cases hpc : c.pc <;> simp [hpc, rank] at hn
    exact ⟨_, hpc⟩
  | succ n ih =>
    by_cases hp : ∃ r, c.pc = .dropped r
    · exact ⟨0, Nat.zero_le _, hp⟩
    · obtain ⟨c', hs, hr, hv'⟩ := work_progress q c h hv (fun r e => hp ⟨r, e⟩)
      obtain ⟨k, hk, r, hkr⟩ := ih c' (chan_work q c c' h hs) hv' (by omega)
      refine ⟨k + 1, by omega, r, ?_⟩
      simp only [works, List.replicate_succ, channelRun, List.foldl_cons, channelStep, hs, Option.getD_some]
      exact hkr

/-- What the verifier has read stays. -/
theorem reading_stable (q : QueuedWork) (c : VerdictChannel) (steps : List ChannelStep) (h : c.reading ≠ .none) :
    (channelRun q c steps).reading = c.reading := by
  induction steps generalizing c with
  | nil => rfl
  | cons s r ih =>
    have hs : (channelStep q c s).reading = c.reading := by
      cases s with
      | work =>
        simp only [channelStep]
        cases hw : c.workerStep q with
        | none => rfl
        | some c' =>
          have hsend : ∀ b next c', c.send b next = some c' → c'.reading = c.reading := by
            intro b next c' e
            unfold VerdictChannel.send at e
            split at e
            · cases e; rfl
            · split at e <;> cases e; rfl
          unfold VerdictChannel.workerStep at hw
          split at hw
          · split at hw <;> cases hw <;> rfl
          · exact hsend _ _ _ hw
          · split at hw <;> cases hw <;> rfl
          · exact hsend _ _ _ hw
          · exact hsend _ _ _ hw
          · cases hw; rfl
          · cases hw
      | poll => simp [channelStep, VerdictChannel.poll, h]
      | dropRx => rfl
      | dropJob => simp only [channelStep, VerdictChannel.dropJob]; split <;> rfl
    show (channelRun q (channelStep q c s) r).reading = c.reading
    rw [ih _ (by rw [hs]; exact h), hs]

end MCap
