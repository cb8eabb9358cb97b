import Verif.Proofs.SystemAsk

namespace MCap
open Spec

/-! ### Reading a log backwards -/

theorem filter_last {α : Type} (p : α → Bool) (l : List α) (m : α) (h : (l.filter p).getLast? = some m) :
    ∃ a b, l = a ++ m :: b ∧ p m = true ∧ ∀ x ∈ b, p x = false := by
  induction l with
  | nil => simp at h
  | cons x r ih =>
    rw [List.filter_cons] at h
    by_cases hr : r.filter p = []
    · rw [hr] at h
      split at h
      · rename_i hx
        simp at h
        subst h
        refine ⟨[], r, rfl, hx, ?_⟩
        intro y hy
        have := List.filter_eq_nil_iff.1 hr y hy
        simpa using this
      · simp at h
    · have : (r.filter p).getLast? = some m := by
        split at h
        · rw [List.getLast?_cons] at h
          cases hl : (r.filter p).getLast? with
          | none => exact absurd (List.getLast?_eq_none_iff.1 hl) hr
          | some y => rw [hl] at h; simpa using h
        · exact h
      obtain ⟨a, b, h1, h2, h3⟩ := ih this
      exact ⟨x :: a, b, by rw [h1]; rfl, h2, h3⟩

theorem cacheTrace_split {log : List SEvent} {a b : List CacheMsg} {m : CacheMsg} (h : msgs (cacheTrace log) = a ++ m :: b) :
    ∃ pre sender r post, log = pre ++ .cache sender m r :: post ∧ msgs (cacheTrace post) = b := by
  induction log generalizing a with
  | nil => simp [cacheTrace, msgs] at h
  | cons e t ih =>
    cases e with
    | cache sender m' r =>
      have h' : m' :: msgs (cacheTrace t) = a ++ m :: b := h
      cases a with
      | nil =>
        simp at h'
        exact ⟨[], sender, r, t, by rw [h'.1]; rfl, h'.2⟩
      | cons x a =>
        simp at h'
        obtain ⟨pre, s', r', post, h1, h2⟩ := ih h'.2
        exact ⟨_ :: pre, s', r', post, by rw [h1]; rfl, h2⟩
    | _ =>
      have h' : msgs (cacheTrace t) = a ++ m :: b := h
      obtain ⟨pre, s', r', post, h1, h2⟩ := ih h'
      exact ⟨_ :: pre, s', r', post, by rw [h1]; rfl, h2⟩

theorem mem_msgs {log : List SEvent} {sender : Option (Nat × Api)} {m : CacheMsg} {r : CacheReply} (h : .cache sender m r ∈ log) :
    m ∈ msgs (cacheTrace log) := by
  simp only [msgs, cacheTrace, List.mem_map, List.mem_filterMap]
  exact ⟨(m, r), ⟨_, h, rfl⟩, rfl⟩

/-- What is stored was stored by the latest message about it. -/
theorem stored_split {log : List SEvent} {s : String} {cfg : CachedPoWConfig} (h : storedChallenge (msgs (cacheTrace log)) s = some cfg) :
    ∃ pre sender r post, log = pre ++ .cache sender (.cachePow { string := s, difficultyFactor := cfg.difficultyFactor, duration := cfg.duration, key := cfg.key }) r :: post ∧
      untouched s post := by
  unfold storedChallenge at h
  split at h
  · rename_i c hl
    simp at h
    obtain ⟨a, b, h1, h2, h3⟩ := filter_last _ _ _ hl
    obtain ⟨pre, sender, r, post, h4, h5⟩ := cacheTrace_split h1
    simp [challengeOf] at h2
    refine ⟨pre, sender, r, post, ?_, ?_⟩
    · rw [h4, ← h, ← h2]
    · intro sender' m' r' hm
      have := h3 m' (by rw [← h5]; exact mem_msgs hm)
      simpa using this
  · cases h

theorem storedToken_split {log : List SEvent} {t key : String} (h : storedToken (msgs (cacheTrace log)) t = some key) :
    ∃ pre sender r post duration, log = pre ++ .cache sender (.cacheResult { token := t, key := key, duration := duration }) r :: post ∧
      untouchedToken t post := by
  unfold storedToken at h
  split at h
  · rename_i c hl
    simp at h
    obtain ⟨a, b, h1, h2, h3⟩ := filter_last _ _ _ hl
    obtain ⟨pre, sender, r, post, h4, h5⟩ := cacheTrace_split h1
    simp [tokenOf] at h2
    refine ⟨pre, sender, r, post, c.duration, ?_, ?_⟩
    · rw [h4, ← h, ← h2]
    · intro sender' m' r' hm
      have := h3 m' (by rw [← h5]; exact mem_msgs hm)
      simpa using this
  · cases h

/-- Nothing but an untouched challenge is found. -/
theorem stored_none {log : List SEvent} {s : String} (pre post : List SEvent) (sender : Option (Nat × Api)) (m : CacheMsg) (r : CacheReply)
    (hs : log = pre ++ .cache sender m r :: post) (hm : challengeOf m = some s) (hc : ∀ c, m ≠ .cachePow c)
    (hn : ∀ sender' c r', .cache sender' (.cachePow c) r' ∈ post → c.string ≠ s) : storedChallenge (msgs (cacheTrace log)) s = none := by
  cases h : storedChallenge (msgs (cacheTrace log)) s with
  | none => rfl
  | some cfg =>
    obtain ⟨pre', sender', r', post', h1, h2⟩ := stored_split h
    rw [hs] at h1
    rcases append_split h1 with ⟨c, h3, h4⟩ | ⟨c, h3, h4⟩
    · exact absurd hm (h2 sender m r (by rw [h4]; simp))
    · cases c with
      | nil =>
        simp at h4
        exact absurd h4.1.2.1 (hc _)
      | cons x c =>
        simp at h4
        exact absurd rfl (hn sender' { string := s, difficultyFactor := cfg.difficultyFactor, duration := cfg.duration, key := cfg.key } r' (by rw [h4.2]; simp))

/-- Every event is explained by what precedes it. -/
def Explained (lib : PowLib) (log : List SEvent) : Prop := ∀ pre e post, log = pre ++ e :: post → Why lib pre e

theorem explained_left {lib : PowLib} {a b : List SEvent} (h : Explained lib (a ++ b)) : Explained lib a := by
  intro pre e post hs
  exact h pre e (post ++ b) (by rw [hs]; simp)

theorem explained_mem {lib : PowLib} {log : List SEvent} (h : Explained lib log) {e : SEvent} (he : e ∈ log) :
    ∃ pre post, log = pre ++ e :: post ∧ Why lib pre e := by
  obtain ⟨pre, post, hs⟩ := List.append_of_mem he
  exact ⟨pre, post, hs, h pre e post hs⟩

/-- A challenge found by `verify_pow` for the right site was issued by `get_pow` for it. -/
theorem tookOut {lib : PowLib} {log : List SEvent} (h : Explained lib log) {i : Nat} {work : Work} {ip : String} {cfg : CachedPoWConfig}
    (hf : Found log i work ip cfg) (hk : cfg.key = work.key) : ∃ g, TookOut log g i work ip cfg.difficultyFactor cfg.duration := by
  obtain ⟨pre, post, hs, hw⟩ := explained_mem h hf
  obtain ⟨hcall, ⟨-, hr⟩ | ⟨hr, -⟩⟩ := hw
  · simp at hr
    obtain ⟨a, sender, r, b, h1, h2⟩ := stored_split hr.symm
    have hw2 := h a _ (b ++ .cache (some (i, .verify work ip)) (.retrivePow { token := work.string, key := work.key }) (.config (some cfg)) :: post)
      (by rw [hs, h1]; simp; rfl)
    cases sender with
    | none =>
      obtain ⟨-, ⟨s, e⟩ | ⟨t, e⟩⟩ := hw2 <;> cases e
    | some q =>
      obtain ⟨g, api⟩ := q
      cases api with
      | verify w ip' =>
        obtain ⟨-, ⟨e, -⟩ | ⟨-, t, cfg', -, -, -, -, e⟩⟩ := hw2 <;> cases e
      | validate msg => obtain ⟨-, e, -⟩ := hw2; cases e
      | get id =>
        obtain ⟨hc, hr', cfg', res, hm, -, hd, -, e⟩ := hw2
        injection e with e
        injection e with e1 e2 e3 e4
        subst hr'
        refine ⟨g, a, b, post, ?_, h2, ?_, ?_, ?_⟩
        · rw [hs, h1, ← e4, hk, ← hk]; simp
        · rw [← hk, e4]; exact hc
        · rw [h1] at hcall
          simp at hcall ⊢
          exact hcall
        · rw [e2, e3, hd]; exact hm
  · cases hr

theorem stringNot_touched {b : List SEvent} {s : String} (h : untouched s b) : ∀ sender c r, .cache sender (.cachePow c) r ∈ b → c.string ≠ s := by
  intro sender c r hm e
  exact h sender _ r hm (by rw [← e]; rfl)

/-- A lookup finds nothing after another lookup, unless the challenge was stored again in between. -/
theorem lookup_again {lib : PowLib} {log : List SEvent} (h : Explained lib log) {a b c : List SEvent} {sender : Option (Nat × Api)} {v : VerifyCaptchaResult}
    {r r' : CacheReply} {j : Nat} {work : Work} {ip : String} (hs : log = a ++ .cache sender (.retrivePow v) r :: (b ++
      .cache (some (j, .verify work ip)) (.retrivePow { token := work.string, key := work.key }) r' :: c)) (hv : v.token = work.string)
    (hn : ∀ sender' c r', .cache sender' (.cachePow c) r' ∈ b → c.string ≠ work.string) : r' = .config none := by
  have hw := h (a ++ .cache sender (.retrivePow v) r :: b) _ c (by rw [hs]; simp; rfl)
  obtain ⟨-, ⟨-, e⟩ | ⟨-, t, cfg, -, -, -, -, e⟩⟩ := hw
  · rw [e, stored_none a b sender (.retrivePow v) r rfl (by simp [challengeOf, hv]) (by simp) hn]
  · cases e

theorem cinv_new (lib : PowLib) (p : Profile) (n ql now : Nat) (steps : List SStep) :
    CInv (sysRun lib p (Sys.new n ql now) steps).1 (sysRun lib p (Sys.new n ql now) steps).2 := by
  have h : CInv (Sys.new n ql now) [] := ⟨fun _ => Nat.le_refl _, fun _ => Nat.le_refl _, fun _ => Nat.le_refl _⟩
  simpa [sysRun] using cinv_run (p := p) (sinv_new lib p n ql now []) h steps

/-- The log of a run, its invariants. -/
structure Facts (lib : PowLib) (s : Sys) (log : List SEvent) : Prop where
  si : SInv lib s log
  ui : UInv lib s log
  ji : JInv lib s log
  ai : AInv s log

theorem facts (lib : PowLib) (p : Profile) (n ql now : Nat) (steps : List SStep) :
    Facts lib (sysRun lib p (Sys.new n ql now) steps).1 (sysRun lib p (Sys.new n ql now) steps).2 :=
  ⟨sinv_new lib p n ql now steps, uinv_new lib p n ql now steps, jinv_new lib p n ql now steps, ainv_new lib p n ql now steps⟩

theorem tookOut_left {log : List SEvent} {g i : Nat} {work : Work} {ip : String} {d dur : Nat} (ev : List SEvent)
    (h : TookOut log g i work ip d dur) : TookOut (log ++ ev) g i work ip d dur := by
  obtain ⟨a, b, c, h1, h2⟩ := h
  exact ⟨a, b, c ++ ev, by rw [h1]; simp, h2⟩

end MCap
