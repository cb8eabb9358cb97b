import Verif.Props.RedisOpen

/-!
# Exactly which servers are accepted, and with which error the others are refused (C69, C76, C90)
-/

namespace MCap
open Spec RedisWorld RedisClient

/-- The characters of the name stand for themselves. -/
theorem escape_name (printable : Char → Bool) : modPat.flatMap (escapeDebug printable) = modPat := by rfl

theorem infix_debugStr (printable : Char → Bool) (a b : String) : modPat <:+: debugStr printable (a ++ "mcaptcha_cache" ++ b) := by
  refine ⟨'"' :: a.toList.flatMap (escapeDebug printable), b.toList.flatMap (escapeDebug printable) ++ ['"'], ?_⟩
  unfold debugStr
  rw [String.toList_append, String.toList_append, List.flatMap_append, List.flatMap_append,
    show ("mcaptcha_cache".toList).flatMap (escapeDebug printable) = modPat from escape_name printable]
  simp only [List.append_assoc, List.cons_append]

theorem infix_debugTexts (printable : Char → Bool) (vs : List RValue) (v : RValue) (hv : v ∈ vs) :
    debugText printable v <:+: debugTexts printable vs := by
  induction vs with
  | nil => cases hv
  | cons w r ih =>
    cases r with
    | nil =>
      rw [List.mem_singleton] at hv
      subst hv
      rw [debugs_one, List.append_nil]
      exact List.infix_refl _
    | cons x r =>
      rw [debugs_more]
      rcases List.mem_cons.1 hv with rfl | hv
      · exact ⟨[], _, rfl⟩
      · exact (ih hv).trans ⟨debugText printable w ++ [',', ' '], [], by simp⟩

/-- A value that mentions the name has it in its debug text. -/
theorem infix_of_mentions (printable : Char → Bool) {v : RValue} (h : Mentions "mcaptcha_cache" v) : modPat <:+: debugText printable v := by
  induction h with
  | bulk a b =>
    rw [debug_bulk]
    exact (infix_debugStr printable a b).trans ⟨_, _, rfl⟩
  | simple a b =>
    rw [debug_simple]
    exact (infix_debugStr printable a b).trans ⟨_, _, rfl⟩
  | inside vs v hv _ ih =>
    rw [debug_array]
    exact (ih.trans (infix_debugTexts printable vs v hv)).trans ⟨_, _, rfl⟩

theorem moduleCheck_iff (printable : Char → Bool) (v : RValue) :
    (moduleCheck printable v = .ok () ∧ PassesModules (.ok v)) ∨
    (moduleCheck printable v = .error .mCaptchaRedisModuleIsNotLoaded ∧ ¬ PassesModules (.ok v)) := by
  by_cases harr : ∃ vs, v = .array vs
  · obtain ⟨vs, rfl⟩ := harr
    have hno : (∀ fs es, vs = .array fs :: es → ∀ f ∈ fs, ¬ Mentions "mcaptcha_cache" f) → ¬ PassesModules (.ok (.array vs)) := by
      intro h hp
      rcases hp with ⟨v, hv, hn⟩ | ⟨fs, es, he, f, hf, hm⟩
      · simp only [Except.ok.injEq] at hv
        exact hn vs hv.symm
      · simp only [Except.ok.injEq, RValue.array.injEq] at he
        exact h fs es he f hf hm
    by_cases hf : ∃ fs es, vs = .array fs :: es
    · obtain ⟨fs, es, rfl⟩ := hf
      by_cases hm : ∃ f ∈ fs, Mentions "mcaptcha_cache" f
      · left
        obtain ⟨f, hf, hm⟩ := hm
        have : fs.any (fun i => containsStr moduleName.toList (debugText printable i)) = true :=
          List.any_eq_true.2 ⟨f, hf, (containsStr_iff _ _).2 (infix_of_mentions printable hm)⟩
        exact ⟨by simp only [moduleCheck, List.head?_cons, this, if_true], .inr ⟨fs, es, rfl, f, hf, hm⟩⟩
      · right
        have : fs.any (fun i => containsStr moduleName.toList (debugText printable i)) = false := by
          cases hany : fs.any (fun i => containsStr moduleName.toList (debugText printable i)) with
          | false => rfl
          | true =>
            obtain ⟨i, hi, hc⟩ := List.any_eq_true.1 hany
            exact absurd ⟨i, hi, mentions_of printable i ((containsStr_iff _ _).1 hc)⟩ hm
        refine ⟨by simp only [moduleCheck, List.head?_cons, this, if_false, Bool.false_eq_true], hno ?_⟩
        intro fs' es' e f hf hmm
        simp only [List.cons.injEq, RValue.array.injEq] at e
        obtain ⟨rfl, -⟩ := e
        exact hm ⟨f, hf, hmm⟩
    · right
      refine ⟨?_, hno (fun fs es e => absurd ⟨fs, es, e⟩ hf)⟩
      unfold moduleCheck
      cases vs with
      | nil => rfl
      | cons x r =>
        cases x with
        | array fs => exact absurd ⟨fs, r, rfl⟩ hf
        | _ => rfl
  · left
    refine ⟨?_, .inl ⟨v, rfl, fun vs e => harr ⟨vs, e⟩⟩⟩
    cases v with
    | array vs => exact absurd ⟨vs, rfl⟩ harr
    | _ => rfl

theorem commandCheck_iff (cmd : String) (v : RValue) :
    (commandCheck cmd v = .ok () ∧ PassesCommand (.ok v)) ∨
    (commandCheck cmd v = .error (.mCaptchaRediSModuleCommandNotFound cmd) ∧ ¬ PassesCommand (.ok v)) := by
  by_cases harr : ∃ vs, v = .array vs
  · obtain ⟨vs, rfl⟩ := harr
    by_cases hl : vs.getLast? = some .nil
    · right
      refine ⟨by simp only [commandCheck, hl], ?_⟩
      rintro ⟨v, hv, hn⟩
      simp only [Except.ok.injEq] at hv
      exact hn vs hv.symm hl
    · left
      refine ⟨?_, ⟨_, rfl, fun us e => ?_⟩⟩
      · unfold commandCheck
        simp only [hl]
      · simp only [RValue.array.injEq] at e
        rw [← e]; exact hl
  · left
    refine ⟨?_, ⟨v, rfl, fun vs e => absurd ⟨vs, e⟩ harr⟩⟩
    cases v with
    | array vs => exact absurd ⟨vs, rfl⟩ harr
    | _ => rfl

theorem not_passes_error (e : String) : ¬ PassesCommand (.error e) := by rintro ⟨v, h, -⟩; cases h

theorem askCommands_exact (w : RedisWorld) (cmds : List String) :
    ((w.askCommands cmds).2 = .ret (.ok ()) ↔ ∀ c ∈ cmds, PassesCommand (infoOf w c)) ∧
    (w.askCommands cmds).2 ≠ .ret (.error .mCaptchaRedisModuleIsNotLoaded) ∧
    (cmds.Nodup → ∀ cmd, (w.askCommands cmds).2 = .ret (.error (.mCaptchaRediSModuleCommandNotFound cmd)) ↔
      ["COMMAND", "INFO", cmd] ∈ (w.askCommands cmds).1 ∧ (∃ v, infoOf w cmd = .ok v) ∧ ¬ PassesCommand (infoOf w cmd)) ∧
    (∀ cmd, ["COMMAND", "INFO", cmd] ∈ (w.askCommands cmds).1 → cmd ∈ cmds) ∧
    ∀ e, (w.askCommands cmds).2 = .ret (.error e) → ∃ cmd, e = .mCaptchaRediSModuleCommandNotFound cmd := by
  induction cmds with
  | nil => simp [askCommands]
  | cons c r ih =>
    obtain ⟨i1, i2, i3, i4, i5⟩ := ih
    unfold askCommands
    cases hr : w.reply ["COMMAND", "INFO", c] with
    | error e =>
      have hi : infoOf w c = .error e := hr
      refine ⟨⟨(by intro h; cases h), fun h => ?_⟩, (by intro h; cases h), fun _ cmd => ⟨(by intro h; cases h), ?_⟩, ?_, by intro e h; cases h⟩
      · have := h c (by simp)
        rw [hi] at this
        exact absurd this (not_passes_error e)
      · rintro ⟨h, ⟨v, hv⟩, -⟩
        simp only [List.mem_singleton, List.cons.injEq, and_true, true_and] at h
        subst h
        rw [hi] at hv; cases hv
      · intro cmd h
        simp only [List.mem_singleton, List.cons.injEq, and_true, true_and] at h
        rw [h]; simp
    | ok v =>
      have hi : infoOf w c = .ok v := hr
      simp only
      rcases commandCheck_iff c v with ⟨hk, hp⟩ | ⟨hk, hp⟩
      · rw [hk]
        simp only
        refine ⟨?_, i2, fun hnd cmd => ?_, ?_, i5⟩
        · rw [i1]
          simp only [List.mem_cons, forall_eq_or_imp, hi, hp, true_and]
        · rw [List.nodup_cons] at hnd
          rw [i3 hnd.2 cmd]
          simp only [List.mem_cons, List.cons.injEq, and_true, true_and]
          constructor
          · rintro ⟨h1, h2⟩; exact ⟨.inr h1, h2⟩
          · rintro ⟨h1 | h1, h2, h3⟩
            · subst h1
              rw [hi] at h3
              exact absurd hp h3
            · exact ⟨h1, h2, h3⟩
        · intro cmd h
          simp only [List.mem_cons, List.cons.injEq, and_true, true_and] at h
          rcases h with rfl | h
          · simp
          · exact List.mem_cons_of_mem _ (i4 cmd h)
      · rw [hk]
        simp only
        refine ⟨⟨(by intro h; cases h), fun h => ?_⟩, (by intro h; cases h), fun _ cmd => ?_, ?_, ?_⟩
        · have := h c (by simp)
          rw [hi] at this
          exact absurd this hp
        · simp only [List.mem_singleton, List.cons.injEq, and_true, true_and]
          constructor
          · intro h
            simp only [Exec.ret.injEq, Except.error.injEq, CaptchaError.mCaptchaRediSModuleCommandNotFound.injEq] at h
            subst h
            exact ⟨rfl, ⟨v, hi⟩, by rw [hi]; exact hp⟩
          · rintro ⟨rfl, -⟩; rfl
        · intro cmd h
          simp only [List.mem_singleton, List.cons.injEq, and_true, true_and] at h
          rw [h]; simp
        · intro e h
          simp only [Exec.ret.injEq, Except.error.injEq] at h
          exact ⟨c, h.symm⟩

/-- C69, C90, exactly: opening a back end succeeds if and only if the connection is made, the reply to `MODULE LIST` is no array or has a
first entry that is an array with a text containing the name of the module, and for each command the reply to `COMMAND INFO` is no error and
does not end with nil. What is missing against C69 and C90: only the first module listed counts, and any text in its entry. -/
theorem C69_opens_iff_partial (w : RedisWorld) (printable : Char → Bool) (cfg : RedisConfig) :
    (w.openBackend printable cfg).2 = .ret (.ok ()) ↔
      Connects w cfg ∧ PassesModules (modulesOf w) ∧ ∀ cmd ∈ moduleCommands, PassesCommand (infoOf w cmd) := by
  have hcmds : ∀ P : String → Prop, (∀ c ∈ requiredCommands, P c) ↔ ∀ c ∈ moduleCommands, P c := by
    have h1 : ∀ c ∈ requiredCommands, c ∈ moduleCommands := by decide
    have h2 : ∀ c ∈ moduleCommands, c ∈ requiredCommands := by decide
    exact fun P => ⟨fun h c hc => h c (h2 c hc), fun h c hc => h c (h1 c hc)⟩
  by_cases hc : Connects w cfg
  · simp only [hc, true_and]
    have ho : w.openBackend printable cfg = w.askModule printable := by unfold openBackend; rw [redisNew_connects hc]
    rw [ho]
    unfold askModule
    cases hr : w.reply ["MODULE", "LIST"] with
    | error e =>
      have hi : modulesOf w = .error e := hr
      rw [hi]
      refine ⟨(by intro h; cases h), ?_⟩
      rintro ⟨⟨v, h, -⟩ | ⟨fs, es, h, -⟩, -⟩ <;> cases h
    | ok v =>
      have hi : modulesOf w = .ok v := hr
      rw [hi]
      simp only
      rcases moduleCheck_iff printable v with ⟨hk, hp⟩ | ⟨hk, hp⟩
      · rw [hk]
        simp only [hp, true_and]
        rw [(askCommands_exact w requiredCommands).1, hcmds]
      · rw [hk]
        exact ⟨(by intro h; cases h), fun h => absurd h.1 hp⟩
  · exact ⟨fun h => absurd ((C106_opening_reports_partial w printable cfg).2.2 h) hc, fun h => absurd h.1 hc⟩

/-- C76, C90, exactly: when an error is returned, and which. Not being loaded is reported if and only if the reply to `MODULE LIST` is not
taken for that of a server with the module; a missing command, if and only if it was asked for and the reply ends with nil; an error of Redis
only if a cluster cannot be reached. There is no other error. What is missing against C90: see `C69_opens_iff_partial`. -/
theorem C90_refusals_partial (w : RedisWorld) (printable : Char → Bool) (cfg : RedisConfig) :
    ((w.openBackend printable cfg).2 = .ret (.error .mCaptchaRedisModuleIsNotLoaded) ↔
      Connects w cfg ∧ (∃ v, modulesOf w = .ok v) ∧ ¬ PassesModules (modulesOf w)) ∧
    (∀ cmd, (w.openBackend printable cfg).2 = .ret (.error (.mCaptchaRediSModuleCommandNotFound cmd)) ↔
      ["COMMAND", "INFO", cmd] ∈ (w.openBackend printable cfg).1 ∧ (∃ v, infoOf w cmd = .ok v) ∧ ¬ PassesCommand (infoOf w cmd)) ∧
    ∀ e, (w.openBackend printable cfg).2 = .ret (.error e) → e = .mCaptchaRedisModuleIsNotLoaded ∨
      (∃ cmd ∈ moduleCommands, e = .mCaptchaRediSModuleCommandNotFound cmd) ∨ ∃ x, e = .redisError x ∧ ¬ IsSingle cfg ∧ Unreachable w x cfg := by
  have h1 : ∀ c ∈ requiredCommands, c ∈ moduleCommands := by decide
  rcases address_cases w cfg with hm | ⟨e, hu⟩ | hc
  · have ho : w.openBackend printable cfg = ([], .panic .unwrapErr) := by unfold openBackend; rw [redisNew_malformed hm]
    have hnc : ¬ Connects w cfg := by
      intro hc
      have := redisNew_connects hc
      rw [redisNew_malformed hm] at this
      cases this
    rw [ho]
    exact ⟨⟨(by intro h; cases h), fun h => absurd h.1 hnc⟩, fun cmd => ⟨(by intro h; cases h), fun h => absurd h.1 (by simp)⟩, by intro e h; cases h⟩
  · cases cfg with
    | single url =>
      have ho : w.openBackend printable (.single url) = ([], .panic .unwrapErr) := by unfold openBackend; rw [redisNew_single hu]
      have hnc : ¬ Connects w (.single url) := by
        intro hc
        have := redisNew_connects hc
        rw [redisNew_single hu] at this
        cases this
      rw [ho]
      exact ⟨⟨(by intro h; cases h), fun h => absurd h.1 hnc⟩, fun cmd => ⟨(by intro h; cases h), fun h => absurd h.1 (by simp)⟩, by intro e h; cases h⟩
    | cluster nodes =>
      have ho : w.openBackend printable (.cluster nodes) = ([], .ret (.error (.redisError e))) := by unfold openBackend; rw [redisNew_cluster hu]
      have hnc : ¬ Connects w (.cluster nodes) := by
        intro hc
        have := redisNew_connects hc
        rw [redisNew_cluster hu] at this
        cases this
      rw [ho]
      refine ⟨⟨(by intro h; cases h), fun h => absurd h.1 hnc⟩, fun cmd => ⟨(by intro h; cases h), fun h => absurd h.1 (by simp)⟩, fun x h => ?_⟩
      simp only [Exec.ret.injEq, Except.error.injEq] at h
      exact .inr (.inr ⟨e, h.symm, (by rintro ⟨u, h⟩; cases h), hu⟩)
  · have ho : w.openBackend printable cfg = w.askModule printable := by unfold openBackend; rw [redisNew_connects hc]
    rw [ho]
    obtain ⟨-, a2, a3, a4, a5⟩ := askCommands_exact w requiredCommands
    have a3 := a3 (by decide)
    unfold askModule
    cases hr : w.reply ["MODULE", "LIST"] with
    | error e =>
      have hi : modulesOf w = .error e := hr
      rw [hi]
      refine ⟨⟨(by intro h; cases h), ?_⟩, fun cmd => ⟨(by intro h; cases h), fun h => absurd h.1 (by simp)⟩, by intro e h; cases h⟩
      rintro ⟨-, ⟨v, h⟩, -⟩; cases h
    | ok v =>
      have hi : modulesOf w = .ok v := hr
      rw [hi]
      simp only
      rcases moduleCheck_iff printable v with ⟨hk, hp⟩ | ⟨hk, hp⟩
      · rw [hk]
        simp only
        refine ⟨⟨fun h => absurd h a2, fun h => absurd hp h.2.2⟩, fun cmd => ?_, fun e h => ?_⟩
        · rw [a3 cmd]
          simp
        · obtain ⟨cmd, rfl⟩ := a5 e h
          exact .inr (.inl ⟨cmd, h1 cmd (a4 cmd ((a3 cmd).1 h).1), rfl⟩)
      · rw [hk]
        refine ⟨⟨fun _ => ⟨hc, ⟨v, rfl⟩, hp⟩, fun _ => rfl⟩, fun cmd => ⟨(by intro h; cases h), fun h => absurd h.1 (by simp)⟩, fun e h => ?_⟩
        simp only [Exec.ret.injEq, Except.error.injEq] at h
        exact .inl h.symm

/-- A server whose only module has the name inside its path, and which answers `COMMAND INFO` with two values: accepted. -/
example : let w := { goodWorld with reply := fun q => if q = ["MODULE", "LIST"] then .ok (.array [.array [.bulk "name", .bulk "search", .bulk "path",
      .bulk "/opt/mcaptcha_cache/search.so"]]) else .ok (.array [.nil, .int 1]) }
    Connects w (.single "u") ∧ PassesModules (modulesOf w) ∧ ∀ cmd ∈ moduleCommands, PassesCommand (infoOf w cmd) := by
  refine ⟨⟨rfl, rfl⟩, .inr ⟨_, _, rfl, _, by simp, .bulk "/opt/" "/search.so"⟩, fun cmd _ => ⟨_, rfl, fun vs e => ?_⟩⟩
  simp only [RValue.array.injEq] at e
  subst e
  simp

/-- A server that lacks the third command asked for. -/
example : let w := { goodWorld with reply := fun q => if q = ["COMMAND", "INFO", "MCAPTCHA_CACHE.DELETE_CAPTCHA"] then .ok (.array [.nil]) else goodWorld.reply q }
    (w.openBackend (fun _ => true) (.single "u")).2 = .ret (.error (.mCaptchaRediSModuleCommandNotFound "MCAPTCHA_CACHE.DELETE_CAPTCHA")) ∧
    (w.openBackend (fun _ => true) (.single "u")).1.length = 4 := by decide +kernel

end MCap
