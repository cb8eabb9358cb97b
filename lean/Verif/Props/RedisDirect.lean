import Verif.Spec.RedisDirect
import Verif.Props.Redis

/-!
# C129 The methods of a Redis connection
-/

namespace MCap
open Spec

/-- Every method sends the command meant for it, with its arguments in place. -/
theorem C129_commands (c : ConnCall) : Carries c c.command := by
  cases c with
  | ping => exact .ping
  | addVisitor id => exact .addVisitor id
  | addMcaptcha id m => exact .addMcaptcha id m _ (toStr_denotes _)
  | checkCaptchaExists id => exact .checkCaptchaExists id
  | deleteCaptcha id => exact .deleteCaptcha id
  | renameCaptcha a b => exact .renameCaptcha a b
  | addChallenge id c => exact .addChallenge id c _ (toStr_denotes _)
  | getChallenge v => exact .getChallenge v
  | deleteChallenge v => exact .deleteChallenge v
  | getVisitors id => exact .getVisitors id
  | addToken r => exact .addToken r _ (toString_number _)
  | getToken v => exact .getToken v
  | deleteToken v => exact .deleteToken v

/-- Every command any method sends is one that every server has, or one the server was found not to lack when the connection was opened. -/
theorem C129_checked (c : ConnCall) (name : String) (args : List String) (h : Carries c (name :: args)) (printable : Char → Bool) (modules : RResult)
    (info : String → RResult) (ho : RedisClient.isModuleLoaded printable modules info = .ret (.ok ())) :
    name ∈ coreCommands ∨ ¬ LacksCommand info name := by
  have key : name ∈ coreCommands ∨ name ∈ moduleCommands := by
    cases h <;> decide
  rcases key with h | h
  · exact .inl h
  · exact .inr fun hl => C76_lacking_refused printable modules info name h hl ho

example : ∃ modules info, RedisClient.isModuleLoaded (fun _ => true) modules info = .ret (.ok ()) ∧
    ∀ c ∈ moduleCommands, KnowsCommand info c :=
  ⟨.ok (.array [.array [.bulk "name", .bulk "mcaptcha_cache"]]), fun c => .ok (.array [.array [.bulk c]]), by decide +kernel,
    fun c _ => ⟨_, rfl, by simp⟩⟩

theorem toStr_inj {a b : Json} (h : toStr a = toStr b) : a = b := by
  have h1 : a.text = b.text := by simpa [toStr] using congrArg String.toList h
  have := parse_text a
  rw [h1, parse_text b] at this
  exact (Option.some.inj this).symm

theorem toString_inj {a b : Nat} (h : toString a = toString b) : a = b := by
  have ha := number_text a
  have hb := number_text b
  have e : Nat.toDigits 10 a = Nat.toDigits 10 b := by
    simpa [Nat.toString_eq_repr, Nat.repr] using congrArg String.toList h
  rw [e] at ha
  rw [← ha.2.2.2, hb.2.2.2]

/-- Two calls send the same command only if they are the same, or both take out a token of the same Redis key, or both register the same
levels and duration under the same name. -/
theorem C129_distinct (c c' : ConnCall) (h : c.command = c'.command) :
    c = c' ∨ (∃ v v', TakesToken c v ∧ TakesToken c' v' ∧ tokenKey v.key v.token = tokenKey v'.key v'.token) ∨
    ∃ id m m', c = .addMcaptcha id m ∧ c' = .addMcaptcha id m' ∧ m.defense.levels = m'.defense.levels ∧ m.duration = m'.duration := by
  cases c <;> cases c' <;>
    simp only [ConnCall.command, RedisClient.pingCmd, RedisClient.addVisitorCmd, RedisClient.addMcaptchaCmd, RedisClient.existsCmd,
      RedisClient.deleteCaptchaCmd, RedisClient.renameCmd, RedisClient.addChallengeCmd, RedisClient.getChallengeCmd,
      RedisClient.deleteChallengeCmd, RedisClient.getVisitorsCmd, RedisClient.addTokenCmd, RedisClient.getTokenCmd,
      RedisClient.deleteTokenCmd, List.cons.injEq, reduceCtorEq, and_true, and_false, String.reduceEq, false_and, true_and] at h
  case ping.ping => exact .inl rfl
  case addVisitor.addVisitor => exact .inl (by rw [h])
  case checkCaptchaExists.checkCaptchaExists => exact .inl (by rw [h])
  case deleteCaptcha.deleteCaptcha => exact .inl (by rw [h])
  case renameCaptcha.renameCaptcha => exact .inl (by rw [h.1, h.2])
  case getVisitors.getVisitors => exact .inl (by rw [h])
  case addMcaptcha.addMcaptcha id m id' m' =>
    obtain ⟨rfl, h⟩ := h
    refine .inr (.inr ⟨id, m, m', rfl, rfl, ?_⟩)
    have := toStr_inj h
    simp only [MCaptcha.toCreate, CreateMCaptcha.toJson, Defense.toLevels, Json.obj.injEq, List.cons.injEq, Prod.mk.injEq, Json.arr.injEq,
      Json.num.injEq, and_true, true_and] at this
    refine ⟨?_, this.2⟩
    refine (List.map_inj_right ?_).1 this.1
    intro l l' hl
    simp only [Level.toJson, Json.obj.injEq, List.cons.injEq, Prod.mk.injEq, Json.num.injEq, and_true, true_and] at hl
    cases l; cases l'
    simp only at hl
    rw [hl.1, hl.2]
  case addChallenge.addChallenge id c id' c' =>
    obtain ⟨rfl, h⟩ := h
    have := toStr_inj h
    simp only [AddChallenge.toJson, Json.obj.injEq, List.cons.injEq, Prod.mk.injEq, Json.num.injEq, Json.str.injEq, and_true, true_and] at this
    obtain ⟨h1, h2, h3⟩ := this
    cases c; cases c'
    simp only at h1 h2 h3
    rw [h1, h2, String.toList_injective h3]; exact .inl rfl
  case getChallenge.getChallenge v v' => cases v; cases v'; simp only at h; rw [h.1, h.2]; exact .inl rfl
  case deleteChallenge.deleteChallenge v v' => cases v; cases v'; simp only at h; rw [h.1, h.2]; exact .inl rfl
  case addToken.addToken r r' =>
    obtain ⟨h1, h2, h3⟩ := h
    have h3 := toString_inj h3
    have h4 : (tokenKey r.key r.token).toList = (tokenKey r'.key r'.token).toList := by rw [h1]
    rw [tokenKey_toList, tokenKey_toList, h2] at h4
    have h5 := List.append_cancel_left (List.append_cancel_left h4)
    have h6 : r.token = r'.token := String.toList_injective (List.cons.inj h5).2
    cases r; cases r'
    simp only at h2 h3 h6
    rw [h2, h3, h6]; exact .inl rfl
  case getToken.getToken v v' => exact .inr (.inl ⟨v, v', .inl rfl, .inl rfl, h⟩)
  case getToken.deleteToken v v' => exact .inr (.inl ⟨v, v', .inl rfl, .inr rfl, h⟩)
  case deleteToken.getToken v v' => exact .inr (.inl ⟨v, v', .inr rfl, .inl rfl, h⟩)
  case deleteToken.deleteToken v v' => exact .inr (.inl ⟨v, v', .inr rfl, .inr rfl, h⟩)

/-- A method panics exactly if a token could not be stored, or the answer to a visit or a question for a challenge is a text that is no
such JSON. -/
theorem C129_panics_iff (c : ConnCall) (r : RResult) :
    (∃ w, c.finish r = .panic w) ↔
      ((∃ m e, c = .addToken m ∧ r = .error e) ∨
       (((∃ id, c = .addVisitor id) ∨ ∃ v, c = .getChallenge v) ∧ ∃ s, ReadsAs r s ∧ ∀ x, ¬ VisitorText s x)) := by
  have hread : ∀ s : String, r.bind RValue.readString = .ok s ↔ ReadsAs r s := by
    intro s
    cases r with
    | error e => simp [Except.bind, ReadsAs]
    | ok v => cases v <;> simp [Except.bind, RValue.readString, ReadsAs, eq_comm]
  have hvis : (∃ s w, r.bind RValue.readString = .ok s ∧ readVisitor s = .panic w) ↔ ∃ s, ReadsAs r s ∧ ∀ x, ¬ VisitorText s x := by
    constructor
    · rintro ⟨s, w, h1, h2⟩
      refine ⟨s, (hread s).1 h1, fun x hx => ?_⟩
      rw [(readVisitor_iff s x).2 hx] at h2; cases h2
    · rintro ⟨s, h1, h2⟩
      cases hv : readVisitor s with
      | panic w => exact ⟨s, w, (hread s).2 h1, hv⟩
      | ret x => exact absurd ((readVisitor_iff s x).1 hv) (h2 x)
  have hunit : ¬ ∃ w, (RedisClient.unitReply r).map ConnAnswer.unit = .panic w := by
    cases r <;> simp [RedisClient.unitReply, Exec.map]
  cases c <;> simp only [ConnCall.finish, reduceCtorEq, exists_false, false_and, exists_eq', false_or, or_false, true_and, ConnCall.addToken.injEq]
  case addVisitor id =>
    rw [← hvis]
    simp only [RedisClient.addVisitor]
    cases r.bind RValue.readString with
    | error e => simp [Exec.map]
    | ok s => cases hx : readVisitor s <;> simp [Exec.map, hx]
  case getChallenge v =>
    rw [← hvis]
    simp only [RedisClient.getChallenge]
    cases r.bind RValue.readString with
    | error e => simp [Exec.map]
    | ok s => cases hx : readVisitor s <;> simp [Exec.map, hx]
  case addToken m => cases r <;> simp [RedisClient.addToken, Exec.map]
  case checkCaptchaExists id =>
    simp only [RedisClient.captchaExists]
    cases r.bind RValue.readUsize <;> simp [Exec.map]
  case getVisitors id =>
    simp only [RedisClient.getVisitors]
    cases r.bind RValue.readUsize <;> simp [Exec.map]
  case getToken v =>
    simp only [RedisClient.getToken]
    cases r.bind RValue.readI32 <;> simp [Exec.map]
  all_goals simpa using hunit

example : ∃ w, (ConnCall.addVisitor "a").finish (.ok (.bulk "{\"duration\":30}")) = .panic w := ⟨.unwrapErr, by decide +kernel⟩

/-- An error the server gives is returned as such by every method but two: `ping` says `false`, and `add_token` panics (C77). -/
theorem C129_errors (c : ConnCall) (e : String) (ht : ∀ m, c ≠ .addToken m) :
    (c = .ping ∧ c.finish (.error e) = .ret (.flag false)) ∨ ∃ a, c.finish (.error e) = .ret a ∧ FailsWith (.redisError e) a := by
  cases c
  case ping => exact .inl ⟨rfl, rfl⟩
  case addToken m => exact absurd rfl (ht m)
  all_goals exact .inr ⟨_, rfl, rfl⟩

/-- A reply that fits the call is returned as what it stands for. -/
theorem C129_answers (c : ConnCall) (r : RResult) (a : ConnAnswer) (h : AnswersWith c r a) : c.finish r = .ret a := by
  have hread : ∀ s : String, ReadsAs r s → r.bind RValue.readString = .ok s := by
    rintro s (rfl | rfl | ⟨rfl, rfl⟩ | ⟨i, rfl, rfl⟩) <;> rfl
  cases h with
  | pong => decide
  | noPong _ h =>
    simp only [ConnCall.finish, RedisClient.ping]
    cases r with
    | error e => rfl
    | ok v =>
      cases v with
      | simple s =>
        have : s ≠ "PONG" := by rintro rfl; exact h rfl
        simp [this]
      | _ => rfl
  | addVisitor id _ s x hr hx => simp [ConnCall.finish, RedisClient.addVisitor, hread s hr, (readVisitor_iff s x).2 hx, Exec.map]
  | getChallenge v _ s x hr hx => simp [ConnCall.finish, RedisClient.getChallenge, hread s hr, (readVisitor_iff s x).2 hx, Exec.map]
  | isThere id => rfl
  | isNotThere id => rfl
  | oddExists id i h =>
    have h1 : wrapUsize i = i := by unfold wrapUsize; omega
    have h2 : i ≠ 1 ∧ i ≠ 0 := by omega
    simp [ConnCall.finish, RedisClient.captchaExists, Except.bind, RValue.readUsize, h1, h2, Exec.map]
  | getVisitors id i h =>
    have h1 : wrapUsize i = i := by unfold wrapUsize; omega
    simp [ConnCall.finish, RedisClient.getVisitors, Except.bind, RValue.readUsize, h1, Exec.map]
  | tokenTaken v => rfl
  | noToken v => rfl
  | _ => rfl

example : AnswersWith (.getVisitors "a") (.ok (.int 7)) (.count (.ok 7)) ∧
    AnswersWith .ping (.ok (.bulk "PONG")) (.flag false) := ⟨.getVisitors _ _ (by decide), .noPong _ (by simp)⟩

end MCap
