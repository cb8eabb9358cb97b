import Verif.Spec.RedisOpen
import Verif.Props.Redis

/-!
# Opening a Redis back end (C106, C107; C69, C76, C90 for `MCaptchaRedis::new`)
-/

namespace MCap
open Spec RedisWorld

theorem redisNew_connects {w : RedisWorld} {cfg : RedisConfig} (h : Connects w cfg) : w.redisNew cfg = .ret (.ok ()) := by
  cases cfg <;> simp only [Connects] at h <;> simp [redisNew, connect, h.1, h.2]

theorem redisNew_malformed {w : RedisWorld} {cfg : RedisConfig} (h : Malformed w cfg) : w.redisNew cfg = .panic .unwrapErr := by
  cases cfg <;> obtain ⟨e, h⟩ := h <;> simp [redisNew, connect, h]

theorem redisNew_single {w : RedisWorld} {url e : String} (h : Unreachable w e (.single url)) :
    w.redisNew (.single url) = .panic .unwrapErr := by
  simp only [Unreachable] at h
  simp [redisNew, connect, h.1, h.2]

theorem redisNew_cluster {w : RedisWorld} {nodes : List String} {e : String} (h : Unreachable w e (.cluster nodes)) :
    w.redisNew (.cluster nodes) = .ret (.error (.redisError e)) := by
  simp only [Unreachable] at h
  simp [redisNew, connect, h.1, h.2]

/-- There are no other cases. -/
theorem address_cases (w : RedisWorld) (cfg : RedisConfig) : Malformed w cfg ∨ (∃ e, Unreachable w e cfg) ∨ Connects w cfg := by
  cases cfg with
  | single url =>
    simp only [Malformed, Unreachable, Connects]
    cases h : w.parseUrl url with
    | error e => exact .inl ⟨e, rfl⟩
    | ok u =>
      cases h' : w.reach url with
      | error e => exact .inr (.inl ⟨e, rfl, rfl⟩)
      | ok u => exact .inr (.inr ⟨rfl, rfl⟩)
  | cluster nodes =>
    simp only [Malformed, Unreachable, Connects]
    cases h : w.parseNodes nodes with
    | error e => exact .inl ⟨e, rfl⟩
    | ok u =>
      cases h' : w.reachNodes nodes with
      | error e => exact .inr (.inl ⟨e, rfl, rfl⟩)
      | ok u => exact .inr (.inr ⟨rfl, rfl⟩)

theorem askCommands_outcome (w : RedisWorld) (cmds : List String) :
    (w.askCommands cmds).2 = RedisClient.commandsCheck (infoOf w) cmds := by
  induction cmds with
  | nil => rfl
  | cons c r ih =>
    unfold askCommands RedisClient.commandsCheck infoOf
    cases w.reply ["COMMAND", "INFO", c] with
    | error e => rfl
    | ok v =>
      simp only
      cases RedisClient.commandCheck c v with
      | error e => rfl
      | ok u => exact ih

theorem openBackend_connects {w : RedisWorld} {cfg : RedisConfig} (printable : Char → Bool) (h : Connects w cfg) :
    (w.openBackend printable cfg).2 = RedisClient.isModuleLoaded printable (modulesOf w) (infoOf w) := by
  unfold openBackend
  rw [redisNew_connects h]
  simp only
  unfold askModule RedisClient.isModuleLoaded modulesOf
  cases w.reply ["MODULE", "LIST"] with
  | error e => rfl
  | ok v =>
    simp only
    cases RedisClient.moduleCheck printable v with
    | error e => rfl
    | ok u => exact askCommands_outcome w _

/-! ## C106 -/

/-- A server at its address, which answers nothing yet. -/
def quietWorld : RedisWorld :=
  { parseUrl := fun _ => .ok (), reach := fun _ => .error "Connection refused", parseNodes := fun _ => .ok (),
    reachNodes := fun _ => .error "Failed to create initial connections", reply := fun _ => .error "NOPERM" }

/-- C106 is refuted in three ways: a malformed address, a server that cannot be reached, and one that refuses a question make
`MCaptchaRedis::new`, `Master::new` and `RedisCache::new` panic. -/
theorem C106_opening_reports_refuted :
    (¬ ∀ w printable cfg, Malformed w cfg → ∃ r, (openBackend w printable cfg).2 = .ret r) ∧
    (¬ ∀ w printable cfg e, Unreachable w e cfg → ∃ r, (openBackend w printable cfg).2 = .ret r) ∧
    (¬ ∀ w printable cfg, Connects w cfg → ∃ r, (openBackend w printable cfg).2 = .ret r) := by
  refine ⟨fun h => ?_, fun h => ?_, fun h => ?_⟩
  · obtain ⟨r, hr⟩ := h { quietWorld with parseUrl := fun _ => .error "Redis URL did not parse" } (fun _ => true) (.single "localhost") ⟨_, rfl⟩
    cases hr
  · obtain ⟨r, hr⟩ := h quietWorld (fun _ => true) (.single "redis://localhost") _ ⟨rfl, rfl⟩
    cases hr
  · obtain ⟨r, hr⟩ := h { quietWorld with reach := fun _ => .ok () } (fun _ => true) (.single "redis://localhost") ⟨rfl, rfl⟩
    cases hr

theorem askCommands_panic (w : RedisWorld) (cmds : List String) :
    (∃ why, (w.askCommands cmds).2 = .panic why) ↔ ∃ q ∈ (w.askCommands cmds).1, ∃ e, w.reply q = .error e := by
  induction cmds with
  | nil => simp [askCommands]
  | cons c r ih =>
    unfold askCommands
    cases hr : w.reply ["COMMAND", "INFO", c] with
    | error e => simp [hr]
    | ok v =>
      simp only
      cases RedisClient.commandCheck c v with
      | error e => simp [hr]
      | ok u => simp [hr, ih]

theorem askModule_panic (w : RedisWorld) (printable : Char → Bool) :
    (∃ why, (w.askModule printable).2 = .panic why) ↔ ∃ q ∈ (w.askModule printable).1, ∃ e, w.reply q = .error e := by
  unfold askModule
  cases hr : w.reply ["MODULE", "LIST"] with
  | error e => simp [hr]
  | ok v =>
    simp only
    cases RedisClient.moduleCheck printable v with
    | error e => simp [hr]
    | ok u => simp [hr, askCommands_panic]

/-- Missing: what panics. Opening a back end panics exactly if the address is malformed, or a single server cannot be reached, or the
server replied to a question asked with an error; a cluster that cannot be reached is reported as the error of Redis; and it succeeds
only on a connection. -/
theorem C106_opening_reports_partial (w : RedisWorld) (printable : Char → Bool) (cfg : RedisConfig) :
    ((∃ why, (w.openBackend printable cfg).2 = .panic why) ↔
      Malformed w cfg ∨ (IsSingle cfg ∧ ∃ e, Unreachable w e cfg) ∨
        (Connects w cfg ∧ ∃ q ∈ (w.openBackend printable cfg).1, ∃ e, w.reply q = .error e)) ∧
    (∀ e, ¬ IsSingle cfg → Unreachable w e cfg → w.openBackend printable cfg = ([], .ret (.error (.redisError e)))) ∧
    ((w.openBackend printable cfg).2 = .ret (.ok ()) → Connects w cfg) := by
  have excl : ∀ cfg, ¬ (Malformed w cfg ∧ Connects w cfg) ∧ ∀ e, ¬ (Unreachable w e cfg ∧ Connects w cfg) := by
    intro cfg
    cases cfg <;> simp only [Malformed, Connects, Unreachable] <;> constructor
    · rintro ⟨⟨e, h⟩, h', -⟩; rw [h] at h'; cases h'
    · rintro e ⟨⟨-, h⟩, -, h'⟩; rw [h] at h'; cases h'
    · rintro ⟨⟨e, h⟩, h', -⟩; rw [h] at h'; cases h'
    · rintro e ⟨⟨-, h⟩, -, h'⟩; rw [h] at h'; cases h'
  rcases address_cases w cfg with hm | ⟨e, hu⟩ | hc
  · have ho : w.openBackend printable cfg = ([], .panic .unwrapErr) := by unfold openBackend; rw [redisNew_malformed hm]
    rw [ho]
    refine ⟨⟨fun _ => .inl hm, fun _ => ⟨_, rfl⟩⟩, fun e hs hu => ?_, fun h => by cases h⟩
    exfalso
    cases cfg with
    | single url => exact hs ⟨url, rfl⟩
    | cluster nodes =>
      obtain ⟨e', h⟩ := hm
      simp only [Unreachable] at hu
      rw [h] at hu; cases hu.1
  · cases cfg with
    | single url =>
      have ho : w.openBackend printable (.single url) = ([], .panic .unwrapErr) := by unfold openBackend; rw [redisNew_single hu]
      rw [ho]
      exact ⟨⟨fun _ => .inr (.inl ⟨⟨_, rfl⟩, e, hu⟩), fun _ => ⟨_, rfl⟩⟩, fun _ hs => absurd ⟨_, rfl⟩ hs, fun h => by cases h⟩
    | cluster nodes =>
      have ho : w.openBackend printable (.cluster nodes) = ([], .ret (.error (.redisError e))) := by
        unfold openBackend; rw [redisNew_cluster hu]
      rw [ho]
      refine ⟨⟨?_, ?_⟩, fun e' _ hu' => ?_, fun h => by cases h⟩
      · rintro ⟨_, h⟩; cases h
      · rintro (⟨e', h⟩ | ⟨⟨u, h⟩, -⟩ | ⟨-, q, hq, -⟩)
        · simp only [Unreachable] at hu
          rw [h] at hu; cases hu.1
        · cases h
        · cases hq
      · simp only [Unreachable] at hu hu'
        have : e = e' := by
          have := hu.2.symm.trans hu'.2
          simpa using this
        rw [this]
  · have ho : w.openBackend printable cfg = w.askModule printable := by unfold openBackend; rw [redisNew_connects hc]
    rw [ho]
    refine ⟨?_, fun e _ hu => absurd ⟨hu, hc⟩ ((excl cfg).2 e), fun _ => hc⟩
    rw [askModule_panic]
    constructor
    · exact fun h => .inr (.inr ⟨hc, h⟩)
    · rintro (hm | ⟨-, e, hu⟩ | ⟨-, h⟩)
      · exact absurd ⟨hm, hc⟩ (excl cfg).1
      · exact absurd ⟨hu, hc⟩ ((excl cfg).2 e)
      · exact h

/-- A server that is as it should be. -/
def goodWorld : RedisWorld :=
  { quietWorld with
    reach := fun _ => .ok ()
    reply := fun q => if q = ["MODULE", "LIST"] then .ok (.array [.array [.bulk "name", .bulk "mcaptcha_cache"]])
      else .ok (.array [.array (q.map RValue.bulk)]) }

example : Connects goodWorld (.single "redis://localhost") ∧
    (goodWorld.openBackend (fun _ => true) (.single "redis://localhost")).2 = .ret (.ok ()) ∧
    Unreachable goodWorld "Failed to create initial connections" (.cluster ["redis://a", "redis://b"]) := by
  refine ⟨⟨rfl, rfl⟩, by decide +kernel, rfl, rfl⟩

/-! ## C107 -/

theorem askCommands_log (w : RedisWorld) (cmds : List String) :
    (w.askCommands cmds).1 <+: cmds.map (fun c => ["COMMAND", "INFO", c]) ∧
    ((w.askCommands cmds).2 = .ret (.ok ()) → (w.askCommands cmds).1 = cmds.map (fun c => ["COMMAND", "INFO", c])) := by
  induction cmds with
  | nil => exact ⟨List.prefix_refl _, fun _ => rfl⟩
  | cons c r ih =>
    unfold askCommands
    cases w.reply ["COMMAND", "INFO", c] with
    | error e => exact ⟨⟨_, rfl⟩, fun h => by cases h⟩
    | ok v =>
      simp only
      cases RedisClient.commandCheck c v with
      | error e => exact ⟨⟨_, rfl⟩, fun h => by cases h⟩
      | ok u =>
        refine ⟨?_, fun h => ?_⟩
        · rw [List.map_cons]; exact List.prefix_cons_inj _ |>.2 ih.1
        · rw [List.map_cons, ← ih.2 h]

theorem askModule_log (w : RedisWorld) (printable : Char → Bool) :
    (w.askModule printable).1 <+: ["MODULE", "LIST"] :: RedisClient.requiredCommands.map (fun c => ["COMMAND", "INFO", c]) ∧
    ((w.askModule printable).2 = .ret (.ok ()) →
      (w.askModule printable).1 = ["MODULE", "LIST"] :: RedisClient.requiredCommands.map (fun c => ["COMMAND", "INFO", c])) := by
  unfold askModule
  cases w.reply ["MODULE", "LIST"] with
  | error e => exact ⟨⟨_, rfl⟩, fun h => by cases h⟩
  | ok v =>
    simp only
    cases RedisClient.moduleCheck printable v with
    | error e => exact ⟨⟨_, rfl⟩, fun h => by cases h⟩
    | ok u =>
      obtain ⟨h1, h2⟩ := askCommands_log w RedisClient.requiredCommands
      exact ⟨List.prefix_cons_inj _ |>.2 h1, fun h => by rw [h2 h]⟩

/-- C107: opening a back end sends nothing but `MODULE LIST` and `COMMAND INFO` for commands of the module, each at most once, and
nothing without a connection; and if it succeeds it has asked for the modules and for every command of the module that the library
uses. -/
theorem C107_opening_only_asks (w : RedisWorld) (printable : Char → Bool) (cfg : RedisConfig) :
    (∀ q ∈ (w.openBackend printable cfg).1, q = ["MODULE", "LIST"] ∨ ∃ c ∈ moduleCommands, q = ["COMMAND", "INFO", c]) ∧
    (w.openBackend printable cfg).1.Nodup ∧
    ((w.openBackend printable cfg).1 ≠ [] → Connects w cfg) ∧
    ((w.openBackend printable cfg).2 = .ret (.ok ()) →
      ["MODULE", "LIST"] ∈ (w.openBackend printable cfg).1 ∧ ∀ c ∈ moduleCommands, ["COMMAND", "INFO", c] ∈ (w.openBackend printable cfg).1) := by
  by_cases hc : Connects w cfg
  · have ho : w.openBackend printable cfg = w.askModule printable := by unfold openBackend; rw [redisNew_connects hc]
    rw [ho]
    obtain ⟨h1, h2⟩ := askModule_log w printable
    refine ⟨fun q hq => ?_, ?_, fun _ => hc, fun h => ?_⟩
    · have := h1.subset hq
      revert this
      have all : ∀ q ∈ ["MODULE", "LIST"] :: RedisClient.requiredCommands.map (fun c => ["COMMAND", "INFO", c]),
          q = ["MODULE", "LIST"] ∨ ∃ c ∈ moduleCommands, q = ["COMMAND", "INFO", c] := by decide
      exact all q
    · have : (["MODULE", "LIST"] :: RedisClient.requiredCommands.map (fun c => ["COMMAND", "INFO", c])).Nodup := by decide
      exact this.sublist h1.sublist
    · rw [h2 h]
      exact ⟨by decide, by decide⟩
  · have ho : (w.openBackend printable cfg).1 = [] := by
      rcases address_cases w cfg with hm | ⟨e, hu⟩ | h
      · unfold openBackend; rw [redisNew_malformed hm]
      · cases cfg with
        | single url => unfold openBackend; rw [redisNew_single hu]
        | cluster nodes => unfold openBackend; rw [redisNew_cluster hu]
      · exact absurd h hc
    rw [ho]
    exact ⟨fun q hq => absurd hq (by simp), List.nodup_nil, fun h => absurd rfl h,
      fun h => absurd ((C106_opening_reports_partial w printable cfg).2.2 h) hc⟩

/-- On a good server, ten questions. -/
example : (goodWorld.openBackend (fun _ => true) (.single "redis://localhost")).1.length = 10 := by decide +kernel

/-! ## C69, C76, C90 for `MCaptchaRedis::new` -/

/-- Missing: servers listing another module first. Opening a back end on a server that lists the module first and knows the commands
succeeds. -/
theorem C69_opens_partial (w : RedisWorld) (printable : Char → Bool) (cfg : RedisConfig) (fs es : List RValue) (hw : Connects w cfg)
    (hm : modulesOf w = .ok (.array (.array fs :: es))) (hn : .bulk "mcaptcha_cache" ∈ fs)
    (hc : ∀ cmd ∈ moduleCommands, KnowsCommand (infoOf w) cmd) : (w.openBackend printable cfg).2 = .ret (.ok ()) := by
  rw [openBackend_connects printable hw, hm]
  exact C69_module_accepted_partial printable fs es _ hn hc

example : Connects goodWorld (.single "u") ∧ modulesOf goodWorld = .ok (.array (.array [.bulk "name", .bulk "mcaptcha_cache"] :: [])) ∧
    ∀ cmd ∈ moduleCommands, KnowsCommand (infoOf goodWorld) cmd :=
  ⟨⟨rfl, rfl⟩, rfl, fun c _ => ⟨.array [.bulk "COMMAND", .bulk "INFO", .bulk c], rfl, by intro h; cases h⟩⟩

/-- Opening a back end never succeeds on a server lacking one of the commands. -/
theorem C76_opens (w : RedisWorld) (printable : Char → Bool) (cfg : RedisConfig) (cmd : String) (hm : cmd ∈ moduleCommands)
    (hl : LacksCommand (infoOf w) cmd) : (w.openBackend printable cfg).2 ≠ .ret (.ok ()) := by
  intro h
  have hw := (C106_opening_reports_partial w printable cfg).2.2 h
  rw [openBackend_connects printable hw] at h
  exact C76_lacking_refused printable _ _ cmd hm hl h

example : "MCAPTCHA_CACHE.GET" ∈ moduleCommands ∧
    LacksCommand (infoOf { goodWorld with reply := fun q => if q.getLast? = some "MCAPTCHA_CACHE.GET" then .ok (.array [.nil]) else goodWorld.reply q })
      "MCAPTCHA_CACHE.GET" := ⟨by decide, rfl⟩

/-- Missing: names and paths of other modules that contain the name. On a server whose first module listed nowhere mentions the name,
and on one without modules, opening a back end reports MCaptchaRedisModuleIsNotLoaded. -/
theorem C90_opens_partial (w : RedisWorld) (printable : Char → Bool) (cfg : RedisConfig) (es : List RValue) (hw : Connects w cfg)
    (hm : modulesOf w = .ok (.array es)) (h : ∀ e, es.head? = some e → ¬ Mentions "mcaptcha_cache" e) :
    (w.openBackend printable cfg).2 = .ret (.error .mCaptchaRedisModuleIsNotLoaded) := by
  rw [openBackend_connects printable hw, hm]
  cases es with
  | nil => exact C90_no_modules_partial printable _
  | cons e es => exact C90_no_module_refused_partial printable e es _ (h e rfl)

example : let w := { goodWorld with reply := fun _ => .ok (.array []) }
    Connects w (.single "u") ∧ modulesOf w = .ok (.array []) := ⟨⟨rfl, rfl⟩, rfl⟩

end MCap
