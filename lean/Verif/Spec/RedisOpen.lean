import Verif.Model.RedisOpen
import Verif.Spec.Redis

/-!
# Specification of opening a Redis back end
-/

namespace MCap.Spec

/-- The `redis` crate does not accept the address. -/
def Malformed (w : RedisWorld) : RedisConfig → Prop
  | .single url => ∃ e, w.parseUrl url = .error e
  | .cluster nodes => ∃ e, w.parseNodes nodes = .error e

/-- The address is in order, but connecting fails with `e`. -/
def Unreachable (w : RedisWorld) (e : String) : RedisConfig → Prop
  | .single url => w.parseUrl url = .ok () ∧ w.reach url = .error e
  | .cluster nodes => w.parseNodes nodes = .ok () ∧ w.reachNodes nodes = .error e

/-- The address is in order and the connection is made. -/
def Connects (w : RedisWorld) : RedisConfig → Prop
  | .single url => w.parseUrl url = .ok () ∧ w.reach url = .ok ()
  | .cluster nodes => w.parseNodes nodes = .ok () ∧ w.reachNodes nodes = .ok ()

/-- One server, not a cluster. -/
def IsSingle (cfg : RedisConfig) : Prop := ∃ url, cfg = .single url

/-- The reply to `MODULE LIST`. -/
def modulesOf (w : RedisWorld) : RResult := w.reply ["MODULE", "LIST"]

/-- The replies to `COMMAND INFO`. -/
def infoOf (w : RedisWorld) (cmd : String) : RResult := w.reply ["COMMAND", "INFO", cmd]

/-- The reply to `MODULE LIST` is taken for that of a server with the module: it is no array, or its first entry is an array in which a
text contains the name. -/
def PassesModules (r : RResult) : Prop :=
  (∃ v, r = .ok v ∧ ∀ vs, v ≠ .array vs) ∨ ∃ fs es, r = .ok (.array (.array fs :: es)) ∧ ∃ f ∈ fs, Mentions "mcaptcha_cache" f

/-- The reply to `COMMAND INFO` is taken for that of a server with the command: it is no array, or one that does not end with nil. -/
def PassesCommand (r : RResult) : Prop := ∃ v, r = .ok v ∧ ∀ vs, v = .array vs → vs.getLast? ≠ some .nil

end MCap.Spec
