import Verif.Model.RedisCluster
import Verif.Spec.Redis

/-!
# Actors on a Redis cluster
-/

namespace MCap.Spec

/-- What an actor does, as opposed to what is asked of it. -/
def byActor : REvent → Bool
  | .sent _ _ _ => false
  | .refused _ _ => false
  | _ => true

end MCap.Spec
