import Verif.Model.Random

/-!
# Which calls choose or provide the shared generator
-/

namespace Cmomy

namespace Spec

open Random

/-- Calls that choose a shared generator: `set_internal_rng`, and `default_rng` with a usable seed. -/
def Chooses : Event → Prop
  | .set _ => True
  | .default (.seed z) => 0 ≤ z
  | _ => False

/-- Calls after which a shared generator exists. -/
def Provides : Event → Prop
  | .set _ => True
  | .default (.seed z) => 0 ≤ z
  | .default .none => True
  | .validate .none => True
  | _ => False

end Spec

end Cmomy
