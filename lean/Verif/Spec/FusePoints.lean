/-
The points at which a fuse queries the polynomials.
-/
import Verif.Spec.Query
import Verif.Spec.ClaimEq

namespace Ragu.Spec
open Ragu Ragu.Pcd Ragu.Registry
variable {F G HC : Type} [Field F]

/-- The points of the queries of a fuse. -/
def fusePoints (E : Env F) (s : FuseState F G HC) (ch : Challenges F) : Points F where
  w := ch.w
  y := ch.y
  z := ch.z
  x := ch.x
  child
    | .left => ⟨s.left.challenges.u, s.left.challenges.y, s.left.challenges.x,
        omegaJ E s.left.application.circuitId⟩
    | .right => ⟨s.right.challenges.u, s.right.challenges.y, s.right.challenges.x,
        omegaJ E s.right.application.circuitId⟩
  internal id := omegaJ E (registryIndex id)

end Ragu.Spec
