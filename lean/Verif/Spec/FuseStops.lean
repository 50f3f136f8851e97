/-
The reasons for which a call of `fuse` may stop although its inputs are in order.
-/
import Verif.Model.Pcd.FuseProgram
import Verif.Spec.Endoscale
import Verif.Spec.FusePoints

namespace Ragu.Spec
open Ragu Ragu.Pcd Ragu.Gadget
variable {F G HC : Type} [Field F] [DecidableEq F] [AddCommGroup HC] [Module F HC]

/-- The combination of the points `l` with the endoscalar `endo` meets an addition of a point to itself
or to its opposite. -/
def Degenerate (nbits : ℕ) (zeta : F) (endo : ℕ) (l : List HC) : Prop :=
  ∃ i < l.length - 1,
    liftNative nbits zeta endo • pointSum (liftNative nbits zeta endo) l i = l.getD (i + 1) 0 ∨
    liftNative nbits zeta endo • pointSum (liftNative nbits zeta endo) l i = -l.getD (i + 1) 0

/-- The reasons for which `fuse` may stop on inputs in order, all of them about values that come from
the randomness and the transcript: a commitment is the identity, a challenge that has to be inverted is
zero, the incremental combination of the commitments meets an exceptional case of the group law, or the
challenge `u` is one of the points that the quotient polynomial divides by. The step, a stage, a trace
or any other call never is a reason. -/
def Explained (V : FuseEnvironment F G HC) : Stop F G HC → Prop
  | .step _ => False
  | .commitment c _ => c = none
  | .inverse mu => mu = 0
  | .hostPoints l _ => (0 : HC) ∈ l
  | .endoscaling endo l _ => Degenerate V.P.endo.nbits V.P.endo.zeta endo l
  | .circuits s ch _ => ch.x = 0 ∨ ch.z = 0 ∨ ¬ Avoids ch.u (fusePoints V.C.native s ch)
  | .other _ => False

end Ragu.Spec
