/-
What it means to publish commitments to blinded polynomials one after the other.
-/
import Verif.Model.Msm
import Verif.Model.Staging
import Verif.Model.Trace
import Verif.Spec.Circuit

namespace Ragu.Spec
open Ragu Ragu.Circuit
variable {F : Type} [Field F] [DecidableEq F]

/-- The ways in which the library makes a polynomial from a blinding factor: from the values of a stage
that fits the rank, or from the trace of a circuit that fits the rank. -/
inductive Blinded (n : ℕ) : (F → Except Circuit.Err (Sparse.Poly F)) → Prop
  | stage (c : Chain) (vs : List F) : vs.length ≤ c.values → c.skipGates + c.numGates ≤ n →
      Blinded n fun alpha => c.rx n alpha vs
  | trace (c : Circ F) (t : List (ASeg F)) : c.WellUsed → totalGates c.counts ≤ n → TraceEval c t →
      Blinded n fun alpha => assemble n (floorPlan c.counts) (t.map Prod.snd) alpha

variable {G : Type} [AddCommGroup G]

/-- The commitment to the polynomial made with blinding factor `alpha`. -/
def blindCommit (n numBits : ℕ) (repr : F → List UInt8) (g : List G)
    (make : F → Except Circuit.Err (Sparse.Poly F)) (alpha : F) : Option G :=
  match make alpha with
  | .ok r => Msm.commit (4 * n) numBits repr r g
  | .error _ => none

/-- Commitments published one after the other, the last one first: what is committed to may depend on the
commitments before. -/
def publish (n numBits : ℕ) (repr : F → List UInt8) (g : List G)
    (make : List G → F → Except Circuit.Err (Sparse.Poly F)) : List F → Option (List G)
  | [] => some []
  | alpha :: rest =>
    match publish n numBits repr g make rest with
    | none => none
    | some ps => (blindCommit n numBits repr g (make ps) alpha).map (· :: ps)

end Ragu.Spec
