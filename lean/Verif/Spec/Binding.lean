/-
Commitments, relations between generators, and the commitments that a fuse batches.
-/
import Verif.Spec.Recursion
import Verif.Spec.Endoscale

namespace Ragu.Spec
open Ragu Ragu.Pcd Finset
variable {F G HC : Type} [Field F] [DecidableEq F]

section
variable [AddCommGroup HC] [Module F HC]

/-- The commitment to the polynomial with the coefficients `p` below `4 n`. -/
def commitTo (n : ℕ) (g : List HC) (p : ℕ → F) : HC := ∑ k ∈ range (4 * n), p k • g.getD k 0

/-- The coefficients `d` are a relation between generators: they are not all zero, but combine the
generators to the identity. Finding one is as hard as finding discrete logarithms. -/
def GeneratorRelation (n : ℕ) (g : List HC) (d : ℕ → F) : Prop :=
  (∃ k < 4 * n, d k ≠ 0) ∧ commitTo n g d = 0

end

/-- The commitments that a child records, in the place of its polynomials. -/
def FuseChild.commitments (c : FuseChild F G HC) : EvalChild HC where
  rx i := c.proof.nativeCommitment (.rx i)
  aPoly := c.proof.ab.native.aCommitment
  bPoly := c.proof.ab.native.bCommitment
  registryXyPoly := c.proof.query.native.registryXyCommitment
  pPoly := c.proof.p.native.commitment

/-- The commitments that a fuse of `l` and `r` with result `p` batches, in order. -/
def fuseCommitments (l r : FuseChild F G HC) (p : Proof F G HC) : List HC :=
  p.f.native.commitment :: evalList
    { left := l.commitments
      right := r.commitments
      registryWx0 := p.sPrime.native.registryWx0Commitment
      registryWx1 := p.sPrime.native.registryWx1Commitment
      registryWy := p.innerError.native.registryWyCommitment
      aPoly := p.ab.native.aCommitment
      bPoly := p.ab.native.bCommitment
      registryXy := p.query.native.registryXyCommitment }

/-- The polynomials that a fuse batches, in order: the quotient and those of `batched`. -/
def fusePolys (l r : FuseChild F G HC) (σ : FuseProver F) (c : Draw F) : List (ℕ → F) :=
  σ.f (c.upTo 9) :: evalList (batched l r σ c)

end Ragu.Spec
