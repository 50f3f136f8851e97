/-
What a proof stores.
-/
import Verif.Model.Pcd.Proof
import Verif.Spec.Sparse

namespace Ragu.Spec
open Ragu Ragu.Pcd
variable {F G HC : Type}

/-- Every polynomial over the circuit field that a proof stores, with the commitment stored for it. -/
def nativeParts (p : Proof F G HC) : List (Sparse.Poly F × HC) :=
  let pair (t : RxTriple F HC) := (t.rx, t.commitment)
  [pair p.application.rxTriple, pair p.preamble.native,
    (p.sPrime.native.registryWx0Poly, p.sPrime.native.registryWx0Commitment),
    (p.sPrime.native.registryWx1Poly, p.sPrime.native.registryWx1Commitment),
    (p.innerError.native.registryWyPoly, p.innerError.native.registryWyCommitment),
    pair p.innerError.native.rxTriple, pair p.outerError.native,
    (p.ab.native.aPoly, p.ab.native.aCommitment), (p.ab.native.bPoly, p.ab.native.bCommitment),
    (p.query.native.registryXyPoly, p.query.native.registryXyCommitment), pair p.query.native.rxTriple,
    (p.f.native.poly, p.f.native.commitment), pair p.eval.native,
    (p.p.native.poly, p.p.native.commitment), pair p.circuits.hashes1, pair p.circuits.hashes2,
    pair p.circuits.innerCollapse, pair p.circuits.outerCollapse, pair p.circuits.computeV]

/-- The eight bridges. -/
def bridgesOf (p : Proof F G HC) : List (Bridge F G) :=
  [p.preamble.bridge, p.sPrime.bridge, p.innerError.bridge, p.outerError.bridge, p.ab.bridge, p.query.bridge,
    p.f.bridge, p.eval.bridge]

/-- Every polynomial over the scalar field that a proof stores. -/
def nestedPolys (p : Proof F G HC) : List (Sparse.Poly G) :=
  (bridgesOf p).map Bridge.rx ++ [p.p.nested.endoscalarRx, p.p.nested.pointsRx] ++ p.p.nested.stepRxs

/-- How many coefficients a polynomial stores. -/
def stored {K : Type} (q : Sparse.Poly K) : ℕ := (q.map fun b => b.2.length).sum

/-- How many field elements, of either field, a proof stores besides the coordinates of its commitments:
the headers of its children, the coefficients of its polynomials, eleven challenges and the claimed values
`c` and `v`. Beyond these a proof has 27 commitments, the number of a circuit and the places of the blocks
of its polynomials. -/
def elements (p : Proof F G HC) : ℕ :=
  p.application.leftHeader.length + p.application.rightHeader.length +
    ((nativeParts p).map fun t => stored t.1).sum + ((nestedPolys p).map stored).sum + 11 + 2

end Ragu.Spec
