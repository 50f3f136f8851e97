/-
What the polynomials over the scalar field hold: the points of the host curve that each of them commits to.
-/
import Verif.Model.Pcd.Proof
import Verif.Spec.Revdot

namespace Ragu.Spec
open Ragu Ragu.Circuit Ragu.Pcd
variable {F G HC : Type} [Field G]

/-- The polynomial `q` holds the affine points `l`, one in each gate from gate `start` on, the first
coordinate in wire `b` and the second in wire `d`, and, apart from wire `d` of gate 0, nothing else. None of
the points is the identity, for which `coords` is `none`. -/
def HoldsPoints (n : ℕ) (coords : HC → Option (G × G)) (start : ℕ) (l : List HC) (q : Sparse.Poly G) :
    Prop :=
  (∀ j P, l[j]? = some P → coords P = some (wireOf n q .b (start + j), wireOf n q .d (start + j))) ∧
  ∀ k i, i < n → (k, i) ≠ (.d, 0) → k = .a ∨ k = .c ∨ i < start ∨ start + l.length ≤ i →
    wireOf n q k i = 0

/-- The commitments of a child that its parent's first bridge holds. -/
def childPoints (p : Proof F G HC) : List HC :=
  [p.application.rxTriple.commitment, p.circuits.hashes1.commitment, p.circuits.hashes2.commitment,
    p.circuits.innerCollapse.commitment, p.circuits.outerCollapse.commitment,
    p.circuits.computeV.commitment]

/-- For each of the eight bridges of the proof `p` made from `left` and `right`: the first of its gates, the
points it holds and its polynomial. -/
def bridgeContents (left right p : Proof F G HC) : List (ℕ × List HC × Sparse.Poly G) :=
  [(1, p.preamble.native.commitment :: (childPoints left ++ childPoints right), p.preamble.bridge.rx),
    (14, [p.sPrime.native.registryWx0Commitment, p.sPrime.native.registryWx1Commitment],
      p.sPrime.bridge.rx),
    (16, [p.innerError.native.rxTriple.commitment, p.innerError.native.registryWyCommitment],
      p.innerError.bridge.rx),
    (18, [p.outerError.native.commitment], p.outerError.bridge.rx),
    (19, [p.ab.native.aCommitment, p.ab.native.bCommitment], p.ab.bridge.rx),
    (21, [p.query.native.rxTriple.commitment, p.query.native.registryXyCommitment], p.query.bridge.rx),
    (23, [p.f.native.commitment], p.f.bridge.rx),
    (24, [p.eval.native.commitment], p.eval.bridge.rx)]

/-- All commitments of a proof over the circuit field that its parent accumulates. -/
def allPoints (p : Proof F G HC) : List HC :=
  childPoints p ++ [p.preamble.native.commitment, p.innerError.native.rxTriple.commitment,
    p.outerError.native.commitment, p.query.native.rxTriple.commitment, p.eval.native.commitment,
    p.ab.native.aCommitment, p.ab.native.bCommitment, p.query.native.registryXyCommitment,
    p.p.native.commitment]

/-- The points that the proof `p` made from `left` and `right` accumulates. -/
def accumulated (left right p : Proof F G HC) : List HC :=
  p.f.native.commitment :: (allPoints left ++ allPoints right ++
    [p.sPrime.native.registryWx0Commitment, p.sPrime.native.registryWx1Commitment,
      p.innerError.native.registryWyCommitment, p.ab.native.aCommitment, p.ab.native.bCommitment,
      p.query.native.registryXyCommitment])

end Ragu.Spec
