/-
What a verifier accepts, written with coefficients and sums.
-/
import Verif.Spec.ClaimEq
import Verif.Spec.Unified
import Verif.Model.Pcd.Verify
import Mathlib.Algebra.Module.Defs

namespace Ragu.Spec
open Ragu Ragu.Pcd Finset
variable {F G HC : Type} [Field F] [Field G]

/-- The bridge commitments of a proof. -/
def bridgePoints (p : Proof F G HC) : List (Option (F × F)) :=
  [p.preamble.bridge.commitment, p.sPrime.bridge.commitment, p.innerError.bridge.commitment,
    p.outerError.bridge.commitment, p.ab.bridge.commitment, p.query.bridge.commitment,
    p.f.bridge.commitment, p.eval.bridge.commitment]

/-- The coordinates of a bridge commitment. -/
def xy (c : Option (F × F)) : List F := c.elim [] fun q => [q.1, q.2]

/-- The public values of a proof: the commitments and challenges in the order of the transcript,
with `c` after the challenges of the folding and `v` last. -/
def unifiedInstance (p : Proof F G HC) : List F :=
  xy p.preamble.bridge.commitment ++ [p.challenges.w] ++
  xy p.sPrime.bridge.commitment ++ [p.challenges.y, p.challenges.z] ++
  xy p.innerError.bridge.commitment ++ [p.challenges.mu, p.challenges.nu] ++
  xy p.outerError.bridge.commitment ++ [p.challenges.muPrime, p.challenges.nuPrime, p.ab.native.c] ++
  xy p.ab.bridge.commitment ++ [p.challenges.x] ++
  xy p.query.bridge.commitment ++ [p.challenges.alpha] ++
  xy p.f.bridge.commitment ++ [p.challenges.u] ++
  xy p.eval.bridge.commitment ++ [p.challenges.preBeta, p.p.native.v]

/-- The value at `y` of the polynomial of an instance: the elements are the coefficients of
`y^m, …, y`, and the constant term is one. -/
def instanceAt (inst : List F) (y : F) : F :=
  ∑ i ∈ range inst.length, inst.getD i 0 * y ^ (inst.length - i) + 1

/-- A proof as the claims see it: the instance of its application circuit is its two input headers
and its output header, the bridge instance is the unified instance followed by the input headers and
a zero, and the unified instance is followed by a zero. -/
def childOfProof (p : Proof F G HC) (header : List F) (y : F) : Child (Sparse.Poly F) ℕ F where
  rx := p.nativeRx
  id := p.application.circuitId
  c := p.ab.native.c
  app := instanceAt (p.application.leftHeader ++ p.application.rightHeader ++ header) y
  bridge := instanceAt (unifiedInstance p ++
    (p.application.leftHeader ++ p.application.rightHeader) ++ [0]) y
  unified := instanceAt (unifiedInstance p ++ [0]) y

/-- The coefficients of `t(X, z)`: `-(z^(2n-1-i) + z^(2n+i))` at `X^(4n-1-i)`, for `i < n`. -/
def tCoeff (n : ℕ) (z : F) (k : ℕ) : F :=
  if 3 * n ≤ k ∧ k < 4 * n then -(z ^ (2 * n - 1 - (4 * n - 1 - k)) + z ^ (2 * n + (4 * n - 1 - k)))
  else 0

variable [AddCommGroup HC] [Module F HC]

/-- The conditions under which a proof is accepted. `size` is the size of the registry's domain,
`s` and `s'` are the coefficients of the wiring polynomials of the two registries, `m` is the
expected value of the registry polynomial, and `header` is the encoding of the carried data. -/
structure Accepted (n N size : ℕ) (s : ℕ → ℕ → F) (s' : ℕ → ℕ → G) (gens : List HC)
    (ch : VerifyChallenges F G) (m : F) (p : Proof F G HC) (header : List F) : Prop where
  inDomain : p.application.circuitId < size
  left : p.application.leftHeader.length = N
  right : p.application.rightHeader.length = N
  points : none ∉ bridgePoints p
  steps : NUM_ENDOSCALING_STEPS ≤ p.p.nested.stepRxs.length
  native : ∀ cv ∈ claimTable [childOfProof p header ch.y] 0,
    ClaimTrue (4 * n) s (tCoeff n ch.z) ch.z cv.1 cv.2
  nested : ∀ cv ∈ nestedTable (fun c => (p.nestedRx c).getD []) 1 0,
    NestedTrue (4 * n) s' (tCoeff n ch.zNested) ch.zNested cv.1 cv.2
  eval : ∑ k ∈ range (4 * n), coeff p.p.native.poly k * p.challenges.u ^ k = p.p.native.v
  commitment : ∑ k ∈ range (4 * n), coeff p.p.native.poly k • gens.getD k 0 =
    p.p.native.commitment
  registry : ∑ k ∈ range (4 * n), coeff p.query.native.registryXyPoly k * ch.w ^ k = m

end Ragu.Spec
