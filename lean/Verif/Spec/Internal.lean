/-
What the five internal circuits of a fuse should establish, in terms of field values.
-/
import Verif.Spec.Query
import Verif.Spec.Sponge
import Mathlib.Algebra.BigOperators.Group.Finset.Basic

namespace Ragu.Spec
open Ragu Ragu.Pcd Finset
variable {F : Type} [Field F]

/-- The public values of a proof, in order: the commitments as affine points, the challenges, the
folded product `c` and the evaluation `v`. -/
structure StepPublic (F : Type) where
  bridgePreamble : F × F
  w : F
  bridgeSPrime : F × F
  y : F
  z : F
  bridgeInnerError : F × F
  mu : F
  nu : F
  bridgeOuterError : F × F
  muPrime : F
  nuPrime : F
  c : F
  bridgeAb : F × F
  x : F
  bridgeQuery : F × F
  alpha : F
  bridgeF : F × F
  u : F
  bridgeEval : F × F
  preBeta : F
  v : F

namespace StepPublic

/-- The values in order. -/
def toList (p : StepPublic F) : List F :=
  [p.bridgePreamble.1, p.bridgePreamble.2, p.w, p.bridgeSPrime.1, p.bridgeSPrime.2, p.y, p.z,
    p.bridgeInnerError.1, p.bridgeInnerError.2, p.mu, p.nu, p.bridgeOuterError.1,
    p.bridgeOuterError.2, p.muPrime, p.nuPrime, p.c, p.bridgeAb.1, p.bridgeAb.2, p.x,
    p.bridgeQuery.1, p.bridgeQuery.2, p.alpha, p.bridgeF.1, p.bridgeF.2, p.u, p.bridgeEval.1,
    p.bridgeEval.2, p.preBeta, p.v]

/-- The commitments. -/
def points (p : StepPublic F) : List (F × F) :=
  [p.bridgePreamble, p.bridgeSPrime, p.bridgeInnerError, p.bridgeOuterError, p.bridgeAb,
    p.bridgeQuery, p.bridgeF, p.bridgeEval]

/-- The transcript: what is absorbed and how many challenges are then squeezed. -/
def phases (tag : List F) (p : StepPublic F) : List (List F × ℕ) :=
  [(tag ++ [p.bridgePreamble.1, p.bridgePreamble.2], 1),
    ([p.bridgeSPrime.1, p.bridgeSPrime.2], 2),
    ([p.bridgeInnerError.1, p.bridgeInnerError.2], 2),
    ([p.bridgeOuterError.1, p.bridgeOuterError.2], 2),
    ([p.bridgeAb.1, p.bridgeAb.2], 1),
    ([p.bridgeQuery.1, p.bridgeQuery.2], 1),
    ([p.bridgeF.1, p.bridgeF.2], 1),
    ([p.bridgeEval.1, p.bridgeEval.2], 1)]

/-- The challenges in the order of the transcript. -/
def challenges (p : StepPublic F) : List F :=
  [p.w, p.y, p.z, p.mu, p.nu, p.muPrime, p.nuPrime, p.x, p.alpha, p.u, p.preBeta]

end StepPublic

/-- A child proof as the internal circuits see it. -/
structure ChildPublic (F : Type) where
  leftHeader : List F
  rightHeader : List F
  outputHeader : List F
  circuitId : F
  unified : StepPublic F

/-- The public input polynomial of `inst` at `y`: `y^m o_1 + … + y o_m + 1`. -/
def publicInput (inst : List F) (y : F) : F :=
  ∑ i ∈ range inst.length, inst.getD i 0 * y ^ (inst.length - i) + 1

namespace ChildPublic

/-- For the child's step circuit: its three headers. -/
def applicationInput (c : ChildPublic F) (y : F) : F :=
  publicInput (c.leftHeader ++ c.rightHeader ++ c.outputHeader) y

/-- For the child's internal circuits: its public values and a zero. -/
def unifiedInput (c : ChildPublic F) (y : F) : F := publicInput (c.unified.toList ++ [0]) y

/-- For the child's first hash circuit: its public values, the headers of its own children and a
zero. -/
def bridgeInput (c : ChildPublic F) (y : F) : F :=
  publicInput (c.unified.toList ++ c.leftHeader ++ c.rightHeader ++ [0]) y

/-- The points at which the child's polynomials are queried. -/
def points (c : ChildPublic F) : ChildPoints F :=
  ⟨c.unified.u, c.unified.y, c.unified.x, c.circuitId⟩

/-- The child's output header marks it as a trivial proof: its last element is one. -/
def Trivial (N : ℕ) (c : ChildPublic F) : Prop := c.outputHeader[N - 1]? = some 1

end ChildPublic

/-- The values that the claims of the two children should have, in the order of the claims. -/
def claimedValues (y : F) (l r : ChildPublic F) : List F :=
  [l.unified.c, r.unified.c, l.applicationInput y, r.applicationInput y,
    l.bridgeInput y, r.bridgeInput y,
    l.unifiedInput y, r.unifiedInput y, l.unifiedInput y, r.unifiedInput y,
    l.unifiedInput y, r.unifiedInput y, l.unifiedInput y, r.unifiedInput y]

/-- The folded value of the `k`-th group of `m` claims. -/
def groupClaim (m : ℕ) (mu nu : F) (errs : List (List F)) (ky : List F) (k : ℕ) : F :=
  foldedClaim m mu⁻¹ (mu * nu)
    (claimMatrix m (errs.getD k []) ((List.range m).map fun i => ky.getD (k * m + i) 0))

/-- The folded value of all claims. -/
def stepClaim (m g : ℕ) (mu nu muPrime nuPrime : F) (innerErrs : List (List F)) (outerErrs ky : List F) :
    F :=
  foldedClaim g muPrime⁻¹ (muPrime * nuPrime)
    (claimMatrix g outerErrs ((List.range g).map (groupClaim m mu nu innerErrs ky)))

/-- One value for each side. -/
def bySide {α : Type} (l r : α) : Side → α
  | .left => l
  | .right => r

/-- What the internal circuits of a fuse establish about the public values `pub` of the new proof, its
children `l` and `r`, the error terms and the claimed evaluations.  `perm`, `rate`, `T` describe the
sponge, `tag` what the transcript starts with, `y² = x³ + b` is the curve of the commitments, `2^k` the
size of the registry's domain, `N` the header size. -/
structure StepHolds (perm : List F → List F) (rate T : ℕ) (tag : List F) (b : F) (k N : ℕ)
    (nbits n : ℕ) (zeta : F) (internal : NativeId → F)
    (pub : StepPublic F) (l r : ChildPublic F) (innerErrs : List (List F)) (outerErrs : List F)
    (q : QueryOutput F) (e : EvalOutput F) : Prop where
  /-- The challenges are those of the transcript over the commitments. -/
  challenges : duplex perm rate (List.replicate T 0) (pub.phases tag) = pub.challenges.map some
  /-- The commitments are points of the curve. -/
  curve : ∀ p ∈ pub.points ++ l.unified.points ++ r.unified.points, p.2 ^ 2 = p.1 ^ 3 + b
  /-- The children's circuit identifiers are in the registry's domain. -/
  ids : l.circuitId ^ 2 ^ k = 1 ∧ r.circuitId ^ 2 ^ k = 1
  /-- Unless both children are trivial, `c` is the folding of what the claims should be. -/
  folded : ¬ (l.Trivial N ∧ r.Trivial N) → pub.c =
    stepClaim GROUP_SIZE NUM_GROUPS pub.mu pub.nu pub.muPrime pub.nuPrime innerErrs outerErrs
      (claimedValues pub.y l r)
  /-- `v` is the value that the evaluations lead to. -/
  verified : Verified nbits n zeta
    ⟨pub.w, pub.y, pub.z, pub.x, bySide l.points r.points, internal⟩
    (bySide l.unified.v r.unified.v) q e
    pub.mu pub.nu pub.muPrime pub.nuPrime pub.alpha pub.u pub.preBeta pub.v

end Ragu.Spec
