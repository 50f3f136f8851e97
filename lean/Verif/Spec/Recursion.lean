/-
What a fuse says about its children, as a game: a prover sends the messages of a fuse, each chosen
with the challenges drawn so far, and the challenges are drawn one after the other.
-/
import Verif.Spec.Accept
import Verif.Spec.Query
import Verif.Spec.ClaimEq
import Mathlib.Data.Fintype.Pi

namespace Ragu.Spec
open Ragu Ragu.Pcd Finset
variable {F G HC : Type} [Field F] [DecidableEq F]

/-- The value at `x` of the polynomial with these coefficients below `4 n`. -/
def polyAt (n : ℕ) (p : ℕ → F) (x : F) : F := ∑ k ∈ range (4 * n), p k * x ^ k

/-- The product of two polynomials that claims are about: coefficient `4 n - 1` of `a b`. -/
def productOf (n : ℕ) (a b : ℕ → F) : F := ∑ k ∈ range (4 * n), a k * b (4 * n - 1 - k)

/-- The challenges of a fuse in the order in which they are drawn. The last is the multiplier of the
batching, the endoscalar that `pre_beta` gives. -/
abbrev Draw (F : Type) := Fin 11 → F

namespace Draw
def w (c : Draw F) : F := c 0
def y (c : Draw F) : F := c 1
def z (c : Draw F) : F := c 2
def mu (c : Draw F) : F := c 3
def nu (c : Draw F) : F := c 4
def muPrime (c : Draw F) : F := c 5
def nuPrime (c : Draw F) : F := c 6
def x (c : Draw F) : F := c 7
def alpha (c : Draw F) : F := c 8
def u (c : Draw F) : F := c 9
def beta (c : Draw F) : F := c 10

/-- The first `k` challenges. -/
def upTo (c : Draw F) (k : ℕ) : List F := (List.ofFn c).take k
end Draw

/-- All challenge tuples with the first ten challenges in `A` and the last in `B`. -/
def draws (A B : Finset F) : Finset (Draw F) :=
  Fintype.piFinset fun i => if i = 10 then B else A

/-- A child of a fuse: any proof, with the header it is used with. -/
structure FuseChild (F G HC : Type) where
  proof : Proof F G HC
  header : List F

namespace FuseChild

/-- What the circuits of the fuse see of the child; `om` gives the identifiers of circuits as field
elements. -/
def values (om : ℕ → F) (c : FuseChild F G HC) : ChildPublic F where
  leftHeader := c.proof.application.leftHeader
  rightHeader := c.proof.application.rightHeader
  outputHeader := c.header
  circuitId := om c.proof.application.circuitId
  unified := proofPublic c.proof

/-- The child's polynomials. -/
def polys (c : FuseChild F G HC) : EvalChild (ℕ → F) where
  rx i := coeff (c.proof.nativeRx (.rx i))
  aPoly := coeff (c.proof.nativeRx .abA)
  bPoly := coeff (c.proof.nativeRx .abB)
  registryXyPoly := coeff c.proof.query.native.registryXyPoly
  pPoly := coeff c.proof.p.native.poly

end FuseChild

/-- A prover: its messages as functions of the challenges drawn before they are sent. Polynomials are
given by their coefficients. -/
structure FuseProver (F : Type) where
  /-- claimed to be `m(w, x of the child, ·)`, sent after `w` -/
  wx : Side → List F → ℕ → F
  /-- claimed to be `m(w, ·, y)`, sent after `z` -/
  wy : List F → ℕ → F
  /-- the error terms of the groups, sent after `z` -/
  innerErrs : List F → List (List F)
  /-- the error terms of the second layer, sent after `nu` -/
  outerErrs : List F → List F
  /-- the folded polynomials, sent after `nu'` -/
  a : List F → ℕ → F
  b : List F → ℕ → F
  /-- claimed to be `m(·, x, y)`, sent after `x` -/
  xy : List F → ℕ → F
  /-- the claimed answers of the queries, sent after `x` -/
  query : List F → QueryOutput F
  /-- the sum of the quotients, sent after `alpha` -/
  f : List F → ℕ → F
  /-- the claimed values at `u`, sent after `u` -/
  eval : List F → EvalOutput F

/-- The polynomials of a fuse that are batched. -/
def batched (l r : FuseChild F G HC) (σ : FuseProver F) (c : Draw F) : EvalOutput (ℕ → F) where
  left := l.polys
  right := r.polys
  registryWx0 := σ.wx .left (c.upTo 1)
  registryWx1 := σ.wx .right (c.upTo 1)
  registryWy := σ.wy (c.upTo 3)
  aPoly := σ.a (c.upTo 7)
  bPoly := σ.b (c.upTo 7)
  registryXy := σ.xy (c.upTo 8)

/-- The points of the queries. -/
def drawPoints (om : ℕ → F) (l r : FuseChild F G HC) (c : Draw F) : Points F :=
  ⟨c.w, c.y, c.z, c.x, bySide (l.values om).points (r.values om).points,
    fun id => om (registryIndex id)⟩

/-- The claimed answer of each query; those about the folded polynomials are derived from the others. -/
def fuseAnswer (n : ℕ) (l r : FuseChild F G HC) (σ : FuseProver F) (c : Draw F) : Query → F :=
  let q := σ.query (c.upTo 8)
  answerOf q (bySide l.proof.p.native.v r.proof.p.native.v) (foldedA q c.z c.mu c.muPrime)
    (foldedB q (tDef n c.x c.z) c.mu c.nu c.muPrime c.nuPrime)

/-- The prover wins with these challenges: what its circuits establish and what is left to the next
fuse or the decider are both true. `m` is the registry polynomial and `N` the header size. -/
structure FuseWins (n N : ℕ) (om : ℕ → F) (m : F → F → F → Option F) (l r : FuseChild F G HC)
    (σ : FuseProver F) (c : Draw F) : Prop where
  x_ne : c.x ≠ 0
  z_ne : c.z ≠ 0
  mu_ne : c.mu ≠ 0
  muPrime_ne : c.muPrime ≠ 0
  /-- `u` is no query point. -/
  avoids : Avoids c.u (drawPoints om l r c)
  /-- Unless both children are trivial, the product of the folded polynomials is the folding of the
  values that the claims about the children should have. -/
  product : ¬ ((l.values om).Trivial N ∧ (r.values om).Trivial N) →
    productOf n (σ.a (c.upTo 7)) (σ.b (c.upTo 7)) =
      stepClaim GROUP_SIZE NUM_GROUPS c.mu c.nu c.muPrime c.nuPrime (σ.innerErrs (c.upTo 3))
        (σ.outerErrs (c.upTo 5)) (claimedValues c.y (l.values om) (r.values om))
  /-- The batched polynomial has at `u` the value that the claimed evaluations lead to. -/
  value : descending c.beta (polyAt n (σ.f (c.upTo 9)) c.u ::
      evalList (EvalOutput.map (fun p => polyAt n p c.u) (batched l r σ c))) =
    descending c.beta (quotientSum c.alpha c.u (drawPoints om l r c) (evalOf (σ.eval (c.upTo 10)))
      (fuseAnswer n l r σ c) :: evalList (σ.eval (c.upTo 10)))
  /-- The last polynomial is the registry polynomial at `x` and `y`. -/
  registry : ∀ w, m w c.x c.y = some (polyAt n (σ.xy (c.upTo 8)) w)

end Ragu.Spec
