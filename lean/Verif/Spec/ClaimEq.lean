/-
What a revdot claim says, in terms of the coefficients of its polynomials.
-/
import Verif.Spec.Claims
import Verif.Spec.Sparse

namespace Ragu.Spec
open Ragu Ragu.Pcd Finset
variable {F : Type} [Field F]

/-- Position of an internal circuit in the registry. -/
def registryIndex (id : NativeId) : ℕ := NativeId.all.idxOf id

/-- Position of a nested internal circuit in its registry. -/
def nestedIndex (id : NestedId) : ℕ := NestedId.all.idxOf id

/-- Coefficient `k` of the sum of polynomials. -/
def sumCoeff (rxs : List (Sparse.Poly F)) (k : ℕ) : F := (rxs.map fun p => coeff p k).sum

/-- Coefficient `k` of the combination of polynomials by descending powers of `z`. -/
def foldCoeff (z : F) (rxs : List (Sparse.Poly F)) (k : ℕ) : F :=
  ∑ i ∈ range rxs.length, z ^ (rxs.length - 1 - i) * coeff (rxs.getD i []) k

/-- The left polynomial of a claim, by coefficients. -/
def claimLeft (z : F) : Claim (Sparse.Poly F) ℕ → ℕ → F
  | .raw a _, k => coeff a k
  | .circuit _ rx, k => coeff rx k
  | .internal _ rxs, k => sumCoeff rxs k
  | .bonding _ rxs, k => foldCoeff z rxs k

/-- The right polynomial of a claim, by coefficients: for a circuit with trace `r` it is
`r(zX) + s(X) + t(X)`, for a mask it is `s(X)`, where `s` is the wiring polynomial. -/
def claimRight (s : ℕ → ℕ → F) (t : ℕ → F) (z : F) : Claim (Sparse.Poly F) ℕ → ℕ → F
  | .raw _ b, k => coeff b k
  | .circuit id rx, k => coeff rx k * z ^ k + s id k + t k
  | .internal id rxs, k => sumCoeff rxs k * z ^ k + s (registryIndex id) k + t k
  | .bonding id _, k => s (registryIndex id) k

/-- The claim holds with public value `v`. -/
def ClaimTrue (N : ℕ) (s : ℕ → ℕ → F) (t : ℕ → F) (z : F) (c : Claim (Sparse.Poly F) ℕ) (v : F) :
    Prop :=
  ∑ k ∈ range N, claimLeft z c k * claimRight s t z c (N - 1 - k) = v

/-- The left polynomial of a nested claim. -/
def nestedLeft (z : F) : NestedClaim (Sparse.Poly F) → ℕ → F
  | .internal _ rxs, k => sumCoeff rxs k
  | .bonding _ rxs, k => foldCoeff z rxs k

/-- The right polynomial of a nested claim. -/
def nestedRight (s : ℕ → ℕ → F) (t : ℕ → F) (z : F) : NestedClaim (Sparse.Poly F) → ℕ → F
  | .internal id rxs, k => sumCoeff rxs k * z ^ k + s (nestedIndex id) k + t k
  | .bonding id _, k => s (nestedIndex id) k

/-- The nested claim holds with public value `v`. -/
def NestedTrue (N : ℕ) (s : ℕ → ℕ → F) (t : ℕ → F) (z : F) (c : NestedClaim (Sparse.Poly F))
    (v : F) : Prop :=
  ∑ k ∈ range N, nestedLeft z c k * nestedRight s t z c (N - 1 - k) = v

end Ragu.Spec
