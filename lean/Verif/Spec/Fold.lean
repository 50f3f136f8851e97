/-
Specification of the revdot folding: what a folded claim should be.
-/
import Mathlib.Algebra.Field.Basic
import Mathlib.Algebra.BigOperators.Group.Finset.Basic

namespace Ragu.Spec
open Finset
variable {F : Type*} [Field F]

/-- Combine an `n × n` matrix: entry `(i, j)` has weight `s^(n-1-i) t^(n-1-j)`.
With entry `(i, j) = aᵢ·bⱼ` this is `(∑ᵢ s^(n-1-i) aᵢ)·(∑ⱼ t^(n-1-j) bⱼ)`. -/
def foldedClaim (n : ℕ) (s t : F) (M : ℕ → ℕ → F) : F :=
  ∑ i ∈ range n, ∑ j ∈ range n, s ^ (n - 1 - i) * t ^ (n - 1 - j) * M i j

/-- Position of the off-diagonal entry `(i, j)` in the list of the off-diagonal entries of
an `n × n` matrix, row by row. -/
def errorIndex (n i j : ℕ) : ℕ := i * (n - 1) + if j < i then j else j - 1

/-- The matrix with diagonal `ky` and off-diagonal entries `errs` (row by row). -/
def claimMatrix (n : ℕ) (errs ky : List F) (i j : ℕ) : F :=
  if i = j then ky.getD i 0 else errs.getD (errorIndex n i j) 0

/-- The weighted sum `∑ᵢ s^(m-1-i) l[k m + i]` of the `k`-th group of `m` values of `l`, absent
values being zero. -/
def groupSum (m : ℕ) (s : F) (l : List F) (k : ℕ) : F :=
  ∑ i ∈ range m, s ^ (m - 1 - i) * l.getD (k * m + i) 0

end Ragu.Spec
