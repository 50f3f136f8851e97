/-
Specification vocabulary: polynomials as coefficient lists, independent of how
the code computes anything.
-/
import Mathlib.Algebra.BigOperators.Group.Finset.Basic
import Mathlib.Algebra.Field.Basic

namespace Ragu.Spec
open Finset

/-- Coefficient of degree `k` of a coefficient list (zero past the end). -/
def coeffAt {F : Type*} [Zero F] (l : List F) (k : ℕ) : F := l.getD k 0

/-- The value at `x` of the polynomial `l 0 + l 1 · X + …`. -/
def polyVal {F : Type*} [Field F] (l : List F) (x : F) : F :=
  ∑ i ∈ range l.length, coeffAt l i * x ^ i

/-- The mathematical inner product of two sequences of the same length. -/
def innerProd {F : Type*} [Field F] (a b : List F) : F :=
  ∑ i ∈ range a.length, coeffAt a i * coeffAt b i

end Ragu.Spec
