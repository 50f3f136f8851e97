/-
The polynomial `t(X, Z)`.
-/
import Mathlib.Algebra.BigOperators.Group.Finset.Basic
import Mathlib.Algebra.Field.Defs

namespace Ragu.Spec
open Finset
variable {F : Type*} [Field F]

/-- The definition of `t(x, z)`. -/
def tDef (n : ℕ) (x z : F) : F :=
  -∑ i ∈ range n, x ^ (4 * n - 1 - i) * (z ^ (2 * n - 1 - i) + z ^ (2 * n + i))

end Ragu.Spec
