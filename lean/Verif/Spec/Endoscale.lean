/-
The weighted sum that the endoscaling steps compute.
-/
import Mathlib.Algebra.Module.Basic
import Mathlib.Algebra.BigOperators.Group.Finset.Basic

namespace Ragu.Spec
open Finset

/-- `s^m P₀ + s^(m-1) P₁ + … + P_m`, for the first `m + 1` points of the list. -/
def pointSum {R P : Type} [Ring R] [AddCommGroup P] [Module R P] (s : R) (points : List P) (m : ℕ) :
    P :=
  ∑ i ∈ range (m + 1), s ^ (m - i) • points.getD i 0

end Ragu.Spec
