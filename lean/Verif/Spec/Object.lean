/-
What a circuit object must compute: three views of one bivariate polynomial.
-/
import Mathlib.Algebra.BigOperators.Ring.Finset
import Verif.Model.Object
import Verif.Spec.Sparse
import Verif.Spec.Circuit

namespace Ragu.Spec
open Ragu Ragu.Circuit Finset
variable {F : Type} [Field F] [DecidableEq F]

/-- The three evaluators of the object, run with the object's own floor plan, never panic and are
the value and the two restrictions of one function `s`. -/
structure Implements (n : ℕ) (o : CircuitObject F) (s : F → F → F) : Prop where
  sxy : ∀ x y, o.sxy x y (floorPlan o.segmentRecords) = some (s x y)
  sx : ∀ x, ∃ p, o.sx x (floorPlan o.segmentRecords) = some p ∧ WellFormed (4 * n) p ∧
    ∀ y, Sparse.eval (4 * n) p y = s x y
  sy : ∀ y, ∃ p, o.sy y (floorPlan o.segmentRecords) = some p ∧ WellFormed (4 * n) p ∧
    ∀ x, Sparse.eval (4 * n) p x = s x y

/-- A gate whose wires a stage mask forces to zero: not the SYSTEM gate and not one of the gates
`skip .. skip + num` of the stage. -/
def Masked (skip num j : ℕ) : Prop := j ≠ 0 ∧ ¬(skip ≤ j ∧ j < skip + num)

instance (skip num j : ℕ) : Decidable (Masked skip num j) :=
  inferInstanceAs (Decidable (_ ∧ _))

/-- The mask polynomial: the monomial `(xy)^e` for every wire of every masked gate, where `e` is
the exponent of the wire in wiring polynomials. -/
def maskAt (n skip num : ℕ) (x y : F) : F :=
  ∑ j ∈ range n, if Masked skip num j then
    (x * y) ^ wiringExp n j .a + (x * y) ^ wiringExp n j .b + (x * y) ^ wiringExp n j .c +
      (x * y) ^ wiringExp n j .d
  else 0

end Ragu.Spec
