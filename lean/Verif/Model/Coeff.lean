/-
Model of `ragu_arithmetic/src/coeff.rs`.
-/
import Mathlib.Algebra.Field.Basic

namespace Ragu

/-- `Coeff`, crates/ragu_arithmetic/src/coeff.rs:11-24. -/
inductive Coeff (F : Type*) where
  | zero
  | one
  | two
  | negativeOne
  | arbitrary (v : F)
  | negativeArbitrary (v : F)

namespace Coeff
variable {F : Type*} [Field F]

/-- `Coeff::is_zero`, crates/ragu_arithmetic/src/coeff.rs:28-34. -/
def isZero [DecidableEq F] : Coeff F → Bool
  | zero => true
  | arbitrary v => decide (v = 0)
  | negativeArbitrary v => decide (v = 0)
  | _ => false

/-- `Coeff::value`, crates/ragu_arithmetic/src/coeff.rs:37-46 (`double` is `v + v`). -/
def value : Coeff F → F
  | zero => 0
  | one => 1
  | two => 1 + 1
  | negativeOne => -1
  | arbitrary v => v
  | negativeArbitrary v => -v

/-- `From<F>`, crates/ragu_arithmetic/src/coeff.rs:49-53. -/
def ofField (v : F) : Coeff F := arbitrary v

/-- `Mul`, crates/ragu_arithmetic/src/coeff.rs:55-74; match arms in source order
(or-patterns are unfolded). -/
def mul : Coeff F → Coeff F → Coeff F
  | zero, _ => zero
  | _, zero => zero
  | one, other => other
  | other, one => other
  | two, a => arbitrary (a.value + a.value)
  | a, two => arbitrary (a.value + a.value)
  | negativeOne, negativeOne => one
  | negativeOne, arbitrary a => negativeArbitrary a
  | arbitrary a, negativeOne => negativeArbitrary a
  | negativeOne, negativeArbitrary a => arbitrary a
  | negativeArbitrary a, negativeOne => arbitrary a
  | arbitrary a, arbitrary b => arbitrary (a * b)
  | negativeArbitrary a, negativeArbitrary b => arbitrary (a * b)
  | arbitrary a, negativeArbitrary b => negativeArbitrary (a * b)
  | negativeArbitrary b, arbitrary a => negativeArbitrary (a * b)

/-- `Add`, crates/ragu_arithmetic/src/coeff.rs:76-117; match arms in source order. -/
def add : Coeff F → Coeff F → Coeff F
  | zero, other => other
  | other, zero => other
  | one, one => two
  | one, negativeOne => zero
  | negativeOne, one => zero
  | negativeOne, negativeOne => arbitrary (-(1 + 1))
  | two, negativeOne => one
  | negativeOne, two => one
  | two, a => arbitrary (a.value + (1 + 1))
  | a, two => arbitrary (a.value + (1 + 1))
  | one, arbitrary a => arbitrary (a + 1)
  | arbitrary a, one => arbitrary (a + 1)
  | negativeOne, arbitrary a => arbitrary (a - 1)
  | arbitrary a, negativeOne => arbitrary (a - 1)
  | one, negativeArbitrary a => arbitrary (1 - a)
  | negativeArbitrary a, one => arbitrary (1 - a)
  | negativeOne, negativeArbitrary a => negativeArbitrary (1 + a)
  | negativeArbitrary a, negativeOne => negativeArbitrary (1 + a)
  | arbitrary a, arbitrary b => arbitrary (a + b)
  | negativeArbitrary a, negativeArbitrary b => negativeArbitrary (a + b)
  | arbitrary a, negativeArbitrary b => arbitrary (a - b)
  | negativeArbitrary b, arbitrary a => arbitrary (a - b)

end Coeff
end Ragu
