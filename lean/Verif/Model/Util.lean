/-
Model of `ragu_arithmetic/src/util.rs` (evaluation, dot product, linear
factoring, geometric sums).  Iterators are lists; `F: Field` is a Mathlib field.
-/
import Mathlib.Algebra.Field.Basic

namespace Ragu.Util

variable {F : Type*} [Field F]

/-- `eval`, crates/ragu_arithmetic/src/util.rs:30-40: iterate the coefficients in
reverse, `result *= x; result += coeff`. -/
def eval (coeffs : List F) (x : F) : F :=
  coeffs.reverse.foldl (fun result coeff => result * x + coeff) 0

/-- `dot`, crates/ragu_arithmetic/src/util.rs:48-63.  `none` is the `assert_eq!`
panic on different lengths (line 58). -/
def dot (a b : List F) : Option F :=
  if a.length = b.length then
    some ((List.zipWith (fun x y => x * y) a b).foldl (fun acc x => acc + x) 0)
  else none

/-- The `from_fn` closure of `factor_iter_inner`,
crates/ragu_arithmetic/src/util.rs:76-87, as recursion over the remaining
reversed input.  `nb` is the negated root (line 69), `tmp` the carried state
(line 74).  The second equation is the `a.peek()?` short-circuit (line 80). -/
def factorLoop (nb : F) : F → List F → List F
  | _, [] => []
  | _, [_] => []
  | tmp, current :: next :: rest =>
      let lead := current - tmp
      lead :: factorLoop nb (lead * nb) (next :: rest)

/-- `factor_iter_inner`/`factor_iter`, crates/ragu_arithmetic/src/util.rs:65-106:
the yielded sequence, highest degree first.  `none` is the `assert!` panic of
line 72 (empty input). -/
def factorIter (a : List F) (b : F) : Option (List F) :=
  if a = [] then none else some (factorLoop (-b) 0 a.reverse)

/-- `factor`, crates/ragu_arithmetic/src/util.rs:115-122. -/
def factor (a : List F) (b : F) : Option (List F) :=
  (factorIter a b).map List.reverse

/-- The `while m > 0` loop of `geosum`, crates/ragu_arithmetic/src/util.rs:311-319;
state `(r, m, block, sum, step)`. -/
def geosumLoop (r : F) (m : Nat) (block sum step : F) : F :=
  if _h : m = 0 then sum
  else
    let odd := m % 2 = 1
    geosumLoop (r * r) (m / 2) (block + r * block)
      (if odd then sum + step * block else sum)
      (if odd then step * r else step)
termination_by m
decreasing_by omega

/-- `geosum`, crates/ragu_arithmetic/src/util.rs:307-321. -/
def geosum (r : F) (m : Nat) : F := geosumLoop r m 1 0 1

end Ragu.Util
