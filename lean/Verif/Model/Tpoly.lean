/-
Model of the `t(X, Z)` functions of `ragu_circuits/src/polynomials/mod.rs` and of the
native evaluation in `polynomials/txz.rs`.  `n` is `Rank::n()`; where the code uses
`log2_n` it is `n = 2 ^ k`.
-/
import Verif.Model.Sparse

namespace Ragu.Tpoly
open Ragu
variable {F : Type*} [Field F] [DecidableEq F]

/-- The loop of `tz`, crates/ragu_circuits/src/polynomials/mod.rs:52-56: `view.c`
pushes `l + r`, then `l *= zinv`, `r *= z`. -/
def tzLoop (zinv z : F) : ℕ → F → F → List F
  | 0, _, _ => []
  | m + 1, l, r => (l + r) :: tzLoop zinv z m (l * zinv) (r * z)

/-- `Rank::tz`, crates/ragu_circuits/src/polynomials/mod.rs:45-60. -/
def tz (n : ℕ) (z : F) : Option (Sparse.Poly F) :=
  if z ≠ 0 then
    let zinv := z⁻¹
    let zpow := z ^ (2 * n)
    Sparse.View.buildWiring n ⟨[], [], tzLoop zinv z n (-zpow * zinv) (-zpow), []⟩
  else Sparse.View.buildWiring n ⟨[], [], [], []⟩

/-- The loop of `tx`, crates/ragu_circuits/src/polynomials/mod.rs:67-71. -/
def txLoop (x : F) : ℕ → F → List F
  | 0, _ => []
  | m + 1, xi => xi :: txLoop x m (xi * x)

/-- `Rank::tx`, crates/ragu_circuits/src/polynomials/mod.rs:63-77. -/
def tx (n : ℕ) (x : F) : Option (Sparse.Poly F) :=
  if x ≠ 0 then
    let l := (txLoop x n (-(x ^ (3 * n)))).reverse
    Sparse.View.buildWiring n ⟨l, l, [], []⟩
  else Sparse.View.buildWiring n ⟨[], [], [], []⟩

/-- The loop of `Evaluate::predict`, crates/ragu_circuits/src/polynomials/txz.rs:129-134. -/
def txzLoop : ℕ → F → F → F → F → F × F
  | 0, l, r, _, _ => (l, r)
  | k + 1, l, r, s, t => txzLoop k (l + l * s) (r + r * t) (s ^ 2) (t ^ 2)

/-- `Evaluate::predict`, crates/ragu_circuits/src/polynomials/txz.rs:91-141: `none`
is the "division by zero" error. -/
def txzPredict (k : ℕ) (x z : F) : Option F :=
  if x = 0 then none
  else if z = 0 then none
  else
    let n := 2 ^ k
    let l0 := x ^ (4 * n - 1) * z ^ (2 * n)
    let lr := txzLoop k l0 l0 (x⁻¹ * z) (x⁻¹ * z⁻¹)
    some (-(lr.1 + lr.2 * z⁻¹))

/-- `Rank::txz`, crates/ragu_circuits/src/polynomials/mod.rs:80-101. The wireless
emulator takes a routine's prediction when there is one
(crates/ragu_core/src/drivers/emulator.rs:340-349). `none` is the `expect` panic. -/
def txz (k : ℕ) (x z : F) : Option F :=
  if x = 0 ∨ z = 0 then some 0 else txzPredict k x z

end Ragu.Tpoly
