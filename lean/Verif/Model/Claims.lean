/-
The claims a verifier checks: crates/ragu_pcd/src/internal/claims.rs.
-/
import Verif.Model.Sparse
import Verif.Model.Sy
import Verif.Model.Tpoly
import Verif.Model.Ky

namespace Ragu.Circuit
open Ragu
variable {F : Type} [Field F] [DecidableEq F]

/-- The right-hand polynomial of a circuit claim, `r(zX) + s(X, y) + t(X, z)`:
`circuit_impl`, crates/ragu_pcd/src/internal/claims.rs:95-104. -/
def claimB (n : ℕ) (r sy tz : Sparse.Poly F) (z : F) : Option (Sparse.Poly F) := do
  let b1 ← Sparse.addAssign (4 * n) (Sparse.dilate r z) sy
  Sparse.addAssign (4 * n) b1 tz

/-- The check a verifier makes of a trace polynomial `r` against the instance
`inst` at the points `y`, `z`: the polynomials can be computed and
`revdot(r, r(zX) + s(X, y) + t(X, z)) = k(y)`
(crates/ragu_pcd/src/verify.rs:88-106 with `circuit_impl` above and
crates/ragu_circuits/src/ky.rs:19-28). -/
def ClaimHolds (n : ℕ) (fp : List Seg) (c : Circ F) (r : Sparse.Poly F) (inst : List F)
    (y z : F) : Prop :=
  ∃ sy tz b, syEval n fp c y = .ok sy ∧ Tpoly.tz n z = some tz ∧ claimB n r sy tz z = some b ∧
    Sparse.revdot (4 * n) r b = Ky.kyEval inst y

end Ragu.Circuit
