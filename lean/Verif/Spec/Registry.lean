/-
The registry polynomial `m(W, X, Y)`.
-/
import Mathlib.LinearAlgebra.Lagrange
import Mathlib.RingTheory.RootsOfUnity.PrimitiveRoots
import Verif.Model.Registry
import Verif.Spec.Object

namespace Ragu.Spec
open Ragu Ragu.Registry Finset
variable {F : Type} [Field F] [DecidableEq F]

/-- The polynomial in `W` of degree below `N` that takes the value `s_i(x, y)` at the `i`-th node,
and `0` at the nodes beyond the list, plus the key term `k (xy)^(4n-1)`; evaluated at `w`. -/
noncomputable def registryAt (n N : ℕ) (node : ℕ → F) (ss : List (F → F → F)) (key : F)
    (w x y : F) : F :=
  (Lagrange.interpolate (range N) node fun i => (ss[i]?.map fun s => s x y).getD 0).eval w +
    key * (x * y) ^ (4 * n - 1)

/-- The assumptions on the field and on the machine: the constants of the prime field are
right, its two-adicity is at most 32 (it is exactly 32 for the Pasta fields) and there is a thread
to run on. -/
structure EnvOk (E : Env F) : Prop where
  consts : IsPrimitiveRoot E.consts.root (2 ^ E.consts.S) ∧ E.consts.root * E.consts.rootInv = 1 ∧
    (2 : F) * E.consts.twoInv = 1
  small : E.consts.S ≤ 32
  threads : 0 < E.threads

/-- The lookup keys of the `2^k`-th roots of unity are distinct. The code relies on this for the
Pasta fields (crates/ragu_circuits/src/registry.rs:341-343). -/
def KeysDistinct (E : Env F) (k : ℕ) : Prop :=
  ∀ a b : F, a ^ 2 ^ k = 1 → b ^ 2 ^ k = 1 → omegaKey E a = omegaKey E b → a = b

end Ragu.Spec
