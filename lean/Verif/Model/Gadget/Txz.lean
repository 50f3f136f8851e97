/-
Model of the routine `Evaluate` of `ragu_circuits/src/polynomials/txz.rs` as a gadget. `k` is
`R::log2_n()`.
-/
import Verif.Model.Gadget.Element

namespace Ragu.Gadget
open Ragu Ragu.Circuit
variable {F : Type} [Field F] [DecidableEq F]
namespace Txz

/-- The loop of `execute`, crates/ragu_circuits/src/polynomials/txz.rs:78-85. -/
def loop : ℕ → Element F → Element F → Element F → Element F → Syn F (Element F × Element F)
  | 0, l, r, _, _ => return (l, r)
  | k + 1, l, r, xzStep, xzinvStep => do
    let lMul ← l.mul xzStep
    let l := l.add lMul
    let rMul ← r.mul xzinvStep
    let r := r.add rMul
    let xzStep ← xzStep.square
    let xzinvStep ← xzinvStep.square
    loop k l r xzStep xzinvStep

/-- `Evaluate::execute`, crates/ragu_circuits/src/polynomials/txz.rs:43-89. -/
def execute (k : ℕ) (x z : Element F) (aux : F × F) : Syn F (Element F) := do
  let xn ← Element.squareLoop k x
  let x2n ← xn.square
  let x4n ← x2n.square
  let zn ← Element.squareLoop k z
  let z2n ← zn.square
  let xInv ← x.invertWith aux.1
  let zInv ← z.invertWith aux.2
  let x4nMinus1 ← x4n.mul xInv
  let l ← x4nMinus1.mul z2n
  let xzStep ← xInv.mul z
  let xzinvStep ← xInv.mul zInv
  let (l, r) ← loop k l l xzStep xzinvStep
  let rZinv ← r.mul zInv
  let sum := l.add rZinv
  return sum.negate

/-- `dr.routine(Evaluate::new(), (x, z))` in the simulator: the closure of `predict` that computes
the inverses, crates/ragu_circuits/src/polynomials/txz.rs:99-113, then `execute` with them
(crates/ragu_primitives/src/simulator.rs:155-162). -/
def evaluate (k : ℕ) (x z : Element F) : Syn F (Element F) := do
  tryJust (x.value ≠ 0)
  tryJust (z.value ≠ 0)
  execute k x z (x.value⁻¹, z.value⁻¹)

end Txz
end Ragu.Gadget
