/-
What the example circuits should prove, and histories of registrations.
-/
import Verif.Model.Testing

namespace Ragu.Spec
open Ragu Ragu.Circuit Ragu.Registry Ragu.Testing
variable {F : Type} [Field F]

/-- The relation of the simple example: `a⁵ = b²`, with public `c = a + b` and `d = a − b`. -/
def SimpleRel (a b c d : F) : Prop := a ^ 5 = b ^ 2 ∧ c = a + b ∧ d = a - b

/-- One registration with the test builder. -/
inductive TestReg (F : Type) where
  | circuit (c : Circ F)
  | bonding (o : CircuitObject F)

/-- How many of the registrations are of circuits. -/
def circuitCount : List (TestReg F) → ℕ
  | [] => 0
  | .circuit _ :: h => circuitCount h + 1
  | .bonding _ :: h => circuitCount h

variable [DecidableEq F]

/-- One registration. -/
def TestReg.apply (n : ℕ) (b : TestBuilder F) : TestReg F → Except Err Handle × TestBuilder F
  | .circuit c => b.registerCircuit n c
  | .bonding o => b.registerBonding o

/-- What a caller does that gives up at the first failure: the handles, in the order of registration,
and the builder at the end. -/
def registerAll (n : ℕ) : List (TestReg F) → TestBuilder F → Except Err (List Handle × TestBuilder F)
  | [], b => .ok ([], b)
  | g :: gs, b =>
    match g.apply n b with
    | (.error e, _) => .error e
    | (.ok h, b') => (registerAll n gs b').map fun r => (h :: r.1, r.2)

end Ragu.Spec
