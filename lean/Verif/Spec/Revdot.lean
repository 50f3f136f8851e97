/-
Specification of circuit satisfaction, for the revdot identity.
-/
import Verif.Spec.Circuit
import Verif.Spec.Sparse

namespace Ragu.Circuit
open Ragu
variable {F : Type} [Field F]

/-- The degree at which a trace polynomial with capacity `n` holds the value of
wire `k` of gate `i`. -/
def traceExp (n i : ℕ) : Kind → ℕ
  | .a => 2 * n + i
  | .b => 2 * n - 1 - i
  | .c => i
  | .d => 4 * n - 1 - i

/-- The value a trace polynomial gives to wire `k` of gate `i`. -/
def wireOf (n : ℕ) (r : List (ℕ × List F)) (k : Kind) (i : ℕ) : F :=
  Spec.coeff r (traceExp n i k)

/-- The assignment a trace polynomial encodes under a floor plan. -/
def assignment (n : ℕ) (fp : List Seg) (r : List (ℕ × List F)) (b : Base) : F :=
  wireOf n r b.kind (absGate fp b)

/-- All gate equations hold. -/
def GatesHold (n : ℕ) (r : List (ℕ × List F)) : Prop :=
  ∀ i < n, wireOf n r .a i * wireOf n r .b i = wireOf n r .c i ∧
    wireOf n r .c i * wireOf n r .d i = 0

/-- Under the assignment `φ`, synthesis of the circuit enforces only constraints
that hold, its outputs are `inst`, and the constant wire is one. -/
def Satisfies (φ : Base → F) (c : Circ F) (inst : List F) : Prop :=
  ∃ s es, run (semD φ) c.body { pos := Pos.gate {} } [] = .ok (s, es) ∧
    (∀ row ∈ s.log, row.val = 0) ∧
    c.outs.mapM (resolve (φ ⟨.b, 0, 0⟩) es) = .ok inst ∧
    φ ⟨.b, 0, 0⟩ = 1

end Ragu.Circuit
