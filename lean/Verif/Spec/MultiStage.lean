/-
What a multi-stage circuit sees of its stages.
-/
import Verif.Spec.Staging

namespace Ragu.Spec
open Ragu Ragu.Circuit
variable {F : Type} [Field F]

/-- A stage of a chain, with the values its witness code produced and the blinding factor its
polynomial was made with. -/
structure StageInput (F : Type) where
  stage : Chain
  alpha : F
  values : List F

/-- `d` is one of the stages of the chain that ends in `ch`. -/
def InChain (d ch : Chain) : Prop := d = ch ∨ Ancestor d ch

/-- The values of the wires the stages of `ch` hand to the rest of the circuit: those of the given
stages, padded with zeros, and zeros for the stages that are not given. -/
structure StageWires (ch : Chain) (parts : List (StageInput F)) (es : List F) : Prop where
  length : es.length = firstWire ch + 2 * ch.numGates
  given : ∀ p ∈ parts, ∀ j < 2 * p.stage.numGates,
    es[firstWire p.stage + j]? = some (p.values.getD j 0)
  skipped : ∀ d, InChain d ch → d ∉ parts.map StageInput.stage → ∀ j < 2 * d.numGates,
    es[firstWire d + j]? = some 0

end Ragu.Spec
