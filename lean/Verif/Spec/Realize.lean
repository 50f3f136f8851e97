/-
When a circuit is the one that gadget code describes.
-/
import Verif.Spec.Calls
import Verif.Spec.MultiStage

namespace Ragu.Spec
open Ragu Ragu.Circuit Ragu.Gadget
variable {F : Type} [Field F] [DecidableEq F]

/-- The circuit `c` consists of the stages of the chain `ch` and a rest that, whatever the stages'
wires `es` hold, makes the calls of the gadget code `x es` and outputs its result. An ordinary
circuit has the empty chain. -/
def Realizes (ch : Chain) (c : Circ F) (x : List F → Syn F (List F)) : Prop :=
  ∃ k, multiStage ch k = .ok c.body ∧ ∀ es, es.length = firstWire ch + 2 * ch.numGates →
    Calls (fun env out => c.outs.mapM (resolve 1 env) = .ok out) k es (x es)

/-- The synthesis `c` of a circuit with the stages of `ch`, run by the prover: the witness values of
its rest are those that the gadget code `x` supplies when the stages' wires hold `es`. -/
def Synthesizes (ch : Chain) (c : Circ F) (es : List F) (x : Syn F (List F)) : Prop :=
  ∃ k, multiStage ch k = .ok c.body ∧
    Supplies (fun env out => c.outs.mapM (resolve 1 env) = .ok out) k es x

end Ragu.Spec
