/-
Model of the example application that the tests and benchmarks of `ragu_pcd` run:
`ragu_testing/src/pcd/nontrivial.rs`.
-/
import Verif.Model.Pcd.StepProgram

namespace Ragu.Pcd
open Ragu Ragu.Gadget
variable {F : Type} [Field F] [DecidableEq F]

/-- `LeafNode`, crates/ragu_testing/src/pcd/nontrivial.rs:17-30. -/
def leafNode : Header F F (Element F) := ⟨Suffix.new 0, 1, Element.alloc, fun e => [e]⟩

/-- `InternalNode`, crates/ragu_testing/src/pcd/nontrivial.rs:32-45. -/
def internalNode : Header F F (Element F) := ⟨Suffix.new 1, 2, Element.alloc, fun e => [e]⟩

/-- `WitnessLeaf`, crates/ragu_testing/src/pcd/nontrivial.rs:91-138. The calls on the sponge are those of
`transcriptWrite` and `transcriptChallenge`; their errors, which cannot occur here, are panics. -/
def witnessLeaf (p : PoseidonParams F) : StepProgram F where
  W := F
  left := Header.unit
  right := Header.unit
  output := leafNode
  code witness := do
    let leaf ← Element.alloc witness
    let sponge ← transcriptWrite p leaf (Sponge.new Element.zero p.T)
    let r ← transcriptChallenge p sponge
    return ((), (), r.1, r.1.value)
  input := 0

/-- `Hash2`, crates/ragu_testing/src/pcd/nontrivial.rs:47-89; `Encoded::new` allocates the element of a
leaf (crates/ragu_pcd/src/step/encoder.rs:111-113). -/
def hash2 (p : PoseidonParams F) : StepProgram F where
  W := F × F
  left := leafNode
  right := leafNode
  output := internalNode
  code data := do
    let left ← leafNode.encode data.1
    let right ← leafNode.encode data.2
    let sponge ← transcriptWrite p left (Sponge.new Element.zero p.T)
    let sponge ← transcriptWrite p right sponge
    let r ← transcriptChallenge p sponge
    return (left, right, r.1, r.1.value)
  input := (0, 0)

end Ragu.Pcd
