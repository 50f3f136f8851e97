/-
Model of an application's steps, with their gadget code: `ragu_pcd/src/step/mod.rs`.
-/
import Verif.Model.Pcd.Prover

namespace Ragu.Pcd
open Ragu Ragu.Gadget

/-- A `Step` implementation, crates/ragu_pcd/src/step/mod.rs:152-194: the headers `Left`, `Right` and
`Output`, and the gadget code of `witness` for an input `w`, which stands for the witness and the data of
the two sides. A step can make an `Encoded` only from the gadget of a header
(crates/ragu_pcd/src/step/encoder.rs:79-81 and 111-113), so the code returns the three gadgets, with the
output data; `Aux` is left out. -/
structure StepProgram (F : Type) where
  {W DL OL DR OR DO OO : Type}
  left : Header F DL OL
  right : Header F DR OR
  output : Header F DO OO
  code : W → Syn F (OL × OR × OO × DO)
  /-- There is some input; circuits are synthesized without one. -/
  input : W

variable {F : Type} [Field F] [DecidableEq F]

/-- The step in its adapter, crates/ragu_pcd/src/step/internal/adapter.rs:74-112. -/
def StepProgram.adapter (N : ℕ) (s : StepProgram F) (w : s.W) :
    Syn F (Except Err (AdapterOut F s.DO)) := do
  let r ← s.code w
  return adapterFinish (N := N) s.left s.right s.output (.gadget r.1) (.gadget r.2.1)
    (.gadget r.2.2.1) r.2.2.2

end Ragu.Pcd
