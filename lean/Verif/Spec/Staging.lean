/-
Which wires a stage polynomial may use.
-/
import Verif.Spec.Object
import Verif.Spec.Revdot
import Verif.Model.Staging

namespace Ragu.Spec
open Ragu Ragu.Circuit
variable {F : Type} [Field F]

/-- All wires of all gates outside the gates `skip .. skip + num`, the SYSTEM gate excepted, are
zero. -/
def OnlyIn (n skip num : ℕ) (r : Sparse.Poly F) : Prop :=
  ∀ j < n, Masked skip num j → ∀ k, wireOf n r k j = 0

/-- `a` is a proper ancestor of `c`: a stage that comes before it in the chain. -/
inductive Ancestor : Chain → Chain → Prop
  | parent (p : Chain) (s : StageDef) : Ancestor p (.child p s)
  | step {a p : Chain} (s : StageDef) : Ancestor a p → Ancestor a (.child p s)

/-- The wire that holds the `j`-th value of a stage whose gates start at `start`: the `b` wire of a
gate, then its `d` wire, then the `b` wire of the next gate. -/
def stageWire (start j : ℕ) : Kind × ℕ := (if j % 2 = 0 then .b else .d, start + j / 2)

end Ragu.Spec
