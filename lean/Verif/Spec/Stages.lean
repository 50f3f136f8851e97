/-
The values that the stages of a fuse hold, in order.
-/
import Verif.Model.Pcd.Internal
import Verif.Spec.Unified

namespace Ragu.Spec
open Ragu Ragu.Pcd Ragu.Gadget
variable {F : Type} [Field F] [DecidableEq F]

/-- The lengths that the types of the stages fix: `N` is the size of a header, `T` the width of the
sponge. -/
structure StageTypes (N T : ℕ) (S : StepStages F) : Prop where
  left : S.preamble.left.leftHeader.length = N ∧ S.preamble.left.rightHeader.length = N ∧
    S.preamble.left.outputHeader.length = N
  right : S.preamble.right.leftHeader.length = N ∧ S.preamble.right.rightHeader.length = N ∧
    S.preamble.right.outputHeader.length = N
  outerErrors : S.outerError.errorTerms.length = NUM_GROUPS * NUM_GROUPS - NUM_GROUPS
  collapsed : S.outerError.collapsed.length = NUM_GROUPS
  innerErrors : S.innerError.length = NUM_GROUPS
  innerError : ∀ e ∈ S.innerError, e.length = GROUP_SIZE * GROUP_SIZE - GROUP_SIZE
  state : S.outerError.spongeState.length = T

/-- The public values in order. -/
def unifiedCoords (v : (s : SlotId) → s.kind.Native F) : List F :=
  SlotId.all.flatMap fun s => coords s.kind (v s)

/-- The evaluations of one child's polynomials in the query stage. -/
def queryChildValues (c : QueryChild F) : List F :=
  [c.rx .application, c.rx .hashes1, c.rx .hashes2, c.rx .innerCollapse, c.rx .outerCollapse,
    c.rx .computeV, c.rx .preamble, c.rx .innerError, c.rx .outerError, c.rx .query, c.rx .eval,
    c.aPolyAtXz, c.bPolyAtX, c.childRegistryXyAtCurrentW, c.currentRegistryXyAtChildCircuitId,
    c.currentRegistryWyAtChildX]

/-- The values of the query stage. -/
def queryValues (q : QueryOutput F) : List F :=
  NativeId.all.map q.fixedRegistry ++ [q.registryWxy] ++ queryChildValues q.left ++
    queryChildValues q.right

/-- The evaluations of one child's polynomials in the eval stage. -/
def evalChildValues (c : EvalChild F) : List F :=
  [c.rx .application, c.rx .hashes1, c.rx .hashes2, c.rx .innerCollapse, c.rx .outerCollapse,
    c.rx .computeV, c.rx .preamble, c.rx .innerError, c.rx .outerError, c.rx .query, c.rx .eval,
    c.aPoly, c.bPoly, c.registryXyPoly, c.pPoly]

/-- The values of the eval stage. -/
def evalValues (e : EvalOutput F) : List F :=
  evalChildValues e.left ++ evalChildValues e.right ++
    [e.registryWx0, e.registryWx1, e.registryWy, e.aPoly, e.bPoly, e.registryXy]

end Ragu.Spec
