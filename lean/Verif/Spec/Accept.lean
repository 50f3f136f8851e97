/-
What it means that polynomials hold the stages of a fuse.
-/
import Verif.Spec.Staging
import Verif.Spec.Revdot
import Verif.Spec.Stages
import Verif.Spec.Internal
import Verif.Model.Pcd.Stages
import Verif.Model.Pcd.Proof

namespace Ragu.Spec
open Ragu Ragu.Circuit Ragu.Pcd Ragu.Gadget
variable {F G HC : Type} [Field F] [DecidableEq F]

/-- The values that a polynomial holds in the gates of the last stage of a chain. -/
def stageValues (n : ℕ) (d : Chain) (r : Sparse.Poly F) : List F :=
  (List.range d.values).map fun j =>
    wireOf n r (stageWire d.skipGates j).1 (stageWire d.skipGates j).2

/-- The stages' gadgets have the values that the stage polynomials `rx` hold, for headers of `N`
elements and a sponge of width `T`. -/
structure StagesOf (n N T : ℕ) (rx : RxIndex → Sparse.Poly F) (S : StepStages F) : Prop where
  preamble : S.preamble.elems.map (·.wire) = stageValues n (preambleStage N) (rx .preamble)
  outerError : S.outerError.elems.map (·.wire) = stageValues n (outerErrorStage N T) (rx .outerError)
  innerError : S.innerError.flatten.map (·.wire) =
    stageValues n (innerErrorStage N T) (rx .innerError)
  query : S.query.elems.map (·.wire) = stageValues n (queryStage N) (rx .query)
  eval : S.eval.elems.map (·.wire) = stageValues n (evalStage N) (rx .eval)

/-- The public values of a proof, for a proof none of whose bridge commitments is the identity. -/
def proofPublic (p : Proof F G HC) : StepPublic F where
  bridgePreamble := p.preamble.bridge.commitment.getD (0, 0)
  w := p.challenges.w
  bridgeSPrime := p.sPrime.bridge.commitment.getD (0, 0)
  y := p.challenges.y
  z := p.challenges.z
  bridgeInnerError := p.innerError.bridge.commitment.getD (0, 0)
  mu := p.challenges.mu
  nu := p.challenges.nu
  bridgeOuterError := p.outerError.bridge.commitment.getD (0, 0)
  muPrime := p.challenges.muPrime
  nuPrime := p.challenges.nuPrime
  c := p.ab.native.c
  bridgeAb := p.ab.bridge.commitment.getD (0, 0)
  x := p.challenges.x
  bridgeQuery := p.query.bridge.commitment.getD (0, 0)
  alpha := p.challenges.alpha
  bridgeF := p.f.bridge.commitment.getD (0, 0)
  u := p.challenges.u
  bridgeEval := p.eval.bridge.commitment.getD (0, 0)
  preBeta := p.challenges.preBeta
  v := p.p.native.v

end Ragu.Spec
