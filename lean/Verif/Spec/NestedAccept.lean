/-
What the polynomials over the scalar field of a proof hold, and proofs that a verifier cannot tell
apart.
-/
import Verif.Spec.Accept
import Verif.Spec.Verify
import Verif.Model.Pcd.NestedRun

namespace Ragu.Spec
open Ragu Ragu.Circuit Ragu.Pcd Ragu.Gadget
variable {F G HC : Type} [Field F] [DecidableEq F] [Field G] [DecidableEq G]

/-- The gadgets `e` and `g` have the values that the proof's polynomials of the endoscalar stage and of
the points stage hold: 128 bits, and the coordinates of one initial point, 36 inputs and nine
interstitials. -/
structure EndoscalingOf (n : ℕ) (p : Proof F G HC) (e : Endoscalar G)
    (g : PointsWitness (Gadget.Point G)) : Prop where
  bits : e.bits = stageValues n endoscalarStage p.p.nested.endoscalarRx
  points : g.elems.map (·.wire) = stageValues n pointsStage p.p.nested.pointsRx
  inputs : g.inputs.length = 36
  interstitials : g.interstitials.length = 9

/-- The stage over the scalar field whose values a polynomial of the proof holds. -/
def nestedStageOf : NestedRx → Option Chain
  | .endoscalingStep _ => none
  | .endoscalarStage => some endoscalarStage
  | .pointsStage => some pointsStage
  | .bridgePreamble => some bridgePreamble
  | .bridgeSPrime => some bridgeSPrime
  | .bridgeInnerError => some bridgeInnerError
  | .bridgeOuterError => some bridgeOuterError
  | .bridgeAB => some bridgeAB
  | .bridgeQuery => some bridgeQuery
  | .bridgeF => some bridgeF
  | .bridgeEval => some bridgeEval

/-- Two proofs that agree in everything but the commitments to native polynomials other than the batched
one, and the native polynomials `f`, `registry_wx0`, `registry_wx1` and `registry_wy`. -/
structure SameToVerifier (p p' : Proof F G HC) : Prop where
  circuitId : p.application.circuitId = p'.application.circuitId
  left : p.application.leftHeader = p'.application.leftHeader
  right : p.application.rightHeader = p'.application.rightHeader
  native : ∀ c, p.nativeRx c = p'.nativeRx c
  nested : ∀ c, p.nestedRx c = p'.nestedRx c
  bridges : bridgePoints p = bridgePoints p'
  challenges : p.challenges = p'.challenges
  c : p.ab.native.c = p'.ab.native.c
  batched : p.p.native = p'.p.native
  registryXy : p.query.native.registryXyPoly = p'.query.native.registryXyPoly

/-- `p` with the polynomials over the scalar field of `q`. -/
def withNested (p q : Proof F G HC) : Proof F G HC :=
  ⟨p.application, ⟨p.preamble.native, ⟨q.preamble.bridge.rx, p.preamble.bridge.commitment⟩⟩,
    ⟨p.sPrime.native, ⟨q.sPrime.bridge.rx, p.sPrime.bridge.commitment⟩⟩,
    ⟨p.innerError.native, ⟨q.innerError.bridge.rx, p.innerError.bridge.commitment⟩⟩,
    ⟨p.outerError.native, ⟨q.outerError.bridge.rx, p.outerError.bridge.commitment⟩⟩,
    ⟨p.ab.native, ⟨q.ab.bridge.rx, p.ab.bridge.commitment⟩⟩,
    ⟨p.query.native, ⟨q.query.bridge.rx, p.query.bridge.commitment⟩⟩,
    ⟨p.f.native, ⟨q.f.bridge.rx, p.f.bridge.commitment⟩⟩,
    ⟨p.eval.native, ⟨q.eval.bridge.rx, p.eval.bridge.commitment⟩⟩,
    ⟨p.p.native, q.p.nested⟩, p.challenges, p.circuits⟩

end Ragu.Spec
