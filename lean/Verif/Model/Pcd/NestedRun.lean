/-
Model of the part of a run of `fuse` (`ragu_pcd/src/fuse/`) over the scalar field: the bridge stages,
the stages of the endoscaling steps and the traces of the steps.
-/
import Verif.Model.Pcd.Prover

namespace Ragu.Pcd
open Ragu Ragu.Circuit Ragu.Registry Ragu.Gadget Ragu.Spec
variable {F G HC : Type} [Field F] [DecidableEq F] [Field G] [DecidableEq G]

/-- What the scalar field's side takes from the cycle: the host curve is `y² = x³ + b` over the scalar
field, `zeta` is `ZETA` of the scalar field, and `coords` gives the affine coordinates of a host curve
point, with `none` for the identity. -/
structure NestedParams (G HC : Type) where
  b : G
  zeta : G
  coords : HC → Option (G × G)

/-! ### Stages -/

/-- `Point::alloc` for each point in turn, as in
crates/ragu_pcd/src/internal/nested/stages/mod.rs:83-99 and
crates/ragu_pcd/src/internal/nested/stages/preamble.rs:88-99 and 131-145. -/
def allocPoints (b : G) : List (Option (G × G)) → Syn G (List (Gadget.Point G))
  | [] => return []
  | v :: vs => do
    let p ← Point.alloc b v
    let ps ← allocPoints b vs
    return p :: ps

/-- Derived `Gadget` of a list of points: the coordinates of each. -/
def pointElems (ps : List (Gadget.Point G)) : List (Element G) := ps.flatMap fun p => [p.x, p.y]

/-- `ChildWitness::from_proof`,
crates/ragu_pcd/src/internal/nested/stages/preamble.rs:40-53: the fields in the order of their
declaration. -/
def bridgeChild (p : Proof F G HC) : List HC :=
  ([.application, .hashes1, .hashes2, .innerCollapse, .outerCollapse, .computeV] : List RxIndex).map
    fun i => (p.triple i).commitment

/-- The witness code of the bridge stage for the points `l`. -/
def bridgeCode (K : NestedParams G HC) (l : List HC) : Syn G (List (Gadget.Point G)) :=
  allocPoints K.b (l.map K.coords)

/-- `PointsStage::witness`, crates/ragu_pcd/src/internal/endoscalar.rs:190-209. -/
def pointsStageCode (K : NestedParams G HC) (w : PointsWitness HC) :
    Syn G (PointsWitness (Gadget.Point G)) := do
  let initial ← Point.alloc K.b (K.coords w.initial)
  let inputs ← allocPoints K.b (w.inputs.map K.coords)
  let interstitials ← allocPoints K.b (w.interstitials.map K.coords)
  return ⟨initial, inputs, interstitials⟩

/-- Derived `Gadget` of `Points`, crates/ragu_pcd/src/internal/endoscalar.rs:164-173. -/
def PointsWitness.elems (w : PointsWitness (Gadget.Point G)) : List (Element G) :=
  pointElems (w.initial :: (w.inputs ++ w.interstitials))

/-- Points from consecutive coordinates. -/
def pointsOfElems : ℕ → List (Element G) → List (Gadget.Point G)
  | 0, _ => []
  | k + 1, l => ⟨l.getD 0 Element.zero, l.getD 1 Element.zero⟩ :: pointsOfElems k (l.drop 2)

/-- Derived `map_gadget` of `Points`, crates/ragu_pcd/src/internal/endoscalar.rs:164-173, for `k` inputs
and `s` interstitials. -/
def PointsWitness.ofElems (k s : ℕ) (l : List (Element G)) : PointsWitness (Gadget.Point G) where
  initial := ⟨l.getD 0 Element.zero, l.getD 1 Element.zero⟩
  inputs := pointsOfElems k (l.drop 2)
  interstitials := pointsOfElems s (l.drop (2 + 2 * k))

/-- The wires of an endoscalar, crates/ragu_primitives/src/endoscalar.rs:33-43. A bit of the gadget is
only a wire; its value is that of the whole. -/
def endoscalarElems (e : Endoscalar G) : List (Element G) := e.bits.map fun w => ⟨w, w⟩

/-- The endoscalar stage's guard. -/
def endoscalarGuard (e : Endoscalar G) (es : List G) : Syn G (Endoscalar G) := do
  let l ← injectElems (endoscalarElems e) (guardWires endoscalarStage es)
  return ⟨l.map (·.wire), e.value⟩

/-- The points stage's guard. -/
def pointsGuard (w : PointsWitness (Gadget.Point G)) (es : List G) :
    Syn G (PointsWitness (Gadget.Point G)) := do
  let l ← injectElems w.elems (guardWires pointsStage es)
  return .ofElems (NUM_ENDOSCALING_POINTS - 1) NUM_ENDOSCALING_STEPS l

/-- `EndoscalingStep::witness`, crates/ragu_pcd/src/internal/endoscalar.rs:277-323, with the two stages'
guards; it has no public output. -/
def endoscalingCode (nbits : ℕ) (zeta : G) (step : ℕ) (e : Endoscalar G)
    (points : PointsWitness (Gadget.Point G)) (es : List G) : Syn G (List G) := do
  let e ← endoscalarGuard e es
  let points ← pointsGuard points es
  stepCircuit nbits zeta NUM_ENDOSCALING_POINTS step e points
  return []

/-! ### The run -/

/-- The bridges, crates/ragu_pcd/src/fuse/_02_preamble.rs:32-42, _03_s_prime.rs:24-33,
_04_inner_error.rs:44-53, _05_outer_error.rs:154-162, _06_ab.rs:67-76, _07_query.rs:42-51,
_08_f.rs:63-71 and _09_eval.rs:41-49: every bridge polynomial holds the coordinates of the commitments
computed in the same round, and the first also those of the children's circuits. -/
structure BridgesRun (K : NestedParams G HC) (n : ℕ) (left right p : Proof F G HC)
    (t : FuseTraces F G) : Prop where
  preamble : ∃ g, StageRun n bridgePreamble (bridgeCode K
    (p.preamble.native.commitment :: (bridgeChild left ++ bridgeChild right))) pointElems g
    t.preambleBridge.rx
  sPrime : ∃ g, StageRun n bridgeSPrime (bridgeCode K
    [p.sPrime.native.registryWx0Commitment, p.sPrime.native.registryWx1Commitment]) pointElems g
    t.sPrimeBridge.rx
  innerError : ∃ g, StageRun n bridgeInnerError (bridgeCode K
    [p.innerError.native.rxTriple.commitment, p.innerError.native.registryWyCommitment]) pointElems g
    t.innerErrorBridge.rx
  outerError : ∃ g, StageRun n bridgeOuterError (bridgeCode K [p.outerError.native.commitment])
    pointElems g t.outerErrorBridge.rx
  ab : ∃ g, StageRun n bridgeAB (bridgeCode K [p.ab.native.aCommitment, p.ab.native.bCommitment])
    pointElems g t.abBridge.rx
  query : ∃ g, StageRun n bridgeQuery (bridgeCode K
    [p.query.native.rxTriple.commitment, p.query.native.registryXyCommitment]) pointElems g
    t.queryBridge.rx
  f : ∃ g, StageRun n bridgeF (bridgeCode K [p.f.native.commitment]) pointElems g t.fBridge.rx
  eval : ∃ g, StageRun n bridgeEval (bridgeCode K [p.eval.native.commitment]) pointElems g
    t.evalBridge.rx

variable [AddCommGroup HC] [Module F HC]

/-- The nested part of `compute_p`, crates/ragu_pcd/src/fuse/_10_p.rs:126-174. -/
structure EndoscalingRun (K : NestedParams G HC) (n : ℕ) (ec : EndoConsts F) (cs : Circuits F G)
    (R : Registry G) (left right p : Proof F G HC) (t : FuseTraces F G) : Prop where
  steps : t.nested.stepRxs.length = NUM_ENDOSCALING_STEPS
  stages : ∃ endo native w e points,
    extractNative ec.nbits ec.sqrt ec.gen p.challenges.preBeta = some endo ∧
    computeP (4 * n) ec.nbits ec.sqrt ec.gen ec.zeta ⟨left, right, p.sPrime.native, p.innerError.native,
      p.ab.native, p.query.native⟩ p.f.native p.challenges.preBeta p.challenges.u = some (native, w) ∧
    StageRun n endoscalarStage (Endoscalar.alloc ec.nbits endo) endoscalarElems e
      t.nested.endoscalarRx ∧
    StageRun n pointsStage (pointsStageCode K w) PointsWitness.elems points t.nested.pointsRx ∧
    ∀ i < NUM_ENDOSCALING_STEPS, ∃ j r, (NestedId.endoscalingStep i).circuitIndex = some j ∧
      t.nested.stepRxs[i]? = some r ∧
      emulate (stepCircuit ec.nbits K.zeta NUM_ENDOSCALING_POINTS i e points) = .ok () ∧
      CircuitRun n R j (cs.endoscaling i) pointsStage
        [(endoscalarStage, (endoscalarElems e).map (·.wire)),
          (pointsStage, points.elems.map (·.wire))]
        (endoscalingCode ec.nbits K.zeta i e points) r

end Ragu.Pcd
