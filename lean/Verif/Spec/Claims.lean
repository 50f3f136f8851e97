/-
What the revdot claims of a list of proofs are, and the public value of each.
-/
import Verif.Model.Pcd.Proof

namespace Ragu.Spec
open Ragu Ragu.Pcd

/-- A revdot claim over the traces `Rx` of the proofs. -/
inductive Claim (Rx Id : Type) where
  /-- the claim about the accumulated pair of polynomials -/
  | raw (a b : Rx)
  /-- the trace of an application circuit -/
  | circuit (id : Id) (rx : Rx)
  /-- the trace of an internal circuit, split over stages -/
  | internal (id : NativeId) (rxs : List Rx)
  /-- traces that must satisfy the bonding polynomial of a stage -/
  | bonding (id : NativeId) (rxs : List Rx)

/-- A proof as the claims see it: its traces and polynomials, the identifier of its application
circuit, the value `c` of its accumulated claim, and the values `k(y)` of its application, bridge
and unified instances. -/
structure Child (Rx Id K : Type) where
  rx : RxComponent → Rx
  id : Id
  c : K
  app : K
  bridge : K
  unified : K

variable {Rx Id K : Type}

/-- The traces that an internal circuit is split into: its own and those of its stages. -/
def traceParts : NativeId → List RxIndex
  | .hashes1Circuit => [.hashes1, .preamble, .outerError]
  | .hashes2Circuit => [.hashes2, .outerError]
  | .innerCollapseCircuit => [.innerCollapse, .preamble, .innerError, .outerError]
  | .outerCollapseCircuit => [.outerCollapse, .preamble, .outerError]
  | .computeVCircuit => [.computeV, .preamble, .query, .eval]
  | _ => []

/-- The traces a stage mask or a final mask applies to. -/
def bondedParts : NativeId → List RxIndex
  | .preambleStage => [.preamble]
  | .innerErrorStage => [.innerError]
  | .outerErrorStage => [.outerError]
  | .queryStage => [.query]
  | .evalStage => [.eval]
  | .innerErrorFinalStaged => [.innerCollapse]
  | .outerErrorFinalStaged => [.hashes1, .hashes2, .outerCollapse]
  | .evalFinalStaged => [.computeV]
  | _ => []

/-- The claim of one proof about an internal circuit. -/
def internalClaim (id : NativeId) (p : Child Rx Id K) : Claim Rx Id :=
  .internal id ((traceParts id).map fun i => p.rx (.rx i))

/-- The claim of all proofs about a mask. -/
def bondingClaim (id : NativeId) (ps : List (Child Rx Id K)) : Claim Rx Id :=
  .bonding id ((bondedParts id).flatMap fun i => ps.map fun p => p.rx (.rx i))

/-- The claims about the proofs `ps`, each with its public value: raw claims with `c`, application
circuits with the application instance, the first hash circuit with the bridge instance, the other
internal circuits with the unified instance, and the masks with zero. -/
def claimTable (ps : List (Child Rx Id K)) (zero : K) : List (Claim Rx Id × K) :=
  ps.map (fun p => (.raw (p.rx .abA) (p.rx .abB), p.c)) ++
  ps.map (fun p => (.circuit p.id (p.rx (.rx .application)), p.app)) ++
  ps.map (fun p => (internalClaim .hashes1Circuit p, p.bridge)) ++
  [NativeId.hashes2Circuit, .innerCollapseCircuit, .outerCollapseCircuit, .computeVCircuit].flatMap
    (fun id => ps.map fun p => (internalClaim id p, p.unified)) ++
  [NativeId.preambleStage, .innerErrorStage, .outerErrorStage, .queryStage, .evalStage,
    .innerErrorFinalStaged, .outerErrorFinalStaged, .evalFinalStaged].map
    fun id => (bondingClaim id ps, zero)

/-- A claim over the scalar field. -/
inductive NestedClaim (Rx : Type) where
  | internal (id : NestedId) (rxs : List Rx)
  | bonding (id : NestedId) (rxs : List Rx)

/-- The nested claims of one proof, each with its public value: the endoscaling steps with one and
the masks with zero. -/
def nestedTable (rx : NestedRx → Rx) (one zero : K) : List (NestedClaim Rx × K) :=
  (List.range NUM_ENDOSCALING_STEPS).map (fun i => (.internal (.endoscalingStep i)
    [rx (.endoscalingStep i), rx .endoscalarStage, rx .pointsStage], one)) ++
  [(.bonding .endoscalarStage [rx .endoscalarStage], zero),
    (.bonding .pointsStage [rx .pointsStage], zero),
    (.bonding .pointsFinalStaged
      ((List.range NUM_ENDOSCALING_STEPS).map fun i => rx (.endoscalingStep i)), zero),
    (.bonding .bridgePreamble [rx .bridgePreamble], zero),
    (.bonding .bridgeSPrime [rx .bridgeSPrime], zero),
    (.bonding .bridgeInnerError [rx .bridgeInnerError], zero),
    (.bonding .bridgeOuterError [rx .bridgeOuterError], zero),
    (.bonding .bridgeAB [rx .bridgeAB], zero),
    (.bonding .bridgeQuery [rx .bridgeQuery], zero),
    (.bonding .bridgeF [rx .bridgeF], zero),
    (.bonding .bridgeEval [rx .bridgeEval], zero)]

end Ragu.Spec
