/-
Model of the proof structure: `ragu_pcd/src/proof/components.rs` and `proof/mod.rs`.

`F` is the circuit field, `G` the scalar field of the cycle, `HC` the group of the host curve.
A point of the nested curve is `none` (identity) or its affine coordinates in `F`.
-/
import Verif.Model.Pcd.App
import Verif.Model.Sparse

namespace Ragu.Pcd
open Ragu Ragu.Circuit
variable {F G HC : Type}

/-- `native::RxIndex`, crates/ragu_pcd/src/internal/native/mod.rs:179-194. -/
inductive RxIndex where
  | application | hashes1 | hashes2 | innerCollapse | outerCollapse | computeV
  | preamble | innerError | outerError | query | eval
deriving DecidableEq

/-- `RxIndex::ALL`, crates/ragu_pcd/src/internal/native/mod.rs:204-222. -/
def RxIndex.all : List RxIndex :=
  [.application, .hashes1, .hashes2, .innerCollapse, .outerCollapse, .computeV, .preamble,
    .innerError, .outerError, .query, .eval]

/-- `RxComponent`, crates/ragu_pcd/src/internal/native/mod.rs:298-306. -/
inductive RxComponent where
  | abA | abB
  | rx (i : RxIndex)
deriving DecidableEq

/-- `nested::RxIndex`, crates/ragu_pcd/src/internal/nested/mod.rs:120-143. -/
inductive NestedRx where
  | endoscalingStep (step : ℕ)
  | endoscalarStage | pointsStage
  | bridgePreamble | bridgeSPrime | bridgeInnerError | bridgeOuterError | bridgeAB | bridgeQuery
  | bridgeF | bridgeEval
deriving DecidableEq

/-- `nested::RxIndex::ALL`, crates/ragu_pcd/src/internal/nested/mod.rs:154-178. -/
def NestedRx.all : List NestedRx :=
  (List.range NUM_ENDOSCALING_STEPS).map .endoscalingStep ++
    [.endoscalarStage, .pointsStage, .bridgePreamble, .bridgeSPrime, .bridgeInnerError,
      .bridgeOuterError, .bridgeAB, .bridgeQuery, .bridgeF, .bridgeEval]

/-- `RxTriple`, crates/ragu_pcd/src/proof/components.rs:21-27. -/
structure RxTriple (F HC : Type) where
  rx : Sparse.Poly F
  commitment : HC

/-- `Application`, crates/ragu_pcd/src/proof/components.rs:30-35; `circuit_id` is the index. -/
structure AppProof (F HC : Type) where
  circuitId : ℕ
  leftHeader : List F
  rightHeader : List F
  rxTriple : RxTriple F HC

/-- `Bridge`, crates/ragu_pcd/src/proof/components.rs:38-41. -/
structure Bridge (F G : Type) where
  rx : Sparse.Poly G
  commitment : Option (F × F)

/-- `NativeSPrime`, crates/ragu_pcd/src/proof/components.rs:57-62. -/
structure NativeSPrime (F HC : Type) where
  registryWx0Poly : Sparse.Poly F
  registryWx0Commitment : HC
  registryWx1Poly : Sparse.Poly F
  registryWx1Commitment : HC

/-- `NativeInnerError`, crates/ragu_pcd/src/proof/components.rs:71-75. -/
structure NativeInnerError (F HC : Type) where
  registryWyPoly : Sparse.Poly F
  registryWyCommitment : HC
  rxTriple : RxTriple F HC

/-- `NativeAB`, crates/ragu_pcd/src/proof/components.rs:90-96. -/
structure NativeAB (F HC : Type) where
  aPoly : Sparse.Poly F
  aCommitment : HC
  bPoly : Sparse.Poly F
  bCommitment : HC
  c : F

/-- `NativeQuery`, crates/ragu_pcd/src/proof/components.rs:105-109. -/
structure NativeQuery (F HC : Type) where
  registryXyPoly : Sparse.Poly F
  registryXyCommitment : HC
  rxTriple : RxTriple F HC

/-- `NativeF`, crates/ragu_pcd/src/proof/components.rs:118-121. -/
structure NativeF (F HC : Type) where
  poly : Sparse.Poly F
  commitment : HC

/-- `NativeP`, crates/ragu_pcd/src/proof/components.rs:136-140. -/
structure NativeP (F HC : Type) where
  poly : Sparse.Poly F
  commitment : HC
  v : F

/-- `NestedP`, crates/ragu_pcd/src/proof/components.rs:143-147. -/
structure NestedP (G : Type) where
  stepRxs : List (Sparse.Poly G)
  endoscalarRx : Sparse.Poly G
  pointsRx : Sparse.Poly G

/-- `Challenges`, crates/ragu_pcd/src/proof/components.rs:156-169. -/
structure Challenges (F : Type) where
  w : F
  y : F
  z : F
  mu : F
  nu : F
  muPrime : F
  nuPrime : F
  x : F
  alpha : F
  u : F
  preBeta : F

/-- `Challenges::trivial`, crates/ragu_pcd/src/proof/components.rs:203-217. -/
def Challenges.trivial [One F] : Challenges F := ⟨1, 1, 1, 1, 1, 1, 1, 1, 1, 1, 1⟩

/-- `InternalCircuits`, crates/ragu_pcd/src/proof/components.rs:221-227. -/
structure InternalCircuits (F HC : Type) where
  hashes1 : RxTriple F HC
  hashes2 : RxTriple F HC
  innerCollapse : RxTriple F HC
  outerCollapse : RxTriple F HC
  computeV : RxTriple F HC

/-- A native component together with its bridge: `Preamble`, `SPrime`, `InnerError`, `OuterError`,
`AB`, `Query`, `F` and `Eval`, crates/ragu_pcd/src/proof/components.rs:51-133. -/
structure Bridged (T F G : Type) where
  native : T
  bridge : Bridge F G

/-- `P`, crates/ragu_pcd/src/proof/components.rs:150-153. -/
structure ProofP (F G HC : Type) where
  native : NativeP F HC
  nested : NestedP G

/-- `Proof`, crates/ragu_pcd/src/proof/mod.rs:63-77. -/
structure Proof (F G HC : Type) where
  application : AppProof F HC
  preamble : Bridged (RxTriple F HC) F G
  sPrime : Bridged (NativeSPrime F HC) F G
  innerError : Bridged (NativeInnerError F HC) F G
  outerError : Bridged (RxTriple F HC) F G
  ab : Bridged (NativeAB F HC) F G
  query : Bridged (NativeQuery F HC) F G
  f : Bridged (NativeF F HC) F G
  eval : Bridged (RxTriple F HC) F G
  p : ProofP F G HC
  challenges : Challenges F
  circuits : InternalCircuits F HC

/-- `Index<RxIndex>`, crates/ragu_pcd/src/proof/mod.rs:79-97. -/
def Proof.triple (p : Proof F G HC) : RxIndex → RxTriple F HC
  | .preamble => p.preamble.native
  | .innerError => p.innerError.native.rxTriple
  | .outerError => p.outerError.native
  | .query => p.query.native.rxTriple
  | .eval => p.eval.native
  | .application => p.application.rxTriple
  | .hashes1 => p.circuits.hashes1
  | .hashes2 => p.circuits.hashes2
  | .innerCollapse => p.circuits.innerCollapse
  | .outerCollapse => p.circuits.outerCollapse
  | .computeV => p.circuits.computeV

/-- `Index<nested::RxIndex>`, crates/ragu_pcd/src/proof/mod.rs:99-117; indexing the steps out of
bounds panics. -/
def Proof.nestedRx (p : Proof F G HC) : NestedRx → Option (Sparse.Poly G)
  | .endoscalingStep step => p.p.nested.stepRxs[step]?
  | .endoscalarStage => some p.p.nested.endoscalarRx
  | .pointsStage => some p.p.nested.pointsRx
  | .bridgePreamble => some p.preamble.bridge.rx
  | .bridgeSPrime => some p.sPrime.bridge.rx
  | .bridgeInnerError => some p.innerError.bridge.rx
  | .bridgeOuterError => some p.outerError.bridge.rx
  | .bridgeAB => some p.ab.bridge.rx
  | .bridgeQuery => some p.query.bridge.rx
  | .bridgeF => some p.f.bridge.rx
  | .bridgeEval => some p.eval.bridge.rx

/-- `native_rx`, crates/ragu_pcd/src/proof/mod.rs:138-148. -/
def Proof.nativeRx (p : Proof F G HC) : RxComponent → Sparse.Poly F
  | .abA => p.ab.native.aPoly
  | .abB => p.ab.native.bPoly
  | .rx i => (p.triple i).rx

/-- The commitment of a component: `FuseProofSource::get` on one proof,
crates/ragu_pcd/src/fuse/claims.rs:170-174. -/
def Proof.nativeCommitment (p : Proof F G HC) : RxComponent → HC
  | .abA => p.ab.native.aCommitment
  | .abB => p.ab.native.bCommitment
  | .rx i => (p.triple i).commitment

end Ragu.Pcd
