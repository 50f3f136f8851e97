/-
Model of the trivial proof (`ragu_pcd/src/proof/mod.rs`) and of the native part of a fuse
(`ragu_pcd/src/fuse/mod.rs`).
-/
import Verif.Model.Pcd.ComputeV
import Verif.Model.Pcd.Verify

namespace Ragu.Pcd
open Ragu Ragu.Circuit Ragu.Registry Ragu.Gadget
variable {F G HC : Type} [Field F] [DecidableEq F] [Field G] [DecidableEq G]

/-- `ones_host` and `ones_nested`, crates/ragu_pcd/src/proof/mod.rs:157-173. -/
def onesPoly (K : Type) [Field K] [DecidableEq K] (n : ℕ) : Option (Sparse.Poly K) :=
  Sparse.View.buildTrace n ⟨[1], [1], [1], [1]⟩

/-- `trivial_proof`, crates/ragu_pcd/src/proof/mod.rs:156-286. `nestedCommit` is
`commit_to_affine` with the generators of the nested curve. -/
def trivialProof [AddCommGroup HC] (C : CycleEnv F G HC) (n N : ℕ)
    (nestedCommit : Sparse.Poly G → Option (F × F)) (r : Registry F) : Option (Proof F G HC) := do
  let onesHost ← onesPoly F n
  let onesNested ← onesPoly G n
  let hostCommitment ← Msm.commit (4 * n) C.numBits C.repr onesHost C.hostGens
  let ch := Challenges.trivial (F := F)
  let registryXy ← r.xy C.native n ch.x ch.y
  let registryXyCommitment ← Msm.commit (4 * n) C.numBits C.repr registryXy C.hostGens
  let c := Sparse.revdot (4 * n) onesHost onesHost
  let v := Sparse.eval (4 * n) onesHost ch.u
  let bridge : Bridge F G := ⟨onesNested, nestedCommit onesNested⟩
  let triple : RxTriple F HC := ⟨onesHost, hostCommitment⟩
  return {
    application := ⟨0, List.replicate N 0, List.replicate N 0, triple⟩
    preamble := ⟨triple, bridge⟩
    sPrime := ⟨⟨onesHost, hostCommitment, onesHost, hostCommitment⟩, bridge⟩
    innerError := ⟨⟨onesHost, hostCommitment, triple⟩, bridge⟩
    outerError := ⟨triple, bridge⟩
    ab := ⟨⟨onesHost, hostCommitment, onesHost, hostCommitment, c⟩, bridge⟩
    query := ⟨⟨registryXy, registryXyCommitment, triple⟩, bridge⟩
    f := ⟨⟨onesHost, hostCommitment⟩, bridge⟩
    eval := ⟨triple, bridge⟩
    p := ⟨⟨onesHost, hostCommitment, v⟩,
      ⟨List.replicate NUM_ENDOSCALING_STEPS onesNested, onesNested, onesNested⟩⟩
    challenges := ch
    circuits := ⟨triple, triple, triple, triple, triple⟩ }

/-- What a fuse takes from parts that are not modelled here as functions: the circuit and the headers
of the step, the trace polynomial of every circuit and stage, the bridges and the nested
polynomials. -/
structure FuseTraces (F G : Type) where
  circuitId : ℕ
  leftHeader : List F
  rightHeader : List F
  rx : RxIndex → Sparse.Poly F
  preambleBridge : Bridge F G
  sPrimeBridge : Bridge F G
  innerErrorBridge : Bridge F G
  outerErrorBridge : Bridge F G
  abBridge : Bridge F G
  queryBridge : Bridge F G
  fBridge : Bridge F G
  evalBridge : Bridge F G
  nested : NestedP G

/-- The native part of `fuse`, crates/ragu_pcd/src/fuse/mod.rs:51-204, for given challenges and
traces: every trace is committed, and the components are computed from the children and the
challenges. The order of failures is not kept: `none` is a panic in any of the steps. -/
def fuseProof [AddCommGroup HC] [Module F HC] (C : CycleEnv F G HC) (ec : EndoConsts F) (n : ℕ)
    (r : Registry F) (left right : Proof F G HC) (ch : Challenges F) (t : FuseTraces F G) :
    Option (Proof F G HC) := do
  let triple (i : RxIndex) : Option (RxTriple F HC) :=
    (Msm.commit (4 * n) C.numBits C.repr (t.rx i) C.hostGens).map fun c => ⟨t.rx i, c⟩
  let application ← triple .application
  let preamble ← triple .preamble
  let sPrime ← computeNativeSPrime C.native n C.numBits C.repr C.hostGens r ch.w left right
  let (wy, wyCommitment) ← computeRegistryWy C.native n C.numBits C.repr C.hostGens r ch.w ch.y
  let innerErrorRx ← triple .innerError
  let innerError : NativeInnerError F HC := ⟨wy, wyCommitment, innerErrorRx⟩
  let fused ← fuseAb C.native n C.numBits C.repr C.hostGens r ⟨left, right⟩ ch.y ch.z ch.mu ch.nu
    ch.muPrime ch.nuPrime
  let outerError ← triple .outerError
  let (xy, xyCommitment) ← computeRegistryXy C.native n C.numBits C.repr C.hostGens r ch.x ch.y
  let queryRx ← triple .query
  let query : NativeQuery F HC := ⟨xy, xyCommitment, queryRx⟩
  let s : FuseState F G HC := ⟨left, right, sPrime, innerError, fused.ab, query⟩
  let f ← computeNativeF C.native (4 * n) C.numBits C.repr C.hostGens s ch.w ch.y ch.z ch.x ch.alpha
  let eval ← triple .eval
  let (p, _) ← computeP (4 * n) ec.nbits ec.sqrt ec.gen ec.zeta s f ch.preBeta ch.u
  let hashes1 ← triple .hashes1
  let hashes2 ← triple .hashes2
  let innerCollapse ← triple .innerCollapse
  let outerCollapse ← triple .outerCollapse
  let computeV ← triple .computeV
  return {
    application := ⟨t.circuitId, t.leftHeader, t.rightHeader, application⟩
    preamble := ⟨preamble, t.preambleBridge⟩
    sPrime := ⟨sPrime, t.sPrimeBridge⟩
    innerError := ⟨innerError, t.innerErrorBridge⟩
    outerError := ⟨outerError, t.outerErrorBridge⟩
    ab := ⟨fused.ab, t.abBridge⟩
    query := ⟨query, t.queryBridge⟩
    f := ⟨f, t.fBridge⟩
    eval := ⟨eval, t.evalBridge⟩
    p := ⟨p, t.nested⟩
    challenges := ch
    circuits := ⟨hashes1, hashes2, innerCollapse, outerCollapse, computeV⟩ }

end Ragu.Pcd
