/-
Model of verification: `ragu_pcd/src/verify.rs`, and the allocation of a child's public inputs in
`internal/native/stages/preamble.rs`.
-/
import Verif.Model.Pcd.Claims
import Verif.Model.Pcd.Unified
import Verif.Model.Msm

namespace Ragu.Pcd
open Ragu Ragu.Circuit Ragu.Registry Ragu.Gadget

/-- What the code takes from the cycle of curves: the field parameters of both registries, the
constant of the nested curve, and the host generators with the representation of scalars. -/
structure CycleEnv (F G HC : Type) where
  native : Env F
  nested : Env G
  b : F
  numBits : ℕ
  repr : F → List UInt8
  hostGens : List HC

section
variable {F G HC Data Out : Type} [Field F] [DecidableEq F] [Field G] [DecidableEq G]

/-- `Element::alloc` for each value. -/
def allocAll : List F → Syn F (List (Element F))
  | [] => return []
  | x :: xs => do
    let e ← Element.alloc x
    let es ← allocAll xs
    return e :: es

/-- `alloc_header`, crates/ragu_pcd/src/internal/native/stages/preamble.rs:157-174. -/
def allocHeader (N : ℕ) (data : List F) : Syn F (List (Element F)) :=
  .check (if data.length ≠ N then some .malformedEncoding else none)
    (allocAll ((List.range N).map fun i => data.getD i 0))

/-- `ProofInputs::alloc`, crates/ragu_pcd/src/internal/native/stages/preamble.rs:152-196. -/
def ProofInputs.alloc (C : CycleEnv F G HC) (N : ℕ) (p : Proof F G HC) (outputHeader : List F) :
    Syn F (ProofInputs F) := do
  let left ← allocHeader N p.application.leftHeader
  let right ← allocHeader N p.application.rightHeader
  let output ← allocHeader N outputHeader
  let circuitId ← Element.alloc (omegaJ C.native p.application.circuitId)
  let unified ← allocFromProof C.b p
  return ⟨left, right, output, circuitId, unified.write⟩

/-- The header data computed by `alloc_for_verify`,
crates/ragu_pcd/src/internal/native/stages/preamble.rs:205-219. -/
def encodeForVerify (N : ℕ) (H : Header F Data Out) (data : Data) : Except Err (FixedVec F N) := do
  let output ← emulate (H.encode data)
  let output ← padded N H.suffix (H.write output)
  FixedVec.collectFixed N (output.map (·.value))

/-- The three values of `k(y)`, crates/ragu_pcd/src/verify.rs:58-72. -/
def kyForVerify (C : CycleEnv F G HC) (N : ℕ) (p : Proof F G HC) (outputHeader : List F) (y : F) :
    Syn F (F × F × F) := do
  let y ← Element.alloc y
  let inputs ← ProofInputs.alloc C N p outputHeader
  let (unifiedKy, unifiedBridgeKy) ← inputs.unifiedKyValues y
  let applicationKy ← inputs.applicationKy y
  return (unifiedKy.value, unifiedBridgeKy.value, applicationKy.value)

/-- `SingleProofSource`, crates/ragu_pcd/src/verify.rs:147-166. -/
def singleSource (p : Proof F G HC) : Source RxComponent (Sparse.Poly F) ℕ :=
  ⟨fun c => [p.nativeRx c], [p.application.circuitId]⟩

/-- `nested::SingleProofSource`, crates/ragu_pcd/src/verify.rs:209-225. `build` asks for every
component, so it panics if one of the endoscaling steps is missing; here that is decided first. -/
def singleNestedSource (p : Proof F G HC) : Option (Source NestedRx (Sparse.Poly G) Unit) :=
  if NestedRx.all.all fun c => (p.nestedRx c).isSome then
    some ⟨fun c => [(p.nestedRx c).getD []], []⟩
  else none

/-- `ky_values.zip(a.zip(b)).all(|(ky, (a, b))| a.revdot(b) == ky)`,
crates/ragu_pcd/src/verify.rs:88-90 and 109-111. -/
def allRevdot {K : Type} [Field K] [DecidableEq K] (N : ℕ) (ky : ℕ → K)
    (B : ClaimBuilder K (Sparse.Poly K)) : Bool :=
  (B.a.zip B.b).zipIdx.all fun t => decide (Sparse.revdot N t.1.1 t.1.2 = ky t.2)

/-- A value or a panic. -/
def orPanic {α : Type} : Option α → Except Err α
  | some a => .ok a
  | none => .error .panic

/-- The random challenges of the verifier, crates/ragu_pcd/src/verify.rs:37-38 and 102-103. -/
structure VerifyChallenges (F G : Type) where
  w : F
  y : F
  z : F
  yNested : G
  zNested : G

variable [AddCommGroup HC] [DecidableEq HC]

/-- `Application::verify`, crates/ragu_pcd/src/verify.rs:30-140. -/
def verify (C : CycleEnv F G HC) (n N : ℕ) (app : Application F G) (H : Header F Data Out)
    (p : Proof F G HC) (data : Data) (ch : VerifyChallenges F G) : Except Err Bool :=
  if ¬ app.nativeRegistry.circuitInDomain C.native p.application.circuitId then .ok false
  else if p.application.leftHeader.length ≠ N ∨ p.application.rightHeader.length ≠ N then .ok false
  else do
    let header ← encodeForVerify N H data
    let (unifiedKy, unifiedBridgeKy, applicationKy) ← emulate (kyForVerify C N p header.v ch.y)
    let builder ← orPanic (ClaimBuilder.new n ch.y ch.z)
    let builder ← orPanic (buildClaims (singleSource p)
      (polyProcessor C.native n app.nativeRegistry) builder)
    let kySource := singleProofKySource p.ab.native.c applicationKy unifiedBridgeKy unifiedKy 0
    let nativeRevdotClaims := allRevdot (4 * n) kySource.values builder
    let nestedSource ← orPanic (singleNestedSource p)
    let nestedBuilder ← orPanic (ClaimBuilder.new n ch.yNested ch.zNested)
    let nestedBuilder ← orPanic (buildNestedClaims nestedSource
      (nestedPolyProcessor C.nested n app.nestedRegistry) nestedBuilder)
    let nestedRevdotClaims := allRevdot (4 * n) (nestedKyValues 1 0) nestedBuilder
    let pEvalClaim := decide (Sparse.eval (4 * n) p.p.native.poly p.challenges.u = p.p.native.v)
    let commitment ← orPanic (Msm.commit (4 * n) C.numBits C.repr p.p.native.poly C.hostGens)
    let pCommitmentClaim := decide (commitment = p.p.native.commitment)
    let polyEval := Sparse.eval (4 * n) p.query.native.registryXyPoly ch.w
    let expected ← orPanic (app.nativeRegistry.wxy C.native n ch.w p.challenges.x p.challenges.y)
    let registryXyClaim := decide (polyEval = expected)
    return nativeRevdotClaims && nestedRevdotClaims && pEvalClaim && pCommitmentClaim &&
      registryXyClaim

end
end Ragu.Pcd
