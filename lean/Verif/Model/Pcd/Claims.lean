/-
Model of the orchestration of revdot claims: `ragu_pcd/src/internal/claims.rs`,
`internal/native/claims.rs` and `internal/nested/claims.rs`.

`none` is a panic.  `Processor` is a trait implemented by the builders below (over `Option`) and by
the evaluation processor of `compute_v` (over circuit synthesis), so its monad is a parameter.
-/
import Verif.Model.Pcd.Proof
import Verif.Model.Registry
import Verif.Model.Tpoly

namespace Ragu.Pcd
open Ragu Ragu.Circuit Ragu.Registry

/-- `Source`, crates/ragu_pcd/src/internal/claims.rs:41-56: the values of each component for all
proofs, and the application circuits of all proofs. -/
structure Source (Comp Rx Id : Type) where
  rx : Comp → List Rx
  appCircuits : List Id

/-- `native::claims::Processor`, crates/ragu_pcd/src/internal/native/claims.rs:60-76. -/
structure Processor (M : Type → Type) (P Rx Id : Type) where
  rawClaim : P → Rx → Rx → M P
  circuit : P → Id → Rx → M P
  internalCircuit : P → NativeId → List Rx → M P
  bonding : P → NativeId → List Rx → M P

section
variable {M : Type → Type} [Monad M] {P Rx Id : Type}

/-- The body of the loop over the internal circuits,
crates/ragu_pcd/src/internal/native/claims.rs:142-229. -/
def buildInternal (s : Source RxComponent Rx Id) (pr : Processor M P Rx Id) (p : P) :
    NativeId → M P
  | .hashes1Circuit =>
    (((s.rx (.rx .hashes1)).zip (s.rx (.rx .preamble))).zip (s.rx (.rx .outerError))).foldlM
      (fun p t => pr.internalCircuit p .hashes1Circuit [t.1.1, t.1.2, t.2]) p
  | .hashes2Circuit =>
    ((s.rx (.rx .hashes2)).zip (s.rx (.rx .outerError))).foldlM
      (fun p t => pr.internalCircuit p .hashes2Circuit [t.1, t.2]) p
  | .innerCollapseCircuit =>
    ((((s.rx (.rx .innerCollapse)).zip (s.rx (.rx .preamble))).zip
      (s.rx (.rx .innerError))).zip (s.rx (.rx .outerError))).foldlM
      (fun p t => pr.internalCircuit p .innerCollapseCircuit [t.1.1.1, t.1.1.2, t.1.2, t.2]) p
  | .outerCollapseCircuit =>
    (((s.rx (.rx .outerCollapse)).zip (s.rx (.rx .preamble))).zip (s.rx (.rx .outerError))).foldlM
      (fun p t => pr.internalCircuit p .outerCollapseCircuit [t.1.1, t.1.2, t.2]) p
  | .computeVCircuit =>
    ((((s.rx (.rx .computeV)).zip (s.rx (.rx .preamble))).zip
      (s.rx (.rx .query))).zip (s.rx (.rx .eval))).foldlM
      (fun p t => pr.internalCircuit p .computeVCircuit [t.1.1.1, t.1.1.2, t.1.2, t.2]) p
  | .preambleStage => pr.bonding p .preambleStage (s.rx (.rx .preamble))
  | .innerErrorStage => pr.bonding p .innerErrorStage (s.rx (.rx .innerError))
  | .outerErrorStage => pr.bonding p .outerErrorStage (s.rx (.rx .outerError))
  | .queryStage => pr.bonding p .queryStage (s.rx (.rx .query))
  | .evalStage => pr.bonding p .evalStage (s.rx (.rx .eval))
  | .innerErrorFinalStaged => pr.bonding p .innerErrorFinalStaged (s.rx (.rx .innerCollapse))
  | .outerErrorFinalStaged =>
    pr.bonding p .outerErrorFinalStaged
      (s.rx (.rx .hashes1) ++ s.rx (.rx .hashes2) ++ s.rx (.rx .outerCollapse))
  | .evalFinalStaged => pr.bonding p .evalFinalStaged (s.rx (.rx .computeV))

/-- `build`, crates/ragu_pcd/src/internal/native/claims.rs:121-233. -/
def buildClaims (s : Source RxComponent Rx Id) (pr : Processor M P Rx Id) (p : P) : M P := do
  let p ← ((s.rx .abA).zip (s.rx .abB)).foldlM (fun p t => pr.rawClaim p t.1 t.2) p
  let p ← (s.appCircuits.zip (s.rx (.rx .application))).foldlM (fun p t => pr.circuit p t.1 t.2) p
  NativeId.all.foldlM (buildInternal s pr) p

/-- `nested::claims::Processor`, crates/ragu_pcd/src/internal/nested/claims.rs:24-30. -/
structure NestedProcessor (M : Type → Type) (P Rx : Type) where
  internalCircuit : P → NestedId → List Rx → M P
  bonding : P → NestedId → List Rx → M P

/-- The body of the loop of `build`, crates/ragu_pcd/src/internal/nested/claims.rs:74-120. -/
def buildNestedInternal (s : Source NestedRx Rx Id) (pr : NestedProcessor M P Rx) (p : P) :
    NestedId → M P
  | .endoscalingStep step =>
    (((s.rx (.endoscalingStep step)).zip (s.rx .endoscalarStage)).zip (s.rx .pointsStage)).foldlM
      (fun p t => pr.internalCircuit p (.endoscalingStep step) [t.1.1, t.1.2, t.2]) p
  | .endoscalarStage => pr.bonding p .endoscalarStage (s.rx .endoscalarStage)
  | .pointsStage => pr.bonding p .pointsStage (s.rx .pointsStage)
  | .pointsFinalStaged =>
    pr.bonding p .pointsFinalStaged
      ((List.range NUM_ENDOSCALING_STEPS).flatMap fun step => s.rx (.endoscalingStep step))
  | .bridgePreamble => pr.bonding p .bridgePreamble (s.rx .bridgePreamble)
  | .bridgeSPrime => pr.bonding p .bridgeSPrime (s.rx .bridgeSPrime)
  | .bridgeInnerError => pr.bonding p .bridgeInnerError (s.rx .bridgeInnerError)
  | .bridgeOuterError => pr.bonding p .bridgeOuterError (s.rx .bridgeOuterError)
  | .bridgeAB => pr.bonding p .bridgeAB (s.rx .bridgeAB)
  | .bridgeQuery => pr.bonding p .bridgeQuery (s.rx .bridgeQuery)
  | .bridgeF => pr.bonding p .bridgeF (s.rx .bridgeF)
  | .bridgeEval => pr.bonding p .bridgeEval (s.rx .bridgeEval)

/-- `build`, crates/ragu_pcd/src/internal/nested/claims.rs:67-124. -/
def buildNestedClaims (s : Source NestedRx Rx Id) (pr : NestedProcessor M P Rx) (p : P) : M P :=
  NestedId.all.foldlM (buildNestedInternal s pr) p

end

/-! ### The public values of the claims -/

/-- `NUM_UNIFIED_CIRCUITS`, crates/ragu_pcd/src/internal/native/claims.rs:43. -/
def NUM_UNIFIED_CIRCUITS : ℕ := 4

/-- `KySource`, crates/ragu_pcd/src/internal/native/claims.rs:236-257. -/
structure KySource (K : Type) where
  rawC : List K
  applicationKy : List K
  unifiedBridgeKy : List K
  unifiedKy : List K
  zero : K

/-- The finite part of `ky_values`, crates/ragu_pcd/src/internal/native/claims.rs:268-275. -/
def KySource.front {K : Type} (s : KySource K) : List K :=
  s.rawC ++ s.applicationKy ++ s.unifiedBridgeKy ++
    (List.replicate NUM_UNIFIED_CIRCUITS s.unifiedKy).flatten

/-- `ky_values`, crates/ragu_pcd/src/internal/native/claims.rs:268-275: the iterator is infinite, so
it is a function of the position. -/
def KySource.values {K : Type} (s : KySource K) (i : ℕ) : K := s.front.getD i s.zero

/-- `TwoProofKySource`, crates/ragu_pcd/src/internal/native/claims.rs:277-334. -/
def twoProofKySource {K : Type} (leftRawC rightRawC leftApp rightApp leftBridge rightBridge
    leftUnified rightUnified zero : K) : KySource K :=
  ⟨[leftRawC, rightRawC], [leftApp, rightApp], [leftBridge, rightBridge],
    [leftUnified, rightUnified], zero⟩

/-- `SingleProofKySource`, crates/ragu_pcd/src/verify.rs:169-198. -/
def singleProofKySource {K : Type} (rawC application bridge unified zero : K) : KySource K :=
  ⟨[rawC], [application], [bridge], [unified], zero⟩

/-- `ky_values`, crates/ragu_pcd/src/internal/nested/claims.rs:143-150, for the source of
crates/ragu_pcd/src/verify.rs:228-246. -/
def nestedKyValues {K : Type} (one zero : K) (i : ℕ) : K :=
  (List.replicate NUM_ENDOSCALING_STEPS one).getD i zero

/-! ### The builder -/

section
variable {F : Type} [Field F] [DecidableEq F]

/-- `sum_polynomials`, crates/ragu_pcd/src/internal/claims.rs:16-31. -/
def sumPolynomials (N : ℕ) : List (Sparse.Poly F) → Option (Sparse.Poly F)
  | [] => none
  | first :: rest => rest.foldlM (Sparse.addAssign N) first

/-- `Builder`, crates/ragu_pcd/src/internal/claims.rs:67-76, without the registry it borrows. -/
structure ClaimBuilder (F A : Type) where
  y : F
  z : F
  tz : Sparse.Poly F
  a : List A
  b : List (Sparse.Poly F)

/-- `Builder::new`, crates/ragu_pcd/src/internal/claims.rs:83-92. -/
def ClaimBuilder.new {A : Type} (n : ℕ) (y z : F) : Option (ClaimBuilder F A) := do
  let tz ← Tpoly.tz n z
  return ⟨y, z, tz, [], []⟩

/-- `circuit_impl`, crates/ragu_pcd/src/internal/claims.rs:95-104; `borrow` is the `Borrow`
instance of `A`. -/
def ClaimBuilder.circuitImpl {A : Type} (E : Env F) (n : ℕ) (r : Registry F)
    (borrow : A → Sparse.Poly F) (B : ClaimBuilder F A) (circuitId : ℕ) (a : A) :
    Option (ClaimBuilder F A) := do
  let sy ← r.circuitY E n circuitId B.y
  let b ← Sparse.addAssign (4 * n) (Sparse.dilate (borrow a) B.z) sy
  let b ← Sparse.addAssign (4 * n) b B.tz
  return { B with
    a := B.a ++ [a]
    b := B.b ++ [b] }

/-- `bonding_impl`, crates/ragu_pcd/src/internal/claims.rs:108-112. -/
def ClaimBuilder.bondingImpl {A : Type} (E : Env F) (n : ℕ) (r : Registry F)
    (B : ClaimBuilder F A) (circuitId : ℕ) (a : A) : Option (ClaimBuilder F A) := do
  let sy ← r.circuitY E n circuitId B.y
  return { B with
    a := B.a ++ [a]
    b := B.b ++ [sy] }

/-- `fold_bonding_polys`, crates/ragu_pcd/src/internal/claims.rs:123-137. -/
def foldBondingPolys (N : ℕ) (z : F) : List (Sparse.Poly F) → Option (Sparse.Poly F)
  | [] => none
  | [first] => some first
  | first :: second :: rest => Sparse.fold N (first :: second :: rest) z

/-- `impl Processor for Builder` of plain polynomials,
crates/ragu_pcd/src/internal/native/claims.rs:78-110. -/
def polyProcessor (E : Env F) (n : ℕ) (r : Registry F) :
    Processor Option (ClaimBuilder F (Sparse.Poly F)) (Sparse.Poly F) ℕ where
  rawClaim B a b := some { B with
    a := B.a ++ [a]
    b := B.b ++ [b] }
  circuit B cid rx := B.circuitImpl E n r id cid rx
  internalCircuit B id rxs := do
    let circuitId ← id.circuitIndex
    let rx ← sumPolynomials (4 * n) rxs
    B.circuitImpl E n r _root_.id circuitId rx
  bonding B id rxs := do
    let circuitId ← id.circuitIndex
    let folded ← foldBondingPolys (4 * n) B.z rxs
    B.bondingImpl E n r circuitId folded

/-- `impl Processor for Builder`, crates/ragu_pcd/src/internal/nested/claims.rs:32-55. -/
def nestedPolyProcessor (E : Env F) (n : ℕ) (r : Registry F) :
    NestedProcessor Option (ClaimBuilder F (Sparse.Poly F)) (Sparse.Poly F) where
  internalCircuit B id rxs := do
    let circuitId ← id.circuitIndex
    let rx ← sumPolynomials (4 * n) rxs
    B.circuitImpl E n r _root_.id circuitId rx
  bonding B id rxs := do
    let circuitId ← id.circuitIndex
    let folded ← foldBondingPolys (4 * n) B.z rxs
    B.bondingImpl E n r circuitId folded

end
end Ragu.Pcd
