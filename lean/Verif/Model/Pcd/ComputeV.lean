/-
Model of the circuit `ragu_pcd/src/internal/native/circuits/compute_v.rs`.

The gadgets of the stages hold wires that were placed by the stage polynomials, so they are
arguments here.
-/
import Verif.Model.Pcd.Quotient
import Verif.Model.Pcd.Unified
import Verif.Model.Pcd.Header
import Verif.Model.Gadget.Txz

namespace Ragu.Pcd
open Ragu Ragu.Circuit Ragu.Registry Ragu.Gadget
variable {F : Type} [Field F] [DecidableEq F]

/-- `ProofInputs`, crates/ragu_pcd/src/internal/native/stages/preamble.rs:78-92. -/
structure ChildInputs (F : Type) where
  leftHeader : List (Element F)
  rightHeader : List (Element F)
  outputHeader : List (Element F)
  circuitId : Element F
  unified : UnifiedOutput F

/-- `Output`, crates/ragu_pcd/src/internal/native/stages/preamble.rs:225-235. -/
structure PreambleOutput (F : Type) where
  left : ChildInputs F
  right : ChildInputs F

/-- Derived `Consistent` of the unified output: the points are checked to be on the curve, in the
order of the fields; elements have nothing to check. -/
def UnifiedOutput.enforceConsistent (b : F) (o : UnifiedOutput F) : Syn F Unit := do
  Point.enforceConsistent b (o .bridgePreamble)
  Point.enforceConsistent b (o .bridgeSPrime)
  Point.enforceConsistent b (o .bridgeInnerError)
  Point.enforceConsistent b (o .bridgeOuterError)
  Point.enforceConsistent b (o .bridgeAb)
  Point.enforceConsistent b (o .bridgeQuery)
  Point.enforceConsistent b (o .bridgeF)
  Point.enforceConsistent b (o .bridgeEval)

/-- Derived `Consistent` of the preamble's output. -/
def PreambleOutput.enforceConsistent (b : F) (p : PreambleOutput F) : Syn F Unit := do
  p.left.unified.enforceConsistent b
  p.right.unified.enforceConsistent b

/-- `EvaluationSource`, crates/ragu_pcd/src/internal/native/circuits/compute_v.rs:347-375. -/
def evaluationSource (q : QueryOutput (Element F)) :
    Source RxComponent (Element F) (Element F) where
  rx
    | .abA => [q.left.aPolyAtXz, q.right.aPolyAtXz]
    | .abB => [q.left.bPolyAtX, q.right.bPolyAtX]
    | .rx i => [q.left.rx i, q.right.rx i]
  appCircuits := [q.left.currentRegistryXyAtChildCircuitId,
    q.right.currentRegistryXyAtChildCircuitId]

/-- `EvaluationProcessor`, crates/ragu_pcd/src/internal/native/circuits/compute_v.rs:389-470; the
state is the pair of vectors `ax` and `bx`. -/
def evaluationProcessor (z txz : Element F) (fixedRegistry : NativeId → Element F) :
    Processor (Syn F) (List (Element F) × List (Element F)) (Element F) (Element F) where
  rawClaim p a b := return (p.1 ++ [a], p.2 ++ [b])
  circuit p sy rx := return (p.1 ++ [rx], p.2 ++ [(rx.add sy).add txz])
  internalCircuit p id rxs :=
    let sy := fixedRegistry id
    let sum := rxs.foldl (fun sum rx => sum.add rx) Element.zero
    return (p.1 ++ [sum], p.2 ++ [(sum.add sy).add txz])
  bonding p id rxs := do
    let sy := fixedRegistry id
    let a ← Element.fold rxs z
    return (p.1 ++ [a], p.2 ++ [sy])

/-- `compute_axbx`, crates/ragu_pcd/src/internal/native/circuits/compute_v.rs:503-526. -/
def computeAxBx (q : QueryOutput (Element F))
    (z txz muInv muPrimeInv munu muPrimeNuPrime : Element F) :
    Syn F (Element F × Element F) := do
  let (axSources, bxSources) ←
    buildClaims (evaluationSource q) (evaluationProcessor z txz q.fixedRegistry) ([], [])
  let ax ← Fold.foldTwoLayer GROUP_SIZE NUM_GROUPS axSources muInv muPrimeInv
  let bx ← Fold.foldTwoLayer GROUP_SIZE NUM_GROUPS bxSources munu muPrimeNuPrime
  return (ax, bx)

/-- `ChildDenominators`, crates/ragu_pcd/src/internal/native/circuits/compute_v.rs:247-252. -/
structure ChildDenominators (F : Type) where
  u : Element F
  y : Element F
  x : Element F
  circuitId : Element F

/-- `ChallengeDenominators` and `Denominators`,
crates/ragu_pcd/src/internal/native/circuits/compute_v.rs:254-277. -/
structure Denominators (F : Type) where
  left : ChildDenominators F
  right : ChildDenominators F
  w : Element F
  x : Element F
  y : Element F
  xz : Element F
  internal : NativeId → Element F

/-- `ff::BatchInverter`: every nonzero value is replaced by its inverse, zeros are left alone. -/
def batchInvert (vs : List F) : List F := vs.map fun v => if v = 0 then v else v⁻¹

/-- The loop of `Inverter::invert`, crates/ragu_pcd/src/internal/native/circuits/compute_v.rs:707-710. -/
def invertAll : List (Element F) → List F → Syn F (List (Element F))
  | [], _ => return []
  | _ :: _, [] => .panic
  | e :: es, a :: as => do
    let i ← e.invertWith a
    let is ← invertAll es as
    return i :: is

/-- `Inverter::invert`, crates/ragu_pcd/src/internal/native/circuits/compute_v.rs:693-711, for the
differences collected by `add`. -/
def inverterInvert (differences : List (Element F)) : Syn F (List (Element F)) :=
  invertAll differences (batchInvert (differences.map (·.value)))

/-- The values added to the inverter, in order,
crates/ragu_pcd/src/internal/native/circuits/compute_v.rs:294-310: `add`, `add_constant` and
`add_circuit` only record the difference from the base. -/
def denominatorPoints (E : Env F) (w x y xz : Element F) (pre : PreambleOutput F) :
    List (Element F) :=
  ([pre.left.unified .u, pre.left.unified .y, pre.left.unified .x, pre.left.circuitId,
    pre.right.unified .u, pre.right.unified .y, pre.right.unified .x, pre.right.circuitId,
    w, x, y, xz] : List (Element F)) ++
  NativeId.all.map fun id => Element.constant (id.omega E)

/-- `Denominators::new`, crates/ragu_pcd/src/internal/native/circuits/compute_v.rs:279-338; the
indices are those `add` returned, and an index out of bounds panics. -/
def Denominators.new (E : Env F) (u w x y z : Element F) (pre : PreambleOutput F) :
    Syn F (Denominators F) := do
  let xz ← x.mul z
  let differences := (denominatorPoints E w x y xz pre).map fun v => u.sub v
  let inverted ← inverterInvert differences
  let get (i : ℕ) : Element F := inverted.getD i Element.zero
  if inverted.length ≠ 12 + NativeId.all.length then .panic
  else return {
    left := ⟨get 0, get 1, get 2, get 3⟩
    right := ⟨get 4, get 5, get 6, get 7⟩
    w := get 8
    x := get 9
    y := get 10
    xz := get 11
    internal := fun id => get (12 + NativeId.all.idxOf id) }

/-- `poly_queries`, crates/ragu_pcd/src/internal/native/circuits/compute_v.rs:559-610: the claimed
value at `u`, the claimed value at the query point, and the inverse of `u` minus the query point. -/
def polyQueries (e : EvalOutput (Element F)) (q : QueryOutput (Element F)) (pre : PreambleOutput F)
    (d : Denominators F) (ax bx : Element F) : List (Element F × Element F × Element F) :=
  ([(e.left.pPoly, pre.left.unified .v, d.left.u),
    (e.right.pPoly, pre.right.unified .v, d.right.u),
    (e.left.registryXyPoly, q.left.childRegistryXyAtCurrentW, d.w),
    (e.right.registryXyPoly, q.right.childRegistryXyAtCurrentW, d.w),
    (e.registryWx0, q.left.childRegistryXyAtCurrentW, d.left.y),
    (e.registryWx1, q.right.childRegistryXyAtCurrentW, d.right.y),
    (e.registryWx0, q.left.currentRegistryWyAtChildX, d.y),
    (e.registryWx1, q.right.currentRegistryWyAtChildX, d.y),
    (e.registryWy, q.left.currentRegistryWyAtChildX, d.left.x),
    (e.registryWy, q.right.currentRegistryWyAtChildX, d.right.x),
    (e.registryWy, q.registryWxy, d.x),
    (e.registryXy, q.registryWxy, d.w),
    (e.registryXy, q.left.currentRegistryXyAtChildCircuitId, d.left.circuitId),
    (e.registryXy, q.right.currentRegistryXyAtChildCircuitId, d.right.circuitId),
    (e.left.aPoly, q.left.aPolyAtXz, d.xz),
    (e.left.bPoly, q.left.bPolyAtX, d.x),
    (e.right.aPoly, q.right.aPolyAtXz, d.xz),
    (e.right.bPoly, q.right.bPolyAtX, d.x),
    (e.aPoly, ax, d.xz),
    (e.bPoly, bx, d.x)] : List (Element F × Element F × Element F)) ++
  [(e.left, q.left), (e.right, q.right)].flatMap (fun eq =>
    RxIndex.all.map fun id => (eq.1.rx id, eq.2.rx id, d.xz)) ++
  NativeId.all.map fun id => (e.registryXy, q.fixedRegistry id, d.internal id)

/-- The loop over the queries, crates/ragu_pcd/src/internal/native/circuits/compute_v.rs:210-220. -/
def accumulateQueries (alpha : Element F) (h : Option (Element F)) :
    List (Element F × Element F × Element F) → Syn F (Option (Element F))
  | [] => return h
  | (pu, v, denominator) :: qs => do
    let t ← (pu.sub v).mul denominator
    let h ← Horner.write alpha h t
    accumulateQueries alpha h qs

/-- The value of `f` at `u`, crates/ragu_pcd/src/internal/native/circuits/compute_v.rs:205-221. -/
def quotientValue (E : Env F) (u w x y z alpha : Element F) (pre : PreambleOutput F)
    (e : EvalOutput (Element F)) (q : QueryOutput (Element F)) (ax bx : Element F) :
    Syn F (Element F) := do
  let d ← Denominators.new E u w x y z pre
  let h ← accumulateQueries alpha none (polyQueries e q pre d ax bx)
  return Horner.finish h

/-- The constants of the endoscalar: the arguments of the models of `Endoscalar::extract` and
`Endoscalar::lift` (crates/ragu_primitives/src/endoscalar.rs). -/
structure EndoConsts (F : Type) where
  nbits : ℕ
  sqrt : F → Option F
  gen : F
  zeta : F

/-- `ComputeV::witness`, crates/ragu_pcd/src/internal/native/circuits/compute_v.rs:149-241. `k` is
`R::log2_n()`. -/
def computeV (E : Env F) (ec : EndoConsts F) (b : F) (k : ℕ) (pre : PreambleOutput F)
    (query : QueryOutput (Element F)) (eval : EvalOutput (Element F)) (inst : UnifiedInstance F) :
    Syn F (List (Element F) × UnifiedInstance F) := do
  pre.enforceConsistent b
  let B := OutputBuilder.new inst
  let (w, B) ← B.read b .w
  let (y, B) ← B.read b .y
  let (z, B) ← B.read b .z
  let (x, B) ← B.read b .x
  let txz ← Txz.evaluate k x z
  let (mu, B) ← B.read b .mu
  let (nu, B) ← B.read b .nu
  let (muPrime, B) ← B.read b .muPrime
  let (nuPrime, B) ← B.read b .nuPrime
  let muInv ← Element.invert mu
  let muPrimeInv ← Element.invert muPrime
  let munu ← Element.mul mu nu
  let muPrimeNuPrime ← Element.mul muPrime nuPrime
  let (ax, bx) ← computeAxBx query z txz muInv muPrimeInv munu muPrimeNuPrime
  let (alpha, B) ← B.read b .alpha
  let (u, B) ← B.read b .u
  let fu ← quotientValue E u w x y z alpha pre eval query ax bx
  let (preBeta, B) ← B.read b .preBeta
  let betaEndo ← Endoscalar.extract ec.nbits ec.sqrt ec.gen preBeta
  let effectiveBeta ← betaEndo.lift ec.nbits ec.zeta
  let h ← Horner.write effectiveBeta none fu
  let h ← Horner.writeAll effectiveBeta h eval.write
  let B ← B.provide .v (Horner.finish h)
  B.finish b

end Ragu.Pcd
