/-
Model of the prover's side of the polynomial queries: `ragu_pcd/src/fuse/_03_s_prime.rs`,
`_04_inner_error.rs` (the registry polynomial), `_07_query.rs`, `_08_f.rs`, `_09_eval.rs` and
`_10_p.rs`, without the stage polynomials and the bridges.

`none` is a panic.  The evaluations are structures over `E`, which is `F` for the witnesses of the
stages and `Element F` for their gadgets.
-/
import Verif.Model.Pcd.Tracked
import Verif.Model.Pcd.Endoscale
import Verif.Model.Util

namespace Ragu.Pcd
open Ragu Ragu.Circuit Ragu.Registry Ragu.Gadget

/-- `ChildEvaluationsWitness` and `ChildEvaluations`,
crates/ragu_pcd/src/internal/native/stages/query.rs:40-58 and 194-218. -/
structure QueryChild (E : Type) where
  rx : RxIndex → E
  aPolyAtXz : E
  bPolyAtX : E
  childRegistryXyAtCurrentW : E
  currentRegistryXyAtChildCircuitId : E
  currentRegistryWyAtChildX : E

/-- `Witness` and `Output`, crates/ragu_pcd/src/internal/native/stages/query.rs:82-92 and 253-270. -/
structure QueryOutput (E : Type) where
  fixedRegistry : NativeId → E
  registryWxy : E
  left : QueryChild E
  right : QueryChild E

/-- `ChildEvaluationsWitness` and `ChildEvaluations`,
crates/ragu_pcd/src/internal/native/stages/eval.rs:19-27 and 66-78. -/
structure EvalChild (E : Type) where
  rx : RxIndex → E
  aPoly : E
  bPoly : E
  registryXyPoly : E
  pPoly : E

/-- `Witness` and `Output`, crates/ragu_pcd/src/internal/native/stages/eval.rs:42-57 and 99-120. -/
structure EvalOutput (E : Type) where
  left : EvalChild E
  right : EvalChild E
  registryWx0 : E
  registryWx1 : E
  registryWy : E
  aPoly : E
  bPoly : E
  registryXy : E

/-- Derived `Write` of `ChildEvaluations`, with `RxValues` in the order of `RxIndex::ALL`
(crates/ragu_pcd/src/internal/native/stages/query.rs:181-192). -/
def EvalChild.write {E : Type} (c : EvalChild E) : List E :=
  RxIndex.all.map c.rx ++ [c.aPoly, c.bPoly, c.registryXyPoly, c.pPoly]

/-- Derived `Write` of `Output`, crates/ragu_pcd/src/internal/native/stages/eval.rs:99-120. -/
def EvalOutput.write {E : Type} (o : EvalOutput E) : List E :=
  o.left.write ++ o.right.write ++
    [o.registryWx0, o.registryWx1, o.registryWy, o.aPoly, o.bPoly, o.registryXy]

section
variable {F G HC : Type} [Field F] [DecidableEq F]

/-- `id.circuit_index().omega_j()`; that `circuit_index` does not panic is `circuitIndex_eq`. -/
def NativeId.omega (E : Env F) (id : NativeId) : F := omegaJ E (id.circuitIndex.getD 0)

/-- The components a fuse has computed before the query polynomial is formed: the arguments of
`compute_f`, `compute_eval` and `compute_p`. -/
structure FuseState (F G HC : Type) where
  left : Proof F G HC
  right : Proof F G HC
  sPrime : NativeSPrime F HC
  innerError : NativeInnerError F HC
  ab : NativeAB F HC
  query : NativeQuery F HC

/-- `compute_native_s_prime`, crates/ragu_pcd/src/fuse/_03_s_prime.rs:38-62; `native_registry` is
the registry at `w`. -/
def computeNativeSPrime [AddCommGroup HC] (E : Env F) (n numBits : ℕ) (repr : F → List UInt8)
    (gens : List HC) (r : Registry F) (w : F) (left right : Proof F G HC) :
    Option (NativeSPrime F HC) := do
  let wx0 ← r.wx E n w left.challenges.x
  let wx1 ← r.wx E n w right.challenges.x
  let c0 ← Msm.commit (4 * n) numBits repr wx0 gens
  let c1 ← Msm.commit (4 * n) numBits repr wx1 gens
  return ⟨wx0, c0, wx1, c1⟩

/-- The registry polynomial of the inner error component and its commitment,
crates/ragu_pcd/src/fuse/_04_inner_error.rs:98-104. -/
def computeRegistryWy [AddCommGroup HC] (E : Env F) (n numBits : ℕ) (repr : F → List UInt8)
    (gens : List HC) (r : Registry F) (w y : F) : Option (Sparse.Poly F × HC) := do
  let wy ← r.wy E n w y
  let c ← Msm.commit (4 * n) numBits repr wy gens
  return (wy, c)

/-- The registry polynomial of the query component and its commitment,
crates/ragu_pcd/src/fuse/_07_query.rs:81 and 112-116. -/
def computeRegistryXy [AddCommGroup HC] (E : Env F) (n numBits : ℕ) (repr : F → List UInt8)
    (gens : List HC) (r : Registry F) (x y : F) : Option (Sparse.Poly F × HC) := do
  let xy ← r.xy E n x y
  let c ← Msm.commit (4 * n) numBits repr xy gens
  return (xy, c)

/-- `ChildEvaluationsWitness::from_proof`,
crates/ragu_pcd/src/internal/native/stages/query.rs:60-80. -/
def QueryChild.fromProof (E : Env F) (N : ℕ) (p : Proof F G HC) (w x xz : F)
    (registryXy registryWy : Sparse.Poly F) : QueryChild F where
  rx id := Sparse.eval N (p.triple id).rx xz
  aPolyAtXz := Sparse.eval N p.ab.native.aPoly xz
  bPolyAtX := Sparse.eval N p.ab.native.bPoly x
  childRegistryXyAtCurrentW := Sparse.eval N p.query.native.registryXyPoly w
  currentRegistryXyAtChildCircuitId := Sparse.eval N registryXy (omegaJ E p.application.circuitId)
  currentRegistryWyAtChildX := Sparse.eval N registryWy p.challenges.x

/-- The query witness, crates/ragu_pcd/src/fuse/_07_query.rs:76-106, for the polynomial that ends
up in the query component. -/
def queryWitness (E : Env F) (N : ℕ) (s : FuseState F G HC) (w x z : F) : QueryOutput F where
  fixedRegistry id := Sparse.eval N s.query.registryXyPoly (id.omega E)
  registryWxy := Sparse.eval N s.query.registryXyPoly w
  left := QueryChild.fromProof E N s.left w x (x * z) s.query.registryXyPoly
    s.innerError.registryWyPoly
  right := QueryChild.fromProof E N s.right w x (x * z) s.query.registryXyPoly
    s.innerError.registryWyPoly

/-- `factor_iter(poly.iter_coeffs(), point)`: the iterator is read from its back
(crates/ragu_arithmetic/src/util.rs:70), until it is empty. -/
def factorCoeffs (N : ℕ) (p : Sparse.Poly F) (point : F) : Option (List F) :=
  Util.factorIter ((Sparse.CoeffIter.run (List.replicate N true)
    (Sparse.iterCoeffs N p)).reduceOption).reverse point

/-- The polynomials and points of `iters`, crates/ragu_pcd/src/fuse/_08_f.rs:108-167. -/
def factorList (E : Env F) (s : FuseState F G HC) (w y z x : F) : List (Sparse.Poly F × F) :=
  let xz := x * z
  [(s.left.p.native.poly, s.left.challenges.u),
    (s.right.p.native.poly, s.right.challenges.u),
    (s.left.query.native.registryXyPoly, w),
    (s.right.query.native.registryXyPoly, w),
    (s.sPrime.registryWx0Poly, s.left.challenges.y),
    (s.sPrime.registryWx1Poly, s.right.challenges.y),
    (s.sPrime.registryWx0Poly, y),
    (s.sPrime.registryWx1Poly, y),
    (s.innerError.registryWyPoly, s.left.challenges.x),
    (s.innerError.registryWyPoly, s.right.challenges.x),
    (s.innerError.registryWyPoly, x),
    (s.query.registryXyPoly, w),
    (s.query.registryXyPoly, omegaJ E s.left.application.circuitId),
    (s.query.registryXyPoly, omegaJ E s.right.application.circuitId),
    (s.left.ab.native.aPoly, xz),
    (s.left.ab.native.bPoly, x),
    (s.right.ab.native.aPoly, xz),
    (s.right.ab.native.bPoly, x),
    (s.ab.aPoly, xz),
    (s.ab.bPoly, x)] ++
  [s.left, s.right].flatMap (fun p => RxIndex.all.map fun id => ((p.triple id).rx, xz)) ++
  NativeId.all.map fun id => (s.query.registryXyPoly, id.omega E)

/-- The loop that combines the quotients, crates/ragu_pcd/src/fuse/_08_f.rs:169-176: `first` is the
rest of the first iterator and `rest` holds what is left of the others (`unwrap` on an exhausted one
panics). -/
def combineColumns (alpha : F) : List F → List (List F) → Option (List F)
  | [], _ => some []
  | val :: first, rest => do
    let heads ← rest.mapM List.head?
    let c := heads.foldl (fun acc v => alpha * acc + v) val
    let cs ← combineColumns alpha first (rest.map List.tail)
    return c :: cs

/-- `compute_native_f`, crates/ragu_pcd/src/fuse/_08_f.rs:76-183. -/
def computeNativeF [AddCommGroup HC] (E : Env F) (N numBits : ℕ) (repr : F → List UInt8)
    (gens : List HC) (s : FuseState F G HC) (w y z x alpha : F) : Option (NativeF F HC) := do
  let iters ← (factorList E s w y z x).mapM fun pt => factorCoeffs N pt.1 pt.2
  match iters with
  | [] => none
  | first :: rest =>
    let coeffs ← combineColumns alpha first rest
    let poly ← Sparse.fromCoeffs N coeffs.reverse
    let commitment ← Msm.commit N numBits repr poly gens
    return ⟨poly, commitment⟩

/-- `ChildEvaluationsWitness::from_proof`,
crates/ragu_pcd/src/internal/native/stages/eval.rs:29-40. -/
def EvalChild.fromProof (N : ℕ) (p : Proof F G HC) (u : F) : EvalChild F where
  rx id := Sparse.eval N (p.triple id).rx u
  aPoly := Sparse.eval N p.ab.native.aPoly u
  bPoly := Sparse.eval N p.ab.native.bPoly u
  registryXyPoly := Sparse.eval N p.query.native.registryXyPoly u
  pPoly := Sparse.eval N p.p.native.poly u

/-- The eval witness, crates/ragu_pcd/src/fuse/_09_eval.rs:77-94. -/
def evalWitness (N : ℕ) (s : FuseState F G HC) (u : F) : EvalOutput F where
  left := EvalChild.fromProof N s.left u
  right := EvalChild.fromProof N s.right u
  registryWx0 := Sparse.eval N s.sPrime.registryWx0Poly u
  registryWx1 := Sparse.eval N s.sPrime.registryWx1Poly u
  registryWy := Sparse.eval N s.innerError.registryWyPoly u
  aPoly := Sparse.eval N s.ab.aPoly u
  bPoly := Sparse.eval N s.ab.bPoly u
  registryXy := Sparse.eval N s.query.registryXyPoly u

/-- The polynomials and commitments passed to `acc`, crates/ragu_pcd/src/fuse/_10_p.rs:90-121. -/
def accList (s : FuseState F G HC) : List (Sparse.Poly F × HC) :=
  [s.left, s.right].flatMap (fun p =>
    (RxIndex.all.map fun id => ((p.triple id).rx, (p.triple id).commitment)) ++
    [(p.ab.native.aPoly, p.ab.native.aCommitment),
      (p.ab.native.bPoly, p.ab.native.bCommitment),
      (p.query.native.registryXyPoly, p.query.native.registryXyCommitment),
      (p.p.native.poly, p.p.native.commitment)]) ++
  [(s.sPrime.registryWx0Poly, s.sPrime.registryWx0Commitment),
    (s.sPrime.registryWx1Poly, s.sPrime.registryWx1Commitment),
    (s.innerError.registryWyPoly, s.innerError.registryWyCommitment),
    (s.ab.aPoly, s.ab.aCommitment),
    (s.ab.bPoly, s.ab.bCommitment),
    (s.query.registryXyPoly, s.query.registryXyCommitment)]

/-- `Accumulator::acc` on the polynomial, crates/ragu_pcd/src/fuse/_10_p.rs:40-47, for a list of
polynomials. -/
def accumulate (N : ℕ) (beta : F) (poly : Sparse.Poly F) (ps : List (Sparse.Poly F)) :
    Option (Sparse.Poly F) :=
  ps.foldlM (fun acc p => Sparse.addAssign N (Sparse.scale acc beta) p) poly

/-- `compute_p`, crates/ragu_pcd/src/fuse/_10_p.rs:51-190, without the nested polynomials. `sqrt`,
`gen` and `zeta` are the field constants of the endoscalar; the second component is the witness of
the endoscaling steps. -/
def computeP [AddCommGroup HC] [Module F HC] (N nbits : ℕ) (sqrt : F → Option F) (gen zeta : F)
    (s : FuseState F G HC) (f : NativeF F HC) (preBeta u : F) :
    Option (NativeP F HC × PointsWitness HC) := do
  let betaEndo ← extractNative nbits sqrt gen preBeta
  let effectiveBeta := liftNative nbits zeta betaEndo
  let poly ← accumulate N effectiveBeta f.poly ((accList s).map (·.1))
  let witness ← PointsWitness.new nbits zeta NUM_ENDOSCALING_POINTS betaEndo
    (f.commitment :: (accList s).map (·.2))
  let commitment ← witness.interstitials.getLast?
  return (⟨poly, commitment, Sparse.eval N poly u⟩, witness)

end
end Ragu.Pcd
