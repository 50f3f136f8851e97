/-
Model of the commitment tracking of a fuse: `ragu_pcd/src/fuse/claims.rs`,
`fuse/_04_inner_error.rs`, `fuse/_05_outer_error.rs` and `fuse/_06_ab.rs`, as far as the two
polynomials `a` and `b` are concerned.

`none` is a panic.  Affine and projective points are not distinguished.
-/
import Verif.Model.Pcd.Claims
import Verif.Model.Pcd.Fold
import Verif.Model.Msm

namespace Ragu.Pcd
open Ragu Ragu.Circuit Ragu.Registry
variable {F : Type} [Field F] [DecidableEq F] {K : Type}

/-- `TrackedPoly` and its `CommitmentDecomposition`, crates/ragu_pcd/src/fuse/claims.rs:42-45 and
77-81; the `Cow` is a value. -/
structure Tracked (K F : Type) where
  poly : Sparse.Poly F
  terms : List (K × F)
deriving DecidableEq

/-- `Default`, crates/ragu_pcd/src/fuse/claims.rs:47-51 and 83-90. -/
def Tracked.default : Tracked K F := ⟨[], []⟩

/-- `TrackedPoly::single`, crates/ragu_pcd/src/fuse/claims.rs:55-59 and 100-102. -/
def Tracked.single (poly : Sparse.Poly F) (key : K) : Tracked K F := ⟨poly, [(key, 1)]⟩

/-- `fold_scale`, crates/ragu_pcd/src/fuse/claims.rs:106-111. -/
def Tracked.scale (by_ : F) (t : Tracked K F) : Tracked K F :=
  ⟨Sparse.scale t.poly by_, t.terms.map fun kc => (kc.1, kc.2 * by_)⟩

/-- `fold_add_assign`, crates/ragu_pcd/src/fuse/claims.rs:112-115. -/
def Tracked.addAssign (N : ℕ) (t other : Tracked K F) : Option (Tracked K F) := do
  let poly ← Sparse.addAssign N t.poly other.poly
  return ⟨poly, t.terms ++ other.terms⟩

/-- `impl Foldable for TrackedPoly`, crates/ragu_pcd/src/fuse/claims.rs:105-116. -/
def trackedFoldable (N : ℕ) : Foldable F (Tracked K F) :=
  ⟨Tracked.default, Tracked.scale, Tracked.addAssign N⟩

/-- `Atom`, crates/ragu_pcd/src/fuse/claims.rs:129-132. -/
structure Atom (K F : Type) where
  key : K
  poly : Sparse.Poly F

/-- `Side`, crates/ragu_pcd/src/fuse/claims.rs:144-148. -/
inductive Side where
  | left | right
deriving DecidableEq

/-- `FoldKey`, crates/ragu_pcd/src/fuse/claims.rs:152. -/
abbrev FoldKey := Side × RxComponent

/-- `FuseProofSource`, crates/ragu_pcd/src/fuse/claims.rs:157-160. -/
structure FuseSource (F G HC : Type) where
  left : Proof F G HC
  right : Proof F G HC

variable {G HC : Type}

/-- `FuseProofSource::get`, crates/ragu_pcd/src/fuse/claims.rs:165-175. -/
def FuseSource.get (s : FuseSource F G HC) : FoldKey → HC
  | (.left, c) => s.left.nativeCommitment c
  | (.right, c) => s.right.nativeCommitment c

/-- `impl Source for FuseProofSource`, crates/ragu_pcd/src/fuse/claims.rs:178-204. -/
def FuseSource.source (s : FuseSource F G HC) : Source RxComponent (Atom FoldKey F) ℕ where
  rx c := [⟨(.left, c), s.left.nativeRx c⟩, ⟨(.right, c), s.right.nativeRx c⟩]
  appCircuits := [s.left.application.circuitId, s.right.application.circuitId]

/-- `impl Processor for Builder` of tracked polynomials,
crates/ragu_pcd/src/fuse/claims.rs:217-260. -/
def trackedProcessor (E : Env F) (n : ℕ) (r : Registry F) :
    Processor Option (ClaimBuilder F (Tracked K F)) (Atom K F) ℕ where
  rawClaim B a b := some { B with
    a := B.a ++ [Tracked.single a.poly a.key]
    b := B.b ++ [b.poly] }
  circuit B cid rx := B.circuitImpl E n r (·.poly) cid (Tracked.single rx.poly rx.key)
  internalCircuit B id rxs := do
    let circuitId ← id.circuitIndex
    let poly ← sumPolynomials (4 * n) (rxs.map (·.poly))
    B.circuitImpl E n r (·.poly) circuitId ⟨poly, rxs.map fun a => (a.key, 1)⟩
  bonding B id rxs := do
    let folded ← Fold.fold (trackedFoldable (4 * n)) (rxs.map fun a => Tracked.single a.poly a.key)
      B.z
    let circuitId ← id.circuitIndex
    B.bondingImpl E n r circuitId folded

/-- One turn of the loop that adds up the terms of each key,
crates/ragu_pcd/src/fuse/_06_ab.rs:115-121. -/
def dedupInsert [DecidableEq K] : List (K × F) → K × F → List (K × F)
  | [], kc => [kc]
  | e :: es, kc => if e.1 = kc.1 then (e.1, e.2 + kc.2) :: es else e :: dedupInsert es kc

/-- The terms by key, crates/ragu_pcd/src/fuse/_06_ab.rs:114-121. -/
def dedup [DecidableEq K] (terms : List (K × F)) : List (K × F) := terms.foldl dedupInsert []

/-- The commitment of a tracked polynomial from its terms,
crates/ragu_pcd/src/fuse/_06_ab.rs:110-130. -/
def resolve [DecidableEq K] [AddCommGroup HC] (numBits : ℕ) (repr : F → List UInt8) (get : K → HC)
    (terms : List (K × F)) : Option HC :=
  let msm := (dedup terms).map fun kc => (kc.2, get kc.1)
  Msm.mul numBits (msm.map fun cb => repr cb.1) (msm.map fun cb => cb.2)

/-- The polynomials at the end of the two layers and the values derived on the way. -/
structure FuseAB (F HC : Type) where
  innerErrors : List (List F)
  outerErrors : List F
  /-- the inputs of the second layer -/
  aGroups : List (Sparse.Poly F)
  bGroups : List (Sparse.Poly F)
  ab : NativeAB F HC

/-- `compute_native_ab`, crates/ragu_pcd/src/fuse/_06_ab.rs:81-144; inverting a zero `mu'` panics. -/
def computeNativeAb [AddCommGroup HC] (N numBits : ℕ) (repr : F → List UInt8) (gens : List HC)
    (s : FuseSource F G HC) (a : List (Tracked FoldKey F)) (b : List (Sparse.Poly F))
    (muPrime nuPrime : F) : Option (NativeAB F HC) :=
  if muPrime = 0 then none else do
    let ta ← Fold.foldOuter (trackedFoldable N) a muPrime⁻¹
    let bPoly ← Fold.foldOuter (polyFoldable N) b (muPrime * nuPrime)
    let aCommitment ← resolve numBits repr s.get ta.terms
    let bCommitment ← Msm.commit N numBits repr bPoly gens
    return ⟨ta.poly, aCommitment, bPoly, bCommitment, Sparse.revdot N ta.poly bPoly⟩

/-- The native polynomials of the fourth to sixth steps of a fuse:
crates/ragu_pcd/src/fuse/_04_inner_error.rs:80-91, crates/ragu_pcd/src/fuse/_05_outer_error.rs:60-67
and 143, and crates/ragu_pcd/src/fuse/_06_ab.rs:81-144, for given challenges.  Not included: the
stage polynomials, the bridges and the values collapsed in circuit. -/
def fuseAb [AddCommGroup HC] (E : Env F) (n numBits : ℕ) (repr : F → List UInt8) (gens : List HC)
    (r : Registry F) (s : FuseSource F G HC) (y z mu nu muPrime nuPrime : F) :
    Option (FuseAB F HC) := do
  let B ← ClaimBuilder.new n y z
  let B ← buildClaims s.source (trackedProcessor E n r) B
  let ie ← Fold.innerErrorTerms (4 * n) GROUP_SIZE NUM_GROUPS (B.a.map (·.poly)) B.b
  if mu = 0 then none else do
    let a ← Fold.foldInner (trackedFoldable (4 * n)) GROUP_SIZE NUM_GROUPS B.a mu⁻¹
    let b ← Fold.foldInner (polyFoldable (4 * n)) GROUP_SIZE NUM_GROUPS B.b (mu * nu)
    let oe ← Fold.outerErrorTerms (4 * n) NUM_GROUPS (a.map (·.poly)) b
    let ab ← computeNativeAb (4 * n) numBits repr gens s a b muPrime nuPrime
    return ⟨ie, oe, a.map (·.poly), b, ab⟩

end Ragu.Pcd
