/-
The polynomial queries of a fuse and what is derived from the claimed values.
-/
import Verif.Model.Pcd.Quotient
import Verif.Spec.Claims
import Verif.Spec.Fold
import Verif.Spec.Tpoly
import Mathlib.Algebra.Group.Even

namespace Ragu.Spec
open Ragu Ragu.Pcd Finset
variable {F : Type} [Field F]

/-- The combination of the values by descending powers of `s`: `∑ᵢ s^(n-1-i) l[i]`. -/
def descending (s : F) (l : List F) : F :=
  ∑ i ∈ range l.length, s ^ (l.length - 1 - i) * l.getD i 0

/-- Groups of `m` values combined with `s₁`, and the groups combined with `s₂`. -/
def twoLayer (m g : ℕ) (s₁ s₂ : F) (l : List F) : F :=
  ∑ k ∈ range g, s₂ ^ (g - 1 - k) * groupSum m s₁ l k

/-! ### The folded claims -/

/-- A child proof as the claims see it, by the claimed values of its polynomials; the identifier of
its circuit is replaced by the claimed value of the circuit's wiring polynomial. -/
def childValues {K : Type} (q : QueryChild K) : Child K K Unit where
  rx
    | .abA => q.aPolyAtXz
    | .abB => q.bPolyAtX
    | .rx i => q.rx i
  id := q.currentRegistryXyAtChildCircuitId
  c := ()
  app := ()
  bridge := ()
  unified := ()

/-- The value of the left polynomial of a claim at `xz`, from the values of the traces at `xz`. -/
def leftValue (z : F) : Claim F F → F
  | .raw a _ => a
  | .circuit _ rx => rx
  | .internal _ rxs => rxs.sum
  | .bonding _ rxs => descending z rxs

/-- The value of the right polynomial of a claim at `x`, from the values of the traces at `xz`, the
values at `x` of the wiring polynomials and the value `t` of `t(x, z)`. -/
def rightValue (wiring : NativeId → F) (t : F) : Claim F F → F
  | .raw _ b => b
  | .circuit s rx => rx + s + t
  | .internal id rxs => rxs.sum + wiring id + t
  | .bonding id _ => wiring id

/-- The claims about the two children, by values. -/
def valueClaims (q : QueryOutput F) : List (Claim F F) :=
  (claimTable [childValues q.left, childValues q.right] ()).map (·.1)

/-- The value of the folded `A` at `xz`. -/
def foldedA (q : QueryOutput F) (z mu muPrime : F) : F :=
  twoLayer GROUP_SIZE NUM_GROUPS mu⁻¹ muPrime⁻¹ ((valueClaims q).map (leftValue z))

/-- The value of the folded `B` at `x`. -/
def foldedB (q : QueryOutput F) (t mu nu muPrime nuPrime : F) : F :=
  twoLayer GROUP_SIZE NUM_GROUPS (mu * nu) (muPrime * nuPrime)
    ((valueClaims q).map (rightValue q.fixedRegistry t))

/-! ### The queries -/

/-- A query: a polynomial and a point at which its value is claimed. -/
inductive Query where
  /-- a child's `p` at its `u` -/
  | childP (s : Side)
  /-- a child's `m(·, x, y)` at the current `w` -/
  | childRegistry (s : Side)
  /-- `m(w, x of the child, ·)` at the child's `y` -/
  | wxChildY (s : Side)
  /-- `m(w, x of the child, ·)` at the current `y` -/
  | wxY (s : Side)
  /-- `m(w, ·, y)` at the child's `x` -/
  | wyChildX (s : Side)
  /-- `m(w, ·, y)` at the current `x` -/
  | wyX
  /-- `m(·, x, y)` at the current `w` -/
  | xyW
  /-- `m(·, x, y)` at the identifier of the child's circuit -/
  | xyChildCircuit (s : Side)
  /-- a child's `a` at `xz` -/
  | childA (s : Side)
  /-- a child's `b` at `x` -/
  | childB (s : Side)
  /-- the current `a` at `xz` -/
  | a
  /-- the current `b` at `x` -/
  | b
  /-- a trace of a child at `xz` -/
  | rx (s : Side) (i : RxIndex)
  /-- `m(·, x, y)` at the identifier of an internal circuit -/
  | xyInternal (id : NativeId)

/-- All queries, in the order in which they are combined. -/
def Query.all : List Query :=
  [.childP .left, .childP .right, .childRegistry .left, .childRegistry .right,
    .wxChildY .left, .wxChildY .right, .wxY .left, .wxY .right,
    .wyChildX .left, .wyChildX .right, .wyX, .xyW, .xyChildCircuit .left, .xyChildCircuit .right,
    .childA .left, .childB .left, .childA .right, .childB .right, .a, .b] ++
  RxIndex.all.map (.rx .left) ++ RxIndex.all.map (.rx .right) ++ NativeId.all.map .xyInternal

/-- The points of a child: its challenges `u`, `y`, `x` and the identifier of its circuit as a field
element. -/
structure ChildPoints (F : Type) where
  u : F
  y : F
  x : F
  id : F

/-- The points of the queries. -/
structure Points (F : Type) where
  w : F
  y : F
  z : F
  x : F
  child : Side → ChildPoints F
  internal : NativeId → F

def Points.at (p : Points F) : Query → F
  | .childP s => (p.child s).u
  | .childRegistry _ => p.w
  | .wxChildY s => (p.child s).y
  | .wxY _ => p.y
  | .wyChildX s => (p.child s).x
  | .wyX => p.x
  | .xyW => p.w
  | .xyChildCircuit s => (p.child s).id
  | .childA _ => p.x * p.z
  | .childB _ => p.x
  | .a => p.x * p.z
  | .b => p.x
  | .rx _ _ => p.x * p.z
  | .xyInternal id => p.internal id

/-- One of the two children. -/
def EvalOutput.child {K : Type} (e : EvalOutput K) : Side → EvalChild K
  | .left => e.left
  | .right => e.right

/-- One of the two children. -/
def QueryOutput.child {K : Type} (q : QueryOutput K) : Side → QueryChild K
  | .left => q.left
  | .right => q.right

/-- The claimed value at `u` of the polynomial of a query. -/
def evalOf {K : Type} (e : EvalOutput K) : Query → K
  | .childP s => (EvalOutput.child e s).pPoly
  | .childRegistry s => (EvalOutput.child e s).registryXyPoly
  | .wxChildY .left => e.registryWx0
  | .wxChildY .right => e.registryWx1
  | .wxY .left => e.registryWx0
  | .wxY .right => e.registryWx1
  | .wyChildX _ => e.registryWy
  | .wyX => e.registryWy
  | .xyW => e.registryXy
  | .xyChildCircuit _ => e.registryXy
  | .childA s => (EvalOutput.child e s).aPoly
  | .childB s => (EvalOutput.child e s).bPoly
  | .a => e.aPoly
  | .b => e.bPoly
  | .rx s i => (EvalOutput.child e s).rx i
  | .xyInternal _ => e.registryXy

/-- The claimed value of a query at its point; `v` are the values of `p` claimed by the children, and
the values `ax` and `bx` of the current `a` and `b` are derived. -/
def answerOf {K : Type} (q : QueryOutput K) (v : Side → K) (ax bx : K) : Query → K
  | .childP s => v s
  | .childRegistry s => (QueryOutput.child q s).childRegistryXyAtCurrentW
  | .wxChildY s => (QueryOutput.child q s).childRegistryXyAtCurrentW
  | .wxY s => (QueryOutput.child q s).currentRegistryWyAtChildX
  | .wyChildX s => (QueryOutput.child q s).currentRegistryWyAtChildX
  | .wyX => q.registryWxy
  | .xyW => q.registryWxy
  | .xyChildCircuit s => (QueryOutput.child q s).currentRegistryXyAtChildCircuitId
  | .childA s => (QueryOutput.child q s).aPolyAtXz
  | .childB s => (QueryOutput.child q s).bPolyAtX
  | .a => ax
  | .b => bx
  | .rx s i => (QueryOutput.child q s).rx i
  | .xyInternal id => q.fixedRegistry id

/-- The combination of the quotients `(value at u - value at the point) / (u - point)`. -/
def quotientSum (alpha u : F) (p : Points F) (atU answer : Query → F) : F :=
  descending alpha (Query.all.map fun q => (atU q - answer q) / (u - p.at q))

/-- `u` is none of the points. -/
def Avoids (u : F) (p : Points F) : Prop := ∀ q ∈ Query.all, u ≠ p.at q

/-- The polynomial of a query. -/
def Query.poly {G HC : Type} (s : FuseState F G HC) : Query → Sparse.Poly F
  | .childP .left => s.left.p.native.poly
  | .childP .right => s.right.p.native.poly
  | .childRegistry .left => s.left.query.native.registryXyPoly
  | .childRegistry .right => s.right.query.native.registryXyPoly
  | .wxChildY .left => s.sPrime.registryWx0Poly
  | .wxChildY .right => s.sPrime.registryWx1Poly
  | .wxY .left => s.sPrime.registryWx0Poly
  | .wxY .right => s.sPrime.registryWx1Poly
  | .wyChildX _ => s.innerError.registryWyPoly
  | .wyX => s.innerError.registryWyPoly
  | .xyW => s.query.registryXyPoly
  | .xyChildCircuit _ => s.query.registryXyPoly
  | .childA .left => s.left.ab.native.aPoly
  | .childA .right => s.right.ab.native.aPoly
  | .childB .left => s.left.ab.native.bPoly
  | .childB .right => s.right.ab.native.bPoly
  | .a => s.ab.aPoly
  | .b => s.ab.bPoly
  | .rx .left i => (s.left.triple i).rx
  | .rx .right i => (s.right.triple i).rx
  | .xyInternal _ => s.query.registryXyPoly

/-! ### Values of gadgets -/

def QueryChild.map {K L : Type} (f : K → L) (q : QueryChild K) : QueryChild L :=
  ⟨fun i => f (q.rx i), f q.aPolyAtXz, f q.bPolyAtX, f q.childRegistryXyAtCurrentW,
    f q.currentRegistryXyAtChildCircuitId, f q.currentRegistryWyAtChildX⟩

def QueryOutput.map {K L : Type} (f : K → L) (q : QueryOutput K) : QueryOutput L :=
  ⟨fun id => f (q.fixedRegistry id), f q.registryWxy, QueryChild.map f q.left,
    QueryChild.map f q.right⟩

def EvalChild.map {K L : Type} (f : K → L) (e : EvalChild K) : EvalChild L :=
  ⟨fun i => f (e.rx i), f e.aPoly, f e.bPoly, f e.registryXyPoly, f e.pPoly⟩

def EvalOutput.map {K L : Type} (f : K → L) (e : EvalOutput K) : EvalOutput L :=
  ⟨EvalChild.map f e.left, EvalChild.map f e.right, f e.registryWx0, f e.registryWx1,
    f e.registryWy, f e.aPoly, f e.bPoly, f e.registryXy⟩

/-- All claimed evaluations in the order in which they are batched. -/
def evalList (e : EvalOutput F) : List F :=
  [e.left, e.right].flatMap (fun c =>
    RxIndex.all.map c.rx ++ [c.aPoly, c.bPoly, c.registryXyPoly, c.pPoly]) ++
  [e.registryWx0, e.registryWx1, e.registryWy, e.aPoly, e.bPoly, e.registryXy]

/-- The number whose bit `i` says whether `e + i` is a square; where `e + i` is zero the bit may be
either. -/
def SquareBits (nbits : ℕ) (e : F) (v : ℕ) : Prop :=
  v < 2 ^ nbits ∧ ∀ i < nbits, e + (i : F) ≠ 0 → (v.testBit i = true ↔ IsSquare (e + (i : F)))

/-- The number whose bit `i` says whether `e + i` is a square, where zero is one. -/
def ExtractedBits (nbits : ℕ) (e : F) (v : ℕ) : Prop :=
  v < 2 ^ nbits ∧ ∀ i < nbits, v.testBit i = true ↔ IsSquare (e + (i : F))

/-- What the circuit for `v` has to establish, for challenges and claimed values that are field
elements: `u` is none of the query points, and `v` is the combination of the quotient sum and all
claimed evaluations by powers of the endoscalar with the given bits. -/
structure VerifiedWith (Bits : ℕ → Prop) (nbits n : ℕ) (zeta : F) (p : Points F) (childV : Side → F)
    (q : QueryOutput F) (e : EvalOutput F) (mu nu muPrime nuPrime alpha u v : F) : Prop where
  x_ne : p.x ≠ 0
  z_ne : p.z ≠ 0
  mu_ne : mu ≠ 0
  muPrime_ne : muPrime ≠ 0
  avoids : Avoids u p
  value : ∃ bits, Bits bits ∧
    v = descending (Gadget.liftNative nbits zeta bits)
      (quotientSum alpha u p (evalOf e)
        (answerOf q childV (foldedA q p.z mu muPrime)
          (foldedB q (tDef n p.x p.z) mu nu muPrime nuPrime)) :: evalList e)

/-- `VerifiedWith` for the bits that `preBeta` determines. -/
abbrev Verified (nbits n : ℕ) (zeta : F) (p : Points F) (childV : Side → F) (q : QueryOutput F)
    (e : EvalOutput F) (mu nu muPrime nuPrime alpha u preBeta v : F) : Prop :=
  VerifiedWith (SquareBits nbits preBeta) nbits n zeta p childV q e mu nu muPrime nuPrime alpha u v

end Ragu.Spec
