/-
Model of `mul` (multi-scalar multiplication) in `ragu_arithmetic/src/util.rs` and of
`Polynomial::commit` in `ragu_circuits/src/polynomials/sparse/mod.rs`.

Curve points are elements of an arbitrary additive commutative group; affine and
projective representations are not distinguished. Windows are summed independently
(in parallel with `multicore`), so their order does not matter. A panic is `none`.
-/
import Mathlib.Algebra.Group.Defs
import Mathlib.Data.Nat.Log
import Verif.Model.Sparse

namespace Ragu.Msm

/-- `bucket_lookup`, crates/ragu_arithmetic/src/util.rs:127-142: the loop over the thresholds. -/
def lookupLoop (n : ℕ) : ℕ → List ℕ → ℕ
  | cur, [] => cur
  | cur, t :: ts => if n < t then cur else lookupLoop n (cur + 1) ts

/-- `bucket_lookup`, crates/ragu_arithmetic/src/util.rs:127-142. -/
def bucketLookup (n : ℕ) : ℕ :=
  lookupLoop n 1 [4, 4, 32, 55, 149, 404, 1097, 2981, 8104, 22027, 59875, 162755, 442414, 1202605,
    3269018]

/-- `u32::from_le_bytes` (crates/ragu_arithmetic/src/util.rs:218), on the bytes that were
copied; the missing ones are zero. -/
def fromLeBytes : List UInt8 → ℕ
  | [] => 0
  | b :: bs => b.toNat + 256 * fromLeBytes bs

/-- `get_at`, crates/ragu_arithmetic/src/util.rs:204-223. -/
def getAt (segment c : ℕ) (bytes : List UInt8) : ℕ :=
  let skipBits := segment * c
  let skipBytes := skipBits / 8
  if skipBytes ≥ bytes.length then 0
  else
    let tmp := fromLeBytes ((bytes.drop skipBytes).take 4)
    (tmp >>> (skipBits - skipBytes * 8)) % (1 <<< c)

/-- `Bucket`, crates/ragu_arithmetic/src/util.rs:228-232. -/
inductive Bucket (G : Type*)
  | none
  | affine (a : G)
  | projective (a : G)
deriving DecidableEq

variable {G : Type*} [AddCommGroup G]

/-- `Bucket::add_assign`, crates/ragu_arithmetic/src/util.rs:235-244. -/
def Bucket.addAssign (other : G) : Bucket G → Bucket G
  | .none => .affine other
  | .affine a => .projective (a + other)
  | .projective a => .projective (a + other)

/-- `Bucket::add`, crates/ragu_arithmetic/src/util.rs:246-255. -/
def Bucket.add (other : G) : Bucket G → G
  | .none => other
  | .affine a => other + a
  | .projective a => other + a

/-- The loop filling the buckets, crates/ragu_arithmetic/src/util.rs:267-272; indexing outside
the buckets panics. -/
def fillBuckets (segment c : ℕ) : List (List UInt8 × G) → List (Bucket G) → Option (List (Bucket G))
  | [], bs => some bs
  | (coeff, base) :: rest, bs =>
    let d := getAt segment c coeff
    if d ≠ 0 then
      if d - 1 < bs.length then fillBuckets segment c rest (bs.modify (d - 1) (Bucket.addAssign base))
      else none
    else fillBuckets segment c rest bs

/-- The summation by parts, crates/ragu_arithmetic/src/util.rs:278-283, over the reversed
buckets. -/
def sumByParts : List (Bucket G) → G → G → G
  | [], _, sum => sum
  | b :: bs, running, sum =>
    let running := b.add running
    sumByParts bs running (sum + running)

/-- `window_sum`, crates/ragu_arithmetic/src/util.rs:259-285. -/
def windowSum (segment c : ℕ) (terms : List (List UInt8 × G)) : Option G :=
  (fillBuckets segment c terms (List.replicate (1 <<< c - 1) Bucket.none)).map fun bs =>
    sumByParts bs.reverse 0 0

/-- `c` doublings, crates/ragu_arithmetic/src/util.rs:297-299. -/
def doubleTimes : ℕ → G → G
  | 0, a => a
  | c + 1, a => doubleTimes c (a + a)

/-- The combination of the window sums from most to least significant,
crates/ragu_arithmetic/src/util.rs:295-301; the list is already reversed. -/
def combine (c : ℕ) : List G → G → G
  | [], acc => acc
  | s :: ss, acc => combine c ss (doubleTimes c acc + s)

/-- `mul`, crates/ragu_arithmetic/src/util.rs:188-304. The scalars are given by their
little-endian representations (`to_repr`); `numBits` is `Scalar::NUM_BITS`. `zip` stops at the
shorter of the two lists. -/
def mul (numBits : ℕ) (coeffs : List (List UInt8)) (bases : List G) : Option G := do
  let c := bucketLookup coeffs.length
  let segments := (numBits + c - 1) / c
  let windowSums ← (List.range segments).mapM fun seg => windowSum seg c (coeffs.zip bases)
  return combine c windowSums.reverse 0

/-- `Polynomial::commit`, crates/ragu_circuits/src/polynomials/sparse/mod.rs:454-468; `repr` is
`PrimeField::to_repr`, `g` the generators. -/
def commit {F : Type*} (N numBits : ℕ) (repr : F → List UInt8) (p : Sparse.Poly F) (g : List G) :
    Option G :=
  if N ≤ g.length then
    mul numBits ((p.flatMap fun b => b.2).map repr)
      (p.flatMap fun b => (g.drop b.1).take b.2.length)
  else none

end Ragu.Msm
