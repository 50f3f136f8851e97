/-
The Pasta cycle as the proof system uses it: crates/ragu_pasta/src/lib.rs, its parameters
crates/ragu_pasta/pasta_common.rs, and the file that the build script writes, crates/ragu_pasta/build.rs.
-/
import Verif.Model.Pasta.PoseidonFp
import Verif.Model.Pasta.PoseidonFq
import Verif.Model.Pcd.NestedRun
import Verif.Props.Point

namespace Ragu.Pasta
open Ragu Ragu.Registry Ragu.Pcd Ragu.Props

/-! ### The environments -/

/-- What is left open: the number of threads, the hash function, and reduction of a 64-byte string. -/
structure Machine (F : Type) where
  threads : ℕ
  blake : List ℕ → List ℕ
  fromUniform : List ℕ → F

/-- The prime field constants of `Fp`, `low_u64` and `to_repr`. -/
def envP (M : Machine Fp) : Env Fp where
  consts := constsP
  threads := M.threads
  lowU64 f := lowU64 f.val
  blake := M.blake
  toRepr f := (reprBytes f.val).map UInt8.toNat
  fromUniform := M.fromUniform

/-- The prime field constants of `Fq`, `low_u64` and `to_repr`. -/
def envQ (M : Machine Fq) : Env Fq where
  consts := constsQ
  threads := M.threads
  lowU64 f := lowU64 f.val
  blake := M.blake
  toRepr f := (reprBytes f.val).map UInt8.toNat
  fromUniform := M.fromUniform

/-- `to_repr` of `Fp`, as the scalars of multiexponentiations are read. -/
def reprP (f : Fp) : List UInt8 := reprBytes f.val

/-- `NUM_BITS` of both fields. -/
def numBits : ℕ := 255

/-- The affine coordinates of a point, `None` for the identity (`CurveAffine::coordinates`). -/
def coordinates {m : ℕ} [Fact m.Prime] {b : ZMod m} : (curve b).Point → Option (ZMod m × ZMod m)
  | .zero => none
  | .some x y _ => some (x, y)

/-- What endoscaling takes from `Fp`: 128 bits (crates/ragu_primitives/src/endoscalar.rs:34-39 with
`Uendo` the 128-bit integer), the square root, `MULTIPLICATIVE_GENERATOR` and `ZETA`. -/
def endoP (sqrt : Fp → Option Fp) : EndoConsts Fp := ⟨128, sqrt, gen, zetaP⟩

/-! ### The generators -/

/-- `i.to_le_bytes()` of a `u32`. -/
def leBytes32 (i : ℕ) : List UInt8 := (List.range 4).map fun j => UInt8.ofNat (i / 2 ^ (8 * j))

/-- The message hashed for generator `i`, crates/ragu_pasta/pasta_common.rs:41-42. -/
def message (i : ℕ) : List UInt8 := 0 :: leBytes32 i

/-- `params_for_curve`, crates/ragu_pasta/pasta_common.rs:36-53, for `hash` the function
`C::hash_to_curve(DOMAIN_PREFIX)`. Conversion to affine coordinates keeps the points. -/
def paramsForCurve {P : Type} (hash : List UInt8 → P) (n : ℕ) : List P × P :=
  ((List.range n).map fun i => hash (message i), hash [1])

/-- `DEFAULT_EP_K` and `DEFAULT_EQ_K`, crates/ragu_pasta/pasta_common.rs:14-15. -/
def DEFAULT_EP_K : ℕ := 13
def DEFAULT_EQ_K : ℕ := 13

/-- `PastaParams`, crates/ragu_pasta/pasta_common.rs:19-34. -/
structure PastaParams (EP EQ : Type) where
  pallasG : List EP
  pallasH : EP
  vestaG : List EQ
  vestaH : EQ

/-- `PastaParams::generate`, crates/ragu_pasta/pasta_common.rs:57-71. -/
def generate {EP EQ : Type} (hashEp : List UInt8 → EP) (hashEq : List UInt8 → EQ) : PastaParams EP EQ :=
  ⟨(paramsForCurve hashEp (2 ^ DEFAULT_EP_K)).1, (paramsForCurve hashEp (2 ^ DEFAULT_EP_K)).2,
    (paramsForCurve hashEq (2 ^ DEFAULT_EQ_K)).1, (paramsForCurve hashEq (2 ^ DEFAULT_EQ_K)).2⟩

/-! ### The baked parameters -/

section
variable {m : ℕ} [Fact m.Prime] {b : ZMod m}

/-- `write_point`, crates/ragu_pasta/build.rs:16-24; the `expect` on the identity is `none`. -/
def writePoint (P : (curve b).Point) : Option (List UInt8) :=
  (coordinates P).map fun xy => reprBytes xy.1.val ++ reprBytes xy.2.val

/-- `write_point` for each point in turn. -/
def writePoints : List (curve b).Point → Option (List UInt8)
  | [] => some []
  | P :: Ps => do
    let x ← writePoint P
    let xs ← writePoints Ps
    some (x ++ xs)

/-- `write_params_for_curve`, crates/ragu_pasta/build.rs:26-33. -/
def writeParams (g : List (curve b).Point) (h : (curve b).Point) : Option (List UInt8) := do
  let x ← writePoints g
  let y ← writePoint h
  some (x ++ y)

/-- The number that bytes stand for, least significant first. -/
def bytesValue (l : List UInt8) : ℕ := l.foldr (fun b acc => b.toNat + 256 * acc) 0

/-- `from_repr`: `None` unless the bytes are canonical. -/
def fromRepr (m : ℕ) (l : List UInt8) : Option (ZMod m) :=
  if bytesValue l < m then some (bytesValue l) else none

/-- `from_xy`: `None` unless the coordinates are those of a point of the curve. -/
noncomputable def fromXy (x y : ZMod m) : Option (curve b).Point := by
  classical
  exact if h : (curve b).Nonsingular x y then some (.some x y h) else none

/-- `get_point`, crates/ragu_pasta/src/lib.rs:128-139: the point and the rest of the source; slices out
of range and the `unwrap`s are `none`. -/
noncomputable def getPoint (source : List UInt8) : Option ((curve b).Point × List UInt8) := do
  if source.length < 64 then none
  let x ← fromRepr m (source.take 32)
  let y ← fromRepr m ((source.drop 32).take 32)
  let P ← fromXy x y
  some (P, source.drop 64)

/-- The loop of `get_points_for_curve`. -/
noncomputable def getPoints : ℕ → List UInt8 → Option (List (curve b).Point × List UInt8)
  | 0, source => some ([], source)
  | n + 1, source => do
    let (P, source) ← getPoint source
    let (Ps, source) ← getPoints n source
    some (P :: Ps, source)

/-- `get_points_for_curve`, crates/ragu_pasta/src/lib.rs:141-149. -/
noncomputable def getPointsForCurve (n : ℕ) (source : List UInt8) :
    Option ((List (curve b).Point × (curve b).Point) × List UInt8) := do
  let (g, source) ← getPoints n source
  let (h, source) ← getPoint source
  some ((g, h), source)

end

section
variable {m m' : ℕ} [Fact m.Prime] [Fact m'.Prime] {b : ZMod m} {b' : ZMod m'}

/-- The build script, crates/ragu_pasta/build.rs:35-48. -/
def bake (P : PastaParams (curve b).Point (curve b').Point) : Option (List UInt8) := do
  let x ← writeParams P.pallasG P.pallasH
  let y ← writeParams P.vestaG P.vestaH
  some (x ++ y)

/-- `PASTA_PARAMETERS`, crates/ragu_pasta/src/lib.rs:151-165, for a file baked at build time. -/
noncomputable def baked (raw : List UInt8) : Option (PastaParams (curve b).Point (curve b').Point) := do
  let ((g, h), source) ← getPointsForCurve (2 ^ DEFAULT_EP_K) raw
  let ((g', h'), source) ← getPointsForCurve (2 ^ DEFAULT_EQ_K) source
  if source.length ≠ 0 then none
  some ⟨g, h, g', h'⟩

end
end Ragu.Pasta
