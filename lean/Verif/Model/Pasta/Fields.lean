/-
The fields and curves of the Pasta cycle, crates/ragu_pasta/src/lib.rs:59-75.

The cycle takes its fields and curves from the external crate `pasta_curves` (Cargo.lock:605-607),
whose sources are not in the repository. The constants below are the ones that crate documents; that
the compiled crate uses these values is trusted. Everything else about them is proved.
-/
import Verif.Model.Pcd.ComputeV
import Mathlib.Data.ZMod.Basic

namespace Ragu.Pasta
open Ragu

/-- The modulus of `Fp`, the circuit field (crates/ragu_pasta/src/lib.rs:63). -/
def p : ℕ := 0x40000000000000000000000000000000224698fc094cf91b992d30ed00000001

/-- The modulus of `Fq`, the scalar field (crates/ragu_pasta/src/lib.rs:64). -/
def q : ℕ := 0x40000000000000000000000000000000224698fc0994a8dd8c46eb2100000001

abbrev Fp := ZMod p
abbrev Fq := ZMod q

/-- `b` of both curves y² = x³ + b. -/
def curveB : ℕ := 5

/-- `Fp::ZETA`. -/
def zetaP : ℕ := 0x12ccca834acdba712caad5dc57aab1b01d1f8bd237ad31491dad5ebdfdfe4ab9

/-- `Fq::ZETA`. -/
def zetaQ : ℕ := 0x6819a58283e528e511db4d81cf70f5a0fed467d47c033af2aa9d2e050aa0e4f

/-- `MULTIPLICATIVE_GENERATOR` of both fields. -/
def gen : ℕ := 5

/-- `S` of both fields. -/
def S : ℕ := 32

def rootP : ℕ := 0x2bce74deac30ebda362120830561f81aea322bf2b7bb7584bdad6fabd87ea32f
def rootInvP : ℕ := 0x2cd5282c53116b5cb4ed8e647196dad184a0a1d8859f066ff0b87c7db2ce91f6
def twoInvP : ℕ := 0x2000000000000000000000000000000011234c7e04a67c8dcc96987680000001
def rootQ : ℕ := 0x2de6a9b8746d3f589e5c4dfd492ae26e9bb97ea3c106f049a70e2c1102b6d05f
def rootInvQ : ℕ := 0x2235e1a7415bf936f4c8f353124086c14ad38b9084b8a80c57eecda0a84b6836
def twoInvQ : ℕ := 0x2000000000000000000000000000000011234c7e04ca546ec623759080000001

/-- `Fp::S`, `Fp::ROOT_OF_UNITY`, `Fp::ROOT_OF_UNITY_INV` and `Fp::TWO_INV`. -/
def constsP : Fft.FieldConsts Fp := ⟨S, rootP, rootInvP, twoInvP⟩

/-- `Fq::S`, `Fq::ROOT_OF_UNITY`, `Fq::ROOT_OF_UNITY_INV` and `Fq::TWO_INV`. -/
def constsQ : Fft.FieldConsts Fq := ⟨S, rootQ, rootInvQ, twoInvQ⟩

/-- `PrimeField::to_repr` of both fields: the 32 bytes, least significant first, of the canonical
representative. -/
def reprBytes (v : ℕ) : List UInt8 := (List.range 32).map fun i => UInt8.ofNat (v / 2 ^ (8 * i))

/-- `low_u64`, crates/ragu_arithmetic/src/util.rs:18-26: the first eight bytes of `to_repr`. -/
def lowU64 (v : ℕ) : ℕ := ((reprBytes v).take 8).foldr (fun b acc => b.toNat + 256 * acc) 0

/-- `repr256!`, crates/ragu_macros/src/proc/repr.rs:7-28: the limbs of the literal, or the error for
a literal that does not fit. The loop takes the low 64 bits off until nothing is left. -/
def digits64 (n : ℕ) : List ℕ :=
  if h : n = 0 then [] else n % 2 ^ 64 :: digits64 (n / 2 ^ 64)
termination_by n
decreasing_by exact Nat.div_lt_self (Nat.pos_of_ne_zero h) (by decide)

def repr256 (n : ℕ) : Option (List ℕ) :=
  if 4 < (digits64 n).length then none
  else some (digits64 n ++ List.replicate (4 - (digits64 n).length) 0)

/-- `from_raw` on the four limbs, least significant first. -/
def fromRaw (m : ℕ) (limbs : List ℕ) : ZMod m := (limbs.foldr (fun d acc => d + 2 ^ 64 * acc) 0 : ℕ)

/-- `fp!` and `fq!`, crates/ragu_pasta/src/macros.rs:4-19. -/
def literal (m n : ℕ) : Option (ZMod m) := (repr256 n).map (fromRaw m)

end Ragu.Pasta
