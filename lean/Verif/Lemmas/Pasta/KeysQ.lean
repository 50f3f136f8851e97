/-
The keys of the roots of unity of order 2^13 of `Fq`, checked by the kernel.
-/
import Verif.Lemmas.Pasta.Keys

set_option maxRecDepth 100000
namespace Ragu.Pasta
open Ragu Ragu.Cert

/-- The root of unity of order 2^13. -/
def wQ : ℕ := powMod q rootQ 32 (2 ^ 19)

theorem keysQ : distinctBits 64 (keysFrom q wQ (2 ^ 13) 1) = true := by decide +kernel

theorem wQ_primitive : IsPrimitiveRoot (wQ : Fq) (2 ^ 13) := by
  have h := primitiveQ.pow (a := 2 ^ 19) (b := 2 ^ 13) (by norm_num) (by norm_num)
  rwa [powMod_cast (ZMod.natCast_self q) (k := 32) (by norm_num)] at h

theorem keysDistinctQ {k : ℕ} (hk : k ≤ 13) (a b : Fq) (ha : a ^ 2 ^ k = 1) (hb : b ^ 2 ^ k = 1)
    (he : lowU64 (a + a + (a + a) + a).val = lowU64 (b + b + (b + b) + b).val) : a = b := by
  have hd : 2 ^ 13 = 2 ^ k * 2 ^ (13 - k) := by rw [← pow_add]; congr 1; omega
  refine keys_of wQ_primitive keysQ a b ?_ ?_ he
  · rw [hd, pow_mul, ha, one_pow]
  · rw [hd, pow_mul, hb, one_pow]

end Ragu.Pasta
