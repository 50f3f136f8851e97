/-
The keys of the roots of unity of order 2^13 of `Fp`, checked by the kernel.
-/
import Verif.Lemmas.Pasta.Keys

set_option maxRecDepth 100000
namespace Ragu.Pasta
open Ragu Ragu.Cert

/-- The root of unity of order 2^13. -/
def wP : ℕ := powMod p rootP 32 (2 ^ 19)

theorem keysP : distinctBits 64 (keysFrom p wP (2 ^ 13) 1) = true := by decide +kernel

theorem wP_primitive : IsPrimitiveRoot (wP : Fp) (2 ^ 13) := by
  have h := primitiveP.pow (a := 2 ^ 19) (b := 2 ^ 13) (by norm_num) (by norm_num)
  rwa [powMod_cast (ZMod.natCast_self p) (k := 32) (by norm_num)] at h

theorem keysDistinctP {k : ℕ} (hk : k ≤ 13) (a b : Fp) (ha : a ^ 2 ^ k = 1) (hb : b ^ 2 ^ k = 1)
    (he : lowU64 (a + a + (a + a) + a).val = lowU64 (b + b + (b + b) + b).val) : a = b := by
  have hd : 2 ^ 13 = 2 ^ k * 2 ^ (13 - k) := by rw [← pow_add]; congr 1; omega
  refine keys_of wP_primitive keysP a b ?_ ?_ he
  · rw [hd, pow_mul, ha, one_pow]
  · rw [hd, pow_mul, hb, one_pow]

end Ragu.Pasta
